import Verif.Proofs.BoltStep
/-! What `Search` returns on a database that represents a list of nodes. -/
namespace Idm
open Dir

/-- `perm` from equal membership, for lists without repetition. -/
theorem perm_of_nodup {α : Type} : ∀ {l₁ l₂ : List α}, l₁.Nodup → l₂.Nodup → (∀ a, a ∈ l₁ ↔ a ∈ l₂) → l₁.Perm l₂
  | [], l₂, _, _, h => by
    cases l₂ with
    | nil => exact .nil
    | cons b t => exact absurd ((h b).2 List.mem_cons_self) (by simp)
  | a :: t, l₂, h1, h2, h => by
    obtain ⟨x, y, rfl⟩ := List.append_of_mem ((h a).1 List.mem_cons_self)
    have h1' := List.nodup_cons.1 h1
    have hm : (a :: (x ++ y)).Nodup := (List.perm_middle.nodup_iff).1 h2
    have hm' := List.nodup_cons.1 hm
    refine .trans (.cons a (perm_of_nodup h1'.2 hm'.2 ?_)) List.perm_middle.symm
    intro b
    constructor
    · intro hb
      have : b ≠ a := fun e => h1'.1 (e ▸ hb)
      have := (h b).1 (List.mem_cons_of_mem _ hb)
      rw [List.mem_append, List.mem_cons] at this
      rw [List.mem_append]
      rcases this with h | h | h
      · exact .inl h
      · exact absurd h ‹b ≠ a›
      · exact .inr h
    · intro hb
      have hne : b ≠ a := fun e => hm'.1 (e ▸ hb)
      rw [List.mem_append] at hb
      have := (h b).2 (by rw [List.mem_append, List.mem_cons]; rcases hb with h | h <;> simp [h])
      exact (List.mem_cons.1 this).resolve_left hne

variable {C : CaseEnv} {G : GobEnv} {base : DN} {db : Db} {ns : List INode}

theorem isBelow_iff {k n : DN} : isBelow k n = true ↔ ∃ r t, n = r :: t ∧ k <:+ t := by
  unfold isBelow
  rw [Bool.and_eq_true, decide_eq_true_eq, List.isSuffixOf_iff_suffix]
  constructor
  · rintro ⟨hl, s, rfl⟩
    cases s with
    | nil => simp at hl
    | cons r s => exact ⟨r, s ++ k, rfl, s, rfl⟩
  · rintro ⟨r, t, rfl, s, rfl⟩
    refine ⟨by simp; omega, r :: s, rfl⟩

theorem isBelow_of_isChild {k n : DN} (h : isChild k n = true) : isBelow k n = true := by
  obtain ⟨r, rfl⟩ := isChild_iff.1 h
  exact isBelow_iff.2 ⟨r, k, rfl, List.suffix_refl _⟩

theorem isBelow_trans {k c n : DN} (h : isChild k c = true) (h' : isBelow c n = true) : isBelow k n = true := by
  obtain ⟨r, rfl⟩ := isChild_iff.1 h
  obtain ⟨r', t, rfl, hs⟩ := isBelow_iff.1 h'
  exact isBelow_iff.2 ⟨r', t, rfl, (List.suffix_cons r k).trans hs⟩

theorem isBelow_length {k n : DN} (h : isBelow k n = true) : k.length < n.length := by
  unfold isBelow at h
  rw [Bool.and_eq_true, decide_eq_true_eq] at h
  exact h.1

/-- Two names of equal length above the same name are equal. -/
theorem above_unique {a b n : DN} (ha : a <:+ n) (hb : b <:+ n) (h : a.length = b.length) : a = b :=
  (List.suffix_of_suffix_length_le ha hb (Nat.le_of_eq h)).eq_of_length h

namespace Rel

/-- The nodes below `k` in the order `getSubtreeIDs` visits them. -/
def subtree (ns : List INode) : Nat → DN → List INode
  | 0, _ => []
  | fuel + 1, k =>
    let ch := ns.filter fun m => isChild k m.name
    ch ++ ch.flatMap fun c => subtree ns fuel c.name

theorem child_id_gt (R : Rel C G base db ns) {n c : INode} (hn : n ∈ ns) (hc : c ∈ ns) (h : isChild n.name c.name = true) :
    n.id < c.id := by
  obtain ⟨r, e⟩ := isChild_iff.1 h
  have hl := (R.forest n hn).1
  obtain ⟨m, hm, hmc, hlt⟩ := (R.forest c hc).2 (by rw [e, List.length_cons]; omega)
  obtain ⟨r', e'⟩ := isChild_iff.1 hmc
  rw [e] at e'
  rw [R.name_inj hn hm (List.cons.inj e').2]
  exact hlt

/-- A node strictly below `k` is, or lies below, a child of `k`. -/
theorem exists_child_above (R : Rel C G base db ns) {k : DN} (hk : base.length ≤ k.length) :
    ∀ (l : Nat) (m : INode), m.name.length = l → m ∈ ns → isBelow k m.name = true →
      ∃ c ∈ ns, isChild k c.name = true ∧ (c = m ∨ isBelow c.name m.name = true) := by
  intro l
  induction l with
  | zero =>
    intro m hl hm h
    have := isBelow_length h
    omega
  | succ l ih =>
    intro m hl hm h
    obtain ⟨r, t, e, hs⟩ := isBelow_iff.1 h
    have hlt : base.length < m.name.length := Nat.lt_of_le_of_lt hk (isBelow_length h)
    obtain ⟨p, hp, hpc, -⟩ := (R.forest m hm).2 hlt
    obtain ⟨r', e'⟩ := isChild_iff.1 hpc
    have hpt : p.name = t := by rw [e] at e'; exact (List.cons.inj e').2.symm
    by_cases hkt : k = t
    · exact ⟨m, hm, isChild_iff.2 ⟨r, by rw [hkt]; exact e⟩, .inl rfl⟩
    · have hkp : isBelow k p.name = true := by
        rw [hpt]
        unfold isBelow
        rw [Bool.and_eq_true, decide_eq_true_eq, List.isSuffixOf_iff_suffix]
        refine ⟨Nat.lt_of_le_of_ne hs.length_le fun h => hkt (hs.eq_of_length h), hs⟩
      obtain ⟨c, hc, hkc, h⟩ := ih p (by rw [e', List.length_cons] at hl; omega) hp hkp
      refine ⟨c, hc, hkc, .inr ?_⟩
      rw [isBelow_iff]
      refine ⟨r', p.name, e', ?_⟩
      rcases h with rfl | h
      · exact List.suffix_refl _
      · obtain ⟨r2, t2, e2, hs2⟩ := isBelow_iff.1 h
        rw [e2]; exact hs2.trans (List.suffix_cons _ _)

theorem mem_subtree_sound : ∀ (fuel : Nat) (k : DN) (m : INode), m ∈ subtree ns fuel k → m ∈ ns ∧ isBelow k m.name = true := by
  intro fuel
  induction fuel with
  | zero => intro k m h; simp [subtree] at h
  | succ fuel ih =>
    intro k m h
    simp only [subtree, List.mem_append, List.mem_filter, List.mem_flatMap] at h
    rcases h with ⟨h1, h2⟩ | ⟨c, ⟨hc, hkc⟩, hm⟩
    · exact ⟨h1, isBelow_of_isChild h2⟩
    · obtain ⟨h1, h2⟩ := ih _ _ hm
      exact ⟨h1, isBelow_trans hkc h2⟩

theorem mem_subtree_complete (R : Rel C G base db ns) : ∀ (fuel : Nat) (n m : INode), n ∈ ns → db.seq < n.id + fuel → m ∈ ns →
    isBelow n.name m.name = true → m ∈ subtree ns fuel n.name := by
  intro fuel
  induction fuel with
  | zero => intro n m hn h; have := (R.pos n hn).2; omega
  | succ fuel ih =>
    intro n m hn hf hm hb
    obtain ⟨c, hc, hnc, h⟩ := R.exists_child_above (R.forest n hn).1 _ m rfl hm hb
    simp only [subtree, List.mem_append, List.mem_filter, List.mem_flatMap]
    rcases h with rfl | h
    · exact .inl ⟨hc, hnc⟩
    · exact .inr ⟨c, ⟨hc, hnc⟩, ih c m hc (by have := R.child_id_gt hn hc hnc; omega) hm h⟩

theorem nodes_nodup (R : Rel C G base db ns) : ns.Nodup := by
  have := R.nodup
  rw [List.Nodup, List.pairwise_map] at this
  exact this.imp fun h e => h (congrArg INode.name e)

theorem subtree_nodup (R : Rel C G base db ns) : ∀ (fuel : Nat) (k : DN), (subtree ns fuel k).Nodup := by
  intro fuel
  induction fuel with
  | zero => intro k; simp [subtree]
  | succ fuel ih =>
    intro k
    simp only [subtree]
    rw [List.nodup_append]
    have hch : (ns.filter fun m => isChild k m.name).Nodup := R.nodes_nodup.sublist List.filter_sublist
    refine ⟨hch, ?_, ?_⟩
    · rw [List.Nodup, List.pairwise_flatMap]
      refine ⟨fun c _ => ih c.name, ?_⟩
      refine hch.imp_of_mem ?_
      intro a b ha hb hab x hx y hy e
      subst e
      obtain ⟨hx1, hx2⟩ := mem_subtree_sound _ _ _ hx
      obtain ⟨-, hy2⟩ := mem_subtree_sound _ _ _ hy
      obtain ⟨ra, ea⟩ := isChild_iff.1 (List.mem_filter.1 ha).2
      obtain ⟨rb, eb⟩ := isChild_iff.1 (List.mem_filter.1 hb).2
      have hsa : a.name <:+ x.name := by
        obtain ⟨r, t, e, h⟩ := isBelow_iff.1 hx2; rw [e]; exact h.trans (List.suffix_cons _ _)
      have hsb : b.name <:+ x.name := by
        obtain ⟨r, t, e, h⟩ := isBelow_iff.1 hy2; rw [e]; exact h.trans (List.suffix_cons _ _)
      have := above_unique hsa hsb (by rw [ea, eb]; rfl)
      exact hab (R.name_inj (List.mem_filter.1 ha).1 (List.mem_filter.1 hb).1 this)
    · intro a ha b hb e
      subst e
      obtain ⟨c, hc, hm⟩ := List.mem_flatMap.1 hb
      obtain ⟨r, e⟩ := isChild_iff.1 (List.mem_filter.1 ha).2
      obtain ⟨r', e'⟩ := isChild_iff.1 (List.mem_filter.1 hc).2
      have := isBelow_length (mem_subtree_sound _ _ _ hm).2
      rw [e, e'] at this
      simp at this

theorem subtree_perm (R : Rel C G base db ns) {n : INode} (hn : n ∈ ns) {fuel : Nat} (hf : db.seq < n.id + fuel) :
    (subtree ns fuel n.name).Perm (ns.filter fun m => isBelow n.name m.name) := by
  refine perm_of_nodup (R.subtree_nodup _ _) (R.nodes_nodup.sublist List.filter_sublist) ?_
  intro m
  rw [List.mem_filter]
  exact ⟨mem_subtree_sound _ _ _, fun h => R.mem_subtree_complete fuel n m hn hf h.1 h.2⟩

/-- Every element has its parent in `S` or earlier in the list. -/
def ParentsFirst (S : List INode) : List INode → Prop
  | [] => True
  | n :: l => (∃ p ∈ S, isChild p.name n.name = true) ∧ ParentsFirst (n :: S) l

theorem ParentsFirst.mono : ∀ {l S T : List INode}, (∀ x ∈ S, x ∈ T) → ParentsFirst S l → ParentsFirst T l
  | [], _, _, _, _ => trivial
  | n :: l, S, T, h, ⟨⟨p, hp, hc⟩, h2⟩ =>
    ⟨⟨p, h p hp, hc⟩, mono (fun x hx => by
      rcases List.mem_cons.1 hx with rfl | hx
      · exact List.mem_cons_self
      · exact List.mem_cons_of_mem _ (h x hx)) h2⟩

theorem ParentsFirst.append : ∀ {l l' S : List INode}, ParentsFirst S l → ParentsFirst (l ++ S) l' → ParentsFirst S (l ++ l')
  | [], _, _, _, h => h
  | n :: l, l', S, ⟨h1, h2⟩, h' => ⟨h1, append h2 (h'.mono (by
      intro x hx
      simp only [List.cons_append, List.mem_cons, List.mem_append] at hx ⊢
      rcases hx with h | h | h <;> simp [h]))⟩

theorem ParentsFirst.split {l S : List INode} (h : ParentsFirst S l) {xs ys : List INode} {n : INode} (e : l = xs ++ n :: ys) :
    ∃ p ∈ S ++ xs, isChild p.name n.name = true := by
  induction xs generalizing l S with
  | nil => subst e; obtain ⟨⟨p, hp, hc⟩, -⟩ := h; exact ⟨p, by simpa using hp, hc⟩
  | cons x xs ih =>
    subst e
    obtain ⟨p, hp, hc⟩ := ih h.2 rfl
    refine ⟨p, ?_, hc⟩
    simp only [List.mem_append, List.mem_cons] at hp ⊢
    rcases hp with (h | h) | h <;> simp [h]

theorem ParentsFirst.all {p : INode} : ∀ {l S : List INode}, p ∈ S → (∀ n ∈ l, isChild p.name n.name = true) → ParentsFirst S l
  | [], _, _, _ => trivial
  | n :: l, _, hp, h => ⟨⟨p, hp, h n List.mem_cons_self⟩,
      all (List.mem_cons_of_mem _ hp) fun m hm => h m (List.mem_cons_of_mem _ hm)⟩

theorem ParentsFirst.flatMap {f : INode → List INode} : ∀ {cs S : List INode}, (∀ c ∈ cs, ParentsFirst S (f c)) →
    ParentsFirst S (cs.flatMap f)
  | [], _, _ => trivial
  | c :: cs, S, h => by
    rw [List.flatMap_cons]
    refine append (h c List.mem_cons_self) ?_
    exact (flatMap (S := S) fun c' hc' => h c' (List.mem_cons_of_mem _ hc')).mono fun x hx => List.mem_append.2 (.inr hx)

theorem subtree_parentsFirst (ns : List INode) : ∀ (fuel : Nat) (n : INode) (S : List INode), n ∈ S →
    ParentsFirst S (subtree ns fuel n.name) := by
  intro fuel
  induction fuel with
  | zero => intro n S _; trivial
  | succ fuel ih =>
    intro n S hn
    simp only [subtree]
    refine ParentsFirst.append (ParentsFirst.all hn fun m hm => (List.mem_filter.1 hm).2) ?_
    refine ParentsFirst.flatMap fun c hc => ih c _ (List.mem_append.2 (.inl hc))

/-! ## Execution -/

theorem run_appendAll {f : Nat → Prog (List Nat)} {g : INode → List Nat} : ∀ {cs : List INode},
    (∀ c ∈ cs, (f c.id).run db = .ok (g c, db)) → (appendAll f (cs.map (·.id))).run db = .ok (cs.flatMap g, db)
  | [], _ => rfl
  | c :: cs, h => by
    simp only [List.map_cons, appendAll, Prog.run_bind, h c List.mem_cons_self, Res.ok_bind,
      run_appendAll (cs := cs) fun c' hc' => h c' (List.mem_cons_of_mem _ hc'), Prog.run_ret, List.flatMap_cons]

theorem run_subtree (R : Rel C G base db ns) : ∀ (fuel : Nat) (n : INode), n ∈ ns → db.seq < n.id + fuel →
    (getSubtreeIDs fuel n.id).run db = .ok ((subtree ns fuel n.name).map (·.id), db) := by
  intro fuel
  induction fuel with
  | zero => intro n hn h; have := (R.pos n hn).2; omega
  | succ fuel ih =>
    intro n hn hf
    have := run_appendAll (f := getSubtreeIDs fuel) (g := fun c => (subtree ns fuel c.name).map (·.id)) (db := db)
      (cs := ns.filter fun m => isChild n.name m.name) (by
        intro c hc
        have hc := List.mem_filter.1 hc
        exact ih c hc.1 (by have := R.child_id_gt hn hc.1 hc.2; omega))
    simp only [getSubtreeIDs, Prog.run_bind, R.run_getChildren hn, Res.ok_bind, childIds, this, Prog.run_ret, subtree,
      List.map_append, List.map_flatMap]

theorem run_readEntries (hG : G.Lawful) (R : Rel C G base db ns) : ∀ (l : List INode) (acc : List Entry), (∀ n ∈ l, n ∈ ns) →
    (readEntries G acc (l.map (·.id))).run db = .ok ((acc ++ l.map (·.entry), none), db) := by
  intro l
  induction l with
  | nil => intro acc _; simp [readEntries]
  | cons n l ih =>
    intro acc h
    have he := (R.id2entry (idToBytes n.id) (G.enc n.entry)).2 ⟨n, h n List.mem_cons_self, rfl, rfl⟩
    simp only [List.map_cons, readEntries, Prog.run_bind, Prog.run_get!, Res.ok_bind, he, Option.getD_some, hG.dec_enc]
    rw [ih _ fun m hm => h m (List.mem_cons_of_mem _ hm)]
    simp

/-- The nodes a search visits. -/
def visited (ns : List INode) (fuel : Nat) (n : INode) (scope : Nat) : List INode :=
  if scope = scopeBase then [n]
  else if scope = scopeOne then ns.filter fun m => isChild n.name m.name
  else if scope = scopeSub then n :: subtree ns fuel n.name
  else []

theorem run_search (hG : G.Lawful) (R : Rel C G base db ns) {n : INode} (hn : n ∈ ns) {fuel : Nat} (hf : db.seq < n.id + fuel)
    (scope : Nat) :
    (searchBody G fuel (render n.name) scope).run db = .ok (((visited ns fuel n scope).map (·.entry), none), db) := by
  have hp := Nat.ne_of_gt (R.pos n hn).1
  simp only [searchBody, Prog.run_bind, R.run_getID hn, Res.ok_bind, hp, if_false, visited]
  split
  · exact R.run_readEntries hG [n] [] (by simpa using hn)
  · split
    · simp only [Prog.run_bind, R.run_getChildren hn, Res.ok_bind, childIds]
      exact R.run_readEntries hG _ [] fun m hm => (List.mem_filter.1 hm).1
    · split
      · simp only [Prog.run_bind, R.run_subtree fuel n hn hf, Res.ok_bind]
        have := R.run_readEntries hG (n :: subtree ns fuel n.name) [] (by
          intro m hm
          rcases List.mem_cons.1 hm with rfl | hm
          · exact hn
          · exact (mem_subtree_sound _ _ _ hm).1)
        simpa using this
      · rfl

theorem run_search_none (R : Rel C G base db ns) {k : DN} (hk : NameOk k) (h : ¬ ∃ n ∈ ns, n.name = k) (fuel scope : Nat) :
    (searchBody G fuel (render k) scope).run db = .ok (([], some .other), db) := by
  simp [searchBody, Prog.run_bind, R.run_getID_none hk h]

end Rel
end Idm
