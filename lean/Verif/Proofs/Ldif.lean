import Verif.Spec.Ldif
/-!
# Facts about loading, indexes, the producer and the search loop of the LDIF handler
-/
namespace Idm

/-! ## Loading -/

/-- The records that are loaded, with the entries they become. -/
def numbered (C : CaseEnv) : Nat → List (Option Entry) → List (LEntry × Entry)
  | _, [] => []
  | n, none :: rs => numbered C n rs
  | n, some r :: rs => (buildEntry C n r, r) :: numbered C (n + 1) rs

theorem numbered_snd (C : CaseEnv) : ∀ (recs : List (Option Entry)) (n : Nat), (numbered C n recs).map (·.2) = recs.filterMap id
  | [], _ => rfl
  | none :: rs, n => by simp [numbered, numbered_snd C rs n]
  | some r :: rs, n => by simp [numbered, numbered_snd C rs (n + 1)]

theorem numbered_build (C : CaseEnv) : ∀ (recs : List (Option Entry)) (n : Nat) (p), p ∈ numbered C n recs →
    ∃ i, n ≤ i ∧ p.1 = buildEntry C i p.2
  | [], _, p, h => by simp [numbered] at h
  | none :: rs, n, p, h => by simp only [numbered] at h; exact numbered_build C rs n p h
  | some r :: rs, n, p, h => by
    simp only [numbered, List.mem_cons] at h
    rcases h with rfl | h
    · exact ⟨n, Nat.le_refl _, rfl⟩
    · obtain ⟨i, hi, e⟩ := numbered_build C rs (n + 1) p h
      exact ⟨i, by omega, e⟩

theorem numbered_dn (C : CaseEnv) (recs : List (Option Entry)) (n : Nat) :
    (numbered C n recs).map (fun p => p.1.dn) = (recs.filterMap id).map fun r => C.lower r.dn := by
  rw [← numbered_snd C recs n, List.map_map]
  apply List.map_congr_left
  intro p hp
  obtain ⟨i, -, e⟩ := numbered_build C recs n p hp
  simp [e, buildEntry]

theorem numbered_ptr (C : CaseEnv) : ∀ (recs : List (Option Entry)) (n : Nat), ((numbered C n recs).map fun p => p.1.ptr).Nodup
  | [], _ => by simp [numbered]
  | none :: rs, n => by simp only [numbered]; exact numbered_ptr C rs n
  | some r :: rs, n => by
    simp only [numbered, List.map_cons, List.nodup_cons]
    refine ⟨?_, numbered_ptr C rs (n + 1)⟩
    intro h
    obtain ⟨p, hp, e⟩ := List.mem_map.1 h
    obtain ⟨i, hi, e'⟩ := numbered_build C rs (n + 1) p hp
    rw [e'] at e
    simp only [buildEntry] at e
    omega

/-- The index calls for all records. -/
def indexAll (C : CaseEnv) (reg : Reg) (ns : List (LEntry × Entry)) : Reg :=
  ns.foldl (fun reg p => indexAttrs C p.1 p.2.attrs reg) reg

theorem loadRecs_spec (C : CaseEnv) : ∀ (recs : List (Option Entry)) (n : Nat) (m m' : LMem), (m.tree.map (·.dn)).Nodup →
    (loadRecs C n m recs = some m' ↔
      ((m.tree ++ (numbered C n recs).map (·.1)).map (·.dn)).Nodup ∧
      m' = ⟨m.tree ++ (numbered C n recs).map (·.1), indexAll C m.reg (numbered C n recs)⟩)
  | [], n, m, m', h => by
    simp only [loadRecs, numbered, indexAll, List.map_nil, List.append_nil, List.foldl_nil, h, true_and, Option.some.injEq]
    exact eq_comm
  | none :: rs, n, m, m', h => by
    simp only [loadRecs, numbered]
    exact loadRecs_spec C rs n m m' h
  | some r :: rs, n, m, m', h => by
    simp only [loadRecs, numbered]
    by_cases hd : m.tree.any (fun x => decide (x.dn = (buildEntry C n r).dn)) = true
    · rw [if_pos hd]
      simp only [reduceCtorEq, false_iff, not_and]
      intro hn
      exfalso
      simp only [List.any_eq_true, decide_eq_true_eq] at hd
      obtain ⟨x, hx, e⟩ := hd
      simp only [List.map_append, List.map_cons] at hn
      rw [List.nodup_append] at hn
      exact hn.2.2 x.dn (List.mem_map.2 ⟨x, hx, rfl⟩) (buildEntry C n r).dn (by simp) e
    · rw [if_neg hd]
      have h' : ((m.tree ++ [buildEntry C n r]).map (·.dn)).Nodup := by
        simp only [List.map_append, List.map_cons, List.map_nil, List.nodup_append]
        refine ⟨h, by simp, ?_⟩
        intro a ha b hb
        simp only [List.mem_singleton] at hb
        subst hb
        rintro rfl
        obtain ⟨x, hx, e⟩ := List.mem_map.1 ha
        exact hd (List.any_eq_true.2 ⟨x, hx, by simp [e]⟩)
      rw [loadRecs_spec C rs (n + 1) _ m' h']
      simp [indexAll]

/-- What the events of an index are: for every attribute of the name, keys computed from its values. -/
def idxEvents (C : CaseEnv) (n : Str) (g : Attr → List Str) (ns : List (LEntry × Entry)) : Multi :=
  ns.flatMap fun p => p.2.attrs.flatMap fun a => if C.lower a.name = n then (g a).map fun k => (k, p.1) else []

theorem indexAttrs_none (C : CaseEnv) (e : LEntry) (n : Str) (k : IdxKind) : ∀ (as : List Attr) (reg : Reg), reg n k = none →
    indexAttrs C e as reg n k = none
  | [], reg, h => h
  | a :: as, reg, h => by
    simp only [indexAttrs]
    apply indexAttrs_none C e n k as
    simp only [Reg.add]
    repeat' split
    all_goals simp_all

theorem indexAttrs_eq (C : CaseEnv) (e : LEntry) (n : Str) : ∀ (as : List Attr) (reg : Reg) (m : Multi), reg n .eq = some (.map m) →
    indexAttrs C e as reg n .eq =
      some (.map (m ++ as.flatMap fun a => if C.lower a.name = n then (a.vals.map C.lower).map fun k => (k, e) else []))
  | [], reg, m, h => by simp [indexAttrs, h]
  | a :: as, reg, m, h => by
    simp only [indexAttrs]
    by_cases hn : C.lower a.name = n
    · rw [indexAttrs_eq C e n as _ (m ++ (a.vals.map C.lower).map fun k => (k, e))]
      · simp [hn]
      · simp [Reg.add, hn, h, Idx.add, Multi.add]
    · rw [indexAttrs_eq C e n as _ m]
      · simp [hn]
      · simp [Reg.add, Ne.symm hn, h]

theorem indexAttrs_pres (C : CaseEnv) (e : LEntry) (n : Str) : ∀ (as : List Attr) (reg : Reg) (m : Multi), reg n .pres = some (.map m) →
    indexAttrs C e as reg n .pres =
      some (.map (m ++ as.flatMap fun a => if C.lower a.name = n then [C.lower []].map fun k => (k, e) else []))
  | [], reg, m, h => by simp [indexAttrs, h]
  | a :: as, reg, m, h => by
    simp only [indexAttrs]
    by_cases hn : C.lower a.name = n
    · rw [indexAttrs_pres C e n as _ (m ++ [(C.lower [], e)])]
      · simp [hn]
      · simp [Reg.add, hn, h, Idx.add, Multi.add]
    · rw [indexAttrs_pres C e n as _ m]
      · simp [hn]
      · simp [Reg.add, Ne.symm hn, h]

theorem indexAttrs_sub (C : CaseEnv) (e : LEntry) (n : Str) : ∀ (as : List Attr) (reg : Reg) (p r s : Multi),
    reg n .sub = some (.sub p r s) →
    indexAttrs C e as reg n .sub =
      some (.sub (p ++ as.flatMap fun a => if C.lower a.name = n then [C.lower []].map fun k => (k, e) else [])
        (r ++ as.flatMap fun a => if C.lower a.name = n then a.vals.map fun k => (k, e) else [])
        (s ++ as.flatMap fun a => if C.lower a.name = n then a.vals.map fun k => (k, e) else []))
  | [], reg, p, r, s, h => by simp [indexAttrs, h]
  | a :: as, reg, p, r, s, h => by
    simp only [indexAttrs]
    by_cases hn : C.lower a.name = n
    · rw [indexAttrs_sub C e n as _ (p ++ [(C.lower [], e)]) (r ++ a.vals.map fun k => (k, e)) (s ++ a.vals.map fun k => (k, e))]
      · simp [hn]
      · simp [Reg.add, hn, h, Idx.add, Multi.add]
    · rw [indexAttrs_sub C e n as _ p r s]
      · simp [hn]
      · simp [Reg.add, Ne.symm hn, h]

theorem indexAll_none (C : CaseEnv) (n : Str) (k : IdxKind) : ∀ (ns : List (LEntry × Entry)) (reg : Reg), reg n k = none →
    indexAll C reg ns n k = none
  | [], _, h => h
  | p :: ns, reg, h => indexAll_none C n k ns _ (indexAttrs_none C p.1 n k p.2.attrs reg h)

theorem indexAll_eq (C : CaseEnv) (n : Str) : ∀ (ns : List (LEntry × Entry)) (reg : Reg) (m : Multi), reg n .eq = some (.map m) →
    indexAll C reg ns n .eq = some (.map (m ++ idxEvents C n (fun a => a.vals.map C.lower) ns))
  | [], _, m, h => by simp [indexAll, idxEvents, h]
  | p :: ns, reg, m, h => by
    have := indexAll_eq C n ns _ _ (indexAttrs_eq C p.1 n p.2.attrs reg m h)
    simp only [indexAll, List.foldl_cons] at this ⊢
    rw [this]
    simp [idxEvents]

theorem indexAll_pres (C : CaseEnv) (n : Str) : ∀ (ns : List (LEntry × Entry)) (reg : Reg) (m : Multi), reg n .pres = some (.map m) →
    indexAll C reg ns n .pres = some (.map (m ++ idxEvents C n (fun _ => [C.lower []]) ns))
  | [], _, m, h => by simp [indexAll, idxEvents, h]
  | p :: ns, reg, m, h => by
    have := indexAll_pres C n ns _ _ (indexAttrs_pres C p.1 n p.2.attrs reg m h)
    simp only [indexAll, List.foldl_cons] at this ⊢
    rw [this]
    simp [idxEvents]

theorem indexAll_sub (C : CaseEnv) (n : Str) : ∀ (ns : List (LEntry × Entry)) (reg : Reg) (p r s : Multi), reg n .sub = some (.sub p r s) →
    indexAll C reg ns n .sub = some (.sub (p ++ idxEvents C n (fun _ => [C.lower []]) ns) (r ++ idxEvents C n (·.vals) ns)
      (s ++ idxEvents C n (·.vals) ns))
  | [], _, p, r, s, h => by simp [indexAll, idxEvents, h]
  | q :: ns, reg, p, r, s, h => by
    have := indexAll_sub C n ns _ _ _ _ (indexAttrs_sub C q.1 n q.2.attrs reg p r s h)
    simp only [indexAll, List.foldl_cons] at this ⊢
    rw [this]
    simp [idxEvents]

/-- The index of a name and kind after loading. -/
def idxOf (C : CaseEnv) (n : Str) (ns : List (LEntry × Entry)) : IdxKind → Idx
  | .eq => .map (idxEvents C n (fun a => a.vals.map C.lower) ns)
  | .pres => .map (idxEvents C n (fun _ => [C.lower []]) ns)
  | .sub => .sub (idxEvents C n (fun _ => [C.lower []]) ns) (idxEvents C n (·.vals) ns) (idxEvents C n (·.vals) ns)

/-- Loading succeeds exactly if the lower-cased DNs are different; the tree has the entries and every configured index all its events. -/
theorem treeFromLDIF_spec (C : CaseEnv) (idx : IdxAttrs) (recs : List (Option Entry)) :
    ((∃ m, treeFromLDIF C idx recs = some m) ↔ ((recs.filterMap id).map fun r => C.lower r.dn).Nodup) ∧
    ∀ m, treeFromLDIF C idx recs = some m → m.tree = (numbered C 0 recs).map (·.1) ∧ ((numbered C 0 recs).map fun p => p.1.dn).Nodup ∧
      ∀ n k, m.reg n k = if indexed C idx n k then some (idxOf C n (numbered C 0 recs) k) else none := by
  have h := fun m' => loadRecs_spec C recs 0 ⟨[], newReg C idx⟩ m' (by simp)
  simp only [List.nil_append, List.map_map] at h
  have hdn := numbered_dn C recs 0
  constructor
  · constructor
    · rintro ⟨m, hm⟩
      have := ((h m).1 hm).1
      rw [← hdn]
      exact this
    · intro hn
      exact ⟨_, (h _).2 ⟨by rw [← hdn] at hn; exact hn, rfl⟩⟩
  · intro m hm
    obtain ⟨h1, h2⟩ := (h m).1 hm
    subst h2
    refine ⟨rfl, h1, ?_⟩
    intro n k
    dsimp only
    by_cases hi : indexed C idx n k = true
    · rw [if_pos hi]
      cases k with
      | eq => rw [indexAll_eq C n _ _ []]; simp [idxOf]; simp [newReg, hi]
      | pres => rw [indexAll_pres C n _ _ []]; simp [idxOf]; simp [newReg, hi]
      | sub => rw [indexAll_sub C n _ _ [] [] []]; simp [idxOf]; simp [newReg, hi]
    · rw [if_neg hi, indexAll_none]
      simp [newReg, hi]

/-! ## Index look-ups -/

theorem Multi.mem_get {m : Multi} {k : Str} {x : LEntry} : x ∈ m.get k ↔ (k, x) ∈ m := by
  simp only [Multi.get, List.mem_map, List.mem_filter, decide_eq_true_eq]
  constructor
  · rintro ⟨p, ⟨h1, h2⟩, rfl⟩
    rw [← h2]; exact h1
  · intro h
    exact ⟨_, ⟨h, rfl⟩, rfl⟩

theorem Multi.mem_keys {m : Multi} {k : Str} : k ∈ m.keys ↔ ∃ x, (k, x) ∈ m := by
  simp [Multi.keys, List.mem_eraseDups]

theorem mem_idxEvents {C : CaseEnv} {n : Str} {g : Attr → List Str} {ns : List (LEntry × Entry)} {k : Str} {x : LEntry} :
    (k, x) ∈ idxEvents C n g ns ↔ ∃ p ∈ ns, p.1 = x ∧ ∃ a ∈ p.2.attrs, C.lower a.name = n ∧ k ∈ g a := by
  simp only [idxEvents, List.mem_flatMap]
  constructor
  · rintro ⟨p, hp, a, ha, h⟩
    split at h
    · rename_i hn
      simp only [List.mem_map, Prod.mk.injEq] at h
      obtain ⟨k', hk, rfl, rfl⟩ := h
      exact ⟨p, hp, rfl, a, ha, hn, hk⟩
    · simp at h
  · rintro ⟨p, hp, rfl, a, ha, hn, hk⟩
    refine ⟨p, hp, a, ha, ?_⟩
    rw [if_pos hn]
    exact List.mem_map.2 ⟨k, hk, rfl⟩

/-- What a look-up in an index finds. -/
def Hit (C : CaseEnv) (kind : IdxKind) (value : Str) (tag : Option Nat) (a : Attr) : Prop :=
  match kind with
  | .eq => C.lower value ∈ a.vals.map C.lower
  | .pres => C.lower value = C.lower []
  | .sub => tag = some subAny ∨ (tag = some subInitial ∧ ∃ v ∈ a.vals, hasPrefix v value = true) ∨
      (tag = some subFinal ∧ ∃ v ∈ a.vals, hasSuffix v value = true)

/-- The look-up is one the indexes answer. -/
def TagOk (kind : IdxKind) (tag : Option Nat) : Prop :=
  kind = .sub → tag = some subAny ∨ tag = some subInitial ∨ tag = some subFinal

theorem idxLoad_spec {C : CaseEnv} {W : WalkOrd} (hW : W.Lawful) (n : Str) (ns : List (LEntry × Entry)) (kind : IdxKind) (value : Str)
    (tag : Option Nat) (ht : TagOk kind tag) :
    ∃ l, (idxOf C n ns kind).load C W value tag = some l ∧
      ∀ x, x ∈ l ↔ ∃ p ∈ ns, p.1 = x ∧ ∃ a ∈ p.2.attrs, C.lower a.name = n ∧ Hit C kind value tag a := by
  cases kind with
  | eq => exact ⟨_, rfl, fun x => by rw [Multi.mem_get, mem_idxEvents]; simp [Hit]⟩
  | pres => exact ⟨_, rfl, fun x => by rw [Multi.mem_get, mem_idxEvents]; simp [Hit]⟩
  | sub =>
    rcases ht rfl with rfl | rfl | rfl
    · exact ⟨_, rfl, fun x => by rw [Multi.mem_get, mem_idxEvents]; simp [Hit]⟩
    · refine ⟨_, rfl, fun x => ?_⟩
      rw [List.mem_flatMap]
      simp only [(hW.radix _).mem_iff, List.mem_filter, Multi.mem_keys, Multi.mem_get, mem_idxEvents, Hit, subInitial, subAny, subFinal,
        Option.some.injEq]
      constructor
      · rintro ⟨k, ⟨-, hk⟩, p, hp, e, a, ha, hn, hv⟩
        exact ⟨p, hp, e, a, ha, hn, Or.inr (Or.inl ⟨trivial, k, hv, hk⟩)⟩
      · rintro ⟨p, hp, e, a, ha, hn, (h | ⟨-, k, hv, hk⟩ | ⟨h, -⟩)⟩
        · cases h
        · exact ⟨k, ⟨⟨x, p, hp, e, a, ha, hn, hv⟩, hk⟩, p, hp, e, a, ha, hn, hv⟩
        · cases h
    · refine ⟨_, rfl, fun x => ?_⟩
      rw [List.mem_flatMap]
      simp only [(hW.suffix _).mem_iff, List.mem_filter, Multi.mem_keys, Multi.mem_get, mem_idxEvents, Hit, subInitial, subAny, subFinal,
        Option.some.injEq]
      constructor
      · rintro ⟨k, ⟨-, hk⟩, p, hp, e, a, ha, hn, hv⟩
        exact ⟨p, hp, e, a, ha, hn, Or.inr (Or.inr ⟨trivial, k, hv, hk⟩)⟩
      · rintro ⟨p, hp, e, a, ha, hn, (h | ⟨h, -⟩ | ⟨-, k, hv, hk⟩)⟩
        · cases h
        · cases h
        · exact ⟨k, ⟨⟨x, p, hp, e, a, ha, hn, hv⟩, hk⟩, p, hp, e, a, ha, hn, hv⟩

/-- The union of look-ups: either one of them has no index, or the result has exactly the hits. -/
theorem loadAll_spec {C : CaseEnv} {W : WalkOrd} (hW : W.Lawful) {idx : IdxAttrs} {ns : List (LEntry × Entry)} {reg : Reg}
    (hr : ∀ n k, reg n k = if indexed C idx n k then some (idxOf C n ns k) else none) :
    ∀ fs : List IdxReq, (∀ f ∈ fs, TagOk f.kind f.tag) →
      ((∃ f ∈ fs, indexed C idx (C.lower f.attr) f.kind = false) ∧ loadAll C W reg fs = none) ∨
      ((∀ f ∈ fs, indexed C idx (C.lower f.attr) f.kind = true) ∧ ∃ l, loadAll C W reg fs = some l ∧
        ∀ x, x ∈ l ↔ ∃ f ∈ fs, ∃ p ∈ ns, p.1 = x ∧ ∃ a ∈ p.2.attrs, C.lower a.name = C.lower f.attr ∧ Hit C f.kind f.value f.tag a)
  | [], _ => by right; exact ⟨by simp, [], rfl, by simp⟩
  | f :: fs, ht => by
    have ih := loadAll_spec hW hr fs fun g hg => ht g (by simp [hg])
    by_cases hi : indexed C idx (C.lower f.attr) f.kind = true
    · obtain ⟨l, hl, hm⟩ := idxLoad_spec (C := C) hW (C.lower f.attr) ns f.kind f.value f.tag (ht f (by simp))
      have h1 : reg.load C W f.attr f.kind f.value f.tag = some l := by
        simp [Reg.load, hr, hi, hl]
      rcases ih with ⟨⟨g, hg, hgi⟩, h2⟩ | ⟨h2, l', hl', hm'⟩
      · left
        exact ⟨⟨g, by simp [hg], hgi⟩, by simp [loadAll, h1, h2]⟩
      · right
        refine ⟨by simpa [hi] using h2, l ++ l', by simp [loadAll, h1, hl'], ?_⟩
        intro x
        simp only [List.mem_append, hm, hm', List.mem_cons, exists_eq_or_imp]
    · left
      refine ⟨⟨f, by simp, by simpa using hi⟩, ?_⟩
      simp [loadAll, Reg.load, hr, hi]

/-! ## The producer -/

theorem treeGet_mem {tree : List LEntry} (h : (tree.map (·.dn)).Nodup) {x : LEntry} (hx : x ∈ tree) : treeGet tree x.dn = some x := by
  induction tree with
  | nil => simp at hx
  | cons y ys ih =>
    simp only [List.map_cons, List.nodup_cons] at h
    rcases List.mem_cons.1 hx with rfl | hx
    · simp [treeGet]
    · have : y.dn ≠ x.dn := fun e => h.1 (e ▸ List.mem_map.2 ⟨x, hx, rfl⟩)
      simp only [treeGet, List.find?_cons, this, decide_false]
      exact ih h.2 hx

theorem treeGet_some {tree : List LEntry} {dn : Str} {x : LEntry} (h : treeGet tree dn = some x) : x ∈ tree ∧ x.dn = dn :=
  ⟨List.mem_of_find?_eq_some h, by simpa using List.find?_some h⟩

theorem treeWalk_spec {W : WalkOrd} (hW : W.Lawful) {tree : List LEntry} (h : (tree.map (·.dn)).Nodup) (sfx : Str) :
    ((treeWalk W tree sfx).map (·.dn)).Nodup ∧ ∀ x, x ∈ treeWalk W tree sfx ↔ x ∈ tree ∧ hasSuffix x.dn sfx = true := by
  have hkeys : ((tree.map (·.dn)).filter (hasSuffix · sfx)).Nodup := h.filter _
  have hperm := hW.suffix ((tree.map (·.dn)).filter (hasSuffix · sfx))
  have hmap : (treeWalk W tree sfx).map (·.dn) = W.suffix ((tree.map (·.dn)).filter (hasSuffix · sfx)) := by
    have key : ∀ ks : List Str, (∀ k ∈ ks, k ∈ tree.map (·.dn)) → (ks.filterMap (treeGet tree)).map (·.dn) = ks := by
      intro ks hks
      induction ks with
      | nil => rfl
      | cons k ks ih =>
        obtain ⟨x, hx, e⟩ := List.mem_map.1 (hks k (by simp))
        subst e
        simp only [List.filterMap_cons, treeGet_mem h hx, List.map_cons]
        rw [ih fun k hk => hks k (by simp [hk])]
    apply key
    intro k hk
    exact (List.mem_filter.1 (hperm.mem_iff.1 hk)).1
  refine ⟨by rw [hmap]; exact hperm.nodup_iff.2 hkeys, ?_⟩
  intro x
  simp only [treeWalk, List.mem_filterMap, hperm.mem_iff, List.mem_filter, List.mem_map]
  constructor
  · rintro ⟨k, ⟨⟨y, hy, rfl⟩, hs⟩, hg⟩
    rw [treeGet_mem h hy] at hg
    cases hg
    exact ⟨hy, hs⟩
  · rintro ⟨hx, hs⟩
    exact ⟨x.dn, ⟨⟨x, hx, rfl⟩, hs⟩, treeGet_mem h hx⟩

theorem pumpIndexed_spec (base : Str) : ∀ (l : List LEntry) (seen : List Nat), (∀ x ∈ l, ∀ y ∈ l, x.ptr = y.ptr → x = y) →
    ((pumpIndexed base seen l).map (·.ptr)).Nodup ∧
    ∀ x, x ∈ pumpIndexed base seen l ↔ x ∈ l ∧ hasSuffix x.dn base = true ∧ x.ptr ∉ seen
  | [], seen, _ => by simp [pumpIndexed]
  | e :: es, seen, h => by
    have h' : ∀ x ∈ es, ∀ y ∈ es, x.ptr = y.ptr → x = y := fun x hx y hy => h x (by simp [hx]) y (by simp [hy])
    by_cases hc : seen.contains e.ptr = true
    · obtain ⟨h1, h2⟩ := pumpIndexed_spec base es seen h'
      simp only [pumpIndexed, hc, if_true]
      refine ⟨h1, fun x => ?_⟩
      rw [h2]
      simp only [List.mem_cons]
      constructor
      · rintro ⟨h3, h4, h5⟩; exact ⟨Or.inr h3, h4, h5⟩
      · rintro ⟨rfl | h3, h4, h5⟩
        · exact absurd (by simpa using hc) h5
        · exact ⟨h3, h4, h5⟩
    · obtain ⟨h1, h2⟩ := pumpIndexed_spec base es (e.ptr :: seen) h'
      have hc' : e.ptr ∉ seen := by simpa using hc
      have key : ∀ x, x ∈ e :: es → (x = e ∨ x.ptr ≠ e.ptr) := by
        intro x hx
        by_cases hp : x.ptr = e.ptr
        · exact Or.inl (h x hx e (by simp) hp)
        · exact Or.inr hp
      by_cases hs : hasSuffix e.dn base = true
      · simp only [pumpIndexed, hc, hs, if_true, Bool.false_eq_true, if_false, List.map_cons, List.nodup_cons]
        refine ⟨⟨?_, h1⟩, fun x => ?_⟩
        · intro hm
          obtain ⟨y, hy, e'⟩ := List.mem_map.1 hm
          exact ((h2 y).1 hy).2.2 (by simp [e'])
        · simp only [List.mem_cons, h2, not_or]
          constructor
          · rintro (rfl | ⟨h3, h4, h5, h6⟩)
            · exact ⟨Or.inl rfl, hs, hc'⟩
            · exact ⟨Or.inr h3, h4, h6⟩
          · rintro ⟨rfl | h3, h4, h5⟩
            · exact Or.inl rfl
            · rcases key x (by simp [h3]) with rfl | hp
              · exact Or.inl rfl
              · exact Or.inr ⟨h3, h4, hp, h5⟩
      · simp only [pumpIndexed, hc, hs, Bool.false_eq_true, if_false]
        refine ⟨h1, fun x => ?_⟩
        simp only [List.mem_cons, h2, not_or]
        constructor
        · rintro ⟨h3, h4, h5, h6⟩; exact ⟨Or.inr h3, h4, h6⟩
        · rintro ⟨rfl | h3, h4, h5⟩
          · exact absurd h4 hs
          · rcases key x (by simp [h3]) with rfl | hp
            · exact absurd h4 hs
            · exact ⟨h3, h4, hp, h5⟩

theorem nodup_inj {α β : Type} {f : α → β} {l : List α} (h : (l.map f).Nodup) : ∀ x ∈ l, ∀ y ∈ l, f x = f y → x = y := by
  induction l with
  | nil => simp
  | cons a l ih =>
    simp only [List.map_cons, List.nodup_cons] at h
    intro x hx y hy e
    rcases List.mem_cons.1 hx with hx | hx <;> rcases List.mem_cons.1 hy with hy | hy
    · rw [hx, hy]
    · exact absurd (by rw [← hx, e]; exact List.mem_map.2 ⟨y, hy, rfl⟩) h.1
    · exact absurd (by rw [← hy, ← e]; exact List.mem_map.2 ⟨x, hx, rfl⟩) h.1
    · exact ih h.2 x hx y hy e

theorem nodup_map_of_inj {α β : Type} {f : α → β} {l : List α} (h : l.Nodup) (hf : ∀ x ∈ l, ∀ y ∈ l, f x = f y → x = y) : (l.map f).Nodup := by
  induction l with
  | nil => simp
  | cons a l ih =>
    simp only [List.nodup_cons] at h
    simp only [List.map_cons, List.nodup_cons, List.mem_map, not_exists, not_and]
    refine ⟨fun x hx e => ?_, ih h.2 fun x hx y hy => hf x (by simp [hx]) y (by simp [hy])⟩
    have := hf x (by simp [hx]) a (by simp) e
    exact h.1 (this ▸ hx)

theorem nodup_of_map {α β : Type} {f : α → β} {l : List α} (h : (l.map f).Nodup) : l.Nodup := by
  induction l with
  | nil => simp
  | cons a l ih =>
    simp only [List.map_cons, List.nodup_cons] at h
    simp only [List.nodup_cons]
    exact ⟨fun ha => h.1 (List.mem_map.2 ⟨a, ha, rfl⟩), ih h.2⟩

/-- The producer offers only loaded entries whose DN text ends in the search base, none twice: all of them if no index is used. -/
theorem pump_spec {C : CaseEnv} {W : WalkOrd} (hW : W.Lawful) {idx : IdxAttrs} {recs : List (Option Entry)} {m : LMem}
    (hm : treeFromLDIF C idx recs = some m) (base : Str) (fs : List IdxReq) (ht : ∀ f ∈ fs, TagOk f.kind f.tag) :
    ((pump C W m base fs).map (·.dn)).Nodup ∧
    (∀ x ∈ pump C W m base fs, x ∈ m.tree ∧ hasSuffix x.dn base = true) ∧
    ∀ p ∈ numbered C 0 recs, hasSuffix p.1.dn base = true →
      (fs = [] ∨ (∃ f ∈ fs, indexed C idx (C.lower f.attr) f.kind = false) ∨
        ∃ f ∈ fs, ∃ a ∈ p.2.attrs, C.lower a.name = C.lower f.attr ∧ Hit C f.kind f.value f.tag a) →
      p.1 ∈ pump C W m base fs := by
  obtain ⟨h1, h2, h3⟩ := (treeFromLDIF_spec C idx recs).2 m hm
  have hnd : (m.tree.map (·.dn)).Nodup := by rw [h1, List.map_map]; exact h2
  have hpt : (m.tree.map (·.ptr)).Nodup := by rw [h1, List.map_map]; exact numbered_ptr C recs 0
  have hwalk := treeWalk_spec hW hnd base
  have hp1 : ∀ p ∈ numbered C 0 recs, p.1 ∈ m.tree := fun p hp => by rw [h1]; exact List.mem_map.2 ⟨p, hp, rfl⟩
  have slow : ((treeWalk W m.tree base).map (·.dn)).Nodup ∧ (∀ x ∈ treeWalk W m.tree base, x ∈ m.tree ∧ hasSuffix x.dn base = true) ∧
      ∀ p ∈ numbered C 0 recs, hasSuffix p.1.dn base = true → p.1 ∈ treeWalk W m.tree base :=
    ⟨hwalk.1, fun x hx => (hwalk.2 x).1 hx, fun p hp hs => (hwalk.2 _).2 ⟨hp1 p hp, hs⟩⟩
  unfold pump
  by_cases hfs : fs = []
  · rw [if_pos hfs]
    exact ⟨slow.1, slow.2.1, fun p hp hs _ => slow.2.2 p hp hs⟩
  · rw [if_neg hfs]
    rcases loadAll_spec (W := W) hW h3 fs ht with ⟨-, hl⟩ | ⟨hall, l, hl, hx⟩
    · rw [hl]
      exact ⟨slow.1, slow.2.1, fun p hp hs _ => slow.2.2 p hp hs⟩
    · rw [hl]
      have hsub : ∀ x ∈ l, x ∈ m.tree := by
        intro x hxl
        obtain ⟨f, -, p, hp, rfl, -⟩ := (hx x).1 hxl
        exact hp1 p hp
      obtain ⟨g1, g2⟩ := pumpIndexed_spec base l [] fun x hx y hy => nodup_inj hpt x (hsub x hx) y (hsub y hy)
      dsimp only
      refine ⟨?_, fun x hx => ?_, ?_⟩
      · refine nodup_map_of_inj (nodup_of_map g1) ?_
        intro x hx y hy e
        exact nodup_inj hnd x (hsub x ((g2 x).1 hx).1) y (hsub y ((g2 y).1 hy).1) e
      · exact ⟨hsub x ((g2 x).1 hx).1, ((g2 x).1 hx).2.1⟩
      · intro p hp hs hcase
        refine (g2 _).2 ⟨(hx _).2 ?_, hs, by simp⟩
        rcases hcase with h | ⟨f, hf, hi⟩ | ⟨f, hf, a, ha, hn, hh⟩
        · exact absurd h hfs
        · rw [hall f hf] at hi; cases hi
        · exact ⟨f, hf, p, hp, rfl, a, ha, hn, hh⟩

/-! ## The search loop -/

/-- A page consists of the kept ones of the entries taken from the producer. -/
theorem searchPage_split (V : Env) (fp : Packet) (r : SearchReq) (paging : Option Nat) : ∀ (l : List LEntry) (count : Nat) (p : Page),
    searchPage V fp r paging count l = .ok p → p.code = rcSuccess →
    ∃ pre, l = pre ++ p.rest ∧ p.entries = (pre.filter (kept V.C fp r)).map (fun x => filterAttributes V.C r.attrs x.visible) ∧
      (p.eof = true → p.rest = [])
  | [], count, p, h, _ => by
    simp only [searchPage, Res.ok.injEq] at h
    subst h
    exact ⟨[], rfl, rfl, fun _ => rfl⟩
  | x :: xs, count, p, h, hc => by
    rw [searchPage] at h
    cases ha : applyFilter V.C x.visible fp with
    | err e => rw [ha] at h; cases h
    | panic => rw [ha] at h; cases h
    | hang => rw [ha] at h; cases h
    | ok y =>
      obtain ⟨keep, code⟩ := y
      rw [ha] at h
      dsimp only at h
      have skip : (kept V.C fp r x = false) → searchPage V fp r paging count xs = .ok p → ∃ pre, x :: xs = pre ++ p.rest ∧
          p.entries = (pre.filter (kept V.C fp r)).map (fun x => filterAttributes V.C r.attrs x.visible) ∧ (p.eof = true → p.rest = []) := by
        intro hk h
        obtain ⟨pre, e1, e2, e3⟩ := searchPage_split V fp r paging xs count p h hc
        refine ⟨x :: pre, by rw [e1]; rfl, ?_, e3⟩
        rw [List.filter_cons_of_neg (by simp [hk])]
        exact e2
      by_cases hcode : code ≠ rcSuccess
      · rw [if_pos hcode] at h
        cases h
        exact absurd hc hcode
      · rw [if_neg hcode] at h
        have hcode : code = rcSuccess := by simpa using hcode
        subst hcode
        cases keep with
        | false =>
          rw [if_pos (by simp)] at h
          exact skip (by simp [kept, ha]) h
        | true =>
          rw [if_neg (by simp)] at h
          cases hs : filterScope V.C r.baseDN (scopeNat r.scope) x.visible with
          | mk k2 c2 =>
            rw [hs] at h
            dsimp only at h
            by_cases hc2 : c2 ≠ rcSuccess
            · rw [if_pos hc2] at h
              cases h
              exact absurd hc hc2
            · rw [if_neg hc2] at h
              have hc2 : c2 = rcSuccess := by simpa using hc2
              subst hc2
              cases k2 with
              | false =>
                rw [if_pos (by simp)] at h
                exact skip (by simp [kept, hs]) h
              | true =>
                rw [if_neg (by simp)] at h
                have hk : kept V.C fp r x = true := by simp [kept, ha, hs]
                by_cases h1 : (paging.any fun n => decide (count + 1 ≥ n)) = true
                · rw [if_pos h1] at h
                  cases h
                  exact ⟨[x], rfl, by simp [hk], by simp⟩
                · rw [if_neg h1] at h
                  by_cases h2 : r.sizeLimit > 0 ∧ count + 1 ≥ toU32 r.sizeLimit
                  · rw [if_pos h2] at h
                    cases h
                    exact ⟨[x], rfl, by simp [hk], by simp⟩
                  · rw [if_neg h2] at h
                    cases hp : searchPage V fp r paging (count + 1) xs with
                    | err e => rw [hp] at h; cases h
                    | panic => rw [hp] at h; cases h
                    | hang => rw [hp] at h; cases h
                    | ok q =>
                      rw [hp] at h
                      cases h
                      obtain ⟨pre, e1, e2, e3⟩ := searchPage_split V fp r paging xs (count + 1) q hp hc
                      refine ⟨x :: pre, by rw [e1]; rfl, ?_, e3⟩
                      rw [List.filter_cons_of_pos hk]
                      simp [Page.cons, e2]

/-- The filter and the scope can be evaluated on the entry. -/
def Judged (C : CaseEnv) (fp : Packet) (r : SearchReq) (x : LEntry) : Prop :=
  (∃ b, applyFilter C x.visible fp = .ok (b, rcSuccess)) ∧ ∃ b, filterScope C r.baseDN (scopeNat r.scope) x.visible = (b, rcSuccess)

/-- Without limits all kept entries are taken. -/
theorem searchPage_all (V : Env) (fp : Packet) (r : SearchReq) (hl : r.sizeLimit ≤ 0) : ∀ (l : List LEntry) (count : Nat),
    (∀ x ∈ l, Judged V.C fp r x) →
    searchPage V fp r none count l = .ok ⟨(l.filter (kept V.C fp r)).map (fun x => filterAttributes V.C r.attrs x.visible), [], true, rcSuccess⟩
  | [], _, _ => rfl
  | x :: xs, count, h => by
    have ih := fun c => searchPage_all V fp r hl xs c fun y hy => h y (by simp [hy])
    obtain ⟨⟨b, hb⟩, k, hk⟩ := h x (by simp)
    have hl' : ¬ (r.sizeLimit > 0 ∧ count + 1 ≥ toU32 r.sizeLimit) := fun h => by omega
    rw [searchPage, hb]
    cases b <;> cases k <;> simp [hk, ih, hl', kept, hb, Page.cons]

end Idm
