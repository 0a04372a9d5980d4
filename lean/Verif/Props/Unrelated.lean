import Verif.Spec.Unrelated
import Verif.Props.BoltRename
import Verif.Props.BoltAccess
import Verif.Props.BoltLife
import Verif.Props.DurablePw
/-!
# C110: changes that have nothing to do with each other
-/
namespace Idm

section
variable {C : CaseEnv} {validate : Str → Str → Res Bool} {base : DN}

/-! ## What a call looks at and what it changes -/

theorem has_get (d : Dir) (k : DN) : d.has k = (d.get k).isSome := by
  unfold Dir.has Dir.get
  rw [Option.isSome_map]
  induction d with
  | nil => rfl
  | cons n d ih =>
    rw [List.any_cons, List.find?_cons]
    by_cases h : n.name = k
    · simp [h]
    · simp [h, ih]

theorem hasChild_has (d : Dir) (k : DN) : d.hasChild k = true ↔ ∃ r, d.has (r :: k) = true := by
  unfold Dir.hasChild Dir.has
  simp only [List.any_eq_true, decide_eq_true_eq]
  constructor
  · rintro ⟨n, hn, h⟩
    unfold Dir.isChild at h
    split at h
    · cases h
    · rename_i r p e
      exact ⟨r, n, hn, by rw [e, of_decide_eq_true h]⟩
  · rintro ⟨r, n, hn, h⟩
    exact ⟨n, hn, by rw [h]; simp [Dir.isChild]⟩

theorem get_append (d : Dir) (x : Node) (k : DN) : Dir.get (d ++ [x]) k = (d.get k).or (if x.name = k then some x.entry else none) := by
  unfold Dir.get
  rw [List.find?_append]
  cases h : d.find? fun n => n.name = k with
  | some y => simp
  | none =>
    by_cases hx : x.name = k <;> simp [hx]

theorem get_remove_self (d : Dir) (k : DN) : (d.remove k).get k = none := by
  unfold Dir.get Dir.remove
  rw [Option.map_eq_none_iff, List.find?_eq_none]
  intro x hx
  simpa using (List.mem_filter.1 hx).2

/-- The directories look the same to a call about the names `K`. -/
def LookSame (K : List DN) (d d' : Dir) : Prop := ∀ k ∈ K, d.get k = d'.get k ∧ d.has k.tail = d'.has k.tail ∧ d.hasChild k = d'.hasChild k

/-- A change at names `K`: everything else stays, and result and new entries depend only on what a call about `K` sees. -/
def LocalAt (K : List DN) (f : Dir → Res Unit × Dir) : Prop :=
  (∀ d l, l ∉ K → (f d).2.get l = d.get l) ∧
  ∀ d d', LookSame K d d' → (f d).1 = (f d').1 ∧ ∀ k ∈ K, (f d).2.get k = (f d').2.get k

theorem local_const (K : List DN) (r : Res Unit) : LocalAt K fun d => (r, d) :=
  ⟨fun _ _ _ => rfl, fun _ _ h => ⟨rfl, fun k hk => (h k hk).1⟩⟩

theorem local_add (k : DN) (e : Entry) : LocalAt [k] fun d => specAddAt base d k e := by
  constructor
  · intro d l hl
    simp only [List.mem_singleton] at hl
    dsimp only
    unfold specAddAt
    repeat' split
    all_goals first
      | rfl
      | rw [get_append, if_neg (fun h => hl h.symm), Option.or_none]
  · intro d d' h
    obtain ⟨h1, h2, -⟩ := h k (by simp)
    simp only [List.mem_singleton, forall_eq]
    simp only [specAddAt, has_get d k, has_get d' k, h1, h2]
    repeat' split
    all_goals first
      | exact ⟨rfl, h1⟩
      | exact ⟨rfl, by rw [get_append, get_append, h1]⟩

theorem local_delete (k : DN) : LocalAt [k] fun d => specDeleteAt d k := by
  constructor
  · intro d l hl
    simp only [List.mem_singleton] at hl
    dsimp only
    unfold specDeleteAt
    split
    · rfl
    split
    · rfl
    split
    · rfl
    · exact get_remove hl
  · intro d d' h
    obtain ⟨h1, h2, h3⟩ := h k (by simp)
    simp only [List.mem_singleton, forall_eq]
    simp only [specDeleteAt, has_get d k, has_get d' k, h1, h2, h3]
    split
    · exact ⟨rfl, h1⟩
    split
    · exact ⟨rfl, h1⟩
    split
    · exact ⟨rfl, h1⟩
    · exact ⟨rfl, by rw [get_remove_self, get_remove_self]⟩

theorem local_modify (k : DN) (text : Str) (cs : List Change) : LocalAt [k] fun d => specModifyAt C d k text cs := by
  constructor
  · intro d l hl
    simp only [List.mem_singleton] at hl
    dsimp only
    unfold specModifyAt
    repeat' split
    all_goals first
      | rfl
      | (rw [get_setEntry, if_neg hl])
  · intro d d' h
    obtain ⟨h1, -, -⟩ := h k (by simp)
    simp only [List.mem_singleton, forall_eq]
    simp only [specModifyAt, h1]
    repeat' split
    all_goals first
      | exact ⟨rfl, h1⟩
      | exact ⟨rfl, by rw [get_setEntry, get_setEntry, h1]⟩

theorem local_password (k : DN) (text old new : Str) : LocalAt [k] fun d => specPasswordAt C validate d k text old new := by
  constructor
  · intro d l hl
    simp only [List.mem_singleton] at hl
    dsimp only
    unfold specPasswordAt
    repeat' split
    all_goals first
      | rfl
      | (rw [get_setEntry, if_neg hl])
  · intro d d' h
    obtain ⟨h1, -, -⟩ := h k (by simp)
    simp only [List.mem_singleton, forall_eq]
    simp only [specPasswordAt, h1]
    cases d'.get k with
    | none => exact ⟨rfl, h1⟩
    | some e =>
      simp only
      split
      · split
        all_goals first
          | exact ⟨rfl, h1⟩
          | exact ⟨rfl, by rw [get_setEntry, get_setEntry, h1]⟩
      all_goals exact ⟨rfl, h1⟩

theorem local_rename (k k' : DN) (cs : List Change) : LocalAt [k, k'] fun d => specRenameAt C d k k' cs := by
  constructor
  · intro d l hl
    simp only [List.mem_cons, List.not_mem_nil, or_false, not_or] at hl
    dsimp only
    unfold specRenameAt
    repeat' split
    all_goals first
      | rfl
      | exact get_rename_other hl.1 hl.2
  · intro d d' h
    obtain ⟨h1, h2, h3⟩ := h k (by simp)
    obtain ⟨g1, -, -⟩ := h k' (by simp)
    have same : ∀ x ∈ [k, k'], d.get x = d'.get x := fun x hx => (h x hx).1
    simp only [specRenameAt, has_get d k', has_get d' k', h1, g1, h3]
    cases hk' : d'.get k' with
    | some x => exact ⟨rfl, same⟩
    | none =>
      cases hk : d'.get k with
      | none => exact ⟨rfl, same⟩
      | some e =>
        simp only [Option.isSome_none, Bool.false_eq_true, if_false]
        split
        · exact ⟨rfl, same⟩
        split
        · split
          · exact ⟨rfl, same⟩
          · have hne : k' ≠ k := by
              intro e'
              rw [e', hk] at hk'
              cases hk'
            refine ⟨rfl, fun x hx => ?_⟩
            simp only [List.mem_cons, List.not_mem_nil, or_false] at hx
            rcases hx with rfl | rfl
            · rw [get_rename_old hne, get_rename_old hne]
            · rw [get_rename_self (h1.trans hk) (by rw [has_get, g1, hk']; rfl), get_rename_self hk (by rw [has_get, hk']; rfl)]
        all_goals exact ⟨rfl, same⟩

/-- A call is local at the names it is about. -/
theorem local_step (op : Op) : LocalAt (op.about C) fun d => specStep C validate base d op := by
  cases op with
  | add e =>
    simp only [specStep, Op.about]
    cases entryPutDN C e.dn with
    | none => exact local_const _ _
    | some n =>
      simp only [specAdd, Option.map_some, Option.toList_some]
      by_cases hn : n = []
      · simp only [if_pos hn]; exact local_const _ _
      · simp only [if_neg hn]; exact local_add _ _
  | delete dn =>
    simp only [specStep, Op.about]
    cases parseDN C dn with
    | none => exact local_const _ _
    | some n =>
      simp only [specDelete, Option.map_some, Option.toList_some]
      by_cases hn : n = []
      · simp only [if_pos hn]; exact local_const _ _
      · simp only [if_neg hn]; exact local_delete _
  | modify dn cs =>
    simp only [specStep, Op.about]
    cases parseDN C dn with
    | none => exact local_const _ _
    | some n => exact local_modify _ _ _
  | password req =>
    simp only [specStep, Op.about]
    cases parseDN C req.userIdentity with
    | none => exact local_const _ _
    | some n => exact local_password _ _ _ _
  | rename req =>
    simp only [specStep, Op.about]
    cases parseDN C req.dn with
    | none => exact local_const _ _
    | some n =>
      cases n with
      | nil =>
        cases parseDN C req.newRDN with
        | none => exact local_const _ _
        | some m => cases m <;> exact local_const _ _
      | cons o p =>
        cases parseDN C req.newRDN with
        | none => exact local_const _ _
        | some m =>
          cases m with
          | nil => exact local_const _ _
          | cons n q => exact local_rename _ _ _

/-! ## Runs -/

/-- The names a call at `K` looks at. -/
def Near (K : List DN) (l : DN) : Prop := ∃ k ∈ K, l = k ∨ l = k.tail ∨ ∃ r, l = r :: k

theorem lookSame_of {K : List DN} {d d' : Dir} (h : ∀ l, Near K l → d.get l = d'.get l) : LookSame K d d' := by
  intro k hk
  refine ⟨h k ⟨k, hk, Or.inl rfl⟩, by rw [has_get, has_get, h _ ⟨k, hk, Or.inr (Or.inl rfl)⟩], ?_⟩
  rw [Bool.eq_iff_iff, hasChild_has, hasChild_has]
  constructor
  · rintro ⟨r, hr⟩
    exact ⟨r, by rw [has_get] at hr ⊢; rw [← h _ ⟨k, hk, Or.inr (Or.inr ⟨r, rfl⟩)⟩]; exact hr⟩
  · rintro ⟨r, hr⟩
    exact ⟨r, by rw [has_get] at hr ⊢; rw [h _ ⟨k, hk, Or.inr (Or.inr ⟨r, rfl⟩)⟩]; exact hr⟩

theorem near_unrelated {a b : Op} (h : Unrelated C a b) {l : DN} (hl : Near (a.about C) l) : l ∉ b.about C := by
  intro hb
  obtain ⟨k, hk, rfl | rfl | ⟨r, rfl⟩⟩ := hl
  · exact (h _ hk _ hb).1 rfl
  · exact (h _ hk _ hb).2.2 rfl
  · exact (h _ hk _ hb).2.1 rfl

/-- Two directories that agree everywhere but on names `T`, which no later call looks at, go on agreeing, and give the same results. -/
theorem run_agree : ∀ (ops : List Op) (d d' : Dir) (T : DN → Prop), (∀ l, ¬ T l → d.get l = d'.get l) →
    (∀ op ∈ ops, ∀ l, Near (op.about C) l → ¬ T l) →
    (specRun C validate base d ops).1 = (specRun C validate base d' ops).1 ∧
    ∀ l, ¬ T l → (specRun C validate base d ops).2.get l = (specRun C validate base d' ops).2.get l
  | [], _, _, _, h, _ => ⟨rfl, h⟩
  | op :: ops, d, d', T, h, hT => by
    obtain ⟨f1, f2⟩ := local_step (C := C) (validate := validate) (base := base) op
    obtain ⟨k1, k2⟩ := f2 d d' (lookSame_of fun l hl => h l (hT op (by simp) l hl))
    have hnext : ∀ l, ¬ T l → (specStep C validate base d op).2.get l = (specStep C validate base d' op).2.get l := by
      intro l hl
      by_cases hm : l ∈ op.about C
      · exact k2 l hm
      · rw [f1 d l hm, f1 d' l hm, h l hl]
    obtain ⟨g1, g2⟩ := run_agree ops _ _ T hnext fun o ho => hT o (by simp [ho])
    simp only [specRun]
    exact ⟨by rw [k1, g1], g2⟩

/-- Calls about other names than `T` do not change the rest. -/
theorem interleaved_agree : ∀ (cs : List (Bool × Op)) (d d' : Dir) (T : DN → Prop), (∀ l, ¬ T l → d.get l = d'.get l) →
    (∀ c ∈ cs, c.1 = true → ∀ l, Near (c.2.about C) l → ¬ T l) → (∀ c ∈ cs, c.1 = false → ∀ l ∈ c.2.about C, T l) →
    marked cs (specRun C validate base d (cs.map (·.2))).1 =
      (specRun C validate base d' ((cs.filter (·.1)).map (·.2))).1 ∧
    ∀ l, ¬ T l → (specRun C validate base d (cs.map (·.2))).2.get l =
      (specRun C validate base d' ((cs.filter (·.1)).map (·.2))).2.get l
  | [], _, _, _, h, _, _ => ⟨rfl, h⟩
  | (true, op) :: cs, d, d', T, h, hT, hF => by
    obtain ⟨f1, f2⟩ := local_step (C := C) (validate := validate) (base := base) op
    obtain ⟨k1, k2⟩ := f2 d d' (lookSame_of fun l hl => h l (hT (true, op) (by simp) rfl l hl))
    have hnext : ∀ l, ¬ T l → (specStep C validate base d op).2.get l = (specStep C validate base d' op).2.get l := by
      intro l hl
      by_cases hm : l ∈ op.about C
      · exact k2 l hm
      · rw [f1 d l hm, f1 d' l hm, h l hl]
    obtain ⟨g1, g2⟩ := interleaved_agree cs _ _ T hnext (fun c hc => hT c (by simp [hc])) (fun c hc => hF c (by simp [hc]))
    simp only [List.map_cons, specRun, marked, List.filter_cons, if_true]
    exact ⟨by rw [k1, g1], g2⟩
  | (false, op) :: cs, d, d', T, h, hT, hF => by
    obtain ⟨f1, -⟩ := local_step (C := C) (validate := validate) (base := base) op
    have hnext : ∀ l, ¬ T l → (specStep C validate base d op).2.get l = d'.get l := by
      intro l hl
      rw [f1 d l (fun hm => hl (hF (false, op) (by simp) rfl l hm)), h l hl]
    obtain ⟨g1, g2⟩ := interleaved_agree cs _ _ T hnext (fun c hc => hT c (by simp [hc])) (fun c hc => hF c (by simp [hc]))
    simp only [List.map_cons, specRun, marked, List.filter_cons, Bool.false_eq_true, if_false]
    exact ⟨g1, g2⟩

theorem Unrelated.symm {a b : Op} (h : Unrelated C a b) : Unrelated C b a := fun k hk l hl =>
  ⟨fun e => (h l hl k hk).1 e.symm, (h l hl k hk).2.2, (h l hl k hk).2.1⟩

theorem mix_agree {cs : List (Bool × Op)} {d : Dir} {g : Bool}
    (hu : ∀ c ∈ cs, ∀ c' ∈ cs, c.1 ≠ c'.1 → Unrelated C c.2 c'.2) :
    marked (cs.map fun c => (c.1 == g, c.2)) (specRun C validate base d (cs.map (·.2))).1 =
      (specRun C validate base d ((cs.filter fun c => c.1 == g).map (·.2))).1 ∧
    ∀ l, (∀ c ∈ cs, c.1 ≠ g → l ∉ c.2.about C) → (specRun C validate base d (cs.map (·.2))).2.get l =
      (specRun C validate base d ((cs.filter fun c => c.1 == g).map (·.2))).2.get l := by
  have key := interleaved_agree (C := C) (validate := validate) (base := base) (cs.map fun c => (c.1 == g, c.2)) d d
    (fun l => ∃ c ∈ cs, c.1 ≠ g ∧ l ∈ c.2.about C) (fun _ _ => rfl)
    (by
      rintro c hc hg l hl ⟨c', hc', hg', hm⟩
      obtain ⟨x, hx, rfl⟩ := List.mem_map.1 hc
      have hxg : x.1 = g := by simpa using hg
      exact near_unrelated (hu x hx c' hc' (by rw [hxg]; exact fun e => hg' e.symm)) hl hm)
    (by
      rintro c hc hg l hl
      obtain ⟨x, hx, rfl⟩ := List.mem_map.1 hc
      exact ⟨x, hx, by simpa using hg, hl⟩)
  have e1 : (cs.map fun c => (c.1 == g, c.2)).map (·.2) = cs.map (·.2) := by rw [List.map_map]; rfl
  have e2 : ((cs.map fun c => (c.1 == g, c.2)).filter (·.1)).map (·.2) = (cs.filter fun c => c.1 == g).map (·.2) := by
    rw [List.filter_map, List.map_map]; rfl
  rw [e1, e2] at key
  exact ⟨key.1, fun l hl => key.2 l fun ⟨c, hc, hg, hm⟩ => hl c hc hg hm⟩

/-! ## The store -/

variable {G : GobEnv}

theorem mem_of_get {d : Dir} (hnd : (d.map (·.name)).Nodup) (n : Node) : n ∈ d ↔ d.get n.name = some n.entry := by
  constructor
  · intro hn
    cases h : d.get n.name with
    | none =>
      simp only [Dir.get, Option.map_eq_none_iff, List.find?_eq_none] at h
      exact absurd (decide_eq_true rfl) (h n hn)
    | some e =>
      have := nodup_inj hnd _ (get_mem h) _ hn rfl
      rw [← this]
  · exact fun h => get_mem h

theorem dirOf_nodup {db : Db} {ns : List INode} (R : Rel C G base db ns) : ((dirOf ns).map (·.name)).Nodup := by
  rw [dirOf, List.map_map, List.Nodup, List.pairwise_map]
  exact R.nodes_nodup.imp_of_mem fun ha hb hne e => hne (R.name_inj ha hb e)

theorem alike_of_get (hC : C.Lawful) (hG : G.Lawful) {db db' : Db} {ns ns' : List INode} (R : Rel C G base db ns) (R' : Rel C G base db' ns')
    (h : ∀ k, (dirOf ns).get k = (dirOf ns').get k) : AnswerAlike C G db db' := by
  intro text ht scope
  cases hp : parseDN C text with
  | none => exact ⟨[], [], some .other, by simp [boltSearch, searchFuel, parseNormalize, hp],
      by simp [boltSearch, searchFuel, parseNormalize, hp], .nil⟩
  | some name =>
    obtain ⟨s1, s2⟩ := serves_of_rel hC hG R text name hp (ht name hp) scope
    obtain ⟨t1, t2⟩ := serves_of_rel hC hG R' text name hp (ht name hp) scope
    have hh : (dirOf ns).has (foldDN C name) = (dirOf ns').has (foldDN C name) := by rw [has_get, has_get, h]
    cases hx : (dirOf ns).has (foldDN C name) with
    | false => exact ⟨[], [], some .other, s2 hx, t2 (hh ▸ hx), .nil⟩
    | true =>
      obtain ⟨f, hf, fn, fm⟩ := s1 hx
      obtain ⟨f', hf', fn', fm'⟩ := t1 (hh ▸ hx)
      refine ⟨_, _, none, hf, hf', (perm_of_nodup (nodup_of_map fn) (nodup_of_map fn') fun n => ?_).map _⟩
      rw [fm, fm', mem_of_get (dirOf_nodup R), mem_of_get (dirOf_nodup R'), h]

/-- C110: two groups of changes that have nothing to do with each other do not see each other, however they are mixed and whatever
happened before: every group is answered as if it were alone, and every name the other group is not about has the entry it would have. -/
theorem C110_alone (hC : C.Lawful) (hG : G.Lawful) (hb : BaseOk C base) (ops : List Op) (cs : List (Bool × Op))
    (h : HistOk C (ops ++ cs.map (·.2))) (g : Bool) (hu : ∀ c ∈ cs, ∀ c' ∈ cs, c.1 ≠ c'.1 → Unrelated C c.2 c'.2) :
    let db := after C G validate base ops
    let mine := cs.filter fun c => c.1 == g
    let both := boltRun C G validate (render base) db (cs.map (·.2))
    let alone := boltRun C G validate (render base) db (mine.map (·.2))
    marked (cs.map fun c => (c.1 == g, c.2)) both.1 = alone.1 ∧
    ∀ text, TextOk C text → (∀ n, parseDN C text = some n → ∀ c ∈ cs, c.1 ≠ g → foldDN C n ∉ c.2.about C) →
      boltSearch C G both.2 text scopeBase = boltSearch C G alone.2 text scopeBase := by
  intro db mine both alone
  have hlen := h.len
  rw [List.length_append, List.length_map] at hlen
  obtain ⟨ns, -, -, R, hs⟩ := sim_run_empty (validate := validate) hC hG hb ops (fun o ho => h.ok o (by simp [ho])) (by omega)
  have hmine : mine.length ≤ cs.length := List.length_filter_le ..
  obtain ⟨n1, a1, a2, R1, -⟩ := sim_run (validate := validate) hC hG hb (cs.map (·.2)) _ _ R
    (fun o ho => h.ok o (List.mem_append_right _ ho)) (by rw [List.length_map]; omega)
  obtain ⟨n2, b1, b2, R2, -⟩ := sim_run (validate := validate) hC hG hb (mine.map (·.2)) _ _ R
    (fun o ho => h.ok o (by
      obtain ⟨c, hc, rfl⟩ := List.mem_map.1 ho
      exact List.mem_append_right _ (List.mem_map_of_mem (List.mem_filter.1 hc).1))) (by rw [List.length_map]; omega)
  obtain ⟨m1, m2⟩ := mix_agree (C := C) (validate := validate) (base := base) (d := dirOf ns) (g := g) hu
  refine ⟨?_, fun text ht hf => ?_⟩
  · show marked _ (boltRun C G validate (render base) _ _).1 = (boltRun C G validate (render base) _ _).1
    rw [show db = (boltRun C G validate (render base) Db.empty ops).2 from rfl, a1, b1]
    exact m1
  · cases hp : parseDN C text with
    | none => simp [boltSearch, searchFuel, parseNormalize, hp]
    | some n =>
      have e1 := lookup_of_rel hC hG R1 hp (ht n hp)
      have e2 := lookup_of_rel hC hG R2 hp (ht n hp)
      have := m2 (foldDN C n) (hf n hp)
      rw [a2, b2] at this
      rw [this] at e1
      exact e1.trans e2.symm

/-- C110: two ways to mix the same two groups end alike: whatever is called afterwards has the same results, and every search finds the
same entries. -/
theorem C110_mixes (hC : C.Lawful) (hG : G.Lawful) (hb : BaseOk C base) (ops more : List Op) (cs cs' : List (Bool × Op))
    (h : HistOk C (ops ++ cs.map (·.2) ++ more)) (hsame : ∀ g, cs.filter (fun c => c.1 == g) = cs'.filter (fun c => c.1 == g))
    (hu : ∀ c ∈ cs, ∀ c' ∈ cs, c.1 ≠ c'.1 → Unrelated C c.2 c'.2) :
    let one := boltRun C G validate (render base) (after C G validate base (ops ++ cs.map (·.2))) more
    let other := boltRun C G validate (render base) (after C G validate base (ops ++ cs'.map (·.2))) more
    one.1 = other.1 ∧ AnswerAlike C G one.2 other.2 := by
  intro one other
  have hmem : ∀ c, c ∈ cs ↔ c ∈ cs' := by
    intro c
    have := congrArg (fun l => c ∈ l) (hsame c.1)
    simpa [List.mem_filter] using this
  have hlen' : cs.length = cs'.length := by
    have key : ∀ l : List (Bool × Op), l.length = (l.filter fun c => c.1 == true).length + (l.filter fun c => c.1 == false).length := by
      intro l
      induction l with
      | nil => rfl
      | cons x l ih =>
        obtain ⟨b, o⟩ := x
        cases b <;> simp [List.filter_cons] at ih ⊢ <;> omega
    rw [key cs, key cs', hsame, hsame]
  have hlen := h.len
  simp only [List.length_append, List.length_map] at hlen
  have hok : ∀ o ∈ ops, o.Ok C := fun o ho => h.ok o (by simp [ho])
  have hokc : ∀ o ∈ cs.map (·.2), o.Ok C := fun o ho => h.ok o (List.mem_append_left _ (List.mem_append_right _ ho))
  have hokc' : ∀ o ∈ cs'.map (·.2), o.Ok C := by
    intro o ho
    obtain ⟨c, hc, rfl⟩ := List.mem_map.1 ho
    exact hokc _ (List.mem_map_of_mem ((hmem c).2 hc))
  have hokm : ∀ o ∈ more, o.Ok C := fun o ho => h.ok o (by simp [ho])
  obtain ⟨n1, -, a2, R1, s1⟩ := sim_run_empty (validate := validate) hC hG hb (ops ++ cs.map (·.2))
    (fun o ho => (List.mem_append.1 ho).elim (hok o) (hokc o)) (by simp only [List.length_append, List.length_map]; omega)
  obtain ⟨n2, -, b2, R2, s2⟩ := sim_run_empty (validate := validate) hC hG hb (ops ++ cs'.map (·.2))
    (fun o ho => (List.mem_append.1 ho).elim (hok o) (hokc' o)) (by simp only [List.length_append, List.length_map]; omega)
  simp only [List.length_append, List.length_map] at s1 s2
  have hget : ∀ k, (dirOf n1).get k = (dirOf n2).get k := by
    intro k
    rw [← a2, ← b2, specRun_append, specRun_append]
    have hu' : ∀ c ∈ cs', ∀ c' ∈ cs', c.1 ≠ c'.1 → Unrelated C c.2 c'.2 :=
      fun c hc c' hc' => hu c ((hmem c).2 hc) c' ((hmem c').2 hc')
    have step : ∀ g, (∀ c ∈ cs, c.1 ≠ g → k ∉ c.2.about C) →
        (specRun C validate base (specRun C validate base [] ops).2 (cs.map (·.2))).2.get k =
          (specRun C validate base (specRun C validate base [] ops).2 (cs'.map (·.2))).2.get k := by
      intro g hg
      rw [(mix_agree (g := g) hu).2 k hg, (mix_agree (g := g) hu').2 k (fun c hc => hg c ((hmem c).2 hc)), hsame g]
    by_cases hk : ∃ c ∈ cs, c.1 = false ∧ k ∈ c.2.about C
    · obtain ⟨c, hc, hcf, hck⟩ := hk
      refine step false fun c' hc' hg' hk' => ?_
      exact (hu c hc c' hc' (by rw [hcf]; exact fun e => hg' e.symm) k hck k hk').1 rfl
    · refine step true fun c hc hg hk' => hk ⟨c, hc, by simpa using hg, hk'⟩
  obtain ⟨m1, c1, c2, Q1, -⟩ := sim_run (validate := validate) hC hG hb more _ _ R1 hokm (by omega)
  obtain ⟨m2, d1, d2, Q2, -⟩ := sim_run (validate := validate) hC hG hb more _ _ R2 hokm (by omega)
  obtain ⟨r1, r2⟩ := run_agree (C := C) (validate := validate) (base := base) more (dirOf n1) (dirOf n2) (fun _ => False)
    (fun l _ => hget l) (fun _ _ _ _ => id)
  refine ⟨c1.trans (r1.trans d1.symm), alike_of_get hC hG Q1 Q2 fun k => ?_⟩
  rw [← c2, ← d2]
  exact r2 k id

end
/-! ## Non-vacuity -/

/-- Two clients at work: one changes and renames a user and sets a password, the other builds a group and takes half of it down again. -/
def unMix : List (Bool × Op) :=
  [(false, .add ⟨b!"ou=g,dc=lg", [⟨b!"ou", [b!"g"]⟩]⟩),
   (true, .modify b!"UID=c,ou=p,dc=lg" [⟨opAdd, b!"mail", [b!"n"]⟩]),
   (false, .add ⟨b!"cn=1,ou=g,dc=lg", [⟨b!"cn", [b!"1"]⟩]⟩),
   (true, .rename ⟨b!"uid=c,ou=p,dc=lg", b!"uid=d", true⟩),
   (false, .delete b!"ou=g,dc=lg"),
   (true, .password ⟨b!"uid=d,ou=p,dc=lg", b!"y", b!"z"⟩),
   (true, .delete b!"uid=c,ou=p,dc=lg"),
   (false, .delete b!"cn=1,ou=g,dc=lg")]

/-- The same calls, the second client first. -/
def unMix' : List (Bool × Op) := unMix.filter (fun c => c.1 == false) ++ unMix.filter (fun c => c.1 == true)

/-- hypotheses of C110, and the calls do something: some succeed, some fail -/
example : HistOk asciiCase (exOps ++ unMix.map (·.2) ++ exOps) ∧ HistOk asciiCase (exOps ++ unMix.map (·.2)) ∧
    (∀ c ∈ unMix, ∀ c' ∈ unMix, c.1 ≠ c'.1 → Unrelated asciiCase c.2 c'.2) ∧
    (∀ g, unMix.filter (fun c => c.1 == g) = unMix'.filter (fun c => c.1 == g)) ∧ unMix ≠ unMix' ∧
    (boltRun asciiCase gobInstance exValidate (render exBase) (after asciiCase gobInstance exValidate exBase exOps) (unMix.map (·.2))).1 =
      [.ok (), .ok (), .ok (), .ok (), .err .nonLeaf, .ok (), .err .notFound, .ok ()] ∧
    TextOk asciiCase b!"uid=D,ou=p,dc=lg" ∧
    (∀ n, parseDN asciiCase b!"uid=D,ou=p,dc=lg" = some n → ∀ c ∈ unMix, c.1 ≠ true → foldDN asciiCase n ∉ c.2.about asciiCase) := by
  decide +kernel

/-- C110 for calls that are related fails: who adds below an entry another client is about to add may come too early. -/
theorem C110_related_fails : ∃ (ops : List Op) (a b : Op), HistOk asciiCase (ops ++ [a, b]) ∧ ¬ Unrelated asciiCase a b ∧
    (boltRun asciiCase gobInstance exValidate (render exBase) (after asciiCase gobInstance exValidate exBase ops) [a, b]).1 = [.ok (), .ok ()] ∧
    (boltRun asciiCase gobInstance exValidate (render exBase) (after asciiCase gobInstance exValidate exBase ops) [b, a]).1 =
      [.err .other, .ok ()] :=
  ⟨exOps, .add ⟨b!"ou=g,dc=lg", []⟩, .add ⟨b!"cn=1,ou=g,dc=lg", []⟩, by decide +kernel⟩

end Idm
