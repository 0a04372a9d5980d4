import Verif.Spec.Shuffle
import Verif.Props.Undo
import Verif.Props.Load
/-!
# C116: the order of the records of a file
-/
namespace Idm

section
variable {C : CaseEnv} {G : GobEnv} {validate : Str → Str → Res Bool} {base : DN}

/-- The folded name an entry is put under. -/
def putKey (C : CaseEnv) (e : Entry) : DN := foldDN C ((entryPutDN C e.dn).getD [])

theorem has_append_node (d : Dir) (x : Node) (k : DN) : Dir.has (d ++ [x]) k = (d.has k || decide (x.name = k)) := by
  simp [Dir.has]

theorem foldDN_eq_nil {C : CaseEnv} {n : DN} : foldDN C n = [] ↔ n = [] := by
  simp [foldDN]

theorem add_ok_iff (d : Dir) (e : Entry) : ((specStep C validate base d (.add e)).1 = .ok () ↔
      putKey C e ≠ [] ∧ (render base <:+ render (putKey C e) ∧ ¬ (render (putKey C e)).length > maxName) ∧ d.has (putKey C e) = false ∧
        (putKey C e = base ∨ d.has (putKey C e).tail = true)) ∧
    ((specStep C validate base d (.add e)).1 = .ok () → (specStep C validate base d (.add e)).2 = d ++ [⟨putKey C e, e⟩]) := by
  simp only [specStep, putKey]
  cases entryPutDN C e.dn with
  | none => simp [foldDN]
  | some n =>
    simp only [specAdd, Option.getD_some]
    by_cases h : n = []
    · rw [if_pos h]; simp [h, foldDN]
    · rw [if_neg h]
      have h' : foldDN C n ≠ [] := fun x => h (foldDN_eq_nil.1 x)
      generalize foldDN C n = k at h'
      unfold specAddAt
      by_cases h1 : render base <:+ render k
      · rw [if_neg (by simpa using h1)]
        by_cases h2 : d.has k = true
        · rw [if_pos h2]; simp [h2]
        · rw [if_neg h2]
          by_cases h3 : k ≠ base ∧ ¬ d.has k.tail = true
          · rw [if_pos h3]; simp; intro _ _ _ _; exact ⟨h3.1, by simpa using h3.2⟩
          · rw [if_neg h3]
            by_cases h4 : (render k).length > maxName
            · rw [if_pos h4]; simp; intro _ _ h; omega
            · rw [if_neg h4]
              refine ⟨⟨fun _ => ⟨h', ⟨h1, h4⟩, by simpa using h2, ?_⟩, fun _ => rfl⟩, fun _ => rfl⟩
              by_cases hk : k = base
              · exact .inl hk
              · exact .inr (Classical.byContradiction fun hh => h3 ⟨hk, hh⟩)
      · rw [if_pos (by simpa using h1)]; simp [h1]

/-- What it takes for all entries to be added. -/
def Addable (C : CaseEnv) (base : DN) (d : Dir) (es : List Entry) : Prop :=
  (∀ e ∈ es, putKey C e ≠ [] ∧ (render base <:+ render (putKey C e) ∧ ¬ (render (putKey C e)).length > maxName) ∧ d.has (putKey C e) = false) ∧
  (es.map (putKey C)).Nodup ∧
  ∀ l e r, es = l ++ e :: r → putKey C e = base ∨ d.has (putKey C e).tail = true ∨ (putKey C e).tail ∈ l.map (putKey C)

theorem adds_ok_iff : ∀ (es : List Entry) (d : Dir), ((∀ r ∈ (specRun C validate base d (es.map .add)).1, r = .ok ()) ↔ Addable C base d es) ∧
    ((∀ r ∈ (specRun C validate base d (es.map .add)).1, r = .ok ()) →
      (specRun C validate base d (es.map .add)).2 = d ++ es.map fun e => ⟨putKey C e, e⟩)
  | [], d => by simp [specRun, Addable]
  | e :: es, d => by
    obtain ⟨a1, a2⟩ := add_ok_iff (C := C) (validate := validate) (base := base) d e
    simp only [List.map_cons, specRun, List.forall_mem_cons]
    by_cases hr : (specStep C validate base d (.add e)).1 = .ok ()
    · obtain ⟨b1, b2⟩ := adds_ok_iff es (d ++ [⟨putKey C e, e⟩])
      rw [a2 hr]
      refine ⟨?_, fun h => ?_⟩
      · rw [b1]
        obtain ⟨c1, c2, c3, c4⟩ := a1.1 hr
        constructor
        · rintro ⟨-, g1, g2, g3⟩
          refine ⟨?_, ?_, ?_⟩
          · intro x hx
            rcases List.mem_cons.1 hx with rfl | hx
            · exact ⟨c1, c2, c3⟩
            · obtain ⟨p, q, r⟩ := g1 x hx
              rw [has_append_node, Bool.or_eq_false_iff] at r
              exact ⟨p, q, r.1⟩
          · rw [List.map_cons, List.nodup_cons]
            refine ⟨fun hm => ?_, g2⟩
            obtain ⟨x, hx, hk⟩ := List.mem_map.1 hm
            have := (g1 x hx).2.2
            rw [has_append_node, hk] at this
            simp at this
          · intro l x r he
            cases l with
            | nil =>
              simp only [List.nil_append, List.cons.injEq] at he
              rw [← he.1]
              rcases c4 with h | h
              · exact .inl h
              · exact .inr (.inl h)
            | cons y l =>
              simp only [List.cons_append, List.cons.injEq] at he
              rcases g3 l x r he.2 with h | h | h
              · exact .inl h
              · rw [has_append_node, Bool.or_eq_true] at h
                rcases h with h | h
                · exact .inr (.inl h)
                · exact .inr (.inr (by rw [← he.1, ← (of_decide_eq_true h : putKey C e = _)]; simp))
              · exact .inr (.inr (by simp [h]))
        · rintro ⟨g1, g2, g3⟩
          rw [List.map_cons, List.nodup_cons] at g2
          refine ⟨hr, ?_, g2.2, ?_⟩
          · intro x hx
            obtain ⟨p, q, r⟩ := g1 x (by simp [hx])
            refine ⟨p, q, ?_⟩
            rw [has_append_node, r, Bool.false_or]
            exact decide_eq_false fun h => g2.1 (List.mem_map.2 ⟨x, hx, h.symm⟩)
          · intro l x r he
            rcases g3 (e :: l) x r (by rw [he]; rfl) with h | h | h
            · exact .inl h
            · exact .inr (.inl (by rw [has_append_node, h]; rfl))
            · rcases List.mem_cons.1 h with h | h
              · exact .inr (.inl (by rw [has_append_node]; simp [h]))
              · exact .inr (.inr h)
      · rw [b2 h.2]
        simp
    · refine ⟨⟨fun h => absurd h.1 hr, fun h => absurd (a1.2 ?_) hr⟩, fun h => absurd h.1 hr⟩
      obtain ⟨p, q, r⟩ := h.1 e (by simp)
      refine ⟨p, q, r, ?_⟩
      rcases h.2.2 [] e es rfl with h | h | h
      · exact .inl h
      · exact .inr h
      · simp at h

theorem sameName_tail {x y : Entry} {rdn : RDN} {above m : DN} (hx : entryPutDN C x.dn = some (rdn :: above)) (hy : entryPutDN C y.dn = some m) :
    SameName C above m ↔ putKey C y = (putKey C x).tail := by
  rw [sameName_iff_foldDN]
  simp only [putKey, hx, hy, Option.getD_some]
  exact eq_comm

theorem parentsFirst_iff {es : List Entry} (hne : ∀ e ∈ es, putKey C e ≠ []) :
    ParentsFirst C es ↔ es.Pairwise fun x y => putKey C y ≠ (putKey C x).tail := by
  unfold ParentsFirst
  refine List.Pairwise.iff_of_mem fun {x y} hx hy => ?_
  have name : ∀ e ∈ es, ∃ a p, entryPutDN C e.dn = some (a :: p) := by
    intro e he
    have := hne e he
    unfold putKey at this
    cases h : entryPutDN C e.dn with
    | none => rw [h] at this; exact absurd rfl this
    | some n => cases n with
      | nil => rw [h] at this; exact absurd rfl this
      | cons a p => exact ⟨a, p, rfl⟩
  obtain ⟨a, p, hxn⟩ := name x hx
  obtain ⟨b, q, hyn⟩ := name y hy
  constructor
  · intro h e
    exact h ⟨a, p, _, hxn, hyn, (sameName_tail hxn hyn).2 e⟩
  · rintro h ⟨a', p', m, h1, h2, h3⟩
    exact h ((sameName_tail h1 h2).1 h3)

theorem addable_perm {d : Dir} {es es' : List Entry} (h : Addable C base d es) (hp : es.Perm es') (hf : ParentsFirst C es') : Addable C base d es' := by
  obtain ⟨h1, h2, h3⟩ := h
  have h1' : ∀ e ∈ es', _ := fun e he => h1 e (hp.mem_iff.2 he)
  refine ⟨h1', ((hp.map _).nodup_iff).1 h2, fun l e r he => ?_⟩
  rw [parentsFirst_iff fun e he => (h1' e he).1, he, List.pairwise_append, List.pairwise_cons] at hf
  obtain ⟨l', r', hs⟩ := List.append_of_mem (hp.mem_iff.2 (show e ∈ es' by rw [he]; simp))
  rcases h3 l' e r' hs with h | h | h
  · exact .inl h
  · exact .inr (.inl h)
  · have : (putKey C e).tail ∈ es'.map (putKey C) := (hp.map _).mem_iff.1 (by rw [hs, List.map_append]; exact List.mem_append_left _ h)
    rw [he, List.map_append, List.mem_append, List.map_cons, List.mem_cons] at this
    rcases this with h | h | h
    · exact .inr (.inr h)
    · have hne := (h1' e (by rw [he]; simp)).1
      have := congrArg List.length h
      rw [List.length_tail] at this
      have := List.length_pos_iff.2 hne
      omega
    · obtain ⟨y, hy, hk⟩ := List.mem_map.1 h
      exact absurd hk (hf.2.1.1 y hy)

theorem get_perm {a b : Dir} (h : a.Perm b) (hn : (a.map (·.name)).Nodup) (d : Dir) (k : DN) : Dir.get (d ++ a) k = Dir.get (d ++ b) k := by
  have hn' := ((h.map (·.name)).nodup_iff).1 hn
  have key : ∀ {l : Dir}, (l.map (·.name)).Nodup → ∀ x, l.find? (fun n => n.name = k) = some x ↔ x ∈ l ∧ x.name = k := by
    intro l hl x
    constructor
    · intro h
      exact ⟨List.mem_of_find?_eq_some h, by simpa using List.find?_some h⟩
    · rintro ⟨h1, h2⟩
      cases hf : l.find? (fun n => n.name = k) with
      | none => exact absurd h2 (by simpa using List.find?_eq_none.1 hf x h1)
      | some y =>
        have := nodup_inj hl y (List.mem_of_find?_eq_some hf) x h1 ((by simpa using List.find?_some hf : y.name = k).trans h2.symm)
        rw [this]
  unfold Dir.get
  rw [List.find?_append, List.find?_append]
  have : a.find? (fun n => n.name = k) = b.find? (fun n => n.name = k) := by
    apply Option.ext
    intro x
    rw [key hn, key hn', h.mem_iff]
  rw [this]

/-- Two ways to get directories with the same entries. -/
theorem sameAfter_of_get (hC : C.Lawful) (hG : G.Lawful) (hb : BaseOk C base) (ops us vs : List Op)
    (h : ∀ l, (specRun C validate base (dirAfter C validate base ops) us).2.get l = (specRun C validate base (dirAfter C validate base ops) vs).2.get l) :
    SameAfter C G validate base ops us vs := by
  intro more hh hh' one two
  have hlen := hh.len
  have hlen' := hh'.len
  simp only [List.length_append] at hlen hlen'
  have hokm : ∀ o ∈ more, o.Ok C := fun o ho => hh.ok o (by simp [ho])
  obtain ⟨n1, -, a2, R1, s1⟩ := sim_run_empty (validate := validate) hC hG hb (ops ++ us) (fun o ho => hh.ok o (List.mem_append_left _ ho))
    (by simp only [List.length_append]; omega)
  obtain ⟨n2, -, b2, R2, s2⟩ := sim_run_empty (validate := validate) hC hG hb (ops ++ vs) (fun o ho => hh'.ok o (List.mem_append_left _ ho))
    (by simp only [List.length_append]; omega)
  simp only [List.length_append] at s1 s2
  have hget : ∀ k, (dirOf n1).get k = (dirOf n2).get k := by
    intro k
    rw [← a2, ← b2, specRun_append, specRun_append]
    exact h k
  obtain ⟨m1, c1, c2, Q1, -⟩ := sim_run (validate := validate) hC hG hb more _ _ R1 hokm (by omega)
  obtain ⟨m2, d1, d2, Q2, -⟩ := sim_run (validate := validate) hC hG hb more _ _ R2 hokm (by omega)
  obtain ⟨r1, r2⟩ := run_agree (C := C) (validate := validate) (base := base) more (dirOf n1) (dirOf n2) (fun _ => False)
    (fun l _ => hget l) (fun _ _ _ _ => id)
  refine ⟨c1.trans (r1.trans d1.symm), alike_of_get hC hG Q1 Q2 fun k => ?_⟩
  rw [← c2, ← d2]
  exact r2 k id

theorem histOk_perm {ops : List Op} {es es' : List Entry} (hp : es.Perm es') (h : HistOk C (ops ++ es.map .add)) : HistOk C (ops ++ es'.map .add) := by
  refine ⟨fun o ho => h.ok o ?_, ?_⟩
  · rcases List.mem_append.1 ho with ho | ho
    · exact List.mem_append_left _ ho
    · exact List.mem_append_right _ ((hp.map _).mem_iff.2 ho)
  · have := h.len
    rw [List.length_append, List.length_map] at this ⊢
    rw [← hp.length_eq]
    exact this

/-- C116: entries that can be added to the database one after the other, after any history, can be added in every other order in which no entry comes
after one below it; and whatever is done afterwards, the order makes no difference. -/
theorem C116_adds (hC : C.Lawful) (hG : G.Lawful) (hb : BaseOk C base) (ops : List Op) (es es' : List Entry) (hp : es.Perm es')
    (h : HistOk C (ops ++ es.map .add)) (hfirst : ParentsFirst C es')
    (hr : ∀ r ∈ (boltRun C G validate (render base) (after C G validate base ops) (es.map .add)).1, r = .ok ()) :
    (∀ r ∈ (boltRun C G validate (render base) (after C G validate base ops) (es'.map .add)).1, r = .ok ()) ∧
      SameAfter C G validate base ops (es.map .add) (es'.map .add) := by
  rw [results_spec hC hG hb ops _ h] at hr
  rw [results_spec hC hG hb ops _ (histOk_perm hp h)]
  obtain ⟨a1, a2⟩ := adds_ok_iff (C := C) (validate := validate) (base := base) es (dirAfter C validate base ops)
  obtain ⟨b1, b2⟩ := adds_ok_iff (C := C) (validate := validate) (base := base) es' (dirAfter C validate base ops)
  have hA := a1.1 hr
  have hr' := b1.2 (addable_perm hA hp hfirst)
  refine ⟨hr', sameAfter_of_get hC hG hb ops _ _ fun l => ?_⟩
  rw [a2 hr, b2 hr']
  refine get_perm (hp.map _) ?_ _ l
  rw [List.map_map]
  exact hA.2.1

/-- C116: there is no other order in which they can be added. -/
theorem C116_only (hC : C.Lawful) (hG : G.Lawful) (hb : BaseOk C base) (ops : List Op) (es : List Entry)
    (h : HistOk C (ops ++ es.map .add))
    (hr : ∀ r ∈ (boltRun C G validate (render base) (after C G validate base ops) (es.map .add)).1, r = .ok ()) : ParentsFirst C es := by
  rw [results_spec hC hG hb ops _ h] at hr
  obtain ⟨a1, a2⟩ := adds_ok_iff (C := C) (validate := validate) (base := base) es (dirAfter C validate base ops)
  obtain ⟨h1, h2, h3⟩ := a1.1 hr
  rw [parentsFirst_iff fun e he => (h1 e he).1]
  have long : ∀ e ∈ es, base.length ≤ (putKey C e).length := by
    intro e he
    obtain ⟨ns, -, b2, R, -⟩ := sim_run_empty (G := G) (validate := validate) hC hG hb (ops ++ es.map .add) h.ok h.len
    have hh : (dirOf ns).has (putKey C e) = true := by
      rw [← b2, specRun_append]
      show Dir.has (specRun C validate base (dirAfter C validate base ops) (es.map .add)).2 _ = true
      rw [a2 hr]
      exact List.any_eq_true.2 ⟨⟨putKey C e, e⟩, List.mem_append_right _ (List.mem_map.2 ⟨e, he, rfl⟩), by simp⟩
    obtain ⟨m, hm, hk⟩ := Rel.has_iff.1 hh
    rw [← hk]
    exact (R.forest m hm).1
  rw [List.pairwise_iff_forall_sublist]
  intro x y hs hxy
  obtain ⟨l, r, rfl, hl, hy⟩ : ∃ l r, es = l ++ x :: r ∧ True ∧ y ∈ r := by
    obtain ⟨l, r, e, h1, h2⟩ := List.cons_sublist_iff.1 hs
    obtain ⟨l1, l2, rfl⟩ := List.append_of_mem h1
    exact ⟨l1, l2 ++ r, by rw [e]; simp, trivial, List.mem_append_right _ (List.singleton_sublist.1 h2)⟩
  have hne := (h1 x (by simp)).1
  have hmy : y ∈ l ++ x :: r := by simp [hy]
  rcases h3 l x r rfl with h | h | h
  · have := long y hmy
    rw [hxy, List.length_tail, h] at this
    have := List.length_pos_iff.2 (h ▸ hne)
    omega
  · rw [← hxy, (h1 y hmy).2.2] at h
    cases h
  · rw [← hxy] at h
    rw [List.map_append, List.nodup_append] at h2
    exact h2.2.2 _ h _ (List.mem_map.2 ⟨y, by simp [hy], rfl⟩) rfl

theorem load_all {L : LdifLib} (hC : C.Lawful) (baseText text : Str) (b : DN) (hbt : parseDN C baseText = some b) (hbf : foldDN C b = base) (db : Db)
    (es : List Entry) (hr : ldifRead L text = .ok es) :
    ((loadLDIF C G L baseText db text).1 = .ok () ↔ ∀ r ∈ (boltRun C G validate (render base) db (es.map .add)).1, r = .ok ()) ∧
    ((loadLDIF C G L baseText db text).1 = .ok () → (loadLDIF C G L baseText db text).2 = (boltRun C G validate (render base) db (es.map .add)).2) := by
  have hcb : configuredBase C baseText = render base := by
    simp [configuredBase, parseNormalize, hbt, normalize, hbf]
  obtain ⟨pre, rest, h1, h2, h3, h4, h5⟩ := C49_load_stops (C := C) (G := G) (L := L) (validate := validate) baseText text db es hr
  rw [hcb] at h2 h3 h5
  cases rest with
  | nil =>
    rw [List.append_nil] at h1
    subst h1
    exact ⟨⟨fun _ => h2, fun _ => h4 rfl⟩, fun _ => h3⟩
  | cons e rest =>
    obtain ⟨k1, k2⟩ := h5 e rest rfl
    refine ⟨⟨fun h => absurd h k2, fun h => absurd ?_ k2⟩, fun h => absurd h k2⟩
    rw [k1, h3]
    refine h _ ?_
    rw [h1, List.map_append, List.map_cons, boltRun_append]
    simp [boltRun, boltStep]

/-- C116 for `idm boltdb load`: if a file is loaded with success into a database, after any history, then a file with the same records in another order is
loaded with success if and only if no record comes after one below it; and then the order makes no difference to whatever is done afterwards. -/
theorem C116_load {L : LdifLib} (hC : C.Lawful) (hG : G.Lawful) (hb : BaseOk C base) (ops : List Op) (baseText text text' : Str) (es es' : List Entry) (b : DN)
    (hbt : parseDN C baseText = some b) (hbf : foldDN C b = base) (hr : ldifRead L text = .ok es) (hr' : ldifRead L text' = .ok es') (hp : es.Perm es')
    (h : HistOk C (ops ++ es.map .add)) (hl : (loadLDIF C G L baseText (after C G validate base ops) text).1 = .ok ()) :
    ((loadLDIF C G L baseText (after C G validate base ops) text').1 = .ok () ↔ ParentsFirst C es') ∧
    (ParentsFirst C es' → ∀ more, HistOk C (ops ++ es.map .add ++ more) →
      let one := boltRun C G validate (render base) (loadLDIF C G L baseText (after C G validate base ops) text).2 more
      let two := boltRun C G validate (render base) (loadLDIF C G L baseText (after C G validate base ops) text').2 more
      one.1 = two.1 ∧ AnswerAlike C G one.2 two.2) := by
  obtain ⟨a1, a2⟩ := load_all (G := G) (L := L) (validate := validate) hC baseText text b hbt hbf (after C G validate base ops) es hr
  obtain ⟨b1, b2⟩ := load_all (G := G) (L := L) (validate := validate) hC baseText text' b hbt hbf (after C G validate base ops) es' hr'
  have hh := histOk_perm hp h
  refine ⟨⟨fun k => C116_only hC hG hb ops es' hh (b1.1 k), fun k => b1.2 (C116_adds hC hG hb ops es es' hp h k (a1.1 hl)).1⟩, fun k more hm => ?_⟩
  obtain ⟨k1, k2⟩ := C116_adds hC hG hb ops es es' hp h k (a1.1 hl)
  have := k2 more hm ⟨fun o ho => ?_, ?_⟩
  · rw [a2 hl, b2 (b1.2 k1)]
    simp only [after, boltRun_append] at this
    exact this
  · rcases List.mem_append.1 ho with ho | ho
    · exact hh.ok o ho
    · exact hm.ok o (List.mem_append_right _ ho)
  · have := hm.len
    simp only [List.length_append, List.length_map] at this ⊢
    rw [← hp.length_eq]
    exact this

end

/-! ## Concrete cases -/

def shufEs : List Entry := [⟨b!"dc=lg", [⟨b!"dc", [b!"lg"]⟩]⟩, ⟨b!"ou=p,dc=lg", [⟨b!"ou", [b!"p"]⟩]⟩, ⟨b!"ou=q,dc=lg", [⟨b!"ou", [b!"q"]⟩]⟩,
  ⟨b!"uid=a,ou=p,dc=lg", [⟨b!"uid", [b!"a"]⟩]⟩, ⟨b!"uid=b,OU=q,dc=lg", [⟨b!"uid", [b!"b"]⟩]⟩]

/-- The same entries, each unit followed by what is below it. -/
def shufEs' : List Entry := [⟨b!"dc=lg", [⟨b!"dc", [b!"lg"]⟩]⟩, ⟨b!"ou=q,dc=lg", [⟨b!"ou", [b!"q"]⟩]⟩, ⟨b!"uid=b,OU=q,dc=lg", [⟨b!"uid", [b!"b"]⟩]⟩,
  ⟨b!"ou=p,dc=lg", [⟨b!"ou", [b!"p"]⟩]⟩, ⟨b!"uid=a,ou=p,dc=lg", [⟨b!"uid", [b!"a"]⟩]⟩]

/-- The same entries, with the user before the unit. -/
def shufBad : List Entry := [⟨b!"dc=lg", [⟨b!"dc", [b!"lg"]⟩]⟩, ⟨b!"ou=q,dc=lg", [⟨b!"ou", [b!"q"]⟩]⟩, ⟨b!"uid=b,OU=q,dc=lg", [⟨b!"uid", [b!"b"]⟩]⟩,
  ⟨b!"uid=a,ou=p,dc=lg", [⟨b!"uid", [b!"a"]⟩]⟩, ⟨b!"ou=p,dc=lg", [⟨b!"ou", [b!"p"]⟩]⟩]

theorem shuf_perm : shufEs.Perm shufEs' := by decide +kernel

theorem shuf_first : ParentsFirst asciiCase shufEs' :=
  C116_only (G := gobInstance) (validate := exValidate) asciiCase_lawful gobInstance_lawful exBase_ok [] shufEs' (by decide +kernel) (by decide +kernel)

theorem shufBad_not : ¬ ParentsFirst asciiCase shufBad := by
  intro h
  have := (List.pairwise_iff_getElem.1 h) 3 4 (by decide) (by decide) (by decide)
  exact this ⟨[⟨b!"uid", b!"a"⟩], [[⟨b!"ou", b!"p"⟩], [⟨b!"dc", b!"lg"⟩]], [[⟨b!"ou", b!"p"⟩], [⟨b!"dc", b!"lg"⟩]], by decide +kernel, by decide +kernel, rfl⟩

/-- hypotheses of C116: the two orders, in an empty database and after another history; the file written either way, and the order that is refused -/
example : shufEs.Perm shufEs' ∧ HistOk asciiCase (shufEs.map .add) ∧ ParentsFirst asciiCase shufEs' ∧
    (∀ r ∈ (boltRun asciiCase gobInstance exValidate (render exBase) Db.empty (shufEs.map .add)).1, r = .ok ()) ∧
    parseDN asciiCase b!"dc=lg" = some exBase ∧ ldifRead goLdif (exText shufEs) = .ok shufEs ∧ ldifRead goLdif (exText shufEs') = .ok shufEs' ∧
    (loadLDIF asciiCase gobInstance goLdif b!"dc=lg" Db.empty (exText shufEs)).1 = .ok () ∧
    shufEs.Perm shufBad ∧ ¬ ParentsFirst asciiCase shufBad ∧
    (loadLDIF asciiCase gobInstance goLdif b!"dc=lg" Db.empty (exText shufBad)).1 ≠ .ok () :=
  ⟨shuf_perm, by decide +kernel, shuf_first, by decide +kernel, by decide +kernel, by decide +kernel, by decide +kernel, by decide +kernel, by decide +kernel, shufBad_not,
    by decide +kernel⟩

end Idm
