import Verif.Spec.Undo
import Verif.Props.Repeat
/-!
# C114: changes that are taken back
-/
namespace Idm

section
variable {C : CaseEnv} {G : GobEnv} {validate : Str → Str → Res Bool} {base : DN}

theorem noTrace_of_get (hC : C.Lawful) (hG : G.Lawful) (hb : BaseOk C base) (ops us : List Op)
    (h : ∀ l, (specRun C validate base (dirAfter C validate base ops) us).2.get l = (dirAfter C validate base ops).get l) :
    NoTrace C G validate base ops us := by
  intro more hh made not
  have hlen := hh.len
  simp only [List.length_append] at hlen
  have hok : ∀ o ∈ ops ++ us, o.Ok C := fun o ho => hh.ok o (List.mem_append_left _ ho)
  have hokm : ∀ o ∈ more, o.Ok C := fun o ho => hh.ok o (by simp [ho])
  obtain ⟨n1, -, a2, R1, s1⟩ := sim_run_empty (validate := validate) hC hG hb (ops ++ us) hok (by simp only [List.length_append]; omega)
  obtain ⟨n2, -, b2, R2, s2⟩ := sim_run_empty (validate := validate) hC hG hb ops (fun o ho => hok o (List.mem_append_left _ ho)) (by omega)
  simp only [List.length_append] at s1
  have hget : ∀ k, (dirOf n1).get k = (dirOf n2).get k := by
    intro k
    rw [← a2, ← b2, specRun_append]
    exact h k
  obtain ⟨m1, c1, c2, Q1, -⟩ := sim_run (validate := validate) hC hG hb more _ _ R1 hokm (by omega)
  obtain ⟨m2, d1, d2, Q2, -⟩ := sim_run (validate := validate) hC hG hb more _ _ R2 hokm (by omega)
  obtain ⟨r1, r2⟩ := run_agree (C := C) (validate := validate) (base := base) more (dirOf n1) (dirOf n2) (fun _ => False)
    (fun l _ => hget l) (fun _ _ _ _ => id)
  refine ⟨c1.trans (r1.trans d1.symm), alike_of_get hC hG Q1 Q2 fun k => ?_⟩
  rw [← c2, ← d2]
  exact r2 k id

/-- The results of calls are those of the abstract directory. -/
theorem results_spec (hC : C.Lawful) (hG : G.Lawful) (hb : BaseOk C base) (ops us : List Op) (h : HistOk C (ops ++ us)) :
    (boltRun C G validate (render base) (after C G validate base ops) us).1 = (specRun C validate base (dirAfter C validate base ops) us).1 := by
  have hlen := h.len
  simp only [List.length_append] at hlen
  obtain ⟨n2, -, b2, R2, s2⟩ := sim_run_empty (validate := validate) hC hG hb ops (fun o ho => h.ok o (List.mem_append_left _ ho)) (by omega)
  obtain ⟨m1, c1, -⟩ := sim_run (validate := validate) hC hG hb us _ _ R2 (fun o ho => h.ok o (List.mem_append_right _ ho)) (by omega)
  rw [dirAfter, b2]
  exact c1

/-- What a search of an entry finds is what the directory has. -/
theorem found_get (hC : C.Lawful) (hG : G.Lawful) (hb : BaseOk C base) (ops : List Op) (h : HistOk C ops) {text : Str} {name : DN}
    (hp : parseDN C text = some name) (hok : NameOk name) {e : Entry}
    (hf : boltSearch C G (after C G validate base ops) text scopeBase = .ok ([e], none)) :
    (dirAfter C validate base ops).get (foldDN C name) = some e := by
  obtain ⟨ns, -, b2, R, -⟩ := sim_run_empty (validate := validate) hC hG hb ops h.ok h.len
  have S := serves_of_rel hC hG R
  rw [dirAfter, b2]
  cases hg : (dirOf ns).get (foldDN C name) with
  | none =>
    have hh : (dirOf ns).has (foldDN C name) = false := by rw [has_get, hg]; rfl
    have := (S text name hp hok scopeBase).2 hh
    rw [show boltSearch C G _ text scopeBase = _ from this] at hf
    simp at hf
  | some e' =>
    have := serves_get S hp hok hg
    rw [show boltSearch C G _ text scopeBase = _ from this] at hf
    simp at hf
    rw [hf]

/-- C114: after any history, adding an entry and deleting it again leaves no trace. -/
theorem C114_add_delete (hC : C.Lawful) (hG : G.Lawful) (hb : BaseOk C base) (ops : List Op) (e : Entry) (text : Str)
    (h : HistOk C (ops ++ [.add e, .delete text])) {n m : DN} (hn : entryPutDN C e.dn = some n) (hm : parseDN C text = some m) (hs : SameName C n m)
    (hr : (boltRun C G validate (render base) (after C G validate base ops) [.add e, .delete text]).1 = [.ok (), .ok ()]) :
    NoTrace C G validate base ops [.add e, .delete text] := by
  rw [results_spec hC hG hb ops _ h] at hr
  refine noTrace_of_get hC hG hb ops _ fun l => ?_
  generalize dirAfter C validate base ops = d at hr ⊢
  have hk := (sameName_iff_foldDN n m).1 hs
  simp only [specRun, List.cons.injEq, and_true, specStep, hn, hm, specAdd, specDelete] at hr ⊢
  by_cases hn0 : n = []
  · rw [if_pos hn0] at hr; simp at hr
  · rw [if_neg hn0] at hr ⊢
    by_cases hm0 : m = []
    · rw [if_pos hm0] at hr; simp at hr
    · rw [if_neg hm0] at hr ⊢
      rw [← hk] at hr ⊢
      generalize foldDN C n = k at hr ⊢
      obtain ⟨h1, h2⟩ := hr
      have ha : d.has k = false ∧ specAddAt base d k e = (.ok (), d ++ [⟨k, e⟩]) := by
        unfold specAddAt at h1 ⊢
        split at h1
        · simp at h1
        · rename_i h0
          split at h1
          · simp at h1
          · rename_i hh
            split at h1
            · simp at h1
            · rename_i h3
              split at h1
              · simp at h1
              · rename_i h4
                exact ⟨by simpa using hh, by rw [if_neg h0, if_neg hh, if_neg h3, if_neg h4]⟩
      rw [ha.2] at h2 ⊢
      dsimp only at h2 ⊢
      have hd : (specDeleteAt (d ++ [⟨k, e⟩]) k).2 = Dir.remove (d ++ [⟨k, e⟩]) k := by
        unfold specDeleteAt at h2 ⊢
        split at h2
        · simp at h2
        · split at h2
          · simp at h2
          · split at h2
            · simp at h2
            · simp [*]
      rw [hd]
      by_cases hl : l = k
      · subst hl
        rw [get_remove_self]
        have := ha.1
        rw [has_get] at this
        cases hg : d.get l with
        | none => rfl
        | some _ => rw [hg] at this; cases this
      · rw [get_remove hl, get_append, if_neg fun e => hl e.symm]
        cases d.get l <;> rfl

/-- C114: after any history, deleting an entry and adding it again, as a search had found it, leaves no trace. -/
theorem C114_delete_add (hC : C.Lawful) (hG : G.Lawful) (hb : BaseOk C base) (ops : List Op) (e : Entry) (text : Str)
    (h : HistOk C (ops ++ [.delete text, .add e])) {n m : DN} (hn : entryPutDN C e.dn = some n) (hm : parseDN C text = some m) (hs : SameName C n m)
    (hf : boltSearch C G (after C G validate base ops) text scopeBase = .ok ([e], none))
    (hr : (boltRun C G validate (render base) (after C G validate base ops) [.delete text, .add e]).1 = [.ok (), .ok ()]) :
    NoTrace C G validate base ops [.delete text, .add e] := by
  have hlen := h.len
  simp only [List.length_append, List.length_cons, List.length_nil] at hlen
  have hg := found_get (validate := validate) hC hG hb ops ⟨fun o ho => h.ok o (List.mem_append_left _ ho), by omega⟩ hm
    (h.ok (.delete text) (by simp) m hm) hf
  rw [results_spec hC hG hb ops _ h] at hr
  refine noTrace_of_get hC hG hb ops _ fun l => ?_
  generalize dirAfter C validate base ops = d at hr hg ⊢
  have hk := (sameName_iff_foldDN n m).1 hs
  simp only [specRun, List.cons.injEq, and_true, specStep, hn, hm, specAdd, specDelete] at hr ⊢
  by_cases hm0 : m = []
  · rw [if_pos hm0] at hr; simp at hr
  · rw [if_neg hm0] at hr ⊢
    by_cases hn0 : n = []
    · rw [if_pos hn0] at hr; simp at hr
    · rw [if_neg hn0] at hr ⊢
      rw [← hk] at hr hg ⊢
      generalize foldDN C n = k at hr hg ⊢
      obtain ⟨h1, h2⟩ := hr
      have hd : (specDeleteAt d k).2 = d.remove k := by
        unfold specDeleteAt at h1 ⊢
        split at h1
        · simp at h1
        · split at h1
          · simp at h1
          · split at h1
            · simp at h1
            · simp [*]
      rw [hd] at h2 ⊢
      have ha : (specAddAt base (d.remove k) k e).2 = d.remove k ++ [⟨k, e⟩] := by
        unfold specAddAt at h2 ⊢
        split at h2
        · simp at h2
        · rename_i h0
          split at h2
          · simp at h2
          · rename_i hh
            split at h2
            · simp at h2
            · rename_i h3
              split at h2
              · simp at h2
              · rename_i h4
                rw [if_neg h0, if_neg hh, if_neg h3, if_neg h4]
      rw [ha, get_append]
      by_cases hl : l = k
      · subst hl
        rw [get_remove_self, if_pos rfl, hg]
        rfl
      · rw [get_remove hl, if_neg fun e => hl e.symm]
        cases d.get l <;> rfl

/-! ## Modifications -/

theorem allAre_of_unique {as : List Attr} (hu : UniqueNames C as) (hv : ∀ a ∈ as, a.vals ≠ []) (t : Str) : AllAre C as t (valuesOf C as t) := by
  have key : ∀ a ∈ as, C.fold a.name = C.fold t → valuesOf C as t = a.vals := by
    clear hv
    induction as with
    | nil => simp
    | cons b as ih =>
      unfold UniqueNames at hu ih
      rw [List.map_cons, List.nodup_cons] at hu
      intro a ha he
      rcases List.mem_cons.1 ha with rfl | ha
      · have : as.filter (fun a => C.fold a.name = C.fold t) = [] := by
          rw [List.filter_eq_nil_iff]
          intro x hx hxe
          exact hu.1 (List.mem_map.2 ⟨x, hx, (of_decide_eq_true hxe).trans he.symm⟩)
        unfold valuesOf
        rw [List.filter_cons, if_pos (decide_eq_true he), this]
        simp
      · have hb : ¬ C.fold b.name = C.fold t := fun hb => hu.1 (List.mem_map.2 ⟨a, ha, he.trans hb.symm⟩)
        unfold valuesOf at ih ⊢
        rw [List.filter_cons, if_neg (by simpa using hb)]
        exact ih hu.2 a ha he
  refine ⟨fun a ha he => (key a ha he).symm, fun hne => ?_, fun ⟨a, ha, he⟩ => key a ha he ▸ hv a ha⟩
  by_cases hx : ∃ a ∈ as, C.fold a.name = C.fold t
  · exact hx
  · refine absurd ?_ hne
    unfold valuesOf
    rw [List.filter_eq_nil_iff.2 fun a ha he => hx ⟨a, ha, of_decide_eq_true he⟩]
    rfl

theorem replaceLoop_twice {n : Str} {v w : List Str} (hv : v ≠ []) (as : List Attr) :
    replaceLoop C n w (replaceLoop C n v as) = replaceLoop C n w as := by
  induction as with
  | nil => rfl
  | cons a as ih =>
    by_cases h : C.fold a.name = n
    · simp only [replaceLoop, if_pos h, if_neg hv, ih]
    · simp only [replaceLoop, if_neg h, ih]

theorem replaceLoop_none {n : Str} {w : List Str} {as : List Attr} (h : ∀ a ∈ as, C.fold a.name ≠ n) : replaceLoop C n w as = as :=
  replaceLoop_fixed fun a ha e => absurd e (h a ha)

theorem replaceLoop_append (n : Str) (w : List Str) (as bs : List Attr) :
    replaceLoop C n w (as ++ bs) = replaceLoop C n w as ++ replaceLoop C n w bs := by
  induction as with
  | nil => rfl
  | cons a as ih =>
    rw [List.cons_append, replaceLoop, replaceLoop, ih]
    split
    · split <;> simp
    · simp

theorem replaceLoop_any {n : Str} {v : List Str} (hv : v ≠ []) (as : List Attr) :
    (replaceLoop C n v as).any (fun a => C.fold a.name = n) = as.any fun a => C.fold a.name = n := by
  induction as with
  | nil => rfl
  | cons a as ih =>
    by_cases h : C.fold a.name = n
    · simp [replaceLoop, h, hv]
    · simp only [replaceLoop, if_neg h, List.any_cons, ih]

/-- Setting the values of an attribute type and then setting them back gives the attributes there were. -/
theorem entryReplaceValues_back {as : List Attr} {t : Str} {v w : List Str} (h : AllAre C as t w) (hv : v ≠ []) :
    entryReplaceValues C (entryReplaceValues C as t v) t w = as := by
  by_cases hx : as.any (fun a => C.fold a.name = C.fold t) = true
  · have h1 : entryReplaceValues C as t v = replaceLoop C (C.fold t) v as := by
      unfold entryReplaceValues
      rw [if_pos hx]
    have h2 := entryReplaceValues_fixed h
    unfold entryReplaceValues at h2
    rw [if_pos hx] at h2
    rw [h1]
    unfold entryReplaceValues
    rw [if_pos (by rw [replaceLoop_any hv]; exact hx), replaceLoop_twice hv, h2]
  · have hno : ∀ a ∈ as, C.fold a.name ≠ C.fold t := fun a ha e => hx (List.any_eq_true.2 ⟨a, ha, decide_eq_true e⟩)
    have hw : w = [] := Classical.byContradiction fun hw => by
      obtain ⟨a, ha, e⟩ := h.2.1 hw
      exact hno a ha e
    have h1 : entryReplaceValues C as t v = as ++ [⟨t, v⟩] := by
      unfold entryReplaceValues
      rw [if_neg hx, if_neg hv, replaceLoop_none hno]
    rw [h1, hw]
    unfold entryReplaceValues
    rw [if_pos (by simp), replaceLoop_append, replaceLoop_none hno]
    simp [replaceLoop]

theorem applyModify_one {e e' : Entry} {d : Str} {c : Change} (h : applyModify C e d [c] = .ok e') :
    e'.dn = e.dn ∧ ∃ rdn, applyChange C rdn e.attrs e.attrs c = .ok e'.attrs := by
  obtain ⟨rdn, rest, md, hp, hm, hq, hdn, hch⟩ := applyModify_ok h
  obtain ⟨as1, h1, h2⟩ := applyChanges_cons hch
  simp only [applyChanges, Res.ok.injEq] at h2
  exact ⟨hdn, rdn, h2 ▸ h1⟩

/-- Adding values an entry does not have and deleting them again gives the entry there was. -/
theorem modify_add_delete (hC : C.Lawful) {e e1 e2 : Entry} {d d' t t' : Str} {vs : List Str} (hn : AsciiNames e.attrs) (hu : UniqueNames C e.attrs)
    (hv : ∀ a ∈ e.attrs, a.vals ≠ []) (ht : IsAscii t) (hs : C.fold t' = C.fold t) (hvs : vs ≠ []) (hnew : ∀ v ∈ vs, ¬ HasValue C e.attrs t v)
    (h1 : applyModify C e d [⟨0, t, vs⟩] = .ok e1) (h2 : applyModify C e1 d' [⟨1, t', vs⟩] = .ok e2) : e2 = e := by
  obtain ⟨d1, r1, a1⟩ := applyModify_one h1
  obtain ⟨d2, r2, a2⟩ := applyModify_one h2
  have hall := allAre_of_unique hu hv t
  have hg := (getVals_first hC ht hn).trans hall.first
  have hadd : entryApplyModAdd C (valuesOf C e.attrs t) vs = valuesOf C e.attrs t ++ vs := by
    unfold entryApplyModAdd
    rw [List.filter_eq_self.2]
    intro v hv'
    simp only [Bool.not_eq_true', List.any_eq_false, decide_eq_true_eq]
    exact fun w hw e' => hnew v hv' ⟨w, hw, e'.symm⟩
  have hne : valuesOf C e.attrs t ++ vs ≠ [] := by simp [hvs]
  have e1a : e1.attrs = entryReplaceValues C e.attrs t (valuesOf C e.attrs t ++ vs) := by
    unfold applyChange at a1
    rw [if_pos (show (0 : Nat) = opAdd from rfl), hg, hadd] at a1
    simp only [Res.ok.injEq] at a1
    exact a1.symm
  have hn1 : AsciiNames e1.attrs := applyChange_ascii a1 ht hn
  have hall1 : AllAre C e1.attrs t (valuesOf C e.attrs t ++ vs) := e1a ▸ entryReplaceValues_all _ _ _
  have hg1 := (getVals_first hC ht hn1).trans hall1.first
  have hdel : entryApplyModDelete C (valuesOf C e.attrs t ++ vs) vs = valuesOf C e.attrs t := by
    unfold entryApplyModDelete
    rw [if_neg hvs, List.filter_append, List.filter_eq_self.2, List.filter_eq_nil_iff.2, List.append_nil]
    · intro v hv'
      simp only [Bool.not_eq_true', Bool.not_eq_false, List.any_eq_true, decide_eq_true_eq]
      exact ⟨v, hv', rfl⟩
    · intro w hw
      simp only [Bool.not_eq_true', List.any_eq_false, decide_eq_true_eq]
      exact fun v hv' e' => hnew v hv' ⟨w, hw, e'⟩
  have e2a : e2.attrs = entryReplaceValues C e1.attrs t' (valuesOf C e.attrs t) := by
    unfold applyChange at a2
    rw [if_neg (show ¬ (1 : Nat) = opAdd by decide), if_neg (show ¬ (1 : Nat) = opReplace by decide), if_pos (show (1 : Nat) = opDelete from rfl)] at a2
    split at a2
    · simp at a2
    · rw [hs, hg1, hdel] at a2
      simp only [Res.ok.injEq] at a2
      exact a2.symm
  have heq : entryReplaceValues C e1.attrs t' (valuesOf C e.attrs t) = entryReplaceValues C e1.attrs t (valuesOf C e.attrs t) := by
    have : e1.attrs.any (fun a => C.fold a.name = C.fold t) = true := by
      obtain ⟨a, ha, e'⟩ := hall1.2.1 hne
      exact List.any_eq_true.2 ⟨a, ha, decide_eq_true e'⟩
    unfold entryReplaceValues
    rw [hs, if_pos this, if_pos this]
  have hA : e2.attrs = e.attrs := by
    rw [e2a, heq, e1a]
    exact entryReplaceValues_back hall hne
  rw [show e2 = ⟨e2.dn, e2.attrs⟩ from rfl, d2, d1, hA]

/-- Replacing the values of an attribute type and replacing them by the values there were gives the entry there was. -/
theorem modify_replace_back {e e1 e2 : Entry} {d d' t t' : Str} {vs : List Str} (hu : UniqueNames C e.attrs)
    (hv : ∀ a ∈ e.attrs, a.vals ≠ []) (hs : C.fold t' = C.fold t) (hvs : vs ≠ [])
    (h1 : applyModify C e d [⟨2, t, vs⟩] = .ok e1) (h2 : applyModify C e1 d' [⟨2, t', valuesOf C e.attrs t⟩] = .ok e2) : e2 = e := by
  obtain ⟨d1, r1, a1⟩ := applyModify_one h1
  obtain ⟨d2, r2, a2⟩ := applyModify_one h2
  have hall := allAre_of_unique hu hv t
  have key : ∀ {r as as' t vs}, applyChange C r as as ⟨2, t, vs⟩ = .ok as' → as' = entryReplaceValues C as t vs := by
    intro r as as' t vs h
    unfold applyChange at h
    rw [if_neg (show ¬ (2 : Nat) = opAdd by decide), if_pos (show (2 : Nat) = opReplace from rfl)] at h
    split at h
    · simp at h
    · simpa using h.symm
  have e1a := key a1
  have e2a := key a2
  have heq : entryReplaceValues C e1.attrs t' (valuesOf C e.attrs t) = entryReplaceValues C e1.attrs t (valuesOf C e.attrs t) := by
    have hall1 : AllAre C e1.attrs t vs := e1a ▸ entryReplaceValues_all _ _ _
    have : e1.attrs.any (fun a => C.fold a.name = C.fold t) = true := by
      obtain ⟨a, ha, e'⟩ := hall1.2.1 hvs
      exact List.any_eq_true.2 ⟨a, ha, decide_eq_true e'⟩
    unfold entryReplaceValues
    rw [hs, if_pos this, if_pos this]
  have hA : e2.attrs = e.attrs := by
    rw [e2a, heq, e1a]
    exact entryReplaceValues_back hall hvs
  rw [show e2 = ⟨e2.dn, e2.attrs⟩ from rfl, d2, d1, hA]

theorem modify_twice {d : Dir} {k : DN} {e : Entry} {t1 t2 : Str} {cs1 cs2 : List Change} (hg : d.get k = some e)
    (h1 : (specModifyAt C d k t1 cs1).1 = .ok ()) (h2 : (specModifyAt C (specModifyAt C d k t1 cs1).2 k t2 cs2).1 = .ok ())
    (hback : ∀ e1 e2, applyModify C e t1 cs1 = .ok e1 → applyModify C e1 t2 cs2 = .ok e2 → e2 = e) (l : DN) :
    (specModifyAt C (specModifyAt C d k t1 cs1).2 k t2 cs2).2.get l = d.get l := by
  cases hm : applyModify C e t1 cs1 with
  | err x => simp [specModifyAt, hg, hm] at h1
  | panic => simp [specModifyAt, hg, hm] at h1
  | hang => simp [specModifyAt, hg, hm] at h1
  | ok e1 =>
    have hs1 : (specModifyAt C d k t1 cs1).2 = d.setEntry k e1 := by simp [specModifyAt, hg, hm]
    have hg1 : (d.setEntry k e1).get k = some e1 := by simp [get_setEntry, hg]
    rw [hs1] at h2 ⊢
    cases hm2 : applyModify C e1 t2 cs2 with
    | err x => simp [specModifyAt, hg1, hm2] at h2
    | panic => simp [specModifyAt, hg1, hm2] at h2
    | hang => simp [specModifyAt, hg1, hm2] at h2
    | ok e2 =>
      have hs2 : (specModifyAt C (d.setEntry k e1) k t2 cs2).2 = (d.setEntry k e1).setEntry k e2 := by simp [specModifyAt, hg1, hm2]
      rw [hs2, hback e1 e2 hm hm2]
      by_cases hl : l = k
      · subst hl
        simp [get_setEntry, hg]
      · simp [get_setEntry, hl]


theorem modified_noTrace (hC : C.Lawful) (hG : G.Lawful) (hb : BaseOk C base) (ops : List Op) (e : Entry) (text text' : Str) (cs cs' : List Change)
    (h : HistOk C (ops ++ [.modify text cs, .modify text' cs'])) {n m : DN} (hn : parseDN C text = some n) (hm : parseDN C text' = some m)
    (hs : SameName C n m) (hf : boltSearch C G (after C G validate base ops) text scopeBase = .ok ([e], none))
    (hr : (boltRun C G validate (render base) (after C G validate base ops) [.modify text cs, .modify text' cs']).1 = [.ok (), .ok ()])
    (hback : ∀ e1 e2, applyModify C e text cs = .ok e1 → applyModify C e1 text' cs' = .ok e2 → e2 = e) :
    NoTrace C G validate base ops [.modify text cs, .modify text' cs'] := by
  have hlen := h.len
  simp only [List.length_append, List.length_cons, List.length_nil] at hlen
  have hg := found_get (validate := validate) hC hG hb ops ⟨fun o ho => h.ok o (List.mem_append_left _ ho), by omega⟩ hn
    (h.ok (.modify text cs) (by simp) n hn) hf
  rw [results_spec hC hG hb ops _ h] at hr
  refine noTrace_of_get hC hG hb ops _ fun l => ?_
  generalize dirAfter C validate base ops = d at hr hg ⊢
  have hk := (sameName_iff_foldDN n m).1 hs
  simp only [specRun, List.cons.injEq, and_true, specStep, hn, hm, specModify, ← hk] at hr ⊢
  exact modify_twice hg hr.1 hr.2 hback l

/-- C114: after any history, adding values that an entry does not have and deleting them again leaves no trace. -/
theorem C114_add_values (hC : C.Lawful) (hG : G.Lawful) (hb : BaseOk C base) (ops : List Op) (e : Entry) (text text' t t' : Str) (vs : List Str)
    (h : HistOk C (ops ++ [.modify text [⟨0, t, vs⟩], .modify text' [⟨1, t', vs⟩]])) {n m : DN} (hn : parseDN C text = some n)
    (hm : parseDN C text' = some m) (hs : SameName C n m) (hf : boltSearch C G (after C G validate base ops) text scopeBase = .ok ([e], none))
    (ha : AsciiNames e.attrs) (hu : UniqueNames C e.attrs) (hv : ∀ a ∈ e.attrs, a.vals ≠ []) (ht : IsAscii t) (ht' : C.fold t' = C.fold t)
    (hvs : vs ≠ []) (hnew : ∀ v ∈ vs, ¬ HasValue C e.attrs t v)
    (hr : (boltRun C G validate (render base) (after C G validate base ops) [.modify text [⟨0, t, vs⟩], .modify text' [⟨1, t', vs⟩]]).1 =
      [.ok (), .ok ()]) :
    NoTrace C G validate base ops [.modify text [⟨0, t, vs⟩], .modify text' [⟨1, t', vs⟩]] :=
  modified_noTrace hC hG hb ops e text text' _ _ h hn hm hs hf hr fun _ _ h1 h2 => modify_add_delete hC ha hu hv ht ht' hvs hnew h1 h2

/-- C114: after any history, replacing the values of an attribute type and then putting back the values a search had found leaves no trace. -/
theorem C114_replace_values (hC : C.Lawful) (hG : G.Lawful) (hb : BaseOk C base) (ops : List Op) (e : Entry) (text text' t t' : Str) (vs : List Str)
    (h : HistOk C (ops ++ [.modify text [⟨2, t, vs⟩], .modify text' [⟨2, t', valuesOf C e.attrs t⟩]])) {n m : DN} (hn : parseDN C text = some n)
    (hm : parseDN C text' = some m) (hs : SameName C n m) (hf : boltSearch C G (after C G validate base ops) text scopeBase = .ok ([e], none))
    (hu : UniqueNames C e.attrs) (hv : ∀ a ∈ e.attrs, a.vals ≠ []) (ht' : C.fold t' = C.fold t) (hvs : vs ≠ [])
    (hr : (boltRun C G validate (render base) (after C G validate base ops)
      [.modify text [⟨2, t, vs⟩], .modify text' [⟨2, t', valuesOf C e.attrs t⟩]]).1 = [.ok (), .ok ()]) :
    NoTrace C G validate base ops [.modify text [⟨2, t, vs⟩], .modify text' [⟨2, t', valuesOf C e.attrs t⟩]] :=
  modified_noTrace hC hG hb ops e text text' _ _ h hn hm hs hf hr fun _ _ h1 h2 => modify_replace_back hu hv ht' hvs h1 h2

/-! ## Renames -/

theorem applyModify_unique {e e' : Entry} {d : Str} {cs : List Change} (h : applyModify C e d cs = .ok e') (hu : UniqueNames C e.attrs) :
    UniqueNames C e'.attrs := by
  obtain ⟨rdn, rest, md, hp, hm, hq, hdn, hch⟩ := applyModify_ok h
  clear h
  generalize e.attrs = old at hch hu
  have : ∀ (cs : List Change) (as as' : List Attr), UniqueNames C as → applyChanges C rdn old as cs = .ok as' → UniqueNames C as' := by
    intro cs
    induction cs with
    | nil => intro as as' hu h; simp [applyChanges] at h; exact h ▸ hu
    | cons c cs ih =>
      intro as as' hu h
      obtain ⟨as1, h1, h2⟩ := applyChanges_cons h
      exact ih as1 as' (applyChange_unique h1 hu) h2
  exact this cs old _ hu hch

theorem applyModify_ascii {e e' : Entry} {d : Str} {cs : List Change} (h : applyModify C e d cs = .ok e') (ht : ∀ c ∈ cs, IsAscii c.typ)
    (hn : AsciiNames e.attrs) : AsciiNames e'.attrs := by
  obtain ⟨rdn, rest, md, hp, hm, hq, hdn, hch⟩ := applyModify_ok h
  exact applyChanges_ascii hch ht hn

/-- A renamed entry has ASCII attribute names, different up to case, if it had before. -/
theorem rename_keeps (hC : C.Lawful) (hG : G.Lawful) (hb : BaseOk C base) (ops : List Op) (req : ModifyDNReq) (h : HistOk C (ops ++ [.rename req]))
    {o n : RDN} {p q r : DN} {text : Str} (ho : parseDN C req.dn = some (o :: p)) (hn : parseDN C req.newRDN = some (n :: q))
    (hok : (boltStep C G validate (render base) (after C G validate base ops) (.rename req)).1 = .ok ())
    (hr : parseDN C text = some r) (hrok : NameOk r) (hs : SameName C r (n :: p)) {e e' : Entry}
    (hf : boltSearch C G (after C G validate base ops) req.dn scopeBase = .ok ([e], none))
    (hf' : boltSearch C G (after C G validate base (ops ++ [.rename req])) text scopeBase = .ok ([e'], none)) :
    (AsciiNames e.attrs → AsciiNames e'.attrs) ∧ (UniqueNames C e.attrs → UniqueNames C e'.attrs) := by
  have hlen := h.len
  simp only [List.length_append, List.length_cons, List.length_nil] at hlen
  have hro : Op.Ok C (.rename req) := h.ok _ (by simp)
  have hg := found_get (validate := validate) hC hG hb ops ⟨fun o ho => h.ok o (List.mem_append_left _ ho), by omega⟩ ho (hro.1 _ ho) hf
  have hg' := found_get (validate := validate) hC hG hb _ h hr hrok hf'
  have hres := results_spec (validate := validate) hC hG hb ops [.rename req] h
  simp only [boltRun, specRun, List.cons.injEq, and_true] at hres
  rw [hok] at hres
  rw [(sameName_iff_foldDN _ _).1 hs, dirAfter, specRun_append] at hg'
  simp only [specRun] at hg'
  rw [dirAfter] at hres hg
  generalize (specRun C validate base [] ops).2 = d at hres hg hg'
  simp only [specStep, ho, hn, specRename] at hres hg'
  have hta : ∀ c ∈ (if req.deleteOldRDN = true then o.map fun a => (⟨opDelete, a.typ, [a.val]⟩ : Change) else []) ++
      n.map (fun a => (⟨opAdd, a.typ, [a.val]⟩ : Change)), IsAscii c.typ := by
    intro c hc
    rcases List.mem_append.1 hc with hc | hc
    · split at hc
      · obtain ⟨x, hx, rfl⟩ := List.mem_map.1 hc
        exact typeOk_ascii ((hro.1 _ ho o List.mem_cons_self).2 x hx)
      · simp at hc
    · obtain ⟨x, hx, rfl⟩ := List.mem_map.1 hc
      exact typeOk_ascii ((hro.2 _ hn n List.mem_cons_self).2 x hx)
  generalize (if req.deleteOldRDN = true then o.map fun a => (⟨opDelete, a.typ, [a.val]⟩ : Change) else []) ++
    n.map (fun a => (⟨opAdd, a.typ, [a.val]⟩ : Change)) = cs at hres hg' hta
  unfold specRenameAt at hres hg'
  split at hres
  · simp at hres
  · rename_i c1
    rw [if_neg c1] at hg'
    simp only [hg] at hres hg'
    split at hres
    · simp at hres
    · rename_i c2
      rw [if_neg c2] at hg'
      split at hres
      · rename_i e1 he1
        simp only [he1] at hg'
        split at hres
        · simp at hres
        · rename_i c3
          rw [if_neg c3] at hg'
          dsimp only at hg'
          rw [get_rename_self hg (by simpa using c1), Option.some.injEq] at hg'
          subst hg'
          exact ⟨fun h => applyModify_ascii he1 hta h, fun h => applyModify_unique he1 h⟩
      all_goals simp at hres

/-- A rename that is carried out is to a name that is free. -/
theorem rename_free (hC : C.Lawful) (hG : G.Lawful) (hb : BaseOk C base) (ops : List Op) (req : ModifyDNReq) (h : HistOk C (ops ++ [.rename req]))
    {o n : RDN} {p q r : DN} {text : Str} (ho : parseDN C req.dn = some (o :: p)) (hn : parseDN C req.newRDN = some (n :: q))
    (hok : (boltStep C G validate (render base) (after C G validate base ops) (.rename req)).1 = .ok ())
    (hr : parseDN C text = some r) (hrok : NameOk r) (hs : SameName C r (n :: p)) :
    boltSearch C G (after C G validate base ops) text scopeBase = .ok ([], some .other) := by
  have hlen := h.len
  simp only [List.length_append, List.length_cons, List.length_nil] at hlen
  have hres := results_spec (validate := validate) hC hG hb ops [.rename req] h
  simp only [boltRun, specRun, List.cons.injEq, and_true] at hres
  obtain ⟨ns, -, b2, R, -⟩ := sim_run_empty (validate := validate) hC hG hb ops (fun o ho => h.ok o (List.mem_append_left _ ho)) (by omega)
  rw [hok, dirAfter, b2] at hres
  simp only [specStep, ho, hn, specRename] at hres
  unfold specRenameAt at hres
  split at hres
  · simp at hres
  · rename_i c1
    refine (serves_of_rel hC hG R text r hr hrok scopeBase).2 ?_
    rw [(sameName_iff_foldDN _ _).1 hs]
    simpa using c1

theorem mem_same {C : CaseEnv} {o o' : RDN} {p p' : DN} (h : SameName C (o :: p) (o' :: p')) (f g : Str) :
    (∃ x ∈ o, C.fold x.typ = f ∧ C.fold x.val = g) ↔ ∃ x ∈ o', C.fold x.typ = f ∧ C.fold x.val = g := by
  simp only [SameName, List.map_cons, List.cons.injEq] at h
  have key : ∀ r : RDN, (∃ x ∈ r, C.fold x.typ = f ∧ C.fold x.val = g) ↔ (f, g) ∈ r.map fun a => (C.fold a.typ, C.fold a.val) := by
    intro r
    simp [List.mem_map]
  rw [key, key, h.1]

/-- C114, for renames: after any history, giving an entry another name and then its old one leaves an entry with the values there were, and
nothing else is changed. (Missing, and false: the entry is as it was, see `C114_rename_fails`; and as in C13.) -/
theorem C114_rename_partial (hC : C.Lawful) (hG : G.Lawful) (hb : BaseOk C base) (ops : List Op) (e : Entry) (text text' rdn rdn' : Str)
    (h : HistOk C (ops ++ [.rename ⟨text, rdn', true⟩, .rename ⟨text', rdn, true⟩])) {o n o' n' : RDN} {p p' q q' : DN}
    (h1 : parseDN C text = some (o :: p)) (h2 : parseDN C rdn' = some (n :: q)) (h3 : parseDN C text' = some (n' :: p'))
    (h4 : parseDN C rdn = some (o' :: q')) (hs : SameName C (n' :: p') (n :: p)) (hs' : SameName C [o] [o'])
    (hf : boltSearch C G (after C G validate base ops) text scopeBase = .ok ([e], none))
    (ha : AsciiNames e.attrs) (hu : UniqueNames C e.attrs) (hdo : (o.map fun a => C.fold a.typ).Nodup) (hdn : (n.map fun a => C.fold a.typ).Nodup)
    (hold : ∀ a ∈ o, HasValue C e.attrs a.typ a.val)
    (hnew : ∀ b ∈ n, ¬ HasValue C e.attrs b.typ b.val)
    (hr : (boltRun C G validate (render base) (after C G validate base ops) [.rename ⟨text, rdn', true⟩, .rename ⟨text', rdn, true⟩]).1 =
      [.ok (), .ok ()]) :
    let db := after C G validate base ops
    let db' := after C G validate base (ops ++ [.rename ⟨text, rdn', true⟩, .rename ⟨text', rdn, true⟩])
    (∃ e', boltSearch C G db' text scopeBase = .ok ([e'], none) ∧ e'.dn = normalize C (o :: p) ∧
      ∀ t v, HasValue C e'.attrs t v ↔ HasValue C e.attrs t v) ∧
    ∀ other m, parseDN C other = some m → NameOk m → ¬ SameName C m (o :: p) →
      boltSearch C G db' other scopeBase = boltSearch C G db other scopeBase := by
  intro db db'
  have hlen := h.len
  simp only [List.length_append, List.length_cons, List.length_nil] at hlen
  have ho1 : Op.Ok C (.rename ⟨text, rdn', true⟩) := h.ok _ (by simp)
  have ho2 : Op.Ok C (.rename ⟨text', rdn, true⟩) := h.ok _ (by simp)
  have hh0 : HistOk C ops := ⟨fun x hx => h.ok x (by simp [hx]), by omega⟩
  have hh1 : HistOk C (ops ++ [.rename ⟨text, rdn', true⟩]) :=
    ⟨fun x hx => h.ok x (by simp only [List.mem_append, List.mem_cons, List.not_mem_nil, or_false] at hx ⊢; grind), by simp; omega⟩
  have ea : (boltStep C G validate (render base) (after C G validate base ops) (.rename ⟨text, rdn', true⟩)).2 =
      after C G validate base (ops ++ [.rename ⟨text, rdn', true⟩]) := by
    rw [after, after, boltRun_append]; rfl
  have eb : (boltStep C G validate (render base) (after C G validate base (ops ++ [.rename ⟨text, rdn', true⟩])) (.rename ⟨text', rdn, true⟩)).2 =
      db' := by
    rw [← ea]
    show _ = after C G validate base _
    rw [after, after, boltRun_append]; rfl
  simp only [boltRun, List.cons.injEq, and_true] at hr
  rw [ea] at hr
  obtain ⟨f, e1, a1, a2, a3, -, a5, -⟩ := C13_rename_partial hC hG hb ops hh0 ⟨text, rdn', true⟩ o n p q h1 h2 (ho1.1 _ h1) (ho1.2 _ h2) hr.1
  have hfe : f = e := by rw [show boltSearch C G _ text scopeBase = _ from hf] at a1; simp at a1; exact a1.symm
  subst hfe
  rw [ea] at a2
  obtain ⟨f1, e2, b1, b2, b3, -, b5, -⟩ :=
    C13_rename_partial hC hG hb _ hh1 ⟨text', rdn, true⟩ n' o' p' q' h3 h4 (ho2.1 _ h3) (ho2.2 _ h4) hr.2
  rw [eb] at b2
  have a2' := a2 text' _ h3 (ho2.1 _ h3)
  rw [if_pos hs] at a2'
  have hf1 : f1 = e1 := by rw [show boltSearch C G _ text' scopeBase = _ from a2'] at b1; simp at b1; exact b1.symm
  subst hf1
  obtain ⟨k1, k2⟩ := rename_keeps hC hG hb ops ⟨text, rdn', true⟩ hh1 h1 h2 hr.1 h3 (ho2.1 _ h3) hs hf a2'
  have hs2 : SameName C (o :: p) (o' :: p') := by
    simp only [SameName, List.map_cons, List.cons.injEq, List.map_nil, and_true] at hs hs' ⊢
    exact ⟨hs', hs.2.symm⟩
  have hdn' : (n'.map fun a => C.fold a.typ).Nodup := by
    have : n'.map (fun a => C.fold a.typ) = n.map fun a => C.fold a.typ := by
      simp only [SameName, List.map_cons, List.cons.injEq] at hs
      have := congrArg (List.map Prod.fst) hs.1
      simpa [Function.comp_def] using this
    rw [this]; exact hdn
  refine ⟨⟨e2, ?_, ?_, fun t v => ?_⟩, fun other m hm hmok hne => ?_⟩
  · rw [show boltSearch C G db' text scopeBase = _ from b2 text _ h1 (ho1.1 _ h1), if_pos hs2]
  · rw [b3]; unfold normalize; rw [(sameName_iff_foldDN _ _).1 hs2]
  · rw [b5 (k1 ha) (k2 hu) hdn' t v, a5 ha hu hdo t v, mem_same hs (C.fold t) (C.fold v), ← mem_same hs2 (C.fold t) (C.fold v)]
    have g1 : (∃ x ∈ o, C.fold x.typ = C.fold t ∧ C.fold x.val = C.fold v) → HasValue C f.attrs t v := by
      rintro ⟨x, hx, e1, e2⟩
      have := hold x hx
      unfold HasValue valuesOf at this ⊢
      rwa [e1, e2] at this
    have g2 : (∃ x ∈ n, C.fold x.typ = C.fold t ∧ C.fold x.val = C.fold v) → ¬ HasValue C f.attrs t v := by
      rintro ⟨x, hx, e1, e2⟩ hv
      exact hnew x hx (by unfold HasValue valuesOf at hv ⊢; rwa [e1, e2])
    simp only [true_and]
    generalize (∃ x ∈ o, C.fold x.typ = C.fold t ∧ C.fold x.val = C.fold v) = A at g1 g2 ⊢
    generalize (∃ x ∈ n, C.fold x.typ = C.fold t ∧ C.fold x.val = C.fold v) = B at g2 ⊢
    generalize HasValue C f.attrs t v = D at g1 g2 ⊢
    grind
  · have hne2 : ¬ SameName C m (o' :: p') := fun hx => hne (by unfold SameName at hx hs2 ⊢; exact hx.trans hs2.symm)
    rw [show boltSearch C G db' other scopeBase = _ from b2 other m hm hmok, if_neg hne2]
    have a2o := a2 other m hm hmok
    by_cases hmn : SameName C m (n' :: p')
    · rw [if_pos hmn]
      exact (rename_free hC hG hb ops ⟨text, rdn', true⟩ hh1 h1 h2 hr.1 hm hmok (by unfold SameName at hmn hs ⊢; exact hmn.trans hs)).symm
    · rw [if_neg hmn, a2o, if_neg fun hx => hmn (by unfold SameName at hx hs ⊢; exact hx.trans hs.symm), if_neg hne]

end

/-! ## The statements are about something -/

def unOps : List Op := exOps.take 2 ++
  [.add ⟨b!"uid=A,ou=p,dc=lg", [⟨b!"uid", [b!"A"]⟩, ⟨b!"mail", [b!"x", b!"y"]⟩, ⟨b!"userPassword", [b!"x"]⟩]⟩]

/-- hypotheses of C114_add_delete -/
example : HistOk asciiCase (unOps ++ [.add ⟨b!"UID=q,ou=p,dc=lg", []⟩, .delete b!"uid = \\71,ou=P,dc=lg"] ++ exOps) ∧
    (∃ n m, entryPutDN asciiCase b!"UID=q,ou=p,dc=lg" = some n ∧ parseDN asciiCase b!"uid = \\71,ou=P,dc=lg" = some m ∧ SameName asciiCase n m) ∧
    (boltRun asciiCase gobInstance exValidate (render exBase) (after asciiCase gobInstance exValidate exBase unOps)
      [.add ⟨b!"UID=q,ou=p,dc=lg", []⟩, .delete b!"uid = \\71,ou=P,dc=lg"]).1 = [.ok (), .ok ()] :=
  ⟨by decide +kernel, ⟨[[⟨b!"UID", b!"q"⟩], [⟨b!"ou", b!"p"⟩], [⟨b!"dc", b!"lg"⟩]], [[⟨b!"uid", b!"q"⟩], [⟨b!"ou", b!"P"⟩], [⟨b!"dc", b!"lg"⟩]],
    by decide +kernel⟩, by decide +kernel⟩

/-- hypotheses of C114_delete_add, C114_add_values and C114_replace_values -/
example : let e : Entry := ⟨b!"uid=A,ou=p,dc=lg", [⟨b!"uid", [b!"A"]⟩, ⟨b!"mail", [b!"x", b!"y"]⟩, ⟨b!"userPassword", [b!"x"]⟩]⟩
    let d := b!"UID=a,ou=p,dc=lg"
    (∀ us ∈ ([[.delete d, .add e], [.modify d [⟨0, b!"mail", [b!"z", b!"w"]⟩], .modify e.dn [⟨1, b!"Mail", [b!"z", b!"w"]⟩]],
        [.modify d [⟨0, b!"sn", [b!"z"]⟩], .modify e.dn [⟨1, b!"SN", [b!"z"]⟩]],
        [.modify d [⟨2, b!"mail", [b!"z", b!"w"]⟩], .modify e.dn [⟨2, b!"Mail", [b!"x", b!"y"]⟩]],
        [.modify d [⟨2, b!"sn", [b!"z", b!"w"]⟩], .modify e.dn [⟨2, b!"SN", []⟩]]] : List (List Op)),
      HistOk asciiCase (unOps ++ us ++ exOps) ∧
      (boltRun asciiCase gobInstance exValidate (render exBase) (after asciiCase gobInstance exValidate exBase unOps) us).1 = [.ok (), .ok ()]) ∧
    boltSearch asciiCase gobInstance (after asciiCase gobInstance exValidate exBase unOps) d scopeBase = .ok ([e], none) ∧
    AsciiNames e.attrs ∧ UniqueNames asciiCase e.attrs ∧ (∀ a ∈ e.attrs, a.vals ≠ []) ∧ valuesOf asciiCase e.attrs b!"mail" = [b!"x", b!"y"] ∧
    (∀ v ∈ [b!"z", b!"w"], ¬ HasValue asciiCase e.attrs b!"mail" v) ∧ valuesOf asciiCase e.attrs b!"sn" = [] := by
  decide +kernel

/-- hypotheses of C114_rename_partial -/
example : let e : Entry := ⟨b!"uid=A,ou=p,dc=lg", [⟨b!"uid", [b!"A"]⟩, ⟨b!"mail", [b!"x", b!"y"]⟩, ⟨b!"userPassword", [b!"x"]⟩]⟩
    let us : List Op := [.rename ⟨b!"UID=a,ou=p,dc=lg", b!"uid=b+cn=Z", true⟩, .rename ⟨b!"uid=B+CN=z,ou=p,dc=lg", b!"UID=A", true⟩]
    HistOk asciiCase (unOps ++ us) ∧
    parseDN asciiCase b!"UID=a,ou=p,dc=lg" = some [[⟨b!"UID", b!"a"⟩], [⟨b!"ou", b!"p"⟩], [⟨b!"dc", b!"lg"⟩]] ∧
    parseDN asciiCase b!"uid=b+cn=Z" = some [[⟨b!"uid", b!"b"⟩, ⟨b!"cn", b!"Z"⟩]] ∧
    parseDN asciiCase b!"uid=B+CN=z,ou=p,dc=lg" = some [[⟨b!"uid", b!"B"⟩, ⟨b!"CN", b!"z"⟩], [⟨b!"ou", b!"p"⟩], [⟨b!"dc", b!"lg"⟩]] ∧
    parseDN asciiCase b!"UID=A" = some [[⟨b!"UID", b!"A"⟩]] ∧
    boltSearch asciiCase gobInstance (after asciiCase gobInstance exValidate exBase unOps) b!"UID=a,ou=p,dc=lg" scopeBase = .ok ([e], none) ∧
    HasValue asciiCase e.attrs b!"UID" b!"a" ∧ ¬ HasValue asciiCase e.attrs b!"uid" b!"b" ∧ ¬ HasValue asciiCase e.attrs b!"cn" b!"Z" ∧
    (boltRun asciiCase gobInstance exValidate (render exBase) (after asciiCase gobInstance exValidate exBase unOps) us).1 = [.ok (), .ok ()] := by
  decide +kernel

/-- C114 for renames fails: the name of the entry is not written as it was before. -/
theorem C114_rename_fails : let us : List Op := [.rename ⟨b!"uid=A,ou=p,dc=lg", b!"uid=b", true⟩, .rename ⟨b!"uid=b,ou=p,dc=lg", b!"uid=A", true⟩]
    (boltRun asciiCase gobInstance exValidate (render exBase) (after asciiCase gobInstance exValidate exBase unOps) us).1 = [.ok (), .ok ()] ∧
    ¬ NoTrace asciiCase gobInstance exValidate exBase unOps us := by
  refine ⟨by decide +kernel, fun h => ?_⟩
  obtain ⟨es, es', e, h1, h2, hp⟩ := (h [] (by decide +kernel)).2 b!"uid=A,ou=p,dc=lg" (by decide +kernel) scopeBase
  have k1 : boltSearch asciiCase gobInstance (after asciiCase gobInstance exValidate exBase
      (unOps ++ [.rename ⟨b!"uid=A,ou=p,dc=lg", b!"uid=b", true⟩, .rename ⟨b!"uid=b,ou=p,dc=lg", b!"uid=A", true⟩])) b!"uid=A,ou=p,dc=lg" scopeBase =
      .ok ([⟨b!"uid=a,ou=p,dc=lg", [⟨b!"mail", [b!"x", b!"y"]⟩, ⟨b!"userPassword", [b!"x"]⟩, ⟨b!"uid", [b!"A"]⟩]⟩], none) := by decide +kernel
  have k2 : boltSearch asciiCase gobInstance (after asciiCase gobInstance exValidate exBase unOps) b!"uid=A,ou=p,dc=lg" scopeBase =
      .ok ([⟨b!"uid=A,ou=p,dc=lg", [⟨b!"uid", [b!"A"]⟩, ⟨b!"mail", [b!"x", b!"y"]⟩, ⟨b!"userPassword", [b!"x"]⟩]⟩], none) := by decide +kernel
  simp only [boltRun] at h1 h2
  rw [k1] at h1
  rw [k2] at h2
  simp only [Res.ok.injEq, Prod.mk.injEq] at h1 h2
  rw [← h1.1, ← h2.1] at hp
  exact absurd (List.singleton_perm_singleton.1 hp) (by decide)

/-- C114 fails for a value the entry has already: adding it is carried out, and deleting it takes away what was there. -/
theorem C114_present_fails : let us : List Op := [.modify b!"uid=A,ou=p,dc=lg" [⟨0, b!"mail", [b!"x"]⟩], .modify b!"uid=A,ou=p,dc=lg" [⟨1, b!"mail", [b!"x"]⟩]]
    (boltRun asciiCase gobInstance exValidate (render exBase) (after asciiCase gobInstance exValidate exBase unOps) us).1 = [.ok (), .ok ()] ∧
    ¬ NoTrace asciiCase gobInstance exValidate exBase unOps us := by
  refine ⟨by decide +kernel, fun h => ?_⟩
  obtain ⟨es, es', e, h1, h2, hp⟩ := (h [] (by decide +kernel)).2 b!"uid=A,ou=p,dc=lg" (by decide +kernel) scopeBase
  have k1 : boltSearch asciiCase gobInstance (after asciiCase gobInstance exValidate exBase
      (unOps ++ [.modify b!"uid=A,ou=p,dc=lg" [⟨0, b!"mail", [b!"x"]⟩], .modify b!"uid=A,ou=p,dc=lg" [⟨1, b!"mail", [b!"x"]⟩]])) b!"uid=A,ou=p,dc=lg" scopeBase =
      .ok ([⟨b!"uid=A,ou=p,dc=lg", [⟨b!"uid", [b!"A"]⟩, ⟨b!"mail", [b!"y"]⟩, ⟨b!"userPassword", [b!"x"]⟩]⟩], none) := by decide +kernel
  have k2 : boltSearch asciiCase gobInstance (after asciiCase gobInstance exValidate exBase unOps) b!"uid=A,ou=p,dc=lg" scopeBase =
      .ok ([⟨b!"uid=A,ou=p,dc=lg", [⟨b!"uid", [b!"A"]⟩, ⟨b!"mail", [b!"x", b!"y"]⟩, ⟨b!"userPassword", [b!"x"]⟩]⟩], none) := by decide +kernel
  simp only [boltRun] at h1 h2
  rw [k1] at h1
  rw [k2] at h2
  simp only [Res.ok.injEq, Prod.mk.injEq] at h1 h2
  rw [← h1.1, ← h2.1] at hp
  exact absurd (List.singleton_perm_singleton.1 hp) (by decide)

end Idm
