import Verif.Spec.Modify
import Verif.Proofs.DN
/-! Lemmas about `ApplyModify` and its helpers. -/
namespace Idm

variable {C : CaseEnv}

theorem isAscii_map_lower {s : Str} (h : IsAscii s) : IsAscii (s.map lowerByte) := by
  have key : ∀ c : UInt8, c < 128 → lowerByte c < 128 := by decide +kernel
  intro c hc
  obtain ⟨d, hd, rfl⟩ := List.mem_map.1 hc
  exact key d (h d hd)

theorem map_lower_idem (s : Str) : (s.map lowerByte).map lowerByte = s.map lowerByte := by
  simp [Function.comp_def, lowerByte_idem]

/-- On ASCII names `strings.EqualFold` against the folded type is equality of the folded forms. -/
theorem eqFold_fold_iff (hC : C.Lawful) {t n : Str} (ht : IsAscii t) (hn : IsAscii n) :
    C.eqFold (C.fold t) n = true ↔ C.fold n = C.fold t := by
  rw [fold_ascii hC ht, fold_ascii hC hn, hC.eqFold_ascii _ _ (isAscii_map_lower ht) hn, map_lower_idem]
  exact eq_comm

theorem eqFold_iff_fold (hC : C.Lawful) {t n : Str} (ht : IsAscii t) (hn : IsAscii n) :
    C.eqFold t n = true ↔ C.fold n = C.fold t := by
  rw [fold_ascii hC ht, fold_ascii hC hn, hC.eqFold_ascii _ _ ht hn]
  exact eq_comm

theorem valuesOf_cons (a : Attr) (as : List Attr) (t : Str) :
    valuesOf C (a :: as) t = (if C.fold a.name = C.fold t then a.vals else []) ++ valuesOf C as t := by
  unfold valuesOf
  by_cases h : C.fold a.name = C.fold t <;> simp [h]

theorem valuesOf_append (as bs : List Attr) (t : Str) :
    valuesOf C (as ++ bs) t = valuesOf C as t ++ valuesOf C bs t := by simp [valuesOf]

theorem valuesOf_none {as : List Attr} {t : Str} (h : ∀ a ∈ as, C.fold a.name ≠ C.fold t) : valuesOf C as t = [] := by
  unfold valuesOf
  rw [List.filter_eq_nil_iff.2 (by simpa using h)]; rfl

theorem uniqueNames_cons {a : Attr} {as : List Attr} :
    UniqueNames C (a :: as) ↔ (∀ b ∈ as, C.fold b.name ≠ C.fold a.name) ∧ UniqueNames C as := by
  simp [UniqueNames, List.nodup_cons]

theorem getVals_eq_valuesOf (hC : C.Lawful) {as : List Attr} {t : Str} (ht : IsAscii t) (ha : AsciiNames as)
    (hu : UniqueNames C as) : getVals C as (C.fold t) = valuesOf C as t := by
  induction as with
  | nil => rfl
  | cons a as ih =>
    have ha' : AsciiNames as := fun b hb => ha b (List.mem_cons_of_mem _ hb)
    rw [uniqueNames_cons] at hu
    rw [valuesOf_cons, getVals]
    have := eqFold_fold_iff hC ht (ha a List.mem_cons_self)
    by_cases h : C.fold a.name = C.fold t
    · rw [if_pos (this.2 h), if_pos h, valuesOf_none (fun b hb => h ▸ hu.1 b hb)]; simp
    · rw [if_neg (fun e => h (this.1 e)), if_neg h, ih ha' hu.2]; simp

/-! ## entryReplaceValues -/

theorem replaceLoop_other (n : Str) (vals : List Str) (as : List Attr) :
    (replaceLoop C n vals as).filter (fun a => C.fold a.name ≠ n) = as.filter (fun a => C.fold a.name ≠ n) := by
  induction as with
  | nil => rfl
  | cons a as ih =>
    rw [replaceLoop]
    by_cases h : C.fold a.name = n
    · rw [if_pos h]
      by_cases hv : vals = []
      · rw [if_pos hv, ih]; simp [h]
      · rw [if_neg hv]; simp only [ne_eq, decide_not] at ih; simp [h, ih]
    · rw [if_neg h]; simp only [ne_eq, decide_not] at ih; simp [h, ih]

theorem replaceLoop_of_none {n : Str} (vals : List Str) {as : List Attr} (h : ∀ a ∈ as, C.fold a.name ≠ n) :
    replaceLoop C n vals as = as := by
  induction as with
  | nil => rfl
  | cons a as ih =>
    rw [replaceLoop, if_neg (h a List.mem_cons_self), ih fun b hb => h b (List.mem_cons_of_mem _ hb)]

theorem replaceLoop_names (n : Str) (vals : List Str) (hv : vals ≠ []) (as : List Attr) :
    (replaceLoop C n vals as).map (·.name) = as.map (·.name) := by
  induction as with
  | nil => rfl
  | cons a as ih =>
    rw [replaceLoop]
    by_cases h : C.fold a.name = n
    · rw [if_pos h, if_neg hv]; simp [ih]
    · rw [if_neg h]; simp [ih]

theorem replaceLoop_nil (n : Str) (as : List Attr) :
    replaceLoop C n [] as = as.filter (fun a => C.fold a.name ≠ n) := by
  induction as with
  | nil => rfl
  | cons a as ih =>
    rw [replaceLoop]
    by_cases h : C.fold a.name = n
    · simp [h, ih]
    · simp [h, ih]

theorem entryReplaceValues_other (typ : Str) (vals : List Str) (as : List Attr) (p : Attr → Bool)
    (hp : ∀ a, C.fold a.name = C.fold typ → p a = false) :
    (entryReplaceValues C as typ vals).filter p = as.filter p := by
  have split : ∀ l : List Attr, l.filter p = (l.filter (fun a => C.fold a.name ≠ C.fold typ)).filter p := by
    intro l
    rw [List.filter_filter]
    apply List.filter_congr
    intro a _
    by_cases h : C.fold a.name = C.fold typ
    · simp [h, hp a h]
    · simp [h]
  have loop : (replaceLoop C (C.fold typ) vals as).filter p = as.filter p := by
    rw [split, replaceLoop_other, ← split]
  unfold entryReplaceValues
  simp only
  split
  · exact loop
  · split
    · exact loop
    · rw [List.filter_append, loop, List.filter_cons, hp ⟨typ, vals⟩ rfl]; simp

theorem entryReplaceValues_names_subset {typ : Str} {vals : List Str} {as : List Attr} {a : Attr}
    (h : a ∈ entryReplaceValues C as typ vals) : a.name = typ ∨ ∃ b ∈ as, a.name = b.name := by
  have loop : ∀ l : List Attr, a ∈ replaceLoop C (C.fold typ) vals l → ∃ b ∈ l, a.name = b.name := by
    intro l
    induction l with
    | nil => simp [replaceLoop]
    | cons b bs ih =>
      rw [replaceLoop]
      split
      · split
        · intro h; obtain ⟨b', hb, e⟩ := ih h; exact ⟨b', List.mem_cons_of_mem _ hb, e⟩
        · intro h
          rcases List.mem_cons.1 h with rfl | h
          · exact ⟨b, List.mem_cons_self, rfl⟩
          · obtain ⟨b', hb, e⟩ := ih h; exact ⟨b', List.mem_cons_of_mem _ hb, e⟩
      · intro h
        rcases List.mem_cons.1 h with rfl | h
        · exact ⟨a, List.mem_cons_self, rfl⟩
        · obtain ⟨b', hb, e⟩ := ih h; exact ⟨b', List.mem_cons_of_mem _ hb, e⟩
  unfold entryReplaceValues at h
  simp only at h
  split at h
  · exact .inr (loop _ h)
  · split at h
    · exact .inr (loop _ h)
    · rcases List.mem_append.1 h with h | h
      · exact .inr (loop _ h)
      · left; simp at h; rw [h]

theorem entryReplaceValues_ascii {typ : Str} {vals : List Str} {as : List Attr} (ht : IsAscii typ) (ha : AsciiNames as) :
    AsciiNames (entryReplaceValues C as typ vals) := by
  intro a h
  rcases entryReplaceValues_names_subset h with e | ⟨b, hb, e⟩
  · rw [e]; exact ht
  · rw [e]; exact ha b hb

theorem entryReplaceValues_unique {typ : Str} {vals : List Str} {as : List Attr} (hu : UniqueNames C as) :
    UniqueNames C (entryReplaceValues C as typ vals) := by
  have fm : ∀ l : List Attr, (l.map fun a => C.fold a.name) = (l.map (·.name)).map C.fold := by intro l; simp
  have loop : UniqueNames C (replaceLoop C (C.fold typ) vals as) := by
    by_cases hv : vals = []
    · subst hv
      rw [replaceLoop_nil]
      exact List.Sublist.nodup (List.Sublist.map _ List.filter_sublist) hu
    · unfold UniqueNames at *
      rw [fm, replaceLoop_names _ _ hv, ← fm]; exact hu
  unfold entryReplaceValues
  simp only
  split
  · exact loop
  · rename_i hn
    split
    · exact loop
    · rename_i hv
      have hn' : ∀ a ∈ as, C.fold a.name ≠ C.fold typ := by simpa using hn
      rw [replaceLoop_of_none vals hn']
      unfold UniqueNames at *
      rw [List.map_append, List.nodup_append]
      refine ⟨hu, by simp, ?_⟩
      intro x hx y hy e
      obtain ⟨a, ha, rfl⟩ := List.mem_map.1 hx
      simp at hy; subst hy
      exact hn' a ha e

theorem replaceLoop_valuesOf {t : Str} {vals : List Str} (hv : vals ≠ []) {as : List Attr} (hu : UniqueNames C as)
    (h : ∃ a ∈ as, C.fold a.name = C.fold t) : valuesOf C (replaceLoop C (C.fold t) vals as) t = vals := by
  induction as with
  | nil => simp at h
  | cons a as ih =>
    rw [uniqueNames_cons] at hu
    rw [replaceLoop]
    by_cases e : C.fold a.name = C.fold t
    · rw [if_pos e, if_neg hv, valuesOf_cons, if_pos e]
      have hn : ∀ b ∈ as, C.fold b.name ≠ C.fold t := fun b hb => e ▸ hu.1 b hb
      rw [replaceLoop_of_none _ hn, valuesOf_none hn]; simp
    · rw [if_neg e, valuesOf_cons, if_neg e]
      obtain ⟨b, hb, hbe⟩ := h
      rcases List.mem_cons.1 hb with rfl | hb
      · exact absurd hbe e
      · rw [ih hu.2 ⟨b, hb, hbe⟩]; rfl

theorem entryReplaceValues_valuesOf {t : Str} {vals : List Str} {as : List Attr} (hu : UniqueNames C as) :
    valuesOf C (entryReplaceValues C as t vals) t = vals := by
  unfold entryReplaceValues
  simp only
  by_cases hv : vals = []
  · subst hv
    have h0 : valuesOf C (replaceLoop C (C.fold t) [] as) t = [] := by
      rw [replaceLoop_nil]; apply valuesOf_none; intro a ha; simpa using (List.mem_filter.1 ha).2
    split
    · exact h0
    · simp [h0]
  · split
    · rename_i h
      exact replaceLoop_valuesOf hv hu (by simpa using h)
    · rename_i h
      have hn : ∀ a ∈ as, C.fold a.name ≠ C.fold t := by simpa using h
      rw [replaceLoop_of_none _ hn, valuesOf_append, valuesOf_none hn, valuesOf_cons, if_pos rfl]
      simp [valuesOf]

theorem entryReplaceValues_gone {t : Str} {as : List Attr} {a : Attr} (h : a ∈ entryReplaceValues C as t []) :
    C.fold a.name ≠ C.fold t := by
  unfold entryReplaceValues at h
  simp only [ite_true, ite_self] at h
  rw [replaceLoop_nil] at h
  simpa using (List.mem_filter.1 h).2

theorem valuesOf_congr_fold {as : List Attr} {t u : Str} (h : C.fold t = C.fold u) : valuesOf C as t = valuesOf C as u := by
  simp [valuesOf, h]

theorem valuesOf_replace_other {t u : Str} {vals : List Str} {as : List Attr} (h : C.fold t ≠ C.fold u) :
    valuesOf C (entryReplaceValues C as t vals) u = valuesOf C as u := by
  unfold valuesOf
  rw [entryReplaceValues_other t vals as _ (by intro a e; simp [e, h])]

/-! ## applyChange -/

/-- Cases of a successful `applyChange`. -/
theorem applyChange_ok {rdn : RDN} {old as as' : List Attr} {c : Change} (h : applyChange C rdn old as c = .ok as') :
    (c.op = opAdd ∧ as' = entryReplaceValues C as c.typ (entryApplyModAdd C (getVals C as (C.fold c.typ)) c.vals)) ∨
    (c.op = opReplace ∧ replaceRefused C rdn c = false ∧ as' = entryReplaceValues C as c.typ c.vals) ∨
    (c.op = opDelete ∧ deleteRefused C rdn c = false ∧
      as' = entryReplaceValues C as c.typ (entryApplyModDelete C (getVals C old (C.fold c.typ)) c.vals)) ∨
    (c.op ≠ opAdd ∧ c.op ≠ opReplace ∧ c.op ≠ opDelete ∧ as' = as) := by
  unfold applyChange at h
  split at h
  · left; simp at h; exact ⟨by assumption, h.symm⟩
  · right
    split at h
    · left
      split at h
      · simp at h
      · rename_i hr; simp at h; exact ⟨by assumption, by simpa using hr, h.symm⟩
    · right
      split at h
      · left
        split at h
        · simp at h
        · rename_i hr; simp at h; exact ⟨by assumption, by simpa using hr, h.symm⟩
      · right; simp at h; exact ⟨by assumption, by assumption, by assumption, h.symm⟩

theorem applyChange_other {rdn : RDN} {old as as' : List Attr} {c : Change} (h : applyChange C rdn old as c = .ok as')
    (p : Attr → Bool) (hp : ∀ a, C.fold a.name = C.fold c.typ → p a = false) : as'.filter p = as.filter p := by
  rcases applyChange_ok h with ⟨_, rfl⟩ | ⟨_, _, rfl⟩ | ⟨_, _, rfl⟩ | ⟨_, _, _, rfl⟩
  · exact entryReplaceValues_other _ _ _ _ hp
  · exact entryReplaceValues_other _ _ _ _ hp
  · exact entryReplaceValues_other _ _ _ _ hp
  · rfl

theorem applyChange_ascii {rdn : RDN} {old as as' : List Attr} {c : Change} (h : applyChange C rdn old as c = .ok as')
    (ht : IsAscii c.typ) (ha : AsciiNames as) : AsciiNames as' := by
  rcases applyChange_ok h with ⟨_, rfl⟩ | ⟨_, _, rfl⟩ | ⟨_, _, rfl⟩ | ⟨_, _, _, rfl⟩
  · exact entryReplaceValues_ascii ht ha
  · exact entryReplaceValues_ascii ht ha
  · exact entryReplaceValues_ascii ht ha
  · exact ha

theorem applyChange_unique {rdn : RDN} {old as as' : List Attr} {c : Change} (h : applyChange C rdn old as c = .ok as')
    (hu : UniqueNames C as) : UniqueNames C as' := by
  rcases applyChange_ok h with ⟨_, rfl⟩ | ⟨_, _, rfl⟩ | ⟨_, _, rfl⟩ | ⟨_, _, _, rfl⟩
  · exact entryReplaceValues_unique hu
  · exact entryReplaceValues_unique hu
  · exact entryReplaceValues_unique hu
  · exact hu

theorem applyChanges_cons {rdn : RDN} {old as as' : List Attr} {c : Change} {cs : List Change}
    (h : applyChanges C rdn old as (c :: cs) = .ok as') :
    ∃ as1, applyChange C rdn old as c = .ok as1 ∧ applyChanges C rdn old as1 cs = .ok as' := by
  rw [applyChanges] at h
  cases h1 : applyChange C rdn old as c with
  | ok a => rw [h1] at h; exact ⟨a, rfl, h⟩
  | err e => rw [h1] at h; simp at h
  | panic => rw [h1] at h; simp at h
  | hang => rw [h1] at h; simp at h

theorem applyModify_ok {e e' : Entry} {d : Str} {cs : List Change} (h : applyModify C e d cs = .ok e') :
    ∃ rdn rest md, parseDN C e.dn = some (rdn :: rest) ∧ parseDN C d = some md ∧ dnEqFold C (rdn :: rest) md = true ∧
      e'.dn = e.dn ∧ applyChanges C rdn e.attrs e.attrs cs = .ok e'.attrs := by
  unfold applyModify at h
  split at h
  · simp at h
  · simp at h
  · rename_i rdn rest hp
    split at h
    · simp at h
    · rename_i md hm
      split at h
      · rename_i hq
        cases h1 : applyChanges C rdn e.attrs e.attrs cs with
        | ok a => rw [h1] at h; simp at h; subst h; exact ⟨rdn, rest, md, hp, hm, hq, rfl, h1⟩
        | err e => rw [h1] at h; simp at h
        | panic => rw [h1] at h; simp at h
        | hang => rw [h1] at h; simp at h
      · simp at h

theorem applyModify_eq {e : Entry} {d : Str} {cs : List Change} {rdn : RDN} {rest md : DN}
    (hp : parseDN C e.dn = some (rdn :: rest)) (hm : parseDN C d = some md) (hq : dnEqFold C (rdn :: rest) md = true) :
    applyModify C e d cs = (applyChanges C rdn e.attrs e.attrs cs >>= fun as => .ok ⟨e.dn, as⟩) := by
  unfold applyModify; rw [hp]; simp only [hm, hq, if_true]

end Idm
