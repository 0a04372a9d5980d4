import Verif.Proofs.Entry
import Verif.Spec.Order
/-!
# C15–C18: modify requests, C50 (entry level): add requests
-/
namespace Idm

variable {C : CaseEnv}

/-! ## C15 changes apply one after the other -/

theorem applyChanges_append (rdn : RDN) (old as : List Attr) (xs ys : List Change) :
    applyChanges C rdn old as (xs ++ ys) =
      (applyChanges C rdn old as xs >>= fun as1 => applyChanges C rdn old as1 ys) := by
  induction xs generalizing as with
  | nil => rfl
  | cons x xs ih =>
    simp only [List.cons_append, applyChanges]
    cases h : applyChange C rdn old as x <;> simp [ih]

theorem applyChanges_old_congr (rdn : RDN) (old old' : List Attr) (cs : List Change)
    (h : ∀ c ∈ cs, c.op = opDelete → getVals C old (C.fold c.typ) = getVals C old' (C.fold c.typ)) (as : List Attr) :
    applyChanges C rdn old as cs = applyChanges C rdn old' as cs := by
  induction cs generalizing as with
  | nil => rfl
  | cons c cs ih =>
    have hc : applyChange C rdn old as c = applyChange C rdn old' as c := by
      unfold applyChange
      split
      · rfl
      · split
        · rfl
        · split
          · rename_i hd; rw [h c List.mem_cons_self hd]
          · rfl
    simp only [applyChanges, hc]
    cases applyChange C rdn old' as c with
    | ok a => exact ih (fun c hc => h c (List.mem_cons_of_mem _ hc)) a
    | _ => rfl

theorem getVals_filter (n : Str) (as : List Attr) :
    getVals C as n = getVals C (as.filter fun a => C.eqFold n a.name) n := by
  induction as with
  | nil => rfl
  | cons a as ih =>
    by_cases h : C.eqFold n a.name = true
    · simp [getVals, h]
    · simp [getVals, h]; exact ih

theorem applyChanges_getVals (hC : C.Lawful) {rdn : RDN} {old as as' : List Attr} {cs : List Change} {t : Str}
    (h : applyChanges C rdn old as cs = .ok as') (ht : IsAscii t) (ha : AsciiNames as) (hct : ∀ c ∈ cs, IsAscii c.typ)
    (hne : ∀ c ∈ cs, C.fold c.typ ≠ C.fold t) : getVals C as' (C.fold t) = getVals C as (C.fold t) := by
  induction cs generalizing as with
  | nil => simp [applyChanges] at h; rw [h]
  | cons c cs ih =>
    obtain ⟨as1, h1, h2⟩ := applyChanges_cons h
    have ha1 := applyChange_ascii h1 (hct c List.mem_cons_self) ha
    rw [ih h2 ha1 (fun d hd => hct d (List.mem_cons_of_mem _ hd)) (fun d hd => hne d (List.mem_cons_of_mem _ hd))]
    rw [getVals_filter, getVals_filter (as := as)]
    have split : ∀ l : List Attr, AsciiNames l → l.filter (fun a => C.eqFold (C.fold t) a.name) =
        l.filter (fun a => C.fold a.name = C.fold t) := by
      intro l hl
      apply List.filter_congr
      intro a ha
      have := eqFold_fold_iff hC ht (hl a ha)
      by_cases h : C.eqFold (C.fold t) a.name = true
      · simp [h, this.1 h]
      · simp only [Bool.not_eq_true] at h; rw [h]; symm; simp only [decide_eq_false_iff_not]
        intro e; rw [this.2 e] at h; simp at h
    rw [split _ ha1, split _ ha, applyChange_other h1]
    intro a e; simp [e, hne c List.mem_cons_self]

/-- The full property C15: the effect of a list of changes is that of its parts one after the other. -/
def ModifySequential (C : CaseEnv) : Prop :=
  ∀ (e : Entry) (d : Str) (xs ys : List Change),
    applyModify C e d (xs ++ ys) = (applyModify C e d xs >>= fun e' => applyModify C e' d ys)

/-- C15 is false: a delete reads the values from the entry as it was before the request, so an earlier add of the same type in
the same request is lost. -/
theorem C15_sequential_fails : ¬ ModifySequential asciiCase := by
  intro h
  have := h ⟨b!"cn=a", [⟨b!"mail", [b!"x"]⟩]⟩ b!"cn=a" [⟨opAdd, b!"mail", [b!"y"]⟩] [⟨opDelete, b!"mail", [b!"x"]⟩]
  revert this; decide +kernel

/-- C15 holds for every entry and change list in which no delete follows an earlier change of the same attribute type.
(Missing: exactly the lists with a delete after another change of that type, where it fails.) -/
theorem C15_sequential_partial (hC : C.Lawful) (e : Entry) (d : Str) (xs ys : List Change)
    (hn : AsciiNames e.attrs) (hx : ∀ c ∈ xs ++ ys, IsAscii c.typ)
    (hdel : ∀ x ∈ xs, ∀ y ∈ ys, y.op = opDelete → C.fold x.typ ≠ C.fold y.typ) :
    applyModify C e d (xs ++ ys) = (applyModify C e d xs >>= fun e' => applyModify C e' d ys) := by
  unfold applyModify
  split
  · rfl
  · rfl
  · rename_i rdn rest hp
    split
    · rfl
    · rename_i md hm
      split
      · rename_i hq
        rw [applyChanges_append]
        cases h1 : applyChanges C rdn e.attrs e.attrs xs with
        | ok as1 =>
          simp only [Res.ok_bind, hp, hq, if_true]
          rw [applyChanges_old_congr rdn e.attrs as1 ys]
          intro y hy hyd
          exact (applyChanges_getVals hC h1 (hx y (by simp [hy])) hn (fun c hc => hx c (by simp [hc]))
            (fun x hxm => hdel x hxm y hy hyd)).symm
        | _ => rfl
      · rfl

example : ∃ e d xs ys e', AsciiNames (e : Entry).attrs ∧ (∀ c ∈ xs ++ ys, IsAscii (c : Change).typ) ∧
    (∀ x ∈ xs, ∀ y ∈ ys, y.op = opDelete → asciiCase.fold x.typ ≠ asciiCase.fold y.typ) ∧
    applyModify asciiCase e d (xs ++ ys) = .ok e' ∧ e' = ⟨b!"cn=a", [⟨b!"mail", [b!"y", b!"z"]⟩]⟩ :=
  ⟨⟨b!"cn=a", [⟨b!"mail", [b!"x"]⟩, ⟨b!"sn", [b!"u"]⟩]⟩, b!"CN=A", [⟨opReplace, b!"Mail", [b!"y"]⟩],
    [⟨opAdd, b!"MAIL", [b!"Y", b!"z"]⟩, ⟨opDelete, b!"sn", []⟩], _,
    by decide +kernel, by decide +kernel, by decide +kernel, by decide +kernel, rfl⟩

/-! ## C16 only named attributes are touched -/

/-- C16, for every entry, every request and every case-folding function: a successful modify keeps the DN and the list of
attributes not named in the request, including order. -/
theorem C16_modify_touches_only_named (C : CaseEnv) (e e' : Entry) (d : Str) (cs : List Change)
    (h : applyModify C e d cs = .ok e') :
    e'.dn = e.dn ∧ e'.attrs.filter (fun a => ¬ Named C cs a) = e.attrs.filter (fun a => ¬ Named C cs a) := by
  obtain ⟨rdn, rest, md, -, -, -, hdn, h⟩ := applyModify_ok h
  refine ⟨hdn, ?_⟩
  have main : ∀ (cs' : List Change) (as as' : List Attr), (∀ c ∈ cs', c ∈ cs) → applyChanges C rdn e.attrs as cs' = .ok as' →
      as'.filter (fun a => ¬ Named C cs a) = as.filter (fun a => ¬ Named C cs a) := by
    intro cs'
    induction cs' with
    | nil => intro as as' _ h; simp [applyChanges] at h; rw [h]
    | cons c cs' ih =>
      intro as as' hsub h
      obtain ⟨as1, h1, h2⟩ := applyChanges_cons h
      rw [ih as1 as' (fun x hx => hsub x (List.mem_cons_of_mem _ hx)) h2, applyChange_other h1]
      intro a ea
      simp only [decide_not, Bool.not_eq_eq_eq_not, Bool.not_false, decide_eq_true_eq]
      exact ⟨c, hsub c List.mem_cons_self, ea.symm⟩
  exact main cs _ _ (fun _ h => h) h

example : ∃ e', applyModify asciiCase ⟨b!"cn=a", [⟨b!"cn", [b!"a"]⟩, ⟨b!"mail", [b!"x"]⟩, ⟨b!"sn", [b!"u"]⟩]⟩ b!"cn=a"
    [⟨opReplace, b!"MAIL", []⟩, ⟨opAdd, b!"uid", [b!"1"]⟩] = .ok e' :=
  ⟨⟨b!"cn=a", [⟨b!"cn", [b!"a"]⟩, ⟨b!"sn", [b!"u"]⟩, ⟨b!"uid", [b!"1"]⟩]⟩, by decide +kernel⟩

/-! ## C17 single changes -/

/-- C17 add: the values afterwards are the old ones followed by the new ones not already present, hence (up to case) their union.
(The three `_partial` theorems assume that no two attributes of the entry have the same name up to case and that names are ASCII;
without the former the property fails, see `C17_duplicate_names_fails`.) -/
theorem C17_add_is_union_partial (hC : C.Lawful) (e e' : Entry) (d t : Str) (vs : List Str)
    (hn : AsciiNames e.attrs) (ht : IsAscii t) (hu : UniqueNames C e.attrs)
    (h : applyModify C e d [⟨opAdd, t, vs⟩] = .ok e') :
    valuesOf C e'.attrs t = valuesOf C e.attrs t ++ vs.filter (fun v => ¬ HasValue C e.attrs t v) ∧
    ∀ v, HasValue C e'.attrs t v ↔ HasValue C e.attrs t v ∨ ∃ w ∈ vs, C.fold w = C.fold v := by
  obtain ⟨rdn, rest, md, -, -, -, hdn, h⟩ := applyModify_ok h
  obtain ⟨as1, h1, h2⟩ := applyChanges_cons h
  simp [applyChanges] at h2
  have hv : valuesOf C e'.attrs t = valuesOf C e.attrs t ++ vs.filter (fun v => ¬ HasValue C e.attrs t v) := by
    rcases applyChange_ok h1 with ⟨_, rfl⟩ | ⟨h, _⟩ | ⟨h, _⟩ | ⟨h, _⟩
    · rw [← h2, entryReplaceValues_valuesOf hu, getVals_eq_valuesOf hC ht hn hu]
      unfold entryApplyModAdd
      congr 1
      apply List.filter_congr
      intro v _
      rw [Bool.eq_iff_iff]
      simp only [HasValue, Bool.not_eq_true', List.any_eq_false, decide_eq_true_eq, not_exists, not_and]
      exact ⟨fun h w hw e => h w hw e.symm, fun h w hw e => h w hw e.symm⟩
    · exact absurd h (by simp [opAdd, opReplace, opDelete])
    · exact absurd h (by simp [opAdd, opReplace, opDelete])
    · exact absurd rfl h
  refine ⟨hv, fun v => ?_⟩
  unfold HasValue
  rw [hv]
  constructor
  · rintro ⟨w, hw, e⟩
    rcases List.mem_append.1 hw with hw | hw
    · exact .inl ⟨w, hw, e⟩
    · exact .inr ⟨w, (List.mem_filter.1 hw).1, e⟩
  · rintro (⟨w, hw, e⟩ | ⟨w, hw, e⟩)
    · exact ⟨w, List.mem_append.2 (.inl hw), e⟩
    · by_cases hp : ∃ x ∈ valuesOf C e'.attrs t, C.fold x = C.fold w
      · obtain ⟨x, hx, ex⟩ := hp; rw [hv] at hx; exact ⟨x, hx, ex.trans e⟩
      · refine absurd ⟨w, ?_, rfl⟩ hp
        rw [hv]
        refine List.mem_append.2 (.inr (List.mem_filter.2 ⟨hw, ?_⟩))
        simp only [decide_not, Bool.not_eq_eq_eq_not, Bool.not_true, decide_eq_false_iff_not]
        rintro ⟨x, hx, ex⟩
        exact hp ⟨x, by rw [hv]; exact List.mem_append.2 (.inl hx), ex⟩

/-- C17 replace: the values afterwards are exactly the given ones. -/
theorem C17_replace_is_exact_partial (e e' : Entry) (d t : Str) (vs : List Str) (hu : UniqueNames C e.attrs)
    (h : applyModify C e d [⟨opReplace, t, vs⟩] = .ok e') :
    valuesOf C e'.attrs t = vs := by
  obtain ⟨rdn, rest, md, -, -, -, hdn, h⟩ := applyModify_ok h
  obtain ⟨as1, h1, h2⟩ := applyChanges_cons h
  simp [applyChanges] at h2
  rcases applyChange_ok h1 with ⟨h, _⟩ | ⟨_, _, rfl⟩ | ⟨h, _⟩ | ⟨_, h, _⟩
  · exact absurd h (by simp [opAdd, opReplace, opDelete])
  · rw [← h2]; exact entryReplaceValues_valuesOf hu
  · exact absurd h (by simp [opAdd, opReplace, opDelete])
  · exact absurd rfl h

/-- C17 delete: the values afterwards are the old ones without the given ones; none is left if none was given. -/
theorem C17_delete_is_difference_partial (hC : C.Lawful) (e e' : Entry) (d t : Str) (vs : List Str)
    (hn : AsciiNames e.attrs) (ht : IsAscii t) (hu : UniqueNames C e.attrs)
    (h : applyModify C e d [⟨opDelete, t, vs⟩] = .ok e') :
    valuesOf C e'.attrs t =
      if vs = [] then [] else (valuesOf C e.attrs t).filter (fun v => ∀ w ∈ vs, C.fold v ≠ C.fold w) := by
  obtain ⟨rdn, rest, md, -, -, -, hdn, h⟩ := applyModify_ok h
  obtain ⟨as1, h1, h2⟩ := applyChanges_cons h
  simp [applyChanges] at h2
  rcases applyChange_ok h1 with ⟨h, _⟩ | ⟨h, _⟩ | ⟨_, _, rfl⟩ | ⟨_, _, h, _⟩
  · exact absurd h (by simp [opAdd, opReplace, opDelete])
  · exact absurd h (by simp [opAdd, opReplace, opDelete])
  · rw [← h2, entryReplaceValues_valuesOf hu, getVals_eq_valuesOf hC ht hn hu]
    unfold entryApplyModDelete
    split
    · rfl
    · apply List.filter_congr
      intro v _
      rw [Bool.eq_iff_iff]
      simp
  · exact absurd rfl h

theorem entryReplaceValues_valuesOf_nil {as : List Attr} {t : Str} {vals : List Str}
    (h : valuesOf C (entryReplaceValues C as t vals) t = []) : vals = [] := by
  apply Decidable.byContradiction
  intro hv
  unfold entryReplaceValues at h
  simp only at h
  split at h
  · rename_i hany
    simp only [List.any_eq_true, decide_eq_true_eq] at hany
    obtain ⟨a, ha, ea⟩ := hany
    have : ∀ l : List Attr, a ∈ l → ⟨a.name, vals⟩ ∈ replaceLoop C (C.fold t) vals l := by
      intro l
      induction l with
      | nil => simp
      | cons b bs ih =>
        intro hm
        rw [replaceLoop]
        rcases List.mem_cons.1 hm with rfl | hm
        · rw [if_pos ea, if_neg hv]; exact List.mem_cons_self
        · split
          · exact List.mem_cons_of_mem _ (ih hm)
          · exact List.mem_cons_of_mem _ (ih hm)
    unfold valuesOf at h
    rw [List.flatMap_eq_nil_iff] at h
    exact hv (h ⟨a.name, vals⟩ (List.mem_filter.2 ⟨this as ha, by simpa using ea⟩))
  · rw [valuesOf_append, valuesOf_cons, if_pos rfl] at h
    simp [hv] at h

/-- C17: an attribute left without values disappears. -/
theorem C17_empty_attribute_disappears (e e' : Entry) (d : Str) (c : Change)
    (hop : c.op = opAdd ∨ c.op = opReplace ∨ c.op = opDelete)
    (h : applyModify C e d [c] = .ok e') (hempty : valuesOf C e'.attrs c.typ = []) :
    ∀ a ∈ e'.attrs, C.fold a.name ≠ C.fold c.typ := by
  obtain ⟨rdn, rest, md, -, -, -, hdn, h⟩ := applyModify_ok h
  obtain ⟨as1, h1, h2⟩ := applyChanges_cons h
  simp [applyChanges] at h2
  have go : ∀ vals, as1 = entryReplaceValues C e.attrs c.typ vals → ∀ a ∈ e'.attrs, C.fold a.name ≠ C.fold c.typ := by
    intro vals hv
    rw [← h2, hv] at hempty
    have := entryReplaceValues_valuesOf_nil hempty
    subst this
    rw [← h2, hv]
    exact fun a => entryReplaceValues_gone
  rcases applyChange_ok h1 with ⟨_, h⟩ | ⟨_, _, h⟩ | ⟨_, _, h⟩ | ⟨h1, h2, h3, _⟩
  · exact go _ h
  · exact go _ h
  · exact go _ h
  · rcases hop with h | h | h <;> contradiction

example : let e : Entry := ⟨b!"cn=a", [⟨b!"cn", [b!"a"]⟩, ⟨b!"Mail", [b!"x", b!"y"]⟩]⟩
    AsciiNames e.attrs ∧ UniqueNames asciiCase e.attrs ∧
    applyModify asciiCase e b!"cn=a" [⟨opAdd, b!"mail", [b!"X", b!"z"]⟩] =
      .ok ⟨b!"cn=a", [⟨b!"cn", [b!"a"]⟩, ⟨b!"Mail", [b!"x", b!"y", b!"z"]⟩]⟩ ∧
    applyModify asciiCase e b!"cn=a" [⟨opDelete, b!"mail", [b!"X", b!"Y"]⟩] =
      .ok ⟨b!"cn=a", [⟨b!"cn", [b!"a"]⟩]⟩ ∧
    applyModify asciiCase e b!"cn=a" [⟨opReplace, b!"mail", [b!"q"]⟩] =
      .ok ⟨b!"cn=a", [⟨b!"cn", [b!"a"]⟩, ⟨b!"Mail", [b!"q"]⟩]⟩ := by decide +kernel

/-- C17 fails for an entry with two attributes whose names differ in case only: an add loses a value. -/
theorem C17_duplicate_names_fails :
    ∃ (e e' : Entry) (t : Str) (vs : List Str), applyModify asciiCase e e.dn [⟨opAdd, t, vs⟩] = .ok e' ∧
      ∃ v, HasValue asciiCase e.attrs t v ∧ ¬ HasValue asciiCase e'.attrs t v :=
  ⟨⟨b!"cn=a", [⟨b!"mail", [b!"x"]⟩, ⟨b!"MAIL", [b!"z"]⟩]⟩, ⟨b!"cn=a", [⟨b!"mail", [b!"x", b!"y"]⟩, ⟨b!"MAIL", [b!"x", b!"y"]⟩]⟩,
    b!"mail", [b!"y"], by decide +kernel, b!"z", by decide +kernel, by decide +kernel⟩

/-! ## C18 the RDN values stay -/

/-- What makes a single change inadmissible: it would remove a value of the RDN. -/
def RemovesRDNValue (C : CaseEnv) (rdn : RDN) (c : Change) : Prop :=
  (c.op = opReplace ∧ ∃ a ∈ rdn, C.fold a.typ = C.fold c.typ ∧ ∀ v ∈ c.vals, C.fold v ≠ C.fold a.val) ∨
  (c.op = opDelete ∧ ∃ a ∈ rdn, C.fold a.typ = C.fold c.typ ∧ (c.vals = [] ∨ ∃ v ∈ c.vals, C.fold v = C.fold a.val))

/-- C17/C18: a single change is refused exactly if it would remove a value of the RDN, with notAllowedOnRDN. -/
theorem C18_refused_iff_removes_rdn_value (e : Entry) (d : Str) (c : Change) (rdn : RDN) (rest : DN)
    (hp : parseDN C e.dn = some (rdn :: rest)) (hd : ∃ md, parseDN C d = some md ∧ dnEqFold C (rdn :: rest) md = true) :
    (RemovesRDNValue C rdn c → applyModify C e d [c] = .err (.ldap rcNotAllowedOnRDN true)) ∧
    (¬ RemovesRDNValue C rdn c → ∃ e', applyModify C e d [c] = .ok e') := by
  obtain ⟨md, hm, hq⟩ := hd
  rw [applyModify_eq hp hm hq]
  have hr : replaceRefused C rdn c = true ↔ ∃ a ∈ rdn, C.fold a.typ = C.fold c.typ ∧ ∀ v ∈ c.vals, C.fold v ≠ C.fold a.val := by
    simp only [replaceRefused, List.any_eq_true, Bool.and_eq_true, decide_eq_true_eq, Bool.not_eq_true', List.any_eq_false]
    exact ⟨fun ⟨a, h, e, f⟩ => ⟨a, h, e.symm, fun v hv x => f v hv x.symm⟩,
      fun ⟨a, h, e, f⟩ => ⟨a, h, e.symm, fun v hv x => f v hv x.symm⟩⟩
  have hdl : deleteRefused C rdn c = true ↔
      ∃ a ∈ rdn, C.fold a.typ = C.fold c.typ ∧ (c.vals = [] ∨ ∃ v ∈ c.vals, C.fold v = C.fold a.val) := by
    simp only [deleteRefused, List.any_eq_true, Bool.and_eq_true, decide_eq_true_eq, Bool.or_eq_true]
    exact ⟨fun ⟨a, h, e, f⟩ => ⟨a, h, e.symm, f.imp id fun ⟨v, hv, x⟩ => ⟨v, hv, x.symm⟩⟩,
      fun ⟨a, h, e, f⟩ => ⟨a, h, e.symm, f.imp id fun ⟨v, hv, x⟩ => ⟨v, hv, x.symm⟩⟩⟩
  have one : applyChanges C rdn e.attrs e.attrs [c] = applyChange C rdn e.attrs e.attrs c := by
    simp only [applyChanges]; cases applyChange C rdn e.attrs e.attrs c <;> rfl
  rw [one]
  constructor
  · rintro (⟨ho, h⟩ | ⟨ho, h⟩)
    · simp [applyChange, ho, hr.2 h, opReplace, opAdd]
    · simp [applyChange, ho, hdl.2 h, opDelete, opReplace, opAdd]
  · intro h
    unfold applyChange
    split
    · exact ⟨_, rfl⟩
    · split
      · rename_i ho
        rw [if_neg (fun hh => h (.inl ⟨ho, hr.1 hh⟩))]; exact ⟨_, rfl⟩
      · split
        · rename_i ho
          rw [if_neg (fun hh => h (.inr ⟨ho, hdl.1 hh⟩))]; exact ⟨_, rfl⟩
        · exact ⟨_, rfl⟩

theorem hasValue_congr {as : List Attr} {t u v : Str} (h : C.fold t = C.fold u) :
    HasValue C as t v ↔ HasValue C as u v := by unfold HasValue; rw [valuesOf_congr_fold h]

/-- C15/C18, for every entry and every list of changes: the request is carried out exactly if none of the changes would remove a value of the
RDN; otherwise the answer is notAllowedOnRDN. -/
theorem C18_request_refused_iff (e : Entry) (d : Str) (cs : List Change) (rdn : RDN) (rest : DN)
    (hp : parseDN C e.dn = some (rdn :: rest)) (hd : ∃ md, parseDN C d = some md ∧ dnEqFold C (rdn :: rest) md = true) :
    ((∃ c ∈ cs, RemovesRDNValue C rdn c) → applyModify C e d cs = .err (.ldap 67 true)) ∧
    ((∀ c ∈ cs, ¬ RemovesRDNValue C rdn c) → ∃ e', applyModify C e d cs = .ok e') := by
  have step : ∀ (c : Change) (as : List Attr), (RemovesRDNValue C rdn c → applyChange C rdn e.attrs as c = .err (.ldap 67 true)) ∧
      (¬ RemovesRDNValue C rdn c → ∃ as', applyChange C rdn e.attrs as c = .ok as') := by
    intro c as
    have h := C18_refused_iff_removes_rdn_value e d c rdn rest hp hd
    obtain ⟨md, hm, hq⟩ := hd
    rw [applyModify_eq hp hm hq] at h
    have one : applyChanges C rdn e.attrs e.attrs [c] = applyChange C rdn e.attrs e.attrs c := by
      simp only [applyChanges]; cases applyChange C rdn e.attrs e.attrs c <;> rfl
    rw [one] at h
    constructor
    · intro hr
      have h1 := h.1 hr
      unfold applyChange at h1 ⊢
      by_cases h0 : c.op = opAdd
      · rw [if_pos h0] at h1; exact absurd h1 (by simp)
      · rw [if_neg h0] at h1 ⊢
        by_cases h2 : c.op = opReplace
        · rw [if_pos h2] at h1 ⊢
          cases hx : replaceRefused C rdn c with
          | true => rfl
          | false => rw [hx] at h1; exact absurd h1 (by simp)
        · rw [if_neg h2] at h1 ⊢
          by_cases h3 : c.op = opDelete
          · rw [if_pos h3] at h1 ⊢
            cases hx : deleteRefused C rdn c with
            | true => rfl
            | false => rw [hx] at h1; exact absurd h1 (by simp)
          · rw [if_neg h3] at h1; exact absurd h1 (by simp)
    · intro hr
      obtain ⟨e', h1⟩ := h.2 hr
      unfold applyChange at h1 ⊢
      by_cases h0 : c.op = opAdd
      · rw [if_pos h0]; exact ⟨_, rfl⟩
      · rw [if_neg h0] at h1 ⊢
        by_cases h2 : c.op = opReplace
        · rw [if_pos h2] at h1 ⊢
          cases hx : replaceRefused C rdn c with
          | true => rw [hx] at h1; exact absurd h1 (by simp)
          | false => exact ⟨_, rfl⟩
        · rw [if_neg h2] at h1 ⊢
          by_cases h3 : c.op = opDelete
          · rw [if_pos h3] at h1 ⊢
            cases hx : deleteRefused C rdn c with
            | true => rw [hx] at h1; exact absurd h1 (by simp)
            | false => exact ⟨_, rfl⟩
          · rw [if_neg h3]; exact ⟨_, rfl⟩
  obtain ⟨md, hm, hq⟩ := hd
  rw [applyModify_eq hp hm hq]
  have main : ∀ (cs : List Change) (as : List Attr),
      ((∃ c ∈ cs, RemovesRDNValue C rdn c) → applyChanges C rdn e.attrs as cs = .err (.ldap 67 true)) ∧
      ((∀ c ∈ cs, ¬ RemovesRDNValue C rdn c) → ∃ as', applyChanges C rdn e.attrs as cs = .ok as') := by
    intro cs
    induction cs with
    | nil => intro as; exact ⟨fun ⟨c, hc, _⟩ => absurd hc (by simp), fun _ => ⟨as, rfl⟩⟩
    | cons c cs ih =>
      intro as
      have hs := step c as
      constructor
      · rintro ⟨x, hx, hr⟩
        simp only [applyChanges]
        by_cases hc : RemovesRDNValue C rdn c
        · rw [hs.1 hc]; rfl
        · obtain ⟨as', h1⟩ := hs.2 hc
          rw [h1]
          rcases List.mem_cons.1 hx with rfl | hx
          · exact absurd hr hc
          · exact (ih as').1 ⟨x, hx, hr⟩
      · intro hall
        obtain ⟨as', h1⟩ := hs.2 (hall c List.mem_cons_self)
        simp only [applyChanges, h1]
        exact (ih as').2 fun x hx => hall x (List.mem_cons_of_mem _ hx)
  constructor
  · intro h; rw [(main cs e.attrs).1 h]; rfl
  · intro h
    obtain ⟨as', h1⟩ := (main cs e.attrs).2 h
    rw [h1]; exact ⟨_, rfl⟩

/-- C15/C17, for every list of changes: what the values of every type are after a request that was carried out. The difference from RFC 4511 is
the argument `orig` of `changeValues`: a delete starts from the values before the request. (Missing: entries with two attributes whose names
differ in case only, see `C17_duplicate_names_fails`.) -/
theorem C15_values_partial (hC : C.Lawful) (e e' : Entry) (d : Str) (cs : List Change)
    (hn : AsciiNames e.attrs) (ht : ∀ c ∈ cs, IsAscii c.typ) (hu : UniqueNames C e.attrs)
    (h : applyModify C e d cs = .ok e') (t : Str) :
    valuesOf C e'.attrs t = valuesAfter C t (valuesOf C e.attrs t) (valuesOf C e.attrs t) cs := by
  obtain ⟨rdn, rest, md, hp, -, -, hdn, h⟩ := applyModify_ok h
  have main : ∀ (cs : List Change) (as as' : List Attr), (∀ c ∈ cs, IsAscii c.typ) → AsciiNames as → UniqueNames C as →
      applyChanges C rdn e.attrs as cs = .ok as' →
      valuesOf C as' t = valuesAfter C t (valuesOf C e.attrs t) (valuesOf C as t) cs := by
    intro cs
    induction cs with
    | nil => intro as as' _ _ _ h; simp [applyChanges] at h; rw [h]; rfl
    | cons c cs ih =>
      intro as as' ht hn' hu' h
      obtain ⟨as1, h1, h2⟩ := applyChanges_cons h
      have htc := ht c List.mem_cons_self
      rw [ih as1 as' (fun c hc => ht c (List.mem_cons_of_mem _ hc)) (applyChange_ascii h1 htc hn') (applyChange_unique h1 hu') h2]
      unfold valuesAfter
      rw [List.foldl_cons]
      congr 1
      by_cases hct : C.fold c.typ = C.fold t
      · rw [if_pos hct, valuesOf_congr_fold hct.symm, valuesOf_congr_fold (as := e.attrs) hct.symm, valuesOf_congr_fold (as := as) hct.symm]
        unfold changeValues
        rcases applyChange_ok h1 with ⟨ho, rfl⟩ | ⟨ho, -, rfl⟩ | ⟨ho, -, rfl⟩ | ⟨o1, o2, o3, rfl⟩
        · rw [if_pos (show c.op = 0 from ho), entryReplaceValues_valuesOf hu', getVals_eq_valuesOf hC htc hn' hu']
          unfold entryApplyModAdd
          congr 1
          apply List.filter_congr
          intro v _
          rw [Bool.eq_iff_iff]
          simp only [Bool.not_eq_true', List.any_eq_false, decide_eq_true_eq]
          exact ⟨fun h w hw e => h w hw e.symm, fun h w hw e => h w hw e.symm⟩
        · rw [ho, if_neg (by decide), if_pos (by decide), entryReplaceValues_valuesOf hu']
        · rw [ho, if_neg (by decide), if_neg (by decide), if_pos (by decide), entryReplaceValues_valuesOf hu', getVals_eq_valuesOf hC htc hn hu]
          unfold entryApplyModDelete
          split
          · rfl
          · apply List.filter_congr
            intro v _
            rw [Bool.eq_iff_iff]
            simp
        · rw [if_neg (show ¬ c.op = 0 from o1), if_neg (show ¬ c.op = 2 from o2), if_neg (show ¬ c.op = 1 from o3)]
      · rw [if_neg hct]
        unfold valuesOf
        rw [applyChange_other h1]
        intro b eb; simp [eb, hct]
  exact main cs _ _ ht hn hu h

/-- the hypotheses of `C15_values_partial` with the list of changes of `C15_sequential_fails`, and the value lost -/
example : ∃ e' : Entry, let e : Entry := ⟨b!"cn=a", [⟨b!"cn", [b!"a"]⟩, ⟨b!"mail", [b!"x"]⟩]⟩
    let cs : List Change := [⟨0, b!"mail", [b!"y"]⟩, ⟨1, b!"Mail", [b!"X"]⟩, ⟨2, b!"sn", [b!"u"]⟩]
    AsciiNames e.attrs ∧ UniqueNames asciiCase e.attrs ∧ (∀ c ∈ cs, IsAscii c.typ) ∧ applyModify asciiCase e b!"cn=a" cs = .ok e' ∧
    valuesOf asciiCase e'.attrs b!"mail" = [] ∧ valuesOf asciiCase e'.attrs b!"sn" = [b!"u"] :=
  ⟨⟨b!"cn=a", [⟨b!"cn", [b!"a"]⟩, ⟨b!"sn", [b!"u"]⟩]⟩, by decide +kernel⟩

theorem getVals_first (hC : C.Lawful) {as : List Attr} {t : Str} (ht : IsAscii t) (ha : AsciiNames as) :
    getVals C as (C.fold t) = firstValues C as t := by
  induction as with
  | nil => rfl
  | cons a as ih =>
    have hx := eqFold_fold_iff hC ht (ha a List.mem_cons_self)
    unfold getVals firstValues
    by_cases h : C.fold a.name = C.fold t
    · rw [if_pos (hx.2 h), List.find?_cons_of_pos (by simpa using h)]; rfl
    · rw [if_neg (fun hh => h (hx.1 hh)), List.find?_cons_of_neg (by simpa using h)]
      exact ih fun b hb => ha b (List.mem_cons_of_mem _ hb)

theorem replaceLoop_vals {n : Str} {vals : List Str} {as : List Attr} {a : Attr} (h : a ∈ replaceLoop C n vals as) (ha : C.fold a.name = n) :
    a.vals = vals := by
  induction as with
  | nil => simp [replaceLoop] at h
  | cons b bs ih =>
    rw [replaceLoop] at h
    by_cases hb : C.fold b.name = n
    · rw [if_pos hb] at h
      by_cases hv : vals = []
      · rw [if_pos hv] at h; exact ih h
      · rw [if_neg hv] at h
        rcases List.mem_cons.1 h with rfl | h
        · rfl
        · exact ih h
    · rw [if_neg hb] at h
      rcases List.mem_cons.1 h with rfl | h
      · exact absurd ha hb
      · exact ih h

/-- All attributes of the type have these values, and there is one exactly if there are values. -/
def AllAre (C : CaseEnv) (as : List Attr) (t : Str) (v : List Str) : Prop :=
  (∀ a ∈ as, C.fold a.name = C.fold t → a.vals = v) ∧ (v ≠ [] ↔ ∃ a ∈ as, C.fold a.name = C.fold t)

theorem entryReplaceValues_all (as : List Attr) (t : Str) (v : List Str) : AllAre C (entryReplaceValues C as t v) t v := by
  constructor
  · intro a ha hn
    unfold entryReplaceValues at ha
    simp only at ha
    split at ha
    · exact replaceLoop_vals ha hn
    · split at ha
      · exact replaceLoop_vals ha hn
      · rcases List.mem_append.1 ha with ha | ha
        · exact replaceLoop_vals ha hn
        · simp only [List.mem_singleton] at ha; rw [ha]
  · constructor
    · intro hv
      apply Decidable.byContradiction
      intro hno
      refine hv (entryReplaceValues_valuesOf_nil (C := C) (as := as) (t := t) (valuesOf_none ?_))
      exact fun a ha e => hno ⟨a, ha, e⟩
    · rintro ⟨a, ha, e⟩ rfl
      exact entryReplaceValues_gone ha e

theorem AllAre.first {as : List Attr} {t : Str} {v : List Str} (h : AllAre C as t v) : firstValues C as t = v := by
  unfold firstValues
  cases hf : as.find? fun a => C.fold a.name = C.fold t with
  | none =>
    have : ¬ ∃ a ∈ as, C.fold a.name = C.fold t := by
      rintro ⟨a, ha, e⟩
      have := List.find?_eq_none.1 hf a ha
      simp [e] at this
    have hv : v = [] := Decidable.byContradiction fun hv => this (h.2.1 hv)
    rw [hv]; rfl
  | some a => exact h.1 a (List.mem_of_find?_eq_some hf) (by simpa using List.find?_some hf)

/-- C15/C17, for every entry and every list of changes: after a request that was carried out, all attributes of a type named in it have the
same values, which are computed from those of the first attribute of that type; and there is such an attribute exactly if there are values. -/
theorem C17_all_entries_partial (hC : C.Lawful) (e e' : Entry) (d : Str) (cs : List Change)
    (hn : AsciiNames e.attrs) (ht : ∀ c ∈ cs, IsAscii c.typ) (h : applyModify C e d cs = .ok e') (t : Str)
    (hnamed : ∃ c ∈ cs, C.fold c.typ = C.fold t ∧ (c.op = 0 ∨ c.op = 1 ∨ c.op = 2)) :
    let v := valuesAfter C t (firstValues C e.attrs t) (firstValues C e.attrs t) cs
    (∀ a ∈ e'.attrs, C.fold a.name = C.fold t → a.vals = v) ∧ (v ≠ [] ↔ ∃ a ∈ e'.attrs, C.fold a.name = C.fold t) := by
  obtain ⟨rdn, rest, md, hp, -, -, hdn, h⟩ := applyModify_ok h
  have main : ∀ (cs : List Change) (as as' : List Attr), (∀ c ∈ cs, IsAscii c.typ) → AsciiNames as →
      (AllAre C as t (firstValues C as t) ∨ ∃ c ∈ cs, C.fold c.typ = C.fold t ∧ (c.op = 0 ∨ c.op = 1 ∨ c.op = 2)) →
      applyChanges C rdn e.attrs as cs = .ok as' → AllAre C as' t (valuesAfter C t (firstValues C e.attrs t) (firstValues C as t) cs) := by
    intro cs
    induction cs with
    | nil =>
      intro as as' _ _ ho h
      simp [applyChanges] at h
      rw [← h]
      rcases ho with ho | ⟨c, hc, _⟩
      · exact ho
      · exact absurd hc (by simp)
    | cons c cs ih =>
      intro as as' ht hn' ho h
      obtain ⟨as1, h1, h2⟩ := applyChanges_cons h
      have htc := ht c List.mem_cons_self
      have hn1 := applyChange_ascii h1 htc hn'
      have ht1 : ∀ c ∈ cs, IsAscii c.typ := fun c hc => ht c (List.mem_cons_of_mem _ hc)
      have ev : valuesAfter C t (firstValues C e.attrs t) (firstValues C as t) (c :: cs) = valuesAfter C t (firstValues C e.attrs t)
        (if C.fold c.typ = C.fold t then changeValues C (firstValues C e.attrs t) (firstValues C as t) c else firstValues C as t) cs := rfl
      rw [ev]
      by_cases hct : C.fold c.typ = C.fold t
      · rw [if_pos hct]
        have congF : ∀ l, firstValues C l t = firstValues C l c.typ := fun l => by unfold firstValues; rw [hct]
        have congA : ∀ l v, AllAre C l c.typ v → AllAre C l t v := fun l v hh => by unfold AllAre at hh ⊢; rw [← hct]; exact hh
        by_cases hop : c.op = 0 ∨ c.op = 1 ∨ c.op = 2
        · have key : AllAre C as1 t (changeValues C (firstValues C e.attrs t) (firstValues C as t) c) := by
            apply congA
            rw [congF, congF]
            unfold changeValues
            rcases applyChange_ok h1 with ⟨ho, rfl⟩ | ⟨ho, -, rfl⟩ | ⟨ho, -, rfl⟩ | ⟨o1, o2, o3, rfl⟩
            · rw [if_pos (show c.op = 0 from ho)]
              have : c.vals.filter (fun v => ∀ w ∈ firstValues C as c.typ, C.fold w ≠ C.fold v) =
                  c.vals.filter fun v => !(firstValues C as c.typ).any fun w => C.fold v = C.fold w := by
                apply List.filter_congr
                intro v _
                rw [Bool.eq_iff_iff]
                simp only [Bool.not_eq_true', List.any_eq_false, decide_eq_true_eq]
                exact ⟨fun h w hw e => h w hw e.symm, fun h w hw e => h w hw e.symm⟩
              rw [this, getVals_first hC htc hn']
              exact entryReplaceValues_all _ _ _
            · rw [ho, if_neg (by decide), if_pos (by decide)]; exact entryReplaceValues_all _ _ _
            · rw [ho, if_neg (by decide), if_neg (by decide), if_pos (by decide)]
              have : (if c.vals = [] then [] else (firstValues C e.attrs c.typ).filter fun v => ∀ w ∈ c.vals, C.fold v ≠ C.fold w) =
                  entryApplyModDelete C (firstValues C e.attrs c.typ) c.vals := by
                unfold entryApplyModDelete
                split
                · rfl
                · apply List.filter_congr
                  intro v _
                  rw [Bool.eq_iff_iff]
                  simp
              rw [this, getVals_first hC htc hn]
              exact entryReplaceValues_all _ _ _
            · exact absurd hop (fun hh => hh.elim o1 fun hh => hh.elim o3 o2)
          have := ih as1 as' ht1 hn1 (.inl (by rw [key.first]; exact key)) h2
          rwa [key.first] at this
        · have e1 : as1 = as := by
            rcases applyChange_ok h1 with ⟨ho, -⟩ | ⟨ho, -⟩ | ⟨ho, -⟩ | ⟨-, -, -, h⟩
            · exact absurd (.inl ho) hop
            · exact absurd (.inr (.inr ho)) hop
            · exact absurd (.inr (.inl ho)) hop
            · exact h
          have e2 : changeValues C (firstValues C e.attrs t) (firstValues C as t) c = firstValues C as t := by
            unfold changeValues
            rw [if_neg (fun h => hop (.inl h)), if_neg (fun h => hop (.inr (.inr h))), if_neg (fun h => hop (.inr (.inl h)))]
          rw [e2]
          subst e1
          refine ih _ as' ht1 hn1 ?_ h2
          rcases ho with ho | ⟨x, hx, hxt, hxo⟩
          · exact .inl ho
          · rcases List.mem_cons.1 hx with rfl | hx
            · exact absurd hxo hop
            · exact .inr ⟨x, hx, hxt, hxo⟩
      · rw [if_neg hct]
        have hfil : as1.filter (fun a => C.fold a.name = C.fold t) = as.filter (fun a => C.fold a.name = C.fold t) :=
          applyChange_other h1 _ fun b eb => by simp [eb, hct]
        have e1 : firstValues C as1 t = firstValues C as t := by
          unfold firstValues
          rw [← List.head?_filter, ← List.head?_filter, hfil]
        have hmem : ∀ a, (a ∈ as1 ∧ C.fold a.name = C.fold t) ↔ (a ∈ as ∧ C.fold a.name = C.fold t) := fun a => by
          have := congrArg (a ∈ ·) hfil
          simpa [List.mem_filter] using this
        rw [← e1]
        refine ih as1 as' ht1 hn1 ?_ h2
        rcases ho with ho | ⟨x, hx, hxt, hxo⟩
        · left
          rw [e1]
          refine ⟨fun a ha e => ho.1 a ((hmem a).1 ⟨ha, e⟩).1 e, ho.2.trans ⟨fun ⟨a, ha⟩ => ⟨a, (hmem a).2 ha⟩, fun ⟨a, ha⟩ => ⟨a, (hmem a).1 ha⟩⟩⟩
        · rcases List.mem_cons.1 hx with rfl | hx
          · exact absurd hxt hct
          · exact .inr ⟨x, hx, hxt, hxo⟩
  exact main cs _ _ ht hn (.inr hnamed) h

/-- the hypotheses of `C17_all_entries_partial` with the entry of `C17_duplicate_names_fails` -/
example : let e : Entry := ⟨b!"cn=a", [⟨b!"mail", [b!"x"]⟩, ⟨b!"MAIL", [b!"z"]⟩]⟩
    AsciiNames e.attrs ∧ applyModify asciiCase e b!"cn=a" [⟨0, b!"mail", [b!"y"]⟩] =
      .ok ⟨b!"cn=a", [⟨b!"mail", [b!"x", b!"y"]⟩, ⟨b!"MAIL", [b!"x", b!"y"]⟩]⟩ := by decide +kernel

/-- the hypotheses of `C18_request_refused_iff`: the second change would remove a value of the RDN -/
example : ∃ c ∈ [⟨0, b!"cn", [b!"b"]⟩, ⟨1, b!"CN", [b!"A"]⟩], RemovesRDNValue asciiCase [⟨b!"cn", b!"a"⟩] c := by
  exact ⟨_, List.mem_cons_of_mem _ List.mem_cons_self, .inr ⟨rfl, _, List.mem_cons_self, by decide +kernel, .inr ⟨_, List.mem_cons_self, by decide +kernel⟩⟩⟩

/-- C18: for entries whose attribute names are ASCII and distinct up to case, a successful modify keeps the RDN values. (Missing:
entries with two attributes of the same name in different case, where it fails, see `C18_duplicate_names_fails`.) -/
theorem C18_rdn_values_kept_partial (hC : C.Lawful) (e e' : Entry) (d : Str) (cs : List Change)
    (hn : AsciiNames e.attrs) (ht : ∀ c ∈ cs, IsAscii c.typ) (hu : UniqueNames C e.attrs) (hr : HasRDN C e)
    (h : applyModify C e d cs = .ok e') : HasRDN C e' := by
  obtain ⟨rdn, rest, md, hp, -, -, hdn, h⟩ := applyModify_ok h
  intro rdn' rest' hp' a ha
  rw [hdn, hp] at hp'
  obtain ⟨rfl, rfl⟩ : rdn = rdn' ∧ rest = rest' := by simpa using hp'
  have hold : HasValue C e.attrs a.typ a.val := hr rdn rest hp a ha
  have main : ∀ (cs : List Change) (as as' : List Attr), (∀ c ∈ cs, IsAscii c.typ) → AsciiNames as → UniqueNames C as →
      HasValue C as a.typ a.val → applyChanges C rdn e.attrs as cs = .ok as' → HasValue C as' a.typ a.val := by
    intro cs
    induction cs with
    | nil => intro as as' _ _ _ hv h; simp [applyChanges] at h; rwa [h] at hv
    | cons c cs ih =>
      intro as as' ht hn hu hv h
      obtain ⟨as1, h1, h2⟩ := applyChanges_cons h
      have htc := ht c List.mem_cons_self
      refine ih as1 as' (fun c hc => ht c (List.mem_cons_of_mem _ hc)) (applyChange_ascii h1 htc hn)
        (applyChange_unique h1 hu) ?_ h2
      by_cases hct : C.fold c.typ = C.fold a.typ
      · rw [← hasValue_congr hct]
        rw [← hasValue_congr hct] at hv
        rcases applyChange_ok h1 with ⟨_, rfl⟩ | ⟨_, hrf, rfl⟩ | ⟨_, hrf, rfl⟩ | ⟨_, _, _, rfl⟩
        · unfold HasValue; rw [entryReplaceValues_valuesOf hu, getVals_eq_valuesOf hC htc hn hu]
          obtain ⟨w, hw, ew⟩ := hv
          exact ⟨w, List.mem_append.2 (.inl hw), ew⟩
        · unfold HasValue; rw [entryReplaceValues_valuesOf hu]
          simp only [replaceRefused, List.any_eq_false] at hrf
          have := hrf a ha
          simp only [hct, decide_true, Bool.true_and, Bool.not_eq_true', Bool.not_eq_false, List.any_eq_true,
            decide_eq_true_eq] at this
          obtain ⟨w, hw, ew⟩ := this
          exact ⟨w, hw, ew.symm⟩
        · unfold HasValue; rw [entryReplaceValues_valuesOf hu, getVals_eq_valuesOf hC htc ‹AsciiNames e.attrs› ‹UniqueNames C e.attrs›]
          simp only [deleteRefused, List.any_eq_false] at hrf
          have := hrf a ha
          simp only [hct, decide_true, Bool.true_and, Bool.or_eq_true, decide_eq_true_eq, List.any_eq_true, not_or] at this
          rw [← hasValue_congr hct] at hold
          obtain ⟨w, hw, ew⟩ := hold
          refine ⟨w, ?_, ew⟩
          unfold entryApplyModDelete
          rw [if_neg this.1, List.mem_filter]
          refine ⟨hw, ?_⟩
          simp only [Bool.not_eq_true', List.any_eq_false, decide_eq_true_eq]
          intro x hx ex
          exact this.2 ⟨x, hx, ew.symm.trans ex⟩
        · exact hv
      · have : valuesOf C as1 a.typ = valuesOf C as a.typ := by
          unfold valuesOf
          rw [applyChange_other h1]
          intro b eb; simp [eb, hct]
        unfold HasValue; rw [this]; exact hv
  exact main cs e.attrs e'.attrs ht hn hu hold h

theorem hasRDN_of {e : Entry} {rdn : RDN} {rest : DN} (hp : parseDN C e.dn = some (rdn :: rest))
    (h : ∀ a ∈ rdn, HasValue C e.attrs a.typ a.val) : HasRDN C e := by
  intro rdn' rest' hp' a ha
  rw [hp] at hp'
  obtain ⟨rfl, rfl⟩ : rdn = rdn' ∧ rest = rest' := by simpa using hp'
  exact h a ha

example : ∃ e e' : Entry, ∃ cs, AsciiNames e.attrs ∧ (∀ c ∈ cs, IsAscii (c : Change).typ) ∧ UniqueNames asciiCase e.attrs ∧
    HasRDN asciiCase e ∧ applyModify asciiCase e b!"CN=A+sn=b,dc=x" cs = .ok e' ∧
    valuesOf asciiCase e'.attrs b!"cn" = [b!"a"] :=
  ⟨⟨b!"cn=a+sn=B,dc=x", [⟨b!"cn", [b!"a", b!"z"]⟩, ⟨b!"SN", [b!"b"]⟩]⟩, ⟨b!"cn=a+sn=B,dc=x", [⟨b!"cn", [b!"a"]⟩, ⟨b!"SN", [b!"b"]⟩]⟩, [⟨opReplace, b!"cn", [b!"a", b!"q"]⟩,
    ⟨opDelete, b!"Cn", [b!"z"]⟩], by decide +kernel, by decide +kernel, by decide +kernel,
    hasRDN_of (rdn := [⟨b!"cn", b!"a"⟩, ⟨b!"sn", b!"B"⟩]) (rest := [[⟨b!"dc", b!"x"⟩]]) (by decide +kernel) (by decide +kernel),
    by decide +kernel, by decide +kernel⟩

/-- C18 fails for an entry with two attributes whose names differ in case only (an add request can create it): adding an unrelated
value to the attribute overwrites both with the values of the first. -/
theorem C18_duplicate_names_fails :
    ∃ (e e' : Entry) (cs : List Change), HasRDN asciiCase e ∧ applyModify asciiCase e e.dn cs = .ok e' ∧ ¬ HasRDN asciiCase e' := by
  refine ⟨⟨b!"cn=a", [⟨b!"CN", [b!"x"]⟩, ⟨b!"cn", [b!"a"]⟩]⟩, ⟨b!"cn=a", [⟨b!"CN", [b!"x", b!"y"]⟩, ⟨b!"cn", [b!"x", b!"y"]⟩]⟩,
    [⟨opAdd, b!"cn", [b!"y"]⟩],
    hasRDN_of (rdn := [⟨b!"cn", b!"a"⟩]) (rest := []) (by decide +kernel) (by decide +kernel), by decide +kernel, ?_⟩
  intro h
  have := h [⟨b!"cn", b!"a"⟩] [] (by decide +kernel) ⟨b!"cn", b!"a"⟩ (by decide +kernel)
  revert this; decide +kernel

/-! ## C50 (entry level) -/

theorem mem_mapSet {k : Str} {v : List Str} {m : List Attr} {a : Attr} (h : a ∈ mapSet k v m) :
    a = ⟨k, v⟩ ∨ (a ∈ m ∧ (a.name ≠ k ∨ a = ⟨k, v⟩)) ∨ a ∈ m := by
  induction m with
  | nil => simp [mapSet] at h; exact .inl h
  | cons b bs ih =>
    rw [mapSet] at h
    split at h
    · rcases List.mem_cons.1 h with h | h
      · exact .inl h
      · exact .inr (.inr (List.mem_cons_of_mem _ h))
    · split at h
      · rcases List.mem_cons.1 h with h | h
        · exact .inl h
        · exact .inr (.inr h)
      · rcases List.mem_cons.1 h with h | h
        · exact .inr (.inr (h ▸ List.mem_cons_self))
        · rcases ih h with h | ⟨h, _⟩ | h
          · exact .inl h
          · exact .inr (.inr (List.mem_cons_of_mem _ h))
          · exact .inr (.inr (List.mem_cons_of_mem _ h))

/-- Strictly sorted by name. -/
def SortedNames (m : List Attr) : Prop := m.Pairwise fun a b => strLe a.name b.name = true ∧ a.name ≠ b.name

theorem strLe_refl (s : Str) : strLe s s = true := by
  induction s with
  | nil => rfl
  | cons a as ih => simp [strLe, ih]

theorem strLe_total (s t : Str) : strLe s t = true ∨ strLe t s = true := by
  induction s generalizing t with
  | nil => left; rfl
  | cons a as ih =>
    cases t with
    | nil => right; rfl
    | cons b bs =>
      simp only [strLe]
      by_cases h : a < b
      · simp [h]
      · by_cases h' : b < a
        · simp [h']
        · simp [h, h']; exact ih bs

theorem strLe_trans {s t u : Str} (h : strLe s t = true) (h' : strLe t u = true) : strLe s u = true := by
  induction s generalizing t u with
  | nil => rfl
  | cons a as ih =>
    cases t with
    | nil => simp [strLe] at h
    | cons b bs =>
      cases u with
      | nil => simp [strLe] at h'
      | cons c cs =>
        simp only [strLe] at *
        have tri : ∀ x y : UInt8, x < y ∨ x = y ∨ y < x := by
          intro x y; rcases Nat.lt_trichotomy x.toNat y.toNat with h | h | h
          · exact .inl (UInt8.lt_iff_toNat_lt.2 h)
          · exact .inr (.inl (UInt8.toNat_inj.1 h))
          · exact .inr (.inr (UInt8.lt_iff_toNat_lt.2 h))
        have irr : ∀ x : UInt8, ¬ x < x := fun x h => Nat.lt_irrefl _ (UInt8.lt_iff_toNat_lt.1 h)
        have tr : ∀ {x y z : UInt8}, x < y → y < z → x < z := fun h h' =>
          UInt8.lt_iff_toNat_lt.2 (Nat.lt_trans (UInt8.lt_iff_toNat_lt.1 h) (UInt8.lt_iff_toNat_lt.1 h'))
        rcases tri a b with hab | hab | hab
        · rcases tri b c with hbc | hbc | hbc
          · rw [if_pos (tr hab hbc)]
          · subst hbc; rw [if_pos hab]
          · rw [if_neg (fun x => irr _ (tr x hbc)), if_pos hbc] at h'; simp at h'
        · subst hab
          rw [if_neg (irr _), if_neg (irr _)] at h
          rcases tri a c with hbc | hbc | hbc
          · rw [if_pos hbc]
          · subst hbc
            rw [if_neg (irr _), if_neg (irr _)] at h' ⊢
            exact ih h h'
          · rw [if_neg (fun x => irr _ (tr x hbc)), if_pos hbc] at h'; simp at h'
        · rw [if_neg (fun x => irr _ (tr x hab)), if_pos hab] at h; simp at h

theorem mapSet_name {k : Str} {v : List Str} {m : List Attr} {a : Attr} (h : a ∈ mapSet k v m) : a.name = k ∨ a ∈ m := by
  rcases mem_mapSet h with h | ⟨h, _⟩ | h
  · left; rw [h]
  · exact .inr h
  · exact .inr h

theorem mapSet_sorted {k : Str} {v : List Str} {m : List Attr} (h : SortedNames m) : SortedNames (mapSet k v m) := by
  induction m with
  | nil => simp [mapSet, SortedNames]
  | cons b bs ih =>
    have hb := (List.pairwise_cons.1 h).1
    have hbs : SortedNames bs := (List.pairwise_cons.1 h).2
    rw [mapSet]
    split
    · rename_i e
      exact List.pairwise_cons.2 ⟨fun a ha => e ▸ hb a ha, hbs⟩
    · rename_i hne
      split
      · rename_i hle
        refine List.pairwise_cons.2 ⟨?_, h⟩
        intro a ha
        rcases List.mem_cons.1 ha with rfl | ha
        · exact ⟨hle, fun e => hne e.symm⟩
        · refine ⟨strLe_trans hle (hb a ha).1, ?_⟩
          intro e
          have e' : k = a.name := e
          subst e'
          exact hne (strLe_antisymm (hb a ha).1 hle)
      · rename_i hle
        refine List.pairwise_cons.2 ⟨?_, ih hbs⟩
        intro a ha
        rcases mapSet_name ha with e | ha
        · rw [e]; exact ⟨(strLe_total b.name k).resolve_right hle, hne⟩
        · exact hb a ha

theorem mapSet_mem_iff {k : Str} {v : List Str} {m : List Attr} (h : SortedNames m) (a : Attr) :
    a ∈ mapSet k v m ↔ a = ⟨k, v⟩ ∨ (a ∈ m ∧ a.name ≠ k) := by
  induction m with
  | nil => simp [mapSet]
  | cons b bs ih =>
    have hb := (List.pairwise_cons.1 h).1
    have hbs : SortedNames bs := (List.pairwise_cons.1 h).2
    rw [mapSet]
    split
    · rename_i e
      simp only [List.mem_cons]
      constructor
      · rintro (h | h)
        · exact .inl h
        · exact .inr ⟨.inr h, fun x => (hb a h).2 (e.trans x.symm)⟩
      · rintro (h | ⟨h | h, hne⟩)
        · exact .inl h
        · subst h; exact absurd e hne
        · exact .inr h
    · rename_i hne
      split
      · rename_i hle
        simp only [List.mem_cons]
        constructor
        · rintro (h | h | h)
          · exact .inl h
          · subst h; exact .inr ⟨.inl rfl, hne⟩
          · refine .inr ⟨.inr h, fun e => ?_⟩
            have := (hb a h).1
            rw [e] at this
            exact hne (strLe_antisymm this hle)
        · rintro (h | ⟨h, _⟩)
          · exact .inl h
          · exact .inr h
      · simp only [List.mem_cons, ih hbs]
        constructor
        · rintro (h | h | h)
          · subst h; exact .inr ⟨.inl rfl, hne⟩
          · exact .inl h
          · exact .inr ⟨.inr h.1, h.2⟩
        · rintro (h | ⟨h | h, h'⟩)
          · exact .inr (.inl h)
          · exact .inl h
          · exact .inr (.inr ⟨h, h'⟩)

theorem foldl_mapSet_sorted (l m : List Attr) (h : SortedNames m) :
    SortedNames (l.foldl (fun m a => mapSet a.name a.vals m) m) := by
  induction l generalizing m with
  | nil => exact h
  | cons a as ih => exact ih _ (mapSet_sorted h)

theorem foldl_mapSet_mem (l m : List Attr) (h : SortedNames m) (hl : (l.map (·.name)).Nodup) (a : Attr) :
    a ∈ l.foldl (fun m a => mapSet a.name a.vals m) m ↔ a ∈ l ∨ (a ∈ m ∧ ∀ b ∈ l, b.name ≠ a.name) := by
  induction l generalizing m with
  | nil => simp
  | cons x xs ih =>
    simp only [List.map_cons, List.nodup_cons] at hl
    simp only [List.foldl_cons]
    rw [ih _ (mapSet_sorted h) hl.2, mapSet_mem_iff h]
    simp only [List.mem_cons]
    have hx : ∀ b ∈ xs, b.name ≠ x.name := fun b hb e => hl.1 (e ▸ List.mem_map_of_mem hb)
    constructor
    · rintro (h | ⟨h | h, h'⟩)
      · exact .inl (.inr h)
      · exact .inl (.inl h)
      · refine .inr ⟨h.1, ?_⟩
        rintro b (rfl | hb)
        · exact fun e => h.2 e.symm
        · exact h' b hb
    · rintro ((h | h) | ⟨h, h'⟩)
      · subst h; exact .inr ⟨.inl rfl, hx⟩
      · exact .inl h
      · exact .inr ⟨.inr ⟨h, fun e => h' x (.inl rfl) e.symm⟩, fun b hb => h' b (.inr hb)⟩

/-- C50, entry level: if the attribute types of the add request are pairwise different strings, the entry made from it has the
requested DN and exactly the requested attributes with their values, each once, sorted by name. (Missing: requests repeating a
type, where all but the last occurrence are lost, see `C50_repeated_type_fails`; storing is `C50_add_stores_partial`.) -/
theorem C50_entry_of_add_partial (dn : Str) (attrs : List Attr) (h : (attrs.map (·.name)).Nodup) :
    (entryFromAddRequest dn attrs).dn = dn ∧
    (∀ a, a ∈ (entryFromAddRequest dn attrs).attrs ↔ a ∈ attrs) ∧
    ((entryFromAddRequest dn attrs).attrs.map (·.name)).Nodup ∧
    (entryFromAddRequest dn attrs).attrs.Pairwise (fun a b => ByteLe a.name b.name) := by
  have hs : SortedNames (entryFromAddRequest dn attrs).attrs := foldl_mapSet_sorted _ _ List.Pairwise.nil
  refine ⟨rfl, fun a => ?_, ?_, hs.imp fun h => strLe_iff.1 h.1⟩
  · have := foldl_mapSet_mem attrs [] List.Pairwise.nil h a
    simpa [entryFromAddRequest] using this
  · exact List.pairwise_map.2 (hs.imp fun h => h.2)

example : (([⟨b!"sn", [b!"x"]⟩, ⟨b!"cn", [b!"a", b!"b"]⟩, ⟨b!"CN", []⟩] : List Attr).map (·.name)).Nodup := by decide +kernel

/-- C50, entry level, for every add request: of each type the last occurrence counts, and the entry has exactly those, each once. -/
theorem C50_last_occurrence (dn : Str) (attrs : List Attr) :
    (entryFromAddRequest dn attrs).dn = dn ∧
    (∀ a, a ∈ (entryFromAddRequest dn attrs).attrs ↔ ∃ before rest, attrs = before ++ a :: rest ∧ ∀ b ∈ rest, b.name ≠ a.name) ∧
    ((entryFromAddRequest dn attrs).attrs.map (·.name)).Nodup ∧
    (entryFromAddRequest dn attrs).attrs.Pairwise (fun a b => ByteLe a.name b.name) := by
  have hs : SortedNames (entryFromAddRequest dn attrs).attrs := foldl_mapSet_sorted _ _ List.Pairwise.nil
  refine ⟨rfl, fun a => ?_, List.pairwise_map.2 (hs.imp fun h => h.2), hs.imp fun h => strLe_iff.1 h.1⟩
  have main : ∀ (l m : List Attr), SortedNames m → (a ∈ l.foldl (fun m a => mapSet a.name a.vals m) m ↔
      (∃ before rest, l = before ++ a :: rest ∧ ∀ b ∈ rest, b.name ≠ a.name) ∨ (a ∈ m ∧ ∀ b ∈ l, b.name ≠ a.name)) := by
    intro l
    induction l with
    | nil => intro m _; simp
    | cons x xs ih =>
      intro m hm
      rw [List.foldl_cons, ih _ (mapSet_sorted hm), mapSet_mem_iff hm]
      constructor
      · rintro (⟨before, rest, rfl, h⟩ | ⟨rfl | h, h'⟩)
        · exact .inl ⟨x :: before, rest, rfl, h⟩
        · exact .inl ⟨[], xs, rfl, h'⟩
        · refine .inr ⟨h.1, fun b hb => ?_⟩
          rcases List.mem_cons.1 hb with rfl | hb
          · exact fun e => h.2 e.symm
          · exact h' b hb
      · rintro (⟨before, rest, e, h⟩ | ⟨h, h'⟩)
        · cases before with
          | nil =>
            obtain ⟨e1, e2⟩ := List.cons.inj e
            exact .inr ⟨.inl e1.symm, fun b hb => h b (e2 ▸ hb)⟩
          | cons y before =>
            obtain ⟨-, e2⟩ := List.cons.inj e
            exact .inl ⟨before, rest, e2, h⟩
        · exact .inr ⟨.inr ⟨h, fun e => h' x List.mem_cons_self e.symm⟩, fun b hb => h' b (List.mem_cons_of_mem _ hb)⟩
  have := main attrs [] List.Pairwise.nil
  simpa [entryFromAddRequest] using this

/-- a request that names a type twice: the entry has the second list of values -/
example : (entryFromAddRequest b!"cn=a" [⟨b!"sn", [b!"x"]⟩, ⟨b!"cn", [b!"a"]⟩, ⟨b!"sn", [b!"y", b!"z"]⟩]).attrs =
    [⟨b!"cn", [b!"a"]⟩, ⟨b!"sn", [b!"y", b!"z"]⟩] := by decide +kernel

/-- C50 fails if the request names a type twice: values of the first occurrence are silently dropped. -/
theorem C50_repeated_type_fails : ∃ dn attrs, ∃ a ∈ attrs, ∃ v ∈ (a : Attr).vals,
    ¬ HasValue asciiCase (entryFromAddRequest dn attrs).attrs a.name v :=
  ⟨b!"cn=a", [⟨b!"cn", [b!"a"]⟩, ⟨b!"cn", [b!"b"]⟩], ⟨b!"cn", [b!"a"]⟩, by decide +kernel, b!"a", by decide +kernel,
    by decide +kernel⟩

end Idm
