import Verif.Props.Bolt
import Verif.Props.Modify
/-!
# C13 rename, C50 add (stored)
-/
namespace Idm
open Dir

section
variable {C : CaseEnv} {G : GobEnv} {base : DN} {validate : Str → Str → Res Bool}

theorem hasValue_of_valuesOf_eq {as bs : List Attr} {t : Str} (h : valuesOf C as t = valuesOf C bs t) (v : Str) :
    HasValue C as t v ↔ HasValue C bs t v := by unfold HasValue; rw [h]

theorem del_values (hC : C.Lawful) {rdn : RDN} {old : List Attr} (ho : AsciiNames old) (huo : UniqueNames C old) :
    ∀ (xs : RDN) (as as' : List Attr),
      applyChanges C rdn old as (xs.map fun a => ⟨opDelete, a.typ, [a.val]⟩) = .ok as' → AsciiNames as → UniqueNames C as →
      (∀ a ∈ xs, IsAscii a.typ) → (xs.map fun a => C.fold a.typ).Nodup → (∀ a ∈ xs, valuesOf C as a.typ = valuesOf C old a.typ) →
      AsciiNames as' ∧ UniqueNames C as' ∧
      ∀ t v, HasValue C as' t v ↔ HasValue C as t v ∧ ¬ ∃ x ∈ xs, C.fold x.typ = C.fold t ∧ C.fold x.val = C.fold v := by
  intro xs
  induction xs with
  | nil =>
    intro as as' h ha hu _ _ _
    simp [applyChanges] at h
    subst h
    exact ⟨ha, hu, by simp⟩
  | cons x xs ih =>
    intro as as' h ha hu hxa hnd hold
    rw [List.map_cons] at h
    obtain ⟨as1, h1, h2⟩ := applyChanges_cons h
    have hx := hxa x List.mem_cons_self
    have ha1 := applyChange_ascii h1 hx ha
    have hu1 := applyChange_unique h1 hu
    have e1 : as1 = entryReplaceValues C as x.typ (entryApplyModDelete C (getVals C old (C.fold x.typ)) [x.val]) := by
      rcases applyChange_ok h1 with ⟨h, _⟩ | ⟨h, _⟩ | ⟨_, _, rfl⟩ | ⟨_, _, h, _⟩
      · exact absurd h (by simp [opAdd, opReplace, opDelete])
      · exact absurd h (by simp [opAdd, opReplace, opDelete])
      · rfl
      · exact absurd rfl h
    rw [List.map_cons, List.nodup_cons] at hnd
    have hother : ∀ t, C.fold x.typ ≠ C.fold t → valuesOf C as1 t = valuesOf C as t := by
      intro t ht; rw [e1]; exact valuesOf_replace_other ht
    have hself : valuesOf C as1 x.typ = (valuesOf C as x.typ).filter fun v => !decide (C.fold v = C.fold x.val) := by
      rw [e1, entryReplaceValues_valuesOf hu, getVals_eq_valuesOf hC hx ho huo, ← hold x List.mem_cons_self]
      simp [entryApplyModDelete]
    obtain ⟨r1, r2, r3⟩ := ih as1 as' h2 ha1 hu1 (fun a h => hxa a (List.mem_cons_of_mem _ h)) hnd.2 (by
      intro a h
      rw [hother a.typ (fun e => hnd.1 (List.mem_map.2 ⟨a, h, e.symm⟩))]
      exact hold a (List.mem_cons_of_mem _ h))
    refine ⟨r1, r2, fun t v => ?_⟩
    rw [r3]
    have step : HasValue C as1 t v ↔ HasValue C as t v ∧ ¬ (C.fold x.typ = C.fold t ∧ C.fold x.val = C.fold v) := by
      by_cases ht : C.fold x.typ = C.fold t
      · rw [hasValue_congr ht.symm, hasValue_congr (as := as) ht.symm]
        unfold HasValue
        rw [hself]
        constructor
        · rintro ⟨w, hw, ew⟩
          obtain ⟨hw1, hw2⟩ := List.mem_filter.1 hw
          refine ⟨⟨w, hw1, ew⟩, fun h => ?_⟩
          simp [ew, h.2] at hw2
        · rintro ⟨⟨w, hw, ew⟩, hne⟩
          refine ⟨w, List.mem_filter.2 ⟨hw, ?_⟩, ew⟩
          simp only [Bool.not_eq_eq_eq_not, Bool.not_true, decide_eq_false_iff_not, ew]
          exact fun e => hne ⟨ht, e.symm⟩
      · rw [hasValue_of_valuesOf_eq (hother t ht)]
        exact ⟨fun h => ⟨h, fun h' => ht h'.1⟩, fun h => h.1⟩
    rw [step]
    constructor
    · rintro ⟨⟨a, b⟩, c⟩
      refine ⟨a, ?_⟩
      rintro ⟨y, hy, e⟩
      rcases List.mem_cons.1 hy with rfl | hy
      · exact b e
      · exact c ⟨y, hy, e⟩
    · rintro ⟨a, b⟩
      exact ⟨⟨a, fun e => b ⟨x, List.mem_cons_self, e⟩⟩, fun ⟨y, hy, e⟩ => b ⟨y, List.mem_cons_of_mem _ hy, e⟩⟩

theorem add_values (hC : C.Lawful) {rdn : RDN} {old : List Attr} :
    ∀ (xs : RDN) (as as' : List Attr),
      applyChanges C rdn old as (xs.map fun a => ⟨opAdd, a.typ, [a.val]⟩) = .ok as' → AsciiNames as → UniqueNames C as →
      (∀ a ∈ xs, IsAscii a.typ) →
      ∀ t v, HasValue C as' t v ↔ HasValue C as t v ∨ ∃ x ∈ xs, C.fold x.typ = C.fold t ∧ C.fold x.val = C.fold v := by
  intro xs
  induction xs with
  | nil =>
    intro as as' h ha hu _
    simp [applyChanges] at h
    subst h
    simp
  | cons x xs ih =>
    intro as as' h ha hu hxa t v
    rw [List.map_cons] at h
    obtain ⟨as1, h1, h2⟩ := applyChanges_cons h
    have hx := hxa x List.mem_cons_self
    rw [ih as1 as' h2 (applyChange_ascii h1 hx ha) (applyChange_unique h1 hu) (fun a h => hxa a (List.mem_cons_of_mem _ h))]
    have e1 : as1 = entryReplaceValues C as x.typ (entryApplyModAdd C (getVals C as (C.fold x.typ)) [x.val]) := by
      rcases applyChange_ok h1 with ⟨_, rfl⟩ | ⟨h, _⟩ | ⟨h, _⟩ | ⟨h, _⟩
      · rfl
      · exact absurd h (by simp [opAdd, opReplace, opDelete])
      · exact absurd h (by simp [opAdd, opReplace, opDelete])
      · exact absurd rfl h
    have step : HasValue C as1 t v ↔ HasValue C as t v ∨ (C.fold x.typ = C.fold t ∧ C.fold x.val = C.fold v) := by
      by_cases ht : C.fold x.typ = C.fold t
      · rw [hasValue_congr ht.symm, hasValue_congr (as := as) ht.symm]
        have hv : valuesOf C as1 x.typ = entryApplyModAdd C (valuesOf C as x.typ) [x.val] := by
          rw [e1, entryReplaceValues_valuesOf hu, getVals_eq_valuesOf hC hx ha hu]
        unfold HasValue
        rw [hv]
        unfold entryApplyModAdd
        constructor
        · rintro ⟨w, hw, ew⟩
          rcases List.mem_append.1 hw with hw | hw
          · exact .inl ⟨w, hw, ew⟩
          · have := (List.mem_filter.1 hw).1
            simp at this
            subst this
            exact .inr ⟨ht, ew⟩
        · rintro (⟨w, hw, ew⟩ | ⟨-, ew⟩)
          · exact ⟨w, List.mem_append.2 (.inl hw), ew⟩
          · by_cases hin : ∃ w ∈ valuesOf C as x.typ, C.fold x.val = C.fold w
            · obtain ⟨w, hw, e⟩ := hin
              exact ⟨w, List.mem_append.2 (.inl hw), e.symm.trans ew⟩
            · refine ⟨x.val, List.mem_append.2 (.inr (List.mem_filter.2 ⟨by simp, ?_⟩)), ew⟩
              simp only [Bool.not_eq_eq_eq_not, Bool.not_true, List.any_eq_false, decide_eq_true_eq]
              exact fun w hw e => hin ⟨w, hw, e⟩
      · have : valuesOf C as1 t = valuesOf C as t := by rw [e1]; exact valuesOf_replace_other ht
        rw [hasValue_of_valuesOf_eq this]
        exact ⟨.inl, fun h => h.resolve_right fun h' => ht h'.1⟩
    rw [step]
    constructor
    · rintro ((a | a) | ⟨y, hy, e⟩)
      · exact .inl a
      · exact .inr ⟨x, List.mem_cons_self, a⟩
      · exact .inr ⟨y, List.mem_cons_of_mem _ hy, e⟩
    · rintro (a | ⟨y, hy, e⟩)
      · exact .inl (.inl a)
      · rcases List.mem_cons.1 hy with rfl | hy
        · exact .inl (.inr e)
        · exact .inr ⟨y, hy, e⟩

theorem typeOk_ascii {t : Str} (h : TypeOk t) : IsAscii t := by
  intro c hc
  have key : ∀ c : UInt8, okTypeByte c = true → c < 128 := by decide +kernel
  exact key c (h.2 c hc)

theorem get_rename_self {d : Dir} {k k' : DN} {e e' : Entry} (h : d.get k = some e) (hk : d.has k' = false) :
    (d.rename k k' e').get k' = some e' := by
  induction d with
  | nil => simp [Dir.get] at h
  | cons n d ih =>
    unfold Dir.has at hk
    simp only [List.any_cons, Bool.or_eq_false_iff, decide_eq_false_iff_not] at hk
    by_cases hn : n.name = k
    · simp [Dir.get, Dir.rename, hn]
    · have : Dir.get d k = some e := by simpa [Dir.get, hn] using h
      have ih := ih this (by unfold Dir.has; exact hk.2)
      unfold Dir.get Dir.rename at ih ⊢
      rw [List.map_cons, if_neg hn, List.find?_cons_of_neg (by simpa using hk.1)]
      exact ih

theorem get_rename_old {d : Dir} {k k' : DN} {e' : Entry} (h : k' ≠ k) : (d.rename k k' e').get k = none := by
  unfold Dir.get Dir.rename
  rw [Option.map_eq_none_iff, List.find?_eq_none]
  intro n hn
  obtain ⟨m, hm, rfl⟩ := List.mem_map.1 hn
  split
  · simpa using h
  · simpa using by assumption

theorem get_rename_other {d : Dir} {k k' x : DN} {e' : Entry} (h : x ≠ k) (h' : x ≠ k') : (d.rename k k' e').get x = d.get x := by
  induction d with
  | nil => rfl
  | cons n d ih =>
    unfold Dir.get Dir.rename at ih ⊢
    rw [List.map_cons]
    by_cases hn : n.name = k
    · rw [if_pos hn, List.find?_cons_of_neg (by simpa using fun e => h' e.symm),
        List.find?_cons_of_neg (by rw [hn]; simpa using fun e => h e.symm)]
      exact ih
    · rw [if_neg hn]
      by_cases hx : n.name = x
      · rw [List.find?_cons_of_pos (by simpa using hx), List.find?_cons_of_pos (by simpa using hx)]
      · rw [List.find?_cons_of_neg (by simpa using hx), List.find?_cons_of_neg (by simpa using hx)]
        exact ih

/-- C13: after a successful rename of `old` to `new` (same parent) the entry is found under the new name only, its DN is the new name,
every other lookup is as before, attributes of other types are as before and in the same order. The values are the old ones without
those of the old RDN (if their removal was requested) and with those of the new RDN; this part is for entries with ASCII attribute names
that are distinct up to case, and old RDNs that do not repeat a type. For old RDNs that do, the last conjunct says what the values are: of
the values of such a type only the last one named is removed. (Missing: entries and RDNs outside this class, where it fails, see
`C13_repeated_type_fails`; and as in C04.) -/
theorem C13_rename_partial (hC : C.Lawful) (hG : G.Lawful) (hb : BaseOk C base) (ops : List Op) (h : HistOk C ops)
    (req : ModifyDNReq) (o n : RDN) (p q : DN) (ho : parseDN C req.dn = some (o :: p)) (hn : parseDN C req.newRDN = some (n :: q))
    (hoo : NameOk (o :: p)) (hno : NameOk (n :: q))
    (hok : (boltStep C G validate (render base) (after C G validate base ops) (.rename req)).1 = .ok ()) :
    let db := after C G validate base ops
    let db' := (boltStep C G validate (render base) db (.rename req)).2
    ∃ e e' : Entry,
      boltSearch C G db req.dn scopeBase = .ok ([e], none) ∧
      (∀ text name, parseDN C text = some name → NameOk name →
        boltSearch C G db' text scopeBase =
          if SameName C name (n :: p) then .ok ([e'], none)
          else if SameName C name (o :: p) then .ok ([], some .other)
          else boltSearch C G db text scopeBase) ∧
      e'.dn = normalize C (n :: p) ∧
      (e'.attrs.filter fun a => ¬ ∃ x ∈ o ++ n, C.fold x.typ = C.fold a.name) =
        (e.attrs.filter fun a => ¬ ∃ x ∈ o ++ n, C.fold x.typ = C.fold a.name) ∧
      (AsciiNames e.attrs → UniqueNames C e.attrs → (o.map fun a => C.fold a.typ).Nodup → ∀ t v,
        HasValue C e'.attrs t v ↔
          (HasValue C e.attrs t v ∧ ¬ (req.deleteOldRDN = true ∧ ∃ x ∈ o, C.fold x.typ = C.fold t ∧ C.fold x.val = C.fold v)) ∨
          ∃ x ∈ n, C.fold x.typ = C.fold t ∧ C.fold x.val = C.fold v) ∧
      (AsciiNames e.attrs → UniqueNames C e.attrs → ∀ t, valuesOf C e'.attrs t =
        valuesAfter C t (valuesOf C e.attrs t) (valuesOf C e.attrs t)
          ((if req.deleteOldRDN = true then o.map fun a => ⟨1, a.typ, [a.val]⟩ else []) ++ n.map fun a => ⟨0, a.typ, [a.val]⟩)) := by
  intro db db'
  obtain ⟨ns, -, -, R, -⟩ := sim_run_empty (validate := validate) hC hG hb ops h.ok h.len
  obtain ⟨ns', h1, h2, R', -⟩ := sim_rename (C := C) (G := G) (base := base) hC hG R req
    (by intro m hm; rw [ho] at hm; cases hm; exact hoo) (by intro m hm; rw [hn] at hm; cases hm; exact hno)
  have hok' : (entryModifyDN C G (after C G validate base ops) req).1 = .ok () := hok
  rw [hok'] at h1
  simp only [ho, hn] at h1 h2
  have hnp : NameOk (n :: p) := by
    intro r hr
    rcases List.mem_cons.1 hr with rfl | hr
    · exact hno r List.mem_cons_self
    · exact hoo r (List.mem_cons_of_mem _ hr)
  simp only [specRename, specRenameAt] at h1 h2
  split at h1
  · simp at h1
  · rename_i c1
    rw [if_neg c1] at h2
    have c1' : (dirOf ns).has (foldDN C (n :: p)) = false := by simpa using c1
    split at h1
    · simp at h1
    · rename_i e he
      simp only [he] at h2
      split at h1
      · simp at h1
      · rename_i c2
        rw [if_neg c2] at h2
        split at h1
        · rename_i e' he'
          simp only [he'] at h2
          split at h1
          · simp at h1
          · rename_i c3
            rw [if_neg c3] at h2
            simp only at h2
            have hk : foldDN C (n :: p) ≠ foldDN C (o :: p) := by
              intro hk
              rw [hk] at c1
              unfold Dir.get at he
              obtain ⟨x, hx, -⟩ := Option.map_eq_some_iff.1 he
              refine c1 (List.any_eq_true.2 ⟨x, List.mem_of_find?_eq_some hx, ?_⟩)
              simpa using List.find?_some hx
            refine ⟨e, e', ?_, ?_, ?_, ?_, ?_, ?_⟩
            · rw [lookup_of_rel hC hG R ho hoo, he]
            · intro text name hp hname
              simp only [sameName_iff_foldDN]
              have hL : boltSearch C G db' text scopeBase = _ := lookup_of_rel hC hG R' hp hname
              rw [hL, ← h2]
              by_cases e1 : foldDN C name = foldDN C (n :: p)
              · rw [if_pos e1, e1, get_rename_self he c1']
              · rw [if_neg e1]
                by_cases e2 : foldDN C name = foldDN C (o :: p)
                · rw [if_pos e2, e2, get_rename_old hk]
                · rw [if_neg e2, get_rename_other e2 e1]
                  exact (lookup_of_rel hC hG R hp hname).symm
            · have := (C16_modify_touches_only_named C _ e' _ _ he').1
              exact this
            · have := (C16_modify_touches_only_named C _ e' _ _ he').2
              simp only at this
              have sub : ∀ l : List Attr, l.filter (fun a => ¬ ∃ x ∈ o ++ n, C.fold x.typ = C.fold a.name) =
                  (l.filter (fun a => ¬ Named C ((if req.deleteOldRDN = true then
                    o.map fun a => (⟨opDelete, a.typ, [a.val]⟩ : Change) else []) ++ n.map fun a => ⟨opAdd, a.typ, [a.val]⟩) a)).filter
                    (fun a => ¬ ∃ x ∈ o ++ n, C.fold x.typ = C.fold a.name) := by
                intro l
                rw [List.filter_filter]
                apply List.filter_congr
                intro a _
                rw [Bool.eq_iff_iff]
                simp only [Bool.and_eq_true, decide_eq_true_eq]
                refine ⟨fun h => ⟨h, ?_⟩, fun h => h.1⟩
                rintro ⟨c, hc, ec⟩
                rcases List.mem_append.1 hc with hc | hc
                · split at hc
                  · obtain ⟨x, hx, rfl⟩ := List.mem_map.1 hc
                    exact h ⟨x, List.mem_append.2 (.inl hx), ec⟩
                  · simp at hc
                · obtain ⟨x, hx, rfl⟩ := List.mem_map.1 hc
                  exact h ⟨x, List.mem_append.2 (.inr hx), ec⟩
              rw [sub e'.attrs, sub e.attrs, this]
            · intro ha hu hnd t v
              obtain ⟨rdn, rest, md, -, -, -, -, hch⟩ := applyModify_ok he'
              have hoa : ∀ a ∈ o, IsAscii a.typ := fun a h => typeOk_ascii ((hoo o List.mem_cons_self).2 a h)
              have hna : ∀ a ∈ n, IsAscii a.typ := fun a h => typeOk_ascii ((hno n List.mem_cons_self).2 a h)
              rw [applyChanges_append] at hch
              by_cases hd : req.deleteOldRDN = true
              · rw [if_pos hd] at hch
                simp only at hch
                cases hm : applyChanges C rdn e.attrs e.attrs (o.map fun a => ⟨opDelete, a.typ, [a.val]⟩) with
                | ok as1 =>
                  rw [hm, Res.ok_bind] at hch
                  obtain ⟨r1, r2, r3⟩ := del_values hC ha hu o e.attrs as1 hm ha hu hoa hnd (fun _ _ => rfl)
                  rw [add_values hC n as1 _ hch r1 r2 hna, r3]
                  simp only [hd, true_and]
                | err x => rw [hm] at hch; simp at hch
                | panic => rw [hm] at hch; simp at hch
                | hang => rw [hm] at hch; simp at hch
              · rw [if_neg hd] at hch
                simp only [applyChanges, Res.ok_bind] at hch
                rw [add_values hC n e.attrs _ hch ha hu hna]
                simp only [hd, Bool.false_eq_true, false_and, not_false_eq_true, and_true]
            · intro ha hu t
              refine C15_values_partial hC (⟨render (foldDN C (n :: p)), e.attrs⟩ : Entry) _ _ _ ha ?_ hu he' t
              intro c hc
              rcases List.mem_append.1 hc with hc | hc
              · split at hc
                · obtain ⟨x, hx, rfl⟩ := List.mem_map.1 hc
                  exact typeOk_ascii ((hoo o List.mem_cons_self).2 x hx)
                · simp at hc
              · obtain ⟨x, hx, rfl⟩ := List.mem_map.1 hc
                exact typeOk_ascii ((hno n List.mem_cons_self).2 x hx)
        all_goals simp at h1

/-- C50 end to end: after a successful add request with pairwise different attribute types, a lookup of the name finds one entry, with
the DN as given and exactly the requested attributes and values. (Missing: repeated types, see `C50_repeated_type_fails`; and as in
C04.) -/
theorem C50_add_stores_partial (hC : C.Lawful) (hG : G.Lawful) (hb : BaseOk C base) (ops : List Op) (dn : Str) (attrs : List Attr)
    (hnd : (attrs.map (·.name)).Nodup)
    (h : HistOk C (ops ++ [.add (entryFromAddRequest dn attrs)])) (name : DN) (hp : parseDN C dn = some name)
    (hok : (boltStep C G validate (render base) (after C G validate base ops) (.add (entryFromAddRequest dn attrs))).1 = .ok ()) :
    ∃ e, boltSearch C G (after C G validate base (ops ++ [.add (entryFromAddRequest dn attrs)])) dn scopeBase = .ok ([e], none) ∧
      e.dn = dn ∧ (∀ a, a ∈ e.attrs ↔ a ∈ attrs) ∧ (e.attrs.map (·.name)).Nodup := by
  have := (C14_fresh_start (validate := validate) hC hG hb ops _ h name hp hok).1
  obtain ⟨h1, h2, h3, -⟩ := C50_entry_of_add_partial dn attrs hnd
  exact ⟨_, this, h1, h2, h3⟩

/-- C50 end to end, for every add request: after its success a lookup of the name finds one entry, with the DN as given, and its attributes
are, for each type, those of the last occurrence in the request. (Missing: as in C04.) -/
theorem C50_add_stores_last_partial (hC : C.Lawful) (hG : G.Lawful) (hb : BaseOk C base) (ops : List Op) (dn : Str) (attrs : List Attr)
    (h : HistOk C (ops ++ [.add (entryFromAddRequest dn attrs)])) (name : DN) (hp : parseDN C dn = some name)
    (hok : (boltStep C G validate (render base) (after C G validate base ops) (.add (entryFromAddRequest dn attrs))).1 = .ok ()) :
    ∃ e, boltSearch C G (after C G validate base (ops ++ [.add (entryFromAddRequest dn attrs)])) dn scopeBase = .ok ([e], none) ∧
      e.dn = dn ∧ (∀ a, a ∈ e.attrs ↔ ∃ before rest, attrs = before ++ a :: rest ∧ ∀ b ∈ rest, b.name ≠ a.name) ∧
      (e.attrs.map (·.name)).Nodup := by
  have := (C14_fresh_start (validate := validate) hC hG hb ops _ h name hp hok).1
  obtain ⟨h1, h2, h3, -⟩ := C50_last_occurrence dn attrs
  exact ⟨_, this, h1, h2, h3⟩

end

/-! ## Concrete cases -/

/-- hypotheses of C13: renaming uid=c (whose value is stored as "C") -/
example :
    let db := after asciiCase gobInstance exValidate exBase exOps
    let req : ModifyDNReq := ⟨b!"UID=c,ou=p,dc=lg", b!"cn=d+uid=e", true⟩
    parseDN asciiCase req.dn = some ([⟨b!"UID", b!"c"⟩] :: [[⟨b!"ou", b!"p"⟩], [⟨b!"dc", b!"lg"⟩]]) ∧
    parseDN asciiCase req.newRDN = some ([⟨b!"cn", b!"d"⟩, ⟨b!"uid", b!"e"⟩] :: []) ∧
    (boltStep asciiCase gobInstance exValidate (render exBase) db (.rename req)).1 = .ok () ∧
    boltSearch asciiCase gobInstance (boltStep asciiCase gobInstance exValidate (render exBase) db (.rename req)).2
      b!"cn=D+uid=E,ou=p,dc=lg" scopeBase =
      .ok ([⟨b!"cn=d+uid=e,ou=p,dc=lg", [⟨b!"userPassword", [b!"y"]⟩, ⟨b!"mail", [b!"m"]⟩, ⟨b!"cn", [b!"d"]⟩, ⟨b!"uid", [b!"e"]⟩]⟩],
        none) := by
  decide +kernel

/-- hypotheses of C50 -/
example :
    let attrs : List Attr := [⟨b!"uid", [b!"z"]⟩, ⟨b!"mail", [b!"n", b!"o"]⟩]
    (attrs.map (·.name)).Nodup ∧ HistOk asciiCase (exOps ++ [.add (entryFromAddRequest b!"uid=z,ou=p,dc=lg" attrs)]) ∧
    (boltStep asciiCase gobInstance exValidate (render exBase) (after asciiCase gobInstance exValidate exBase exOps)
      (.add (entryFromAddRequest b!"uid=z,ou=p,dc=lg" attrs))).1 = .ok () := by
  decide +kernel

/-- hypotheses of `C50_add_stores_last_partial` for a request that names a type twice -/
example :
    let attrs : List Attr := [⟨b!"mail", [b!"m"]⟩, ⟨b!"uid", [b!"z"]⟩, ⟨b!"mail", [b!"n", b!"o"]⟩]
    HistOk asciiCase (exOps ++ [.add (entryFromAddRequest b!"uid=z,ou=p,dc=lg" attrs)]) ∧
    (boltStep asciiCase gobInstance exValidate (render exBase) (after asciiCase gobInstance exValidate exBase exOps)
      (.add (entryFromAddRequest b!"uid=z,ou=p,dc=lg" attrs))).1 = .ok () := by
  decide +kernel

/-- C13 fails for an RDN with two values of one type: the first of them is not removed although asked for. -/
theorem C13_repeated_type_fails :
    ∃ (ops : List Op) (req : ModifyDNReq) (o n : RDN) (p : DN) (text : Str) (e' : Entry), HistOk asciiCase ops ∧
      parseDN asciiCase req.dn = some (o :: p) ∧ parseDN asciiCase req.newRDN = some [n] ∧ req.deleteOldRDN = true ∧
      (boltStep asciiCase gobInstance exValidate (render exBase) (after asciiCase gobInstance exValidate exBase ops)
        (.rename req)).1 = .ok () ∧
      boltSearch asciiCase gobInstance (boltStep asciiCase gobInstance exValidate (render exBase)
        (after asciiCase gobInstance exValidate exBase ops) (.rename req)).2 text scopeBase = .ok ([e'], none) ∧
      ∃ x ∈ o, x ∉ n ∧ HasValue asciiCase e'.attrs x.typ x.val :=
  ⟨[.add ⟨b!"dc=lg", []⟩, .add ⟨b!"cn=a+cn=b,dc=lg", [⟨b!"cn", [b!"a", b!"b"]⟩]⟩], ⟨b!"cn=a+cn=b,dc=lg", b!"uid=c", true⟩,
    [⟨b!"cn", b!"a"⟩, ⟨b!"cn", b!"b"⟩], [⟨b!"uid", b!"c"⟩], [[⟨b!"dc", b!"lg"⟩]], b!"uid=c,dc=lg",
    ⟨b!"uid=c,dc=lg", [⟨b!"cn", [b!"a"]⟩, ⟨b!"uid", [b!"c"]⟩]⟩,
    by decide +kernel, by decide +kernel, by decide +kernel, by decide +kernel, by decide +kernel, by decide +kernel,
    ⟨b!"cn", b!"a"⟩, by decide +kernel, by decide +kernel, by decide +kernel⟩

end Idm
