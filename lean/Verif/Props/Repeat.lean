import Verif.Spec.Repeat
import Verif.Props.Unrelated
import Verif.Props.Modify
import Verif.Props.BoltWrite
/-!
# C112: a request that is sent twice
-/
namespace Idm

section
variable {C : CaseEnv}

/-! ## The same changes once more -/

theorem replaceLoop_fixed {n : Str} {v : List Str} {as : List Attr} (h : ∀ a ∈ as, C.fold a.name = n → a.vals = v ∧ v ≠ []) :
    replaceLoop C n v as = as := by
  induction as with
  | nil => rfl
  | cons a as ih =>
    rw [replaceLoop, ih fun b hb => h b (List.mem_cons_of_mem _ hb)]
    by_cases hn : C.fold a.name = n
    · obtain ⟨e, hv⟩ := h a List.mem_cons_self hn
      rw [if_pos hn, if_neg hv, ← e]
    · rw [if_neg hn]

theorem entryReplaceValues_fixed {as : List Attr} {t : Str} {v : List Str} (h : AllAre C as t v) : entryReplaceValues C as t v = as := by
  have hl : replaceLoop C (C.fold t) v as = as := replaceLoop_fixed fun a ha e => ⟨h.1 a ha e, h.2.2 ⟨a, ha, e⟩⟩
  unfold entryReplaceValues
  dsimp only
  rw [hl]
  split
  · rfl
  · rename_i hno
    split
    · rfl
    · rename_i hv
      obtain ⟨a, ha, e⟩ := h.2.1 hv
      exact absurd (List.any_eq_true.2 ⟨a, ha, by simpa using e⟩) hno

theorem modAdd_idem (cur add : List Str) : entryApplyModAdd C (entryApplyModAdd C cur add) add = entryApplyModAdd C cur add := by
  show entryApplyModAdd C cur add ++ add.filter (fun v => !(entryApplyModAdd C cur add).any fun w => C.fold v = C.fold w) = _
  rw [List.filter_eq_nil_iff.2, List.append_nil]
  · intro v hv
    simp only [Bool.not_eq_true', Bool.not_eq_false, List.any_eq_true, decide_eq_true_eq]
    by_cases hc : ∃ w ∈ cur, C.fold v = C.fold w
    · obtain ⟨w, hw, e⟩ := hc
      exact ⟨w, List.mem_append_left _ hw, e⟩
    · refine ⟨v, List.mem_append_right _ (List.mem_filter.2 ⟨hv, ?_⟩), rfl⟩
      simp only [Bool.not_eq_true', List.any_eq_false, decide_eq_true_eq]
      exact fun w hw e => hc ⟨w, hw, e⟩

theorem modDelete_idem (cur del : List Str) : entryApplyModDelete C (entryApplyModDelete C cur del) del = entryApplyModDelete C cur del := by
  unfold entryApplyModDelete
  by_cases h : del = []
  · simp [h]
  · simp [h, List.filter_filter]

theorem changeValues_eq (orig cur : List Str) (c : Change) : changeValues C orig cur c =
    if c.op = 0 then entryApplyModAdd C cur c.vals else if c.op = 2 then c.vals
    else if c.op = 1 then entryApplyModDelete C orig c.vals else cur := by
  unfold changeValues entryApplyModAdd entryApplyModDelete
  have e1 : (c.vals.filter fun v => decide (∀ w ∈ cur, C.fold w ≠ C.fold v)) = c.vals.filter fun v => !cur.any fun w => C.fold v = C.fold w := by
    apply List.filter_congr
    intro v _
    rw [Bool.eq_iff_iff]
    simp only [decide_eq_true_eq, Bool.not_eq_true', List.any_eq_false]
    exact ⟨fun h w hw e => h w hw e.symm, fun h w hw e => h w hw e.symm⟩
  have e2 : (orig.filter fun v => decide (∀ w ∈ c.vals, C.fold v ≠ C.fold w)) = orig.filter fun v => !c.vals.any fun w => C.fold v = C.fold w := by
    apply List.filter_congr
    intro v _
    rw [Bool.eq_iff_iff]
    simp
  rw [e1, e2]

theorem valuesAfter_other {t : Str} {orig cur : List Str} {cs : List Change} (h : ∀ c ∈ cs, C.fold c.typ ≠ C.fold t) :
    valuesAfter C t orig cur cs = cur := by
  unfold valuesAfter
  induction cs generalizing cur with
  | nil => rfl
  | cons c cs ih =>
    rw [List.foldl_cons, if_neg (h c List.mem_cons_self)]
    exact ih fun c' hc' => h c' (List.mem_cons_of_mem _ hc')

theorem valuesAfter_once {orig cur : List Str} {cs : List Change} (hn : (cs.map fun c => C.fold c.typ).Nodup) {c : Change} (hc : c ∈ cs) :
    valuesAfter C c.typ orig cur cs = changeValues C orig cur c := by
  induction cs generalizing cur with
  | nil => simp at hc
  | cons x cs ih =>
    rw [List.map_cons, List.nodup_cons] at hn
    unfold valuesAfter
    rw [List.foldl_cons]
    rcases List.mem_cons.1 hc with rfl | hc
    · rw [if_pos rfl]
      exact valuesAfter_other fun c' hc' e => hn.1 (List.mem_map.2 ⟨c', hc', e⟩)
    · rw [if_neg fun e : C.fold x.typ = C.fold c.typ => hn.1 (List.mem_map.2 ⟨c, hc, e.symm⟩)]
      exact ih hn.2 hc

theorem applyChanges_fixed {rdn : RDN} {old as : List Attr} {cs : List Change} (h : ∀ c ∈ cs, applyChange C rdn old as c = .ok as) :
    applyChanges C rdn old as cs = .ok as := by
  induction cs with
  | nil => rfl
  | cons c cs ih =>
    rw [applyChanges, h c List.mem_cons_self]
    exact ih fun c' hc' => h c' (List.mem_cons_of_mem _ hc')

theorem applyChanges_each {rdn : RDN} {old as as' : List Attr} {cs : List Change} (h : applyChanges C rdn old as cs = .ok as') :
    ∀ c ∈ cs, ∃ x y, applyChange C rdn old x c = .ok y := by
  induction cs generalizing as with
  | nil => simp
  | cons c cs ih =>
    obtain ⟨as1, h1, h2⟩ := applyChanges_cons h
    intro c' hc'
    rcases List.mem_cons.1 hc' with rfl | hc'
    · exact ⟨_, _, h1⟩
    · exact ih h2 c' hc'

theorem applyChanges_ascii {rdn : RDN} {old as as' : List Attr} {cs : List Change} (h : applyChanges C rdn old as cs = .ok as')
    (ht : ∀ c ∈ cs, IsAscii c.typ) (ha : AsciiNames as) : AsciiNames as' := by
  induction cs generalizing as with
  | nil => simp [applyChanges] at h; exact h ▸ ha
  | cons c cs ih =>
    obtain ⟨as1, h1, h2⟩ := applyChanges_cons h
    exact ih h2 (fun c' hc' => ht c' (List.mem_cons_of_mem _ hc')) (applyChange_ascii h1 (ht c List.mem_cons_self) ha)

theorem applyModify_again (hC : C.Lawful) {e e' : Entry} {d : Str} {cs : List Change} (hn : AsciiNames e.attrs)
    (ht : ∀ c ∈ cs, IsAscii c.typ) (honce : (cs.map fun c => C.fold c.typ).Nodup) (h : applyModify C e d cs = .ok e') :
    applyModify C e' d cs = .ok e' := by
  have hall := C17_all_entries_partial hC e e' d cs hn ht h
  obtain ⟨rdn, rest, md, hp, hm, hq, hdn, hch⟩ := applyModify_ok h
  have hn' := applyChanges_ascii hch ht hn
  have hfix : applyChanges C rdn e'.attrs e'.attrs cs = .ok e'.attrs := by
    refine applyChanges_fixed fun c hc => ?_
    obtain ⟨x, y, hxy⟩ := applyChanges_each hch c hc
    by_cases hop : c.op = 0 ∨ c.op = 1 ∨ c.op = 2
    · have ha : AllAre C e'.attrs c.typ _ := hall c.typ ⟨c, hc, rfl, hop⟩
      rw [valuesAfter_once honce hc, changeValues_eq] at ha
      have hg := (getVals_first hC (ht c hc) hn').trans ha.first
      rcases hop with ho | ho | ho
      · rw [if_pos ho] at ha hg
        unfold applyChange
        rw [if_pos (by exact ho), hg, modAdd_idem, entryReplaceValues_fixed ha]
      · rw [if_neg (by omega), if_neg (by omega), if_pos ho] at ha hg
        unfold applyChange at hxy ⊢
        rw [if_neg (by rw [ho]; decide), if_neg (by rw [ho]; decide), if_pos (by exact ho)] at hxy ⊢
        split at hxy
        · simp at hxy
        · rename_i hr
          rw [if_neg hr, hg, modDelete_idem, entryReplaceValues_fixed ha]
      · rw [if_neg (by omega), if_pos ho] at ha hg
        unfold applyChange at hxy ⊢
        rw [if_neg (by rw [ho]; decide), if_pos (by exact ho)] at hxy ⊢
        split at hxy
        · simp at hxy
        · rename_i hr
          rw [if_neg hr, entryReplaceValues_fixed ha]
    · unfold applyChange
      rw [if_neg (fun h : c.op = opAdd => hop (.inl h)), if_neg (fun h : c.op = opReplace => hop (.inr (.inr h))),
        if_neg (fun h : c.op = opDelete => hop (.inr (.inl h)))]
  unfold applyModify
  rw [hdn, hp]
  simp only [hm, hq, if_true]
  rw [hfix]
  show Res.ok (⟨e.dn, e'.attrs⟩ : Entry) = _
  rw [← hdn]

theorem applyModify_password_again {e e' : Entry} {d new : Str} (h : applyModify C e d [⟨opReplace, sUserPassword, [new]⟩] = .ok e') :
    applyModify C e' d [⟨opReplace, sUserPassword, [new]⟩] = .ok e' := by
  obtain ⟨rdn, rest, md, hp, hm, hq, hdn, hch⟩ := applyModify_ok h
  obtain ⟨as1, h1, h2⟩ := applyChanges_cons hch
  simp only [applyChanges, Res.ok.injEq] at h2
  subst h2
  have hfix : applyChanges C rdn e'.attrs e'.attrs [⟨opReplace, sUserPassword, [new]⟩] = .ok e'.attrs := by
    refine applyChanges_fixed fun c hc => ?_
    rw [List.mem_singleton] at hc
    subst hc
    unfold applyChange at h1 ⊢
    rw [if_neg (show ¬ opReplace = opAdd by decide), if_pos rfl] at h1 ⊢
    split at h1
    · simp at h1
    · rename_i hr
      rw [if_neg hr]
      simp only [Res.ok.injEq] at h1
      rw [entryReplaceValues_fixed (h1 ▸ entryReplaceValues_all _ _ _)]
  unfold applyModify
  rw [hdn, hp]
  simp only [hm, hq, if_true]
  rw [hfix]
  show Res.ok (⟨e.dn, e'.attrs⟩ : Entry) = _
  rw [← hdn]

theorem fold_values_after (t x : Str) (cs : List Change) : ∃ p q r : Prop, ∀ orig cur : List Str,
    (∃ w ∈ valuesAfter C t orig cur cs, C.fold w = C.fold x) ↔
      ((∃ w ∈ cur, C.fold w = C.fold x) ∧ p) ∨ ((∃ w ∈ orig, C.fold w = C.fold x) ∧ q) ∨ r := by
  induction cs with
  | nil => exact ⟨True, False, False, fun orig cur => by simp [valuesAfter]⟩
  | cons c cs ih =>
    obtain ⟨p, q, r, h⟩ := ih
    by_cases ht : C.fold c.typ = C.fold t
    · have hstep : ∀ orig cur, valuesAfter C t orig cur (c :: cs) = valuesAfter C t orig (changeValues C orig cur c) cs := by
        intro orig cur
        unfold valuesAfter
        rw [List.foldl_cons, if_pos ht]
      by_cases h0 : c.op = 0
      · refine ⟨p, q, r ∨ ((∃ w ∈ c.vals, C.fold w = C.fold x) ∧ p), fun orig cur => ?_⟩
        rw [hstep, h, changeValues, if_pos h0]
        have : (∃ w ∈ cur ++ c.vals.filter (fun v => ∀ w ∈ cur, C.fold w ≠ C.fold v), C.fold w = C.fold x) ↔
            (∃ w ∈ cur, C.fold w = C.fold x) ∨ ∃ w ∈ c.vals, C.fold w = C.fold x := by
          constructor
          · rintro ⟨w, hw, e⟩
            rcases List.mem_append.1 hw with hw | hw
            · exact .inl ⟨w, hw, e⟩
            · exact .inr ⟨w, (List.mem_filter.1 hw).1, e⟩
          · rintro (⟨w, hw, e⟩ | ⟨w, hw, e⟩)
            · exact ⟨w, List.mem_append_left _ hw, e⟩
            · by_cases hx : ∃ y ∈ cur, C.fold y = C.fold w
              · obtain ⟨y, hy, e'⟩ := hx
                exact ⟨y, List.mem_append_left _ hy, e'.trans e⟩
              · exact ⟨w, List.mem_append_right _ (List.mem_filter.2 ⟨hw, by simpa using hx⟩), e⟩
        rw [this]
        grind
      · by_cases h2 : c.op = 2
        · refine ⟨False, q, r ∨ ((∃ w ∈ c.vals, C.fold w = C.fold x) ∧ p), fun orig cur => ?_⟩
          rw [hstep, h, changeValues, if_neg h0, if_pos h2]
          grind
        · by_cases h1 : c.op = 1
          · by_cases hv : c.vals = []
            · refine ⟨False, q, r, fun orig cur => ?_⟩
              rw [hstep, h, changeValues, if_neg h0, if_neg h2, if_pos h1, if_pos hv]
              simp
            · refine ⟨False, q ∨ (p ∧ ∀ w ∈ c.vals, C.fold x ≠ C.fold w), r, fun orig cur => ?_⟩
              rw [hstep, h, changeValues, if_neg h0, if_neg h2, if_pos h1, if_neg hv]
              have : (∃ w ∈ orig.filter (fun v => ∀ w ∈ c.vals, C.fold v ≠ C.fold w), C.fold w = C.fold x) ↔
                  (∃ w ∈ orig, C.fold w = C.fold x) ∧ ∀ w ∈ c.vals, C.fold x ≠ C.fold w := by
                constructor
                · rintro ⟨w, hw, e⟩
                  obtain ⟨a, b⟩ := List.mem_filter.1 hw
                  exact ⟨⟨w, a, e⟩, e ▸ of_decide_eq_true b⟩
                · rintro ⟨⟨w, hw, e⟩, b⟩
                  exact ⟨w, List.mem_filter.2 ⟨hw, decide_eq_true (e.symm ▸ b)⟩, e⟩
              rw [this]
              grind
          · refine ⟨p, q, r, fun orig cur => ?_⟩
            rw [hstep, h, changeValues, if_neg h0, if_neg h2, if_neg h1]
    · refine ⟨p, q, r, fun orig cur => ?_⟩
      rw [← h]
      unfold valuesAfter
      rw [List.foldl_cons, if_neg ht]

theorem applyChanges_untouched {rdn : RDN} {old as as' : List Attr} {cs : List Change} {t : Str} (h : applyChanges C rdn old as cs = .ok as')
    (hno : ∀ c ∈ cs, C.fold c.typ = C.fold t → ¬ (c.op = 0 ∨ c.op = 1 ∨ c.op = 2)) : valuesOf C as' t = valuesOf C as t := by
  induction cs generalizing as with
  | nil => simp [applyChanges] at h; rw [h]
  | cons c cs ih =>
    obtain ⟨as1, h1, h2⟩ := applyChanges_cons h
    rw [ih h2 fun c' hc' => hno c' (List.mem_cons_of_mem _ hc')]
    by_cases hc : C.fold c.typ = C.fold t
    · have := hno c List.mem_cons_self hc
      rcases applyChange_ok h1 with ⟨ho, -⟩ | ⟨ho, -⟩ | ⟨ho, -⟩ | ⟨-, -, -, h⟩
      · exact absurd (.inl ho) this
      · exact absurd (.inr (.inr ho)) this
      · exact absurd (.inr (.inl ho)) this
      · rw [h]
    · unfold valuesOf
      rw [applyChange_other h1 _ fun a ha => by simpa [ha] using hc]

theorem hasValue_allAre {as : List Attr} {t x : Str} {v : List Str} (h : AllAre C as t v) : HasValue C as t x ↔ ∃ w ∈ v, C.fold w = C.fold x := by
  unfold HasValue valuesOf
  constructor
  · rintro ⟨w, hw, e⟩
    obtain ⟨a, ha, hw⟩ := List.mem_flatMap.1 hw
    obtain ⟨ha, hn⟩ := List.mem_filter.1 ha
    exact ⟨w, h.1 a ha (of_decide_eq_true hn) ▸ hw, e⟩
  · rintro ⟨w, hw, e⟩
    obtain ⟨a, ha, hn⟩ := h.2.1 (List.ne_nil_of_mem hw)
    exact ⟨w, List.mem_flatMap.2 ⟨a, List.mem_filter.2 ⟨ha, decide_eq_true hn⟩, h.1 a ha hn ▸ hw⟩, e⟩

/-- C112, for every modification: if it can be carried out it can be carried out a second time, and the entry then has, for every attribute
type, the values it had after the first time (perhaps in another order). -/
theorem C112_values (hC : C.Lawful) (e e' : Entry) (d : Str) (cs : List Change) (hn : AsciiNames e.attrs) (ht : ∀ c ∈ cs, IsAscii c.typ)
    (h : applyModify C e d cs = .ok e') :
    ∃ e'', applyModify C e' d cs = .ok e'' ∧ e''.dn = e'.dn ∧ ∀ t v, HasValue C e''.attrs t v ↔ HasValue C e'.attrs t v := by
  have hall := C17_all_entries_partial hC e e' d cs hn ht h
  obtain ⟨rdn, rest, md, hp, hm, hq, hdn, hch⟩ := applyModify_ok h
  have hnr : ¬ ∃ c ∈ cs, RemovesRDNValue C rdn c := fun hx => by
    rw [(C18_request_refused_iff e d cs rdn rest hp ⟨md, hm, hq⟩).1 hx] at h
    simp at h
  obtain ⟨e'', h'⟩ := (C18_request_refused_iff e' d cs rdn rest (hdn ▸ hp) ⟨md, hm, hq⟩).2 fun c hc hr => hnr ⟨c, hc, hr⟩
  have hn' := applyChanges_ascii hch ht hn
  have hall' := C17_all_entries_partial hC e' e'' d cs hn' ht h'
  obtain ⟨rdn', rest', md', hp', hm', hq', hdn', hch'⟩ := applyModify_ok h'
  refine ⟨e'', h', hdn', fun t v => ?_⟩
  by_cases hnamed : ∃ c ∈ cs, C.fold c.typ = C.fold t ∧ (c.op = 0 ∨ c.op = 1 ∨ c.op = 2)
  · have a1 : AllAre C e'.attrs t _ := hall t hnamed
    have a2 : AllAre C e''.attrs t _ := hall' t hnamed
    rw [a1.first] at a2
    rw [hasValue_allAre a1, hasValue_allAre a2]
    obtain ⟨p, q, r, hv⟩ := fold_values_after (C := C) t v cs
    rw [hv, hv]
    grind
  · unfold HasValue
    rw [applyChanges_untouched hch' fun c hc he ho => hnamed ⟨c, hc, he, ho⟩]

/-! ## The same call once more -/

variable {validate : Str → Str → Res Bool} {base : DN}

theorem setEntry_again (d : Dir) (k : DN) (e : Entry) : (d.setEntry k e).setEntry k e = d.setEntry k e := by
  unfold Dir.setEntry
  rw [List.map_map]
  apply List.map_congr_left
  intro m _
  simp only [Function.comp]
  split <;> simp [*]

/-- Repeating a call on the abstract directory. -/
def Again (op : Op) (f : Dir → Res Unit × Dir) (d : Dir) : Prop :=
  (f (f d).2).2 = (f d).2 ∧ ((f d).1 ≠ .ok () → (f d).2 = d) ∧ ((f d).1 = .ok () → op.answeredAgain (f (f d).2).1)

theorem again_const (op : Op) {f : Dir → Res Unit × Dir} {d : Dir} {r : Res Unit} (h : f d = (r, d)) (hr : r ≠ .ok ()) : Again op f d := by
  unfold Again
  rw [h]
  dsimp only
  rw [h]
  exact ⟨rfl, fun _ => rfl, fun h => absurd h hr⟩

theorem again_refused (op : Op) {f : Dir → Res Unit × Dir} {d d' : Dir} {r : Res Unit} (h : f d = (.ok (), d')) (h2 : f d' = (r, d'))
    (hr : op.answeredAgain r) : Again op f d := by
  unfold Again
  rw [h]
  dsimp only
  rw [h2]
  exact ⟨rfl, fun h => absurd rfl h, fun _ => hr⟩

theorem step_again (hC : C.Lawful) (op : Op) (d : Dir) (honce : op.once C)
    (hascii : ∀ dn cs n e, op = .modify dn cs → parseDN C dn = some n → d.get (foldDN C n) = some e → (∀ c ∈ cs, IsAscii c.typ) ∧ AsciiNames e.attrs) :
    Again op (fun d => specStep C validate base d op) d := by
  cases op with
  | add e =>
    cases hp : entryPutDN C e.dn with
    | none => exact again_const _ (r := .panic) (by simp [specStep, hp]) (by simp)
    | some n =>
      by_cases hn : n = []
      · exact again_const _ (r := .panic) (by simp [specStep, hp, specAdd, hn]) (by simp)
      · have hs : ∀ d, specStep C validate base d (.add e) = specAddAt base d (foldDN C n) e := by intro d; simp [specStep, hp, specAdd, hn]
        by_cases h1 : render base <:+ render (foldDN C n)
        · by_cases h2 : d.has (foldDN C n) = true
          · exact again_const _ (r := .err .exists_) (by simp [hs, specAddAt, h1, h2]) (by simp)
          · by_cases h3 : foldDN C n ≠ base ∧ ¬ d.has (foldDN C n).tail = true
            · exact again_const _ (r := .err .other) (by rw [hs, specAddAt, if_neg (by simpa using h1), if_neg h2, if_pos h3]) (by simp)
            · by_cases h4 : (render (foldDN C n)).length > maxName
              · exact again_const _ (r := .err .other)
                  (by rw [hs, specAddAt, if_neg (by simpa using h1), if_neg h2, if_neg h3, if_pos h4]) (by simp)
              · refine again_refused _ (d' := d ++ [⟨foldDN C n, e⟩]) (r := .err .exists_)
                  (by rw [hs, specAddAt, if_neg (by simpa using h1), if_neg h2, if_neg h3, if_neg h4]) ?_ rfl
                rw [hs, specAddAt, if_neg (by simpa using h1), if_pos (by simp [Dir.has])]
        · exact again_const _ (r := .err .other) (by simp [hs, specAddAt, h1]) (by simp)
  | delete dn =>
    cases hp : parseDN C dn with
    | none => exact again_const _ (r := .err .other) (by simp [specStep, hp]) (by simp)
    | some n =>
      by_cases hn : n = []
      · exact again_const _ (r := .panic) (by simp [specStep, hp, specDelete, hn]) (by simp)
      · have hs : ∀ d, specStep C validate base d (.delete dn) = specDeleteAt d (foldDN C n) := by intro d; simp [specStep, hp, specDelete, hn]
        by_cases h1 : d.has (foldDN C n) = true
        · by_cases h2 : d.hasChild (foldDN C n) = true
          · exact again_const _ (r := .err .nonLeaf) (by simp [hs, specDeleteAt, h1, h2]) (by simp)
          · by_cases h3 : d.has (foldDN C n).tail = true
            · refine again_refused _ (d' := d.remove (foldDN C n)) (r := .err .notFound) (by simp [hs, specDeleteAt, h1, h2, h3]) ?_ rfl
              have : (d.remove (foldDN C n)).has (foldDN C n) = false := by rw [has_get, get_remove_self]; rfl
              simp [hs, specDeleteAt, this]
            · exact again_const _ (r := .err .notFound) (by simp [hs, specDeleteAt, h1, h2, h3]) (by simp)
        · exact again_const _ (r := .err .notFound) (by simp [hs, specDeleteAt, h1]) (by simp)
  | modify dn cs =>
    cases hp : parseDN C dn with
    | none => exact again_const _ (r := .err .other) (by simp [specStep, hp]) (by simp)
    | some n =>
      have hs : ∀ d, specStep C validate base d (.modify dn cs) = specModifyAt C d (foldDN C n) dn cs := by intro d; simp [specStep, hp, specModify]
      cases hg : d.get (foldDN C n) with
      | none => exact again_const _ (r := .err .notFound) (by simp [hs, specModifyAt, hg]) (by simp)
      | some e =>
        obtain ⟨a1, a2⟩ := hascii dn cs n e rfl hp hg
        cases hm : applyModify C e dn cs with
        | err x => exact again_const _ (r := .err x) (by simp [hs, specModifyAt, hg, hm]) (by simp)
        | panic => exact again_const _ (r := .panic) (by simp [hs, specModifyAt, hg, hm]) (by simp)
        | hang => exact again_const _ (r := .hang) (by simp [hs, specModifyAt, hg, hm]) (by simp)
        | ok e' =>
          refine again_refused _ (d' := d.setEntry (foldDN C n) e') (r := .ok ()) (by simp [hs, specModifyAt, hg, hm]) ?_ rfl
          simp [hs, specModifyAt, get_setEntry, hg, applyModify_again hC a2 a1 honce hm, setEntry_again]
  | rename req =>
    cases hp : parseDN C req.dn with
    | none => exact again_const _ (r := .err .other) (by simp [specStep, hp]) (by simp)
    | some n =>
      cases hq : parseDN C req.newRDN with
      | none => exact again_const _ (r := .err .other) (by simp [specStep, hp, hq]) (by simp)
      | some m =>
        cases m with
        | nil => exact again_const _ (r := .panic) (by simp [specStep, hp, hq]) (by simp)
        | cons m ms =>
          cases n with
          | nil => exact again_const _ (r := .panic) (by simp [specStep, hp, hq]) (by simp)
          | cons o p =>
            obtain ⟨cs, hs⟩ : ∃ cs, ∀ d, specStep C validate base d (.rename req) = specRenameAt C d (foldDN C (o :: p)) (foldDN C (m :: p)) cs := by
              refine ⟨(if req.deleteOldRDN then o.map fun a => ⟨opDelete, a.typ, [a.val]⟩ else []) ++ m.map fun a => ⟨opAdd, a.typ, [a.val]⟩, fun d => ?_⟩
              simp only [specStep, hp, hq, specRename]
            by_cases h1 : d.has (foldDN C (m :: p)) = true
            · exact again_const _ (r := .err .exists_) (by simp [hs, specRenameAt, h1]) (by simp)
            · cases hg : d.get (foldDN C (o :: p)) with
              | none => exact again_const _ (r := .err .notFound) (by simp [hs, specRenameAt, h1, hg]) (by simp)
              | some e =>
                by_cases h2 : d.hasChild (foldDN C (o :: p)) = true
                · exact again_const _ (r := .err .nonLeaf) (by simp [hs, specRenameAt, h1, hg, h2]) (by simp)
                · cases hm : applyModify C ⟨render (foldDN C (m :: p)), e.attrs⟩ (render (foldDN C (m :: p))) cs with
                  | err x => exact again_const _ (r := .err x) (by simp [hs, specRenameAt, h1, hg, h2, hm]) (by simp)
                  | panic => exact again_const _ (r := .panic) (by simp [hs, specRenameAt, h1, hg, h2, hm]) (by simp)
                  | hang => exact again_const _ (r := .hang) (by simp [hs, specRenameAt, h1, hg, h2, hm]) (by simp)
                  | ok e' =>
                    by_cases h3 : (render (foldDN C (m :: p))).length > maxName
                    · exact again_const _ (r := .err .other) (by simp [hs, specRenameAt, h1, hg, h2, hm, h3]) (by simp)
                    · refine again_refused _ (d' := d.rename (foldDN C (o :: p)) (foldDN C (m :: p)) e') (r := .err .exists_)
                        (by simp [hs, specRenameAt, h1, hg, h2, hm, h3]) ?_ rfl
                      have : (d.rename (foldDN C (o :: p)) (foldDN C (m :: p)) e').has (foldDN C (m :: p)) = true := by
                        rw [has_get, get_rename_self hg (by simpa using h1)]; rfl
                      simp [hs, specRenameAt, this]
  | password req =>
    cases hp : parseDN C req.userIdentity with
    | none => exact again_const _ (r := .err .other) (by simp [specStep, hp]) (by simp)
    | some n =>
      have hs : ∀ d, specStep C validate base d (.password req) =
          specPasswordAt C validate d (foldDN C n) req.userIdentity req.oldPassword req.newPassword := by intro d; simp [specStep, hp, specPassword]
      cases hg : d.get (foldDN C n) with
      | none => exact again_const _ (r := .err .notFound) (by simp [hs, specPasswordAt, hg]) (by simp)
      | some e =>
        have hv : ∀ (x : Res Bool), (if req.oldPassword = [] then .ok true else validate req.oldPassword (getVal C e.attrs sUserPassword)) = x →
            Again (.password req) (fun d => specStep C validate base d (.password req)) d := by
          intro x hx
          match x with
          | .err y => exact again_const _ (r := .err (.ldap rcUnwillingToPerform true)) (by simp only [hs, specPasswordAt, hg, hx]) (by simp)
          | .panic => exact again_const _ (r := .panic) (by simp only [hs, specPasswordAt, hg, hx]) (by simp)
          | .hang => exact again_const _ (r := .hang) (by simp only [hs, specPasswordAt, hg, hx]) (by simp)
          | .ok false => exact again_const _ (r := .err (.ldap rcUnwillingToPerform true)) (by simp only [hs, specPasswordAt, hg, hx]) (by simp)
          | .ok true =>
            cases hm : applyModify C e req.userIdentity [⟨opReplace, sUserPassword, [req.newPassword]⟩] with
            | err y => exact again_const _ (r := .err (.ldap rcOperationsError true)) (by simp only [hs, specPasswordAt, hg, hx, hm]) (by simp)
            | panic => exact again_const _ (r := .panic) (by simp only [hs, specPasswordAt, hg, hx, hm]) (by simp)
            | hang => exact again_const _ (r := .hang) (by simp only [hs, specPasswordAt, hg, hx, hm]) (by simp)
            | ok e' =>
              have h1 : specStep C validate base d (.password req) = (.ok (), d.setEntry (foldDN C n) e') := by simp only [hs, specPasswordAt, hg, hx, hm]
              have hg' : (d.setEntry (foldDN C n) e').get (foldDN C n) = some e' := by simp [get_setEntry, hg]
              have hm' := applyModify_password_again hm
              generalize hd' : d.setEntry (foldDN C n) e' = d' at h1 hg'
              have hset : d'.setEntry (foldDN C n) e' = d' := by rw [← hd', setEntry_again]
              by_cases ho : req.oldPassword = []
              · refine again_refused _ h1 (r := .ok ()) ?_ (fun _ => rfl)
                simp only [hs, specPasswordAt, hg', if_pos ho, hm', hset]
              · cases hz : validate req.oldPassword (getVal C e'.attrs sUserPassword) with
                | err y => exact again_refused _ h1 (r := .err (.ldap rcUnwillingToPerform true)) (by simp only [hs, specPasswordAt, hg', if_neg ho, hz]) (fun h => absurd h ho)
                | panic => exact again_refused _ h1 (r := .panic) (by simp only [hs, specPasswordAt, hg', if_neg ho, hz]) (fun h => absurd h ho)
                | hang => exact again_refused _ h1 (r := .hang) (by simp only [hs, specPasswordAt, hg', if_neg ho, hz]) (fun h => absurd h ho)
                | ok b =>
                  cases b with
                  | false => exact again_refused _ h1 (r := .err (.ldap rcUnwillingToPerform true)) (by simp only [hs, specPasswordAt, hg', if_neg ho, hz]) (fun h => absurd h ho)
                  | true => exact again_refused _ h1 (r := .ok ()) (by simp only [hs, specPasswordAt, hg', if_neg ho, hz, hm', hset]) (fun h => absurd h ho)
        exact hv _ rfl

variable {G : GobEnv}

/-- C112: after any history, sending any call a second time changes nothing. A call that was refused is refused again with the same error;
one that was carried out is answered as `Op.answeredAgain` says; and in either case everything asked for afterwards gets the same results,
and every search finds the same entries, as if the call had been sent once. (Missing: modifications with several changes of one attribute
type, for which `C112_values` holds and this fails.) -/
theorem C112_repeat_partial (hC : C.Lawful) (hG : G.Lawful) (hb : BaseOk C base) (ops : List Op) (op : Op) (more : List Op)
    (h : HistOk C (ops ++ [op, op] ++ more)) (honce : op.once C) (hascii : op.ascii C G (after C G validate base ops)) :
    let first := boltStep C G validate (render base) (after C G validate base ops) op
    let second := boltStep C G validate (render base) first.2 op
    (first.1 = .ok () → op.answeredAgain second.1) ∧ (first.1 ≠ .ok () → second.1 = first.1) ∧
    (boltRun C G validate (render base) second.2 more).1 = (boltRun C G validate (render base) first.2 more).1 ∧
    AnswerAlike C G (boltRun C G validate (render base) second.2 more).2 (boltRun C G validate (render base) first.2 more).2 := by
  intro first second
  have hlen := h.len
  simp only [List.length_append, List.length_cons, List.length_nil] at hlen
  have hok : ∀ o ∈ ops, o.Ok C := fun o ho => h.ok o (by simp [ho])
  have hoko : op.Ok C := h.ok op (by simp)
  have hokm : ∀ o ∈ more, o.Ok C := fun o ho => h.ok o (by simp [ho])
  obtain ⟨ns, -, -, R, hs⟩ := sim_run_empty (validate := validate) hC hG hb ops hok (by omega)
  obtain ⟨n1, a1, a2, R1, -, s1, -⟩ := sim_step hC hG hb validate R (by omega) op hoko
  obtain ⟨n2, b1, b2, R2, -, s2, -⟩ := sim_step hC hG hb validate R1 (by omega) op hoko
  have hag : Again op (fun d => specStep C validate base d op) (dirOf ns) := by
    refine step_again hC op _ honce fun dn cs n e ho hp hg => ?_
    subst ho
    refine ⟨hascii.1, ?_⟩
    exact hascii.2 e (serves_get (serves_of_rel hC hG R) hp (hoko n hp) hg)
  obtain ⟨g1, g2, g3⟩ := hag
  dsimp only at g1 g2 g3
  rw [a2] at g1 g2 g3
  have hd : dirOf n2 = dirOf n1 := by rw [← b2, g1]
  obtain ⟨m1, c1, c2, Q1, -⟩ := sim_run (validate := validate) hC hG hb more _ _ R1 hokm (by omega)
  obtain ⟨m2, d1, d2, Q2, -⟩ := sim_run (validate := validate) hC hG hb more _ _ R2 hokm (by omega)
  refine ⟨fun hf => ?_, fun hf => ?_, ?_, alike_of_get hC hG Q2 Q1 fun k => ?_⟩
  · show op.answeredAgain (boltStep C G validate (render base) first.2 op).1
    rw [show (boltStep C G validate (render base) first.2 op).1 = _ from b1]
    exact g3 (a1 ▸ hf)
  · rw [show second.1 = _ from b1, g2 (a1 ▸ hf)]
    exact a1.symm
  · rw [show (boltRun C G validate (render base) second.2 more).1 = _ from d1, hd]
    exact c1.symm
  · rw [← d2, ← c2, hd]

end

section
variable {V : Env} {G : GobEnv} {cfg : BoltCfg} {base : DN} {n : Nat} {stats : Bool}

theorem write_step_ok (w : Write) (db : Db) {e : Err} (h : (boltStep V.C G (validatePw V.C V.K) cfg.store db w.op).1 = .err e) : w.code e ≠ 0 := by
  cases e with
  | ldap c inner =>
    cases w with
    | modify dn cs => exact (entryModify_codes V.C G db dn cs _ _ h).2
    | rename dn rdn del => exact (entryModifyDN_codes V.C G db ⟨dn, rdn, del⟩ _ _ h).2
    | _ => simp [Write.code]
  | _ => simp [Write.code]

/-- C112 on the wire: the administrator sends a write request, and then sends it again (perhaps with another message id). If the first was
answered with success, the second is answered with the result code `Write.codeAgain`; if not, then like the first; and searches find the same
as before the second. -/
theorem C112_wire_partial (hC : V.C.Lawful) (hG : G.Lawful) (hb : BaseOk V.C base) (hcfg : cfg.store = render base) (hadm : cfg.admin ≠ [])
    (ops : List Op) (w : Write) (hst : stats = false ∨ w.respTag ≠ 9) (h : HistOk V.C (ops ++ [w.op, w.op]))
    (hn : ∀ s ∈ w.names, ∃ name, parseDN V.C s = some name) (hk : w.kindsOk) (honce : w.op.once V.C)
    (hascii : w.op.ascii V.C G (after V.C G (validatePw V.C V.K) base ops)) (o o' : Oracle) (id id' : Int) :
    let first := handlePacket V (boltSrv V G cfg n stats) o (wMsg id w.packet) cfg.admin (after V.C G (validatePw V.C V.K) base ops)
    let second := handlePacket V (boltSrv V G cfg n stats) o' (wMsg id' w.packet) cfg.admin first.st
    (first.resps = [.result id w.respTag 0] → second.resps = [.result id' w.respTag w.codeAgain]) ∧
    (∀ code, code ≠ 0 → first.resps = [.result id w.respTag code] → second.resps = [.result id' w.respTag code]) ∧
    AnswerAlike V.C G second.st first.st := by
  have hst' : ∀ (id : Int) x, (writeAnswer id w cfg.admin x).st = x.2 := by
    intro id x
    obtain ⟨r, db⟩ := x
    cases r <;> rfl
  obtain ⟨k1, k2, -, k4⟩ := C112_repeat_partial (validate := validatePw V.C V.K) hC hG hb ops w.op [] (by simpa using h) honce hascii
  intro first second
  have e1 : first = writeAnswer id w cfg.admin _ := C60_admin_performs w hst hn hk hadm o id _
  have e2 : second = writeAnswer id' w cfg.admin _ := C60_admin_performs w hst hn hk hadm o' id' _
  rw [e1, hst'] at e2
  rw [e1, e2, hst', hst']
  rw [hcfg]
  simp only [boltRun] at k4
  have hcode : ∀ e, (boltStep V.C G (validatePw V.C V.K) (render base) (after V.C G (validatePw V.C V.K) base ops) w.op).1 = .err e → w.code e ≠ 0 := by
    intro e he
    rw [← hcfg] at he
    exact write_step_ok w _ he
  refine ⟨fun hr => ?_, fun code hc hr => ?_, k4⟩
  · generalize hx : boltStep V.C G (validatePw V.C V.K) (render base) (after V.C G (validatePw V.C V.K) base ops) w.op = x at k1 k2 hr hcode ⊢
    obtain ⟨r, db'⟩ := x
    have hr' : r = .ok () := by
      cases r with
      | ok _ => rfl
      | err e => simp [writeAnswer] at hr; exact absurd hr (hcode e rfl)
      | panic => simp [writeAnswer] at hr
      | hang => simp [writeAnswer] at hr
    have k := k1 hr'
    dsimp only at k ⊢
    generalize boltStep V.C G (validatePw V.C V.K) (render base) db' w.op = y at k ⊢
    obtain ⟨r2, db2⟩ := y
    cases w <;> simp only [Write.op, Op.answeredAgain] at k <;> subst k <;> rfl
  · generalize hx : boltStep V.C G (validatePw V.C V.K) (render base) (after V.C G (validatePw V.C V.K) base ops) w.op = x at k1 k2 hr hcode ⊢
    obtain ⟨r, db'⟩ := x
    cases r with
    | ok _ => simp [writeAnswer] at hr; exact absurd hr.symm hc
    | err e =>
      have k := k2 (by simp)
      dsimp only at k ⊢
      generalize boltStep V.C G (validatePw V.C V.K) (render base) db' w.op = y at k ⊢
      obtain ⟨r2, db2⟩ := y
      subst k
      simp [writeAnswer] at hr ⊢
      exact hr
    | panic => simp [writeAnswer] at hr
    | hang => simp [writeAnswer] at hr

end
/-! ## Non-vacuity -/

/-- hypotheses of C112_wire_partial, for requests that are carried out the first time -/
example : ∀ w ∈ ([.add b!"uid=eva,dc=lg" [⟨b!"uid", [b!"eva"]⟩], .delete b!"UID=ann,dc=lg", .rename b!"uid=ann,dc=lg" b!"uid=bob" true] : List Write),
    HistOk asciiCase (toyOps ++ [w.op, w.op]) ∧ (∀ s ∈ w.names, (parseDN asciiCase s).isSome) ∧ w.op.once asciiCase ∧
    (toyReq toyCfg.admin w.packet).resps = [.result 7 w.respTag 0] ∧
    (handlePacket toyEnv (boltSrv toyEnv gobInstance toyCfg 8 false) toyOracle (wMsg 8 w.packet) toyCfg.admin
      (toyReq toyCfg.admin w.packet).st).resps = [.result 8 w.respTag w.codeAgain] := by decide +kernel

/-- hypotheses of C112_repeat_partial for calls of every kind, which are carried out the first time -/
example : ∀ op ∈ ([.add ⟨b!"ou=g,dc=lg", [⟨b!"ou", [b!"g"]⟩]⟩, .delete b!"uid=C,ou=p,dc=lg",
      .modify b!"uid=c,ou=p,dc=lg" [⟨opAdd, b!"Mail", [b!"n", b!"m"]⟩, ⟨opDelete, b!"sn", []⟩, ⟨opReplace, b!"cn", [b!"q"]⟩],
      .rename ⟨b!"uid=c,ou=p,dc=lg", b!"uid=d", true⟩, .password ⟨b!"uid=c,ou=p,dc=lg", [], b!"z"⟩] : List Op),
    HistOk asciiCase (exOps ++ [op, op] ++ exOps) ∧ op.once asciiCase ∧
    (boltStep asciiCase gobInstance exValidate (render exBase) (after asciiCase gobInstance exValidate exBase exOps) op).1 = .ok () := by
  decide +kernel

example : Op.ascii asciiCase gobInstance (after asciiCase gobInstance exValidate exBase exOps)
    (.modify b!"uid=c,ou=p,dc=lg" [⟨opAdd, b!"Mail", [b!"n", b!"m"]⟩, ⟨opDelete, b!"sn", []⟩, ⟨opReplace, b!"cn", [b!"q"]⟩]) := by
  refine ⟨by decide +kernel, fun e he => ?_⟩
  have key : (match boltSearch asciiCase gobInstance (after asciiCase gobInstance exValidate exBase exOps) b!"uid=c,ou=p,dc=lg" scopeBase with
      | .ok (es, _) => es.all fun e => decide (AsciiNames e.attrs)
      | _ => false) = true := by decide +kernel
  rw [he] at key
  simpa using key

/-- hypotheses of C112_values, for a request with two changes of one type -/
example : ∃ e', AsciiNames [⟨b!"cn", [b!"a"]⟩, ⟨b!"mail", [b!"x"]⟩] ∧
    applyModify asciiCase ⟨b!"cn=a", [⟨b!"cn", [b!"a"]⟩, ⟨b!"mail", [b!"x"]⟩]⟩ b!"cn=a" [⟨opDelete, b!"mail", [b!"x"]⟩, ⟨opAdd, b!"MAIL", [b!"x", b!"y"]⟩] = .ok e' :=
  ⟨⟨b!"cn=a", [⟨b!"cn", [b!"a"]⟩, ⟨b!"MAIL", [b!"x", b!"y"]⟩]⟩, by decide +kernel⟩

/-- C112 for a request with two changes of one attribute type fails: sent twice, the values come in another order. -/
theorem C112_order_fails : ∃ (e : Entry) (cs : List Change) (e' e'' : Entry), AsciiNames e.attrs ∧
    applyModify asciiCase e e.dn cs = .ok e' ∧ applyModify asciiCase e' e.dn cs = .ok e'' ∧ e' ≠ e'' :=
  ⟨⟨b!"cn=a", [⟨b!"cn", [b!"a"]⟩, ⟨b!"mail", [b!"x"]⟩]⟩, [⟨opDelete, b!"mail", [b!"x"]⟩, ⟨opAdd, b!"mail", [b!"x", b!"y"]⟩],
    ⟨b!"cn=a", [⟨b!"cn", [b!"a"]⟩, ⟨b!"mail", [b!"x", b!"y"]⟩]⟩, ⟨b!"cn=a", [⟨b!"cn", [b!"a"]⟩, ⟨b!"mail", [b!"y", b!"x"]⟩]⟩, by decide +kernel⟩

end Idm
