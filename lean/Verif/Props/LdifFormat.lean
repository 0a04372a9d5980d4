import Verif.Proofs.LdifFormat
import Verif.Props.LdifLoad
/-!
# Properties C65, C72, C90, C91 and C92: the text of LDIF files
-/
namespace Idm

section
variable {L : LdifLib}

/-! ## C90: reading -/

theorem filterMap_some_map {α β : Type} (f : α → β) : ∀ l : List α, (l.map fun a => some (f a)).filterMap id = l.map f
  | [] => rfl
  | a :: l => by
    rw [List.map_cons, List.map_cons, ← filterMap_some_map f l]; rfl

theorem matched_map {α β : Type} {R : α → β → Prop} (f : α → β) (h : ∀ a, R a (f a)) : ∀ l : List α, Matched R l (l.map f)
  | [] => .nil
  | a :: l => .cons _ _ _ _ (h a) (matched_map f h l)

/-- C90: a file that is an LDIF file is read, and what is read are its records, all of them, in their order, each with its name and its
values. (Missing for the full property: values given by URLs, empty values that follow the colon directly, change records.) -/
theorem C90_read_partial (hL : L.Lawful) {text : Str} {rs : List LdifRecord} (h : LdifSays text rs) :
    ∃ recs, ldifUnmarshal L text = some recs ∧ Matched EntrySays rs (recs.filterMap id) := by
  obtain ⟨pre, hp, e⟩ := ldifUnmarshal_says hL h
  refine ⟨_, e, ?_⟩
  have : (pre ++ rs.map fun r => some (Entry.mk r.dn (gather [] r.values))).filterMap id = rs.map fun r => ⟨r.dn, gather [] r.values⟩ := by
    rw [List.filterMap_append, filterMap_some_map]
    rcases hp with rfl | rfl <;> rfl
  rw [this]
  exact matched_map _ entrySays_gather rs

/-! ## C91: writing -/

/-- C91: what is written for entries LDIF can express is an LDIF file without a version; its records are the entries, in their order, with
all values in their order; and no line of it is longer than the width. -/
theorem C91_write (hL : L.Lawful) (es : List Entry) (h : ∀ e ∈ es, Writable e) :
    LdifBody (ldifWrite L es) (es.map recordOf) ∧ ∃ lines, HasLines lines (ldifWrite L es) ∧ ∀ l ∈ lines, l.length ≤ L.width := by
  obtain ⟨recs, lines, h1, h2, h3, h4⟩ := ldifWrite_says hL es h
  have hl : HasLines lines (ldifWrite L es) := by rw [h1]; exact hasLines_lf lines fun x hx => ⟨(h4 x hx).1, (h4 x hx).2.1⟩
  exact ⟨⟨lines, recs, hl, h2, h3⟩, lines, hl, fun l hl => (h4 l hl).2.2.1⟩

/-! ## C92: faulty files -/

theorem digit_alphabet : ∀ c : UInt8, (b64digit c).isSome = true → c ∈ b64alphabet := by decide +kernel

theorem b64groups_form : ∀ (s r : Str), b64groups s = some r → Base64Form s
  | [], _, _ => ⟨[], 0, by simp⟩
  | [_], _, h => by simp [b64groups] at h
  | [_, _], _, h => by simp [b64groups] at h
  | [_, _, _], _, h => by simp [b64groups] at h
  | c1 :: c2 :: c3 :: c4 :: s, r, h => by
    rw [b64groups] at h
    cases h1 : b64digit c1 with
    | none => simp [h1] at h
    | some x1 =>
      cases h2 : b64digit c2 with
      | none => simp [h1, h2] at h
      | some x2 =>
        rw [h1, h2] at h
        dsimp only at h
        have d1 := digit_alphabet c1 (by rw [h1]; rfl)
        have d2 := digit_alphabet c2 (by rw [h2]; rfl)
        by_cases h3 : c3 = 61
        · rw [if_pos h3] at h
          split at h
          · rename_i hc
            obtain ⟨hc, rfl⟩ := hc
            exact ⟨[c1, c2], 2, by simp [h3, hc, List.replicate], by simp [d1, d2], by decide, by simp⟩
          · cases h
        · rw [if_neg h3] at h
          cases h3' : b64digit c3 with
          | none => simp [h3'] at h
          | some x3 =>
            rw [h3'] at h
            dsimp only at h
            have d3 := digit_alphabet c3 (by rw [h3']; rfl)
            by_cases h4 : c4 = 61
            · rw [if_pos h4] at h
              split at h
              · rename_i hc
                subst hc
                exact ⟨[c1, c2, c3], 1, by simp [h4, List.replicate], by simp [d1, d2, d3], by decide, by simp⟩
              · cases h
            · rw [if_neg h4] at h
              cases h4' : b64digit c4 with
              | none => simp [h4'] at h
              | some x4 =>
                rw [h4'] at h
                dsimp only at h
                obtain ⟨r', hr', -⟩ := Option.map_eq_some_iff.1 h
                have d4 := digit_alphabet c4 (by rw [h4']; rfl)
                obtain ⟨body, k, e, hb, hk, hl⟩ := b64groups_form s r' hr'
                refine ⟨c1 :: c2 :: c3 :: c4 :: body, k, by rw [e]; rfl, ?_, hk, ?_⟩
                · simp only [List.mem_cons]
                  rintro c (rfl | rfl | rfl | rfl | hc)
                  · exact d1
                  · exact d2
                  · exact d3
                  · exact d4
                  · exact hb c hc
                · simp only [List.length_cons]
                  omega

theorem ldifAttrs_none {l : Str} (h : ldifLine L l = none) : ∀ (ls : List Str) (m : List Attr), l ∈ ls → ldifAttrs L m ls = none
  | [], _, hm => by simp at hm
  | x :: ls, m, hm => by
    rw [ldifAttrs]
    cases hx : ldifLine L x with
    | none => rfl
    | some tv =>
      rcases List.mem_cons.1 hm with rfl | hm
      · rw [h] at hx; cases hx
      · exact ldifAttrs_none h ls _ hm

theorem ldifEntry_none {l : Str} (h : ldifLine L l = none) {ls : List Str} (hm : l ∈ ls) : ldifEntry L ls = none := by
  cases ls with
  | nil => simp at hm
  | cons x ls =>
    simp only [ldifEntry]
    split
    · rfl
    · cases hx : ldifLine L x with
      | none => rfl
      | some tv =>
        rcases List.mem_cons.1 hm with rfl | hm
        · rw [h] at hx; cases hx
        · dsimp only
          rw [ldifAttrs_none h ls _ hm]
          split <;> rfl

theorem faulty_none {r : List Str} (h : Faulty r) : ldifEntry L r = none := by
  cases h with
  | noName l ls h => simp [ldifEntry, h]
  | onlyName l =>
    simp only [ldifEntry]
    split
    · rfl
    · cases ldifLine L l with
      | none => rfl
      | some tv => rfl
  | noColon l _ hm h =>
    refine ldifEntry_none ?_ hm
    have : l.dropWhile (· != 58) = [] := by
      clear hm
      induction l with
      | nil => rfl
      | cons c l ih =>
        have : c ≠ 58 := fun e => h (by simp [e])
        rw [List.dropWhile_cons_of_pos (by simp [this]), ih (fun e => h (by simp [e]))]
    simp only [ldifLine, this]
  | notBase64 t x _ n hm ht hx h10 h13 hf =>
    refine ldifEntry_none ?_ hm
    obtain ⟨e1, e2⟩ := takeWhile_colon ht (58 :: (List.replicate n 32 ++ x))
    have hdrop : (List.replicate n 32 ++ x).dropWhile (· == 32) = x := dropWhile_blank_bytes n hx
    have hd : b64dec x = none := by
      cases hd : b64dec x with
      | none => rfl
      | some r =>
        have hfil : (x.filter fun c => !(c == 10 || c == 13)) = x := List.filter_eq_self.2 fun c hc => by
          have : c ≠ 10 := fun e => h10 (e ▸ hc)
          have : c ≠ 13 := fun e => h13 (e ▸ hc)
          simp [*]
        rw [b64dec, hfil] at hd
        exact absurd (b64groups_form _ _ hd) hf
    simp only [ldifLine]
    rw [show t ++ b!"::" ++ List.replicate n 32 ++ x = t ++ 58 :: (58 :: (List.replicate n 32 ++ x)) by simp, e1, e2]
    simp only [hdrop, hd]
    split <;> simp

theorem optAll_none {α : Type} : ∀ {l : List (Option α)}, none ∈ l → optAll l = none
  | none :: _, _ => rfl
  | some a :: l, h => by
    rw [optAll, optAll_none (l := l) (by simpa using h)]
    rfl

theorem faulty_refused {text : Str} {lines tail : List Str} {recs : List (List Str)} (e : (splitOn 10 text).map trimEOL = lines ++ tail)
    (ht : tail = [] ∨ tail = [[]]) (h2 : FileLines recs lines)
    (hch : ∀ r ∈ recs, ∀ l ∈ r, hasPrefix l b!"control:" = false ∧ hasPrefix l b!"changetype:" = false)
    {r : List Str} (hr : r ∈ recs) (hf : Faulty r) (hv : r ∈ recs.tail ∨ ∀ l, r.head? = some l → hasPrefix l b!"version:" = false) :
    ldifUnmarshal L text = none := by
  have hrec := ldifRecords_file h2 tail ht false
  unfold ldifUnmarshal
  rw [e, hrec]
  have hno : recs.any (·.any ldifChange) = false := by
    rw [← Bool.not_eq_true, List.any_eq_true]
    rintro ⟨x, hx, hx'⟩
    obtain ⟨l, hl, hl'⟩ := List.any_eq_true.1 hx'
    obtain ⟨g1, g2⟩ := hch x hx l hl
    simp [ldifChange, g1, g2] at hl'
  simp only [hno, Bool.false_eq_true, if_false]
  have hn := faulty_none (L := L) hf
  cases recs with
  | nil => simp at hr
  | cons r0 recs =>
    dsimp only
    have hv' : r ∈ recs ∨ r = r0 ∧ ∀ l, r.head? = some l → hasPrefix l b!"version:" = false := by
      rcases hv with hv | hv
      · exact .inl hv
      · rcases List.mem_cons.1 hr with rfl | hr
        · exact .inr ⟨rfl, hv⟩
        · exact .inl hr
    clear hv
    rcases hv' with hr | ⟨rfl, hv⟩
    case inr =>
      have : ldifFirst L r = none := by
        cases r with
        | nil => rfl
        | cons l ls => simp [ldifFirst, hv l rfl, hn]
      rw [this]; rfl
    case inl =>
      have : optAll (recs.map (ldifEntry L)) = none := optAll_none (by rw [← hn]; exact List.mem_map_of_mem hr)
      rw [this]
      cases ldifFirst L r0 <;> rfl

/-- C92: a file with a faulty record is refused, whatever else is in it: nothing of it is read. (A version at the beginning is not faulty, and
files with change records are not considered.) -/
theorem C92_faulty_refused {text : Str} {lines : List Str} {recs : List (List Str)} (h1 : HasLines lines text) (h2 : FileLines recs lines)
    (hch : ∀ r ∈ recs, ∀ l ∈ r, hasPrefix l b!"control:" = false ∧ hasPrefix l b!"changetype:" = false)
    {r : List Str} (hr : r ∈ recs) (hf : Faulty r) (hv : r ∈ recs.tail ∨ ∀ l, r.head? = some l → hasPrefix l b!"version:" = false) :
    ldifUnmarshal L text = none := by
  obtain ⟨tail, ht, e⟩ := hasLines_split h1
  exact faulty_refused e ht h2 hch hr hf hv

/-! ## C65: comments -/

theorem ldifRecords_strip : ∀ (ls : List Str) (may c c' : Bool) (acc : List Str) (line : Str), NoStray may ls →
    (may = true → c = false ∧ c' = false) →
    ldifRecords c acc line ls = ldifRecords c' acc line (ls.filter (!isComment ·))
  | [], _, _, _, _, _, _, _ => by simp [ldifRecords]
  | [] :: ls, may, c, c', acc, line, h, hm => by
    rw [NoStray] at h
    rw [List.filter_cons_of_pos (by simp [isComment, hasPrefix]), ldifRecords, ldifRecords,
      ldifRecords_strip ls false c c' [] [] h (by simp)]
  | (a :: as) :: ls, may, c, c', acc, line, h, hm => by
    rw [NoStray] at h
    by_cases ha : a = 35
    · rw [if_pos ha] at h
      rw [List.filter_cons_of_neg (by simp [isComment, hasPrefix, ha]), ldifRecords, if_pos ha]
      exact ldifRecords_strip ls false true c' acc line h (by simp)
    · rw [if_neg ha] at h
      rw [List.filter_cons_of_pos (by simp [isComment, hasPrefix, List.isPrefixOf, Ne.symm ha]), ldifRecords, ldifRecords, if_neg ha, if_neg ha]
      by_cases hb : a = 32
      · rw [if_pos hb, if_pos hb]
        obtain ⟨rfl, rfl⟩ := hm (h.1 hb)
        exact ldifRecords_strip ls true false false acc _ h.2 (fun _ => ⟨rfl, rfl⟩)
      · rw [if_neg hb, if_neg hb]
        exact ldifRecords_strip ls true false false _ _ h.2 (fun _ => ⟨rfl, rfl⟩)

theorem ldifRecords_last : ∀ (ls : List Str) (c : Bool) (acc : List Str) (line : Str), (line = [] → acc = []) →
    ldifRecords c acc line (ls ++ [[]]) = ldifRecords c acc line ls
  | [], c, acc, line, h => by
    rw [List.nil_append, ldifRecords]
    by_cases hl : line = []
    · simp [hl, h hl, ldifRecords]
    · simp [hl, ldifRecords]
  | [] :: ls, c, acc, line, h => by
    rw [List.cons_append, ldifRecords, ldifRecords, ldifRecords_last ls c [] [] (fun _ => rfl)]
  | (a :: as) :: ls, c, acc, line, h => by
    rw [List.cons_append, ldifRecords, ldifRecords, ldifRecords_last ls true acc line h,
      ldifRecords_last ls false _ (a :: as) (by simp), ldifRecords_last ls c acc _ (by
        intro e
        refine h ?_
        cases c with
        | true => exact e
        | false => exact (List.append_eq_nil_iff.1 e).1)]

theorem trimEOL_dropCR (l : Str) : trimEOL (dropCR l) = trimEOL l := by
  unfold dropCR
  split
  · rename_i h
    obtain ⟨ys, rfl⟩ := List.getLast?_eq_some_iff.1 h
    rw [trimEOL_cr, List.dropLast_concat]
  · rfl

theorem trimEOL_prefix (l : Str) : ∃ t, l = trimEOL l ++ t ∧ ∀ c ∈ t, c = 13 ∨ c = 10 := by
  refine ⟨(l.reverse.takeWhile fun c => c == 13 || c == 10).reverse, ?_, ?_⟩
  · unfold trimEOL
    rw [← List.reverse_append, List.takeWhile_append_dropWhile, List.reverse_reverse]
  · intro c hc
    have := List.all_eq_true.1 List.all_takeWhile c (List.mem_reverse.1 hc)
    simpa using this

theorem isComment_trim (l : Str) : isComment (trimEOL l) = isComment l := by
  obtain ⟨t, e, ht⟩ := trimEOL_prefix l
  cases h : trimEOL l with
  | nil =>
    rw [h, List.nil_append] at e
    cases t with
    | nil => rw [e]
    | cons c t =>
      rw [e]
      rcases ht c (by simp) with rfl | rfl <;> rfl
  | cons a as =>
    rw [h] at e
    rw [e]
    simp [isComment, hasPrefix, List.isPrefixOf]

theorem isComment_dropCR (l : Str) : isComment (dropCR l) = isComment l := by
  rw [← isComment_trim, trimEOL_dropCR, isComment_trim]

theorem ldifRecords_template (text : Str) (hl : ∀ l ∈ rawLines text, l.length < 65536) (hs : NoStray false ((splitOn 10 text).map trimEOL)) :
    ldifRecords false [] [] ((splitOn 10 (templateText text)).map trimEOL) = ldifRecords false [] [] ((splitOn 10 text).map trimEOL) := by
  rw [C64_all_lines_partial text hl, ldifRecords_strip _ false false false [] [] hs (by simp)]
  have hF : (((rawLines text).map dropCR).filter (!isComment ·)).map trimEOL = ((rawLines text).map trimEOL).filter (!isComment ·) := by
    rw [List.filter_map, List.filter_map, List.map_map]
    have e1 : ((fun x => !isComment x) ∘ dropCR) = fun x => !isComment x := by funext x; simp [isComment_dropCR]
    have e2 : ((fun x => !isComment x) ∘ trimEOL) = fun x => !isComment x := by funext x; simp [isComment_trim]
    have e3 : trimEOL ∘ dropCR = trimEOL := by funext x; simp [trimEOL_dropCR]
    rw [e1, e2, e3]
  have hraw : ldifRecords false [] [] (((splitOn 10 text).map trimEOL).filter (!isComment ·)) =
      ldifRecords false [] [] (((rawLines text).map trimEOL).filter (!isComment ·)) := by
    unfold rawLines
    dsimp only
    split
    · rename_i h
      obtain ⟨ys, e⟩ := List.getLast?_eq_some_iff.1 h
      rw [e, List.dropLast_concat, List.map_append, List.filter_append]
      exact ldifRecords_last _ _ _ _ (fun _ => rfl)
    · rfl
  rw [hraw, ← hF]
  generalize hG : ((rawLines text).map dropCR).filter (!isComment ·) = G
  cases G with
  | nil => rfl
  | cons x xs =>
    rw [splitOn_joinWith (by simp)]
    intro q hq
    rw [← hG] at hq
    obtain ⟨y, hy, rfl⟩ := List.mem_map.1 (List.mem_filter.1 hq).1
    have hy' : (10 : UInt8) ∉ y := by
      refine splitOn_no_sep text y ?_
      unfold rawLines at hy
      dsimp only at hy
      split at hy
      · exact (List.dropLast_sublist _).subset hy
      · exact hy
    unfold dropCR
    split
    · exact fun e => hy' ((List.dropLast_sublist _).subset e)
    · exact hy'

theorem noStray_tail : ∀ {ls : List Str} {may : Bool} {tail : List Str}, NoStray may ls → tail = [] ∨ tail = [[]] → NoStray may (ls ++ tail)
  | [], _, _, _, ht => by rcases ht with rfl | rfl <;> simp [NoStray]
  | [] :: ls, _, _, h, ht => by
    rw [List.cons_append, NoStray] at *
    exact noStray_tail h ht
  | (c :: cs) :: ls, may, tail, h, ht => by
    rw [List.cons_append]
    rw [NoStray] at h ⊢
    split
    · rename_i hc
      rw [if_pos hc] at h
      exact noStray_tail h ht
    · rename_i hc
      rw [if_neg hc] at h
      exact ⟨h.1, noStray_tail h.2 ht⟩

/-- C65: when no comment is continued and no line that begins with a space is out of place, and every line is shorter than 64 KiB, then
taking out the comments makes no difference: the file is read as the text with the comments would be. -/
theorem C65_data_partial {text : Str} {lines : List Str} (h1 : HasLines lines text) (hl : ∀ l ∈ rawLines text, l.length < 65536)
    (hs : NoStray false lines) : ldifUnmarshal L (templateText text) = ldifUnmarshal L text := by
  obtain ⟨tail, ht, e⟩ := hasLines_split h1
  unfold ldifUnmarshal
  rw [ldifRecords_template text hl (by rw [e]; exact noStray_tail hs ht)]

theorem contains_false {v s : Str} : contains v s = false ↔ ¬ ∃ x y, v = x ++ s ++ y := by
  rw [← contains_iff, Bool.not_eq_true]

theorem infix_joinWith {u : Str} (hu : 10 ∉ u) (hne : u ≠ []) : ∀ {ls : List Str} {x y : Str}, joinWith 10 ls = x ++ u ++ y →
    ∃ l ∈ ls, ∃ x' y', l = x' ++ u ++ y'
  | [], x, y, h => by
    simp only [joinWith, List.nil_eq, List.append_eq_nil_iff] at h
    exact absurd h.1.2 hne
  | [p], x, y, h => ⟨p, by simp, x, y, h⟩
  | p :: q :: ps, x, y, h => by
    rw [joinWith] at h
    rcases List.append_eq_append_iff.1 h with ⟨a, h1, h2⟩ | ⟨c, h1, h2⟩
    · cases a with
      | nil => exact ⟨p, by simp, x, [], by simpa using h1.symm⟩
      | cons b a =>
        rw [List.cons_append] at h2
        obtain ⟨rfl, h2'⟩ := List.cons.inj h2
        rcases List.append_eq_append_iff.1 h1 with ⟨d, h3, h4⟩ | ⟨d, h3, h4⟩
        · exact absurd (h4 ▸ (by simp : (10 : UInt8) ∈ d ++ 10 :: a)) hu
        · cases d with
          | nil =>
            rw [List.nil_append] at h4
            exact absurd (h4 ▸ (by simp : (10 : UInt8) ∈ 10 :: a)) hu
          | cons b d =>
            rw [List.cons_append] at h4
            obtain ⟨rfl, h4'⟩ := List.cons.inj h4
            obtain ⟨l, hl, e⟩ := infix_joinWith hu hne (ls := q :: ps) (x := d) (y := y) (by rw [h2', h4'])
            exact ⟨l, List.mem_cons_of_mem _ hl, e⟩
    · exact ⟨p, by simp, x, c, h1⟩

theorem joinWith_infix : ∀ {ls : List Str} {l : Str}, l ∈ ls → ∃ x y, joinWith 10 ls = x ++ l ++ y
  | [p], l, h => by
    rw [List.mem_singleton] at h
    exact ⟨[], [], by simp [joinWith, h]⟩
  | p :: q :: ps, l, h => by
    rw [joinWith]
    rcases List.mem_cons.1 h with rfl | h
    · exact ⟨[], 10 :: joinWith 10 (q :: ps), by simp⟩
    · obtain ⟨x, y, e⟩ := joinWith_infix h
      exact ⟨p ++ 10 :: x, y, by rw [e]; simp⟩

theorem templateText_plain {u text : Str} (hu : 10 ∉ u) (hne : u ≠ []) (h : contains text u = false) : contains (templateText text) u = false := by
  rw [contains_false] at h ⊢
  rintro ⟨x, y, e⟩
  obtain ⟨l, hl, x', y', e'⟩ := infix_joinWith hu hne e
  obtain ⟨r, hr, rfl⟩ := List.mem_map.1 (List.mem_filter.1 hl).1
  have hr : r ∈ splitOn 10 text := by
    have hr := (List.takeWhile_sublist _).subset hr
    unfold rawLines at hr
    dsimp only at hr
    split at hr
    · exact (List.dropLast_sublist _).subset hr
    · exact hr
  obtain ⟨x2, y2, e2⟩ := joinWith_infix hr
  rw [joinWith_splitOn] at e2
  have : ∃ z, r = dropCR r ++ z := by
    unfold dropCR
    split
    · rename_i hc
      obtain ⟨ys, rfl⟩ := List.getLast?_eq_some_iff.1 hc
      exact ⟨[13], by rw [List.dropLast_concat]⟩
    · exact ⟨[], by simp⟩
  obtain ⟨z, ez⟩ := this
  exact h ⟨x2 ++ x', y' ++ z ++ y2, by rw [e2, ez, e']; simp⟩

/-- C65, C90: a file without template actions is read by the template engine as it would be without, under the same conditions. -/
theorem C65_engine_partial {run : List (Str × Str) → UInt64 → Str → Option Str} (hrun : PlainEngine run) (vars : List (Str × Str))
    (start : UInt64) {text : Str} {lines : List Str} (h1 : HasLines lines text) (hl : ∀ l ∈ rawLines text, l.length < 65536)
    (hs : NoStray false lines) (ha : contains text b!"{{" = false) :
    parseLDIFFile L (some run) vars start (some (.whole text)) = parseLDIFFile L none vars start (some (.whole text)) := by
  simp only [parseLDIFFile, fileText, Option.bind_some]
  rw [hrun _ _ _ (templateText_plain (by decide) (by decide) ha)]
  exact C65_data_partial h1 hl hs

theorem hasLines_raw {lines : List Str} {text : Str} (h : HasLines lines text) :
    ∀ raw ∈ splitOn 10 text, raw = [] ∨ ∃ l ∈ lines, raw.length ≤ l.length + 1 := by
  have cut : ∀ (l rest : Str), 10 ∉ l → splitOn 10 (l ++ 10 :: rest) = l :: splitOn 10 rest := by
    intro l rest hl
    exact splitOn_append_sep hl rest
  induction h with
  | none => intro raw hr; left; simpa [splitOn] using hr
  | last l _ h1 h2 =>
    intro raw hr
    rw [splitOn_single h1] at hr
    exact .inr ⟨l, by simp, by rw [List.mem_singleton.1 hr]; omega⟩
  | lf l ls text h1 h2 _ ih =>
    intro raw hr
    rw [cut _ _ h1] at hr
    rcases List.mem_cons.1 hr with rfl | hr
    · exact .inr ⟨raw, by simp, by omega⟩
    · rcases ih raw hr with h | ⟨x, hx, h⟩
      · exact .inl h
      · exact .inr ⟨x, by simp [hx], h⟩
  | crlf l ls text h1 h2 _ ih =>
    intro raw hr
    have e : l ++ 13 :: 10 :: text = (l ++ [13]) ++ 10 :: text := by simp
    rw [e, cut _ _ (by simpa using h1)] at hr
    rcases List.mem_cons.1 hr with rfl | hr
    · exact .inr ⟨l, by simp, by simp⟩
    · rcases ih raw hr with h | ⟨x, hx, h⟩
      · exact .inl h
      · exact .inr ⟨x, by simp [hx], h⟩

theorem hasLines_short {lines : List Str} {text : Str} (h : HasLines lines text) (h2 : ∀ l ∈ lines, l.length + 1 < 65536) :
    ∀ l ∈ rawLines text, l.length < 65536 := by
  intro l hl
  have hl' : l ∈ splitOn 10 text := by
    unfold rawLines at hl
    dsimp only at hl
    split at hl
    · exact List.dropLast_subset _ hl
    · exact hl
  rcases hasLines_raw h l hl' with rfl | ⟨x, hx, hle⟩
  · decide
  · have := h2 x hx
    omega

theorem joinWith_intercalate : ∀ ls : List Str, joinWith 10 ls = List.intercalate [10] ls
  | [] => rfl
  | [p] => by simp [joinWith, List.intercalate]
  | p :: q :: ps => by
    rw [joinWith, joinWith_intercalate (q :: ps)]
    simp [List.intercalate]

theorem dropCR_self {l : Str} (h : 13 ∉ l) : dropCR l = l := by
  unfold dropCR
  rw [if_neg]
  intro e
  exact h (List.mem_of_getLast? e)

theorem hasLines_dropCR {lines : List Str} {text : Str} (h : HasLines lines text) : (rawLines text).map dropCR = lines := by
  have step : ∀ (l rest : Str), 10 ∉ l → rawLines (l ++ 10 :: rest) = l :: rawLines rest := by
    intro l rest hl
    unfold rawLines
    rw [splitOn_append_sep hl]
    have hne : splitOn 10 rest ≠ [] := splitOn_ne_nil _ _
    dsimp only
    rw [List.getLast?_cons, List.dropLast_cons_of_ne_nil hne]
    cases hg : (splitOn 10 rest).getLast? with
    | none => exact absurd (List.getLast?_eq_none_iff.1 hg) hne
    | some x =>
      rw [Option.getD_some]
      split <;> rfl
  induction h with
  | none => rfl
  | last l h0 h1 h2 => rw [rawLines_single h0 h1, List.map_singleton, dropCR_self h2]
  | lf l ls text h1 h2 _ ih => rw [step _ _ h1, List.map_cons, ih, dropCR_self h2]
  | crlf l ls text h1 h2 _ ih =>
    rw [show l ++ 13 :: 10 :: text = (l ++ [13]) ++ 10 :: text by simp, step _ _ (by simpa using h1), List.map_cons, ih]
    simp [dropCR]

theorem dropCR_length (l : Str) : (dropCR l).length ≤ l.length ∧ l.length ≤ (dropCR l).length + 1 := by
  unfold dropCR
  split
  · rw [List.length_dropLast]
    omega
  · omega

/-- All lines of a text are read when none has 64 KiB. -/
theorem linesRead_all {lines : List Str} {text : Str} (h : HasLines lines text) (h2 : ∀ l ∈ lines, l.length + 1 < 65536) : LinesRead lines text :=
  ⟨[], by rwa [List.append_nil], h2, .inl rfl⟩

/-- What the scanner hands out. -/
theorem linesRead_scan {lines : List Str} {text : Str} (h : LinesRead lines text) : scanLines text = lines := by
  obtain ⟨lost, h1, h2, h3⟩ := h
  obtain ⟨A, B, e, hA, hB⟩ := List.map_eq_append_iff.1 (hasLines_dropCR h1)
  unfold scanLines
  have hp : ∀ r ∈ A, decide (r.length < maxToken) = true := by
    intro r hr
    have := h2 (dropCR r) (by rw [← hA]; exact List.mem_map_of_mem hr)
    have hd := dropCR_length r
    exact decide_eq_true (show r.length < 65536 by omega)
  rw [e, List.takeWhile_append_of_pos hp]
  have hn : B.takeWhile (fun l => decide (l.length < maxToken)) = [] := by
    cases B with
    | nil => rfl
    | cons r B =>
      rcases h3 with rfl | ⟨l, ls, rfl, hlen⟩
      · cases hB
      · rw [List.map_cons, List.cons.injEq] at hB
        have hd := dropCR_length r
        rw [hB.1] at hd
        rw [List.takeWhile_cons, if_neg]
        intro hlt
        have hlt := of_decide_eq_true hlt
        have : r.length < 65536 := hlt
        omega
  rw [hn, List.append_nil, hA]

/-- What is given to the template engine. -/
theorem linesRead_template {lines : List Str} {text : Str} (h : LinesRead lines text) :
    templateText text = List.intercalate [10] (lines.filter fun l => l.head? ≠ some 35) := by
  unfold templateText
  rw [linesRead_scan h, joinWith_intercalate]
  refine congrArg _ (List.filter_congr fun l _ => ?_)
  unfold isComment
  cases l with
  | nil => rfl
  | cons c l =>
    by_cases hc : c = 35
    · subst hc; rfl
    · have : (35 : UInt8) ≠ c := fun e => hc e.symm
      simp [hasPrefix, List.isPrefixOf, hc, this]

theorem hasLines_template {lines : List Str} {text : Str} (h : HasLines lines text) (h2 : ∀ l ∈ lines, l.length + 1 < 65536) :
    templateText text = List.intercalate [10] (lines.filter fun l => l.head? ≠ some 35) := linesRead_template (linesRead_all h h2)

/-- C65, C73: what the server reads from a file that becomes `out`. -/
theorem becomes_parse {run : List (Str × Str) → UInt64 → Str → Option Str} {vars : List (Str × Str)} {f : FileRead} {out : Str}
    (h : Becomes run vars f.data out) : fileText (some run) vars 1000 f = some out := by
  obtain ⟨lines, h1, h2⟩ := h
  rw [fileText, linesRead_template h1]
  exact h2

theorem notATemplate_parse {run : List (Str × Str) → UInt64 → Str → Option Str} {vars : List (Str × Str)} {f : FileRead}
    (h : NotATemplate run vars f.data) : fileText (some run) vars 1000 f = none := by
  obtain ⟨lines, h1, h2⟩ := h
  rw [fileText, linesRead_template h1]
  exact h2

/-! ## C72: directories -/

theorem fileLines_append {ra rb : List (List Str)} {la lb : List Str} (ha : FileLines ra la) (hb : FileLines rb lb) :
    FileLines (ra ++ rb) (la ++ [] :: lb) := by
  induction ha with
  | done => exact .empty _ _ hb
  | empty rs rest _ ih => exact .empty _ _ ih
  | comments lines rs rest hr _ ih =>
    rw [List.append_assoc, List.cons_append]
    exact .comments _ _ _ hr ih
  | record ls lines rs rest hne hr _ ih =>
    rw [List.append_assoc, List.cons_append, List.cons_append]
    exact .record _ _ _ _ hne hr ih
  | last ls lines hne hr => exact .record _ _ _ _ hne hr hb
  | lastComments lines hr => exact .comments _ _ _ hr hb

theorem matched_append {α β : Type} {R : α → β → Prop} {as as' : List α} {bs bs' : List β} (h : Matched R as bs) (h' : Matched R as' bs') :
    Matched R (as ++ as') (bs ++ bs') := by
  induction h with
  | nil => exact h'
  | cons a b as bs h _ ih => exact .cons _ _ _ _ h ih

theorem lines_split {text : Str} {lines : List Str} {recs : List (List Str)} (h1 : HasLines lines text) (h2 : FileLines recs lines) :
    FileLines recs ((splitOn 10 text).map trimEOL) := by
  obtain ⟨tail, ht, e⟩ := hasLines_split h1
  rw [e]
  rcases ht with rfl | rfl
  · rwa [List.append_nil]
  · have := fileLines_append h2 FileLines.done
    rwa [List.append_nil] at this

theorem body_split {text : Str} {rs : List LdifRecord} (h : LdifBody text rs) :
    ∃ recs, FileLines recs ((splitOn 10 text).map trimEOL) ∧ Matched RecordSays rs recs := by
  obtain ⟨lines, recs, h1, h2, h3⟩ := h
  exact ⟨recs, lines_split h1 h2, h3⟩

/-- The records of files, one after the other. -/
theorem catFiles_lines {text : Str → Option Str} {recs : Str → List (List Str)} : ∀ (ns : List Str),
    (∀ n ∈ ns, ∃ t, text n = some t ∧ FileLines (recs n) ((splitOn 10 t).map trimEOL)) →
    ∃ out, catFiles text ns = some out ∧ FileLines (ns.flatMap recs) ((splitOn 10 out).map trimEOL)
  | [], _ => ⟨[], rfl, .empty _ _ .done⟩
  | n :: ns, h => by
    obtain ⟨out, h1, h2⟩ := catFiles_lines ns fun m hm => h m (by simp [hm])
    obtain ⟨t, ht, g1⟩ := h n (by simp)
    refine ⟨t ++ [10, 10] ++ out, by simp [catFiles, ht, h1], ?_⟩
    have : splitOn 10 (t ++ [10, 10] ++ out) = splitOn 10 t ++ [] :: splitOn 10 out := by
      rw [List.append_assoc]
      show splitOn 10 (t ++ 10 :: (10 :: out)) = _
      rw [splitOn_append, splitOn_cons_sep]
    rw [this, List.map_append, List.map_cons, List.flatMap_cons]
    exact fileLines_append g1 h2

theorem catFiles_says {text : Str → Option Str} {rs : Str → List LdifRecord} : ∀ (ns : List Str),
    (∀ n ∈ ns, ∃ t recs, text n = some t ∧ FileLines recs ((splitOn 10 t).map trimEOL) ∧ Matched RecordSays (rs n) recs) →
    ∃ out recs, catFiles text ns = some out ∧ FileLines recs ((splitOn 10 out).map trimEOL) ∧ Matched RecordSays (ns.flatMap rs) recs
  | [], _ => ⟨[], [], rfl, .empty _ _ .done, .nil⟩
  | n :: ns, h => by
    obtain ⟨out, recs, h1, h2, h3⟩ := catFiles_says ns fun m hm => h m (by simp [hm])
    obtain ⟨t, recs', ht, g1, g2⟩ := h n (by simp)
    refine ⟨t ++ [10, 10] ++ out, recs' ++ recs, by simp [catFiles, ht, h1], ?_, ?_⟩
    · have : splitOn 10 (t ++ [10, 10] ++ out) = splitOn 10 t ++ [] :: splitOn 10 out := by
        rw [List.append_assoc]
        show splitOn 10 (t ++ 10 :: (10 :: out)) = _
        rw [splitOn_append, splitOn_cons_sep]
      rw [this, List.map_append, List.map_cons]
      exact fileLines_append g1 h2
    · rw [List.flatMap_cons]
      exact matched_append g2 h3

theorem recordLines_nonempty {ls lines : List Str} (h : RecordLines ls lines) : [] ∉ lines := by
  induction h with
  | done => simp
  | line l lines ls rest hf _ ih =>
    obtain ⟨first, pieces, rfl, -, h1, -, -⟩ := hf
    simp only [List.mem_append, List.mem_cons, List.mem_map, not_or]
    exact ⟨⟨fun e => h1 e.symm, fun ⟨p, _, e⟩ => by cases e⟩, ih⟩
  | comment c pieces ls rest _ ih =>
    simp only [List.mem_append, List.mem_cons, List.mem_map, not_or]
    exact ⟨⟨fun e => (by cases e), fun ⟨p, _, e⟩ => by cases e⟩, ih⟩

theorem noStray_suffix : ∀ {xs ys : List Str} {may : Bool}, NoStray may (xs ++ ys) → ∃ may', NoStray may' ys
  | [], _, may, h => ⟨may, h⟩
  | [] :: xs, _, _, h => by
    rw [List.cons_append, NoStray] at h
    exact noStray_suffix h
  | (c :: cs) :: xs, _, _, h => by
    rw [List.cons_append, NoStray] at h
    split at h
    · exact noStray_suffix h
    · exact noStray_suffix h.2

/-- Taking the comments out of the lines of a record. -/
theorem recordLines_strip {ls lines : List Str} (h : RecordLines ls lines) : ∀ {may : Bool} {rest : List Str}, NoStray may (lines ++ rest) →
    RecordLines ls (lines.filter (!isComment ·)) := by
  induction h with
  | done => intro _ _ _; exact .done
  | line l lines ls rest hf _ ih =>
    intro may more h
    rw [List.append_assoc] at h
    obtain ⟨may', h'⟩ := noStray_suffix h
    rw [List.filter_append]
    have : lines.filter (!isComment ·) = lines := by
      rw [List.filter_eq_self]
      obtain ⟨first, pieces, rfl, -, h1, -, h3⟩ := hf
      intro x hx
      rcases List.mem_cons.1 hx with rfl | hx
      · cases x with
        | nil => exact absurd rfl h1
        | cons c cs =>
          have : c ≠ 35 := fun e => h3 (by rw [e]; rfl)
          simp only [isComment, hasPrefix, List.isPrefixOf, Bool.and_true, Bool.not_eq_true', beq_eq_false_iff_ne]
          exact fun e => this e.symm
      · obtain ⟨p, _, rfl⟩ := List.mem_map.1 hx
        simp [isComment, hasPrefix, List.isPrefixOf]
    rw [this]
    exact .line _ _ _ _ hf (ih h')
  | comment c pieces ls rest _ ih =>
    intro may more h
    rw [List.cons_append, List.cons_append, NoStray, if_pos rfl] at h
    cases pieces with
    | cons p ps => simp [NoStray] at h
    | nil =>
      have : isComment (35 :: c) = true := by simp [isComment, hasPrefix]
      simp only [List.map_nil, List.nil_append, List.cons_append, List.filter_cons, this, Bool.not_true, Bool.false_eq_true, if_false] at h ⊢
      exact ih h

theorem recordLines_none {ls : List Str} (h : RecordLines [] ls) (hc : ∀ l ∈ ls, isComment l = false) : ls = [] := by
  cases h with
  | done => rfl
  | comment c pieces _ rest _ =>
    have := hc (35 :: c) (by simp)
    simp [isComment, hasPrefix] at this

/-- Taking the comments out of the lines of a file. -/
theorem fileLines_strip {rs : List (List Str)} {lines : List Str} (h : FileLines rs lines) : ∀ {may : Bool}, NoStray may lines →
    FileLines rs (lines.filter (!isComment ·)) := by
  have hempty : isComment [] = false := rfl
  have hnone : ∀ {ls : List Str}, RecordLines [] (ls.filter (!isComment ·)) → ls.filter (!isComment ·) = [] := fun h =>
    recordLines_none h fun l hl => by simpa using (List.mem_filter.1 hl).2
  induction h with
  | done => intro _ _; exact .done
  | empty rs rest _ ih =>
    intro may h
    rw [NoStray] at h
    simp only [List.filter_cons, hempty, Bool.not_false, if_true]
    exact .empty _ _ (ih h)
  | comments lines rs rest hr _ ih =>
    intro may h
    obtain ⟨may', h'⟩ := noStray_suffix h
    rw [NoStray] at h'
    have := recordLines_strip hr h
    rw [List.filter_append, hnone this]
    simp only [List.nil_append, List.filter_cons, hempty, Bool.not_false, if_true]
    exact .empty _ _ (ih h')
  | record ls lines rs rest hne hr _ ih =>
    intro may h
    obtain ⟨may', h'⟩ := noStray_suffix h
    rw [NoStray] at h'
    rw [List.filter_append]
    simp only [List.filter_cons, hempty, Bool.not_false, if_true]
    exact .record _ _ _ _ hne (recordLines_strip hr h) (ih h')
  | last ls lines hne hr =>
    intro may h
    exact .last _ _ hne (recordLines_strip hr (rest := []) (by rw [List.append_nil]; exact h))
  | lastComments lines hr =>
    intro may h
    have := recordLines_strip hr (rest := []) (by rw [List.append_nil]; exact h)
    rw [hnone this]
    exact .done

theorem recordLines_last {ls xs : List Str} (h : RecordLines ls (xs ++ [[]])) : False := recordLines_nonempty h (by simp)

theorem recordLines_nil {ls lines : List Str} (h : RecordLines ls lines) : lines = [] → ls = [] := by
  induction h with
  | done => intro _; rfl
  | line l lines ls rest hf _ _ =>
    intro e
    obtain ⟨first, pieces, rfl, -⟩ := hf
    simp at e
  | comment c pieces ls rest _ _ => intro e; simp at e

theorem fileLines_nil {rs : List (List Str)} (h : FileLines rs []) : rs = [] := by
  generalize e : ([] : List Str) = lines at h
  induction h with
  | done => rfl
  | empty => cases e
  | comments lines rs rest => simp at e
  | record ls lines rs rest => simp at e
  | last ls lines hne hr => exact absurd (recordLines_nil hr e.symm) hne
  | lastComments lines hr => rfl

/-- An empty last line may be left out. -/
theorem fileLines_last {rs : List (List Str)} {lines : List Str} (h : FileLines rs lines) : ∀ {xs : List Str}, lines = xs ++ [[]] → FileLines rs xs := by
  induction h with
  | done => intro xs e; simp at e
  | empty rs rest h ih =>
    intro xs e
    cases xs with
    | nil =>
      simp only [List.nil_append, List.cons.injEq, true_and] at e
      rw [e] at h
      exact h
    | cons x xs =>
      rw [List.cons_append, List.cons.injEq] at e
      obtain ⟨rfl, e⟩ := e
      exact .empty _ _ (ih e)
  | comments lines rs rest hr h ih =>
    intro xs e
    rcases List.eq_nil_or_concat rest with rfl | ⟨rest', l, rfl⟩
    · rw [(List.append_inj_left' e rfl).symm, fileLines_nil h]
      exact .lastComments _ hr
    · have e' : lines ++ [] :: rest' ++ [l] = xs ++ [[]] := by rw [← e]; simp
      obtain ⟨rfl, e2⟩ := List.append_inj' e' rfl
      cases e2
      exact .comments _ _ _ hr (ih (by simp))
  | record ls lines rs rest hne hr h ih =>
    intro xs e
    rcases List.eq_nil_or_concat rest with rfl | ⟨rest', l, rfl⟩
    · rw [(List.append_inj_left' e rfl).symm, fileLines_nil h]
      exact .last _ _ hne hr
    · have e' : lines ++ [] :: rest' ++ [l] = xs ++ [[]] := by rw [← e]; simp
      obtain ⟨rfl, e2⟩ := List.append_inj' e' rfl
      cases e2
      exact .record _ _ _ _ hne hr (ih (by simp))
  | last ls lines hne hr => intro xs e; rw [e] at hr; exact (recordLines_last hr).elim
  | lastComments lines hr => intro xs e; rw [e] at hr; exact (recordLines_last hr).elim

/-- The lines of a template without its comments are those of a file with the same records. -/
theorem lines_template {text : Str} {lines : List Str} {recs : List (List Str)} (hf : FileLines recs ((splitOn 10 text).map trimEOL))
    (h1 : HasLines lines text) (hl : ∀ l ∈ rawLines text, l.length < 65536) (hs : NoStray false lines) :
    FileLines recs ((splitOn 10 (templateText text)).map trimEOL) := by
  obtain ⟨tail, ht, e⟩ := hasLines_split h1
  have hs' : NoStray false ((splitOn 10 text).map trimEOL) := by rw [e]; exact noStray_tail hs ht
  have hf' := fileLines_strip hf hs'
  have hraw : FileLines recs (((rawLines text).map trimEOL).filter (!isComment ·)) := by
    unfold rawLines
    dsimp only
    split
    · rename_i h
      obtain ⟨ys, e⟩ := List.getLast?_eq_some_iff.1 h
      rw [e, List.map_append, List.filter_append] at hf'
      rw [e, List.dropLast_concat]
      exact fileLines_last hf' rfl
    · exact hf'
  have hF : (((rawLines text).map dropCR).filter (!isComment ·)).map trimEOL = ((rawLines text).map trimEOL).filter (!isComment ·) := by
    rw [List.filter_map, List.filter_map, List.map_map]
    have e1 : ((fun x => !isComment x) ∘ dropCR) = fun x => !isComment x := by funext x; simp [isComment_dropCR]
    have e2 : ((fun x => !isComment x) ∘ trimEOL) = fun x => !isComment x := by funext x; simp [isComment_trim]
    have e3 : trimEOL ∘ dropCR = trimEOL := by funext x; simp [trimEOL_dropCR]
    rw [e1, e2, e3]
  have ht : templateText text = joinWith 10 (((rawLines text).map dropCR).filter (!isComment ·)) := by
    unfold templateText scanLines
    rw [takeWhile_all]
    intro l hx
    exact decide_eq_true (hl l hx)
  rw [← hF] at hraw
  rw [ht]
  generalize hG : ((rawLines text).map dropCR).filter (!isComment ·) = G at hraw
  cases G with
  | nil =>
    rw [List.map_nil] at hraw
    rw [fileLines_nil hraw]
    exact .empty _ _ .done
  | cons x xs =>
    rw [splitOn_joinWith (by simp)]
    · exact hraw
    intro q hq
    rw [← hG] at hq
    obtain ⟨y, hy, rfl⟩ := List.mem_map.1 (List.mem_filter.1 hq).1
    have hy' : (10 : UInt8) ∉ y := by
      refine splitOn_no_sep text y ?_
      unfold rawLines at hy
      dsimp only at hy
      split at hy
      · exact (List.dropLast_sublist _).subset hy
      · exact hy
    unfold dropCR
    split
    · exact fun e => hy' ((List.dropLast_sublist _).subset e)
    · exact hy'

theorem body_template {text : Str} {rs : List LdifRecord} {lines : List Str} (hb : LdifBody text rs) (h1 : HasLines lines text)
    (hl : ∀ l ∈ rawLines text, l.length < 65536) (hs : NoStray false lines) :
    ∃ recs, FileLines recs ((splitOn 10 (templateText text)).map trimEOL) ∧ Matched RecordSays rs recs := by
  obtain ⟨recs, hf, hm⟩ := body_split hb
  exact ⟨recs, lines_template hf h1 hl hs, hm⟩

theorem hasLines_pad {ls ls' : List Str} {t u : Str} (h : HasLines ls t) (h' : HasLines ls' u) :
    ∃ k, HasLines (ls ++ [] :: List.replicate k [] ++ ls') (t ++ [10, 10] ++ u) := by
  induction h with
  | none => exact ⟨1, .lf [] _ _ (by simp) (by simp) (.lf [] _ _ (by simp) (by simp) h')⟩
  | last l h0 h1 h2 =>
    refine ⟨0, ?_⟩
    have := HasLines.lf l _ _ h1 h2 (.lf [] _ _ (by simp) (by simp) h')
    simpa using this
  | lf l ls text h1 h2 _ ih =>
    obtain ⟨k, ih⟩ := ih
    refine ⟨k, ?_⟩
    have := HasLines.lf l _ _ h1 h2 ih
    simpa using this
  | crlf l ls text h1 h2 _ ih =>
    obtain ⟨k, ih⟩ := ih
    refine ⟨k, ?_⟩
    have := HasLines.crlf l _ _ h1 h2 ih
    simpa using this

theorem fileLines_pad {ra rb : List (List Str)} {la lb : List Str} (ha : FileLines ra la) (hb : FileLines rb lb) (k : Nat) :
    FileLines (ra ++ rb) (la ++ [] :: List.replicate k [] ++ lb) := by
  have : ∀ k, FileLines rb (List.replicate k [] ++ lb) := by
    intro k
    induction k with
    | zero => exact hb
    | succ k ih => exact .empty _ _ ih
  have := fileLines_append ha (this k)
  simpa using this

/-- Two LDIF files with empty lines in between are one, if the second has no version. -/
theorem ldif_append {t u : Str} {rs rs' : List LdifRecord} (h' : LdifBody u rs') :
    (LdifBody t rs → LdifBody (t ++ [10, 10] ++ u) (rs ++ rs')) ∧ (LdifSays t rs → LdifSays (t ++ [10, 10] ++ u) (rs ++ rs')) := by
  obtain ⟨lines', recs', g1, g2, g3⟩ := h'
  constructor
  · rintro ⟨lines, recs, h1, h2, h3⟩
    obtain ⟨k, hk⟩ := hasLines_pad h1 g1
    exact ⟨_, _, hk, fileLines_pad h2 g2 k, matched_append h3 g3⟩
  · rintro ⟨lines, recs, h1, h2, h3⟩
    obtain ⟨k, hk⟩ := hasLines_pad h1 g1
    refine ⟨_, _, hk, fileLines_pad h2 g2 k, ?_⟩
    cases h3 with
    | plain _ h => exact .plain _ _ (matched_append h g3)
    | version ls n h => exact .version _ _ n (matched_append h g3)
    | versionLine r ls n h => exact .versionLine _ r _ n (matched_append h g3)

theorem catFiles_body {text : Str → Option Str} {rs : Str → List LdifRecord} : ∀ (ns : List Str),
    (∀ n ∈ ns, ∃ t, text n = some t ∧ LdifBody t (rs n)) → ∃ out, catFiles text ns = some out ∧ LdifBody out (ns.flatMap rs)
  | [], _ => ⟨[], rfl, [], [], .none, .done, .nil⟩
  | n :: ns, h => by
    obtain ⟨out, h1, h2⟩ := catFiles_body ns fun m hm => h m (by simp [hm])
    obtain ⟨t, ht, g⟩ := h n (by simp)
    exact ⟨t ++ [10, 10] ++ out, by simp [catFiles, ht, h1], (ldif_append h2).1 g⟩

/-- Files, the first of which may have a version, as one file. -/
theorem catFiles_ldif {text : Str → Option Str} {rs : Str → List LdifRecord} {ns : List Str}
    (h : ∀ n ∈ ns, ∃ t, text n = some t ∧ LdifSays t (rs n) ∧ (n ∈ ns.tail → LdifBody t (rs n))) :
    ∃ out, catFiles text ns = some out ∧ LdifSays out (ns.flatMap rs) := by
  cases ns with
  | nil => exact ⟨[], rfl, [], [], .none, .done, .plain _ _ .nil⟩
  | cons n ns =>
    obtain ⟨out, h1, h2⟩ := catFiles_body (text := text) (rs := rs) ns fun m hm => by
      obtain ⟨t, a, -, b⟩ := h m (by simp [hm])
      exact ⟨t, a, b hm⟩
    obtain ⟨t, ht, g, -⟩ := h n (by simp)
    exact ⟨t ++ [10, 10] ++ out, by simp [catFiles, ht, h1], (ldif_append h2).2 g⟩

theorem ldifNames_eq {names files : List Str} (hp : files.Perm (names.filter fun n => b!".ldif" <:+ n)) (ho : files.Pairwise ByteLe) :
    ldifNames names = files := by
  have hp' : (ldifNames names).Perm (names.filter fun n => b!".ldif" <:+ n) := by
    unfold ldifNames
    refine (sortNames_perm _).trans ?_
    rw [show (names.filter fun n => b!".ldif" <:+ n) = names.filter (hasSuffix · b!".ldif") from
      List.filter_congr fun n _ => by rw [Bool.eq_iff_iff, decide_eq_true_iff, hasSuffix_iff]]
  exact List.Perm.eq_of_pairwise (fun a b _ _ h1 h2 => strLe_antisymm (strLe_iff.2 h1) (strLe_iff.2 h2)) (sortNames_sorted _) ho (hp'.trans hp.symm)

theorem hasLines_exists : ∀ t : Str, 13 ∉ t → ∃ ls, HasLines ls t
  | [], _ => ⟨[], .none⟩
  | c :: t, h => by
    obtain ⟨ls, hls⟩ := hasLines_exists t fun hm => h (by simp [hm])
    have hc : (13 : UInt8) ≠ c := fun e => h (by simp [e])
    by_cases h10 : c = 10
    · subst h10
      exact ⟨[] :: ls, .lf [] _ _ (by simp) (by simp) hls⟩
    · have h10' : (10 : UInt8) ≠ c := fun e => h10 e.symm
      cases hls with
      | none => exact ⟨[[c]], .last _ (by simp) (by simpa using h10') (by simpa using hc)⟩
      | last _ _ a b => exact ⟨[c :: t], .last _ (by simp) (by simp [a, h10']) (by simp [b, hc])⟩
      | lf l ls text a b g => exact ⟨(c :: l) :: ls, .lf (c :: l) _ _ (by simp [a, h10']) (by simp [b, hc]) g⟩
      | crlf l ls text a b g => exact ⟨(c :: l) :: ls, .crlf (c :: l) _ _ (by simp [a, h10']) (by simp [b, hc]) g⟩

theorem hasLines_clean {ls : List Str} {t : Str} (h : HasLines ls t) : ∀ l ∈ ls, 10 ∉ l ∧ 13 ∉ l := by
  induction h with
  | none => simp
  | last l _ a b => simpa using ⟨a, b⟩
  | lf l ls text a b _ ih => exact fun x hx => (List.mem_cons.1 hx).elim (fun e => e ▸ ⟨a, b⟩) (ih x)
  | crlf l ls text a b _ ih => exact fun x hx => (List.mem_cons.1 hx).elim (fun e => e ▸ ⟨a, b⟩) (ih x)

theorem mem_joinWith {c sep : UInt8} : ∀ {ls : List Str}, c ∈ joinWith sep ls → c = sep ∨ ∃ l ∈ ls, c ∈ l
  | [], h => by simp [joinWith] at h
  | [p], h => .inr ⟨p, by simp, h⟩
  | p :: q :: ps, h => by
    rw [joinWith, List.mem_append, List.mem_cons] at h
    rcases h with h | h | h
    · exact .inr ⟨p, by simp, h⟩
    · exact .inl h
    · rcases mem_joinWith h with h | ⟨l, hl, h⟩
      · exact .inl h
      · exact .inr ⟨l, List.mem_cons_of_mem _ hl, h⟩

/-- The text of a file without actions, with its comments taken out, has the same records. -/
theorem template_lines {text : Str} {recs : List (List Str)} {lines lines' : List Str} (h1 : HasLines lines text) (h2 : FileLines recs lines)
    (h1' : HasLines lines' text) (hl : ∀ l ∈ lines', l.length + 1 < 65536) (hs : NoStray false lines') :
    ∃ ls, HasLines ls (templateText text) ∧ FileLines recs ls := by
  have hf := lines_template (lines_split h1 h2) h1' (hasLines_short h1' hl) hs
  have h13 : 13 ∉ templateText text := by
    rw [hasLines_template h1' hl, ← joinWith_intercalate]
    intro h
    rcases mem_joinWith h with e | ⟨l, hl', hc⟩
    · exact absurd e (by decide)
    · exact (hasLines_clean h1' l (List.mem_filter.1 hl').1).2 hc
  obtain ⟨ls, k1⟩ := hasLines_exists _ h13
  obtain ⟨tail, ht, k2⟩ := hasLines_split k1
  refine ⟨ls, k1, ?_⟩
  rw [k2] at hf
  rcases ht with rfl | rfl
  · rwa [List.append_nil] at hf
  · exact fileLines_last hf rfl

/-- C64 is false, seen by a user: one with a photo of 64 KiB or more is read without the photo and without all that follows: their password and the rest of the file -/
theorem C64_photo_fails (photo : Str) (hp : 65536 ≤ photo.length) (h1 : 10 ∉ photo) (h2 : 13 ∉ photo) {run : List (Str × Str) → UInt64 → Str → Option Str}
    (hrun : PlainEngine run) (vars : List (Str × Str)) {rest : Str} {ls : List Str} (hr : HasLines ls rest) :
    Becomes run vars (b!"dn: cn=bob\n" ++ (b!"cn: bob\n" ++ ((b!"jpegPhoto:: " ++ photo) ++ 10 :: rest))) b!"dn: cn=bob\ncn: bob" := by
  refine ⟨[b!"dn: cn=bob", b!"cn: bob"], ⟨(b!"jpegPhoto:: " ++ photo) :: ls, ?_, by decide, .inr ⟨_, _, rfl, ?_⟩⟩, hrun _ _ _ (by decide +kernel)⟩
  · exact .lf b!"dn: cn=bob" _ _ (by decide) (by decide) (.lf b!"cn: bob" _ _ (by decide) (by decide)
      (.lf _ _ _ (by
        rw [List.mem_append]
        rintro (h | h)
        · exact absurd h (by decide)
        · exact h1 h) (by
        rw [List.mem_append]
        rintro (h | h)
        · exact absurd h (by decide)
        · exact h2 h) hr))
  · rw [List.length_append]
    omega

/-- C65: a file without actions, with lines below 64 KiB and without continued comments, becomes a text that says what the file says. -/
theorem plain_becomes {run : List (Str × Str) → UInt64 → Str → Option Str} (hrun : PlainEngine run) (vars : List (Str × Str)) {text : Str}
    (hp : PlainTemplate text) :
    ∃ out, Becomes run vars text out ∧ (∀ rs, LdifSays text rs → LdifSays out rs) ∧ (∀ rs, LdifBody text rs → LdifBody out rs) ∧
      ∀ lines recs, HasLines lines text → FileLines recs lines → ∃ ls, HasLines ls out ∧ FileLines recs ls := by
  obtain ⟨lines', k1, k2, k3, k4⟩ := hp
  refine ⟨templateText text, ⟨lines', linesRead_all k1 k2, ?_⟩, ?_, ?_, fun lines recs h1 h2 => template_lines h1 h2 k1 k2 k3⟩
  · rw [← hasLines_template k1 k2]
    exact hrun _ _ _ (templateText_plain (by decide) (by decide) k4)
  · rintro rs ⟨lines, recs, h1, h2, h3⟩
    obtain ⟨ls, g1, g2⟩ := template_lines h1 h2 k1 k2 k3
    exact ⟨ls, recs, g1, g2, h3⟩
  · rintro rs ⟨lines, recs, h1, h2, h3⟩
    obtain ⟨ls, g1, g2⟩ := template_lines h1 h2 k1 k2 k3
    exact ⟨ls, recs, g1, g2, h3⟩

/-- The files of a directory are read as one file. -/
theorem directory_one {engine : Option (List (Str × Str) → UInt64 → Str → Option Str)} {vars : List (Str × Str)}
    {start : UInt64} {read : Str → Option FileRead} {names files : List Str} {rs : Str → List LdifRecord}
    (hp : files.Perm (names.filter fun n => b!".ldif" <:+ n)) (ho : files.Pairwise ByteLe)
    (h : ∀ n ∈ files, ∃ t, (read n).bind (fileText engine vars start) = some t ∧ LdifSays t (rs n) ∧ (n ∈ files.tail → LdifBody t (rs n))) :
    ∃ out, LdifSays out (files.flatMap rs) ∧ parseLDIFDirectory L engine vars start read names = ldifUnmarshal L out := by
  obtain ⟨out, h1, h2⟩ := catFiles_ldif (text := fun n => (read n).bind (fileText engine vars start)) h
  refine ⟨out, h2, ?_⟩
  rw [parseLDIFDirectory, directoryText, ldifNames_eq hp ho, h1]
  rfl

/-- C72: if every LDIF file of a directory is (after rendering) an LDIF file, and none but the first in the order of the names has a version, the
directory is read, and what is read are the records of the files, in the order of the names of the files. -/
theorem C72_version_partial (hL : L.Lawful) (engine : Option (List (Str × Str) → UInt64 → Str → Option Str)) (vars : List (Str × Str))
    (start : UInt64) (read : Str → Option FileRead) {names files : List Str} {rs : Str → List LdifRecord}
    (hp : files.Perm (names.filter fun n => b!".ldif" <:+ n)) (ho : files.Pairwise ByteLe)
    (h : ∀ n ∈ files, ∃ t, (read n).bind (fileText engine vars start) = some t ∧ LdifSays t (rs n) ∧ (n ∈ files.tail → LdifBody t (rs n))) :
    ∃ recs, parseLDIFDirectory L engine vars start read names = some recs ∧ Matched EntrySays (files.flatMap rs) (recs.filterMap id) := by
  obtain ⟨out, h1, h2⟩ := directory_one (L := L) hp ho h
  obtain ⟨recs, k1, k2⟩ := C90_read_partial hL h1
  exact ⟨recs, h2.trans k1, k2⟩

theorem directory_says (hL : L.Lawful) (engine : Option (List (Str × Str) → UInt64 → Str → Option Str)) (vars : List (Str × Str))
    (start : UInt64) (read : Str → Option FileRead) (names : List Str) (rs : Str → List LdifRecord)
    (h : ∀ n ∈ names, b!".ldif" <:+ n → ∃ t recs, (read n).bind (fileText engine vars start) = some t ∧
      FileLines recs ((splitOn 10 t).map trimEOL) ∧ Matched RecordSays (rs n) recs) :
    ∃ (files : List Str) (recs : List (Option Entry)), files.Perm (names.filter fun n => b!".ldif" <:+ n) ∧ files.Pairwise ByteLe ∧
      parseLDIFDirectory L engine vars start read names = some recs ∧ Matched EntrySays (files.flatMap rs) (recs.filterMap id) := by
  have hp : (ldifNames names).Perm (names.filter fun n => b!".ldif" <:+ n) := by
    unfold ldifNames
    refine (sortNames_perm _).trans ?_
    rw [show (names.filter fun n => b!".ldif" <:+ n) = names.filter (hasSuffix · b!".ldif") from
      List.filter_congr fun n _ => by rw [Bool.eq_iff_iff, decide_eq_true_iff, hasSuffix_iff]]
  obtain ⟨out, recs, h1, h2, h3⟩ := catFiles_says (text := fun n => (read n).bind (fileText engine vars start)) (rs := rs) (ldifNames names) (by
    intro n hn
    have := List.mem_filter.1 (hp.mem_iff.1 hn)
    exact h n this.1 (of_decide_eq_true this.2))
  refine ⟨ldifNames names, ((ldifNames names).flatMap rs).map fun r => some ⟨r.dn, gather [] r.values⟩, hp, sortNames_sorted _, ?_, ?_⟩
  · rw [parseLDIFDirectory, directoryText, h1]
    exact ldifUnmarshal_file hL (tail := []) (by simp) (.inl rfl) h2 h3
  · rw [filterMap_some_map]
    exact matched_map _ entrySays_gather _

/-- C72: if every LDIF file of a directory is (after rendering) an LDIF file without a version, the directory is read, and what is read are
the records of the files, in the order of the names of the files. (Missing for the full property: files with a version, see
`C72_version_fails`, and what `C90_read_partial` leaves out.) -/
theorem C72_entries_partial (hL : L.Lawful) (engine : Option (List (Str × Str) → UInt64 → Str → Option Str)) (vars : List (Str × Str))
    (start : UInt64) (read : Str → Option FileRead) (names : List Str) (rs : Str → List LdifRecord)
    (h : ∀ n ∈ names, b!".ldif" <:+ n → ∃ t, (read n).bind (fileText engine vars start) = some t ∧ LdifBody t (rs n)) :
    ∃ (files : List Str) (recs : List (Option Entry)), files.Perm (names.filter fun n => b!".ldif" <:+ n) ∧ files.Pairwise ByteLe ∧
      parseLDIFDirectory L engine vars start read names = some recs ∧ Matched EntrySays (files.flatMap rs) (recs.filterMap id) :=
  directory_says hL engine vars start read names rs fun n hn hx => by
    obtain ⟨t, h1, h2⟩ := h n hn hx
    obtain ⟨recs, h3, h4⟩ := body_split h2
    exact ⟨t, recs, h1, h3, h4⟩

/-- C72 for the template engine: if every LDIF file of a directory is an LDIF file without a version and without template actions, with lines
below 64 KiB and without continued comments, the directory is read as it would be without the engine. -/
theorem C72_templates_partial (hL : L.Lawful) {run : List (Str × Str) → UInt64 → Str → Option Str} (hrun : PlainEngine run) (vars : List (Str × Str))
    (start : UInt64) (read : Str → Option FileRead) (names : List Str) (rs : Str → List LdifRecord)
    (h : ∀ n ∈ names, b!".ldif" <:+ n → ∃ t, read n = some (.whole t) ∧ LdifBody t (rs n) ∧ PlainTemplate t) :
    ∃ (files : List Str) (recs : List (Option Entry)), files.Perm (names.filter fun n => b!".ldif" <:+ n) ∧ files.Pairwise ByteLe ∧
      parseLDIFDirectory L (some run) vars start read names = some recs ∧ Matched EntrySays (files.flatMap rs) (recs.filterMap id) :=
  directory_says hL (some run) vars start read names rs fun n hn hx => by
    obtain ⟨t, h1, h2, lines, h3, h4, h5, h6⟩ := h n hn hx
    obtain ⟨recs, h7, h8⟩ := body_template h2 h3 (hasLines_short h3 h4) h5
    refine ⟨_, recs, ?_, h7, h8⟩
    rw [h1]
    exact hrun _ _ _ (templateText_plain (by decide) (by decide) h6)

theorem directory_faulty (engine : Option (List (Str × Str) → UInt64 → Str → Option Str)) (vars : List (Str × Str))
    (start : UInt64) (read : Str → Option FileRead) {names files : List Str} {recs : Str → List (List Str)}
    (hp : files.Perm (names.filter fun n => b!".ldif" <:+ n)) (ho : files.Pairwise ByteLe)
    (h : ∀ n ∈ files, (∃ t, (read n).bind (fileText engine vars start) = some t ∧ FileLines (recs n) ((splitOn 10 t).map trimEOL)) ∧
      ∀ r ∈ recs n, ∀ l ∈ r, hasPrefix l b!"control:" = false ∧ hasPrefix l b!"changetype:" = false)
    {r : List Str} (hr : r ∈ files.flatMap recs) (hf : Faulty r)
    (hv : r ∈ (files.flatMap recs).tail ∨ ∀ l, r.head? = some l → hasPrefix l b!"version:" = false) :
    parseLDIFDirectory L engine vars start read names = none := by
  have e := ldifNames_eq hp ho
  obtain ⟨out, h1, h2⟩ := catFiles_lines (text := fun n => (read n).bind (fileText engine vars start)) files fun n hn => (h n hn).1
  rw [parseLDIFDirectory, directoryText, e, h1]
  refine faulty_refused (tail := []) (by simp) (.inl rfl) h2 ?_ hr hf hv
  intro r hr
  obtain ⟨n, hn, hr⟩ := List.mem_flatMap.1 hr
  exact (h n hn).2 r hr

/-- C92: if one of the files of a directory is not what it should be, nothing is read: in the order of the names of the files their records
are faulty somewhere. (So a version at the beginning of any but the first file is faulty.) -/
theorem C92_directory_faulty_partial {run : List (Str × Str) → UInt64 → Str → Option Str} (hrun : PlainEngine run) (vars : List (Str × Str))
    (start : UInt64) (read : Str → Option FileRead) {names files : List Str} {recs : Str → List (List Str)}
    (hp : files.Perm (names.filter fun n => b!".ldif" <:+ n)) (ho : files.Pairwise ByteLe)
    (h : ∀ n ∈ files, ∃ t lines, read n = some (.whole t) ∧ HasLines lines t ∧ FileLines (recs n) lines ∧ PlainTemplate t)
    (hch : ∀ r ∈ files.flatMap recs, ∀ l ∈ r, hasPrefix l b!"control:" = false ∧ hasPrefix l b!"changetype:" = false)
    {r : List Str} (hr : r ∈ files.flatMap recs) (hf : Faulty r)
    (hv : r ∈ (files.flatMap recs).tail ∨ ∀ l, r.head? = some l → hasPrefix l b!"version:" = false) :
    parseLDIFDirectory L none vars start read names = none ∧ parseLDIFDirectory L (some run) vars start read names = none := by
  constructor
  · refine directory_faulty none vars start read hp ho (recs := recs) (fun n hn => ⟨?_, fun r hr => hch r (List.mem_flatMap.2 ⟨n, hn, hr⟩)⟩) hr hf hv
    obtain ⟨t, lines, g1, g2, g3, -⟩ := h n hn
    exact ⟨t, by rw [g1]; rfl, lines_split g2 g3⟩
  · refine directory_faulty (some run) vars start read hp ho (recs := recs) (fun n hn => ⟨?_, fun r hr => hch r (List.mem_flatMap.2 ⟨n, hn, hr⟩)⟩) hr hf hv
    obtain ⟨t, lines, g1, g2, g3, lines', k1, k2, k3, k4⟩ := h n hn
    refine ⟨templateText t, ?_, lines_template (lines_split g2 g3) k1 (hasLines_short k1 k2) k3⟩
    rw [g1]
    exact hrun _ _ _ (templateText_plain (by decide) (by decide) k4)

/-- C72 is false for files with a version: two files, each of which is an LDIF file of its own and is read, cannot be read as a directory. -/
theorem C72_version_fails : ∃ (read : Str → Option FileRead) (a b : Str) (ra rb : List LdifRecord), read b!"a.ldif" = some (.whole a) ∧ read b!"b.ldif" = some (.whole b) ∧
    LdifSays a ra ∧ LdifSays b rb ∧ ∀ (L : LdifLib) vars start, L.Lawful →
      (parseLDIFFile L none vars start (read b!"a.ldif")).isSome = true ∧ (parseLDIFFile L none vars start (read b!"b.ldif")).isSome = true ∧
      parseLDIFDirectory L none vars start read [b!"a.ldif", b!"b.ldif"] = none := by
  have key : ∀ (d : Str), 10 ∉ d → 13 ∉ d → d ≠ [] → d.head? ≠ some 32 →
      LdifSays (b!"version: 1\ndn: " ++ d ++ b!"\ndc: x\n") [⟨d, [(b!"dc", b!"x")]⟩] := by
    intro d h1 h2 h3 h4
    refine ⟨[b!"version: 1", b!"dn: " ++ d, b!"dc: x"], [[b!"version: 1", b!"dn: " ++ d, b!"dc: x"]], ?_, ?_, ?_⟩
    · have := hasLines_lf [b!"version: 1", b!"dn: " ++ d, b!"dc: x"] (by simp [h1, h2])
      simpa [lfText] using this
    · exact .last _ _ (by simp) (.line _ [b!"version: 1"] _ _ ⟨_, [], rfl, rfl, by decide⟩
        (.line _ [b!"dn: " ++ d] _ _ ⟨_, [], rfl, by simp, by simp⟩ (.line _ [b!"dc: x"] [] [] ⟨_, [], rfl, rfl, by decide⟩ .done)))
    · exact .versionLine _ _ _ 1 (.cons _ _ _ _ (.mk _ _ _ (.plain b!"dn" d 1 h4 (by simp)) (by simp)
        (.cons _ _ _ _ ⟨.plain b!"dc" b!"x" 1 (by decide) (by decide), by decide, by decide, by decide⟩ .nil)) .nil)
  refine ⟨fun n => if n = b!"a.ldif" then some (.whole b!"version: 1\ndn: dc=a\ndc: x\n") else some (.whole b!"version: 1\ndn: dc=b\ndc: x\n"), _, _, _, _, rfl, rfl,
    key b!"dc=a" (by decide) (by decide) (by decide) (by decide), key b!"dc=b" (by decide) (by decide) (by decide) (by decide), ?_⟩
  intro L vars start hL
  refine ⟨?_, ?_, ?_⟩
  · obtain ⟨recs, h, -⟩ := C90_read_partial hL (key b!"dc=a" (by decide) (by decide) (by decide) (by decide))
    show (parseLDIFFile L none vars start (some (.whole (b!"version: 1\ndn: " ++ b!"dc=a" ++ b!"\ndc: x\n")))).isSome = true
    simp only [parseLDIFFile, fileText, Bool.false_eq_true, if_false, Option.bind_some, h, Option.isSome_some]
  · obtain ⟨recs, h, -⟩ := C90_read_partial hL (key b!"dc=b" (by decide) (by decide) (by decide) (by decide))
    show (parseLDIFFile L none vars start (some (.whole (b!"version: 1\ndn: " ++ b!"dc=b" ++ b!"\ndc: x\n")))).isSome = true
    simp only [parseLDIFFile, fileText, Bool.false_eq_true, if_false, Option.bind_some, h, Option.isSome_some]
  · have hl := hasLines_lf [b!"version: 1", b!"dn: dc=a", b!"dc: x", [], [], b!"version: 1", b!"dn: dc=b", b!"dc: x", [], []] (by decide)
    have hf : FileLines [[b!"version: 1", b!"dn: dc=a", b!"dc: x"], [b!"version: 1", b!"dn: dc=b", b!"dc: x"]]
        [b!"version: 1", b!"dn: dc=a", b!"dc: x", [], [], b!"version: 1", b!"dn: dc=b", b!"dc: x", [], []] := by
      refine .record _ [b!"version: 1", b!"dn: dc=a", b!"dc: x"] _ _ (by simp) ?_ (.empty _ _
        (.record _ [b!"version: 1", b!"dn: dc=b", b!"dc: x"] _ _ (by simp) ?_ (.empty _ _ .done)))
      · exact .line _ [b!"version: 1"] _ _ ⟨_, [], rfl, rfl, by decide⟩ (.line _ [b!"dn: dc=a"] _ _ ⟨_, [], rfl, rfl, by decide⟩
          (.line _ [b!"dc: x"] [] [] ⟨_, [], rfl, rfl, by decide⟩ .done))
      · exact .line _ [b!"version: 1"] _ _ ⟨_, [], rfl, rfl, by decide⟩ (.line _ [b!"dn: dc=b"] _ _ ⟨_, [], rfl, rfl, by decide⟩
          (.line _ [b!"dc: x"] [] [] ⟨_, [], rfl, rfl, by decide⟩ .done))
    exact C92_faulty_refused hl hf (by decide) (r := [b!"version: 1", b!"dn: dc=b", b!"dc: x"]) (by simp) (.noName _ _ (by decide)) (.inl (by simp))

/-- C65 is false for a comment that is continued: the file says that the name is Bob, and without the template engine this is what is read.
With an engine that leaves the text as it is something else is read. -/
theorem C65_data_fails : ∃ text, LdifSays text [⟨b!"cn=b,dc=lg", [(b!"cn", b!"Bob")]⟩] ∧ contains text b!"{{" = false ∧
    ∀ (L : LdifLib) run vars start, L.Lawful → PlainEngine run →
      parseLDIFFile L none vars start (some (.whole text)) = some [some ⟨b!"cn=b,dc=lg", [⟨b!"cn", [b!"Bob"]⟩]⟩] ∧
      parseLDIFFile L (some run) vars start (some (.whole text)) = some [some ⟨b!"cn=b,dc=lg", [⟨b!"cn", [b!"Bob and Eve"]⟩]⟩] := by
  have hl := hasLines_lf [b!"dn: cn=b,dc=lg", b!"cn: Bob", b!"# was Alice", b!"  and Eve"] (by decide)
  have hf : FileLines [[b!"dn: cn=b,dc=lg", b!"cn: Bob"]] [b!"dn: cn=b,dc=lg", b!"cn: Bob", b!"# was Alice", b!"  and Eve"] :=
    .last _ _ (by simp) (.line _ [b!"dn: cn=b,dc=lg"] _ _ ⟨_, [], rfl, rfl, by decide⟩ (.line _ [b!"cn: Bob"] [] _ ⟨_, [], rfl, rfl, by decide⟩
      (.comment b!" was Alice" [b!" and Eve"] [] [] .done)))
  have hm : ∀ v : Str, v.head? ≠ some 32 → Matched RecordSays [⟨b!"cn=b,dc=lg", [(b!"cn", v)]⟩] [[b!"dn: cn=b,dc=lg", b!"cn: " ++ v]] := fun v hv =>
    .cons _ _ _ _ (.mk _ _ _ (.plain b!"dn" b!"cn=b,dc=lg" 1 (by decide) (by decide)) (by simp)
      (.cons _ _ _ _ ⟨.plain b!"cn" v 1 hv (by simp), by simp only; decide, by simp only; decide, by simp only; decide⟩ .nil)) .nil
  refine ⟨_, ⟨_, _, hl, hf, .plain _ _ (hm b!"Bob" (by decide))⟩, by decide, ?_⟩
  intro L run vars start hL hrun
  refine ⟨ldifUnmarshal_plain hL hl hf (hm b!"Bob" (by decide)), ?_⟩
  simp only [parseLDIFFile, fileText, Option.bind_some]
  rw [hrun _ _ _ (templateText_plain (by decide) (by decide) (by decide))]
  have hl' : HasLines [b!"dn: cn=b,dc=lg", b!"cn: Bob", b!"  and Eve"] b!"dn: cn=b,dc=lg\ncn: Bob\n  and Eve" :=
    .lf _ _ b!"cn: Bob\n  and Eve" (by decide) (by decide) (.lf _ _ b!"  and Eve" (by decide) (by decide) (.last _ (by decide) (by decide) (by decide)))
  have hf' : FileLines [[b!"dn: cn=b,dc=lg", b!"cn: Bob and Eve"]] [b!"dn: cn=b,dc=lg", b!"cn: Bob", b!"  and Eve"] :=
    .last _ _ (by simp) (.line _ [b!"dn: cn=b,dc=lg"] _ _ ⟨_, [], rfl, rfl, by decide⟩
      (.line _ [b!"cn: Bob", b!"  and Eve"] [] [] ⟨b!"cn: Bob", [b!" and Eve"], rfl, rfl, by decide⟩ .done))
  have := ldifUnmarshal_plain hL hl' hf' (hm b!"Bob and Eve" (by decide))
  have e : templateText (lfText [b!"dn: cn=b,dc=lg", b!"cn: Bob", b!"# was Alice", b!"  and Eve"]) =
      b!"dn: cn=b,dc=lg\ncn: Bob\n  and Eve" := by decide +kernel
  rw [e, Option.bind_some, this]
  rfl

/-- C92: a file that cannot be opened, that the template engine cannot render, or that breaks off when it is read without the template
engine, is an error. (Missing: a file that breaks off when it is read as a template, see `C92_broken_fails`.) -/
theorem C92_unreadable_partial (engine : Option (List (Str × Str) → UInt64 → Str → Option Str)) (vars : List (Str × Str)) (start : UInt64)
    (content : Option FileRead)
    (h : content = none ∨ (∃ text, content = some ⟨text, true⟩ ∧ engine = none) ∨
      ∃ text broken run, content = some ⟨text, broken⟩ ∧ engine = some run ∧ run vars start (templateText text) = none) :
    parseLDIFFile L engine vars start content = none := by
  rcases h with rfl | ⟨text, rfl, rfl⟩ | ⟨text, broken, run, rfl, rfl, h⟩
  · rfl
  · rfl
  · simp [parseLDIFFile, fileText, h]

/-- C92: if this is so for one of the LDIF files of a directory, nothing is read. -/
theorem C92_directory_unreadable_partial (engine : Option (List (Str × Str) → UInt64 → Str → Option Str)) (vars : List (Str × Str)) (start : UInt64)
    (read : Str → Option FileRead) (names : List Str) {n : Str} (hn : n ∈ names) (hs : b!".ldif" <:+ n)
    (h : read n = none ∨ (∃ text, read n = some ⟨text, true⟩ ∧ engine = none) ∨
      ∃ text broken run, read n = some ⟨text, broken⟩ ∧ engine = some run ∧ run vars start (templateText text) = none) :
    parseLDIFDirectory L engine vars start read names = none := by
  obtain ⟨files, hp, -, h3⟩ := C72_directory engine vars start read names
  have hn' : n ∈ files := hp.mem_iff.2 (List.mem_filter.2 ⟨hn, by simpa using hs⟩)
  have hnone : (read n).bind (fileText engine vars start) = none := by
    rcases h with h | ⟨text, h, rfl⟩ | ⟨text, broken, run, h, rfl, h'⟩
    · rw [h]; rfl
    · rw [h]; rfl
    · simp [h, fileText, h']
  rw [parseLDIFDirectory]
  cases hd : directoryText engine vars start read names with
  | none => rfl
  | some out =>
    rw [hd] at h3
    obtain ⟨text, h4, -⟩ := h3
    rw [h4 n hn'] at hnone
    cases hnone

-- C92: an engine that fails, and a directory with a file that cannot be read
example : parseLDIFFile goLdif (some fun _ _ _ => none) [] 0 (some (.whole b!"dn: {{ x")) = none ∧
    b!".ldif" <:+ b!"b.ldif" ∧ parseLDIFDirectory goLdif none [] 0 (fun n => if n = b!"b.ldif" then none else some (.whole b!"dn: dc=a\ndc: a\n"))
      [b!"a.ldif", b!"b.ldif"] = none ∧
    (parseLDIFDirectory goLdif none [] 0 (fun _ => some (.whole b!"dn: dc=a\ndc: a\n")) [b!"a.ldif", b!"b.ldif"]).isSome = true := by
  decide +kernel

-- C92: a file that breaks off is an error without the template engine, alone and in a directory
example : parseLDIFFile goLdif none [] 0 (some ⟨b!"dn: dc=a\ndc: a\n", true⟩) = none ∧
    parseLDIFDirectory goLdif none [] 0 (fun n => if n = b!"b.ldif" then some ⟨b!"dn: dc=b\ndc: b\n", true⟩ else some (.whole b!"dn: dc=a\ndc: a\n"))
      [b!"a.ldif", b!"b.ldif"] = none := by
  decide +kernel

/-- C92 is false for a file that breaks off when it is read as a template, which is how files are read unless this is turned off: of a file
with two records, that breaks off after the first one, this first one is loaded, and the same holds in a directory. -/
theorem C92_broken_fails : ∃ head tail : Str,
    LdifSays (head ++ tail) [⟨b!"dc=a", [(b!"dc", b!"a")]⟩, ⟨b!"dc=b", [(b!"dc", b!"b")]⟩] ∧
    ∀ (L : LdifLib) run vars start, L.Lawful → PlainEngine run →
      parseLDIFFile L (some run) vars start (some ⟨head, true⟩) = some [some ⟨b!"dc=a", [⟨b!"dc", [b!"a"]⟩]⟩] ∧
      parseLDIFDirectory L (some run) vars start (fun _ => some ⟨head, true⟩) [b!"a.ldif"] = some [some ⟨b!"dc=a", [⟨b!"dc", [b!"a"]⟩]⟩] := by
  have hm : ∀ v : Str, 10 ∉ v → 13 ∉ v → v.head? ≠ some 32 → v ≠ [] →
      RecordSays ⟨b!"dc=" ++ v, [(b!"dc", v)]⟩ [b!"dn: dc=" ++ v, b!"dc: " ++ v] := fun v _ _ h3 h4 =>
    .mk _ _ _ (.plain b!"dn" (b!"dc=" ++ v) 1 (by simp) (by simp)) (by simp)
      (.cons _ _ _ _ ⟨.plain b!"dc" v 1 h3 (by simp [h4]), by simp only; decide, by simp only; decide, by simp only; decide⟩ .nil)
  have ha : RecordSays ⟨b!"dc=a", [(b!"dc", b!"a")]⟩ [b!"dn: dc=a", b!"dc: a"] := hm b!"a" (by decide) (by decide) (by decide) (by decide)
  have hb : RecordSays ⟨b!"dc=b", [(b!"dc", b!"b")]⟩ [b!"dn: dc=b", b!"dc: b"] := hm b!"b" (by decide) (by decide) (by decide) (by decide)
  have hra : RecordLines [b!"dn: dc=a", b!"dc: a"] [b!"dn: dc=a", b!"dc: a"] :=
    .line _ [b!"dn: dc=a"] _ _ ⟨_, [], rfl, rfl, by decide⟩ (.line _ [b!"dc: a"] [] [] ⟨_, [], rfl, rfl, by decide⟩ .done)
  have hrb : RecordLines [b!"dn: dc=b", b!"dc: b"] [b!"dn: dc=b", b!"dc: b"] :=
    .line _ [b!"dn: dc=b"] _ _ ⟨_, [], rfl, rfl, by decide⟩ (.line _ [b!"dc: b"] [] [] ⟨_, [], rfl, rfl, by decide⟩ .done)
  refine ⟨b!"dn: dc=a\ndc: a\n\n", b!"dn: dc=b\ndc: b\n", ?_, ?_⟩
  · exact ⟨_, _, hasLines_lf [b!"dn: dc=a", b!"dc: a", [], b!"dn: dc=b", b!"dc: b"] (by decide), .record _ _ _ _ (by simp) hra (.last _ _ (by simp) hrb),
      .plain _ _ (.cons _ _ _ _ ha (.cons _ _ _ _ hb .nil))⟩
  · intro L run vars start hL hrun
    have e : templateText b!"dn: dc=a\ndc: a\n\n" = b!"dn: dc=a\ndc: a\n" := by decide +kernel
    have hr : run vars start (templateText b!"dn: dc=a\ndc: a\n\n") = some b!"dn: dc=a\ndc: a\n" := by
      rw [e]; exact hrun _ _ _ (by decide)
    constructor
    · simp only [parseLDIFFile, fileText, Option.bind_some, hr]
      exact ldifUnmarshal_plain hL (hasLines_lf [b!"dn: dc=a", b!"dc: a"] (by decide)) (.last _ _ (by simp) hra) (.cons _ _ _ _ ha .nil)
    · have hd : directoryText (some run) vars start (fun _ => some ⟨b!"dn: dc=a\ndc: a\n\n", true⟩) [b!"a.ldif"] =
          some b!"dn: dc=a\ndc: a\n\n\n" := by
        have : ldifNames [b!"a.ldif"] = [b!"a.ldif"] := by decide +kernel
        simp only [directoryText, this, catFiles, fileText, Option.bind_some, hr, Option.bind_eq_bind, List.append_nil]
        rfl
      rw [parseLDIFDirectory, hd]
      exact ldifUnmarshal_plain hL (hasLines_lf [b!"dn: dc=a", b!"dc: a", [], []] (by decide))
        (.record _ _ _ _ (by simp) hra (.empty _ _ .done)) (.cons _ _ _ _ ha .nil)

/-! ## C90: what the server serves -/

/-- C90: a server that is given an LDIF file without template actions can load it, and can load it exactly if no two records have names that
differ in nothing but case; its entries then are those of the records, in their order. (Missing: as for `C90_read_partial`.) -/
theorem C90_loaded_partial {V : Env} {cfg : LdifCfg} (hL : L.Lawful) (hb : V.C.eqFold cfg.optBase cfg.base = true) (vars : List (Str × Str))
    (start : UInt64) {text : Str} {rs : List LdifRecord} (h : LdifSays text rs) :
    ((openLdif V cfg cfg.base (parseLDIFFile L none vars start (some (.whole text)))).isSome = true ↔ (rs.map fun r => V.C.lower r.dn).Nodup) ∧
    ∀ m, openLdif V cfg cfg.base (parseLDIFFile L none vars start (some (.whole text))) = some m →
      Matched (fun (r : LdifRecord) (e : LEntry) => e.dn = V.C.lower r.dn ∧
        ∀ t, V.C.lower t ≠ b!"userpassword" → typeValues t e.attrs = (r.values.filter fun tv => tv.1 = t).map (·.2)) rs m.tree := by
  obtain ⟨recs, h1, h2⟩ := C90_read_partial hL h
  have e : openLdif V cfg cfg.base (parseLDIFFile L none vars start (some (.whole text))) = treeFromLDIF V.C cfg.idx recs := by
    simp only [openLdif, hb, Bool.not_true, Bool.false_eq_true, if_false, parseLDIFFile, fileText, Option.bind_some, h1]
  obtain ⟨h3, h4⟩ := treeFromLDIF_spec V.C cfg.idx recs
  rw [e]
  refine ⟨?_, fun m hm => ?_⟩
  · rw [Option.isSome_iff_exists, h3]
    have : ∀ (rs : List LdifRecord) (es : List Entry), Matched EntrySays rs es → es.map (fun r => V.C.lower r.dn) = rs.map fun r => V.C.lower r.dn := by
      intro rs es h
      induction h with
      | nil => rfl
      | cons r e rs es hr _ ih => rw [List.map_cons, List.map_cons, ih, hr.1]
    rw [this _ _ h2]
  · rw [(h4 m hm).1]
    clear h1 h3 h4 hm e h
    generalize 0 = n
    induction recs generalizing n rs with
    | nil => cases h2; exact .nil
    | cons x recs ih =>
      cases x with
      | none => exact ih h2 n
      | some r =>
        cases h2 with
        | cons a b as bs hr hrest =>
          refine .cons _ _ _ _ ⟨congrArg V.C.lower hr.1, fun t ht => ?_⟩ (ih hrest (n + 1))
          rw [← hr.2.1 t]
          show typeValues t (r.attrs.filter _) = typeValues t r.attrs
          generalize r.attrs = as
          induction as with
          | nil => rfl
          | cons a as ih =>
            rw [List.filter_cons]
            split
            · simp only [typeValues, List.flatMap_cons] at ih ⊢
              rw [ih]
            · rename_i hx
              have hx : V.C.lower a.name = b!"userpassword" := by simpa using hx
              have : a.name ≠ t := fun e => ht (e ▸ hx)
              rw [ih]
              simp [typeValues, this]

/-! ## Examples -/

/-- The lines of an LDIF file with a version, comments (one of them continued), a folded name and a value in base64. -/
def exLdifLines : List Str :=
  [b!"version: 1", b!"# users", b!"dn: cn=bob,", b!" dc=lg", b!"cn:: Qm9i", b!"# continued", b!"  comment", b!"cn:  Robert", [], [], b!"# the base",
    [], b!"dn:dc=lg", b!"dc: lg"]

/-- The same, with all sorts of line ends. -/
def exLdif : Str :=
  b!"version: 1\r\n# users\r\ndn: cn=bob,\r\n dc=lg\ncn:: Qm9i\n# continued\n  comment\ncn:  Robert\n\r\n\n# the base\n\ndn:dc=lg\ndc: lg"

/-- Its records. -/
def exRecords : List LdifRecord := [⟨b!"cn=bob,dc=lg", [(b!"cn", b!"Bob"), (b!"cn", b!"Robert")]⟩, ⟨b!"dc=lg", [(b!"dc", b!"lg")]⟩]

theorem exLdif_lines : HasLines exLdifLines exLdif := by
  unfold exLdifLines exLdif
  repeat' first
    | exact .last _ (by decide) (by decide) (by decide)
    | refine .lf _ _ _ (by decide) (by decide) ?_
    | refine .crlf _ _ _ (by decide) (by decide) ?_

theorem exLdif_says : LdifSays exLdif exRecords := by
  refine ⟨exLdifLines, [[b!"version: 1", b!"dn: cn=bob,dc=lg", b!"cn:: Qm9i", b!"cn:  Robert"], [b!"dn:dc=lg", b!"dc: lg"]], exLdif_lines, ?_, ?_⟩
  · refine .record _ [b!"version: 1", b!"# users", b!"dn: cn=bob,", b!" dc=lg", b!"cn:: Qm9i", b!"# continued", b!"  comment", b!"cn:  Robert"] _
      [[], b!"# the base", [], b!"dn:dc=lg", b!"dc: lg"] (by simp) ?_ (.empty _ _ (.comments [b!"# the base"] _ _ (.comment b!" the base" [] [] [] .done)
        (.last _ _ (by simp) ?_)))
    · exact .line _ [b!"version: 1"] _ _ ⟨_, [], rfl, rfl, by decide⟩ (.comment b!" users" [] _ _
        (.line _ [b!"dn: cn=bob,", b!" dc=lg"] _ _ ⟨b!"dn: cn=bob,", [b!"dc=lg"], rfl, rfl, by decide⟩
        (.line _ [b!"cn:: Qm9i"] _ _ ⟨_, [], rfl, rfl, by decide⟩ (.comment b!" continued" [b!" comment"] _ _
        (.line _ [b!"cn:  Robert"] [] [] ⟨_, [], rfl, rfl, by decide⟩ .done)))))
    · exact .line _ [b!"dn:dc=lg"] _ _ ⟨_, [], rfl, rfl, by decide⟩ (.line _ [b!"dc: lg"] [] [] ⟨_, [], rfl, rfl, by decide⟩ .done)
  · exact .versionLine _ _ _ 1 (.cons _ _ _ _ (.mk _ _ _ (.plain b!"dn" b!"cn=bob,dc=lg" 1 (by decide) (by decide)) (by simp)
        (.cons _ _ _ _ ⟨.base64 b!"cn" b!"Bob" 1, by decide, by decide, by decide⟩
        (.cons _ _ _ _ ⟨.plain b!"cn" b!"Robert" 2 (by decide) (by decide), by decide, by decide, by decide⟩ .nil)))
      (.cons _ _ _ _ (.mk _ _ _ (.plain b!"dn" b!"dc=lg" 0 (by decide) (by decide)) (by simp)
        (.cons _ _ _ _ ⟨.plain b!"dc" b!"lg" 1 (by decide) (by decide), by decide, by decide, by decide⟩ .nil)) .nil))

-- the example, read
example : ldifUnmarshal goLdif exLdif = some [some ⟨b!"cn=bob,dc=lg", [⟨b!"cn", [b!"Bob", b!"Robert"]⟩]⟩, some ⟨b!"dc=lg", [⟨b!"dc", [b!"lg"]⟩]⟩] := by
  decide +kernel

-- C91: an entry with a value that is folded and one in base64
example : Writable ⟨b!"dc=lg", [⟨b!"dc", [b!"lg"]⟩, ⟨b!"description", [List.replicate 100 120, b!"a\nb"]⟩]⟩ ∧
    ldifWrite goLdif [⟨b!"dc=lg", [⟨b!"dc", [b!"lg"]⟩, ⟨b!"description", [List.replicate 100 120, b!"a\nb"]⟩]⟩] =
      b!"dn: dc=lg\ndc: lg\ndescription: " ++ List.replicate 63 120 ++ b!"\n " ++ List.replicate 37 120 ++ b!"\ndescription:: YQpi\n\n" := by
  decide +kernel

-- C92: the hypotheses are met by a file whose second record has a value that is not in base64
example : HasLines [b!"dn: dc=lg", b!"dc: lg", [], b!"dn: cn=a", b!"cn:: Qm9!"] b!"dn: dc=lg\ndc: lg\n\ndn: cn=a\ncn:: Qm9!\n" ∧
    FileLines [[b!"dn: dc=lg", b!"dc: lg"], [b!"dn: cn=a", b!"cn:: Qm9!"]] [b!"dn: dc=lg", b!"dc: lg", [], b!"dn: cn=a", b!"cn:: Qm9!"] ∧
    Faulty [b!"dn: cn=a", b!"cn:: Qm9!"] ∧ ldifUnmarshal goLdif b!"dn: dc=lg\ndc: lg\n\ndn: cn=a\ncn:: Qm9!\n" = none :=
  ⟨hasLines_lf _ (by decide),
   .record _ [b!"dn: dc=lg", b!"dc: lg"] _ _ (by simp) (.line _ [b!"dn: dc=lg"] _ _ ⟨_, [], rfl, rfl, by decide⟩
      (.line _ [b!"dc: lg"] [] [] ⟨_, [], rfl, rfl, by decide⟩ .done))
    (.last _ _ (by simp) (.line _ [b!"dn: cn=a"] _ _ ⟨_, [], rfl, rfl, by decide⟩ (.line _ [b!"cn:: Qm9!"] [] [] ⟨_, [], rfl, rfl, by decide⟩ .done))),
   .notBase64 b!"cn" b!"Qm9!" _ 1 (by simp) (by decide) (by decide) (by decide) (by decide) (by
      rintro ⟨body, k, e, h1, h2, -⟩
      have : (33 : UInt8) ∈ body ++ List.replicate k 61 := e ▸ (by decide)
      rcases List.mem_append.1 this with h | h
      · exact absurd (h1 33 h) (by decide)
      · exact absurd (List.mem_replicate.1 h).2 (by decide)), by decide +kernel⟩

-- C65: the hypotheses are met by a file with comments between the values, one of them folded, and by the engine that changes nothing
example : HasLines [b!"dn: cn=bob", b!"cn: Bob", b!" by", b!"# comment", b!"sn: x", [], b!"# end"] b!"dn: cn=bob\ncn: Bob\n by\n# comment\nsn: x\n\n# end\n" ∧
    NoStray false [b!"dn: cn=bob", b!"cn: Bob", b!" by", b!"# comment", b!"sn: x", [], b!"# end"] ∧
    (∀ l ∈ rawLines b!"dn: cn=bob\ncn: Bob\n by\n# comment\nsn: x\n\n# end\n", l.length < 65536) ∧
    contains b!"dn: cn=bob\ncn: Bob\n by\n# comment\nsn: x\n\n# end\n" b!"{{" = false ∧ PlainEngine (fun _ _ text => some text) :=
  ⟨hasLines_lf _ (by decide), by decide, by decide, by decide, fun _ _ _ _ => rfl⟩

-- C72: the hypotheses are met by two files, given in the wrong order, with a file that does not count
example : ∀ n ∈ [b!"b.ldif", b!"README", b!"a.ldif"], b!".ldif" <:+ n → ∃ t,
    ((fun n => if n = b!"a.ldif" then some (.whole b!"dn: dc=a\ndc: a\n") else if n = b!"b.ldif" then some (.whole b!"dn: dc=b\ndc: b") else none) n).bind
      (fileText none [] 0) = some t ∧
    LdifBody t [⟨if n = b!"a.ldif" then b!"dc=a" else b!"dc=b", [(b!"dc", if n = b!"a.ldif" then b!"a" else b!"b")]⟩] := by
  intro n hn hs
  simp only [List.mem_cons, List.not_mem_nil, or_false] at hn
  rcases hn with rfl | rfl | rfl
  · refine ⟨_, rfl, [b!"dn: dc=b", b!"dc: b"], [[b!"dn: dc=b", b!"dc: b"]], .lf _ _ b!"dc: b" (by decide) (by decide) (.last _ (by decide) (by decide) (by decide)), ?_, ?_⟩
    · exact .last _ _ (by simp) (.line _ [b!"dn: dc=b"] _ _ ⟨_, [], rfl, rfl, by decide⟩ (.line _ [b!"dc: b"] [] [] ⟨_, [], rfl, rfl, by decide⟩ .done))
    · exact .cons _ _ _ _ (.mk _ _ _ (.plain b!"dn" b!"dc=b" 1 (by decide) (by decide)) (by simp)
        (.cons _ _ _ _ ⟨.plain b!"dc" b!"b" 1 (by decide) (by decide), by decide, by decide, by decide⟩ .nil)) .nil
  · exact absurd hs (by decide)
  · refine ⟨_, rfl, [b!"dn: dc=a", b!"dc: a"], [[b!"dn: dc=a", b!"dc: a"]], hasLines_lf _ (by decide), ?_, ?_⟩
    · exact .last _ _ (by simp) (.line _ [b!"dn: dc=a"] _ _ ⟨_, [], rfl, rfl, by decide⟩ (.line _ [b!"dc: a"] [] [] ⟨_, [], rfl, rfl, by decide⟩ .done))
    · exact .cons _ _ _ _ (.mk _ _ _ (.plain b!"dn" b!"dc=a" 1 (by decide) (by decide)) (by simp)
        (.cons _ _ _ _ ⟨.plain b!"dc" b!"a" 1 (by decide) (by decide), by decide, by decide, by decide⟩ .nil)) .nil

end
end Idm
