import Verif.Spec.LdifFormat
import Verif.Props.Template
/-!
# Lemmas about LDIF text
-/
namespace Idm

/-! ## Base64 -/

theorem b64digit_char : ∀ n < 64, b64digit (b64char n) = some n ∧ b64char n ≠ 61 ∧ b64char n ≠ 10 ∧ b64char n ≠ 13 ∧ b64char n ≠ 32 := by
  decide +kernel

theorem b64enc_chars : ∀ (s : Str), ∀ c ∈ b64enc s, c ≠ 10 ∧ c ≠ 13 ∧ c ≠ 32 := by
  have key : ∀ n < 64, b64char n ≠ 10 ∧ b64char n ≠ 13 ∧ b64char n ≠ 32 := fun n h => (b64digit_char n h).2.2
  intro s
  induction s using b64enc.induct with
  | case1 => simp [b64enc]
  | case2 a =>
    have := a.toNat_lt
    intro c hc
    simp only [b64enc, List.mem_cons, List.not_mem_nil, or_false] at hc
    rcases hc with rfl | rfl | rfl | rfl
    · exact key _ (by omega)
    · exact key _ (by omega)
    · decide
    · decide
  | case3 a b =>
    have := a.toNat_lt
    have := b.toNat_lt
    intro c hc
    simp only [b64enc, List.mem_cons, List.not_mem_nil, or_false] at hc
    rcases hc with rfl | rfl | rfl | rfl
    · exact key _ (by omega)
    · exact key _ (by omega)
    · exact key _ (by omega)
    · decide
  | case4 a b c r ih =>
    have := a.toNat_lt
    have := b.toNat_lt
    have := c.toNat_lt
    intro x hx
    simp only [b64enc, List.mem_cons] at hx
    rcases hx with rfl | rfl | rfl | rfl | hx
    · exact key _ (by omega)
    · exact key _ (by omega)
    · exact key _ (by omega)
    · exact key _ (by omega)
    · exact ih x hx

theorem b64groups_enc (s : Str) : b64groups (b64enc s) = some s := by
  have ofNat : ∀ (a : UInt8) (n : Nat), n = a.toNat → UInt8.ofNat n = a := by rintro a n rfl; simp
  induction s using b64enc.induct with
  | case1 => rfl
  | case2 a =>
    have := a.toNat_lt
    have d1 := b64digit_char (a.toNat / 4) (by omega)
    have d2 := b64digit_char (a.toNat % 4 * 16) (by omega)
    simp only [b64enc, b64groups, d1.1, d2.1, and_self, if_true]
    rw [ofNat a _ (by omega)]
  | case3 a b =>
    have := a.toNat_lt
    have := b.toNat_lt
    have d1 := b64digit_char (a.toNat / 4) (by omega)
    have d2 := b64digit_char (a.toNat % 4 * 16 + b.toNat / 16) (by omega)
    have d3 := b64digit_char (b.toNat % 16 * 4) (by omega)
    simp only [b64enc, b64groups, d1.1, d2.1, d3.1, if_neg d3.2.1, if_true]
    congr 1
    rw [ofNat a _ (by omega), ofNat b _ (by omega)]
  | case4 a b c r ih =>
    have := a.toNat_lt
    have := b.toNat_lt
    have := c.toNat_lt
    have d1 := b64digit_char (a.toNat / 4) (by omega)
    have d2 := b64digit_char (a.toNat % 4 * 16 + b.toNat / 16) (by omega)
    have d3 := b64digit_char (b.toNat % 16 * 4 + c.toNat / 64) (by omega)
    have d4 := b64digit_char (c.toNat % 64) (by omega)
    simp only [b64enc, b64groups, d1.1, d2.1, d3.1, d4.1, if_neg d3.2.1, if_neg d4.2.1, ih, Option.map_some]
    congr 1
    rw [ofNat a _ (by omega), ofNat b _ (by omega), ofNat c _ (by omega)]

theorem b64dec_enc (s : Str) : b64dec (b64enc s) = some s := by
  unfold b64dec
  rw [List.filter_eq_self.2, b64groups_enc]
  intro c hc
  have := b64enc_chars s c hc
  simp [this.1, this.2.1]

theorem byteBits_vals (a : UInt8) : ∃ b7 b6 b5 b4 b3 b2 b1 b0 : Bool, byteBits a = [b7, b6, b5, b4, b3, b2, b1, b0] ∧
    a.toNat = 128 * b7.toNat + 64 * b6.toNat + 32 * b5.toNat + 16 * b4.toNat + 8 * b3.toNat + 4 * b2.toNat + 2 * b1.toNat + b0.toNat := by
  have key : ∀ n < 256, n = 128 * (n.testBit 7).toNat + 64 * (n.testBit 6).toNat + 32 * (n.testBit 5).toNat + 16 * (n.testBit 4).toNat +
      8 * (n.testBit 3).toNat + 4 * (n.testBit 2).toNat + 2 * (n.testBit 1).toNat + (n.testBit 0).toNat := by decide +kernel
  exact ⟨_, _, _, _, _, _, _, _, rfl, key _ a.toNat_lt⟩

theorem alphabet_char : ∀ n < 64, b64alphabet[n]! = b64char n := by decide +kernel

theorem bitChars_six (b1 b2 b3 b4 b5 b6 : Bool) (r : List Bool) :
    bitChars (b1 :: b2 :: b3 :: b4 :: b5 :: b6 :: r) =
      b64char (32 * b1.toNat + 16 * b2.toNat + 8 * b3.toNat + 4 * b4.toNat + 2 * b5.toNat + b6.toNat) :: bitChars r := by
  rw [bitChars]
  congr 1
  have e : bitsNat [b1, b2, b3, b4, b5, b6] = 32 * b1.toNat + 16 * b2.toNat + 8 * b3.toNat + 4 * b4.toNat + 2 * b5.toNat + b6.toNat := by
    simp only [bitsNat, List.foldl_cons, List.foldl_nil]
    omega
  rw [e]
  have := b1.toNat_le; have := b2.toNat_le; have := b3.toNat_le; have := b4.toNat_le; have := b5.toNat_le; have := b6.toNat_le
  exact alphabet_char _ (by omega)

theorem base64_eq (s : Str) : base64 s = b64enc s := by
  have key : ∀ s : Str, (bitChars (s.flatMap byteBits) ++ List.replicate ((4 - (bitChars (s.flatMap byteBits)).length % 4) % 4) 61) = b64enc s := by
    intro s
    induction s using b64enc.induct with
    | case1 => rfl
    | case2 a =>
      obtain ⟨a7, a6, a5, a4, a3, a2, a1, a0, ea, na⟩ := byteBits_vals a
      simp only [List.flatMap_cons, List.flatMap_nil, ea, List.append_nil, bitChars_six, b64enc]
      have h : bitChars [a1, a0] = [b64char (a.toNat % 4 * 16)] := by
        simp only [bitChars, List.length_cons, List.length_nil]
        have e : bitsNat ([a1, a0] ++ List.replicate (6 - (0 + 1 + 1)) false) = 32 * a1.toNat + 16 * a0.toNat := by
          simp only [bitsNat, List.replicate, List.cons_append, List.nil_append, List.foldl_cons, List.foldl_nil, Bool.toNat_false]
          omega
        rw [e]
        have := a1.toNat_le; have := a0.toNat_le
        rw [alphabet_char _ (by omega)]
        congr 2
        omega
      rw [h]
      have e1 : 32 * a7.toNat + 16 * a6.toNat + 8 * a5.toNat + 4 * a4.toNat + 2 * a3.toNat + a2.toNat = a.toNat / 4 := by
        have := a1.toNat_le; have := a0.toNat_le
        omega
      rw [e1]
      rfl
    | case3 a b =>
      obtain ⟨a7, a6, a5, a4, a3, a2, a1, a0, ea, na⟩ := byteBits_vals a
      obtain ⟨b7, b6, b5, b4, b3, b2, b1, b0, eb, nb⟩ := byteBits_vals b
      have := a1.toNat_le; have := a0.toNat_le; have := b3.toNat_le; have := b2.toNat_le; have := b1.toNat_le; have := b0.toNat_le
      have := a2.toNat_le; have := b4.toNat_le; have := b5.toNat_le; have := b6.toNat_le; have := b7.toNat_le
      simp only [List.flatMap_cons, List.flatMap_nil, ea, eb, List.append_nil, List.cons_append, List.nil_append, bitChars_six, b64enc]
      have h : bitChars [b3, b2, b1, b0] = [b64char (b.toNat % 16 * 4)] := by
        simp only [bitChars, List.length_cons, List.length_nil]
        have e : bitsNat ([b3, b2, b1, b0] ++ List.replicate (6 - (0 + 1 + 1 + 1 + 1)) false) =
            32 * b3.toNat + 16 * b2.toNat + 8 * b1.toNat + 4 * b0.toNat := by
          simp only [bitsNat, List.replicate, List.cons_append, List.nil_append, List.foldl_cons, List.foldl_nil, Bool.toNat_false]
          omega
        rw [e, alphabet_char _ (by omega)]
        congr 2
        omega
      rw [h]
      have e1 : 32 * a7.toNat + 16 * a6.toNat + 8 * a5.toNat + 4 * a4.toNat + 2 * a3.toNat + a2.toNat = a.toNat / 4 := by omega
      have e2 : 32 * a1.toNat + 16 * a0.toNat + 8 * b7.toNat + 4 * b6.toNat + 2 * b5.toNat + b4.toNat = a.toNat % 4 * 16 + b.toNat / 16 := by
        omega
      rw [e1, e2]
      rfl
    | case4 a b c r ih =>
      obtain ⟨a7, a6, a5, a4, a3, a2, a1, a0, ea, na⟩ := byteBits_vals a
      obtain ⟨b7, b6, b5, b4, b3, b2, b1, b0, eb, nb⟩ := byteBits_vals b
      obtain ⟨c7, c6, c5, c4, c3, c2, c1, c0, ec, nc⟩ := byteBits_vals c
      have := a1.toNat_le; have := a0.toNat_le; have := b3.toNat_le; have := b2.toNat_le; have := b1.toNat_le; have := b0.toNat_le
      have := a2.toNat_le; have := b4.toNat_le; have := b5.toNat_le; have := b6.toNat_le; have := b7.toNat_le
      have := c4.toNat_le; have := c5.toNat_le; have := c6.toNat_le; have := c7.toNat_le
      have := c3.toNat_le; have := c2.toNat_le; have := c1.toNat_le; have := c0.toNat_le
      simp only [List.flatMap_cons, ea, eb, ec, List.cons_append, List.nil_append, bitChars_six, b64enc]
      have e1 : 32 * a7.toNat + 16 * a6.toNat + 8 * a5.toNat + 4 * a4.toNat + 2 * a3.toNat + a2.toNat = a.toNat / 4 := by omega
      have e2 : 32 * a1.toNat + 16 * a0.toNat + 8 * b7.toNat + 4 * b6.toNat + 2 * b5.toNat + b4.toNat = a.toNat % 4 * 16 + b.toNat / 16 := by
        omega
      have e3 : 32 * b3.toNat + 16 * b2.toNat + 8 * b1.toNat + 4 * b0.toNat + 2 * c7.toNat + c6.toNat = b.toNat % 16 * 4 + c.toNat / 64 := by
        omega
      have e4 : 32 * c5.toNat + 16 * c4.toNat + 8 * c3.toNat + 4 * c2.toNat + 2 * c1.toNat + c0.toNat = c.toNat % 64 := by omega
      rw [e1, e2, e3, e4, ← ih]
      simp only [List.length_cons]
      have : ((bitChars (List.flatMap byteBits r)).length + 1 + 1 + 1 + 1) % 4 = (bitChars (List.flatMap byteBits r)).length % 4 := by omega
      rw [this]
  exact key s

/-! ## Lines -/

theorem splitOn_append_sep {c : UInt8} {l : Str} (h : c ∉ l) (t : Str) : splitOn c (l ++ c :: t) = l :: splitOn c t := by
  rw [splitOn_append, splitOn_single h]
  rfl

theorem trimEOL_self {l : Str} (h1 : 10 ∉ l) (h2 : 13 ∉ l) : trimEOL l = l := by
  unfold trimEOL
  have : l.reverse.dropWhile (fun c => c == 13 || c == 10) = l.reverse := by
    cases hr : l.reverse with
    | nil => rfl
    | cons a r =>
      have ha : a ∈ l := by rw [← List.mem_reverse, hr]; simp
      have e1 : a ≠ 10 := fun e => h1 (e ▸ ha)
      have e2 : a ≠ 13 := fun e => h2 (e ▸ ha)
      rw [List.dropWhile_cons_of_neg (by simp [e1, e2])]
  rw [this, List.reverse_reverse]

theorem trimEOL_cr (l : Str) : trimEOL (l ++ [13]) = trimEOL l := by
  unfold trimEOL
  rw [List.reverse_append]
  simp

theorem hasLines_split {lines : List Str} {text : Str} (h : HasLines lines text) :
    ∃ tail, (tail = [] ∨ tail = [[]]) ∧ (splitOn 10 text).map trimEOL = lines ++ tail := by
  induction h with
  | none => exact ⟨[[]], .inr rfl, rfl⟩
  | last l _ h1 h2 => exact ⟨[], .inl rfl, by rw [splitOn_single h1]; simp [trimEOL_self h1 h2]⟩
  | lf l ls text h1 h2 _ ih =>
    obtain ⟨tail, ht, e⟩ := ih
    refine ⟨tail, ht, ?_⟩
    rw [splitOn_append_sep h1, List.map_cons, e, trimEOL_self h1 h2]
    rfl
  | crlf l ls text h1 h2 _ ih =>
    obtain ⟨tail, ht, e⟩ := ih
    refine ⟨tail, ht, ?_⟩
    rw [show l ++ 13 :: 10 :: text = (l ++ [13]) ++ 10 :: text by simp, splitOn_append_sep (by simp [h1]), List.map_cons, e,
      trimEOL_cr, trimEOL_self h1 h2]
    rfl

/-! ## Records -/

/-- The lines of the record so far. -/
def flushLine (acc : List Str) (line : Str) : List Str := if line = [] then acc else acc ++ [line]

theorem ldifRecords_pieces (acc : List Str) (line : Str) (rest : List Str) : ∀ (pieces : List Str) (c : Bool),
    ldifRecords c acc line (pieces.map (32 :: ·) ++ rest) = ldifRecords c acc (if c then line else line ++ pieces.flatten) rest := by
  intro pieces
  induction pieces generalizing line with
  | nil => intro c; cases c <;> simp
  | cons p ps ih =>
    intro c
    rw [List.map_cons, List.cons_append, ldifRecords, if_neg (by decide), if_pos rfl, ih]
    cases c <;> simp

theorem ldifRecords_lines {ls lines : List Str} (h : RecordLines ls lines) (rest : List Str) :
    ∀ (c : Bool) (acc : List Str) (line : Str), (line = [] → acc = []) → ∃ c' acc' line',
      ldifRecords c acc line (lines ++ rest) = ldifRecords c' acc' line' rest ∧ flushLine acc' line' = flushLine acc line ++ ls ∧
        (line' = [] → acc' = []) := by
  induction h with
  | done => intro c acc line hl; exact ⟨c, acc, line, rfl, by simp, hl⟩
  | line l lines ls rest' hf _ ih =>
    intro c acc line hl
    obtain ⟨first, pieces, rfl, rfl, h1, h2, h3⟩ := hf
    cases first with
    | nil => exact absurd rfl h1
    | cons a first =>
      have ha : a ≠ 35 := fun e => h3 (by simp [e])
      have hb : a ≠ 32 := fun e => h2 (by simp [e])
      rw [List.append_assoc, List.cons_append, ldifRecords, if_neg ha, if_neg hb, ldifRecords_pieces]
      obtain ⟨c', acc', line', g1, g2, g3⟩ := ih false (if line = [] then acc else acc ++ [line])
        (if false = true then (a :: first) else (a :: first) ++ pieces.flatten) (by simp)
      refine ⟨c', acc', line', g1, ?_, g3⟩
      rw [g2]
      simp [flushLine]
  | comment cm pieces ls rest' _ ih =>
    intro c acc line hl
    rw [List.append_assoc, List.cons_append, ldifRecords, if_pos rfl, ldifRecords_pieces, if_pos rfl]
    exact ih true acc line hl

theorem ldifRecords_file {recs : List (List Str)} {lines : List Str} (h : FileLines recs lines) (tail : List Str)
    (ht : tail = [] ∨ tail = [[]]) : ∀ c, ldifRecords c [] [] (lines ++ tail) = recs := by
  have htail : ∀ c, ldifRecords c [] [] tail = [] := by
    intro c
    rcases ht with rfl | rfl <;> simp [ldifRecords]
  have hdone : ∀ (ls lines : List Str), RecordLines ls lines → ls ≠ [] → ∀ c, ldifRecords c [] [] (lines ++ tail) = [ls] := by
    intro ls lines hr hne c
    obtain ⟨c', acc', line', g1, g2, g3⟩ := ldifRecords_lines hr tail c [] [] (fun _ => rfl)
    simp only [flushLine, if_true, List.nil_append] at g2
    have hl : line' ≠ [] := by
      intro e
      rw [if_pos e] at g2
      exact hne (by rw [← g2, g3 e])
    rw [if_neg hl] at g2
    rw [g1]
    rcases ht with rfl | rfl <;> simp [ldifRecords, hl, g2]
  induction h with
  | done => simpa using htail
  | empty rs rest _ ih => intro c; rw [List.cons_append, ldifRecords, if_pos ⟨rfl, rfl⟩]; exact ih c
  | comments lines rs rest hr _ ih =>
    intro c
    obtain ⟨c', acc', line', g1, g2, g3⟩ := ldifRecords_lines hr ([] :: (rest ++ tail)) c [] [] (fun _ => rfl)
    have hl : line' = [] ∧ acc' = [] := by
      simp only [flushLine, if_true, List.append_nil] at g2
      by_cases e : line' = []
      · exact ⟨e, g3 e⟩
      · rw [if_neg e] at g2; simp at g2
    rw [List.append_assoc, List.cons_append, g1, hl.1, hl.2, ldifRecords, if_pos ⟨rfl, rfl⟩]
    exact ih c'
  | record ls lines rs rest hne hr _ ih =>
    intro c
    obtain ⟨c', acc', line', g1, g2, g3⟩ := ldifRecords_lines hr ([] :: (rest ++ tail)) c [] [] (fun _ => rfl)
    simp only [flushLine, if_true, List.nil_append] at g2
    have hl : line' ≠ [] := by
      intro e
      rw [if_pos e] at g2
      exact hne (by rw [← g2, g3 e])
    rw [if_neg hl] at g2
    rw [List.append_assoc, List.cons_append, g1, ldifRecords, if_neg (fun e => hl e.1), g2, ih]
  | last ls lines hne hr => exact hdone ls lines hr hne
  | lastComments lines hr =>
    intro c
    obtain ⟨c', acc', line', g1, g2, g3⟩ := ldifRecords_lines hr tail c [] [] (fun _ => rfl)
    have hl : line' = [] ∧ acc' = [] := by
      simp only [flushLine, if_true, List.append_nil] at g2
      by_cases e : line' = []
      · exact ⟨e, g3 e⟩
      · rw [if_neg e] at g2; simp at g2
    rw [g1, hl.1, hl.2]
    exact htail c'

/-! ## Values -/

theorem ldifType_no_colon {t : Str} (h : ldifType t = true) : 58 ∉ t ∧ 10 ∉ t ∧ 13 ∉ t ∧ t ≠ [] ∧ t.head? ≠ some 32 ∧ t.head? ≠ some 35 := by
  have hall : ∀ c ∈ t, c ≠ 58 ∧ c ≠ 10 ∧ c ≠ 13 ∧ c ≠ 32 ∧ c ≠ 35 := by
    intro c hc
    simp only [ldifType, Bool.or_eq_true] at h
    rcases h with h | h
    · cases t with
      | nil => simp at hc
      | cons a r =>
        simp only [Bool.and_eq_true, Bool.or_eq_true, decide_eq_true_eq, List.all_eq_true] at h
        rcases List.mem_cons.1 hc with rfl | hc
        · have h := h.1
          refine ⟨?_, ?_, ?_, ?_, ?_⟩ <;> (rintro rfl; revert h; decide)
        · have h := h.2 c hc
          refine ⟨?_, ?_, ?_, ?_, ?_⟩ <;> (rintro rfl; revert h; decide)
    · have hmem : ∀ (s : Str), ∀ c ∈ s, c = 46 ∨ ∃ p ∈ splitOn 46 s, c ∈ p := by
        intro s
        induction s with
        | nil => simp
        | cons a s ih =>
          intro c hc
          rw [splitOn]
          by_cases ha : a = 46
          · rw [if_pos ha]
            rcases List.mem_cons.1 hc with rfl | hc
            · exact .inl ha
            · rcases ih c hc with e | ⟨p, hp, e⟩
              · exact .inl e
              · exact .inr ⟨p, List.mem_cons_of_mem _ hp, e⟩
          · rw [if_neg ha]
            cases hs : splitOn 46 s with
            | nil =>
              rcases List.mem_cons.1 hc with rfl | hc
              · exact .inr ⟨[c], by simp, by simp⟩
              · rcases ih c hc with e | ⟨p, hp, e⟩
                · exact .inl e
                · rw [hs] at hp; simp at hp
            | cons q qs =>
              dsimp only
              rcases List.mem_cons.1 hc with rfl | hc
              · exact .inr ⟨c :: q, by simp, by simp⟩
              · rcases ih c hc with e | ⟨p, hp, e⟩
                · exact .inl e
                · rw [hs] at hp
                  rcases List.mem_cons.1 hp with rfl | hp
                  · exact .inr ⟨a :: p, by simp, List.mem_cons_of_mem _ e⟩
                  · exact .inr ⟨p, List.mem_cons_of_mem _ hp, e⟩
      rcases hmem t c hc with rfl | ⟨p, hp, e⟩
      · decide
      · have h := List.all_eq_true.1 h p hp
        simp only [Bool.and_eq_true, List.all_eq_true, decide_eq_true_eq] at h
        have h := h.2 c e
        refine ⟨?_, ?_, ?_, ?_, ?_⟩ <;> (rintro rfl; revert h; decide)
  have hne : t ≠ [] := by rintro rfl; revert h; decide
  refine ⟨fun e => (hall _ e).1 rfl, fun e => (hall _ e).2.1 rfl, fun e => (hall _ e).2.2.1 rfl, hne, ?_, ?_⟩
  · intro e
    exact (hall 32 (List.mem_of_head? e)).2.2.2.1 rfl
  · intro e
    exact (hall 35 (List.mem_of_head? e)).2.2.2.2 rfl

theorem takeWhile_colon {t : Str} (h : 58 ∉ t) (r : Str) :
    (t ++ 58 :: r).takeWhile (· != 58) = t ∧ (t ++ 58 :: r).dropWhile (· != 58) = 58 :: r := by
  induction t with
  | nil => simp
  | cons a t ih =>
    have ha : a ≠ 58 := fun e => h (by simp [e])
    obtain ⟨h1, h2⟩ := ih (fun e => h (by simp [e]))
    rw [List.cons_append, List.takeWhile_cons_of_pos (by simp [ha]), List.dropWhile_cons_of_pos (by simp [ha]), h1, h2]
    exact ⟨rfl, rfl⟩

theorem dropWhile_blank_bytes (n : Nat) {v : Str} (h : v.head? ≠ some 32) : (List.replicate n 32 ++ v).dropWhile (· == 32) = v := by
  induction n with
  | zero =>
    cases v with
    | nil => rfl
    | cons a v =>
      have : a ≠ 32 := fun e => h (by simp [e])
      rw [List.replicate_zero, List.nil_append, List.dropWhile_cons_of_neg (by simp [this])]
  | succ n ih => rw [List.replicate_succ, List.cons_append, List.dropWhile_cons_of_pos (by simp), ih]

section
variable {L : LdifLib}

theorem ldifLine_says (hL : L.Lawful) {t v l : Str} (ht : ldifType t = true) (h : LineSays t v l) : ldifLine L l = some (t, v) := by
  have hc := (ldifType_no_colon ht).1
  have hv := hL.valid t ht
  cases h with
  | plain n h1 h2 =>
    obtain ⟨e1, e2⟩ := takeWhile_colon hc (List.replicate n 32 ++ v)
    simp only [ldifLine]
    rw [List.append_assoc, List.cons_append, e1, e2]
    cases n with
    | zero =>
      obtain ⟨h3, h4, h5⟩ := h2 rfl
      cases v with
      | nil => exact absurd rfl h3
      | cons a v =>
        have ha : a ≠ 58 := fun e => h4 (by simp [e])
        have hb : a ≠ 60 := fun e => h5 (by simp [e])
        have hd := dropWhile_blank_bytes 0 h1
        simp only [List.replicate_zero, List.nil_append] at hd ⊢
        simp only [hv, Bool.not_true, Bool.false_eq_true, if_false, if_neg ha, if_neg hb, hd]
    | succ n =>
      have hd := dropWhile_blank_bytes (n + 1) h1
      simp only [List.replicate_succ, List.cons_append] at hd ⊢
      simp only [hv, Bool.not_true, Bool.false_eq_true, if_false, hd]
      simp
  | base64 n =>
    obtain ⟨e1, e2⟩ := takeWhile_colon hc (58 :: List.replicate n 32 ++ base64 v)
    simp only [ldifLine]
    rw [show t ++ 58 :: 58 :: List.replicate n 32 ++ base64 v = t ++ 58 :: (58 :: List.replicate n 32 ++ base64 v) by simp, e1, e2]
    have hd : (List.replicate n 32 ++ base64 v).dropWhile (· == 32) = base64 v := by
      refine dropWhile_blank_bytes n ?_
      rw [base64_eq]
      intro e
      exact (b64enc_chars v 32 (List.mem_of_head? e)).2.2 rfl
    simp only [List.cons_append]
    simp only [hv, Bool.not_true, Bool.false_eq_true, if_false, if_true, hd]
    rw [base64_eq, b64dec_enc]
    rfl

theorem lineSays_prefix {t v l : Str} (h : LineSays t v l) : ∃ r, l = t ++ 58 :: r := by
  cases h with
  | plain n => exact ⟨List.replicate n 32 ++ v, by simp⟩
  | base64 n => exact ⟨58 :: List.replicate n 32 ++ base64 v, by simp⟩

theorem hasPrefix_colon : ∀ {t w : Str} (r : Str), 58 ∉ t → 58 ∉ w → (hasPrefix (t ++ 58 :: r) (w ++ [58]) = true ↔ t = w)
  | [], [], r, _, _ => by simp [hasPrefix]
  | [], b :: w, r, _, hw => by
    have hb : b ≠ 58 := fun e => hw (by simp [e])
    simp [hasPrefix, List.isPrefixOf, hb]
  | a :: t, [], r, ht, _ => by
    have ha : ¬ (58 = a) := fun e => ht (by simp [← e])
    simp [hasPrefix, List.isPrefixOf, ha]
  | a :: t, b :: w, r, ht, hw => by
    have ih := hasPrefix_colon (t := t) (w := w) r (fun e => ht (by simp [e])) (fun e => hw (by simp [e]))
    simp only [hasPrefix, List.cons_append, List.isPrefixOf, Bool.and_eq_true, beq_iff_eq, List.cons.injEq] at ih ⊢
    rw [ih]
    exact and_congr_left fun _ => eq_comm

theorem ldifChange_says {t v l : Str} (ht : 58 ∉ t) (h : LineSays t v l) (h1 : t ≠ b!"control") (h2 : t ≠ b!"changetype") :
    ldifChange l = false := by
  obtain ⟨r, rfl⟩ := lineSays_prefix h
  have e1 := hasPrefix_colon (w := b!"control") r ht (by decide)
  have e2 := hasPrefix_colon (w := b!"changetype") r ht (by decide)
  unfold ldifChange
  rw [Bool.or_eq_false_iff]
  constructor
  · rw [← Bool.not_eq_true]; exact fun h => h1 (e1.1 h)
  · rw [← Bool.not_eq_true]; exact fun h => h2 (e2.1 h)

/-! ## The map of the attributes -/

theorem typeValues_cons (t : Str) (a : Attr) (as : List Attr) :
    typeValues t (a :: as) = (if a.name = t then a.vals else []) ++ typeValues t as := by simp [typeValues]

theorem typeValues_absent {t : Str} : ∀ {as : List Attr}, (∀ a ∈ as, a.name ≠ t) → typeValues t as = []
  | [], _ => rfl
  | a :: as, h => by
    rw [typeValues_cons, if_neg (h a (by simp)), typeValues_absent fun x hx => h x (by simp [hx])]; rfl

theorem mapAppend_names (k v : Str) : ∀ (m : List Attr) (x : Attr), x ∈ mapAppend k v m → x.name = k ∨ ∃ y ∈ m, y.name = x.name
  | [], x, h => by simp [mapAppend] at h; left; rw [h]
  | a :: as, x, h => by
    rw [mapAppend] at h
    split at h
    · rcases List.mem_cons.1 h with rfl | h
      · exact .inl rfl
      · exact .inr ⟨x, by simp [h], rfl⟩
    · split at h
      · rcases List.mem_cons.1 h with rfl | h
        · exact .inl rfl
        · exact .inr ⟨x, h, rfl⟩
      · rcases List.mem_cons.1 h with rfl | h
        · exact .inr ⟨x, by simp, rfl⟩
        · rcases mapAppend_names k v as x h with h | ⟨y, hy, e⟩
          · exact .inl h
          · exact .inr ⟨y, by simp [hy], e⟩

theorem mapAppend_sorted (k v : Str) : ∀ (m : List Attr), SortedNames m → SortedNames (mapAppend k v m)
  | [], _ => by simp [mapAppend, SortedNames]
  | b :: bs, h => by
    have hb := (List.pairwise_cons.1 h).1
    have hbs : SortedNames bs := (List.pairwise_cons.1 h).2
    rw [mapAppend]
    split
    · rename_i e
      subst e
      exact List.pairwise_cons.2 ⟨hb, hbs⟩
    · rename_i hne
      split
      · rename_i hle
        refine List.pairwise_cons.2 ⟨?_, h⟩
        intro x hx
        rcases List.mem_cons.1 hx with rfl | hx
        · exact ⟨hle, fun e => hne e.symm⟩
        · have := hb x hx
          refine ⟨strLe_trans hle this.1, fun e => ?_⟩
          dsimp only at e
          exact hne (strLe_antisymm (e ▸ this.1) hle)
      · rename_i hle
        refine List.pairwise_cons.2 ⟨?_, mapAppend_sorted k v bs hbs⟩
        intro x hx
        rcases mapAppend_names k v bs x hx with e | ⟨y, hy, e⟩
        · rw [e]
          refine ⟨?_, hne⟩
          rcases strLe_total k b.name with h | h
          · exact absurd h hle
          · exact h
        · rw [← e]; exact hb y hy

theorem typeValues_mapAppend (t k v : Str) : ∀ (m : List Attr), SortedNames m →
    typeValues t (mapAppend k v m) = typeValues t m ++ if k = t then [v] else []
  | [], _ => by simp [mapAppend, typeValues]
  | b :: bs, h => by
    have hb := (List.pairwise_cons.1 h).1
    have hbs : SortedNames bs := (List.pairwise_cons.1 h).2
    rw [mapAppend]
    split
    · rename_i e
      subst e
      rw [typeValues_cons, typeValues_cons]
      dsimp only
      by_cases ht : b.name = t
      · simp only [if_pos ht]
        rw [typeValues_absent (as := bs) fun a ha e => (hb a ha).2 (by rw [e, ht])]
        simp
      · simp [if_neg ht]
    · rename_i hne
      split
      · rename_i hle
        rw [typeValues_cons]
        dsimp only
        by_cases ht : k = t
        · rw [typeValues_absent (as := b :: bs)]
          · simp [ht]
          · intro a ha e
            rcases List.mem_cons.1 ha with rfl | ha
            · exact hne (e.trans ht.symm)
            · have := hb a ha
              rw [e, ← ht] at this
              exact hne (strLe_antisymm this.1 hle)
        · simp [if_neg ht]
      · rw [typeValues_cons, typeValues_cons, typeValues_mapAppend t k v bs hbs, List.append_assoc]

theorem mapAppend_vals (k v : Str) : ∀ (m : List Attr), (∀ a ∈ m, a.vals ≠ []) → ∀ a ∈ mapAppend k v m, a.vals ≠ []
  | [], _ => by simp [mapAppend]
  | b :: bs, h => by
    intro a ha
    rw [mapAppend] at ha
    split at ha
    · rcases List.mem_cons.1 ha with rfl | ha
      · simp
      · exact h a (by simp [ha])
    · split at ha
      · rcases List.mem_cons.1 ha with rfl | ha
        · simp
        · exact h a ha
      · rcases List.mem_cons.1 ha with rfl | ha
        · exact h a (by simp)
        · exact mapAppend_vals k v bs (fun x hx => h x (by simp [hx])) a ha

/-- What is made of the values of a record. -/
def gather (m : List Attr) (tvs : List (Str × Str)) : List Attr := tvs.foldl (fun m tv => mapAppend tv.1 tv.2 m) m

theorem gather_spec : ∀ (tvs : List (Str × Str)) (m : List Attr), SortedNames m → (∀ a ∈ m, a.vals ≠ []) →
    SortedNames (gather m tvs) ∧ (∀ a ∈ gather m tvs, a.vals ≠ []) ∧
      ∀ t, typeValues t (gather m tvs) = typeValues t m ++ (tvs.filter fun tv => tv.1 = t).map (·.2)
  | [], m, h1, h2 => ⟨h1, h2, fun t => by simp [gather]⟩
  | tv :: tvs, m, h1, h2 => by
    obtain ⟨g1, g2, g3⟩ := gather_spec tvs (mapAppend tv.1 tv.2 m) (mapAppend_sorted _ _ _ h1) (mapAppend_vals _ _ _ h2)
    refine ⟨g1, g2, fun t => ?_⟩
    rw [show gather m (tv :: tvs) = gather (mapAppend tv.1 tv.2 m) tvs from rfl, g3 t, typeValues_mapAppend _ _ _ _ h1]
    by_cases e : tv.1 = t <;> simp [e]

theorem entrySays_gather (r : LdifRecord) : EntrySays r ⟨r.dn, gather [] r.values⟩ := by
  obtain ⟨g1, g2, g3⟩ := gather_spec r.values [] List.Pairwise.nil (by simp)
  refine ⟨rfl, fun t => by rw [g3]; rfl, ?_, g2, ?_⟩
  · rw [List.Nodup, List.pairwise_map]
    exact g1.imp fun h => h.2
  · rw [List.pairwise_map]
    exact g1.imp fun h => strLe_iff.1 h.1

theorem ldifAttrs_says (hL : L.Lawful) {tvs : List (Str × Str)} {ls : List Str}
    (h : Matched (fun tv l => LineSays tv.1 tv.2 l ∧ ldifType tv.1 = true ∧ tv.1 ≠ b!"control" ∧ tv.1 ≠ b!"changetype") tvs ls) :
    ∀ m, ldifAttrs L m ls = some (gather m tvs) ∧ ls.any ldifChange = false := by
  induction h with
  | nil => intro m; exact ⟨rfl, rfl⟩
  | cons tv l tvs ls h _ ih =>
    intro m
    obtain ⟨h1, h2, h3, h4⟩ := h
    refine ⟨?_, ?_⟩
    · rw [ldifAttrs, ldifLine_says hL h2 h1]
      exact (ih _).1
    · rw [List.any_cons, ldifChange_says (ldifType_no_colon h2).1 h1 h3 h4, (ih m).2]
      rfl

theorem ldifEntry_says (hL : L.Lawful) {r : LdifRecord} {ls : List Str} (h : RecordSays r ls) :
    ldifEntry L ls = some ⟨r.dn, gather [] r.values⟩ ∧ ls.any ldifChange = false ∧
      ∃ l rest, ls = l :: rest ∧ hasPrefix l b!"version:" = false := by
  cases h with
  | mk dnLine ls h1 h2 h3 =>
    obtain ⟨a1, a2⟩ := ldifAttrs_says hL h3 []
    have hdn : ldifType b!"dn" = true := by decide
    obtain ⟨x, hx⟩ := lineSays_prefix h1
    have hp : hasPrefix dnLine b!"dn:" = true := by rw [hx]; exact (hasPrefix_colon (w := b!"dn") x (by decide) (by decide)).2 rfl
    have hv : hasPrefix dnLine b!"version:" = false := by
      rw [← Bool.not_eq_true, hx]
      intro h
      have := (hasPrefix_colon (w := b!"version") x (by decide) (by decide)).1 h
      revert this; decide
    have hne : ls ≠ [] := by
      rintro rfl
      generalize hv : r.values = vs at h2 h3
      cases h3
      exact h2 rfl
    refine ⟨?_, ?_, dnLine, ls, rfl, hv⟩
    · simp only [ldifEntry, hp, Bool.not_true, Bool.false_eq_true, if_false, ldifLine_says hL hdn h1, if_neg hne, a1, Option.map_some]
    · rw [List.any_cons, ldifChange_says (by decide) h1 (by decide) (by decide), a2]
      rfl

theorem ldifEntries_says (hL : L.Lawful) {rs : List LdifRecord} {recs : List (List Str)} (h : Matched RecordSays rs recs) :
    optAll (recs.map (ldifEntry L)) = some (rs.map fun r => ⟨r.dn, gather [] r.values⟩) ∧ recs.any (·.any ldifChange) = false := by
  induction h with
  | nil => exact ⟨rfl, rfl⟩
  | cons r ls rs recs h _ ih =>
    obtain ⟨h1, h2, -⟩ := ldifEntry_says hL h
    refine ⟨?_, ?_⟩
    · rw [List.map_cons, h1, optAll, ih.1]; rfl
    · rw [List.any_cons, h2, ih.2]; rfl

theorem version_line (n : Nat) : hasPrefix (b!"version:" ++ List.replicate n 32 ++ b!"1") b!"version:" = true ∧
    parseInt64 (((b!"version:" ++ List.replicate n 32 ++ b!"1").drop 8).dropWhile (· == 32)) = some 1 ∧
    ldifChange (b!"version:" ++ List.replicate n 32 ++ b!"1") = false := by
  refine ⟨by simp [hasPrefix, List.isPrefixOf], ?_, ?_⟩
  · have : (b!"version:" ++ List.replicate n 32 ++ b!"1").drop 8 = List.replicate n 32 ++ b!"1" := by simp
    rw [this, dropWhile_blank_bytes n (by decide)]
    decide +kernel
  · simp [ldifChange, hasPrefix, List.isPrefixOf]

theorem ldifUnmarshal_file (hL : L.Lawful) {text : Str} {rs : List LdifRecord} {lines tail : List Str} {recs : List (List Str)}
    (h1 : (splitOn 10 text).map trimEOL = lines ++ tail) (ht : tail = [] ∨ tail = [[]]) (h2 : FileLines recs lines)
    (hm : Matched RecordSays rs recs) :
    ldifUnmarshal L text = some (rs.map fun r => some ⟨r.dn, gather [] r.values⟩) := by
  have hr := ldifRecords_file h2 tail ht false
  unfold ldifUnmarshal
  rw [h1, hr]
  obtain ⟨m1, m2⟩ := ldifEntries_says hL hm
  simp only [m2, Bool.false_eq_true, if_false]
  cases hm with
  | nil => rfl
  | cons r ls rs recs hr0 hm =>
    obtain ⟨r1, r2, l, rest, rfl, hv⟩ := ldifEntry_says hL hr0
    obtain ⟨m1, m2⟩ := ldifEntries_says hL hm
    simp [ldifFirst, hv, r1, m1]

theorem ldifUnmarshal_plain (hL : L.Lawful) {text : Str} {rs : List LdifRecord} {lines : List Str} {recs : List (List Str)}
    (h1 : HasLines lines text) (h2 : FileLines recs lines) (hm : Matched RecordSays rs recs) :
    ldifUnmarshal L text = some (rs.map fun r => some ⟨r.dn, gather [] r.values⟩) := by
  obtain ⟨tail, ht, e⟩ := hasLines_split h1
  exact ldifUnmarshal_file hL e ht h2 hm

theorem ldifUnmarshal_version (hL : L.Lawful) {text : Str} {rs : List LdifRecord} {lines : List Str} {ls : List (List Str)} {n : Nat}
    (h1 : HasLines lines text) (h2 : FileLines ([b!"version:" ++ List.replicate n 32 ++ b!"1"] :: ls) lines)
    (hm : Matched RecordSays rs ls) :
    ldifUnmarshal L text = some (none :: rs.map fun r => some ⟨r.dn, gather [] r.values⟩) := by
  obtain ⟨tail, ht, e⟩ := hasLines_split h1
  have hr := ldifRecords_file h2 tail ht false
  unfold ldifUnmarshal
  rw [e, hr]
  obtain ⟨m1, m2⟩ := ldifEntries_says hL hm
  obtain ⟨v1, v2, v3⟩ := version_line n
  rw [if_neg (by simp only [List.any_cons, List.any_nil, v3, m2]; decide)]
  simp only [ldifFirst, v1, v2, m1]
  simp

/-- The nil record is there if the version is a record of its own. -/
theorem ldifUnmarshal_says (hL : L.Lawful) {text : Str} {rs : List LdifRecord} (h : LdifSays text rs) :
    ∃ pre, (pre = [] ∨ pre = [none]) ∧ ldifUnmarshal L text = some (pre ++ rs.map fun r => some ⟨r.dn, gather [] r.values⟩) := by
  obtain ⟨lines, recs, h1, h2, h3⟩ := h
  obtain ⟨tail, ht, e⟩ := hasLines_split h1
  have hr := ldifRecords_file h2 tail ht false
  cases h3 with
  | plain _ hm => exact ⟨[], .inl rfl, ldifUnmarshal_plain hL h1 h2 hm⟩
  | version ls n hm => exact ⟨[none], .inr rfl, ldifUnmarshal_version hL h1 h2 hm⟩
  | versionLine r ls n hm =>
    unfold ldifUnmarshal
    rw [e, hr]
    obtain ⟨v1, v2, v3⟩ := version_line n
    refine ⟨[], .inl rfl, ?_⟩
    cases hm with
    | cons r0 _ rs _ hr0 hm =>
      obtain ⟨r1, r2, l, rest, rfl, hv⟩ := ldifEntry_says hL hr0
      obtain ⟨m1, m2⟩ := ldifEntries_says hL hm
      rw [if_neg (by rw [List.any_cons, List.any_cons, v3, r2, m2]; decide)]
      simp only [ldifFirst, v1, v2, r1, m1]
      simp

/-! ## Writing -/

/-- The lines `foldLine` makes of what does not fit on the first. -/
def foldPieces (w : Nat) : Nat → Str → List Str
  | 0, s => [s]
  | n + 1, s => if s.length ≤ w - 1 then [s] else s.take (w - 1) :: foldPieces w n (s.drop (w - 1))

theorem foldPieces_flatten (w : Nat) : ∀ (n : Nat) (s : Str), (foldPieces w n s).flatten = s
  | 0, s => by simp [foldPieces]
  | n + 1, s => by
    rw [foldPieces]
    split
    · simp
    · rw [List.flatten_cons, foldPieces_flatten, List.take_append_drop]

theorem foldPieces_width {w : Nat} (hw : 2 ≤ w) : ∀ (n : Nat) (s : Str), s.length ≤ n → ∀ x ∈ foldPieces w n s, x.length ≤ w - 1
  | 0, s, h => by
    intro x hx
    rw [foldPieces, List.mem_singleton] at hx
    subst hx
    omega
  | n + 1, s, h => by
    intro x hx
    rw [foldPieces] at hx
    split at hx
    · rw [List.mem_singleton] at hx
      subst hx
      assumption
    · rcases List.mem_cons.1 hx with rfl | hx
      · rw [List.length_take]; omega
      · exact foldPieces_width hw n _ (by rw [List.length_drop]; omega) x hx

/-- The lines of a text, each ended by LF. -/
def lfText (ls : List Str) : Str := ls.flatMap fun l => l ++ [10]

theorem foldRest_text : ∀ (n : Nat) (s : Str), foldRest L n s ++ [10] = lfText ((foldPieces L.width n s).map (32 :: ·))
  | 0, s => by simp [foldRest, foldPieces, lfText]
  | n + 1, s => by
    rw [foldRest, foldPieces]
    split
    · simp [lfText]
    · rw [List.map_cons, lfText, List.flatMap_cons, ← lfText, ← foldRest_text n]
      simp

theorem foldLine_text (hw : 2 ≤ L.width) {l : Str} (hl : l ≠ []) (h1 : l.head? ≠ some 32) (h2 : l.head? ≠ some 35) :
    ∃ lines, foldLine L l ++ [10] = lfText lines ∧ Folded l lines ∧ ∀ x ∈ lines, (∀ c ∈ x, c = 32 ∨ c ∈ l) ∧ x.length ≤ L.width := by
  unfold foldLine
  by_cases hc : l.length ≤ L.width
  · rw [if_pos hc]
    refine ⟨[l], by simp [lfText], ⟨l, [], by simp [hl, h1, h2]⟩, ?_⟩
    intro x hx
    rw [List.mem_singleton] at hx
    subst hx
    exact ⟨fun c hcx => .inr hcx, hc⟩
  · rw [if_neg hc]
    refine ⟨l.take L.width :: (foldPieces L.width l.length (l.drop L.width)).map (32 :: ·), ?_, ⟨_, _, rfl, ?_, ?_, ?_, ?_⟩, ?_⟩
    · rw [List.append_assoc, List.cons_append, foldRest_text]
      simp [lfText]
    · rw [foldPieces_flatten, List.take_append_drop]
    · intro e
      have := congrArg List.length e
      rw [List.length_take, List.length_nil] at this
      omega
    · rw [List.head?_take]; split <;> simp [h1]
    · rw [List.head?_take]; split <;> simp [h2]
    · intro x hx
      rcases List.mem_cons.1 hx with rfl | hx
      · exact ⟨fun c hc => .inr (List.mem_of_mem_take hc), by rw [List.length_take]; omega⟩
      · obtain ⟨p, hp, rfl⟩ := List.mem_map.1 hx
        refine ⟨fun c hc => ?_, ?_⟩
        · rcases List.mem_cons.1 hc with rfl | hc
          · exact .inl rfl
          · refine .inr (List.mem_of_mem_drop (i := L.width) ?_)
            rw [← foldPieces_flatten L.width l.length (l.drop L.width)]
            exact List.mem_flatten.2 ⟨p, hp, hc⟩
        · have := foldPieces_width hw _ _ (by rw [List.length_drop]; omega) p hp
          rw [List.length_cons]
          omega

theorem hasLines_lf : ∀ (ls : List Str), (∀ l ∈ ls, 10 ∉ l ∧ 13 ∉ l) → HasLines ls (lfText ls)
  | [], _ => .none
  | l :: ls, h => by
    have : lfText (l :: ls) = l ++ 10 :: lfText ls := by simp [lfText]
    rw [this]
    exact .lf l ls _ (h l (by simp)).1 (h l (by simp)).2 (hasLines_lf ls fun x hx => h x (by simp [hx]))

theorem lfText_append (a b : List Str) : lfText (a ++ b) = lfText a ++ lfText b := by simp [lfText]

theorem folded_head {l : Str} {lines : List Str} (h : Folded l lines) : ∀ x ∈ lines, x.head? ≠ some 35 := by
  obtain ⟨first, pieces, rfl, -, -, -, h35⟩ := h
  intro x hx
  rcases List.mem_cons.1 hx with rfl | hx
  · exact h35
  · obtain ⟨p, -, rfl⟩ := List.mem_map.1 hx
    simp

theorem noStray_pieces (rest : List Str) (hr : NoStray true rest) : ∀ pieces : List Str, NoStray true (pieces.map (32 :: ·) ++ rest)
  | [] => hr
  | p :: ps => by
    rw [List.map_cons, List.cons_append, NoStray, if_neg (by decide)]
    exact ⟨fun _ => rfl, noStray_pieces rest hr ps⟩

theorem noStray_record {ls lines : List Str} (h : RecordLines ls lines) : (∀ x ∈ lines, x.head? ≠ some 35) →
    ∀ rest, (∀ may, NoStray may rest) → ∀ may, NoStray may (lines ++ rest) := by
  induction h with
  | done => intro _ rest hr may; exact hr may
  | line l lines ls more hf hrec ih =>
    intro h35 rest hr may
    obtain ⟨first, pieces, rfl, -, h1, h2, h3⟩ := hf
    cases first with
    | nil => exact absurd rfl h1
    | cons c first =>
      simp only [List.head?_cons, ne_eq, Option.some.injEq] at h2 h3
      rw [List.append_assoc, List.cons_append, NoStray, if_neg h3]
      exact ⟨fun e => absurd e h2, noStray_pieces _ (ih (fun x hx => h35 x (by simp [hx])) rest hr true) pieces⟩
  | comment c pieces ls more hrec ih =>
    intro h35
    exact absurd rfl (h35 (35 :: c) (by simp))

/-- Lines of LDIF without comments have no stray continuation. -/
theorem noStray_file {rs : List (List Str)} {lines : List Str} (h : FileLines rs lines) : (∀ x ∈ lines, x.head? ≠ some 35) → ∀ may, NoStray may lines := by
  induction h with
  | done => intro _ _; trivial
  | empty rs rest _ ih => intro h35 may; exact ih (fun x hx => h35 x (by simp [hx])) false
  | comments lines rs rest hr _ ih =>
    intro h35 may
    exact noStray_record hr (fun x hx => h35 x (by simp [hx])) ([] :: rest) (fun _ => ih (fun x hx => h35 x (by simp [hx])) false) may
  | record ls lines rs rest _ hr _ ih =>
    intro h35 may
    exact noStray_record hr (fun x hx => h35 x (by simp [hx])) ([] :: rest) (fun _ => ih (fun x hx => h35 x (by simp [hx])) false) may
  | last ls lines _ hr =>
    intro h35 may
    have := noStray_record hr h35 [] (fun _ => trivial) may
    rwa [List.append_nil] at this
  | lastComments lines hr =>
    intro h35 may
    have := noStray_record hr h35 [] (fun _ => trivial) may
    rwa [List.append_nil] at this

theorem writeLine_says (hL : L.Lawful) (b64 : Bool) {t v : Str} (ht : ldifType t = true)
    (hv : b64 = false → v.head? ≠ some 32 ∧ 10 ∉ v ∧ 13 ∉ v) :
    ∃ l lines, writeLine L b64 t v = lfText lines ∧ Folded l lines ∧ LineSays t v l ∧ ∀ x ∈ lines, 10 ∉ x ∧ 13 ∉ x ∧ x.length ≤ L.width ∧ x.head? ≠ some 35 := by
  obtain ⟨t1, t2, t3, t4, t5, t6⟩ := ldifType_no_colon ht
  have hhead : ∀ r : Str, (t ++ r).head? = t.head? := by
    intro r
    cases t with
    | nil => exact absurd rfl t4
    | cons a t => rfl
  have main : ∀ l r, l = t ++ r → 10 ∉ r → 13 ∉ r → LineSays t v l →
      ∃ lines, foldLine L l ++ [10] = lfText lines ∧ Folded l lines ∧ LineSays t v l ∧ ∀ x ∈ lines, 10 ∉ x ∧ 13 ∉ x ∧ x.length ≤ L.width ∧ x.head? ≠ some 35 := by
    rintro l r rfl r1 r2 hs
    obtain ⟨lines, h1, h2, h3⟩ := foldLine_text hL.width (l := t ++ r) (by simp [t4]) (by rw [hhead]; exact t5) (by rw [hhead]; exact t6)
    refine ⟨lines, h1, h2, hs, fun x hx => ⟨fun e => ?_, fun e => ?_, (h3 x hx).2, folded_head h2 x hx⟩⟩
    · rcases (h3 x hx).1 _ e with h | h
      · revert h; decide
      · exact (List.mem_append.1 h).elim t2 r1
    · rcases (h3 x hx).1 _ e with h | h
      · revert h; decide
      · exact (List.mem_append.1 h).elim t3 r2
  cases b64 with
  | true =>
    have hc := b64enc_chars v
    obtain ⟨lines, h1, h2⟩ := main (t ++ b!":: " ++ b64enc v) (b!":: " ++ b64enc v) (by simp)
      (by simp; exact fun e => (hc _ e).1 rfl) (by simp; exact fun e => (hc _ e).2.1 rfl)
      (by
        have := LineSays.base64 t v 1
        rw [base64_eq] at this
        simpa using this)
    exact ⟨_, lines, by simpa [writeLine] using h1, h2⟩
  | false =>
    obtain ⟨v1, v2, v3⟩ := hv rfl
    obtain ⟨lines, h1, h2⟩ := main (t ++ b!": " ++ v) (b!": " ++ v) (by simp) (by simpa using v2) (by simpa using v3)
      (by
        have := LineSays.plain t v 1 v1 (by simp)
        simpa using this)
    exact ⟨_, lines, by simpa [writeLine] using h1, h2⟩

theorem writeLines_says (hL : L.Lawful) : ∀ (tvs : List (Str × Str)),
    (∀ tv ∈ tvs, ldifType tv.1 = true ∧ tv.1 ≠ b!"control" ∧ tv.1 ≠ b!"changetype" ∧ ValueOk tv.2) →
    ∃ ls lines, tvs.flatMap (fun tv => writeLine L (L.needs64 tv.2) tv.1 tv.2) = lfText lines ∧ RecordLines ls lines ∧
      Matched (fun tv l => LineSays tv.1 tv.2 l ∧ ldifType tv.1 = true ∧ tv.1 ≠ b!"control" ∧ tv.1 ≠ b!"changetype") tvs ls ∧
      ∀ x ∈ lines, 10 ∉ x ∧ 13 ∉ x ∧ x.length ≤ L.width ∧ x.head? ≠ some 35
  | [], _ => ⟨[], [], rfl, .done, .nil, by simp⟩
  | tv :: tvs, h => by
    obtain ⟨ls, lines, h1, h2, h3, h4⟩ := writeLines_says hL tvs fun x hx => h x (by simp [hx])
    obtain ⟨k1, k2, k3, k4⟩ := h tv (by simp)
    obtain ⟨l, lines', g1, g2, g3, g4⟩ := writeLine_says hL (L.needs64 tv.2) k1 (v := tv.2) (by
      intro hn
      have hall : ∀ c ∈ tv.2, ¬ (c < 32 ∨ 126 < c) := by
        intro c hc hbad
        rw [hL.needs64 tv.2 ⟨c, hc, hbad⟩] at hn
        exact Bool.noConfusion hn
      refine ⟨?_, fun e => hall _ e (by decide), fun e => hall _ e (by decide)⟩
      rcases k4 with k4 | ⟨c, hc, hbad⟩
      · exact k4
      · exact absurd hbad (hall c hc))
    refine ⟨l :: ls, lines' ++ lines, ?_, .line _ _ _ _ g2 h2, .cons _ _ _ _ ⟨g3, k1, k2, k3⟩ h3, ?_⟩
    · rw [List.flatMap_cons, g1, h1, lfText_append]
    · intro x hx
      exact (List.mem_append.1 hx).elim (g4 x) (h4 x)

theorem writeEntry_says (hL : L.Lawful) {e : Entry} (h : Writable e) :
    ∃ ls lines, writeEntry L e = lfText (lines ++ [[]]) ∧ RecordLines ls lines ∧ RecordSays (recordOf e) ls ∧ ls ≠ [] ∧
      ∀ x ∈ lines, 10 ∉ x ∧ 13 ∉ x ∧ x.length ≤ L.width ∧ x.head? ≠ some 35 := by
  obtain ⟨⟨d1, d2, d3⟩, ⟨a0, ha0, hv0⟩, hv⟩ := h
  obtain ⟨l, lines, g1, g2, g3, g4⟩ := writeLine_says hL (L.dn64 && L.needs64 e.dn) (t := b!"dn") (v := e.dn) (by decide) (fun _ => ⟨d3, d1, d2⟩)
  obtain ⟨ls, lines', h1, h2, h3, h4⟩ := writeLines_says hL (entryLines e) (by
    intro tv htv
    obtain ⟨a, ha, htv⟩ := List.mem_flatMap.1 htv
    obtain ⟨v, hvv, rfl⟩ := List.mem_map.1 htv
    exact hv a ha v hvv)
  refine ⟨l :: ls, lines ++ lines', ?_, .line _ _ _ _ g2 h2, ?_, by simp, ?_⟩
  · rw [writeEntry, g1, h1, lfText_append, lfText_append]
    rfl
  · refine .mk (recordOf e) l ls g3 ?_ h3
    obtain ⟨v, hvm⟩ := List.exists_mem_of_ne_nil _ hv0
    exact List.ne_nil_of_mem (List.mem_flatMap.2 ⟨a0, ha0, List.mem_map.2 ⟨v, hvm, rfl⟩⟩)
  · intro x hx
    exact (List.mem_append.1 hx).elim (g4 x) (h4 x)

theorem ldifWrite_says (hL : L.Lawful) : ∀ (es : List Entry), (∀ e ∈ es, Writable e) →
    ∃ recs lines, ldifWrite L es = lfText lines ∧ FileLines recs lines ∧ Matched RecordSays (es.map recordOf) recs ∧
      ∀ x ∈ lines, 10 ∉ x ∧ 13 ∉ x ∧ x.length ≤ L.width ∧ x.head? ≠ some 35
  | [], _ => ⟨[], [], rfl, .done, .nil, by simp⟩
  | e :: es, h => by
    obtain ⟨recs, lines, h1, h2, h3, h4⟩ := ldifWrite_says hL es fun x hx => h x (by simp [hx])
    obtain ⟨ls, lines', g1, g2, g3, g4, g5⟩ := writeEntry_says hL (h e (by simp))
    refine ⟨ls :: recs, lines' ++ [] :: lines, ?_, .record _ _ _ _ g4 g2 h2, .cons _ _ _ _ g3 h3, ?_⟩
    · rw [ldifWrite, List.flatMap_cons, ← ldifWrite, g1, h1, ← lfText_append]
      simp
    · intro x hx
      rcases List.mem_append.1 hx with hx | hx
      · exact g5 x hx
      · rcases List.mem_cons.1 hx with rfl | hx
        · simp
        · exact h4 x hx

end
end Idm
