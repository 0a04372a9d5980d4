import Verif.Spec.Spelling
import Verif.Props.DN
/-!
# C78: every spelling of a name is read as that name
-/
namespace Idm

theorem hexDigit_val {c : UInt8} {n : Nat} (h : HexDigit c n) : hexVal c = some (UInt8.ofNat n) ∧ n < 16 ∧ 48 ≤ c ∧ c ≤ 102 ∧ c ≠ 92 ∧ c ≠ 59 ∧
    isEscapable c = false := by
  have k1 : ∀ i : Fin 10, hexVal (UInt8.ofNat (48 + i)) = some (UInt8.ofNat i) ∧ 48 ≤ UInt8.ofNat (48 + i) ∧ UInt8.ofNat (48 + i) ≤ 102 ∧
      UInt8.ofNat (48 + i) ≠ 92 ∧ UInt8.ofNat (48 + i) ≠ 59 ∧ isEscapable (UInt8.ofNat (48 + i)) = false := by decide +kernel
  have k2 : ∀ i : Fin 6, hexVal (UInt8.ofNat (65 + i)) = some (UInt8.ofNat (i + 10)) ∧ 48 ≤ UInt8.ofNat (65 + i) ∧ UInt8.ofNat (65 + i) ≤ 102 ∧
      UInt8.ofNat (65 + i) ≠ 92 ∧ UInt8.ofNat (65 + i) ≠ 59 ∧ isEscapable (UInt8.ofNat (65 + i)) = false := by decide +kernel
  have k3 : ∀ i : Fin 6, hexVal (UInt8.ofNat (97 + i)) = some (UInt8.ofNat (i + 10)) ∧ 48 ≤ UInt8.ofNat (97 + i) ∧ UInt8.ofNat (97 + i) ≤ 102 ∧
      UInt8.ofNat (97 + i) ≠ 92 ∧ UInt8.ofNat (97 + i) ≠ 59 ∧ isEscapable (UInt8.ofNat (97 + i)) = false := by decide +kernel
  rcases h with ⟨h, rfl⟩ | ⟨h1, h2, rfl | rfl⟩
  · have := k1 ⟨n, h⟩
    exact ⟨this.1, by omega, this.2⟩
  · have := k2 ⟨n - 10, by omega⟩
    rw [show ((⟨n - 10, by omega⟩ : Fin 6) : Nat) + 10 = n by show n - 10 + 10 = n; omega] at this
    exact ⟨this.1, h2, this.2⟩
  · have := k3 ⟨n - 10, by omega⟩
    rw [show ((⟨n - 10, by omega⟩ : Fin 6) : Nat) + 10 = n by show n - 10 + 10 = n; omega] at this
    exact ⟨this.1, h2, this.2⟩

theorem isEscapable_iff (c : UInt8) : isEscapable c = true ↔ c ∈ b!" \"#+,;<=>\\" := by
  unfold isEscapable
  exact List.contains_iff_mem

theorem decodeBytes_spelled {f : Bool} {v s : Str} (h : SpellsVal f v s) : decodeBytes s = some v := by
  induction h with
  | nil => rfl
  | plain f c v s h0 h1 h2 h3 h4 ih =>
    rw [decodeBytes_cons_plain (by intro e; subst e; exact h1 (by decide)), ih]
    rfl
  | pair f c v s h1 h2 ih =>
    rw [decodeBytes.eq_def]
    dsimp only
    rw [if_neg (by decide)]
    simp only [(isEscapable_iff c).2 h1, if_true, ih]
    rfl
  | hex f x y m n v s h1 h2 h3 ih =>
    obtain ⟨a1, a2, -, -, -, -, a7⟩ := hexDigit_val h1
    obtain ⟨b1, b2, -⟩ := hexDigit_val h2
    rw [decodeBytes.eq_def]
    dsimp only
    rw [if_neg (by decide)]
    simp only [a7, a1, b1, ih, Bool.false_eq_true, if_false]
    have : UInt8.ofNat m * 16 + UInt8.ofNat n = UInt8.ofNat (16 * m + n) := by
      have : ∀ m n : Fin 16, UInt8.ofNat m * 16 + UInt8.ofNat n = UInt8.ofNat (16 * m + n) := by decide +kernel
      exact this ⟨m, a2⟩ ⟨n, b2⟩
    rw [this]
    rfl

theorem scan_spelled {C : CaseEnv} (dn : DN) (rdn : RDN) (t cur rest : Str) (ht : t ≠ []) {f : Bool} {v s : Str} (h : SpellsVal f v s) :
    scan C ⟨dn, rdn, t, cur, false⟩ (s ++ rest) = scan C ⟨dn, rdn, t, cur ++ s, false⟩ rest := by
  induction h generalizing cur with
  | nil => simp
  | plain f c v s h0 h1 h2 h3 h4 ih =>
    have e : c ≠ chBackslash ∧ c ≠ chComma ∧ c ≠ chPlus ∧ c ≠ chSemi :=
      ⟨fun e => h1 (by subst e; decide), fun e => h1 (by subst e; decide), fun e => h1 (by subst e; decide), fun e => h1 (by subst e; decide)⟩
    rw [List.cons_append, scan_cons (scanStep_plain rfl e.1 (fun _ => ht) e.2.1 e.2.2.1 e.2.2.2), ih]
    simp
  | pair f c v s h1 h2 ih =>
    rw [List.cons_append, List.cons_append]
    rw [show (92 : UInt8) = chBackslash by rfl, scan_cons (scanStep_bs rfl), scan_cons (scanStep_esc rfl), ih]
    simp
  | hex f x y m n v s h1 h2 h3 ih =>
    obtain ⟨-, -, b3, b4, b5, b6, -⟩ := hexDigit_val h2
    have key : ∀ x : UInt8, 48 ≤ x ∧ x ≤ 102 → x ≠ chComma ∧ x ≠ chPlus := by decide +kernel
    rw [List.cons_append, List.cons_append, List.cons_append]
    rw [show (92 : UInt8) = chBackslash by rfl, scan_cons (scanStep_bs rfl), scan_cons (scanStep_esc rfl),
      scan_cons (scanStep_plain rfl b5 (fun _ => ht) (key _ ⟨b3, b4⟩).1 (key _ ⟨b3, b4⟩).2 b6), ih]
    simp

/-- How the text of a value begins and ends. -/
theorem spelled_ends {f : Bool} {v s : Str} (h : SpellsVal f v s) :
    (f = true → s.head? ≠ some 32 ∧ s.head? ≠ some 35) ∧ (s.getLast? ≠ some 32 ∨ ∃ pre, s = pre ++ [92, 32]) := by
  induction h with
  | nil => exact ⟨fun _ => by decide, Or.inl (by decide)⟩
  | plain f c v s h0 h1 h2 h3 h4 ih =>
    refine ⟨fun hf => by simpa using h2 hf, ?_⟩
    cases s with
    | nil => exact Or.inl (by simpa using h3 rfl)
    | cons d s =>
      rcases ih.2 with h | ⟨pre, h⟩
      · exact Or.inl (by simpa [List.getLast?_cons] using h)
      · exact Or.inr ⟨c :: pre, by rw [h]; rfl⟩
  | pair f c v s h1 h2 ih =>
    refine ⟨fun hf => by simp, ?_⟩
    cases s with
    | nil =>
      by_cases hc : c = 32
      · subst hc; exact Or.inr ⟨[], rfl⟩
      · exact Or.inl (by simpa using hc)
    | cons d s =>
      rcases ih.2 with h | ⟨pre, h⟩
      · exact Or.inl (by simpa [List.getLast?_cons] using h)
      · exact Or.inr ⟨92 :: c :: pre, by rw [h]; rfl⟩
  | hex f x y m n v s h1 h2 h3 ih =>
    refine ⟨fun hf => by simp, ?_⟩
    obtain ⟨-, -, b3, -⟩ := hexDigit_val h2
    cases s with
    | nil =>
      refine Or.inl ?_
      have : y ≠ 32 := by intro e; subst e; exact absurd b3 (by decide)
      simpa using this
    | cons d s =>
      rcases ih.2 with h | ⟨pre, h⟩
      · exact Or.inl (by simpa [List.getLast?_cons] using h)
      · exact Or.inr ⟨92 :: x :: y :: pre, by rw [h]; rfl⟩

theorem dropWhile_blanks {p s : Str} (hp : Blanks p) : (p ++ s).dropWhile (· == chSpace) = s.dropWhile (· == chSpace) := by
  induction p with
  | nil => rfl
  | cons c p ih =>
    rw [List.cons_append, List.dropWhile_cons, if_pos (by simp [hp c (by simp), chSpace]), ih fun d hd => hp d (by simp [hd])]

theorem trim_blanks {p s q : Str} (hp : Blanks p) (hq : Blanks q) (hh : s.head? ≠ some 32) :
    trimBy (· == chSpace) (p ++ s ++ q) = (s.reverse.dropWhile (· == chSpace)).reverse := by
  unfold trimBy
  rw [List.append_assoc, dropWhile_blanks hp]
  have hq' : Blanks q.reverse := fun c hc => hq c (by simpa using hc)
  cases s with
  | nil =>
    have : ∀ q : Str, Blanks q → q.dropWhile (· == chSpace) = [] := fun q hq => by
      have := dropWhile_blanks (p := q) (s := []) hq
      simpa using this
    rw [List.nil_append, this q hq]
  | cons c s =>
    have hc : c ≠ 32 := by simpa using hh
    rw [List.cons_append, List.dropWhile_cons, if_neg (by simpa [chSpace] using hc), ← List.cons_append, List.reverse_append, dropWhile_blanks hq']

theorem strip_spelled {v t p q : Str} (hp : Blanks p) (hq : Blanks q) (h : SpellsVal true v t) (hl : q = [] ∨ t.getLast? ≠ some 92) :
    stripSpaces (p ++ t ++ q) = t := by
  obtain ⟨h1, h2⟩ := spelled_ends h
  have ht := trim_blanks hp hq (h1 rfl).1
  unfold stripSpaces
  simp only [ht]
  rcases h2 with h2 | ⟨pre, rfl⟩
  · have e : (t.reverse.dropWhile (· == chSpace)).reverse = t := by
      rw [dropWhile_eq_self, List.reverse_reverse]
      intro c hc
      rw [List.head?_reverse] at hc
      rw [hc] at h2
      simpa [chSpace] using h2
    rw [e, if_neg]
    rintro ⟨e1, e2⟩
    rcases hl with rfl | hl
    · rw [List.append_nil] at e2
      cases t with
      | nil => cases e1
      | cons c t =>
        rw [List.getLast?_append, e1] at e2
        cases e2
    · exact hl e1
  · have e : ((pre ++ [92, 32]).reverse.dropWhile (· == chSpace)).reverse = pre ++ [92] := by
      simp [chSpace]
    rw [e, if_pos]
    · simp [chSpace]
    · refine ⟨by simp [chBackslash], ?_⟩
      cases hq' : q.getLast? with
      | none =>
        rw [List.getLast?_eq_none_iff] at hq'
        subst hq'
        simp [chSpace]
      | some c =>
        rw [List.getLast?_append, hq']
        have := hq c (List.mem_of_getLast? hq')
        rw [this]
        rfl

theorem decodeString_spelled {C : CaseEnv} {v t p q : Str} (hp : Blanks p) (hq : Blanks q) (h : SpellsVal true v t) (hu : C.utf8Fix t = t)
    (hl : q = [] ∨ t.getLast? ≠ some 92) : decodeString C (p ++ t ++ q) = some v := by
  rw [decodeString, strip_spelled hp hq h hl, hu, decodeBytes_spelled h]

theorem decodeValue_spelled {C : CaseEnv} {v t p q : Str} (hp : Blanks p) (hq : Blanks q) (h : SpellsVal true v t) (hu : C.utf8Fix t = t)
    (hl : q = [] ∨ t.getLast? ≠ some 92) : decodeValue C (p ++ t ++ q) = some v := by
  have hd := decodeString_spelled hp hq h hu hl
  unfold decodeValue
  split
  · rename_i c rest he
    rw [if_neg]
    · exact hd
    intro hc
    subst hc
    cases p with
    | cons d p =>
      have := hp d (by simp)
      subst this
      cases he
    | nil =>
      cases t with
      | nil =>
        rw [List.nil_append, List.nil_append] at he
        have := hq chHash (by rw [he]; simp)
        cases this
      | cons d t =>
        have := ((spelled_ends h).1 rfl).2
        cases he
        exact this rfl
  · exact hd

/-- Types are spelled as they are, between blanks. -/
theorem strip_type {t p q : Str} (hp : Blanks p) (hq : Blanks q) (ht : TypeOk t) : stripSpaces (p ++ t ++ q) = t := by
  have hf : ∀ c ∈ t, c ≠ 32 ∧ c ≠ 92 := fun c hc => by
    have := okTypeByte_facts c (ht.2 c hc)
    exact ⟨by intro e; subst e; have := ht.2 _ hc; revert this; decide, this.2.2.1⟩
  have hh : t.head? ≠ some 32 := by
    intro e
    exact (hf 32 (List.mem_of_mem_head? e)).1 rfl
  have htr := trim_blanks hp hq hh
  have e : (t.reverse.dropWhile (· == chSpace)).reverse = t := by
    rw [dropWhile_eq_self, List.reverse_reverse]
    intro c hc
    rw [List.head?_reverse] at hc
    have := (hf c (List.mem_of_getLast? hc)).1
    simpa [chSpace] using this
  unfold stripSpaces
  simp only [htr, e]
  rw [if_neg]
  rintro ⟨e1, -⟩
  exact (hf _ (List.mem_of_getLast? e1)).2 rfl

theorem scan_pad {C : CaseEnv} (dn : DN) (rdn : RDN) (t cur rest p : Str) (hp : Blanks p) :
    scan C ⟨dn, rdn, t, cur, false⟩ (p ++ rest) = scan C ⟨dn, rdn, t, cur ++ p, false⟩ rest := by
  induction p generalizing cur with
  | nil => simp
  | cons c p ih =>
    have := hp c (by simp)
    subst this
    rw [List.cons_append, scan_cons (scanStep_plain rfl (by decide) (fun e => absurd e (by decide)) (by decide) (by decide) (by decide)),
      ih _ fun d hd => hp d (by simp [hd])]
    simp

/-- What the scanner has after an attribute: its value is decodable. -/
theorem scan_spelledAVA {C : CaseEnv} (hC : C.Lawful) (dn : DN) (rdn : RDN) {a : AVA} (ha : TypeOk a.typ) {s : Str} (h : SpellsAVA C a s) :
    ∃ cur, decodeValue C cur = some a.val ∧
      ∀ rest, scan C ⟨dn, rdn, [], [], false⟩ (s ++ rest) = scan C ⟨dn, rdn, a.typ, cur, false⟩ rest := by
  obtain ⟨p1, p2, p3, p4, t, h1, h2, h3, h4, hv, hu, hl, rfl⟩ := h
  refine ⟨p3 ++ t ++ p4, decodeValue_spelled h3 h4 hv hu hl, fun rest => ?_⟩
  have e : p1 ++ a.typ ++ p2 ++ [61] ++ p3 ++ t ++ p4 ++ rest = p1 ++ (a.typ ++ (p2 ++ (61 :: (p3 ++ (t ++ (p4 ++ rest)))))) := by simp
  rw [e, scan_pad _ _ _ _ _ _ h1, scan_type _ _ _ _ _ ha.2, scan_pad _ _ _ _ _ _ h2]
  have hstep : scanStep C ⟨dn, rdn, [], [] ++ p1 ++ a.typ ++ p2, false⟩ 61 = .ok ⟨dn, rdn, a.typ, [], false⟩ := by
    have hd : decodeString C ([] ++ p1 ++ a.typ ++ p2) = some a.typ := by
      rw [List.nil_append, decodeString, strip_type h1 h2 ha]
      have hasc : IsAscii a.typ := isAscii_of_printable fun c hc => by
        have := okTypeByte_facts c (ha.2 c hc)
        have k : ∀ c, okTypeByte c = true → 32 ≤ c ∧ c ≤ 126 := by decide +kernel
        exact k c (ha.2 c hc)
      rw [hC.utf8Fix_ascii _ hasc]
      exact decodeBytes_noBackslash _ fun c hc => (okTypeByte_facts c (ha.2 c hc)).2.2.1
    unfold scanStep
    simp only [Bool.false_eq_true, if_false]
    rw [if_neg (by decide), if_pos (by constructor <;> first | rfl | trivial), hd]
  rw [scan_cons hstep, scan_pad _ _ _ _ _ _ h3, scan_spelled _ _ _ _ _ ha.1 hv, scan_pad _ _ _ _ _ _ h4]
  simp

theorem scanStep_sep' {C : CaseEnv} (dn : DN) (rdn : RDN) (a : AVA) (ha : TypeOk a.typ) (cur : Str) (hv : decodeValue C cur = some a.val) (c : UInt8)
    (hc : c = chComma ∨ c = chPlus ∨ c = chSemi) :
    scanStep C ⟨dn, rdn, a.typ, cur, false⟩ c =
      .ok (if c = chPlus then ⟨dn, rdn ++ [a], [], [], false⟩ else ⟨dn ++ [rdn ++ [a]], [], [], [], false⟩) := by
  unfold scanStep
  have h1 : c ≠ chBackslash := by rcases hc with rfl | rfl | rfl <;> decide
  have h2 : c ≠ chEq := by rcases hc with rfl | rfl | rfl <;> decide
  simp only [Bool.false_eq_true, if_false]
  rw [if_neg h1, if_neg (by simp [h2]), if_pos hc, if_neg ha.1, hv]
  by_cases h : c = chPlus <;> simp [h]

theorem scan_spelledRDN {C : CaseEnv} (hC : C.Lawful) (dn : DN) (rdn : RDN) {r : RDN} (hr : ∀ a ∈ r, TypeOk a.typ) {s : Str} (h : SpellsRDN C r s) :
    (∀ c rest, (c = 44 ∨ c = 59) → scan C ⟨dn, rdn, [], [], false⟩ (s ++ c :: rest) = scan C ⟨dn ++ [rdn ++ r], [], [], [], false⟩ rest) ∧
    scanFinish C (scan C ⟨dn, rdn, [], [], false⟩ s) = .ok (dn ++ [rdn ++ r]) := by
  induction h generalizing rdn with
  | one a s h =>
    have ha := hr a (by simp)
    obtain ⟨cur, hv, hs⟩ := scan_spelledAVA hC dn rdn ha h
    constructor
    · intro c rest hc
      have hc' : c = chComma ∨ c = chPlus ∨ c = chSemi := by rcases hc with rfl | rfl <;> decide
      rw [hs, scan_cons (scanStep_sep' _ _ _ ha _ hv _ hc'), if_neg (by rcases hc with rfl | rfl <;> decide)]
    · have := hs []
      rw [List.append_nil] at this
      rw [this, scan]
      simp only [scanFinish, scanEnd]
      rw [if_neg ha.1, hv]
  | more a as s s' h _ ih =>
    have ha := hr a (by simp)
    obtain ⟨cur, hv, hs⟩ := scan_spelledAVA hC dn rdn ha h
    obtain ⟨i1, i2⟩ := ih (rdn ++ [a]) fun x hx => hr x (by simp [hx])
    have step : ∀ rest, scan C ⟨dn, rdn, [], [], false⟩ (s ++ 43 :: rest) = scan C ⟨dn, rdn ++ [a], [], [], false⟩ rest := fun rest => by
      rw [hs, scan_cons (scanStep_sep' _ _ _ ha _ hv 43 (Or.inr (Or.inl rfl))), if_pos (by rfl)]
    constructor
    · intro c rest hc
      rw [List.append_assoc, List.cons_append, step, i1 c rest hc]
      simp
    · rw [step, i2]
      simp

theorem scan_spelledDN {C : CaseEnv} (hC : C.Lawful) (dn : DN) {p : DN} (hp : NameOk p) (hne : p ≠ []) {s : Str} (h : SpellsDN C p s) :
    scanFinish C (scan C ⟨dn, [], [], [], false⟩ s) = .ok (dn ++ p) := by
  induction h generalizing dn with
  | nil => exact absurd rfl hne
  | one r s h => simpa using (scan_spelledRDN hC dn [] (hp r (by simp)).2 h).2
  | more r r' rs s c s' h hc _ ih =>
    rw [(scan_spelledRDN hC dn [] (hp r (by simp)).2 h).1 c s' hc, ih _ (fun x hx => hp x (by simp [hx])) (by simp)]
    simp

theorem spelled_ne_nil {C : CaseEnv} {p : DN} {s : Str} (hne : p ≠ []) (h : SpellsDN C p s) : s ≠ [] := by
  have hr : ∀ {r s}, SpellsRDN C r s → s ≠ [] := by
    intro r s h
    cases h with
    | one a s h => obtain ⟨p1, p2, p3, p4, t, -, -, -, -, -, -, -, rfl⟩ := h; simp
    | more a as s s' => simp
  cases h with
  | nil => exact absurd rfl hne
  | one r s h => exact hr h
  | more => simp

/-- C78: every spelling of a valid name, with blanks and other white space around it, is read as that name. (`TrimSpace` must leave the
spelling itself: it may not begin or end in white space, see `C01_trailing_blank_fails`.) -/
theorem C78_read_partial (C : CaseEnv) (hC : C.Lawful) (p : DN) (hp : Rfc4514 p) (s s' : Str) (h : SpellsDN C p s) (ht : C.trimSpace s' = s) :
    parseDN C s' = some p := by
  unfold parseDN parseDNRes
  simp only [ht]
  by_cases hne : p = []
  · subst hne
    cases h
    rfl
  · rw [if_neg (spelled_ne_nil hne h), scan_spelledDN hC [] (rfc4514_nameOk p hp) hne h]
    rfl

/-- C78: spellings of two names reach the same entry (have the same key in the store) exactly if the names are the same up to case. -/
theorem C78_same_entry_partial (C : CaseEnv) (hC : C.Lawful) (p q : DN) (hp : Rfc4514 p) (hq : Rfc4514 q) (s s' t t' : Str) (hs : SpellsDN C p s)
    (hs' : C.trimSpace s' = s) (ht : SpellsDN C q t) (ht' : C.trimSpace t' = t) :
    parseNormalize C s' = parseNormalize C t' ↔ SameName C p q :=
  C03_normal_form_iff_same_name_partial C hC s' t' p q (C78_read_partial C hC p hp s s' hs hs') (C78_read_partial C hC q hq t t' ht ht')
    (fun r hr a ha => (rfc4514_nameOk p hp r hr).2 a ha |>.2) (fun r hr a ha => (rfc4514_nameOk q hq r hr).2 a ha |>.2)

/-- The spelling `UID = Max\2BM\6f\6Fs ;dc= l\,g ` with both cases of hexadecimal digits, a semicolon and blanks. -/
example : SpellsDN asciiCase [[⟨b!"UID", b!"Max+Moos"⟩], [⟨b!"dc", b!"l,g"⟩]] (b!"UID = Max\\2BM\\6f\\6Fs ;dc= l\\,g") := by
  refine .more _ _ _ (b!"UID = Max\\2BM\\6f\\6Fs ") 59 _ (.one _ _ ⟨[], b!" ", b!" ", b!" ", b!"Max\\2BM\\6f\\6Fs", by simp [Blanks], by simp [Blanks], by simp [Blanks],
    by simp [Blanks], ?_, by decide, Or.inr (by decide), by decide⟩) (Or.inr rfl) (.one _ _ (.one _ _ ⟨[], [], b!" ", [], b!"l\\,g", by simp [Blanks], by simp [Blanks],
    by simp [Blanks], by simp [Blanks], ?_, by decide, Or.inl rfl, by decide⟩))
  · exact .plain _ _ _ _ (by decide) (by decide) (by decide) (by decide) <| .plain _ _ _ _ (by decide) (by decide) (by decide) (by decide) <|
      .plain _ _ _ _ (by decide) (by decide) (by decide) (by decide) <|
      .hex _ _ _ 2 11 _ _ (Or.inl (by decide)) (Or.inr (by decide)) <| .plain _ _ _ _ (by decide) (by decide) (by decide) (by decide) <|
      .hex _ _ _ 6 15 _ _ (Or.inl (by decide)) (Or.inr (by decide)) <| .hex _ _ _ 6 15 _ _ (Or.inl (by decide)) (Or.inr (by decide)) <|
      .plain _ _ _ _ (by decide) (by decide) (by decide) (by decide) <| .nil _
  · exact .plain _ _ _ _ (by decide) (by decide) (by decide) (by decide) <| .pair _ _ _ _ (by decide) <|
      .plain _ _ _ _ (by decide) (by decide) (by decide) (by decide) <| .nil _

/-- C78 is false if a blank follows an escaped backslash: the blank becomes part of the value. (RFC 2253 section 4 lets blanks stand there.) -/
theorem C78_blank_after_backslash_fails : parseDN asciiCase (b!"cn=a\\\\ ,dc=lg") = some [[⟨b!"cn", b!"a\\ "⟩], [⟨b!"dc", b!"lg"⟩]] ∧
    parseDN asciiCase (b!"cn=a\\\\,dc=lg") = some [[⟨b!"cn", b!"a\\"⟩], [⟨b!"dc", b!"lg"⟩]] := by decide +kernel

end Idm
