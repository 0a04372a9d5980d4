import Verif.Spec.Name
/-!
# Lemmas on DN parsing and rendering
-/
namespace Idm

/-! ## The escaper, byte by byte -/

theorem escByte_cases : ∀ (f l : Bool) (c : UInt8),
    (escByte f l c = [c] ∧ 32 ≤ c ∧ c ≤ 126 ∧ c ≠ chBackslash ∧ c ≠ chComma ∧ c ≠ chPlus ∧ c ≠ chSemi ∧ c ≠ chHash ∧
      (c = chSpace → f = false ∧ l = false)) ∨
    (escByte f l c = [chBackslash, c] ∧ isEscapable c = true ∧ 32 ≤ c ∧ c ≤ 126) ∨
    (escByte f l c = [chBackslash, hexDigit (c / 16), hexDigit (c % 16)] ∧
      isEscapable (hexDigit (c / 16)) = false ∧ 48 ≤ hexDigit (c / 16) ∧ hexDigit (c / 16) ≤ 102 ∧
      48 ≤ hexDigit (c % 16) ∧ hexDigit (c % 16) ≤ 102 ∧ hexDigit (c % 16) ≠ chBackslash ∧
      hexDigit (c % 16) ≠ chSemi ∧
      hexVal (hexDigit (c / 16)) = some (c / 16) ∧ hexVal (hexDigit (c % 16)) = some (c % 16) ∧
      c / 16 * 16 + c % 16 = c) := by
  decide +kernel

theorem decodeBytes_cons_plain {c : UInt8} {s : Str} (h : c ≠ chBackslash) :
    decodeBytes (c :: s) = (decodeBytes s).map (c :: ·) := by
  rw [decodeBytes.eq_def]; simp [h]

theorem decodeBytes_escByte (f l : Bool) (c : UInt8) (s : Str) :
    decodeBytes (escByte f l c ++ s) = (decodeBytes s).map (c :: ·) := by
  rcases escByte_cases f l c with ⟨h, _, _, hb, _⟩ | ⟨h, he, _⟩ | ⟨h, he, _, _, _, _, _, _, hx, hy, hc⟩
  · rw [h]; exact decodeBytes_cons_plain hb
  · rw [h]; simp only [List.cons_append, List.nil_append]; rw [decodeBytes.eq_def]; simp [he]
  · rw [h]
    simp only [List.cons_append, List.nil_append]
    rw [decodeBytes.eq_def]
    simp [he, hx, hy, hc]

theorem decodeBytes_encodeLoop (f : Bool) (v : Str) : decodeBytes (encodeLoop f v) = some v := by
  induction v generalizing f with
  | nil => rfl
  | cons c cs ih => simp [encodeLoop, decodeBytes_escByte, ih]

theorem encodeLoop_printable (f : Bool) (v : Str) : ∀ c ∈ encodeLoop f v, 32 ≤ c ∧ c ≤ 126 := by
  induction v generalizing f with
  | nil => simp [encodeLoop]
  | cons c cs ih =>
    intro d hd
    simp only [encodeLoop, List.mem_append] at hd
    rcases hd with hd | hd
    · rcases escByte_cases f cs.isEmpty c with ⟨h, h1, h2, _⟩ | ⟨h, _, h1, h2⟩ | ⟨h, _, h1, h2, h3, h4, _⟩
      · rw [h] at hd; simp at hd; subst hd; exact ⟨h1, h2⟩
      · rw [h] at hd; simp at hd
        rcases hd with rfl | rfl
        · decide
        · exact ⟨h1, h2⟩
      · rw [h] at hd; simp at hd
        have key : ∀ x : UInt8, 48 ≤ x ∧ x ≤ 102 → 32 ≤ x ∧ x ≤ 126 := by decide +kernel
        rcases hd with rfl | rfl | rfl
        · decide
        · exact key _ ⟨h1, h2⟩
        · exact key _ ⟨h3, h4⟩
    · exact ih false d hd

theorem isAscii_of_printable {s : Str} (h : ∀ c ∈ s, 32 ≤ c ∧ c ≤ 126) : IsAscii s := by
  have key : ∀ x : UInt8, 32 ≤ x ∧ x ≤ 126 → x < 128 := by decide +kernel
  exact fun c hc => key c (h c hc)

theorem encode_head (v : Str) : (encodeRDNValue v).head? ≠ some chSpace ∧ (encodeRDNValue v).head? ≠ some chHash := by
  cases v with
  | nil => simp [encodeRDNValue, encodeLoop]
  | cons c cs =>
    unfold encodeRDNValue
    rw [encodeLoop]
    rcases escByte_cases true cs.isEmpty c with ⟨h, _, _, _, _, _, _, h1, h2⟩ | ⟨h, _⟩ | ⟨h, _⟩
    · rw [h]; simp; exact ⟨fun e => by simp [e] at h2, h1⟩
    · rw [h]; simp; decide
    · rw [h]; simp; decide

/-- The escaped value ends in a non-blank, or in an escaped blank. -/
theorem encodeLoop_last (f : Bool) (v : Str) (hv : v ≠ []) :
    (∃ pre d, encodeLoop f v = pre ++ [d] ∧ d ≠ chSpace ∧ v.getLast? ≠ some chSpace) ∨
    (∃ pre, encodeLoop f v = pre ++ [chBackslash, chSpace] ∧ v.getLast? = some chSpace) := by
  induction v generalizing f with
  | nil => exact absurd rfl hv
  | cons c cs ih =>
    rw [encodeLoop]
    cases cs with
    | nil =>
      simp only [encodeLoop, List.append_nil, List.getLast?_singleton, List.isEmpty_nil]
      rcases escByte_cases f true c with ⟨h, _, _, _, _, _, _, h1, h2⟩ | ⟨h, _⟩ | ⟨h, _, _, _, h1, h2, _⟩
      · left
        refine ⟨[], c, by simp [h], ?_, ?_⟩
        · intro e; simpa using (h2 e).2
        · intro e; simp at e; simpa using (h2 e).2
      · by_cases hc : c = chSpace
        · right; subst hc; exact ⟨[], by simp [h], by simp⟩
        · left; exact ⟨[chBackslash], c, by simp [h], hc, by simpa using hc⟩
      · left
        refine ⟨[chBackslash, hexDigit (c / 16)], _, by simp [h]; rfl, ?_, ?_⟩
        · intro e; rw [e] at h1; revert h1; decide
        · intro e; simp at e; subst e; revert h; revert f; decide
    | cons c' cs' =>
      have := ih false (by simp)
      rw [show (c :: c' :: cs').getLast? = (c' :: cs').getLast? by simp [List.getLast?_cons]]
      rcases this with ⟨pre, d, h, hd, hl⟩ | ⟨pre, h, hl⟩
      · left; exact ⟨escByte f (c' :: cs').isEmpty c ++ pre, d, by rw [h]; simp, hd, hl⟩
      · right; exact ⟨escByte f (c' :: cs').isEmpty c ++ pre, by rw [h]; simp, hl⟩

theorem dropWhile_eq_self {p : UInt8 → Bool} {s : Str} (h : ∀ c, s.head? = some c → p c = false) :
    s.dropWhile p = s := by
  cases s with
  | nil => rfl
  | cons c cs => simp [List.dropWhile, h c rfl]

theorem trimBy_eq_self {p : UInt8 → Bool} {s : Str} (h : ∀ c, s.head? = some c → p c = false)
    (h' : ∀ c, s.getLast? = some c → p c = false) : trimBy p s = s := by
  unfold trimBy
  rw [dropWhile_eq_self h, dropWhile_eq_self, List.reverse_reverse]
  intro c hc
  exact h' c (by simpa using hc)

theorem stripSpaces_encode (v : Str) : stripSpaces (encodeRDNValue v) = encodeRDNValue v := by
  by_cases hv : v = []
  · subst hv; decide
  have hh := (encode_head v).1
  rcases encodeLoop_last true v hv with ⟨pre, d, h, hd, _⟩ | ⟨pre, h, _⟩
  · have ht : trimBy (· == chSpace) (encodeRDNValue v) = encodeRDNValue v := by
      apply trimBy_eq_self
      · intro c hc; rw [hc] at hh; simpa using hh
      · intro c hc
        unfold encodeRDNValue at hc
        rw [h] at hc; simp at hc; subst hc; simpa using hd
    unfold stripSpaces
    simp only [ht]
    rw [if_neg]
    rintro ⟨_, h2⟩
    unfold encodeRDNValue at h2
    rw [h] at h2; simp at h2; exact hd h2
  · have hE : encodeRDNValue v = (pre ++ [chBackslash]) ++ [chSpace] := by
      unfold encodeRDNValue; rw [h]; simp
    have ht : trimBy (· == chSpace) (encodeRDNValue v) = pre ++ [chBackslash] := by
      have h0 : (encodeRDNValue v).dropWhile (· == chSpace) = encodeRDNValue v := by
        apply dropWhile_eq_self
        intro c hc; rw [hc] at hh; simpa using hh
      unfold trimBy
      rw [h0, hE]
      have h1 : (chBackslash == chSpace) = false := by decide
      simp only [List.reverse_append, List.reverse_cons, List.reverse_nil, List.nil_append, List.cons_append,
        List.dropWhile, beq_self_eq_true, h1, List.reverse_reverse]
    unfold stripSpaces
    simp only [ht]
    rw [if_pos, hE]
    refine ⟨by simp, by rw [hE]; simp⟩

theorem decodeString_encode {C : CaseEnv} (hC : C.Lawful) (v : Str) :
    decodeString C (encodeRDNValue v) = some v := by
  unfold decodeString
  rw [stripSpaces_encode, hC.utf8Fix_ascii (encodeRDNValue v) (isAscii_of_printable (encodeLoop_printable true v))]
  exact decodeBytes_encodeLoop true v

theorem decodeValue_encode {C : CaseEnv} (hC : C.Lawful) (v : Str) :
    decodeValue C (encodeRDNValue v) = some v := by
  have hh := (encode_head v).2
  unfold decodeValue
  split
  · rename_i c rest heq
    rw [heq] at hh
    rw [if_neg (by simpa using hh)]
    exact decodeString_encode hC v
  · exact decodeString_encode hC v

/-! ## Attribute types -/

theorem okTypeByte_facts : ∀ c, okTypeByte c = true →
    33 ≤ c ∧ c ≤ 126 ∧ c ≠ chBackslash ∧ c ≠ chComma ∧ c ≠ chPlus ∧ c ≠ chSemi ∧ c ≠ chEq ∧ c ≠ chSpace ∧
    isSpaceByte c = false ∧ c < 128 ∧ okTypeByte (lowerByte c) = true := by
  decide +kernel

theorem decodeBytes_noBackslash (s : Str) (h : ∀ c ∈ s, c ≠ chBackslash) : decodeBytes s = some s := by
  induction s with
  | nil => rfl
  | cons c cs ih =>
    rw [decodeBytes_cons_plain (h c (by simp)), ih (fun d hd => h d (by simp [hd]))]; rfl

theorem decodeString_type {C : CaseEnv} (hC : C.Lawful) {t : Str} (ht : TypeOk t) : decodeString C t = some t := by
  have hb := fun c hc => okTypeByte_facts c (ht.2 c hc)
  have htrim : trimBy (· == chSpace) t = t := by
    apply trimBy_eq_self
    · intro c hc; simpa using (hb c (List.mem_of_mem_head? hc)).2.2.2.2.2.2.2.1
    · intro c hc; simpa using (hb c (List.mem_of_mem_getLast? hc)).2.2.2.2.2.2.2.1
  unfold decodeString stripSpaces
  simp only [htrim]
  rw [if_neg, hC.utf8Fix_ascii]
  · exact decodeBytes_noBackslash t fun c hc => (hb c hc).2.2.1
  · intro c hc; exact (hb c hc).2.2.2.2.2.2.2.2.2.1
  · rintro ⟨h1, _⟩
    exact (hb _ (List.mem_of_mem_getLast? h1)).2.2.1 rfl

theorem fold_ascii {C : CaseEnv} (hC : C.Lawful) {s : Str} (h : IsAscii s) : C.fold s = s.map lowerByte := by
  induction s with
  | nil => exact hC.fold_nil
  | cons c cs ih =>
    have := hC.fold_split [] c cs (h c (by simp))
    simp only [List.nil_append, hC.fold_nil] at this
    rw [this, ih (fun d hd => h d (by simp [hd]))]; rfl

theorem fold_typeOk {C : CaseEnv} (hC : C.Lawful) {t : Str} (ht : TypeOk t) : TypeOk (C.fold t) := by
  have hb := fun c hc => okTypeByte_facts c (ht.2 c hc)
  rw [fold_ascii hC (fun c hc => (hb c hc).2.2.2.2.2.2.2.2.2.1)]
  refine ⟨by simpa using ht.1, ?_⟩
  intro c hc
  simp only [List.mem_map] at hc
  obtain ⟨d, hd, rfl⟩ := hc
  exact (hb d hd).2.2.2.2.2.2.2.2.2.2

/-! ## Scanning rendered names -/

theorem scan_cons {C : CaseEnv} {st st' : ScanSt} {c : UInt8} {cs : Str} (h : scanStep C st c = .ok st') :
    scan C st (c :: cs) = scan C st' cs := by
  rw [scan, h]

theorem scanStep_plain {C : CaseEnv} {st : ScanSt} {c : UInt8} (h0 : st.esc = false) (h1 : c ≠ chBackslash)
    (h2 : c = chEq → st.typ ≠ []) (h3 : c ≠ chComma) (h4 : c ≠ chPlus) (h5 : c ≠ chSemi) :
    scanStep C st c = .ok { st with cur := st.cur ++ [c] } := by
  unfold scanStep
  rw [if_neg (by simp [h0]), if_neg h1, if_neg (by rintro ⟨a, b⟩; exact h2 a b), if_neg (by simp [h3, h4, h5])]

theorem scanStep_bs {C : CaseEnv} {st : ScanSt} (h0 : st.esc = false) :
    scanStep C st chBackslash = .ok { st with esc := true, cur := st.cur ++ [chBackslash] } := by
  unfold scanStep; rw [if_neg (by simp [h0]), if_pos rfl]

theorem scanStep_esc {C : CaseEnv} {st : ScanSt} {c : UInt8} (h0 : st.esc = true) :
    scanStep C st c = .ok { st with esc := false, cur := st.cur ++ [c] } := by
  unfold scanStep; rw [if_pos h0]

theorem scan_type {C : CaseEnv} (dn : DN) (rdn : RDN) (t cur rest : Str) (ht : ∀ c ∈ t, okTypeByte c = true) :
    scan C ⟨dn, rdn, [], cur, false⟩ (t ++ rest) = scan C ⟨dn, rdn, [], cur ++ t, false⟩ rest := by
  induction t generalizing cur with
  | nil => simp
  | cons c cs ih =>
    have hb := okTypeByte_facts c (ht c (by simp))
    rw [List.cons_append, scan_cons (scanStep_plain rfl hb.2.2.1 (fun e => absurd e hb.2.2.2.2.2.2.1)
      hb.2.2.2.1 hb.2.2.2.2.1 hb.2.2.2.2.2.1)]
    rw [ih _ (fun d hd => ht d (by simp [hd]))]
    simp

theorem scan_escByte {C : CaseEnv} (dn : DN) (rdn : RDN) (t cur rest : Str) (ht : t ≠ []) (f l : Bool) (c : UInt8) :
    scan C ⟨dn, rdn, t, cur, false⟩ (escByte f l c ++ rest) =
      scan C ⟨dn, rdn, t, cur ++ escByte f l c, false⟩ rest := by
  rcases escByte_cases f l c with ⟨h, _, _, hb, h1, h2, h3, _⟩ | ⟨h, _⟩ | ⟨h, _, _, _, h3, h4, h5, h6, _⟩
  · rw [h]; exact scan_cons (scanStep_plain rfl hb (fun _ => ht) h1 h2 h3)
  · rw [h]
    simp only [List.cons_append, List.nil_append]
    rw [scan_cons (scanStep_bs rfl), scan_cons (scanStep_esc rfl)]
    simp
  · rw [h]
    simp only [List.cons_append, List.nil_append]
    have key : ∀ x : UInt8, 48 ≤ x ∧ x ≤ 102 → x ≠ chComma ∧ x ≠ chPlus := by decide +kernel
    rw [scan_cons (scanStep_bs rfl), scan_cons (scanStep_esc rfl),
      scan_cons (scanStep_plain rfl h5 (fun _ => ht) (key _ ⟨h3, h4⟩).1 (key _ ⟨h3, h4⟩).2 h6)]
    simp

theorem scan_encodeLoop {C : CaseEnv} (dn : DN) (rdn : RDN) (t cur rest : Str) (ht : t ≠ []) (f : Bool) (v : Str) :
    scan C ⟨dn, rdn, t, cur, false⟩ (encodeLoop f v ++ rest) =
      scan C ⟨dn, rdn, t, cur ++ encodeLoop f v, false⟩ rest := by
  induction v generalizing f cur with
  | nil => simp [encodeLoop]
  | cons c cs ih => rw [encodeLoop, List.append_assoc, scan_escByte _ _ _ _ _ ht, ih]; simp

theorem scan_ava {C : CaseEnv} (hC : C.Lawful) (dn : DN) (rdn : RDN) (a : AVA) (ha : TypeOk a.typ) (rest : Str) :
    scan C ⟨dn, rdn, [], [], false⟩ (a.typ ++ ([chEq] ++ (encodeRDNValue a.val ++ rest))) =
      scan C ⟨dn, rdn, a.typ, encodeRDNValue a.val, false⟩ rest := by
  rw [scan_type _ _ _ _ _ ha.2]
  simp only [List.nil_append, List.cons_append]
  have : scanStep C ⟨dn, rdn, [], a.typ, false⟩ chEq = .ok ⟨dn, rdn, a.typ, [], false⟩ := by
    unfold scanStep
    simp only [Bool.false_eq_true, if_false]
    rw [if_neg (by decide), if_pos (by simp), decodeString_type hC ha]
  rw [scan_cons this]
  unfold encodeRDNValue
  rw [scan_encodeLoop _ _ _ _ _ ha.1]
  simp

theorem scanStep_sep {C : CaseEnv} (hC : C.Lawful) (dn : DN) (rdn : RDN) (a : AVA) (ha : TypeOk a.typ) (c : UInt8)
    (hc : c = chComma ∨ c = chPlus ∨ c = chSemi) :
    scanStep C ⟨dn, rdn, a.typ, encodeRDNValue a.val, false⟩ c =
      .ok (if c = chPlus then ⟨dn, rdn ++ [a], [], [], false⟩ else ⟨dn ++ [rdn ++ [a]], [], [], [], false⟩) := by
  unfold scanStep
  have h1 : c ≠ chBackslash := by rcases hc with rfl | rfl | rfl <;> decide
  have h2 : c ≠ chEq := by rcases hc with rfl | rfl | rfl <;> decide
  simp only [Bool.false_eq_true, if_false]
  rw [if_neg h1, if_neg (by simp [h2]), if_pos hc, if_neg ha.1, decodeValue_encode hC]
  by_cases h : c = chPlus <;> simp [h]

/-- An RDN followed by a comma is appended to the DN. -/
theorem scan_rdn_comma {C : CaseEnv} (hC : C.Lawful) (dn : DN) (rdn : RDN) (a : AVA) (as : RDN)
    (h : ∀ x ∈ a :: as, TypeOk x.typ) (rest : Str) :
    scan C ⟨dn, rdn, [], [], false⟩ (renderRDN [] (a :: as) ++ chComma :: rest) =
      scan C ⟨dn ++ [rdn ++ a :: as], [], [], [], false⟩ rest := by
  induction as generalizing a rdn with
  | nil =>
    simp only [renderRDN, List.append_assoc, List.nil_append]
    rw [scan_ava hC _ _ _ (h a (by simp)), scan_cons (scanStep_sep hC _ _ _ (h a (by simp)) _ (Or.inl rfl)),
      if_neg (by decide)]
  | cons b bs ih =>
    have e : renderRDN [] (a :: b :: bs) ++ chComma :: rest =
        a.typ ++ ([chEq] ++ (encodeRDNValue a.val ++ (chPlus :: (renderRDN [] (b :: bs) ++ chComma :: rest)))) := by
      simp [renderRDN]
    rw [e, scan_ava hC _ _ _ (h a (by simp)),
      scan_cons (scanStep_sep hC _ _ _ (h a (by simp)) _ (Or.inr (Or.inl rfl))), if_pos rfl,
      ih _ _ (fun x hx => h x (by simp at hx ⊢; right; exact hx))]
    simp

/-- The last RDN ends the DN. -/
theorem scan_rdn_end {C : CaseEnv} (hC : C.Lawful) (dn : DN) (rdn : RDN) (a : AVA) (as : RDN)
    (h : ∀ x ∈ a :: as, TypeOk x.typ) :
    scanFinish C (scan C ⟨dn, rdn, [], [], false⟩ (renderRDN [] (a :: as))) = .ok (dn ++ [rdn ++ a :: as]) := by
  induction as generalizing a rdn with
  | nil =>
    have ha := h a (by simp)
    have e : renderRDN [] [a] = a.typ ++ ([chEq] ++ (encodeRDNValue a.val ++ [])) := by simp [renderRDN]
    rw [e, scan_ava hC _ _ _ ha, scan]
    simp only [scanFinish, scanEnd]
    rw [if_neg ha.1, decodeValue_encode hC]
  | cons b bs ih =>
    have e : renderRDN [] (a :: b :: bs) =
        a.typ ++ ([chEq] ++ (encodeRDNValue a.val ++ (chPlus :: (renderRDN [] (b :: bs))))) := by
      simp [renderRDN]
    rw [e, scan_ava hC _ _ _ (h a (by simp)),
      scan_cons (scanStep_sep hC _ _ _ (h a (by simp)) _ (Or.inr (Or.inl rfl))), if_pos rfl,
      ih _ _ (fun x hx => h x (by simp at hx ⊢; right; exact hx))]
    simp

theorem renderRDN_sep (sep : Str) (a : AVA) (as : RDN) : renderRDN sep (a :: as) = sep ++ renderRDN [] (a :: as) := by
  simp [renderRDN]

theorem scan_dn {C : CaseEnv} (hC : C.Lawful) (dn : DN) (r : RDN) (rs : DN) (h : NameOk (r :: rs)) :
    scanFinish C (scan C ⟨dn, [], [], [], false⟩ (renderFrom [] (r :: rs))) = .ok (dn ++ r :: rs) := by
  induction rs generalizing r dn with
  | nil =>
    obtain ⟨hne, ht⟩ := h r (by simp)
    cases r with
    | nil => exact absurd rfl hne
    | cons a as =>
      simp only [renderFrom, List.append_nil]
      simpa using scan_rdn_end hC dn [] a as ht
  | cons r' rs ih =>
    obtain ⟨hne, ht⟩ := h r (by simp)
    have hr' := (h r' (by simp)).1
    cases r with
    | nil => exact absurd rfl hne
    | cons a as =>
      cases r' with
      | nil => exact absurd rfl hr'
      | cons b bs =>
        have e : renderFrom [] ((a :: as) :: (b :: bs) :: rs) =
            renderRDN [] (a :: as) ++ chComma :: renderFrom [] ((b :: bs) :: rs) := by
          simp only [renderFrom]
          rw [renderRDN_sep [chComma]]
          simp
        rw [e, scan_rdn_comma hC _ _ _ _ ht, ih _ _ (fun x hx => h x (List.mem_cons_of_mem _ hx))]
        simp

/-! ## Trimming a rendered name -/

theorem renderRDN_printable (sep : Str) (hs : ∀ c ∈ sep, 32 ≤ c ∧ c ≤ 126) (r : RDN) (h : ∀ a ∈ r, TypeOk a.typ) :
    ∀ c ∈ renderRDN sep r, 32 ≤ c ∧ c ≤ 126 := by
  induction r generalizing sep with
  | nil => simp [renderRDN]
  | cons a as ih =>
    intro c hc
    simp only [renderRDN, List.mem_append] at hc
    have key : ∀ x : UInt8, 33 ≤ x → 32 ≤ x := by decide +kernel
    rcases hc with (((hc | hc) | hc) | hc) | hc
    · exact hs c hc
    · have := okTypeByte_facts c ((h a (by simp)).2 c hc)
      exact ⟨key c this.1, this.2.1⟩
    · simp at hc; subst hc; decide
    · exact encodeLoop_printable _ _ c hc
    · exact ih [chPlus] (by simp; decide) (fun x hx => h x (by simp [hx])) c hc

theorem renderFrom_printable (sep : Str) (hs : ∀ c ∈ sep, 32 ≤ c ∧ c ≤ 126) (dn : DN) (h : NameOk dn) :
    ∀ c ∈ renderFrom sep dn, 32 ≤ c ∧ c ≤ 126 := by
  induction dn generalizing sep with
  | nil => simp [renderFrom]
  | cons r rs ih =>
    intro c hc
    simp only [renderFrom, List.mem_append] at hc
    rcases hc with hc | hc
    · exact renderRDN_printable sep hs r (h r (by simp)).2 c hc
    · exact ih [chComma] (by simp; decide) (fun x hx => h x (by simp [hx])) c hc

theorem render_printable (dn : DN) (h : NameOk dn) : ∀ c ∈ render dn, 32 ≤ c ∧ c ≤ 126 :=
  renderFrom_printable [] (by simp) dn h

theorem renderRDN_last (sep : Str) (r : RDN) (hne : r ≠ []) (h : ∀ a, r.getLast? = some a → a.val.getLast? ≠ some chSpace) :
    ∃ pre d, renderRDN sep r = pre ++ [d] ∧ d ≠ chSpace := by
  induction r generalizing sep with
  | nil => exact absurd rfl hne
  | cons a as ih =>
    cases as with
    | nil =>
      simp only [renderRDN, List.append_nil]
      by_cases hv : a.val = []
      · exact ⟨sep ++ a.typ, chEq, by simp [hv, encodeRDNValue, encodeLoop], by decide⟩
      · rcases encodeLoop_last true a.val hv with ⟨pre, d, h1, h2, _⟩ | ⟨_, _, h2⟩
        · exact ⟨sep ++ a.typ ++ [chEq] ++ pre, d, by unfold encodeRDNValue; rw [h1]; simp, h2⟩
        · exact absurd h2 (h a (by simp))
    | cons b bs =>
      obtain ⟨pre, d, h1, h2⟩ := ih [chPlus] (by simp) (by
        intro x hx; apply h x; rw [List.getLast?_cons]; simp [hx])
      exact ⟨sep ++ a.typ ++ [chEq] ++ encodeRDNValue a.val ++ pre, d, by rw [renderRDN, h1]; simp, h2⟩

theorem renderFrom_last (sep : Str) (dn : DN) (hne : dn ≠ []) (hok : NameOk dn) (h : EndOk dn) :
    ∃ pre d, renderFrom sep dn = pre ++ [d] ∧ d ≠ chSpace := by
  induction dn generalizing sep with
  | nil => exact absurd rfl hne
  | cons r rs ih =>
    cases rs with
    | nil =>
      simp only [renderFrom, List.append_nil]
      apply renderRDN_last _ _ (hok r (by simp)).1
      intro a ha
      simpa [EndOk, ha] using h
    | cons r' rs' =>
      obtain ⟨pre, d, h1, h2⟩ := ih [chComma] (by simp) (fun x hx => hok x (by simp [hx])) (by
        unfold EndOk at h ⊢; rw [List.getLast?_cons] at h; simpa [List.getLast?_cons] using h)
      exact ⟨renderRDN sep r ++ pre, d, by rw [renderFrom, h1]; simp, h2⟩

theorem render_head (dn : DN) (hok : NameOk dn) (c : UInt8) (hc : (render dn).head? = some c) : okTypeByte c = true := by
  cases dn with
  | nil => simp [render, renderFrom] at hc
  | cons r rs =>
    obtain ⟨hne, ht⟩ := hok r (by simp)
    cases r with
    | nil => exact absurd rfl hne
    | cons a as =>
      have ha := ht a (by simp)
      apply ha.2
      cases hx : a.typ with
      | nil => exact absurd hx ha.1
      | cons x xs =>
        simp [render, renderFrom, renderRDN, hx] at hc
        simp [hc]

theorem trim_render {C : CaseEnv} (hC : C.Lawful) (dn : DN) (hok : NameOk dn) (h : EndOk dn) :
    C.trimSpace (render dn) = render dn := by
  have hp := render_printable dn hok
  rw [hC.trimSpace_ascii _ (isAscii_of_printable hp)]
  apply trimBy_eq_self
  · intro c hc
    exact (okTypeByte_facts c (render_head dn hok c hc)).2.2.2.2.2.2.2.2.1
  · intro c hc
    by_cases hd : dn = []
    · subst hd; simp [render, renderFrom] at hc
    · obtain ⟨pre, d, h1, h2⟩ := renderFrom_last [] dn hd hok h
      unfold render at hc hp
      have h3 := hp d (by rw [h1]; simp)
      rw [h1] at hc; simp at hc; subst hc
      have key : ∀ x : UInt8, 32 ≤ x → x ≠ chSpace → isSpaceByte x = false := by decide +kernel
      exact key _ h3.1 h2

theorem render_ne_nil {dn : DN} (hok : NameOk dn) (h : dn ≠ []) : render dn ≠ [] := by
  cases dn with
  | nil => exact absurd rfl h
  | cons r rs =>
    obtain ⟨hne, ht⟩ := hok r (by simp)
    cases r with
    | nil => exact absurd rfl hne
    | cons a as =>
      simp [render, renderFrom, renderRDN]

/-- Parsing a rendered name gives the name back. -/
theorem parseDNRes_render {C : CaseEnv} (hC : C.Lawful) (dn : DN) (hok : NameOk dn) (h : EndOk dn) :
    parseDNRes C (render dn) = .ok dn := by
  unfold parseDNRes
  simp only [trim_render hC dn hok h]
  cases dn with
  | nil => rfl
  | cons r rs =>
    rw [if_neg (render_ne_nil hok (by simp))]
    simpa [render] using scan_dn hC [] r rs hok

theorem parseDN_render {C : CaseEnv} (hC : C.Lawful) (dn : DN) (hok : NameOk dn) (h : EndOk dn) :
    parseDN C (render dn) = some dn := by
  simp [parseDN, parseDNRes_render hC dn hok h]

/-! ## A blank at the end -/

theorem scan_append_ok {C : CaseEnv} (st : ScanSt) (s t : Str) :
    scan C st (s ++ t) = match scan C st s with
      | .error e => .error e
      | .ok st' => scan C st' t := by
  induction s generalizing st with
  | nil => simp [scan]
  | cons c cs ih =>
    rw [List.cons_append, scan, scan]
    cases h : scanStep C st c with
    | error e => rfl
    | ok st' => exact ih st'

/-- Where the value that comes last begins. -/
theorem scan_last_rdn {C : CaseEnv} (hC : C.Lawful) (dn : DN) (rdn : RDN) (a : AVA) (as : RDN) (h : ∀ x ∈ a :: as, TypeOk x.typ) :
    ∃ pre v rdn' t, renderRDN [] (a :: as) = pre ++ encodeRDNValue v ∧ (a :: as).getLast?.map AVA.val = some v ∧ t ≠ [] ∧
      scan C ⟨dn, rdn, [], [], false⟩ pre = .ok ⟨dn, rdn', t, [], false⟩ := by
  induction as generalizing a rdn with
  | nil =>
    have ha := h a (by simp)
    refine ⟨a.typ ++ [chEq], a.val, rdn, a.typ, by simp [renderRDN], rfl, ha.1, ?_⟩
    have := scan_ava hC dn rdn ⟨a.typ, []⟩ ha []
    simpa [encodeRDNValue, encodeLoop, scan] using this
  | cons b bs ih =>
    obtain ⟨pre, v, rdn', t, h1, h2, h3, h4⟩ := ih (rdn ++ [a]) b (fun x hx => h x (by simp at hx ⊢; right; exact hx))
    refine ⟨a.typ ++ ([chEq] ++ (encodeRDNValue a.val ++ (chPlus :: pre))), v, rdn', t, ?_, by simpa [List.getLast?_cons] using h2, h3, ?_⟩
    · have e : renderRDN [] (a :: b :: bs) =
          a.typ ++ ([chEq] ++ (encodeRDNValue a.val ++ (chPlus :: (renderRDN [] (b :: bs))))) := by
        simp [renderRDN]
      rw [e, h1]
      simp
    · rw [scan_ava hC _ _ _ (h a (by simp)), scan_cons (scanStep_sep hC _ _ _ (h a (by simp)) _ (Or.inr (Or.inl rfl))), if_pos rfl, h4]

theorem scan_last {C : CaseEnv} (hC : C.Lawful) (dn : DN) (r : RDN) (rs : DN) (h : NameOk (r :: rs)) :
    ∃ pre v st, renderFrom [] (r :: rs) = pre ++ encodeRDNValue v ∧ (((r :: rs).getLast?.bind List.getLast?).map AVA.val) = some v ∧ st.typ ≠ [] ∧
      st.cur = [] ∧ st.esc = false ∧ scan C ⟨dn, [], [], [], false⟩ pre = .ok st := by
  induction rs generalizing r dn with
  | nil =>
    obtain ⟨hne, ht⟩ := h r (by simp)
    cases r with
    | nil => exact absurd rfl hne
    | cons a as =>
      obtain ⟨pre, v, rdn', t, h1, h2, h3, h4⟩ := scan_last_rdn hC dn [] a as ht
      exact ⟨pre, v, _, by simp [renderFrom, h1], by simpa using h2, h3, rfl, rfl, h4⟩
  | cons r' rs ih =>
    obtain ⟨hne, ht⟩ := h r (by simp)
    have hr' := (h r' (by simp)).1
    cases r with
    | nil => exact absurd rfl hne
    | cons a as =>
      cases r' with
      | nil => exact absurd rfl hr'
      | cons b bs =>
        have e : renderFrom [] ((a :: as) :: (b :: bs) :: rs) =
            renderRDN [] (a :: as) ++ chComma :: renderFrom [] ((b :: bs) :: rs) := by
          simp only [renderFrom]
          rw [renderRDN_sep [chComma]]
          simp
        obtain ⟨pre, v, st, h1, h2, h3, h4, h5, h6⟩ := ih (dn ++ [[] ++ a :: as]) _ (fun x hx => h x (List.mem_cons_of_mem _ hx))
        refine ⟨renderRDN [] (a :: as) ++ chComma :: pre, v, st, by rw [e, h1]; simp, by simpa [List.getLast?_cons] using h2, h3, h4, h5, ?_⟩
        rw [scan_rdn_comma hC _ _ _ _ ht, h6]

/-- A value that ends in an escaped blank, without the blank: what is left cannot be decoded. -/
theorem decodeBytes_cut (f : Bool) (v pre : Str) (h : encodeLoop f v = pre ++ [chBackslash, chSpace]) (hl : v.getLast? = some chSpace) :
    decodeBytes (pre ++ [chBackslash]) = none := by
  induction v generalizing f pre with
  | nil => simp at hl
  | cons c cs ih =>
    rw [encodeLoop] at h
    cases cs with
    | nil =>
      simp at hl
      subst hl
      have : ∀ f, escByte f true chSpace = [chBackslash, chSpace] := by decide
      simp only [List.isEmpty_nil, encodeLoop, List.append_nil, this] at h
      have hp : pre = [] := by
        have := congrArg List.length h
        simp at this
        exact this
      subst hp
      decide
    | cons c' cs' =>
      rcases encodeLoop_last false (c' :: cs') (by simp) with ⟨_, _, _, _, h2⟩ | ⟨p, h1, h2⟩
      · exact absurd (by simpa [List.getLast?_cons] using hl) h2
      · rw [h1, ← List.append_assoc] at h
        have := List.append_inj_left' h rfl
        rw [← this, List.append_assoc, decodeBytes_escByte, ih false p h1 h2]
        rfl

/-- A name whose last value ends in a blank cannot be parsed once it is rendered. -/
theorem parseDN_render_blank {C : CaseEnv} (hC : C.Lawful) (dn : DN) (hok : NameOk dn) (h : ¬ EndOk dn) : parseDN C (render dn) = none := by
  cases dn with
  | nil => simp [EndOk] at h
  | cons r rs =>
    obtain ⟨pre, v, st, h1, h2, h3, h4, h5, h6⟩ := scan_last hC [] r rs hok
    have hl : v.getLast? = some chSpace := by
      obtain ⟨a, ha, hv⟩ := Option.map_eq_some_iff.1 h2
      simp only [EndOk, ha, Option.bind_some, ne_eq, Decidable.not_not] at h
      rw [← hv]; exact h
    have hvne : v ≠ [] := by intro e; rw [e] at hl; cases hl
    obtain ⟨p, hp⟩ : ∃ p, encodeLoop true v = p ++ [chBackslash, chSpace] := by
      rcases encodeLoop_last true v hvne with ⟨_, _, _, _, h⟩ | ⟨p, h, _⟩
      · exact absurd hl h
      · exact ⟨p, h⟩
    have hr : render (r :: rs) = (pre ++ p ++ [chBackslash]) ++ [chSpace] := by
      unfold render
      rw [h1, encodeRDNValue, hp]
      simp
    have hprint := render_printable (r :: rs) hok
    have htrim : C.trimSpace (render (r :: rs)) = pre ++ p ++ [chBackslash] := by
      rw [hC.trimSpace_ascii _ (isAscii_of_printable hprint)]
      have h0 : (render (r :: rs)).dropWhile isSpaceByte = render (r :: rs) :=
        dropWhile_eq_self fun c hc => (okTypeByte_facts c (render_head _ hok c hc)).2.2.2.2.2.2.2.2.1
      unfold trimBy
      rw [h0, hr]
      have e1 : isSpaceByte chSpace = true := by decide
      have e2 : isSpaceByte chBackslash = false := by decide
      simp only [List.reverse_append, List.reverse_cons, List.reverse_nil, List.nil_append, List.cons_append, List.dropWhile, e1, e2]
      simp
    obtain ⟨dn', rdn', t, cur, esc⟩ := st
    simp only at h3 h4 h5
    subst h4 h5
    have hscan : ∃ esc, scan C {} (pre ++ (p ++ [chBackslash])) = .ok ⟨dn', rdn', t, p ++ [chBackslash], esc⟩ := by
      rw [scan_append_ok, h6]
      have hfull := scan_encodeLoop (C := C) dn' rdn' t [] [] h3 true v
      rw [List.append_nil, hp, show p ++ [chBackslash, chSpace] = (p ++ [chBackslash]) ++ [chSpace] by simp, scan_append_ok] at hfull
      simp only [List.nil_append, scan] at hfull
      cases hs : scan C ⟨dn', rdn', t, [], false⟩ (p ++ [chBackslash]) with
      | error e => rw [hs] at hfull; cases hfull
      | ok s =>
        rw [hs] at hfull
        dsimp only at hfull
        refine ⟨s.esc, ?_⟩
        dsimp only
        rw [hs]
        refine congrArg Except.ok ?_
        have key : scanStep C s chSpace = .ok { s with esc := false, cur := s.cur ++ [chSpace] } := by
          unfold scanStep
          cases s.esc <;> simp [show chSpace ≠ chBackslash by decide, show chSpace ≠ chEq by decide, show chSpace ≠ chComma by decide,
            show chSpace ≠ chPlus by decide, show chSpace ≠ chSemi by decide]
        rw [key] at hfull
        simp only [Except.ok.injEq, ScanSt.mk.injEq] at hfull
        obtain ⟨g1, g2, g3, g4, -⟩ := hfull
        have g5 := List.append_inj_left' g4 rfl
        obtain ⟨a1, a2, a3, a4, a5⟩ := s
        simp only at g1 g2 g3 g5
        subst g1 g2 g3 g5
        rfl
    obtain ⟨esc, hscan⟩ := hscan
    have hdec : decodeValue C (p ++ [chBackslash]) = none := by
      have hh := encode_head v
      have hpre : ∀ c, (p ++ [chBackslash]).head? = some c → (encodeRDNValue v).head? = some c := by
        intro c hc
        rw [encodeRDNValue, hp, show p ++ [chBackslash, chSpace] = (p ++ [chBackslash]) ++ [chSpace] by simp, List.head?_append, hc]
        rfl
      have hstrip : stripSpaces (p ++ [chBackslash]) = p ++ [chBackslash] := by
        have : trimBy (· == chSpace) (p ++ [chBackslash]) = p ++ [chBackslash] := by
          apply trimBy_eq_self
          · intro c hc
            have := hpre c hc
            rw [this] at hh
            simpa using hh.1
          · intro c hc
            simp at hc
            subst hc
            decide
        unfold stripSpaces
        simp only [this]
        rw [if_neg]
        rintro ⟨_, h2⟩
        simp at h2
        exact absurd h2 (by decide)
      have hasc : IsAscii (p ++ [chBackslash]) := by
        apply isAscii_of_printable
        intro c hc
        refine encodeLoop_printable true v c ?_
        rw [hp]
        simp at hc ⊢
        rcases hc with hc | hc
        · exact Or.inl hc
        · exact Or.inr (Or.inl hc)
      have hs : decodeString C (p ++ [chBackslash]) = none := by
        unfold decodeString
        rw [hstrip, hC.utf8Fix_ascii _ hasc]
        exact decodeBytes_cut true v p hp hl
      unfold decodeValue
      split
      · rename_i c rest heq
        have := hpre c (by rw [heq]; rfl)
        rw [this] at hh
        rw [if_neg (by simpa using hh.2)]
        exact hs
      · exact hs
    unfold parseDN parseDNRes
    simp only [htrim, List.append_assoc, hscan, scanFinish, scanEnd, hdec]
    rw [if_neg (by simp), if_neg h3]

/-! ## Rendering is injective -/

theorem render_injective (p q : DN) (hp : NameOk p) (hq : NameOk q) (h : render p = render q) : p = q := by
  have hC := asciiCase_lawful
  cases p with
  | nil =>
    cases q with
    | nil => rfl
    | cons r rs => exact absurd h.symm (render_ne_nil hq (by simp))
  | cons r rs =>
    cases q with
    | nil => exact absurd h (render_ne_nil hp (by simp))
    | cons r' rs' =>
      have h1 := scan_dn hC [] r rs hp
      have h2 := scan_dn hC [] r' rs' hq
      unfold render at h
      rw [h] at h1
      rw [h1] at h2
      simpa using h2

/-! ## What the parser delivers -/

/-- Every RDN has an attribute and every attribute has a type. -/
def ShapeOk (dn : DN) : Prop := ∀ r ∈ dn, r ≠ [] ∧ ∀ a ∈ r, a.typ ≠ []

theorem scanStep_shape {C : CaseEnv} {st st' : ScanSt} {c : UInt8} (h : scanStep C st c = .ok st')
    (h1 : ShapeOk st.dn) (h2 : ∀ a ∈ st.rdn, a.typ ≠ []) : ShapeOk st'.dn ∧ ∀ a ∈ st'.rdn, a.typ ≠ [] := by
  unfold scanStep at h
  split at h
  · cases h; exact ⟨h1, h2⟩
  split at h
  · cases h; exact ⟨h1, h2⟩
  split at h
  · split at h
    · cases h
    · cases h; exact ⟨h1, h2⟩
  split at h
  · split at h
    · cases h
    · rename_i hne
      split at h
      · cases h
      · rename_i v _
        have h3 : ∀ a ∈ st.rdn ++ [⟨st.typ, v⟩], a.typ ≠ [] := by
          intro a ha
          simp only [List.mem_append, List.mem_singleton] at ha
          rcases ha with ha | rfl
          · exact h2 a ha
          · exact hne
        dsimp only at h
        split at h
        · cases h; exact ⟨h1, h3⟩
        · cases h
          refine ⟨?_, by simp⟩
          intro r hr
          simp only [List.mem_append, List.mem_singleton] at hr
          rcases hr with hr | rfl
          · exact h1 r hr
          · exact ⟨by simp, h3⟩
  · cases h; exact ⟨h1, h2⟩

theorem scan_shape {C : CaseEnv} {st st' : ScanSt} {s : Str} (h : scan C st s = .ok st')
    (h1 : ShapeOk st.dn) (h2 : ∀ a ∈ st.rdn, a.typ ≠ []) : ShapeOk st'.dn ∧ ∀ a ∈ st'.rdn, a.typ ≠ [] := by
  induction s generalizing st with
  | nil => cases h; exact ⟨h1, h2⟩
  | cons c cs ih =>
    rw [scan] at h
    split at h
    · cases h
    · rename_i st1 hs
      have := scanStep_shape hs h1 h2
      exact ih h this.1 this.2

theorem parseDN_shape {C : CaseEnv} {s : Str} {dn : DN} (h : parseDN C s = some dn) : ShapeOk dn := by
  unfold parseDN at h
  split at h
  · rename_i d hd
    cases h
    unfold parseDNRes at hd
    dsimp only at hd
    split at hd
    · cases hd; intro r hr; simp at hr
    · unfold scanFinish at hd
      split at hd
      · cases hd
      · rename_i st hst
        have hs := scan_shape hst (by intro r hr; simp at hr) (by simp)
        unfold scanEnd at hd
        split at hd
        · cases hd
        · rename_i hne
          split at hd
          · cases hd
          · rename_i v _
            cases hd
            intro r hr
            simp only [List.mem_append, List.mem_singleton] at hr
            rcases hr with hr | rfl
            · exact hs.1 r hr
            · refine ⟨by simp, ?_⟩
              intro a ha
              simp only [List.mem_append, List.mem_singleton] at ha
              rcases ha with ha | rfl
              · exact hs.2 a ha
              · exact hne
  · cases h

theorem foldDN_nameOk {C : CaseEnv} (hC : C.Lawful) {dn : DN} (h : NameOk dn) : NameOk (foldDN C dn) := by
  intro r hr
  simp only [foldDN, List.mem_map] at hr
  obtain ⟨r0, hr0, rfl⟩ := hr
  refine ⟨by simpa using (h r0 hr0).1, ?_⟩
  intro a ha
  simp only [List.mem_map] at ha
  obtain ⟨a0, ha0, rfl⟩ := ha
  exact fold_typeOk hC ((h r0 hr0).2 a0 ha0)

theorem foldDN_endOk {C : CaseEnv} (hC : C.Lawful) {dn : DN} (h : EndOk dn) : EndOk (foldDN C dn) := by
  unfold EndOk foldDN at *
  rw [List.getLast?_map]
  cases h1 : dn.getLast? with
  | none => simp
  | some r =>
    simp only [Option.map_some, Option.bind_some, List.getLast?_map]
    cases h2 : r.getLast? with
    | none => simp
    | some a =>
      simp only [Option.map_some, Option.bind_some]
      simp only [h1, h2, Option.bind_some] at h
      exact fun e => h (hC.fold_space _ e)

theorem foldDN_idem {C : CaseEnv} (hC : C.Lawful) (dn : DN) : foldDN C (foldDN C dn) = foldDN C dn := by
  simp [foldDN, Function.comp_def, hC.fold_idem]

theorem foldDN_length {C : CaseEnv} (dn : DN) : (foldDN C dn).length = dn.length := by simp [foldDN]

theorem sameName_iff_foldDN {C : CaseEnv} (p q : DN) : SameName C p q ↔ foldDN C p = foldDN C q := by
  have key : ∀ d : DN, d.map (·.map fun a => (C.fold a.typ, C.fold a.val)) =
      (foldDN C d).map (·.map fun a => (a.typ, a.val)) := by
    intro d; simp [foldDN, Function.comp_def]
  unfold SameName
  rw [key p, key q]
  constructor
  · intro h
    have inj : ∀ a b : AVA, (a.typ, a.val) = (b.typ, b.val) → a = b := by
      intro a b e; cases a; cases b; simpa using e
    exact (List.map_inj_right fun _ _ => (List.map_inj_right inj).1).1 h
  · intro h; rw [h]

end Idm
