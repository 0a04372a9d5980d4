import Verif.Proofs.Template
import Verif.Proofs.DN
import Verif.Model.Server
import Verif.Model.Startup
import Verif.Model.Ldif
import Verif.Model.FilterText
import Verif.Model.NewUsers
import Verif.Model.Wire
import Verif.Model.Filter
import Verif.Model.LdifFormat

/-!
# The words the specifications share with the model

Some specifications name a constant or a function on texts that the model uses as well. The theorems here say what these words
mean without reference to the model, so that a wrong constant or a wrong helper cannot hide by changing both sides of a
property at once.
-/
namespace Idm

/-! ## Constants -/

/-- RFC 4511, section 4.1.9 and appendix A; 84 is go-ldap's. -/
theorem vocab_result_codes : rcSuccess = 0 ∧ rcOperationsError = 1 ∧ rcProtocolError = 2 ∧ rcSizeLimitExceeded = 4 ∧ rcInvalidDNSyntax = 34 ∧
    rcInappropriateAuthentication = 48 ∧ rcInvalidCredentials = 49 ∧ rcInsufficientAccessRights = 50 ∧ rcUnwillingToPerform = 53 ∧
    rcNotAllowedOnRDN = 67 ∧ rcEntryAlreadyExists = 68 ∧ rcOther = 80 ∧ rcDecodingError = 84 :=
  ⟨rfl, rfl, rfl, rfl, rfl, rfl, rfl, rfl, rfl, rfl, rfl, rfl, rfl⟩

/-- The characters, by their ASCII codes. -/
theorem vocab_characters : [chBackslash] = b!"\\" ∧ [chSpace] = b!" " ∧ [chEq] = b!"=" ∧ [chComma] = b!"," ∧ [chPlus] = b!"+" ∧ [chSemi] = b!";" ∧
    [chHash] = b!"#" ∧ [chSlash] = b!"/" ∧ [chLBrace] = b!"{" ∧ [chRBrace] = b!"}" ∧ [chDollar] = b!"$" ∧ [chLPar] = b!"(" ∧ [chRPar] = b!")" ∧
    [chStar] = b!"*" ∧ [chAmp] = b!"&" ∧ [chBar] = b!"|" ∧ [chBang] = b!"!" ∧ [chColon] = b!":" ∧ [chGt] = b!">" ∧ [chLt] = b!"<" ∧
    [chTilde] = b!"~" ∧ [fieldSep] = b!":" ∧ [chAt] = b!"@" ∧ [chDot] = b!"." ∧ [chMinus] = b!"-" :=
  ⟨rfl, rfl, rfl, rfl, rfl, rfl, rfl, rfl, rfl, rfl, rfl, rfl, rfl, rfl, rfl, rfl, rfl, rfl, rfl, rfl, rfl, rfl, rfl, rfl, rfl⟩

/-- Scopes (RFC 4511, section 4.5.1.2) and kinds of changes (section 4.6). -/
theorem vocab_request_numbers : scopeBase = 0 ∧ scopeOne = 1 ∧ scopeSub = 2 ∧ opAdd = 0 ∧ opDelete = 1 ∧ opReplace = 2 ∧ authSimple = 0 ∧ authSASL = 3 :=
  ⟨rfl, rfl, rfl, rfl, rfl, rfl, rfl, rfl⟩

/-- Kinds of filters (RFC 4511, section 4.5.1) and of the parts of a substring filter. -/
theorem vocab_filter_tags : filterAnd = 0 ∧ filterOr = 1 ∧ filterNot = 2 ∧ filterEq = 3 ∧ filterSub = 4 ∧ filterPresent = 7 ∧
    subInitial = 0 ∧ subAny = 1 ∧ subFinal = 2 :=
  ⟨rfl, rfl, rfl, rfl, rfl, rfl, rfl, rfl, rfl⟩

/-- The protocol operations (RFC 4511, section 4.2 to 4.12). -/
theorem vocab_operations : appBindRequest = 0 ∧ appBindResponse = 1 ∧ appUnbindRequest = 2 ∧ appSearchRequest = 3 ∧ appSearchResultEntry = 4 ∧
    appSearchResultDone = 5 ∧ appModifyRequest = 6 ∧ appModifyResponse = 7 ∧ appAddRequest = 8 ∧ appAddResponse = 9 ∧ appDelRequest = 10 ∧
    appDelResponse = 11 ∧ appModifyDNRequest = 12 ∧ appModifyDNResponse = 13 ∧ appCompareRequest = 14 ∧ appExtendedRequest = 23 ∧
    appExtendedResponse = 24 :=
  ⟨rfl, rfl, rfl, rfl, rfl, rfl, rfl, rfl, rfl, rfl, rfl, rfl, rfl, rfl, rfl, rfl, rfl⟩

/-- Universal tags of BER (X.690). -/
theorem vocab_tags : tagBoolean = 1 ∧ tagInteger = 2 ∧ tagOctetString = 4 ∧ tagEnumerated = 10 ∧ tagSequence = 16 ∧ tagSet = 17 :=
  ⟨rfl, rfl, rfl, rfl, rfl, rfl⟩

/-- Names: the password attribute, the password modify operation (RFC 3062), the paging control (RFC 2696), where newusers puts users. -/
theorem vocab_names : sUserPassword = b!"userPassword" ∧ pwmodOID = b!"1.3.6.1.4.1.4203.1.11.1" ∧ pagingOID = b!"1.2.840.113556.1.4.319" ∧
    newUsersBase = b!"ou=Users,ou={{.Company}},{{.BaseDN}}" := ⟨rfl, rfl, rfl, rfl⟩

/-- Limits: a line of a template, a file included by a template, a packet, a key of the database. -/
theorem vocab_limits : maxToken = 65536 ∧ fileSizeLimit = 1048576 ∧ maxPacketLength = 2147483647 ∧ maxKeySize = 32768 := ⟨rfl, rfl, rfl, rfl⟩

/-! ## Bytes -/

theorem vocab_lowerByte : ∀ c : UInt8, lowerByte c =
    (((b!"ABCDEFGHIJKLMNOPQRSTUVWXYZ").zip (b!"abcdefghijklmnopqrstuvwxyz")).lookup c).getD c := by decide +kernel

theorem vocab_upperByte : ∀ c : UInt8, upperByte c =
    (((b!"abcdefghijklmnopqrstuvwxyz").zip (b!"ABCDEFGHIJKLMNOPQRSTUVWXYZ")).lookup c).getD c := by decide +kernel

/-- Tab, line feed, vertical tab, form feed, carriage return, blank. -/
theorem vocab_isSpaceByte : ∀ c : UInt8, isSpaceByte c = [9, 10, 11, 12, 13, 32].contains c := by decide +kernel

/-! ## Texts -/

theorem vocab_hasPrefix (s p : Str) : hasPrefix s p = true ↔ ∃ t, s = p ++ t := by
  simp only [hasPrefix, List.isPrefixOf_iff_prefix]
  exact ⟨fun ⟨t, h⟩ => ⟨t, h.symm⟩, fun ⟨t, h⟩ => ⟨t, h.symm⟩⟩

theorem vocab_hasSuffix (s p : Str) : hasSuffix s p = true ↔ ∃ t, s = t ++ p := by
  simp only [hasSuffix, List.isSuffixOf_iff_suffix]
  exact ⟨fun ⟨t, h⟩ => ⟨t, h.symm⟩, fun ⟨t, h⟩ => ⟨t, h.symm⟩⟩

theorem vocab_isComment (l : Str) : isComment l = true ↔ l.head? = some 35 := by
  cases l with
  | nil => simp [isComment, hasPrefix]
  | cons a t =>
    simp only [isComment, hasPrefix, List.isPrefixOf, Bool.and_true, beq_iff_eq, List.head?_cons, Option.some.injEq]
    exact eq_comm

theorem vocab_contains (s sub : Str) : contains s sub = true ↔ ∃ a b, s = a ++ sub ++ b := by
  induction s with
  | nil =>
    rw [contains]
    simp only [Bool.or_false, List.isPrefixOf_iff_prefix, List.prefix_nil]
    constructor
    · rintro rfl; exact ⟨[], [], rfl⟩
    · rintro ⟨a, b, h⟩
      have := congrArg List.length h
      simp only [List.length_append, List.length_nil] at this
      exact List.eq_nil_of_length_eq_zero (by omega)
  | cons c cs ih =>
    rw [contains]
    simp only [Bool.or_eq_true, List.isPrefixOf_iff_prefix, ih]
    constructor
    · rintro (⟨t, h⟩ | ⟨a, b, h⟩)
      · exact ⟨[], t, by simpa using h.symm⟩
      · exact ⟨c :: a, b, by simp [h]⟩
    · rintro ⟨a, b, h⟩
      cases a with
      | nil => exact .inl ⟨b, by simpa using h.symm⟩
      | cons x a =>
        simp only [List.cons_append, List.cons.injEq] at h
        exact .inr ⟨a, b, by simpa using h.2⟩

theorem joinWith_eq (sep : UInt8) : ∀ ps : List Str, joinWith sep ps = [sep].intercalate ps
  | [] => rfl
  | [p] => by simp [joinWith, List.intercalate]
  | p :: q :: ps => by
    have := joinWith_eq sep (q :: ps)
    simp only [joinWith, this]
    simp [List.intercalate, List.intersperse]

/-- Joining puts the separator between the parts. -/
theorem vocab_joinWith (sep : UInt8) (ps : List Str) : joinWith sep ps = [sep].intercalate ps := joinWith_eq sep ps

/-- Splitting gives the one list of parts without the separator that joins to the text. -/
theorem vocab_splitOn (sep : UInt8) (s : Str) (ps : List Str) :
    splitOn sep s = ps ↔ ps ≠ [] ∧ (∀ p ∈ ps, sep ∉ p) ∧ s = [sep].intercalate ps := by
  constructor
  · rintro rfl
    exact ⟨splitOn_ne_nil _ _, splitOn_no_sep s, by rw [← joinWith_eq, joinWith_splitOn]⟩
  · rintro ⟨h1, h2, rfl⟩
    rw [← joinWith_eq]
    exact splitOn_joinWith h1 h2

theorem dropWhile_head {p : UInt8 → Bool} (s : Str) (c : UInt8) (h : (s.dropWhile p).head? = some c) : p c = false := by
  have := List.head?_dropWhile_not p s
  rw [h] at this
  simpa using this

/-- Trimming takes a longest run of the unwanted bytes off each end. -/
theorem vocab_trimBy (p : UInt8 → Bool) (s t : Str) : trimBy p s = t ↔
    ∃ a b, s = a ++ t ++ b ∧ (∀ c ∈ a ++ b, p c = true) ∧ (∀ c, t.head? = some c → p c = false) ∧ ∀ c, t.getLast? = some c → p c = false := by
  constructor
  · rintro rfl
    let m := s.dropWhile p
    let t' := (m.reverse.dropWhile p).reverse
    have e1 : s = s.takeWhile p ++ m := (List.takeWhile_append_dropWhile).symm
    have e2 : m = t' ++ (m.reverse.takeWhile p).reverse := by
      have := congrArg List.reverse (List.takeWhile_append_dropWhile (p := p) (l := m.reverse))
      rw [List.reverse_append, List.reverse_reverse] at this
      exact this.symm
    refine ⟨s.takeWhile p, (m.reverse.takeWhile p).reverse, ?_, ?_, ?_, ?_⟩
    · show s = s.takeWhile p ++ t' ++ _
      rw [List.append_assoc, ← e2, ← e1]
    · intro c hc
      rcases List.mem_append.1 hc with h | h
      · exact (List.all_eq_true.1 (List.all_takeWhile (l := s) (p := p))) c h
      · exact (List.all_eq_true.1 (List.all_takeWhile (l := m.reverse) (p := p))) c (List.mem_reverse.1 h)
    · intro c hc
      have hc : t'.head? = some c := hc
      have : m.head? = some c := by
        rw [e2]
        cases ht : t' with
        | nil => rw [ht] at hc; cases hc
        | cons x xs => rw [ht] at hc; simpa using hc
      exact dropWhile_head s c this
    · intro c hc
      have hc : t'.getLast? = some c := hc
      simp only [t', List.getLast?_reverse] at hc
      exact dropWhile_head _ c hc
  · rintro ⟨a, b, rfl, hp, hh, hl⟩
    cases ht : t with
    | nil =>
      subst ht
      simp only [List.append_nil, trimBy]
      have : (a ++ b).dropWhile p = [] := by
        have := List.dropWhile_append_of_pos (l₂ := []) hp
        rwa [List.append_nil] at this
      rw [this]; rfl
    | cons x xs =>
      have hx : p x = false := hh x (by rw [ht]; rfl)
      have e1 : (a ++ (t ++ b)).dropWhile p = t ++ b := by
        rw [List.dropWhile_append_of_pos fun c hc => hp c (List.mem_append_left _ hc), ht, List.cons_append,
          List.dropWhile_cons_of_neg (by simp [hx])]
      have e2 : (b.reverse ++ t.reverse).dropWhile p = t.reverse := by
        rw [List.dropWhile_append_of_pos fun c hc => hp c (List.mem_append_right _ (List.mem_reverse.1 hc))]
        cases hr : t.reverse with
        | nil => rfl
        | cons y ys =>
          have : t.getLast? = some y := by
            rw [← List.head?_reverse, hr]; rfl
          rw [List.dropWhile_cons_of_neg (by simp [hl y this])]
      rw [← ht, trimBy, List.append_assoc, e1, List.reverse_append, e2, List.reverse_reverse]

/-- One carriage return at the end of a line does not belong to it. -/
theorem vocab_dropCR (l : Str) : dropCR (l ++ [13]) = l ∧ (l.getLast? ≠ some 13 → dropCR l = l) :=
  ⟨by simp [dropCR], fun h => by simp [dropCR, h]⟩

/-- The lines of a text: each ends in a line feed, except that the last one need not. -/
theorem vocab_rawLines (ls : List Str) (h : ∀ l ∈ ls, (10 : UInt8) ∉ l) :
    rawLines (ls.flatMap (· ++ [10])) = ls ∧ ∀ l, l ≠ [] → (10 : UInt8) ∉ l → rawLines (ls.flatMap (· ++ [10]) ++ l) = ls ++ [l] := by
  have key : ∀ l, (10 : UInt8) ∉ l → splitOn 10 (ls.flatMap (· ++ [10]) ++ l) = ls ++ [l] := by
    intro l hl
    rw [vocab_splitOn]
    refine ⟨by simp, ?_, ?_⟩
    · intro p hp
      rcases List.mem_append.1 hp with hp | hp
      · exact h p hp
      · rw [List.mem_singleton.1 hp]; exact hl
    · clear h
      rw [← joinWith_eq]
      induction ls with
      | nil => simp [joinWith]
      | cons a as ih =>
        rw [List.cons_append, joinWith_cons_ne _ (by simp), ← ih]
        simp
  refine ⟨?_, fun l hl hn => ?_⟩
  · have := key [] (by simp)
    rw [List.append_nil] at this
    simp [rawLines, this]
  · simp [rawLines, key l hn, hl]

/-- A text is read line by line up to the first line of 65536 bytes or more; a carriage return at the end of a line is dropped. -/
theorem vocab_scanLines (text : Str) : ∃ a b : List Str, rawLines text = a ++ b ∧ (∀ l ∈ a, l.length < 65536) ∧
    (∀ l, b.head? = some l → 65536 ≤ l.length) ∧ scanLines text = a.map dropCR := by
  refine ⟨(rawLines text).takeWhile fun l => l.length < maxToken, (rawLines text).dropWhile fun l => l.length < maxToken,
    (List.takeWhile_append_dropWhile).symm, ?_, ?_, rfl⟩
  · intro l hl
    have := List.all_eq_true.1 (List.all_takeWhile (l := rawLines text) (p := fun l => decide (l.length < maxToken))) l hl
    exact of_decide_eq_true this
  · intro l hl
    have := List.head?_dropWhile_not (fun l : Str => decide (l.length < maxToken)) (rawLines text)
    rw [hl] at this
    have := of_decide_eq_false this
    exact Nat.le_of_not_lt this

/-! ## Attributes -/

/-- The values of an attribute are those of the first attribute with that name. -/
theorem vocab_getVals (C : CaseEnv) (attrs : List Attr) (t : Str) :
    getVals C attrs t = ((attrs.find? fun a => C.eqFold t a.name).map Attr.vals).getD [] := by
  induction attrs with
  | nil => rfl
  | cons a as ih =>
    rw [getVals, List.find?_cons]
    cases h : C.eqFold t a.name <;> simp [ih]

theorem vocab_getVal (C : CaseEnv) (attrs : List Attr) (t : Str) :
    getVal C attrs t = (((attrs.find? fun a => C.eqFold t a.name).map Attr.vals).getD []).headD [] := by
  rw [getVal, vocab_getVals, List.headD_eq_head?_getD]

/-! ## Attribute types of LDIF -/

/-- RFC 2849: a letter and then letters, digits, hyphens and the semicolons before options, or numbers joined by points. -/
theorem vocab_ldifType (t : Str) : ldifType t = true ↔
    (∃ c r, t = c :: r ∧ c ∈ b!"ABCDEFGHIJKLMNOPQRSTUVWXYZabcdefghijklmnopqrstuvwxyz" ∧
      ∀ d ∈ r, d ∈ b!"ABCDEFGHIJKLMNOPQRSTUVWXYZabcdefghijklmnopqrstuvwxyz0123456789-;") ∨
    (∃ ns : List Str, ns ≠ [] ∧ t = b!".".intercalate ns ∧ ∀ n ∈ ns, n ≠ [] ∧ ∀ c ∈ n, c ∈ b!"0123456789") := by
  have hl : ∀ c : UInt8, ((65 ≤ c && c ≤ 90) || (97 ≤ c && c ≤ 122)) = true ↔
      c ∈ b!"ABCDEFGHIJKLMNOPQRSTUVWXYZabcdefghijklmnopqrstuvwxyz" := by decide +kernel
  have hk : ∀ c : UInt8, ((65 ≤ c && c ≤ 90) || (97 ≤ c && c ≤ 122) || (48 ≤ c && c ≤ 57) || decide (c = 45) || decide (c = 59)) = true ↔
      c ∈ b!"ABCDEFGHIJKLMNOPQRSTUVWXYZabcdefghijklmnopqrstuvwxyz0123456789-;" := by decide +kernel
  have hd : ∀ c : UInt8, (48 ≤ c && c ≤ 57) = true ↔ c ∈ b!"0123456789" := by decide +kernel
  rw [ldifType.eq_def, Bool.or_eq_true]
  refine or_congr ?_ ?_
  · cases t with
    | nil => simp
    | cons c r =>
      simp only [Bool.and_eq_true, List.all_eq_true, hl, hk, List.cons.injEq]
      exact ⟨fun h => ⟨c, r, ⟨rfl, rfl⟩, h⟩, fun ⟨_, _, ⟨h1, h2⟩, h⟩ => h1 ▸ h2 ▸ h⟩
  · simp only [List.all_eq_true, Bool.and_eq_true, decide_eq_true_eq]
    constructor
    · intro h
      obtain ⟨h1, h2, h3⟩ := (vocab_splitOn 46 t _).1 rfl
      exact ⟨_, h1, h3, fun n hn => ⟨(h n hn).1, fun c hc => (hd c).1 (by simpa using (h n hn).2 c hc)⟩⟩
    · rintro ⟨ns, h1, rfl, h⟩
      have hno : ∀ p ∈ ns, (46 : UInt8) ∉ p := fun p hp hm => absurd ((h p hp).2 _ hm) (by decide)
      rw [(vocab_splitOn 46 _ ns).2 ⟨h1, hno, rfl⟩]
      exact fun n hn => ⟨(h n hn).1, fun c hc => by simpa using (hd c).2 ((h n hn).2 c hc)⟩

end Idm
