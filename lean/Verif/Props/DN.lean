import Verif.Proofs.DN
/-!
# C01–C03: names
-/
namespace Idm

/-! ## C01 escaping is lossless -/

/-- Specification: `s` contains no separator `,` `+` `;` that is not preceded by an (unescaped) backslash. -/
def noBareSeparator : Str → Bool
  | [] => true
  | [c] => c != 44 && c != 43 && c != 59 && c != 92
  | c :: d :: rest =>
    if c = 92 then noBareSeparator rest
    else c != 44 && c != 43 && c != 59 && noBareSeparator (d :: rest)

theorem noBareSeparator_cons {c : UInt8} (h : c ≠ 44 ∧ c ≠ 43 ∧ c ≠ 59 ∧ c ≠ 92) (s : Str) :
    noBareSeparator (c :: s) = noBareSeparator s := by
  cases s <;> simp [noBareSeparator, h]

/-- C01, value level: for every byte string the escaped form decodes to the value, consists of printable ASCII and has no bare
separator. -/
theorem C01_escape_value_lossless (C : CaseEnv) (hC : C.Lawful) (v : Str) :
    decodeValue C (encodeRDNValue v) = some v ∧
    (∀ c ∈ encodeRDNValue v, 32 ≤ c ∧ c ≤ 126) ∧
    noBareSeparator (encodeRDNValue v) = true := by
  refine ⟨decodeValue_encode hC v, encodeLoop_printable true v, ?_⟩
  unfold encodeRDNValue
  suffices h : ∀ f, noBareSeparator (encodeLoop f v) = true from h true
  intro f
  induction v generalizing f with
  | nil => rfl
  | cons c cs ih =>
    rw [encodeLoop]
    rcases escByte_cases f cs.isEmpty c with ⟨h, _, _, hb, h1, h2, h3, _⟩ | ⟨h, _⟩ | ⟨h, _, _, _, h3, h4, h5, h6, _⟩
    · rw [h]
      simp only [List.cons_append, List.nil_append]
      rw [noBareSeparator_cons ⟨h1, h2, h3, hb⟩]; exact ih false
    · rw [h]; simp only [List.cons_append, List.nil_append]
      rw [noBareSeparator, if_pos (by decide)]; exact ih false
    · rw [h]; simp only [List.cons_append, List.nil_append]
      have key : ∀ x : UInt8, 48 ≤ x ∧ x ≤ 102 → x ≠ 44 ∧ x ≠ 43 := by decide +kernel
      have := key _ ⟨h3, h4⟩
      rw [noBareSeparator, if_pos (by decide), noBareSeparator_cons ⟨this.1, this.2, h6, h5⟩]; exact ih false

/-- C01, name level: any name whose attribute types need no escapes and whose last value does not end in a blank is recovered
from its rendering, whatever bytes the values contain. (Missing for the full property: a blank at the very end, see
`C01_trailing_blank_fails`.) -/
theorem C01_name_lossless_partial (C : CaseEnv) (hC : C.Lawful) (dn : DN) (hok : NameOk dn) (hend : EndOk dn) :
    parseDN C (render dn) = some dn :=
  parseDN_render hC dn hok hend

example : NameOk [[⟨b!"cn", b!" #a,b+c \\"⟩, ⟨b!"sn", [0, 255]⟩], [⟨b!"dc", b!"x"⟩]] ∧
    EndOk [[⟨b!"cn", b!" #a,b+c \\"⟩, ⟨b!"sn", [0, 255]⟩], [⟨b!"dc", b!"x"⟩]] := by decide +kernel

/-- C01, name level, exactly: of the names whose attribute types need no escapes, those that end in a blank are not parsed at all once they
are rendered, and all others are recovered. -/
theorem C01_name_exact (C : CaseEnv) (hC : C.Lawful) (dn : DN) (hok : NameOk dn) :
    parseDN C (render dn) = if EndOk dn then some dn else none := by
  split
  · exact parseDN_render hC dn hok ‹_›
  · exact parseDN_render_blank hC dn hok ‹_›

/-- C01 fails for the last RDN of a name: a value ending in a blank, written with the code's own escaping, is not parsed back. -/
theorem C01_trailing_blank_fails :
    ∃ dn, NameOk dn ∧ parseDN asciiCase (render dn) ≠ some dn :=
  ⟨[[⟨b!"cn", b!"a "⟩]], by decide +kernel, by decide +kernel⟩

/-! ## C02 idempotence -/

/-- C02: normalising the normal form of a parsed name succeeds and changes nothing, provided the attribute types need no escapes
and the last value does not end in a blank. (Missing: those two cases, which fail, see below.) -/
theorem C02_normalize_idempotent_partial (C : CaseEnv) (hC : C.Lawful) (s n : Str) (dn : DN)
    (hp : parseDN C s = some dn) (hok : ∀ r ∈ dn, ∀ a ∈ r, ∀ c ∈ a.typ, okTypeByte c = true) (hend : EndOk dn)
    (hn : parseNormalize C s = some n) :
    parseNormalize C n = some n := by
  have hshape := parseDN_shape hp
  have hname : NameOk dn := fun r hr =>
    ⟨(hshape r hr).1, fun a ha => ⟨(hshape r hr).2 a ha, hok r hr a ha⟩⟩
  simp only [parseNormalize, hp, Option.map_some, Option.some.injEq] at hn
  subst hn
  simp only [parseNormalize, normalize]
  rw [parseDN_render hC _ (foldDN_nameOk hC hname) (foldDN_endOk hC hend)]
  simp [normalize, foldDN_idem hC]

example : ∃ dn, parseDN asciiCase b!" UID=a\\,B\\c3 + CN=x , DC=Lg " = some dn ∧
    (∀ r ∈ dn, ∀ a ∈ r, ∀ c ∈ a.typ, okTypeByte c = true) ∧ EndOk dn ∧
    parseNormalize asciiCase b!" UID=a\\,B\\c3 + CN=x , DC=Lg " = some b!"uid=a\\,b\\c3+cn=x,dc=lg" :=
  ⟨[[⟨b!"UID", b!"a,B" ++ [0xc3]⟩, ⟨b!"CN", b!"x"⟩], [⟨b!"DC", b!"Lg"⟩]], by decide +kernel, by decide +kernel, by decide +kernel, by decide +kernel⟩

/-- C02, exactly: of the names whose attribute types need no escapes, the normal form of those that end in a blank is not a name, and that of
all others is its own normal form. -/
theorem C02_normalize_exact (C : CaseEnv) (hC : C.Lawful) (s n : Str) (dn : DN)
    (hp : parseDN C s = some dn) (hok : ∀ r ∈ dn, ∀ a ∈ r, ∀ c ∈ a.typ, okTypeByte c = true) (hn : parseNormalize C s = some n) :
    parseNormalize C n = if EndOk (foldDN C dn) then some n else none := by
  have hshape := parseDN_shape hp
  have hname : NameOk dn := fun r hr =>
    ⟨(hshape r hr).1, fun a ha => ⟨(hshape r hr).2 a ha, hok r hr a ha⟩⟩
  simp only [parseNormalize, hp, Option.map_some, Option.some.injEq] at hn
  subst hn
  simp only [parseNormalize, normalize]
  rw [C01_name_exact C hC _ (foldDN_nameOk hC hname)]
  split <;> simp [normalize, foldDN_idem hC]

/-- C02 fails if the last value ends in a blank: the normal form does not parse. -/
theorem C02_trailing_blank_fails :
    ∃ s n, parseNormalize asciiCase s = some n ∧ parseNormalize asciiCase n = none :=
  ⟨b!"cn=a\\20", b!"cn=a\\ ", by decide +kernel, by decide +kernel⟩

/-- C02 fails for escaped characters in an attribute type: the normal form is the normal form of another name. -/
theorem C02_escaped_type_fails :
    ∃ s n m, parseNormalize asciiCase s = some n ∧ parseNormalize asciiCase n = some m ∧ n ≠ m :=
  ⟨b!"\\20cn=a", b!" cn=a", b!"cn=a", by decide +kernel, by decide +kernel, by decide +kernel⟩

/-! ## C03 equal iff same name -/

/-- C03: two parseable DN strings without escaped characters in attribute types have the same normal form exactly if they denote
the same name (same RDNs up to case folding). (Missing: types with escaped specials, see `C03_collision`.) -/
theorem C03_normal_form_iff_same_name_partial (C : CaseEnv) (hC : C.Lawful) (s t : Str) (p q : DN)
    (hp : parseDN C s = some p) (hq : parseDN C t = some q)
    (hpk : ∀ r ∈ p, ∀ a ∈ r, ∀ c ∈ a.typ, okTypeByte c = true)
    (hqk : ∀ r ∈ q, ∀ a ∈ r, ∀ c ∈ a.typ, okTypeByte c = true) :
    parseNormalize C s = parseNormalize C t ↔ SameName C p q := by
  have hps := parseDN_shape hp
  have hqs := parseDN_shape hq
  have hpn : NameOk p := fun r hr => ⟨(hps r hr).1, fun a ha => ⟨(hps r hr).2 a ha, hpk r hr a ha⟩⟩
  have hqn : NameOk q := fun r hr => ⟨(hqs r hr).1, fun a ha => ⟨(hqs r hr).2 a ha, hqk r hr a ha⟩⟩
  rw [sameName_iff_foldDN]
  simp only [parseNormalize, hp, hq, Option.map_some, Option.some.injEq, normalize]
  exact ⟨render_injective _ _ (foldDN_nameOk hC hpn) (foldDN_nameOk hC hqn), fun h => by rw [h]⟩

example : ∃ p q, parseDN asciiCase b!"UID=Foo, dc=lg" = some p ∧ parseDN asciiCase b!"uid=\\66oo,DC=LG" = some q ∧
    (∀ r ∈ p, ∀ a ∈ r, ∀ c ∈ a.typ, okTypeByte c = true) ∧ (∀ r ∈ q, ∀ a ∈ r, ∀ c ∈ a.typ, okTypeByte c = true) ∧
    SameName asciiCase p q ∧ p ≠ q :=
  ⟨[[⟨b!"UID", b!"Foo"⟩], [⟨b!"dc", b!"lg"⟩]], [[⟨b!"uid", b!"foo"⟩], [⟨b!"DC", b!"LG"⟩]],
    by decide +kernel, by decide +kernel, by decide +kernel, by decide +kernel, by decide +kernel, by decide +kernel⟩

/-- C03 fails in general: an attribute type with escaped `=` and `,` makes a one-RDN name collide with a two-RDN name. -/
theorem C03_collision :
    ∃ s t p q, parseDN asciiCase s = some p ∧ parseDN asciiCase t = some q ∧ ¬ SameName asciiCase p q ∧
      parseNormalize asciiCase s = parseNormalize asciiCase t :=
  ⟨b!"uid\\=a\\,ou=x,dc=lg", b!"uid=a,ou=x,dc=lg",
    [[⟨b!"uid=a,ou", b!"x"⟩], [⟨b!"dc", b!"lg"⟩]], [[⟨b!"uid", b!"a"⟩], [⟨b!"ou", b!"x"⟩], [⟨b!"dc", b!"lg"⟩]],
    by decide +kernel, by decide +kernel, by decide +kernel, by decide +kernel⟩

/-- The condition on names used in the properties of the store holds of all names valid by RFC 4514. -/
theorem rfc4514_nameOk (dn : DN) (h : Rfc4514 dn) : NameOk dn := by
  intro r hr
  obtain ⟨h1, h2⟩ := h r hr
  refine ⟨h1, fun a ha => ⟨(h2 a ha).1, fun c hc => ?_⟩⟩
  have hall : ∀ c : UInt8, ((48 ≤ c ∧ c ≤ 57) ∨ (65 ≤ c ∧ c ≤ 90) ∨ (97 ≤ c ∧ c ≤ 122) ∨ c = 45 ∨ c = 46) → okTypeByte c = true := by
    decide +kernel
  exact hall c ((h2 a ha).2 c hc)

example : Rfc4514 [[⟨b!"uid", b!"x, y"⟩, ⟨b!"2.5.4.3", b!"z"⟩], [⟨b!"dc", b!"lg"⟩]] := by decide +kernel

end Idm
