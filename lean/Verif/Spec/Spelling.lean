import Verif.Spec.Name
/-!
# Spellings of names (RFC 4514 section 3)

`SpellsDN C dn s`: the text `s` is a string representation of the name `dn`: any character may be escaped by a backslash and itself (if it is
one of the special ones) or by a backslash and two hexadecimal digits, the special ones must be. In addition (as in RFC 2253 section 4) blanks
may surround types and values, and semicolons may separate RDNs.
-/
namespace Idm

/-- A hexadecimal digit, in either case, and its value. -/
def HexDigit (c : UInt8) (n : Nat) : Prop :=
  (n < 10 ∧ c = UInt8.ofNat (48 + n)) ∨ (10 ≤ n ∧ n < 16 ∧ (c = UInt8.ofNat (65 + (n - 10)) ∨ c = UInt8.ofNat (97 + (n - 10))))

/-- Text for the bytes of a value; `first` at the beginning of the value. A blank or `#` at the beginning and a blank at the end have to be
escaped, and so have NUL and the characters `"` `+` `,` `;` `<` `>` `\`. -/
inductive SpellsVal : (first : Bool) → (v s : Str) → Prop
  | nil (f) : SpellsVal f [] []
  | plain (f c v s) : c ≠ 0 → c ∉ b!"\"+,;<>\\" → (f = true → c ≠ 32 ∧ c ≠ 35) → (s = [] → c ≠ 32) → SpellsVal false v s → SpellsVal f (c :: v) (c :: s)
  | pair (f c v s) : c ∈ b!" \"#+,;<=>\\" → SpellsVal false v s → SpellsVal f (c :: v) (92 :: c :: s)
  | hex (f x y m n v s) : HexDigit x m → HexDigit y n → SpellsVal false v s → SpellsVal f (UInt8.ofNat (16 * m + n) :: v) (92 :: x :: y :: s)

/-- Only blanks. -/
def Blanks (s : Str) : Prop := ∀ c ∈ s, c = 32

/-- An attribute type and value. The text of the value is UTF-8. (No blank may follow a value that ends in an escaped backslash.) -/
def SpellsAVA (C : CaseEnv) (a : AVA) (s : Str) : Prop :=
  ∃ p1 p2 p3 p4 t, Blanks p1 ∧ Blanks p2 ∧ Blanks p3 ∧ Blanks p4 ∧ SpellsVal true a.val t ∧ C.utf8Fix t = t ∧
    (p4 = [] ∨ t.getLast? ≠ some 92) ∧ s = p1 ++ a.typ ++ p2 ++ [61] ++ p3 ++ t ++ p4

inductive SpellsRDN (C : CaseEnv) : RDN → Str → Prop
  | one (a s) : SpellsAVA C a s → SpellsRDN C [a] s
  | more (a as s s') : SpellsAVA C a s → SpellsRDN C as s' → SpellsRDN C (a :: as) (s ++ 43 :: s')

inductive SpellsDN (C : CaseEnv) : DN → Str → Prop
  | nil : SpellsDN C [] []
  | one (r s) : SpellsRDN C r s → SpellsDN C [r] s
  | more (r r' rs s c s') : SpellsRDN C r s → (c = 44 ∨ c = 59) → SpellsDN C (r' :: rs) s' → SpellsDN C (r :: r' :: rs) (s ++ c :: s')

end Idm
