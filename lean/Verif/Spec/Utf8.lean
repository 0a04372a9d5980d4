import Verif.Spec.FilterText
/-!
# UTF-8 (RFC 3629)
-/
namespace Idm

/-- The characters: numbers up to 0x10FFFF other than surrogates. -/
def IsScalar (n : Nat) : Prop := n < 0xD800 ∨ (0xDFFF < n ∧ n < 0x110000)

/-- The bytes of a character. -/
def utf8Char (n : Nat) : Str :=
  (if n < 0x80 then [n]
  else if n < 0x800 then [0xC0 + n / 64, 0x80 + n % 64]
  else if n < 0x10000 then [0xE0 + n / 4096, 0x80 + n / 64 % 64, 0x80 + n % 64]
  else [0xF0 + n / 262144, 0x80 + n / 4096 % 64, 0x80 + n / 64 % 64, 0x80 + n % 64]).map UInt8.ofNat

/-- Text in UTF-8 that does not contain the replacement character U+FFFD. -/
def CleanText (s : Str) : Prop := ∃ cs : List Nat, (∀ n ∈ cs, IsScalar n ∧ n ≠ 0xFFFD) ∧ s = cs.flatMap utf8Char

mutual
/-- Somewhere in the filter, outside extensible matches, an attribute is named by bytes that are no such text. -/
def NamesBytes : Filter → Prop
  | .and fs => NamesBytesAny fs
  | .or fs => NamesBytesAny fs
  | .not f => NamesBytes f
  | .eq a _ => ¬ CleanText a
  | .sub a _ _ _ => ¬ CleanText a
  | .present a => ¬ CleanText a
  | .cmp _ a _ => ¬ CleanText a
  | .ext _ _ _ _ => False
def NamesBytesAny : List Filter → Prop
  | [] => False
  | f :: fs => NamesBytes f ∨ NamesBytesAny fs
end

end Idm
