import Verif.Spec.Utf8
/-!
# White space
-/
namespace Idm

/-- The white space of Unicode, by code point. -/
def whiteSpace : List Nat :=
  [0x09, 0x0A, 0x0B, 0x0C, 0x0D, 0x20, 0x85, 0xA0, 0x1680] ++ (List.range 11).map (0x2000 + ·) ++ [0x2028, 0x2029, 0x202F, 0x205F, 0x3000]

/-- The text consists of white space. -/
def White (s : Str) : Prop := ∃ cs : List Nat, (∀ n ∈ cs, n ∈ whiteSpace) ∧ s = cs.flatMap utf8Char

end Idm
