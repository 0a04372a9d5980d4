import Verif.Model.Basic
/-!
# `strings.TrimSpace` of the Go standard library

It works on characters: those of `unicode.IsSpace` are taken off both ends. In UTF-8 no encoding of a character is the beginning or the end of
that of another, so it is enough to look at bytes.
-/
namespace Idm

/-- The characters of `unicode.IsSpace` in UTF-8: tab to carriage return, blank, U+0085, U+00A0, U+1680, U+2000 to U+200A, U+2028, U+2029, U+202F,
U+205F, U+3000. -/
def spaces : List Str :=
  [[9], [10], [11], [12], [13], [32], [0xC2, 0x85], [0xC2, 0xA0], [0xE1, 0x9A, 0x80],
   [0xE2, 0x80, 0x80], [0xE2, 0x80, 0x81], [0xE2, 0x80, 0x82], [0xE2, 0x80, 0x83], [0xE2, 0x80, 0x84], [0xE2, 0x80, 0x85],
   [0xE2, 0x80, 0x86], [0xE2, 0x80, 0x87], [0xE2, 0x80, 0x88], [0xE2, 0x80, 0x89], [0xE2, 0x80, 0x8A],
   [0xE2, 0x80, 0xA8], [0xE2, 0x80, 0xA9], [0xE2, 0x80, 0xAF], [0xE2, 0x81, 0x9F], [0xE3, 0x80, 0x80]]

/-- The text without one of the characters at its front, if there is one. -/
def cutFront (ps : List Str) (s : Str) : Option Str := (ps.find? (·.isPrefixOf s)).map fun p => s.drop p.length

/-- The loop of `strings.TrimLeftFunc`; the first argument only bounds the number of turns. -/
def stripFront (ps : List Str) : Nat → Str → Str
  | 0, s => s
  | n + 1, s => match cutFront ps s with
    | some r => stripFront ps n r
    | none => s

/-- `strings.TrimSpace`. -/
def trimSpace (s : Str) : Str :=
  let m := stripFront spaces s.length s
  (stripFront (spaces.map List.reverse) m.length m.reverse).reverse

end Idm
