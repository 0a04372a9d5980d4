import Verif.Model.IndexAttrs
/-!
# Specification vocabulary for the configuration of indexes
-/
namespace Idm

/-- How a kind of index is called. -/
def IdxKind.word : IdxKind → Str
  | .eq => b!"eq"
  | .pres => b!"pres"
  | .sub => b!"sub"

/-- The name the call is about. -/
def IdxCall.name : IdxCall → Str
  | .add n _ => n
  | .remove n => n

/-- The indexes asked for under that name: as in the last call about it; if there is none, as at the start. -/
def IdxAsked (calls : List IdxCall) (name indices : Str) : Prop :=
  (∃ before after, calls = before ++ .add name indices :: after ∧ ∀ c ∈ after, c.name ≠ name) ∨
  ((∀ c ∈ calls, c.name ≠ name) ∧ (name, indices) ∈ defaultIdxTexts)

/-- The word is one of those the text lists, with commas between them and nothing else. -/
def Lists (text word : Str) : Prop := ∃ words : List Str, (∀ w ∈ words, chComma ∉ w) ∧ joinWith chComma words = text ∧ word ∈ words

end Idm
