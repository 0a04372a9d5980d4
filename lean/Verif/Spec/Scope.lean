import Verif.Model.DN
/-!
# Specification: names up to EqualFold, search scope, attribute selection
-/
namespace Idm

/-- Two attribute value assertions with the same type and value, ignoring case. -/
def SameAva (C : CaseEnv) (a b : AVA) : Prop := C.eqFold a.typ b.typ = true ∧ C.eqFold a.val b.val = true

/-- Two RDNs with the same set of assertions. -/
def SameRdn (C : CaseEnv) (r s : RDN) : Prop :=
  r.length = s.length ∧ (∀ a ∈ r, ∃ b ∈ s, SameAva C a b) ∧ ∀ b ∈ s, ∃ a ∈ r, SameAva C b a

/-- The same name: the same RDNs in the same order. -/
def SameDn (C : CaseEnv) (p q : DN) : Prop :=
  p.length = q.length ∧ ∀ (i : Nat) (r s : RDN), p[i]? = some r → q[i]? = some s → SameRdn C r s

/-- RFC 4511 section 4.5.1.2: the name `n` is in scope of a search below `base`. 0: base object, 1: direct child, 2: base object or
anything below it. -/
def InScopeFold (C : CaseEnv) (scope : Nat) (base n : DN) : Prop :=
  (scope = 0 ∧ SameDn C n base) ∨ (scope = 1 ∧ ∃ r p, n = r :: p ∧ SameDn C p base) ∨ (scope = 2 ∧ ∃ q p, n = q ++ p ∧ SameDn C p base)

/-- The text is made of escapes, each a backslash and the byte after it, and of bytes that are no semicolons. -/
def wholeEscapes : Str → Bool
  | [] => true
  | [c] => c != 92 && c != 59
  | c :: d :: s => if c = 92 then wholeEscapes s else c != 59 && wholeEscapes (d :: s)

/-- The first comma of the DN text ends its first RDN: neither the comma is escaped, nor is there a semicolon before it. After it and any
blanks comes a printable ASCII character, as attribute types begin with. Other bytes, say of UTF-8, may be anywhere else. -/
def PlainFirst (s : Str) : Prop :=
  wholeEscapes (s.takeWhile (· != chComma)) = true ∧
  (chComma ∈ s → (((s.dropWhile (· != chComma)).drop 1).dropWhile (· == 32)).head?.any (fun c => 33 ≤ c && c ≤ 126) = true)

instance (s : Str) : Decidable (PlainFirst s) := by unfold PlainFirst; infer_instance

/-- The attribute is asked for by the request list (RFC 4511 section 4.5.1.8): an empty list (or the list of one empty name, as idm
reads it) and `*` ask for all. -/
def Requested (C : CaseEnv) (req : List Str) (name : Str) : Prop :=
  req = [] ∨ req = [[]] ∨ b!"*" ∈ req ∨ ∃ r ∈ req, C.eqFold name r = true

/-- No two elements of the request list ask for the same attribute. -/
def NoRepeat (C : CaseEnv) (req : List Str) : Prop :=
  req = [b!"*"] ∨ (b!"*" ∉ req ∧ req.Pairwise fun r s => C.eqFold r s = false)

instance (C : CaseEnv) (req : List Str) : Decidable (NoRepeat C req) := by unfold NoRepeat; infer_instance

end Idm
