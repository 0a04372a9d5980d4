import Verif.Spec.Session
import Verif.Spec.Search
import Verif.Spec.Scope
/-!
# Specification vocabulary for searches end to end
-/
namespace Idm

/-- The entries among the responses. -/
def entriesOf (rs : List Resp) : List Entry := rs.filterMap fun r => match r with
  | .entry _ e => some e
  | _ => none

/-- All types and values of the name are ASCII. -/
def AsciiName (n : DN) : Prop := ∀ r ∈ n, ∀ a ∈ r, IsAscii a.typ ∧ IsAscii a.val

instance (n : DN) : Decidable (AsciiName n) := by unfold AsciiName IsAscii; infer_instance

/-- Types and values of the two names that are equal after full case folding, as the store compares names, are also equal for
`strings.EqualFold`, as the front end compares them. True of all ASCII names. -/
def CaseSame (C : CaseEnv) (m n : DN) : Prop := ∀ r ∈ m, ∀ a ∈ r, ∀ s ∈ n, ∀ b ∈ s,
  (C.fold a.typ = C.fold b.typ → C.eqFold a.typ b.typ = true) ∧ (C.fold a.val = C.fold b.val → C.eqFold a.val b.val = true)

instance (C : CaseEnv) (m n : DN) : Decidable (CaseSame C m n) := by unfold CaseSame; infer_instance

/-- The entry, reduced to the attributes asked for. -/
noncomputable def reduced (C : CaseEnv) (attrs : List Str) (e : Entry) : Entry :=
  haveI := Classical.propDecidable
  ⟨e.dn, e.attrs.filter fun a => decide (Requested C attrs a.name)⟩

end Idm
