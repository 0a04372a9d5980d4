import Verif.Spec.Launch
import Verif.Spec.BoltServer
/-!
# Specification vocabulary for moving a directory from the database to an LDIF file
-/
namespace Idm

mutual
/-- The attribute types the filter is about. -/
def filterTypes : Filter → List Str
  | .and fs => filterTypesAll fs
  | .or fs => filterTypesAll fs
  | .not f => filterTypes f
  | .eq a _ => [a]
  | .sub a .. => [a]
  | .present a => [a]
  | .cmp _ a _ => [a]
  | .ext _ a _ _ => a.toList
def filterTypesAll : List Filter → List Str
  | [] => []
  | f :: fs => filterTypes f ++ filterTypesAll fs
end

/-- The filter is not about passwords. -/
def NotOnPasswords (C : CaseEnv) (f : Filter) : Prop := ∀ a ∈ filterTypes f, C.eqFold b!"userPassword" a = false

/-- Types and values of the two names are equal after full case folding exactly if they are for `strings.EqualFold`. True of all ASCII names. -/
def CaseBoth (C : CaseEnv) (m n : DN) : Prop := ∀ r ∈ m, ∀ a ∈ r, ∀ s ∈ n, ∀ b ∈ s,
  (C.fold a.typ = C.fold b.typ ↔ C.eqFold a.typ b.typ = true) ∧ (C.fold a.val = C.fold b.val ↔ C.eqFold a.val b.val = true)

instance (C : CaseEnv) (m n : DN) : Decidable (CaseBoth C m n) := by unfold CaseBoth; infer_instance

/-- `e'` is `e` as an LDIF server sends it: the name is in lower case, and there are no passwords; under all other types there are the same values
in the same order. -/
def SameButShown (C : CaseEnv) (e e' : Entry) : Prop :=
  e'.dn = C.lower e.dn ∧ (∀ t, C.lower t ≠ b!"userpassword" → typeValues t e'.attrs = typeValues t e.attrs) ∧
  ∀ a ∈ e'.attrs, C.lower a.name ≠ b!"userpassword"

end Idm
