import Verif.Spec.Search
import Verif.Spec.LdifFormat
/-!
# Specification: the same directory
-/
namespace Idm

/-- The two entries have the same name text and the same values, in the same order, under every attribute type. -/
def SameData (e e' : Entry) : Prop := e.dn = e'.dn ∧ ∀ t, typeValues t e.attrs = typeValues t e'.attrs

/-- The two directories have entries under the same names, with the same data. -/
def SameDir (d d' : Dir) : Prop :=
  ∀ k, match d.get k, d'.get k with
    | none, none => True
    | some e, some e' => SameData e e'
    | _, _ => False

end Idm
