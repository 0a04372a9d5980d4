import Verif.Spec.Served
/-!
# Records written in different ways (C120)
-/
namespace Idm

/-- The records have the same name and under each attribute type the same values in the same order; values of different types may be mixed in any
way. -/
def SameRecord (r r' : LdifRecord) : Prop := r'.dn = r.dn ∧ ∀ t, r'.under t = r.under t

/-- The same records, one by one. -/
def SameInOrder (rs rs' : List LdifRecord) : Prop := Matched SameRecord rs rs'

/-- The same records in some order. -/
def SameRecords (rs rs' : List LdifRecord) : Prop := ∃ rs'', rs.Perm rs'' ∧ SameInOrder rs'' rs'

end Idm
