import Verif.Spec.Silent
/-!
# Specification vocabulary for clients that may not read
-/
namespace Idm

/-- The packet is a request to bind under the name with the password (LDAP version 3, simple authentication). -/
def AsksBind (p : Packet) (id : Int) (dn pw : Str) : Prop :=
  ∃ req v d a, Message p id req ∧ req.tag = 0 ∧ req.kids = [v, d, a] ∧ v.val = .int 3 ∧ d.val = .str dn ∧ a.tag = 0 ∧ a.data = pw

end Idm
