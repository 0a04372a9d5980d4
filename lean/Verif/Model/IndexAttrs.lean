import Verif.Model.Ldif
import Verif.Model.Template
/-!
# Model: the configuration of indexes, /repo/server/handler/ldif/index.go
-/
namespace Idm

/-- The map `indexAttributes`, index.go:17-40: attribute names with texts; no name twice. -/
abbrev IdxTexts := List (Str × Str)

/-- Its initial value, index.go:17-40. -/
def defaultIdxTexts : IdxTexts :=
  [(b!"entryCSN", b!"eq"), (b!"entryUUID", b!"eq"), (b!"objectClass", b!"eq"), (b!"cn", b!"pres,eq,sub"), (b!"gidNumber", b!"eq"),
   (b!"mail", b!"pres,eq,sub"), (b!"memberUid", b!"eq"), (b!"ou", b!"eq"), (b!"uid", b!"eq"), (b!"uidNumber", b!"eq"), (b!"uniqueMember", b!"eq"),
   (b!"sn", b!"pres,eq,sub"), (b!"givenName", b!"pres,eq,sub"), (b!"mailAlternateAddress", b!"eq"), (b!"objectGUID", b!"eq"), (b!"objectSID", b!"eq"),
   (b!"otherMailbox", b!"eq"), (b!"samAccountName", b!"eq")]

/-- `AddIndexAttribute`, index.go:42-44. -/
def addIndexAttribute (name indices : Str) (m : IdxTexts) : IdxTexts := (name, indices) :: m.filter fun p => p.1 ≠ name

/-- `RemoveIndexAttribute`, index.go:46-48. -/
def removeIndexAttribute (name : Str) (m : IdxTexts) : IdxTexts := m.filter fun p => p.1 ≠ name

/-- The switch of `newIndexMapRegister`, index.go:192-199. -/
def idxKind (op : Str) : Option IdxKind :=
  if op = b!"sub" then some .sub
  else if op = b!"pres" then some .pres
  else if op = b!"eq" then some .eq
  else none

/-- The loops of `newIndexMapRegister`, index.go:190-201: which indexes are made. -/
def idxAttrsOf (m : IdxTexts) : IdxAttrs := m.map fun p => (p.1, (splitOn chComma p.2).filterMap idxKind)

/-- A call of one of the two functions. -/
inductive IdxCall where
  | add (name indices : Str)
  | remove (name : Str)

/-- What it does, index.go:42-48. -/
def IdxCall.run (m : IdxTexts) : IdxCall → IdxTexts
  | .add n i => addIndexAttribute n i m
  | .remove n => removeIndexAttribute n m

end Idm
