import Verif.Spec.Wire
import Verif.Spec.Directory
/-!
# Write requests: what the client sends, what it asks for, what it is to be told
-/
namespace Idm

/-- A write request. -/
inductive Write where
  | add (dn : Str) (attrs : List Attr)
  | delete (dn : Str)
  | modify (dn : Str) (changes : List Change)
  | rename (dn newRDN : Str) (deleteOldRDN : Bool)

namespace Write

/-- The request on the wire. -/
def packet : Write → Packet
  | add dn attrs => wAdd ⟨dn, attrs⟩
  | delete dn => wDelete dn
  | modify dn cs => wModify ⟨dn, cs⟩
  | rename dn rdn del => wModifyDN ⟨dn, rdn, del⟩

/-- What it asks the store for. (`entryFromAddRequest`: the attributes in alphabetical order, see C50.) -/
def op : Write → Op
  | add dn attrs => .add (entryFromAddRequest dn attrs)
  | delete dn => .delete dn
  | modify dn cs => .modify dn cs
  | rename dn rdn del => .rename ⟨dn, rdn, del⟩

/-- The response type. -/
def respTag : Write → Nat
  | add _ _ => 9
  | delete _ => 11
  | modify _ _ => 7
  | rename _ _ _ => 13

/-- The names in the request. -/
def names : Write → List Str
  | add dn _ => [dn]
  | delete dn => [dn]
  | modify dn _ => [dn]
  | rename dn rdn _ => [dn, rdn]

/-- The changes are of the three kinds RFC 4511 knows: add 0, delete 1, replace 2. -/
def kindsOk : Write → Prop
  | modify _ cs => ∀ c ∈ cs, c.op ≤ 2
  | _ => True

/-- The result code for what the store says: success 0, entryAlreadyExists 68, for modify and rename the code of the error if it has
one, unwillingToPerform 53 for all others. -/
def code (w : Write) : Err → Nat
  | .exists_ => 68
  | .ldap c _ => match w with
    | modify _ _ => c
    | rename _ _ _ => c
    | _ => 53
  | _ => 53

end Write

/-- What the client is told and what becomes of connection and database after the store's answer. -/
def writeAnswer (id : Int) (w : Write) (bound : Str) : Res Unit × Db → Out Db
  | (.ok _, db) => ⟨[.result id w.respTag 0], .go bound, db⟩
  | (.err e, db) => ⟨[.result id w.respTag (w.code e)], .go bound, db⟩
  | (.panic, db) => ⟨[], .crash, db⟩
  | (.hang, db) => ⟨[], .hang, db⟩

end Idm
