import Verif.Spec.Unrelated
import Verif.Spec.Modify
import Verif.Spec.Write
/-!
# Specification vocabulary for requests that are sent twice
-/
namespace Idm

/-- If the call modifies an entry, no two of its changes are of the same attribute type (up to case). -/
def Op.once (C : CaseEnv) : Op → Prop
  | .modify _ cs => (cs.map fun c => C.fold c.typ).Nodup
  | _ => True

instance (C : CaseEnv) (op : Op) : Decidable (op.once C) := by cases op <;> unfold Op.once <;> infer_instance

/-- If the call modifies an entry, the attribute types it names are ASCII, and so are those the entry has in the database `db`. -/
def Op.ascii (C : CaseEnv) (G : GobEnv) (db : Db) : Op → Prop
  | .modify dn cs => (∀ c ∈ cs, IsAscii c.typ) ∧ ∀ e, boltSearch C G db dn scopeBase = .ok ([e], none) → AsciiNames e.attrs
  | _ => True

/-- The answer to a call that repeats one that was carried out: the entry exists, is gone or has moved already; a modification is carried
out again; so is a change of password for which no old password is given. -/
def Op.answeredAgain : Op → Res Unit → Prop
  | .add _, r => r = .err .exists_
  | .delete _, r => r = .err .notFound
  | .rename _, r => r = .err .exists_
  | .modify _ _, r => r = .ok ()
  | .password req, r => req.oldPassword = [] → r = .ok ()

/-- The result code of a write request that repeats one that was answered with success: entryAlreadyExists 68, unwillingToPerform 53,
success 0. -/
def Write.codeAgain : Write → Nat
  | .add _ _ => 68
  | .delete _ => 53
  | .modify _ _ => 0
  | .rename _ _ _ => 68

end Idm
