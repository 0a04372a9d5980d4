import Verif.Spec.Unrelated
import Verif.Spec.Modify
/-!
# Specification: where the values of an entry come from
-/
namespace Idm

/-- The text is a way to write the name `k`. -/
def Writes (C : CaseEnv) (s : Str) (k : DN) : Prop := ∃ n, parseDN C s = some n ∧ foldDN C n = k

/-- The call asks for the entry `k` to have the value `v` (byte by byte) of type `t` (up to case). -/
def Op.gives (C : CaseEnv) (t v : Str) (k : DN) : Op → Prop
  | .add e => (∃ n, entryPutDN C e.dn = some n ∧ foldDN C n = k) ∧ ∃ a ∈ e.attrs, C.fold a.name = C.fold t ∧ v ∈ a.vals
  | .modify dn cs => Writes C dn k ∧ ∃ c ∈ cs, (c.op = 0 ∨ c.op = 2) ∧ C.fold c.typ = C.fold t ∧ v ∈ c.vals
  | .password r => Writes C r.userIdentity k ∧ C.fold b!"userPassword" = C.fold t ∧ v = r.newPassword
  | .rename r => ∃ o p n q, parseDN C r.dn = some (o :: p) ∧ parseDN C r.newRDN = some (n :: q) ∧ foldDN C (n :: p) = k ∧
    ∃ a ∈ n, C.fold a.typ = C.fold t ∧ a.val = v
  | .delete _ => False

/-- After the call, if it is made, the entry `k` is the one that was called `k` before. -/
def Op.leaves (C : CaseEnv) (k : DN) : Op → Prop
  | .modify _ _ => True
  | .password _ => True
  | .add e => k ∉ (Op.add e).about C
  | .delete s => k ∉ (Op.delete s).about C
  | .rename r => k ∉ (Op.rename r).about C

/-- The value `v` of type `t` of the entry that is now called `k` was given to this very entry, by a call that was carried out, when it was added or
later; it may have had other names in between. The list has the calls with their results, the last one first. -/
inductive Given (C : CaseEnv) (t v : Str) : List (Op × Res Unit) → DN → Prop where
  | given {h : List (Op × Res Unit)} {op : Op} {k : DN} : op.gives C t v k → Given C t v ((op, .ok ()) :: h) k
  | before {h : List (Op × Res Unit)} {op : Op} {r : Res Unit} {k : DN} : Given C t v h k → (r = .ok () → op.leaves C k) → Given C t v ((op, r) :: h) k
  | renamed {h : List (Op × Res Unit)} {r : ModifyDNReq} {o n : RDN} {p q : DN} : Given C t v h (foldDN C (o :: p)) →
    parseDN C r.dn = some (o :: p) → parseDN C r.newRDN = some (n :: q) → Given C t v ((.rename r, .ok ()) :: h) (foldDN C (n :: p))

/-- The attribute types of the call are ASCII (those in names need not be looked at, see `Op.Ok`). -/
def Op.plain : Op → Prop
  | .add e => AsciiNames e.attrs
  | .modify _ cs => ∀ c ∈ cs, IsAscii c.typ
  | _ => True

instance (op : Op) : Decidable op.plain := by cases op <;> unfold Op.plain <;> infer_instance

end Idm
