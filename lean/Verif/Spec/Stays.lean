import Verif.Spec.Origin
/-!
# Specification: until when an entry keeps a value
-/
namespace Idm

/-- The call asks for the value `v` of type `t` to be taken from the entry `k`, for the entry to be deleted, or for it to be renamed. -/
def Op.takes (C : CaseEnv) (t v : Str) (k : DN) : Op → Prop
  | .add _ => False
  | .delete s => Writes C s k
  | .modify s cs => Writes C s k ∧ ∃ c ∈ cs, C.fold c.typ = C.fold t ∧
    (c.op = 2 ∧ v ∉ c.vals ∨ c.op = 1 ∧ (c.vals = [] ∨ ∃ w ∈ c.vals, C.fold w = C.fold v))
  | .password r => Writes C r.userIdentity k ∧ C.fold b!"userPassword" = C.fold t ∧ v ≠ r.newPassword
  | .rename r => Writes C r.dn k

/-- No call that was carried out takes the value `v` of type `t` from the entry called `k` at first and `k'` in the end: calls either do not ask for
it, or are refused, or rename the entry without taking the value. The list has the calls with their results, the first one first. -/
inductive Stays (C : CaseEnv) (t v : Str) : List (Op × Res Unit) → DN → DN → Prop where
  | done {k : DN} : Stays C t v [] k k
  | refused {h : List (Op × Res Unit)} {op : Op} {r : Res Unit} {k k' : DN} : r ≠ .ok () → Stays C t v h k k' → Stays C t v ((op, r) :: h) k k'
  | other {h : List (Op × Res Unit)} {op : Op} {r : Res Unit} {k k' : DN} : ¬ op.takes C t v k → Stays C t v h k k' → Stays C t v ((op, r) :: h) k k'
  | renamed {h : List (Op × Res Unit)} {q : ModifyDNReq} {r : Res Unit} {o n : RDN} {p m : DN} {k' : DN} :
    parseDN C q.dn = some (o :: p) → parseDN C q.newRDN = some (n :: m) →
    ¬ (q.deleteOldRDN = true ∧ ∃ a ∈ o, C.fold a.typ = C.fold t ∧ C.fold a.val = C.fold v) → r = .ok () →
    Stays C t v h (foldDN C (n :: p)) k' → Stays C t v ((.rename q, r) :: h) (foldDN C (o :: p)) k'

/-- An add has each attribute type once, up to case. -/
def Op.distinct (C : CaseEnv) : Op → Prop
  | .add e => UniqueNames C e.attrs
  | _ => True

instance (C : CaseEnv) (op : Op) : Decidable (op.distinct C) := by cases op <;> unfold Op.distinct <;> infer_instance

end Idm
