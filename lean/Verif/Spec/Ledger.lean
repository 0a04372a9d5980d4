import Verif.Spec.Origin
/-!
# Specification: which entries there are, told from the calls and their results alone
-/
namespace Idm

/-- The new name asked for by a rename: the first part of the old name is exchanged. -/
def NewName (C : CaseEnv) (r : ModifyDNReq) (k : DN) : Prop :=
  ∃ o p n q, parseDN C r.dn = some (o :: p) ∧ parseDN C r.newRDN = some (n :: q) ∧ foldDN C (n :: p) = k

/-- There is an entry called `k`, to judge from the calls and their results (the last one first): it was added or got the name by a rename, and was
neither deleted nor renamed since then. Calls that were refused, modifications and changes of passwords do not matter. -/
def Alive (C : CaseEnv) (k : DN) : List (Op × Res Unit) → Prop
  | [] => False
  | (.add e, .ok ()) :: h => (∃ n, entryPutDN C e.dn = some n ∧ foldDN C n = k) ∨ Alive C k h
  | (.delete s, .ok ()) :: h => ¬ Writes C s k ∧ Alive C k h
  | (.rename r, .ok ()) :: h => NewName C r k ∨ ¬ Writes C r.dn k ∧ Alive C k h
  | _ :: h => Alive C k h

/-- How many entries were added. -/
def added (h : List (Op × Res Unit)) : Nat := h.countP fun x => match x with
  | (.add _, .ok ()) => true
  | _ => false

/-- How many entries were deleted. -/
def deleted (h : List (Op × Res Unit)) : Nat := h.countP fun x => match x with
  | (.delete _, .ok ()) => true
  | _ => false

end Idm
