import Verif.Spec.Ledger
/-!
# Specification: a value that was taken away
-/
namespace Idm

/-- The change takes the value `v` (up to case) away from its attribute, if it is there: it deletes the value or the whole attribute, or puts other
values in place. -/
def Change.removes (C : CaseEnv) (v : Str) (c : Change) : Prop :=
  c.op = 1 ∧ (c.vals = [] ∨ ∃ w ∈ c.vals, C.fold w = C.fold v) ∨ c.op = 2 ∧ ∀ w ∈ c.vals, C.fold w ≠ C.fold v

/-- The call can bring the value `v` (up to case) to the entry `k`: it asks for the entry to have it, or for another entry to get that name. -/
def Op.brings (C : CaseEnv) (t v : Str) (k : DN) (op : Op) : Prop :=
  (∃ w, C.fold w = C.fold v ∧ op.gives C t w k) ∨ ∃ r, op = .rename r ∧ NewName C r k

end Idm
