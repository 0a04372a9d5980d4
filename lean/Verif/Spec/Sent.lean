import Verif.Spec.Origin
import Verif.Spec.Durable
/-!
# Specification: who sent what can be read
-/
namespace Idm

/-- In this life a client asked for the change, on a connection where the last successful bind before was by someone who may make it, and was not told
that it was refused. -/
def SentBy {ι : Type} (V : Env) (l : Life ι) (id : ι) (op : Op) : Prop :=
  (∃ t₁ c p o t₂ bound, l.proc.trace = t₁ ++ Seen.arrive id (.packet c p o) :: t₂ ∧ LastBind V.C c t₁ bound ∧ Permitted V.C l.cfg.admin bound op ∧
    AsksFor V bound p op) ∧ ∀ rs, Seen.answer id rs ∈ l.proc.trace → Succeeded rs

end Idm
