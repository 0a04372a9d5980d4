import Verif.Spec.Unrelated
import Verif.Spec.Modify
import Verif.Props.Bolt
/-!
# Specification vocabulary for changes that are taken back
-/
namespace Idm

/-- After the calls `ops`, the calls `us` leave no trace: whatever is asked for afterwards gets the results, and leaves a database that answers
alike, as if they had not been made. -/
def NoTrace (C : CaseEnv) (G : GobEnv) (validate : Str → Str → Res Bool) (base : DN) (ops us : List Op) : Prop :=
  ∀ more, HistOk C (ops ++ us ++ more) →
    let made := boltRun C G validate (render base) (after C G validate base (ops ++ us)) more
    let not := boltRun C G validate (render base) (after C G validate base ops) more
    made.1 = not.1 ∧ AnswerAlike C G made.2 not.2

end Idm
