import Verif.Spec.Unrelated
import Verif.Props.Bolt
/-!
# Specification vocabulary for the order of changes
-/
namespace Idm

/-- After the calls `ops` it makes no difference whether the calls `us` or the calls `vs` are made: whatever is asked for afterwards gets the same
results, and leaves databases that answer alike. -/
def SameAfter (C : CaseEnv) (G : GobEnv) (validate : Str → Str → Res Bool) (base : DN) (ops us vs : List Op) : Prop :=
  ∀ more, HistOk C (ops ++ us ++ more) → HistOk C (ops ++ vs ++ more) →
    let one := boltRun C G validate (render base) (after C G validate base (ops ++ us)) more
    let two := boltRun C G validate (render base) (after C G validate base (ops ++ vs)) more
    one.1 = two.1 ∧ AnswerAlike C G one.2 two.2

/-- No entry comes after an entry that is directly below it. -/
def ParentsFirst (C : CaseEnv) (es : List Entry) : Prop :=
  es.Pairwise fun x y => ¬ ∃ rdn above m, entryPutDN C x.dn = some (rdn :: above) ∧ entryPutDN C y.dn = some m ∧ SameName C above m

end Idm
