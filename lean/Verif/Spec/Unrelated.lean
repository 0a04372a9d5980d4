import Verif.Spec.Search
/-!
# Specification vocabulary for changes that have nothing to do with each other
-/
namespace Idm

/-- The names a call is about, case folded: the one it gives, and for a rename also the new one. None if they are not names. -/
def Op.about (C : CaseEnv) : Op → List DN
  | .add e => ((entryPutDN C e.dn).map (foldDN C)).toList
  | .delete dn => ((parseDN C dn).map (foldDN C)).toList
  | .modify dn _ => ((parseDN C dn).map (foldDN C)).toList
  | .password req => ((parseDN C req.userIdentity).map (foldDN C)).toList
  | .rename req => match parseDN C req.dn, parseDN C req.newRDN with
    | some (o :: p), some (n :: _) => [foldDN C (o :: p), foldDN C (n :: p)]
    | _, _ => []

/-- No name the one call is about is one the other is about, nor directly above or below one. -/
def Unrelated (C : CaseEnv) (a b : Op) : Prop :=
  ∀ k ∈ a.about C, ∀ l ∈ b.about C, k ≠ l ∧ l.tail ≠ k ∧ k.tail ≠ l

instance (C : CaseEnv) (a b : Op) : Decidable (Unrelated C a b) := by unfold Unrelated; infer_instance

/-- The results of the calls that are marked, given the results of all. -/
def marked : List (Bool × Op) → List (Res Unit) → List (Res Unit)
  | (true, _) :: cs, r :: rs => r :: marked cs rs
  | (false, _) :: cs, _ :: rs => marked cs rs
  | _, _ => []

/-- The two databases answer alike: every search at a name ends in the same way, and finds the same entries, perhaps in another order. -/
def AnswerAlike (C : CaseEnv) (G : GobEnv) (db db' : Db) : Prop :=
  ∀ text, TextOk C text → ∀ scope, ∃ es es' e, boltSearch C G db text scope = .ok (es, e) ∧ boltSearch C G db' text scope = .ok (es', e) ∧ es.Perm es'

end Idm
