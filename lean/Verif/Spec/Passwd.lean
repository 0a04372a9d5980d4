import Verif.Model.Passwd
/-!
# Specification: the secret given to `idmd gen passwd`
-/
namespace Idm

/-- In exactly one way the secret `s` is given, to be hashed with `scheme`: by `--secret`, as the content of the file, by the generator (then
with scheme `{CLEARTEXT}`), or, if none of these flags is used, by typing it twice. -/
def SecretGiven (W : PasswdWorld) (o : PasswdOpts) (s scheme : Str) : Prop :=
  (o.secret = some s ∧ o.secretFile = none ∧ o.generate = false ∧ scheme = o.scheme) ∨
  (∃ f, o.secret = none ∧ o.secretFile = some f ∧ o.generate = false ∧ W.readFile (W.clean f) = some s ∧ scheme = o.scheme) ∨
  (o.secret = none ∧ o.secretFile = none ∧ o.generate = true ∧ W.generated = some s ∧ scheme = b!"{CLEARTEXT}") ∨
  (o.secret = none ∧ o.secretFile = none ∧ o.generate = false ∧ W.typed = s ∧ W.confirmed = s ∧ s ≠ [] ∧ scheme = o.scheme)

/-- What has to be read can be read, what has to be generated can be generated. -/
def SourcesWork (W : PasswdWorld) (o : PasswdOpts) : Prop :=
  (∀ f, o.secret = none → o.secretFile = some f → ∃ s, W.readFile (W.clean f) = some s) ∧
  (o.secret = none → o.secretFile = none → o.generate = true → ∃ s, W.generated = some s)

end Idm
