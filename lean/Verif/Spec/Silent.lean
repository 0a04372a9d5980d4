import Verif.Spec.BoltServer
import Verif.Spec.Ldif
/-!
# Specification vocabulary for what refused binds tell
-/
namespace Idm

/-- The name is that of an entry of the directory which cannot be tested: it has no password, or one on which the test of a password crashes
(C23 says which those are). -/
def Untestable (C : CaseEnv) (K : CryptoEnv) (base : DN) (d : Dir) (dn pw : Str) : Prop :=
  pw ≠ [] ∧ ∃ name e, parseDN C dn = some name ∧ render base <:+ render (foldDN C name) ∧ d.get (foldDN C name) = some e ∧
    ∀ h, PasswordOf C e h → validatePw C K pw h = .panic

/-- The same for a record of an LDIF file. -/
def UntestableIn (C : CaseEnv) (K : CryptoEnv) (recs : List (Option Entry)) (dn pw : Str) : Prop :=
  ∃ r ∈ entriesIn recs, C.lower r.dn = C.lower dn ∧ ∀ h, passwordOf C r = some h → validatePw C K pw h = .panic

end Idm
