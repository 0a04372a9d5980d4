import Verif.Model.NewUsers
import Verif.Spec.LdifFormat
/-!
# From newusers to the LDIF server
-/
namespace Idm

/-- What a template whose only actions are variables stands for: `{{.Name}}` is replaced by the value of `Name`, the text around it stays as it
is. -/
inductive Renders (vars : List (Str × Str)) : Str → Str → Prop where
  | text (s : Str) : contains s b!"{{" = false → Renders vars s s
  | var (s n v rest out : Str) : contains s b!"{{" = false → s.getLast? ≠ some 123 → n.head?.any (fun c => !isDigitByte c) = true → n.all isAlnumByte = true → varValue vars n = some v →
      Renders vars rest out → Renders vars (s ++ b!"{{." ++ n ++ b!"}}" ++ rest) (s ++ v ++ out)

/-- The template engine replaces variables by their values. (What it does with other actions is left open.) -/
def TemplateEngine (run : List (Str × Str) → UInt64 → Str → Option Str) : Prop :=
  ∀ vars start text out, Renders vars text out → run vars start text = some out

/-- An address at the domain the server is to fill in becomes an address at `domain`. -/
def atDomain (domain v : Str) : Str :=
  if hasSuffix v b!"@{{.MailDomain}}" then v.take (v.length - 16) ++ 64 :: domain else v

/-- The record of a user as the server is to read it: below the unit `Users` of the company; blanks in front of a value are lost. -/
def userRecord (company base domain : Str) (r : UserRec) : LdifRecord :=
  ⟨b!"uid=" ++ r.name ++ b!",ou=Users,ou=" ++ company ++ b!"," ++ base,
    ([(b!"objectClass", b!"posixAccount"), (b!"objectClass", b!"top"), (b!"objectClass", b!"inetOrgPerson"), (b!"uid", r.name),
        (b!"uidNumber", intText r.uidNumber)] ++
      (r.gidNumber.map fun g => (b!"gidNumber", intText g)).toList ++
      (r.userPassword.map fun v => (b!"userPassword", v)).toList ++
      [(b!"mail", r.name ++ b!"@" ++ domain)] ++
      r.mails.map (fun v => (b!"mailAlternateAddress", atDomain domain v)) ++
      [(b!"cn", r.cn)] ++
      (r.givenName.map fun v => (b!"givenName", v)).toList ++
      (r.sn.map fun v => (b!"sn", v)).toList).map fun p => (p.1, p.2.dropWhile (· = 32))⟩

/-- Text that goes through newusers and the template engine unchanged: without carriage returns and `{{`. -/
def Inert (v : Str) : Prop := 13 ∉ v ∧ contains v b!"{{" = false

instance (v : Str) : Decidable (Inert v) := by unfold Inert; infer_instance

end Idm
