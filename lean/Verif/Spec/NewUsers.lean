import Verif.Model.NewUsers
import Verif.Spec.Template

/-!
# What newusers should do
-/
namespace Idm

/-- The fields of a line that describes a user; `none` for an empty line or a comment. -/
def userFields (line : Str) : Option (List Str) :=
  if trimSpace line = [] ∨ isComment (trimSpace line) = true then none
  else some (splitOn fieldSep (trimSpace line))

/-- A line newusers can use: no user, or a user with all seven fields and no weak password. -/
def GoodLine (strong : Str → Bool) (line : Str) : Prop :=
  ∀ fs, userFields line = some fs → 7 ≤ fs.length ∧ ∀ p, fs[1]? = some p → p ≠ [] → strong p = true

/-- The seven fields of an entry. -/
def PwEntry.fields (e : PwEntry) : List Str := [e.name, e.passwd, e.uid, e.gid, e.gecos, e.dir, e.shell]

/-- The value of decimal digits, by position. -/
def decVal : Str → Nat
  | [] => 0
  | d :: ds => (d.toNat - 48) * 10 ^ ds.length + decVal ds

/-- The text is a decimal number with an optional sign, and `n` is that number. -/
def IsDecimal (s : Str) (n : Int) : Prop :=
  ∃ ds : Str, ds ≠ [] ∧ (∀ c ∈ ds, 48 ≤ c ∧ c ≤ 57) ∧ ((s = ds ∧ n = decVal ds) ∨ (s = 43 :: ds ∧ n = decVal ds) ∨ (s = 45 :: ds ∧ n = -decVal ds))

/-- The number given in a field; an empty field gives none. -/
def givenNumber (field : Str) : Option Int := if field = [] then none else parseInt64 field

/-- All numbers given in the input, for users and for groups. -/
def givenNumbers (es : List PwEntry) : List Int :=
  es.flatMap fun e => (givenNumber e.uid).toList ++ (givenNumber e.gid).toList

/-- The entry lacks a number. -/
def lacksNumber (e : PwEntry) : Bool := e.uid == [] || e.gid == []

/-- The attributes of the record of a user, in the order of the template. Users go below `base`; the mail domain is left to the template engine. -/
def UserRec.attrs (base : Str) (r : UserRec) : List (Str × Str) :=
  [(b!"dn", b!"uid=" ++ r.name ++ b!"," ++ base), (b!"objectClass", b!"posixAccount"), (b!"objectClass", b!"top"),
    (b!"objectClass", b!"inetOrgPerson"), (b!"uid", r.name), (b!"uidNumber", intText r.uidNumber)] ++
  (r.gidNumber.map fun g => (b!"gidNumber", intText g)).toList ++
  (r.userPassword.map fun v => (b!"userPassword", v)).toList ++
  [(b!"mail", r.name ++ b!"@{{.MailDomain}}")] ++
  r.mails.map (fun v => (b!"mailAlternateAddress", v)) ++
  [(b!"cn", r.cn)] ++
  (r.givenName.map fun v => (b!"givenName", v)).toList ++
  (r.sn.map fun v => (b!"sn", v)).toList

/-- A line of an LDIF record is a type, a colon, blanks and the value (RFC 2849). -/
def cutLine (l : Str) : Str × Str := (l.takeWhile (· ≠ 58), ((l.dropWhile (· ≠ 58)).drop 1).dropWhile (· = 32))

/-- The attributes of the records of an LDIF text; comments do not count. -/
def recordAttrs (text : Str) : List (List (Str × Str)) := (records text).map fun ls => (ls.filter (!isComment ·)).map cutLine

/-- A value as it is read from its line: blanks in front and one carriage return at the end are lost. -/
def readValue (v : Str) : Str := (dropCR v).dropWhile (· = 32)

/-- Blanks in front and a carriage return at the end do not survive in LDIF. -/
def plainValue (v : Str) : Prop := v.head? ≠ some 32 ∧ v.getLast? ≠ some 13

end Idm
