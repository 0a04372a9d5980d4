import Verif.Spec.Served
import Verif.Spec.BoltServer
import Verif.Spec.Find
import Verif.Spec.Commands
/-!
# From the text of an LDIF file through `boltdb load` to the answers of the database server
-/
namespace Idm

/-- The text of an LDIF file with these records that can be loaded: it has no version, or `AllEntries` of the library passes over the nil entry
that a version of its own leaves (see `C49_version_fails`). -/
def LdifInput (L : LdifLib) (text : Str) (rs : List LdifRecord) : Prop := LdifBody text rs ∨ (LdifSays text rs ∧ L.skipNil = true)

/-- The record has a name, with attribute types that need no escapes, and `k` is this name without differences of case. -/
def LdifRecord.Named (C : CaseEnv) (r : LdifRecord) (k : DN) : Prop := ∃ n, parseDN C r.dn = some n ∧ NameOk n ∧ foldDN C n = k

/-- The names of the records of a file that is correctly sorted for the base: each occurs once, is the base or comes after the name directly above it,
and has at most 32768 bytes as text. -/
def TopDown (base : DN) (names : List DN) : Prop :=
  ∀ before k after, names = before ++ k :: after →
    k ∉ before ∧ (k = base ∨ ∃ rdn above, k = rdn :: above ∧ above ∈ before) ∧ (render k).length ≤ 32768

/-- A record as an entry: every value as an attribute of its own. -/
def LdifRecord.whole (r : LdifRecord) : Entry := ⟨r.dn, r.values.map fun tv => ⟨tv.1, [tv.2]⟩⟩

/-- The entry sent for a record to a client that asks for the attributes `attrs`: it has the name of the record as written in the file, and under each
type that is asked for all the values of the record in their order; nothing else, no type twice and none without values; the
types are in the order of their bytes. -/
def SentWhole (C : CaseEnv) (attrs : List Str) (r : LdifRecord) (e : Entry) : Prop :=
  e.dn = r.dn ∧
  (∀ t, Requested C attrs t → typeValues t e.attrs = r.under t) ∧
  (∀ a ∈ e.attrs, Requested C attrs a.name ∧ a.vals ≠ []) ∧
  (e.attrs.map (·.name)).Nodup ∧ (e.attrs.map (·.name)).Pairwise ByteLe

/-- All values of the record that are passwords for the database server have the type written in the same way. -/
def OnePassword (C : CaseEnv) (r : LdifRecord) : Prop :=
  ∀ tv ∈ r.values, ∀ tw ∈ r.values, C.eqFold b!"userPassword" tv.1 = true → C.eqFold b!"userPassword" tw.1 = true → tv.1 = tw.1

instance (C : CaseEnv) (r : LdifRecord) : Decidable (OnePassword C r) := by unfold OnePassword; infer_instance

/-- The password matches the first one of the record. -/
def LdifRecord.admits (C : CaseEnv) (K : CryptoEnv) (r : LdifRecord) (pw : Str) : Prop :=
  ∃ t h rest, r.values.filter (fun tv => C.eqFold b!"userPassword" tv.1) = (t, h) :: rest ∧ validatePw C K pw h = .ok true

/-- The password matches that of the record if userPassword may be written in several ways: the way that comes first in the order of bytes
counts, and the first of the values that are written in that way. -/
def LdifRecord.admitsFirst (C : CaseEnv) (K : CryptoEnv) (r : LdifRecord) (pw : Str) : Prop :=
  ∃ t h more, C.eqFold b!"userPassword" t = true ∧ r.under t = h :: more ∧ (∀ tv ∈ r.values, C.eqFold b!"userPassword" tv.1 = true → ByteLe t tv.1) ∧
    validatePw C K pw h = .ok true

end Idm
