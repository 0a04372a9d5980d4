import Verif.Spec.Ldif
import Verif.Spec.LdifFormat
/-!
# From the text of LDIF files to the answers of the server
-/
namespace Idm

/-- The values of a record under an attribute type, in their order. -/
def LdifRecord.under (r : LdifRecord) (t : Str) : List Str := (r.values.filter fun tv => tv.1 = t).map (·.2)

/-- What clients may see of a record, as an entry: every value but those of userPassword, each as an attribute of its own. -/
def LdifRecord.seen (C : CaseEnv) (r : LdifRecord) : Entry :=
  ⟨C.lower r.dn, (r.values.filter fun tv => C.lower tv.1 ≠ b!"userpassword").map fun tv => ⟨tv.1, [tv.2]⟩⟩

/-- The entry sent for a record to a client that asks for the attributes `attrs`: it has the name of the record in lower case, and under each
type that is asked for, other than userPassword, all the values of the record in their order; nothing else, no type twice and none without
values; the types are in the order of their bytes. -/
def SentFor (C : CaseEnv) (attrs : List Str) (r : LdifRecord) (e : Entry) : Prop :=
  e.dn = C.lower r.dn ∧
  (∀ t, Requested C attrs t → C.lower t ≠ b!"userpassword" → typeValues t e.attrs = r.under t) ∧
  (∀ a ∈ e.attrs, Requested C attrs a.name ∧ C.lower a.name ≠ b!"userpassword" ∧ a.vals ≠ []) ∧
  (e.attrs.map (·.name)).Nodup ∧ (e.attrs.map (·.name)).Pairwise ByteLe

/-- `recs` is what the server reads from LDIF files that say `rs`: a single file; a file without actions as a template, with lines below 64
KiB and without continued comments; or all the files of a directory whose names end in `.ldif`, in the order of their names, with or without
the template engine. -/
inductive DataOf (L : LdifLib) : List LdifRecord → List (Option Entry) → Prop where
  | file (vars : List (Str × Str)) (start : UInt64) (text : Str) (rs : List LdifRecord) (recs : List (Option Entry)) :
      LdifSays text rs → parseLDIFFile L none vars start (some (.whole text)) = some recs → DataOf L rs recs
  | template (run : List (Str × Str) → UInt64 → Str → Option Str) (vars : List (Str × Str)) (start : UInt64) (text : Str)
      (rs : List LdifRecord) (recs : List (Option Entry)) :
      PlainEngine run → LdifSays text rs → PlainTemplate text → parseLDIFFile L (some run) vars start (some (.whole text)) = some recs → DataOf L rs recs
  | directory (vars : List (Str × Str)) (start : UInt64) (read : Str → Option FileRead) (names files : List Str) (rs : Str → List LdifRecord)
      (recs : List (Option Entry)) :
      (∀ n ∈ names, b!".ldif" <:+ n → ∃ t, read n = some (.whole t) ∧ LdifBody t (rs n)) →
      files.Perm (names.filter fun n => b!".ldif" <:+ n) → files.Pairwise ByteLe →
      parseLDIFDirectory L none vars start read names = some recs → DataOf L (files.flatMap rs) recs
  | templates (run : List (Str × Str) → UInt64 → Str → Option Str) (vars : List (Str × Str)) (start : UInt64) (read : Str → Option FileRead)
      (names files : List Str) (rs : Str → List LdifRecord) (recs : List (Option Entry)) : PlainEngine run →
      (∀ n ∈ names, b!".ldif" <:+ n → ∃ t, read n = some (.whole t) ∧ LdifBody t (rs n) ∧ PlainTemplate t) →
      files.Perm (names.filter fun n => b!".ldif" <:+ n) → files.Pairwise ByteLe →
      parseLDIFDirectory L (some run) vars start read names = some recs → DataOf L (files.flatMap rs) recs

/-- All values of the record that are passwords have the type written in the same way. -/
def OneSpelling (C : CaseEnv) (r : LdifRecord) : Prop :=
  ∀ tv ∈ r.values, ∀ tw ∈ r.values, C.lower tv.1 = b!"userpassword" → C.lower tw.1 = b!"userpassword" → tv.1 = tw.1

instance (C : CaseEnv) (r : LdifRecord) : Decidable (OneSpelling C r) := by unfold OneSpelling; infer_instance

/-- The password opens the record: it matches the first of its passwords. -/
def LdifRecord.opens (C : CaseEnv) (K : CryptoEnv) (r : LdifRecord) (pw : Str) : Prop :=
  ∃ t h rest, r.values.filter (fun tv => C.lower tv.1 = b!"userpassword") = (t, h) :: rest ∧ validatePw C K pw h = .ok true

/-- The password opens the record if userPassword may be written in several ways: the way that comes last in the order of bytes counts, and the
first of the values that are written in that way. -/
def LdifRecord.opensLast (C : CaseEnv) (K : CryptoEnv) (r : LdifRecord) (pw : Str) : Prop :=
  ∃ t h more, C.lower t = b!"userpassword" ∧ r.under t = h :: more ∧ (∀ tv ∈ r.values, C.lower tv.1 = b!"userpassword" → ByteLe tv.1 t) ∧
    validatePw C K pw h = .ok true

end Idm
