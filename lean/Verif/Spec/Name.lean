import Verif.Model.DN
/-!
# Specification vocabulary for names

Two names denote the same entry iff they have the same RDN sequence up to case folding of types and values.
-/
namespace Idm

/-- A byte of an attribute type without special meaning in a DN: printable ASCII other than blank `,` `+` `;` `=` `\`.
All bytes of RFC 4512 attribute descriptions are of this kind. -/
def okTypeByte (c : UInt8) : Bool := 33 ≤ c && c ≤ 126 && !(b!",+;=\\").contains c

/-- An attribute type that can be written in a DN without escapes. -/
def TypeOk (t : Str) : Prop := t ≠ [] ∧ ∀ c ∈ t, okTypeByte c = true

instance (t : Str) : Decidable (TypeOk t) := by unfold TypeOk; infer_instance

/-- A DN all of whose RDNs are non-empty and whose attribute types need no escapes. -/
def NameOk (dn : DN) : Prop := ∀ r ∈ dn, r ≠ [] ∧ ∀ a ∈ r, TypeOk a.typ

instance (dn : DN) : Decidable (NameOk dn) := by unfold NameOk; infer_instance

/-- A name valid by RFC 4514 section 3 as far as attribute types go: descriptors or numeric OIDs, i.e. letters, digits, `-` and `.`. -/
def Rfc4514 (dn : DN) : Prop := ∀ r ∈ dn, r ≠ [] ∧ ∀ a ∈ r, a.typ ≠ [] ∧ ∀ c ∈ a.typ,
  (48 ≤ c ∧ c ≤ 57) ∨ (65 ≤ c ∧ c ≤ 90) ∨ (97 ≤ c ∧ c ≤ 122) ∨ c = 45 ∨ c = 46

instance (dn : DN) : Decidable (Rfc4514 dn) := by unfold Rfc4514; infer_instance

/-- The value of the very last attribute of the DN does not end in a blank. -/
def EndOk (dn : DN) : Prop :=
  ((dn.getLast?.bind List.getLast?).bind fun a => a.val.getLast?) ≠ some chSpace

instance (dn : DN) : Decidable (EndOk dn) := by unfold EndOk; infer_instance

/-- Same name: equal RDN sequences up to case folding of every type and value. -/
def SameName (C : CaseEnv) (p q : DN) : Prop :=
  p.map (·.map fun a => (C.fold a.typ, C.fold a.val)) = q.map (·.map fun a => (C.fold a.typ, C.fold a.val))

instance (C : CaseEnv) (p q : DN) : Decidable (SameName C p q) := by unfold SameName; infer_instance

end Idm
