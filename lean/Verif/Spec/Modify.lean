import Verif.Model.Entry
/-!
# Specification vocabulary for modifications

Attribute types and values are compared up to case folding.
-/
namespace Idm

/-- All values an entry has for attribute type `t`, over all its attributes of that name. -/
def valuesOf (C : CaseEnv) (attrs : List Attr) (t : Str) : List Str :=
  (attrs.filter fun a => C.fold a.name = C.fold t).flatMap (·.vals)

/-- The entry has value `v` (up to case) for type `t`. -/
def HasValue (C : CaseEnv) (attrs : List Attr) (t v : Str) : Prop :=
  ∃ w ∈ valuesOf C attrs t, C.fold w = C.fold v

instance (C : CaseEnv) (attrs : List Attr) (t v : Str) : Decidable (HasValue C attrs t v) := by
  unfold HasValue; infer_instance

/-- What the server makes of the values `cur` of an attribute type when it applies a change of that type; `orig` are the values before the
request. (RFC 4511, section 4.6, has `cur` in place of `orig`: the changes of a request are applied one after the other.) -/
def changeValues (C : CaseEnv) (orig cur : List Str) (c : Change) : List Str :=
  if c.op = 0 then cur ++ c.vals.filter fun v => ∀ w ∈ cur, C.fold w ≠ C.fold v
  else if c.op = 2 then c.vals
  else if c.op = 1 then if c.vals = [] then [] else orig.filter fun v => ∀ w ∈ c.vals, C.fold v ≠ C.fold w
  else cur

/-- The values of type `t` after a list of changes. -/
def valuesAfter (C : CaseEnv) (t : Str) (orig cur : List Str) (cs : List Change) : List Str :=
  cs.foldl (fun cur c => if C.fold c.typ = C.fold t then changeValues C orig cur c else cur) cur

/-- The values of the first attribute of that name. -/
def firstValues (C : CaseEnv) (attrs : List Attr) (t : Str) : List Str :=
  ((attrs.find? fun a => C.fold a.name = C.fold t).map (·.vals)).getD []

/-- No two attributes have the same name up to case. -/
def UniqueNames (C : CaseEnv) (attrs : List Attr) : Prop := (attrs.map fun a => C.fold a.name).Nodup

instance (C : CaseEnv) (attrs : List Attr) : Decidable (UniqueNames C attrs) := by unfold UniqueNames; infer_instance

/-- All attribute names are ASCII (as RFC 4512 attribute descriptions are). -/
def AsciiNames (attrs : List Attr) : Prop := ∀ a ∈ attrs, IsAscii a.name

instance (attrs : List Attr) : Decidable (AsciiNames attrs) := by unfold AsciiNames; infer_instance

/-- The attribute is named by one of the changes. -/
def Named (C : CaseEnv) (changes : List Change) (a : Attr) : Prop := ∃ c ∈ changes, C.fold c.typ = C.fold a.name

instance (C : CaseEnv) (cs : List Change) (a : Attr) : Decidable (Named C cs a) := by unfold Named; infer_instance

/-- The entry contains all attribute values of its own RDN. -/
def HasRDN (C : CaseEnv) (e : Entry) : Prop :=
  ∀ rdn rest, parseDN C e.dn = some (rdn :: rest) → ∀ a ∈ rdn, HasValue C e.attrs a.typ a.val

end Idm
