import Verif.Model.Bolt
import Verif.Spec.Name
/-!
# Specification: the directory as an abstract map

A directory is a list of named entries, in order of creation. Names are RDN sequences in case-folded form. There are no ids, no
buckets, no byte-level keys and no transactions here. What a change list does to one entry is `applyModify` (properties C15–C18).
-/
namespace Idm

/-- A named entry. -/
structure Node where
  name : DN
  entry : Entry
  deriving DecidableEq, Repr

abbrev Dir := List Node

namespace Dir

/-- The entry of that name. -/
def get (d : Dir) (k : DN) : Option Entry := (d.find? fun n => n.name = k).map (·.entry)

/-- There is an entry of that name. -/
def has (d : Dir) (k : DN) : Bool := d.any fun n => n.name = k

/-- `n` is a direct child of `k`: its name is one RDN followed by `k`. -/
def isChild (k n : DN) : Bool := match n with
  | [] => false
  | _ :: p => p = k

/-- `n` is strictly below `k`: its name is `k` with at least one RDN in front. -/
def isBelow (k n : DN) : Bool := k.length < n.length && k.isSuffixOf n

/-- There is an entry directly below that name. -/
def hasChild (d : Dir) (k : DN) : Bool := d.any fun n => isChild k n.name

/-- Replace the entry of that name. -/
def setEntry (d : Dir) (k : DN) (e : Entry) : Dir := d.map fun n => if n.name = k then ⟨k, e⟩ else n

/-- Replace name and entry. -/
def rename (d : Dir) (k k' : DN) (e : Entry) : Dir := d.map fun n => if n.name = k then ⟨k', e⟩ else n

/-- Remove the entry of that name. -/
def remove (d : Dir) (k : DN) : Dir := d.filter fun n => n.name ≠ k

end Dir

/-- Name texts longer than this cannot be stored (bbolt's key size limit). -/
def maxName : Nat := 32768

/-- Add `e` under the folded name `k`. Refused if the text of the name does not end in that of the base, if the name exists, if it is
not the base and has no parent, or if it is too long. -/
def specAddAt (base : DN) (d : Dir) (k : DN) (e : Entry) : Res Unit × Dir :=
  if ¬ render base <:+ render k then (.err .other, d)
  else if d.has k then (.err .exists_, d)
  else if k ≠ base ∧ ¬ d.has k.tail then (.err .other, d)
  else if (render k).length > maxName then (.err .other, d)
  else (.ok (), d ++ [⟨k, e⟩])

/-- Add `e` under `name`. The empty name crashes. -/
def specAdd (C : CaseEnv) (base : DN) (d : Dir) (name : DN) (e : Entry) : Res Unit × Dir :=
  if name = [] then (.panic, d) else specAddAt base d (foldDN C name) e

/-- Delete: the entry must exist, must have no children, and must have a parent (the top entry cannot be deleted). -/
def specDeleteAt (d : Dir) (k : DN) : Res Unit × Dir :=
  if ¬ d.has k then (.err .notFound, d)
  else if d.hasChild k then (.err .nonLeaf, d)
  else if ¬ d.has k.tail then (.err .notFound, d)
  else (.ok (), d.remove k)

/-- Delete the entry called `name`. The empty name crashes. -/
def specDelete (C : CaseEnv) (d : Dir) (name : DN) : Res Unit × Dir :=
  if name = [] then (.panic, d) else specDeleteAt d (foldDN C name)

/-- Modify the entry at `k`, which is written `text` in the request. -/
def specModifyAt (C : CaseEnv) (d : Dir) (k : DN) (text : Str) (changes : List Change) : Res Unit × Dir :=
  match d.get k with
  | none => (.err .notFound, d)
  | some e =>
    match applyModify C e text changes with
    | .ok e' => (.ok (), d.setEntry k e')
    | .err x => (.err x, d)
    | .panic => (.panic, d)
    | .hang => (.hang, d)

/-- Modify the entry called `name`. -/
def specModify (C : CaseEnv) (d : Dir) (name : DN) (text : Str) (changes : List Change) : Res Unit × Dir :=
  specModifyAt C d (foldDN C name) text changes

/-- Rename the leaf `k` to `k'`, applying the changes that follow from the old and the new RDN. -/
def specRenameAt (C : CaseEnv) (d : Dir) (k k' : DN) (changes : List Change) : Res Unit × Dir :=
  if d.has k' then (.err .exists_, d)
  else match d.get k with
    | none => (.err .notFound, d)
    | some e =>
      if d.hasChild k then (.err .nonLeaf, d)
      else
        match applyModify C ⟨render k', e.attrs⟩ (render k') changes with
        | .ok e' => if (render k').length > maxName then (.err .other, d) else (.ok (), d.rename k k' e')
        | .err x => (.err x, d)
        | .panic => (.panic, d)
        | .hang => (.hang, d)

/-- Rename the leaf `oldRDN :: parent` to `newRDN :: parent`: the values of the old RDN are removed if asked for, those of the new one
are added. -/
def specRename (C : CaseEnv) (d : Dir) (oldRDN newRDN : RDN) (parent : DN) (deleteOld : Bool) : Res Unit × Dir :=
  specRenameAt C d (foldDN C (oldRDN :: parent)) (foldDN C (newRDN :: parent))
    ((if deleteOld then oldRDN.map fun a => ⟨opDelete, a.typ, [a.val]⟩ else []) ++
      newRDN.map fun a => ⟨opAdd, a.typ, [a.val]⟩)

/-- Set the password of the entry at `k` (written `text`), after checking the old one if it is given. -/
def specPasswordAt (C : CaseEnv) (validate : Str → Str → Res Bool) (d : Dir) (k : DN) (text old new : Str) : Res Unit × Dir :=
  match d.get k with
  | none => (.err .notFound, d)
  | some e =>
    match (if old = [] then .ok true else validate old (getVal C e.attrs sUserPassword)) with
    | .ok true =>
      match applyModify C e text [⟨opReplace, sUserPassword, [new]⟩] with
      | .ok e' => (.ok (), d.setEntry k e')
      | .err _ => (.err (.ldap rcOperationsError true), d)
      | .panic => (.panic, d)
      | .hang => (.hang, d)
    | .ok false => (.err (.ldap rcUnwillingToPerform true), d)
    | .err _ => (.err (.ldap rcUnwillingToPerform true), d)
    | .panic => (.panic, d)
    | .hang => (.hang, d)

/-- Set the password of the entry called `name`. -/
def specPassword (C : CaseEnv) (validate : Str → Str → Res Bool) (d : Dir) (name : DN) (text old new : Str) : Res Unit × Dir :=
  specPasswordAt C validate d (foldDN C name) text old new

/-! ## Histories -/

/-- The mutating calls of the store. -/
inductive Op where
  | add (e : Entry)
  | delete (dn : Str)
  | modify (dn : Str) (changes : List Change)
  | rename (req : ModifyDNReq)
  | password (req : PwModReq)
  deriving DecidableEq, Repr

/-- One call on the abstract directory. Texts that are not names are refused (crash for an add whose DN pointer is nil). -/
def specStep (C : CaseEnv) (validate : Str → Str → Res Bool) (base : DN) (d : Dir) : Op → Res Unit × Dir
  | .add e => match entryPutDN C e.dn with
    | none => (.panic, d)
    | some n => specAdd C base d n e
  | .delete dn => match parseDN C dn with
    | none => (.err .other, d)
    | some n => specDelete C d n
  | .modify dn cs => match parseDN C dn with
    | none => (.err .other, d)
    | some n => specModify C d n dn cs
  | .rename req => match parseDN C req.dn, parseDN C req.newRDN with
    | none, _ => (.err .other, d)
    | some _, none => (.err .other, d)
    | some _, some [] => (.panic, d)
    | some [], some (_ :: _) => (.panic, d)
    | some (o :: p), some (n :: _) => specRename C d o n p req.deleteOldRDN
  | .password req => match parseDN C req.userIdentity with
    | none => (.err .other, d)
    | some n => specPassword C validate d n req.userIdentity req.oldPassword req.newPassword

/-- A history on the abstract directory: all results, and the final directory. -/
def specRun (C : CaseEnv) (validate : Str → Str → Res Bool) (base : DN) : Dir → List Op → List (Res Unit) × Dir
  | d, [] => ([], d)
  | d, op :: ops =>
    let (r, d') := specStep C validate base d op
    let (rs, d'') := specRun C validate base d' ops
    (r :: rs, d'')

/-! ## The same histories on the store model -/

/-- One call on the store. -/
def boltStep (C : CaseEnv) (G : GobEnv) (validate : Str → Str → Res Bool) (base : Str) (db : Db) : Op → Res Unit × Db
  | .add e => entryPut C G base db e
  | .delete dn => entryDelete C db dn
  | .modify dn cs => entryModify C G db dn cs
  | .rename req => entryModifyDN C G db req
  | .password req => updatePassword C G validate db req

/-- A history on the store. -/
def boltRun (C : CaseEnv) (G : GobEnv) (validate : Str → Str → Res Bool) (base : Str) : Db → List Op → List (Res Unit) × Db
  | db, [] => ([], db)
  | db, op :: ops =>
    let (r, db') := boltStep C G validate base db op
    let (rs, db'') := boltRun C G validate base db' ops
    (r :: rs, db'')

/-- The names a call mentions have attribute types that need no escapes (see C03). -/
def Op.Ok (C : CaseEnv) : Op → Prop
  | .add e => ∀ n, entryPutDN C e.dn = some n → NameOk n
  | .delete dn => ∀ n, parseDN C dn = some n → NameOk n
  | .modify dn _ => ∀ n, parseDN C dn = some n → NameOk n
  | .rename req => (∀ n, parseDN C req.dn = some n → NameOk n) ∧ (∀ n, parseDN C req.newRDN = some n → NameOk n)
  | .password req => ∀ n, parseDN C req.userIdentity = some n → NameOk n

/-- The base DN in the form the store keeps it: case-folded, with ordinary attribute types. -/
structure BaseOk (C : CaseEnv) (base : DN) : Prop where
  ne : base ≠ []
  name : NameOk base
  folded : foldDN C base = base
  endOk : EndOk base

end Idm
