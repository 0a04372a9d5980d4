import Verif.Model.DN
/-!
# Entries and modifications

`/repo/pkg/ldapentry/ldapentry.go`, and the parts of go-ldap it uses (`Entry`, `NewEntry`, `GetEqualFoldAttributeValues`).
-/
namespace Idm

/-- go-ldap `EntryAttribute`. `ByteValues` always is a copy of `Values` in this code base and is left out. -/
structure Attr where
  name : Str
  vals : List Str
  deriving DecidableEq, Repr

/-- go-ldap `Entry`. -/
structure Entry where
  dn : Str
  attrs : List Attr
  deriving DecidableEq, Repr

/-- go-ldap `ModifyRequest.Change`: `Operation` and `Modification{Type, Vals}`. -/
structure Change where
  op : Nat
  typ : Str
  vals : List Str
  deriving DecidableEq, Repr

/-- `ldap.AddAttribute`, `ldap.DeleteAttribute`, `ldap.ReplaceAttribute`. -/
def opAdd : Nat := 0
def opDelete : Nat := 1
def opReplace : Nat := 2

/-- go-ldap `Entry.GetEqualFoldAttributeValues`: the values of the first attribute whose name matches. -/
def getVals (C : CaseEnv) (attrs : List Attr) (t : Str) : List Str :=
  match attrs with
  | [] => []
  | a :: as => if C.eqFold t a.name then a.vals else getVals C as t

/-- go-ldap `Entry.GetEqualFoldAttributeValue`: the first value or the empty string. -/
def getVal (C : CaseEnv) (attrs : List Attr) (t : Str) : Str := (getVals C attrs t).head?.getD []

/-- The loop of `entryReplaceValues`, ldapentry.go:79-89. -/
def replaceLoop (C : CaseEnv) (nType : Str) (vals : List Str) : List Attr → List Attr
  | [] => []
  | a :: as =>
    if C.fold a.name = nType then
      if vals = [] then replaceLoop C nType vals as
      else ⟨a.name, vals⟩ :: replaceLoop C nType vals as
    else a :: replaceLoop C nType vals as

/-- `entryReplaceValues`, ldapentry.go:75-96. -/
def entryReplaceValues (C : CaseEnv) (ea : List Attr) (typ : Str) (vals : List Str) : List Attr :=
  let nType := C.fold typ
  let upd := replaceLoop C nType vals ea
  if ea.any (fun a => C.fold a.name = nType) then upd
  else if vals = [] then upd
  else upd ++ [⟨typ, vals⟩]

/-- `entryApplyModAdd`, ldapentry.go:98-114. The comparison is with the original `curVals` only. -/
def entryApplyModAdd (C : CaseEnv) (cur add : List Str) : List Str :=
  cur ++ add.filter fun v => !cur.any fun w => C.fold v = C.fold w

/-- `entryApplyModDelete`, ldapentry.go:116-135. -/
def entryApplyModDelete (C : CaseEnv) (cur del : List Str) : List Str :=
  if del = [] then [] else cur.filter fun v => !del.any fun w => C.fold v = C.fold w

/-- The check before a replace, ldapentry.go:36-49: `true` if the change is refused. -/
def replaceRefused (C : CaseEnv) (rdn : RDN) (c : Change) : Bool :=
  rdn.any fun a => C.fold c.typ = C.fold a.typ && !c.vals.any fun v => C.fold a.val = C.fold v

/-- The check before a delete, ldapentry.go:52-64: `true` if the change is refused. -/
def deleteRefused (C : CaseEnv) (rdn : RDN) (c : Change) : Bool :=
  rdn.any fun a => C.fold c.typ = C.fold a.typ &&
    (c.vals = [] || c.vals.any fun v => C.fold a.val = C.fold v)

/-- Body of the loop over the changes, ldapentry.go:29-70. `old` is the original entry's attribute list: the delete case reads the
values from it (line 67). -/
def applyChange (C : CaseEnv) (rdn : RDN) (old attrs : List Attr) (c : Change) : Res (List Attr) :=
  if c.op = opAdd then
    .ok (entryReplaceValues C attrs c.typ (entryApplyModAdd C (getVals C attrs (C.fold c.typ)) c.vals))
  else if c.op = opReplace then
    if replaceRefused C rdn c then .err (.ldap rcNotAllowedOnRDN true)
    else .ok (entryReplaceValues C attrs c.typ c.vals)
  else if c.op = opDelete then
    if deleteRefused C rdn c then .err (.ldap rcNotAllowedOnRDN true)
    else .ok (entryReplaceValues C attrs c.typ (entryApplyModDelete C (getVals C old (C.fold c.typ)) c.vals))
  else .ok attrs

/-- The loop over the changes, ldapentry.go:29-71. -/
def applyChanges (C : CaseEnv) (rdn : RDN) (old : List Attr) : List Attr → List Change → Res (List Attr)
  | attrs, [] => .ok attrs
  | attrs, c :: cs => do applyChanges C rdn old (← applyChange C rdn old attrs c) cs

/-- `ApplyModify`, ldapentry.go:10-73. `RDNs[0]` of an empty DN is an index out of range. -/
def applyModify (C : CaseEnv) (old : Entry) (modDN : Str) (changes : List Change) : Res Entry :=
  match parseDN C old.dn with
  | none => .err .other
  | some [] => .panic
  | some (rdn :: rest) =>
    match parseDN C modDN with
    | none => .err .other
    | some md =>
      if dnEqFold C (rdn :: rest) md then do
        let attrs ← applyChanges C rdn old.attrs old.attrs changes
        .ok ⟨old.dn, attrs⟩
      else .err (.ldap rcUnwillingToPerform true)

/-! ## EntryFromAddRequest -/

/-- Go's `<=` on strings: lexicographic on bytes. -/
def strLe : Str → Str → Bool
  | [], _ => true
  | _ :: _, [] => false
  | a :: as, b :: bs => if a < b then true else if b < a then false else strLe as bs

/-- Assignment `m[k] = v` to a Go map, as a list sorted by key without duplicate keys. go-ldap's `NewEntry` iterates over the
sorted keys, so keeping the list sorted models both. -/
def mapSet (k : Str) (v : List Str) : List Attr → List Attr
  | [] => [⟨k, v⟩]
  | a :: as =>
    if a.name = k then ⟨k, v⟩ :: as
    else if strLe k a.name then ⟨k, v⟩ :: a :: as
    else a :: mapSet k v as

/-- `EntryFromAddRequest`, ldapentry.go:137-144, with go-ldap's `NewEntry` (attributes sorted by name). -/
def entryFromAddRequest (dn : Str) (attrs : List Attr) : Entry :=
  ⟨dn, attrs.foldl (fun m a => mapSet a.name a.vals m) []⟩

end Idm
