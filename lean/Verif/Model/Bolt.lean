import Verif.Model.Txn
import Verif.Model.Entry
/-!
# The BoltDB store, `/repo/pkg/ldbbolt/ldbbolt.go`
-/
namespace Idm

/-- encoding/gob for `*ldap.Entry`, abstract. -/
structure GobEnv where
  enc : Entry → Str
  dec : Str → Option Entry

/-- What is assumed of encoding/gob: decoding inverts encoding, and an empty buffer (a missing key) does not decode (io.EOF). -/
structure GobEnv.Lawful (G : GobEnv) : Prop where
  dec_enc : ∀ e, G.dec (G.enc e) = some e
  dec_nil : G.dec [] = none

/-- `idToBytes`, ldbbolt.go:136-140: little endian, 8 bytes. -/
def idToBytes (id : Nat) : Str :=
  [UInt8.ofNat id, UInt8.ofNat (id / 256), UInt8.ofNat (id / 256 ^ 2), UInt8.ofNat (id / 256 ^ 3),
   UInt8.ofNat (id / 256 ^ 4), UInt8.ofNat (id / 256 ^ 5), UInt8.ofNat (id / 256 ^ 6), UInt8.ofNat (id / 256 ^ 7)]

/-- `binary.LittleEndian.Uint64` of 8 bytes. -/
def id8 (a0 a1 a2 a3 a4 a5 a6 a7 : UInt8) : Nat :=
  a0.toNat + a1.toNat * 256 + a2.toNat * 256 ^ 2 + a3.toNat * 256 ^ 3 + a4.toNat * 256 ^ 4 + a5.toNat * 256 ^ 5 +
    a6.toNat * 256 ^ 6 + a7.toNat * 256 ^ 7

/-- `binary.LittleEndian.Uint64`: panics on fewer than 8 bytes. -/
def decodeId : Str → Res Nat
  | a0 :: a1 :: a2 :: a3 :: a4 :: a5 :: a6 :: a7 :: _ => .ok (id8 a0 a1 a2 a3 a4 a5 a6 a7)
  | _ => .panic

/-- Decoding of an id2children value: `binary.Read` into `len/8` ids (ldbbolt.go:145-149), and the `io.ReadFull` loop of
EntryDelete (ldbbolt.go:255-259). Both ignore an incomplete tail. -/
def decodeIds : Str → List Nat
  | a0 :: a1 :: a2 :: a3 :: a4 :: a5 :: a6 :: a7 :: rest => id8 a0 a1 a2 a3 a4 a5 a6 a7 :: decodeIds rest
  | _ => []

/-- Concatenation of ids as bytes. -/
def encodeIds (ids : List Nat) : Str := ids.flatMap idToBytes

/-- `Configure`, ldbbolt.go:54-67: the base DN of the store (line 65); an error of `ParseNormalize` is ignored. -/
def configuredBase (C : CaseEnv) (base : Str) : Str := (parseNormalize C base).getD []

open Prog

/-- `getIDByDN`, ldbbolt.go:449-461; 0 means not found. The bucket always exists after `Initialize`. -/
def getIDByDN (nDN : Str) : Prog Nat := do
  match ← get! .dn2id nDN with
  | none => ret 0
  | some v => lift (decodeId v)

/-- `getEntryByID`, ldbbolt.go:463-472. -/
def getEntryByID (G : GobEnv) (id : Nat) : Prog Entry := do
  let v ← get! .id2entry (idToBytes id)
  match G.dec (v.getD []) with
  | none => .fail .other
  | some e => ret e

/-- `getEntryByDN`, ldbbolt.go:474-481. -/
def getEntryByDN (G : GobEnv) (nDN : Str) : Prog (Entry × Nat) := do
  let id ← getIDByDN nDN
  if id = 0 then .fail .notFound
  else do
    let e ← getEntryByID G id
    ret (e, id)

/-- `getChildrenIDs`, ldbbolt.go:142-157. -/
def getChildrenIDs (parent : Nat) : Prog (List Nat) := do
  let v ← get! .id2children (idToBytes parent)
  ret (decodeIds (v.getD []))

/-- The loop `for _, child := range children { res = append(res, f(child)...) }`. -/
def appendAll (f : Nat → Prog (List Nat)) : List Nat → Prog (List Nat)
  | [] => ret []
  | c :: cs => do
    let xs ← f c
    let ys ← appendAll f cs
    ret (xs ++ ys)

/-- `getSubtreeIDs`, ldbbolt.go:159-173. The Go function recurses without a bound; the model counts the recursion depth and reports
`hang` if `fuel` is exhausted. -/
def getSubtreeIDs : (fuel : Nat) → (root : Nat) → Prog (List Nat)
  | 0, _ => .hang
  | fuel + 1, root => do
    let children ← getChildrenIDs root
    let rest ← appendAll (getSubtreeIDs fuel) children
    ret (children ++ rest)

/-- The loop of `Search` that reads the entries, ldbbolt.go:124-130. On an error the entries read so far are returned beside it. -/
def readEntries (G : GobEnv) (acc : List Entry) : List Nat → Prog (List Entry × Option Err)
  | [] => ret (acc, none)
  | id :: ids => do
    let v ← get! .id2entry (idToBytes id)
    match G.dec (v.getD []) with
    | none => ret (acc, some .other)
    | some e => readEntries G (acc ++ [e]) ids

/-- `ldap.ScopeBaseObject`, `ldap.ScopeSingleLevel`, `ldap.ScopeWholeSubtree`. -/
def scopeBase : Nat := 0
def scopeOne : Nat := 1
def scopeSub : Nat := 2

/-- The body of `Search`, ldbbolt.go:109-131. -/
def searchBody (G : GobEnv) (fuel : Nat) (nDN : Str) (scope : Nat) : Prog (List Entry × Option Err) := do
  let id ← getIDByDN nDN
  if id = 0 then ret ([], some .other)
  else
    if scope = scopeBase then readEntries G [] [id]
    else if scope = scopeOne then do
      let ids ← getChildrenIDs id
      readEntries G [] ids
    else if scope = scopeSub then do
      let ids ← getSubtreeIDs fuel id
      readEntries G [] (id :: ids)
    else ret ([], none)

/-- `Search`, ldbbolt.go:102-134, with a bound on the recursion depth. Returns the entries and the error. -/
def searchFuel (C : CaseEnv) (G : GobEnv) (fuel : Nat) (db : Db) (base : Str) (scope : Nat) : Res (List Entry × Option Err) :=
  match parseNormalize C base with
  | none => .ok ([], some .other)
  | some nDN => view (searchBody G fuel nDN scope) db

/-- `Search`, ldbbolt.go:102-134. The depth bound is larger than the number of ids ever given out; `C07` proves that it does not
matter. -/
def boltSearch (C : CaseEnv) (G : GobEnv) (db : Db) (base : Str) (scope : Nat) : Res (List Entry × Option Err) :=
  searchFuel C G (db.seq + 1) db base scope

/-- `addID2Children`, ldbbolt.go:428-447. -/
def addID2Children (nParentDN : Str) (newChild : Nat) : Prog Unit := do
  let parentID ← getIDByDN nParentDN
  if parentID = 0 then .fail .other
  else do
    let children ← get! .id2children (idToBytes parentID)
    put! .id2children (idToBytes parentID) (children.getD [] ++ idToBytes newChild)

/-- The transaction body of `EntryPut`, ldbbolt.go:194-218. -/
def entryPutBody (G : GobEnv) (base nDN nParentDN : Str) (e : Entry) : Prog Unit := do
  let id ← getIDByDN nDN
  if id ≠ 0 then .fail .exists_
  else do
    let id ← nextSeq!
    put! .id2entry (idToBytes id) (G.enc e)
    if nDN ≠ base then addID2Children nParentDN id
    put! .dn2id nDN (idToBytes id)

/-- The DN pointer `EntryPut` works with (ldbbolt.go:183 ignores the error of `ParseDN`); `none` is nil. -/
def entryPutDN (C : CaseEnv) (s : Str) : Option DN :=
  match parseDNRes C s with
  | .ok dn => some dn
  | .fail p => p

/-- `EntryPut`, ldbbolt.go:175-220. A nil DN pointer or an empty RDN list is a panic. -/
def entryPut (C : CaseEnv) (G : GobEnv) (base : Str) (db : Db) (e : Entry) : Res Unit × Db :=
  match entryPutDN C e.dn with
  | none => (.panic, db)
  | some [] => (.panic, db)
  | some (r :: rest) =>
    let nDN := normalize C (r :: rest)
    if !hasSuffix nDN base then (.err .other, db)
    else update (entryPutBody G base nDN (normalize C rest) e) db

/-- The transaction body of `EntryDelete`, ldbbolt.go:233-278. -/
def entryDeleteBody (nDN nParentDN : Str) : Prog Unit := do
  let entryID ← getIDByDN nDN
  if entryID = 0 then .fail .notFound
  else do
    let children ← get! .id2children (idToBytes entryID)
    if (children.getD []).length ≠ 0 then .fail .nonLeaf
    else do
      let parentid ← getIDByDN nParentDN
      if parentid = 0 then .fail .notFound
      else do
        let siblings ← get! .id2children (idToBytes parentid)
        put! .id2children (idToBytes parentid) (encodeIds ((decodeIds (siblings.getD [])).filter (· ≠ entryID)))
        del! .dn2id nDN
        del! .id2entry (idToBytes entryID)

/-- `EntryDelete`, ldbbolt.go:222-280. -/
def entryDelete (C : CaseEnv) (db : Db) (dn : Str) : Res Unit × Db :=
  match parseDN C dn with
  | none => (.err .other, db)
  | some [] => (.panic, db)
  | some (r :: rest) => update (entryDeleteBody (normalize C (r :: rest)) (normalize C rest)) db

/-- `entryModifyWithTxn`, ldbbolt.go:297-312. -/
def entryModifyWithTxn (C : CaseEnv) (G : GobEnv) (id : Nat) (e : Entry) (reqDN : Str) (changes : List Change) : Prog Unit := do
  let e' ← lift (applyModify C e reqDN changes)
  put! .id2entry (idToBytes id) (G.enc e')

/-- `EntryModify`, ldbbolt.go:282-295. -/
def entryModify (C : CaseEnv) (G : GobEnv) (db : Db) (dn : Str) (changes : List Change) : Res Unit × Db :=
  match parseNormalize C dn with
  | none => (.err .other, db)
  | some nDN => update (do
      let (e, id) ← getEntryByDN G nDN
      entryModifyWithTxn C G id e dn changes) db

/-- go-ldap `ModifyDNRequest` as filled by the server (`NewSuperior` is never used). -/
structure ModifyDNReq where
  dn : Str
  newRDN : Str
  deleteOldRDN : Bool
  deriving DecidableEq, Repr

/-- The modify operations made for a rename, ldbbolt.go:354-364. -/
def renameChanges (oldRDN newRDN : RDN) (deleteOld : Bool) : List Change :=
  (if deleteOld then oldRDN.map fun a => ⟨opDelete, a.typ, [a.val]⟩ else []) ++
    newRDN.map fun a => ⟨opAdd, a.typ, [a.val]⟩

/-- The transaction body of `EntryModifyDN`, ldbbolt.go:330-380. -/
def entryModifyDNBody (C : CaseEnv) (G : GobEnv) (flatOld flatNew : Str) (changes : List Change) : Prog Unit := do
  let id ← getIDByDN flatNew
  if id ≠ 0 then .fail .exists_
  else do
    let (e, id) ← getEntryByDN G flatOld
    let childIds ← getChildrenIDs id
    if childIds.length > 0 then .fail .nonLeaf
    else do
      entryModifyWithTxn C G id ⟨flatNew, e.attrs⟩ flatNew changes
      put! .dn2id flatNew (idToBytes id)
      del! .dn2id flatOld

/-- `EntryModifyDN`, ldbbolt.go:314-382. Only the first RDN of `NewRDN` is used; `newrdn.RDNs[0]` and `olddn.RDNs[1:]` panic on empty
DNs. -/
def entryModifyDN (C : CaseEnv) (G : GobEnv) (db : Db) (req : ModifyDNReq) : Res Unit × Db :=
  match parseDN C req.dn with
  | none => (.err .other, db)
  | some old =>
    match parseDN C req.newRDN with
    | none => (.err .other, db)
    | some [] => (.panic, db)
    | some (newRDN :: _) =>
      match old with
      | [] => (.panic, db)
      | oldRDN :: rest =>
        update (entryModifyDNBody C G (normalize C (oldRDN :: rest)) (normalize C (newRDN :: rest))
          (renameChanges oldRDN newRDN req.deleteOldRDN)) db

/-- go-ldap `PasswordModifyRequest`. -/
structure PwModReq where
  userIdentity : Str
  oldPassword : Str
  newPassword : Str
  deriving DecidableEq, Repr

/-- "userPassword" -/
def sUserPassword : Str := b!"userPassword"

/-- The transaction body of `UpdatePassword`, ldbbolt.go:390-424; `validate` is `ldappassword.Validate`. -/
def updatePasswordBody (C : CaseEnv) (G : GobEnv) (validate : Str → Str → Res Bool) (nDN : Str) (req : PwModReq) : Prog Unit := do
  let (e, id) ← getEntryByDN G nDN
  if req.oldPassword ≠ [] then
    match validate req.oldPassword (getVal C e.attrs sUserPassword) with
    | .ok true => ret ()
    | .ok false => .fail (.ldap rcUnwillingToPerform true)
    | .err _ => .fail (.ldap rcUnwillingToPerform true)
    | .panic => .panic
    | .hang => .hang
  match applyModify C e req.userIdentity [⟨opReplace, sUserPassword, [req.newPassword]⟩] with
  | .ok e' => put! .id2entry (idToBytes id) (G.enc e')
  | .err _ => .fail (.ldap rcOperationsError true)
  | .panic => .panic
  | .hang => .hang

/-- `UpdatePassword`, ldbbolt.go:384-426. (An error of the final `Put` is reported like one of ApplyModify; it cannot occur, the key
has 8 bytes.) -/
def updatePassword (C : CaseEnv) (G : GobEnv) (validate : Str → Str → Res Bool) (db : Db) (req : PwModReq) : Res Unit × Db :=
  match parseNormalize C req.userIdentity with
  | none => (.err .other, db)
  | some nDN => update (updatePasswordBody C G validate nDN req) db

end Idm
