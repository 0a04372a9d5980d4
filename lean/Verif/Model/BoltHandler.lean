import Verif.Model.Server
/-!
# The BoltDB handler, `/repo/server/handler/boltdb/handler.go`, and the server built around it
-/
namespace Idm

/-- The fields of `boltdbHandler` (handler.go:27-35) that matter: base and admin DN are kept normalised; the store has a base DN of its own
(ldbbolt.go:45). -/
structure BoltCfg where
  base : Str
  admin : Str
  anon : Bool
  /-- the base DN of the store -/
  store : Str
  deriving DecidableEq, Repr

/-- `NewBoltDBHandler`, handler.go:44-75: the base DN must not be empty; base and admin DN are normalised. `setup`, handler.go:77-90, passes
the normalised base DN to the store, which normalises it again. (Opening the file is not modelled.) -/
def newBoltCfg (C : CaseEnv) (baseDN adminDN : Str) (anon : Bool) : Option BoltCfg :=
  if baseDN = [] then none
  else do
    let base ← parseNormalize C baseDN
    let admin ← parseNormalize C adminDN
    some ⟨base, admin, anon, configuredBase C base⟩

section
variable (V : Env) (G : GobEnv) (cfg : BoltCfg)

/-- `writeAllowed`, handler.go:328-333. -/
def writeAllowed (bound : Str) : Bool := cfg.admin ≠ [] && cfg.admin = bound

/-- How Add and Delete report the result of the store, handler.go:103-112 and 188-197. -/
def storeCode : Res Unit → Res (Nat × Bool)
  | .ok _ => .ok (rcSuccess, false)
  | .err .exists_ => .ok (rcEntryAlreadyExists, false)
  | .err _ => .ok (rcUnwillingToPerform, true)
  | .panic => .panic
  | .hang => .hang

/-- How Modify and ModifyDN report the result of the store, handler.go:211-225 and 239-252. -/
def storeCodeLdap : Res Unit → Res (Nat × Bool)
  | .ok _ => .ok (rcSuccess, false)
  | .err .exists_ => .ok (rcEntryAlreadyExists, false)
  | .err (.ldap code inner) => .ok (code, inner)
  | .err _ => .ok (rcUnwillingToPerform, true)
  | .panic => .panic
  | .hang => .hang

/-- `Add`, handler.go:92-113. -/
def boltAdd (bound : Str) (r : AddReq) : Act Db (Nat × Bool) := fun db =>
  if !writeAllowed cfg bound then (.ok (rcInsufficientAccessRights, false), db)
  else let (res, db') := entryPut V.C G cfg.store db (entryFromAddRequest r.dn r.attrs); (storeCode res, db')

/-- `Delete`, handler.go:177-198. -/
def boltDelete (bound dn : Str) : Act Db (Nat × Bool) := fun db =>
  if !writeAllowed cfg bound then (.ok (rcInsufficientAccessRights, false), db)
  else let (res, db') := entryDelete V.C db dn; (storeCode res, db')

/-- `Modify`, handler.go:200-226. -/
def boltModify (bound : Str) (r : ModifyReq) : Act Db (Nat × Bool) := fun db =>
  if !writeAllowed cfg bound then (.ok (rcInsufficientAccessRights, false), db)
  else let (res, db') := entryModify V.C G db r.dn r.changes; (storeCodeLdap res, db')

/-- `ModifyDN`, handler.go:228-254. -/
def boltModifyDN (bound : Str) (r : ModifyDNReq) : Act Db (Nat × Bool) := fun db =>
  if !writeAllowed cfg bound then (.ok (rcInsufficientAccessRights, false), db)
  else let (res, db') := entryModifyDN V.C G db r; (storeCodeLdap res, db')

/-- `ModifyPasswordExop`, handler.go:256-286. -/
def boltPwExop (bound : Str) (r : PwModReq) : Act Db (Nat × Bool) := fun db =>
  let go : Res (Nat × Bool) × Db :=
    let (res, db') := updatePassword V.C G (validatePw V.C V.K) db r
    (match res with
      | .ok _ => .ok (rcSuccess, false)
      | .err _ => .ok (rcOther, true)
      | .panic => .panic
      | .hang => .hang, db')
  if bound = [] then (.ok (rcInsufficientAccessRights, false), db)
  else if r.userIdentity ≠ [] then
    match parseNormalize V.C r.userIdentity with
    | none => (.ok (rcOperationsError, true), db)
    | some user => if bound ≠ user ∧ bound ≠ cfg.admin then (.ok (rcInsufficientAccessRights, false), db) else go
  else go

/-- `validatePassword`, handler.go:152-175. -/
def validateUser (db : Db) (bindDN pw : Str) : Res (Nat × Bool) :=
  match boltSearch V.C G db bindDN scopeBase with
  | .ok ([e], none) => match validatePw V.C V.K pw (getVal V.C e.attrs sUserPassword) with
    | .ok true => .ok (rcSuccess, false)
    | .ok false => .ok (rcInvalidCredentials, false)
    | .err _ => .ok (rcInvalidCredentials, false)
    | .panic => .panic
    | .hang => .hang
  | .ok _ => .ok (rcInvalidCredentials, false)
  | .err _ => .ok (rcInvalidCredentials, false)
  | .panic => .panic
  | .hang => .hang

/-- `Bind`, handler.go:115-150. -/
def boltBind (bindDN pw : Str) : Act Db (Nat × Bool) := fun db =>
  if bindDN = [] ∧ cfg.anon = false then (.ok (rcInvalidCredentials, false), db)
  else if bindDN = [] ∧ pw = [] then (.ok (rcSuccess, false), db)
  else match parseNormalize V.C bindDN with
    | none => (.ok (rcInvalidDNSyntax, false), db)
    | some n =>
      if !hasSuffix n cfg.base then (.ok (rcInvalidCredentials, false), db)
      else if pw = [] then (.ok (rcInvalidCredentials, false), db)
      else (validateUser V G db n pw, db)

/-- `Search`, handler.go:288-306: the error of the store is dropped. -/
def boltSearchFn (_bound : Str) (r : SearchReq) : Act Db SearchRes := fun db =>
  match boltSearch V.C G db r.baseDN (scopeNat r.scope) with
  | .ok (es, _) => (.ok ⟨es, [], rcSuccess, false⟩, db)
  | .err _ => (.ok ⟨[], [], rcSuccess, false⟩, db)
  | .panic => (.panic, db)
  | .hang => (.hang, db)

/-- The server with the BoltDB handler, /repo/server/server.go:71-102 and 144-151: every function is registered under the empty suffix,
`EnforceLDAP` is set. `Close` does nothing. -/
def boltSrv (genPwLen : Nat) (stats : Bool) : Srv Db where
  addFns := [([], boltAdd V G cfg)]
  bindFns := [([], boltBind V G cfg)]
  deleteFns := [([], boltDelete V cfg)]
  modifyFns := [([], boltModify V G cfg)]
  modifyDNFns := [([], boltModifyDN V G cfg)]
  pwExopFns := [([], boltPwExop V G cfg)]
  searchFns := [([], boltSearchFn V G)]
  close := fun _ db => db
  enforce := true
  genPwLen := genPwLen
  stats := stats

end
end Idm
