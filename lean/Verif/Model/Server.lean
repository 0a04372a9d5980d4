import Verif.Model.Ber
import Verif.Model.Filter
import Verif.Model.Password
import Verif.Model.Bolt
import Verif.Model.FilterText
/-!
# The LDAP front end, `/repo/pkg/ldapserver`

Requests are the packet trees `ber.ReadPacket` returns. Responses are kept as structured values (message id, response type, result code,
data); the result message and matched DN are left out. Writing to the connection always succeeds here; responses that cannot
be written are the step `lost` of Model/Parallel and Model/LdifParallel. Logging is left out.
-/
namespace Idm

/-- go-ldap `Control`: the paging control, or another one. -/
inductive Control where
  | paging (size : Nat) (cookie : Str)
  | other (oid : Str)
  deriving DecidableEq, Repr

/-- go-ldap `AddRequest`. -/
structure AddReq where
  dn : Str
  attrs : List Attr
  deriving DecidableEq, Repr

/-- go-ldap `ModifyRequest`. -/
structure ModifyReq where
  dn : Str
  changes : List Change
  deriving DecidableEq, Repr

/-- go-ldap `SearchRequest`. -/
structure SearchReq where
  baseDN : Str
  scope : Int
  derefAliases : Int
  sizeLimit : Int
  timeLimit : Int
  typesOnly : Bool
  filter : Str
  attrs : List Str
  controls : List Control
  deriving DecidableEq, Repr

/-- `ServerSearchResult` (server.go:73-78) with the error returned beside it (`err`: not nil). -/
structure SearchRes where
  entries : List Entry
  controls : List Control
  code : Nat
  err : Bool
  deriving DecidableEq, Repr

/-- What the front end takes from its dependencies. `control` is go-ldap's `DecodeControl` (which may fail or panic), `berDecode` is
`ber.DecodePacket` (none: nil). -/
structure Env where
  C : CaseEnv
  K : CryptoEnv
  control : Packet → Res Control
  berDecode : Str → Option Packet

/-- The random input of one request: answers of the random source and the salt of a new Argon2 hash. -/
structure Oracle where
  rnd : Nat → Option Nat
  salt : Str

/-- An action on the state of the handlers. -/
abbrev Act (σ α : Type) := σ → Res α × σ

/-- `Server` (server.go:58-71) with its handler maps as lists of suffix and handler function; the list order stands for the iteration
order of the Go map. A handler function answers a result code and whether its error is not nil. `stats`: `SetStats(true)` was called.
Then an add request blocks its goroutine for ever, and all that count later, because the mutex of the statistics stays locked. The second part
is in Model/Stats only: with `stats` the other models describe the server up to its first add request, and contain executions in which other
connections go on after it. -/
structure Srv (σ : Type) where
  addFns : List (Str × (Str → AddReq → Act σ (Nat × Bool)))
  bindFns : List (Str × (Str → Str → Act σ (Nat × Bool)))
  deleteFns : List (Str × (Str → Str → Act σ (Nat × Bool)))
  modifyFns : List (Str × (Str → ModifyReq → Act σ (Nat × Bool)))
  modifyDNFns : List (Str × (Str → ModifyDNReq → Act σ (Nat × Bool)))
  pwExopFns : List (Str × (Str → PwModReq → Act σ (Nat × Bool)))
  searchFns : List (Str × (Str → SearchReq → Act σ SearchRes))
  close : Str → σ → σ
  enforce : Bool
  genPwLen : Nat
  stats : Bool

/-- `len(strings.Split(s, ","))`. -/
def splitLen (s : Str) : Nat := s.count chComma + 1

/-- The loop of `routeFunc`, server.go:450-464. -/
def routeLoop (dn : Str) : (best : Str) → List Str → Str
  | best, [] => best
  | best, fn :: fns =>
    if hasSuffix dn fn then
      let l := if best = [] then 0 else splitLen best
      routeLoop dn (if splitLen fn > l then fn else best) fns
    else routeLoop dn best fns

/-- `routeFunc`, server.go:450-464. -/
def routeFunc (dn : Str) (fns : List Str) : Str := routeLoop dn [] fns

/-- Look up of a handler map. -/
def fnAt {α : Type} (fns : List (Str × α)) (k : Str) : Option α := (fns.find? fun p => p.1 = k).map (·.2)

/-- The handler chosen for a DN: `fns[routeFunc(dn, names)]`; `none` is a nil interface. -/
def pick {α : Type} (fns : List (Str × α)) (dn : Str) : Option α := fnAt fns (routeFunc dn (fns.map (·.1)))

/-- Type assertions of `Packet.Value` with `ok`. -/
def Packet.str? (p : Packet) : Option Str := match p.val with | .str s => some s | _ => none
def Packet.int? (p : Packet) : Option Int := match p.val with | .int i => some i | _ => none
def Packet.bool? (p : Packet) : Option Bool := match p.val with | .bool b => some b | _ => none

/-- `ldap.NewError(code, errors.New(..))`. -/
abbrev ldapErr {α : Type} (code : Nat) : Res α := .err (.ldap code true)

/-! ## add.go -/

/-- The loop of `parseAttributeValues`, add.go:119-125. -/
def strVals : List Packet → Res (List Str)
  | [] => .ok []
  | p :: ps => match p.str? with
    | none => ldapErr rcProtocolError
    | some s => do
      let rest ← strVals ps
      .ok (s :: rest)

/-- `parseAttributeValues`, add.go:114-127. -/
def parseAttributeValues (values : Packet) : Res (List Str) :=
  if values.cls ≠ .universal ∨ values.cons = false ∨ values.tag ≠ tagSet then ldapErr rcProtocolError
  else strVals values.kids

/-- `parseAttribute`, add.go:83-112; `part` is the parameter `partial`. -/
def parseAttribute (a : Packet) (part : Bool) : Res Attr :=
  if part && (a.kids.length < 1 || a.kids.length > 2) then ldapErr rcProtocolError
  else if !part && a.kids.length ≠ 2 then ldapErr rcProtocolError
  else match a.kids[0]? with
    | none => .panic
    | some ad =>
      if ad.cls ≠ .universal ∨ ad.cons = true ∨ ad.tag ≠ tagOctetString then ldapErr rcProtocolError
      else match ad.str? with
        | none => ldapErr rcProtocolError
        | some t =>
          if part && a.kids.length = 1 then .ok ⟨t, []⟩
          else match a.kids[1]? with
            | none => .panic
            | some v => do
              let vals ← parseAttributeValues v
              .ok ⟨t, vals⟩

/-- The loop of `parseAttributeList`, add.go:72-79. -/
def parseAttrs : List Packet → Res (List Attr)
  | [] => .ok []
  | p :: ps => do
    let a ← parseAttribute p false
    let rest ← parseAttrs ps
    .ok (a :: rest)

/-- `parseAttributeList`, add.go:65-81. -/
def parseAttributeList (p : Packet) : Res (List Attr) :=
  if p.cls ≠ .universal ∨ p.cons = false ∨ p.tag ≠ tagSequence then ldapErr rcProtocolError else parseAttrs p.kids

/-- `parseAddRequest`, add.go:38-63. -/
def parseAddRequest (C : CaseEnv) (req : Packet) : Res AddReq :=
  match req.kids with
  | [d, l] => match d.str? with
    | none => ldapErr rcProtocolError
    | some dn => match parseDN C dn with
      | none => ldapErr rcProtocolError
      | some _ => do
        let al ← parseAttributeList l
        .ok ⟨dn, al⟩
  | _ => ldapErr rcProtocolError

/-- The result of a `Handle*Request` function: the code of the `*ldap.Error` it returns. (`ldap.NewError` makes an error even of
success; the connection loop then answers with its code.) -/
def codeOf : Res (Nat × Bool) → Res Nat
  | .ok (code, _) => .ok code
  | .err (.ldap code _) => .ok code
  | .err _ => .ok rcOperationsError
  | .panic => .panic
  | .hang => .hang

/-- Common tail of the write handlers: look up the handler, call it. -/
def callFn {σ ρ : Type} (fns : List (Str × (Str → ρ → Act σ (Nat × Bool)))) (dn bound : Str) (r : ρ) : Act σ Nat := fun st =>
  match pick fns dn with
  | none => (.ok rcUnwillingToPerform, st)
  | some f => let (res, st') := f bound r st; (codeOf res, st')

/-- The result of a failed parse: the code of its error. -/
def parseFailed {σ ρ : Type} (r : Res ρ) : Act σ Nat := fun st =>
  match r with
  | .ok _ => (.ok rcOperationsError, st)
  | .err (.ldap code _) => (.ok code, st)
  | .err _ => (.ok rcOperationsError, st)
  | .panic => (.panic, st)
  | .hang => (.hang, st)

/-- `HandleAddRequest`, add.go:12-36, and the mapping of its error to a code, server.go:270-292. -/
def handleAdd {σ : Type} (V : Env) (srv : Srv σ) (bound : Str) (req : Packet) : Act σ Nat := fun st =>
  if bound = [] then (.ok rcInsufficientAccessRights, st)
  else match parseAddRequest V.C req with
    | .ok r => callFn srv.addFns r.dn bound r st
    | e => parseFailed e st

/-! ## delete.go -/

/-- `parseDeleteRequest`, delete.go:38-54. -/
def parseDeleteRequest (C : CaseEnv) (req : Packet) : Res Str :=
  if req.kids.length ≠ 0 then ldapErr rcProtocolError
  else match parseDN C req.data with
    | none => ldapErr rcProtocolError
    | some _ => .ok req.data

/-- `HandleDeleteRequest`, delete.go:12-36. -/
def handleDelete {σ : Type} (V : Env) (srv : Srv σ) (bound : Str) (req : Packet) : Act σ Nat := fun st =>
  if bound = [] then (.ok rcInsufficientAccessRights, st)
  else match parseDeleteRequest V.C req with
    | .ok dn => callFn srv.deleteFns dn bound dn st
    | e => parseFailed e st

/-! ## modify.go -/

/-- The loop of `parseModList`, modify.go:83-105. -/
def parseMods : List Packet → Res (List Change)
  | [] => .ok []
  | c :: cs => match c.kids[0]? with
    | none => .panic
    | some o => match o.data[0]? with
      | none => .panic
      | some b =>
        if b.toNat ≠ opAdd ∧ b.toNat ≠ opReplace ∧ b.toNat ≠ opDelete then ldapErr rcDecodingError
        else match c.kids[1]? with
          | none => .panic
          | some a => do
            let attr ← parseAttribute a true
            let rest ← parseMods cs
            .ok (⟨b.toNat, attr.name, attr.vals⟩ :: rest)

/-- `parseModList`, modify.go:76-107. -/
def parseModList (p : Packet) : Res (List Change) :=
  if p.cls ≠ .universal ∨ p.cons = false ∨ p.tag ≠ tagSequence then ldapErr rcProtocolError else parseMods p.kids

/-- `parseModifyRequest`, modify.go:49-74. -/
def parseModifyRequest (C : CaseEnv) (req : Packet) : Res ModifyReq :=
  match req.kids with
  | [d, l] => match d.str? with
    | none => ldapErr rcProtocolError
    | some dn => match parseDN C dn with
      | none => ldapErr rcProtocolError
      | some _ => do
        let ml ← parseModList l
        .ok ⟨dn, ml⟩
  | _ => ldapErr rcProtocolError

/-- `HandleModifyRequest`, modify.go:12-39. -/
def handleModify {σ : Type} (V : Env) (srv : Srv σ) (bound : Str) (req : Packet) : Act σ Nat := fun st =>
  if bound = [] then (.ok rcInsufficientAccessRights, st)
  else match parseModifyRequest V.C req with
    | .ok r => callFn srv.modifyFns r.dn bound r st
    | e => parseFailed e st

/-! ## modifydn.go -/

/-- `parseModifyDNRequest`, modifydn.go:41-83. -/
def parseModifyDNRequest (C : CaseEnv) (req : Packet) : Res ModifyDNReq :=
  if req.kids.length < 3 ∨ req.kids.length > 4 then ldapErr rcProtocolError
  else match req.kids with
    | d :: n :: r :: _ => match d.str? with
      | none => ldapErr rcProtocolError
      | some dn => match parseDN C dn with
        | none => ldapErr rcProtocolError
        | some _ => match n.str? with
          | none => ldapErr rcProtocolError
          | some rdn => match parseDN C rdn with
            | none => ldapErr rcProtocolError
            | some _ => match r.bool? with
              | none => ldapErr rcProtocolError
              | some del => if req.kids.length = 4 then ldapErr rcUnwillingToPerform else .ok ⟨dn, rdn, del⟩
    | _ => .panic

/-- `HandleModifyDNRequest`, modifydn.go:12-39. -/
def handleModifyDN {σ : Type} (V : Env) (srv : Srv σ) (bound : Str) (req : Packet) : Act σ Nat := fun st =>
  if bound = [] then (.ok rcInsufficientAccessRights, st)
  else match parseModifyDNRequest V.C req with
    | .ok r => callFn srv.modifyDNFns r.dn bound r st
    | e => parseFailed e st

/-! ## bind.go -/

/-- `LDAPBindAuthSimple` and `LDAPBindAuthSASL`, ldap.go. -/
def authSimple : Nat := 0
def authSASL : Nat := 3

/-- The body of `HandleBindRequest`, bind.go:15-64, without the deferred recover. Indexing a missing child is a panic, as is calling a
missing handler. -/
def bindBody {σ : Type} (srv : Srv σ) (req : Packet) : Act σ Nat := fun st =>
  match req.kids[0]? with
  | none => (.panic, st)
  | some v => match v.int? with
    | none => (.ok rcProtocolError, st)
    | some version =>
      if version ≠ 3 then (.ok rcInappropriateAuthentication, st)
      else match req.kids[1]? with
        | none => (.panic, st)
        | some d => match d.str? with
          | none => (.ok rcProtocolError, st)
          | some bindDN => match req.kids[2]? with
            | none => (.panic, st)
            | some auth =>
              if auth.tag = authSimple then
                if req.kids.length = 3 then
                  match pick srv.bindFns bindDN with
                  | none => (.panic, st)
                  | some f =>
                    let (res, st') := f bindDN auth.data st
                    match res with
                    | .ok (code, false) => (.ok code, st')
                    | .ok (_, true) => (.ok rcOperationsError, st')
                    | .err _ => (.ok rcOperationsError, st')
                    | .panic => (.panic, st')
                    | .hang => (.hang, st')
                else (.ok rcInappropriateAuthentication, st)
              else (.ok rcInappropriateAuthentication, st)

/-- `HandleBindRequest`, bind.go:15-64: a panic is recovered and answered with operationsError. -/
def handleBind {σ : Type} (srv : Srv σ) (req : Packet) : Act σ Nat := fun st =>
  match bindBody srv req st with
  | (.panic, st') => (.ok rcOperationsError, st')
  | r => r

/-! ## extended.go, pwmodifyexop.go -/

/-- `parseExtendedRequest`, extended.go:50-74: OID and body. -/
def parseExtendedRequest (req : Packet) : Res (Str × Option Packet) :=
  match req.kids with
  | [o] =>
    if o.cls ≠ .context ∨ o.tag ≠ 0 then ldapErr rcDecodingError else .ok (o.data, none)
  | [o, b] =>
    if o.cls ≠ .context ∨ o.tag ≠ 0 then ldapErr rcDecodingError
    else if b.cls ≠ .context ∨ b.tag ≠ 1 then ldapErr rcDecodingError
    else .ok (o.data, some b)
  | _ => ldapErr rcDecodingError

/-- The loop of `parsePasswordModifyExop`, pwmodifyexop.go:103-117. -/
def pwKids : PwModReq → List Packet → Res PwModReq
  | r, [] => .ok r
  | r, k :: ks =>
    if k.cls ≠ .context then ldapErr rcDecodingError
    else if k.tag = 0 then pwKids { r with userIdentity := k.data } ks
    else if k.tag = 1 then pwKids { r with oldPassword := k.data } ks
    else if k.tag = 2 then pwKids { r with newPassword := k.data } ks
    else ldapErr rcDecodingError

/-- `parsePasswordModifyExop`, pwmodifyexop.go:85-119. -/
def parsePwModify (V : Env) (body : Option Packet) : Res PwModReq :=
  match body with
  | none => .ok ⟨[], [], []⟩
  | some b => match V.berDecode b.data with
    | none => .ok ⟨[], [], []⟩
    | some inner => if inner.kids.length > 3 then ldapErr rcDecodingError else pwKids ⟨[], [], []⟩ inner.kids

/-- The error of `HandlePasswordModifyExOp` when the handler answers a code other than success: `ldap.NewError(code, err)`; `e`: `err` is
not nil. -/
def pwExopAnswer (generated : Option Str) : Res (Nat × Bool) → Res (Option Str)
  | .ok (code, e) => if code ≠ rcSuccess then .err (.ldap code e) else .ok generated
  | .err e => .err e
  | .panic => .panic
  | .hang => .hang

/-- `HandlePasswordModifyExOp`, pwmodifyexop.go:26-83: the generated password of the response, if any. Note that what is returned as
generated password is `pwReq.NewPassword` after hashing. -/
def handlePwModify {σ : Type} (V : Env) (srv : Srv σ) (o : Oracle) (bound : Str) (body : Option Packet) : Act σ (Option Str) := fun st =>
  if bound = [] then (ldapErr rcUnwillingToPerform, st)
  else match parsePwModify V body with
    | .err e => (.err e, st)
    | .panic => (.panic, st)
    | .hang => (.hang, st)
    | .ok r =>
      let user := if r.userIdentity = [] then bound else r.userIdentity
      match (if r.newPassword = [] then generatePw o.rnd 0 srv.genPwLen else .ok r.newPassword) with
      | .err _ => (ldapErr rcOperationsError, st)
      | .panic => (.panic, st)
      | .hang => (.hang, st)
      | .ok pw => match hashPw V.K o.salt pw b!"{ARGON2}" with
        | .err _ => (ldapErr rcOperationsError, st)
        | .panic => (.panic, st)
        | .hang => (.hang, st)
        | .ok hashed => match pick srv.pwExopFns user with
          | none => (ldapErr rcUnwillingToPerform, st)
          | some f =>
            let (res, st') := f bound ⟨user, r.oldPassword, hashed⟩ st
            (pwExopAnswer (if r.newPassword = [] then some hashed else none) res, st')

/-- `pwmodOID`, pwmodifyexop.go:13; the only registered extended operation. -/
def pwmodOID : Str := b!"1.3.6.1.4.1.4203.1.11.1"

/-- What an extended request is answered with: an error response, or a response with code, OID and generated password. -/
inductive ExtAnswer where
  | failed
  | done (code : Nat) (oid : Str) (genPw : Option Str)
  deriving DecidableEq, Repr

/-- `HandleExtendedRequest`, extended.go:24-48. `lerr.Err.Error()` (line 36) panics if the `*ldap.Error` has no inner error. -/
def handleExtended {σ : Type} (V : Env) (srv : Srv σ) (o : Oracle) (bound : Str) (req : Packet) : Act σ ExtAnswer := fun st =>
  match parseExtendedRequest req with
  | .err _ => (.ok .failed, st)
  | .panic => (.panic, st)
  | .hang => (.hang, st)
  | .ok (oid, body) =>
    if oid = pwmodOID then
      match handlePwModify V srv o bound body st with
      | (.ok gen, st') => (.ok (.done rcSuccess oid gen), st')
      | (.err (.ldap code true), st') => (.ok (.done code oid none), st')
      | (.err (.ldap _ false), st') => (.panic, st')
      | (.err _, st') => (.ok (.done rcOther oid none), st')
      | (.panic, st') => (.panic, st')
      | (.hang, st') => (.hang, st')
    else (.ok .failed, st)

/-! ## search.go -/

/-- The attribute list of `parseSearchRequest`, search.go:136-143. -/
def parseAttrNames : List Packet → Option (List Str)
  | [] => some []
  | p :: ps => do
    let s ← p.str?
    let rest ← parseAttrNames ps
    some (s :: rest)

/-- `parseSearchRequest`, search.go:95-157; `none` is an error. -/
def parseSearchRequest (req : Packet) (controls : List Control) : Option SearchReq :=
  match req.kids with
  | [b, s, d, z, t, y, f, a] => do
    let baseObject ← b.str?
    let scope ← s.int?
    let deref ← d.int?
    let size ← z.int?
    let time ← t.int?
    let typesOnly ← if y.val = .nil then some false else y.bool?
    let filter ← decompile f
    let attrs ← parseAttrNames a.kids
    some ⟨baseObject, scope, deref, size, time, typesOnly, filter, attrs, controls⟩
  | _ => none

/-- The scope as the switch statements read it: anything but 0, 1, 2 matches no case. -/
def scopeNat (i : Int) : Nat := if i < 0 then 3 else i.toNat

/-- The loop of `HandleSearchRequest`, search.go:50-91, with `EnforceLDAP`: the entries sent, and the result code. `i` is the number of
entries sent so far. -/
def searchLoop (C : CaseEnv) (filter : Packet) (r : SearchReq) : (i : Nat) → List Entry → List Entry × Res Nat
  | _, [] => ([], .ok rcSuccess)
  | i, e :: es =>
    match applyFilter C e filter with
    | .err x => ([], .err x)
    | .panic => ([], .panic)
    | .hang => ([], .hang)
    | .ok (keep, code) =>
      if code ≠ rcSuccess then ([], .ok code)
      else if !keep then searchLoop C filter r i es
      else
        let (keep, code) := filterScope C r.baseDN (scopeNat r.scope) e
        if code ≠ rcSuccess then ([], .ok code)
        else if !keep then searchLoop C filter r i es
        else if r.sizeLimit > 0 ∧ (i : Int) ≥ r.sizeLimit then ([], .ok rcSizeLimitExceeded)
        else
          let (sent, res) := searchLoop C filter r (i + 1) es
          (filterAttributes C r.attrs e :: sent, res)

/-- What a search answers: the entries, then done with a code and controls (`none`: nil pointer); `failed`: the function returned an
error, after which the connection is closed. -/
structure SearchOut where
  sent : List Entry
  code : Nat
  controls : Option (List Control)
  failed : Bool

/-- `HandleSearchRequest`, search.go:17-93. A panic in the loop leaves the entries sent before it (`sentBefore`, for the record). -/
def handleSearch {σ : Type} (V : Env) (srv : Srv σ) (bound : Str) (req : Packet) (controls : List Control) :
    σ → (List Entry × Res SearchOut) × σ := fun st =>
  match parseSearchRequest req controls with
  | none => (([], .ok ⟨[], rcOperationsError, none, true⟩), st)
  | some r =>
    match (if srv.enforce then compile r.filter else some (.mk .universal false 0 .nil [] [])) with
    | none => (([], .ok ⟨[], rcOperationsError, none, true⟩), st)
    | some fp => match pick srv.searchFns r.baseDN with
      | none => (([], .panic), st)
      | some f =>
        let (res, st') := f bound r st
        match res with
        | .err _ => (([], .panic), st')
        | .panic => (([], .panic), st')
        | .hang => (([], .hang), st')
        | .ok sr =>
          if sr.err then (([], .ok ⟨[], sr.code, some sr.controls, true⟩), st')
          else if srv.enforce then
            match searchLoop V.C fp r 0 sr.entries with
            | (sent, .ok code) => (([], .ok ⟨sent, code, some sr.controls, code ≠ rcSuccess⟩), st')
            | (sent, .err _) => ((sent, .panic), st')
            | (sent, .panic) => ((sent, .panic), st')
            | (sent, .hang) => ((sent, .hang), st')
          else (([], .ok ⟨sr.entries, rcSuccess, some sr.controls, false⟩), st')

/-! ## server.go -/

/-- `ldap.Application*` tags. -/
def appBindRequest : Nat := 0
def appBindResponse : Nat := 1
def appUnbindRequest : Nat := 2
def appSearchRequest : Nat := 3
def appSearchResultEntry : Nat := 4
def appSearchResultDone : Nat := 5
def appModifyRequest : Nat := 6
def appModifyResponse : Nat := 7
def appAddRequest : Nat := 8
def appAddResponse : Nat := 9
def appDelRequest : Nat := 10
def appDelResponse : Nat := 11
def appModifyDNRequest : Nat := 12
def appModifyDNResponse : Nat := 13
def appCompareRequest : Nat := 14
def appExtendedRequest : Nat := 23
def appExtendedResponse : Nat := 24

/-- A response: `result` is made by `encodeLDAPResponse` or `encodeBindResponse`, `entry` by `encodeSearchResponse`, `searchDone` by
`encodeSearchDone`, `extended` by `encodeExtendedResponse`. -/
inductive Resp where
  | result (id : Int) (tag : Nat) (code : Nat)
  | entry (id : Int) (e : Entry)
  | searchDone (id : Int) (code : Nat) (controls : Option (List Control))
  | extended (id : Int) (code : Nat) (oid : Str) (genPw : Option Str)
  deriving DecidableEq, Repr

/-- What becomes of the connection: it goes on under an identity, is closed, the process crashes (a panic outside of bind), or the
goroutine blocks forever. -/
inductive Next where
  | go (bound : Str)
  | closed
  | crash
  | hang
  deriving DecidableEq, Repr

structure Out (σ : Type) where
  resps : List Resp
  next : Next
  st : σ

/-- Answer of a write request. -/
def reply {σ : Type} (id : Int) (tag : Nat) (bound : Str) : Res Nat × σ → Out σ
  | (.ok code, st) => ⟨[.result id tag code], .go bound, st⟩
  | (.err _, st) => ⟨[.result id tag rcOperationsError], .go bound, st⟩
  | (.panic, st) => ⟨[], .crash, st⟩
  | (.hang, st) => ⟨[], .hang, st⟩

/-- The decoding of controls, server.go:243-254: controls that cannot be decoded are left out. -/
def decodeControls (V : Env) : List Packet → Res (List Control)
  | [] => .ok []
  | p :: ps => match V.control p with
    | .ok c => do
      let rest ← decodeControls V ps
      .ok (c :: rest)
    | .err _ => decodeControls V ps
    | .panic => .panic
    | .hang => .hang

/-- The bind case, server.go:294-313. -/
def stepBind {σ : Type} (V : Env) (srv : Srv σ) (id : Int) (bound : Str) (req : Packet) (st : σ) : Out σ :=
  match handleBind srv req st with
  | (.panic, st') => ⟨[], .crash, st'⟩
  | (.hang, st') => ⟨[], .hang, st'⟩
  | (.err _, st') => ⟨[], .crash, st'⟩
  | (.ok code, st') =>
    if code = rcSuccess then
      match req.kids[1]? with
      | none => ⟨[], .crash, st'⟩
      | some d => match d.str? with
        | none => ⟨[], .closed, srv.close [] st'⟩
        | some dn => match parseNormalize V.C dn with
          | none => ⟨[], .closed, srv.close [] st'⟩
          | some b => ⟨[.result id appBindResponse code], .go b, st'⟩
    else ⟨[.result id appBindResponse code], .go bound, st'⟩

/-- The extended case, server.go:346-363. -/
def stepExtended {σ : Type} (V : Env) (srv : Srv σ) (o : Oracle) (id : Int) (bound : Str) (req : Packet) (st : σ) : Out σ :=
  match handleExtended V srv o bound req st with
  | (.ok .failed, st') => ⟨[.result id appExtendedResponse rcOperationsError], .go bound, st'⟩
  | (.ok (.done code oid gen), st') => ⟨[.extended id code oid gen], .go bound, st'⟩
  | (.err _, st') => ⟨[.result id appExtendedResponse rcOperationsError], .go bound, st'⟩
  | (.panic, st') => ⟨[], .crash, st'⟩
  | (.hang, st') => ⟨[], .hang, st'⟩

/-- The search case, server.go:409-425: after an error the connection is closed. -/
def stepSearch {σ : Type} (V : Env) (srv : Srv σ) (id : Int) (bound : Str) (req : Packet) (controls : List Control) (st : σ) : Out σ :=
  match handleSearch V srv bound req controls st with
  | ((before, .panic), st') => ⟨before.map (.entry id), .crash, st'⟩
  | ((before, .hang), st') => ⟨before.map (.entry id), .hang, st'⟩
  | ((before, .err _), st') => ⟨before.map (.entry id), .crash, st'⟩
  | ((_, .ok out), st') =>
    let resps := out.sent.map (.entry id) ++ [.searchDone id out.code out.controls]
    if out.failed then ⟨resps, .closed, srv.close bound st'⟩ else ⟨resps, .go bound, st'⟩

/-- One round of the loop of `handleConnection`, server.go:216-431, on the packet read. -/
def handlePacket {σ : Type} (V : Env) (srv : Srv σ) (o : Oracle) (p : Packet) (bound : Str) (st : σ) : Out σ :=
  let closed : Out σ := ⟨[], .closed, srv.close bound st⟩
  match p.kids with
  | m :: req :: more => match m.int? with
    | none => closed
    | some id =>
      if req.cls ≠ .application then closed
      else match decodeControls V ((more.head?.map Packet.kids).getD []) with
        | .panic => ⟨[], .crash, st⟩
        | .hang => ⟨[], .hang, st⟩
        | .err _ => ⟨[], .crash, st⟩
        | .ok controls =>
          if req.tag = appAddRequest then
            if srv.stats then ⟨[], .hang, st⟩
            else reply id appAddResponse bound (handleAdd V srv bound req st)
          else if req.tag = appBindRequest then stepBind V srv id bound req st
          else if req.tag = appCompareRequest then
            ⟨[.result id appCompareRequest rcOperationsError], .closed, srv.close bound st⟩
          else if req.tag = appDelRequest then reply id appDelResponse bound (handleDelete V srv bound req st)
          else if req.tag = appExtendedRequest then stepExtended V srv o id bound req st
          else if req.tag = appModifyDNRequest then reply id appModifyDNResponse bound (handleModifyDN V srv bound req st)
          else if req.tag = appModifyRequest then reply id appModifyResponse bound (handleModify V srv bound req st)
          else if req.tag = appSearchRequest then stepSearch V srv id bound req controls st
          else closed
  | _ => closed

/-- How a connection stands after its packets: still open under an identity, closed, crashed or blocked; and the log of what was read and
answered. -/
structure ConnOut (σ : Type) where
  log : List (Packet × List Resp)
  next : Next
  st : σ

/-- `handleConnection`, server.go:213-439, on the packets of a client with no other client in between. It starts with an empty
`boundDN`. -/
def serveFrom {σ : Type} (V : Env) (srv : Srv σ) : (bound : Str) → σ → List (Packet × Oracle) → ConnOut σ
  | bound, st, [] => ⟨[], .go bound, st⟩
  | bound, st, (p, o) :: ps =>
    let out := handlePacket V srv o p bound st
    match out.next with
    | .go b =>
      let rest := serveFrom V srv b out.st ps
      ⟨(p, out.resps) :: rest.log, rest.next, rest.st⟩
    | n => ⟨[(p, out.resps)], n, out.st⟩

end Idm
