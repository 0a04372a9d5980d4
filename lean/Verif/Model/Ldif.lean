import Verif.Model.Server
/-!
# The LDIF handler and its middleware, `/repo/server/handler/ldif`

The texts of the files are not modelled here: a load starts from the records `ldif.Unmarshal` returns, or from the failure of reading,
templating or parsing them.

The producer goroutine of a search (`searchEntriesPump`) is modelled by the list of entries it offers, in its order. The consumer takes
entries from the front of that list; that the producer gives up before the end of a search without paging (the consumer of an entry takes
more than a minute, or the server shuts down) is left out. For paged searches the list stays behind in the state, under its cookie. When the
producer of a paged search gives up, and whether a request comes before its end is complete, is decided by arbitrary functions `cut` and
`inTime` in the state. Model/Paging.lean has the goroutines step by step.
-/
namespace Idm

/-- `ldifEntry`, entry.go:16-20. `ptr` stands for the identity of the pointer; `pw`: the values of `UserPassword` (none: nil). -/
structure LEntry where
  ptr : Nat
  dn : Str
  attrs : List Attr
  pw : Option (List Str)
  deriving DecidableEq, Repr

/-- The embedded `*ldap.Entry`. -/
def LEntry.visible (e : LEntry) : Entry := ⟨e.dn, e.attrs⟩

/-! ## index.go -/

/-- The kinds of index. `getKey` (index.go:205-207) joins the lower-cased name and the kind by a comma; the kinds contain none, so the
pair is as good as the string. -/
inductive IdxKind where
  | eq
  | pres
  | sub
  deriving DecidableEq, Repr

/-- A Go map (or radix tree, or suffix tree) from strings to slices of entries, as the list of what was appended, with its key. -/
abbrev Multi := List (Str × LEntry)

/-- The slice under a key. -/
def Multi.get (m : Multi) (k : Str) : List LEntry := (m.filter fun p => p.1 = k).map (·.2)

/-- The keys of the map, each once. -/
def Multi.keys (m : Multi) : List Str := (m.map (·.1)).eraseDups

/-- `indexMap` (index.go:55-72) or `indexSubTree` (index.go:140-184). -/
inductive Idx where
  | map (m : Multi)
  | sub (pres rad suf : Multi)
  deriving DecidableEq, Repr

/-- The order in which the radix tree and the suffix tree walk over the keys found; arbitrary. -/
structure WalkOrd where
  radix : List Str → List Str
  suffix : List Str → List Str

/-- Walks visit every key once. -/
structure WalkOrd.Lawful (W : WalkOrd) : Prop where
  radix : ∀ l, (W.radix l).Perm l
  suffix : ∀ l, (W.suffix l).Perm l

/-- `indexMap.Add`, index.go:61-67, and the same loop of the trees without lower-casing, index.go:84-95 and 117-128. -/
def Multi.add (m : Multi) (keys : List Str) (e : LEntry) : Multi := m ++ keys.map fun k => (k, e)

/-- `Index.Add`: `indexMap.Add` (index.go:61-67) or `indexSubTree.Add` (index.go:154-159). -/
def Idx.add (C : CaseEnv) (vals : List Str) (e : LEntry) : Idx → Idx
  | .map m => .map (m.add (vals.map C.lower) e)
  | .sub pres rad suf => .sub (pres.add [C.lower []] e) (rad.add vals e) (suf.add vals e)

/-- `Index.Load`: `indexMap.Load` (index.go:69-72) or `indexSubTree.Load` (index.go:161-184) with its walks (index.go:97-105 and
130-138). `tag` is the substring tag; `none`: the parameter is missing. -/
def Idx.load (C : CaseEnv) (W : WalkOrd) (value : Str) (tag : Option Nat) : Idx → Option (List LEntry)
  | .map m => some (m.get (C.lower value))
  | .sub pres rad suf => match tag with
    | none => none
    | some t =>
      if t = subAny then some (pres.get (C.lower []))
      else if t = subInitial then some ((W.radix (rad.keys.filter (hasPrefix · value))).flatMap rad.get)
      else if t = subFinal then some ((W.suffix (suf.keys.filter (hasSuffix · value))).flatMap suf.get)
      else none

/-- `indexMapRegister`, index.go:186: the index of a lower-cased name and a kind. -/
abbrev Reg := Str → IdxKind → Option Idx

/-- The variable `indexAttributes` (index.go:17-40): attribute names with their kinds of index. `AddIndexAttribute` and
`RemoveIndexAttribute` can change it; in the model it is a parameter of the handler. -/
abbrev IdxAttrs := List (Str × List IdxKind)

/-- The default of `indexAttributes`, index.go:17-40. -/
def defaultIdx : IdxAttrs :=
  let full : List IdxKind := [.pres, .eq, .sub]
  [(b!"entryCSN", [.eq]), (b!"entryUUID", [.eq]), (b!"objectClass", [.eq]), (b!"cn", full), (b!"gidNumber", [.eq]), (b!"mail", full),
   (b!"memberUid", [.eq]), (b!"ou", [.eq]), (b!"uid", [.eq]), (b!"uidNumber", [.eq]), (b!"uniqueMember", [.eq]), (b!"sn", full),
   (b!"givenName", full), (b!"mailAlternateAddress", [.eq]), (b!"objectGUID", [.eq]), (b!"objectSID", [.eq]), (b!"otherMailbox", [.eq]),
   (b!"samAccountName", [.eq])]

/-- An index is configured for the lower-cased name. -/
def indexed (C : CaseEnv) (idx : IdxAttrs) (n : Str) (k : IdxKind) : Bool := idx.any fun p => C.lower p.1 = n && p.2.contains k

/-- `newIndexMapRegister`, index.go:188-203. -/
def newReg (C : CaseEnv) (idx : IdxAttrs) : Reg := fun n k =>
  if indexed C idx n k then some (match k with | .sub => .sub [] [] [] | _ => .map []) else none

/-- `indexMapRegister.Add`, index.go:209-216. -/
def Reg.add (C : CaseEnv) (reg : Reg) (name : Str) (kind : IdxKind) (vals : List Str) (e : LEntry) : Reg := fun n k =>
  if n = C.lower name ∧ k = kind then (reg n k).map (Idx.add C vals e) else reg n k

/-- `indexMapRegister.Load`, index.go:218-225. -/
def Reg.load (C : CaseEnv) (W : WalkOrd) (reg : Reg) (name : Str) (kind : IdxKind) (value : Str) (tag : Option Nat) :
    Option (List LEntry) :=
  (reg (C.lower name) kind).bind (Idx.load C W value tag)

/-! ## ldif.go -/

/-- `ldifMemoryValue`, memory.go:13-18. The suffix tree maps every DN to its entry; it is the list of its entries here. -/
structure LMem where
  tree : List LEntry
  reg : Reg

/-- The entry a record becomes, ldif.go:154-173: the DN is lower-cased; attributes whose lower-cased name is `userpassword` are not kept
as attributes, the last of them is the password. -/
def buildEntry (C : CaseEnv) (ptr : Nat) (r : Entry) : LEntry where
  ptr := ptr
  dn := C.lower r.dn
  attrs := r.attrs.filter fun a => C.lower a.name ≠ b!"userpassword"
  pw := ((r.attrs.filter fun a => C.lower a.name = b!"userpassword").getLast?).map (·.vals)

/-- The index calls for the attributes of a record, ldif.go:174-181. (The code indexes a pointer while the entry is still being filled;
the entry is complete before anybody can load it.) -/
def indexAttrs (C : CaseEnv) (e : LEntry) : List Attr → Reg → Reg
  | [], reg => reg
  | a :: as, reg =>
    indexAttrs C e as (((reg.add C a.name .eq a.vals e).add C a.name .pres [[]] e).add C a.name .sub a.vals e)

/-- The loop of `treeFromLDIF`, ldif.go:148-187: nil records are left out, a second entry of the same lower-cased DN is an error. `ptr` is the
next pointer. -/
def loadRecs (C : CaseEnv) : (ptr : Nat) → LMem → List (Option Entry) → Option LMem
  | _, m, [] => some m
  | ptr, m, none :: rs => loadRecs C ptr m rs
  | ptr, m, some r :: rs =>
    let e := buildEntry C ptr r
    if m.tree.any (fun x => x.dn = e.dn) then none
    else loadRecs C (ptr + 1) ⟨m.tree ++ [e], indexAttrs C e r.attrs m.reg⟩ rs

/-- `treeFromLDIF`, ldif.go:143-190, with a new index. -/
def treeFromLDIF (C : CaseEnv) (idx : IdxAttrs) (recs : List (Option Entry)) : Option LMem := loadRecs C 0 ⟨[], newReg C idx⟩ recs

/-- `Tree.Get`. -/
def treeGet (tree : List LEntry) (dn : Str) : Option LEntry := tree.find? fun e => e.dn = dn

/-- `Tree.WalkSuffix`: the entries whose DN text ends in `sfx`. -/
def treeWalk (W : WalkOrd) (tree : List LEntry) (sfx : Str) : List LEntry :=
  (W.suffix ((tree.map (·.dn)).filter (hasSuffix · sfx))).filterMap (treeGet tree)

/-! ## filter.go -/

/-- One element of the index filter: attribute, kind of index, value, substring tag. -/
structure IdxReq where
  attr : Str
  kind : IdxKind
  value : Str
  tag : Option Nat
  deriving DecidableEq, Repr

mutual
/-- `parseFilterMatchLeavesForIndex`, filter.go:53-113: what it appends. The level string is only for debugging. -/
def leaves : Packet → Res (List IdxReq)
  | .mk _ _ tag _ data kids =>
    if tag = filterEq then
      match kids with
      | [a, v] => do
        let attr ← a.mustStr
        let value ← v.mustStr
        .ok [⟨attr, .eq, value, none⟩]
      | _ => .err .other
    else if tag = filterPresent then
      if kids.length ≠ 0 then .err .other else .ok [⟨data, .pres, [], none⟩]
    else if tag = filterSub then
      match kids with
      | [a, s] => do
        let attr ← a.mustStr
        match s.kids with
        | [c] => do
          let value ← c.mustStr
          .ok (if c.tag = subInitial ∨ c.tag = subAny ∨ c.tag = subFinal then [⟨attr, .sub, value, some c.tag⟩] else [])
        | _ => .err .other
      | _ => .err .other
    else if tag = filterAnd then leavesAll kids
    else if tag = filterOr then leavesAll kids
    else .ok []

/-- The loops of the And and Or cases, filter.go:90-104. -/
def leavesAll : List Packet → Res (List IdxReq)
  | [] => .ok []
  | p :: ps => do
    let l ← leaves p
    let rest ← leavesAll ps
    .ok (l ++ rest)
end

/-- `strings.EqualFold("objectClass", f[1])`. -/
def isObjectClass (C : CaseEnv) (f : IdxReq) : Bool := C.eqFold b!"objectClass" f.attr

/-- The second half of `parseFilterToIndexFilter`, filter.go:29-49. -/
def dropObjectClass (C : CaseEnv) (ms : List IdxReq) : List IdxReq :=
  let withOC := !(decide (ms.length > 1) && ms.any fun f => !isObjectClass C f)
  ms.filter fun f => withOC || !isObjectClass C f

/-- `parseFilterToIndexFilter`, filter.go:19-51. Its error is ignored by the caller, the result is empty then. -/
def indexFilter (C : CaseEnv) (filter : Str) : Res (List IdxReq) :=
  match compile filter with
  | none => .ok []
  | some p => match leaves p with
    | .ok ms => .ok (dropObjectClass C ms)
    | .err _ => .ok []
    | .panic => .panic
    | .hang => .hang

/-! ## handler.go -/

/-- The loads of `searchEntriesPump`, handler.go:445-456: `none` if one of them has no index. -/
def loadAll (C : CaseEnv) (W : WalkOrd) (reg : Reg) : List IdxReq → Option (List LEntry)
  | [] => some []
  | f :: fs => do
    let l ← reg.load C W f.attr f.kind f.value f.tag
    let rest ← loadAll C W reg fs
    some (l ++ rest)

/-- The loop over the index results, handler.go:457-473: entries seen before are left out, and those whose DN text does not end in the
search base. `seen` is the cache. -/
def pumpIndexed (base : Str) : (seen : List Nat) → List LEntry → List LEntry
  | _, [] => []
  | seen, e :: es =>
    if seen.contains e.ptr then pumpIndexed base seen es
    else if hasSuffix e.dn base then e :: pumpIndexed base (e.ptr :: seen) es
    else pumpIndexed base (e.ptr :: seen) es

/-- `searchEntriesPump`, handler.go:410-485: the entries it offers if it is not stopped before. `base` is the lower-cased search base. -/
def pump (C : CaseEnv) (W : WalkOrd) (m : LMem) (base : Str) (fs : List IdxReq) : List LEntry :=
  match (if fs = [] then none else loadAll C W m.reg fs) with
  | some l => pumpIndexed base [] l
  | none => treeWalk W m.tree base

/-- The fields of `ldifHandler` (handler.go:31-45) and `ldifMiddleware` (middleware.go:24-34) that do not change. `optBase` is
`options.BaseDN`, `base` the normalised base DN; `conf`: there is a config middleware (its base DN is `optBase` in lower case). `loopback`:
the client's address is a loopback address. -/
structure LdifCfg where
  optBase : Str
  base : Str
  anon : Bool
  conf : Bool
  loopback : Bool
  idx : IdxAttrs
  deriving DecidableEq, Repr

/-- `NewLDIFHandler`, handler.go:49-87, without loading. -/
def newLdifCfg (C : CaseEnv) (baseDN adminDN : Str) (anon conf loopback : Bool) (idx : IdxAttrs) : Option LdifCfg :=
  if baseDN = [] then none
  else do
    let base ← parseNormalize C baseDN
    let _ ← parseNormalize C adminDN
    some ⟨baseDN, base, anon, conf, loopback, idx⟩

/-- The state of the handlers: the data of the main handler and of the config middleware, the active paged searches with what their
producers will still hand over. `cookie` are the random cookies to come. `cut` says whether the producer of a paged search gives up (a minute
has passed, or the server shuts down), and how many entries it hands over before. A producer that has handed over everything removes the
cookie and closes its channel soon after: `inTime` says whether a request that comes then still finds the cookie. The counters count the used
ones. -/
structure LdifSt where
  main : LMem
  conf : LMem
  pagings : List (Str × List LEntry)
  cookie : Nat → Str
  cut : Nat → Option Nat
  nCookie : Nat
  inTime : Nat → Bool
  nLate : Nat

section
variable (V : Env) (W : WalkOrd) (cfg : LdifCfg)

/-- `validateBindDN`, handler.go:487-503. -/
def ldifValidDN (bound : Str) : Bool := if bound = [] then cfg.anon && cfg.loopback else hasSuffix bound cfg.base

/-- `validatePassword`, entry.go:22-31: no `UserPassword` is a nil pointer, no value an index out of range. -/
def ldifValidate (e : LEntry) (pw : Str) : Res Bool :=
  match e.pw with
  | none => .panic
  | some [] => .panic
  | some (h :: _) => match validatePw V.C V.K pw h with
    | .ok b => .ok b
    | .err _ => .ok false
    | .panic => .panic
    | .hang => .hang

/-- The answer to a bind for the entry found. -/
def ldifBindCode : Res Bool → Res (Nat × Bool)
  | .ok true => .ok (rcSuccess, false)
  | .ok false => .ok (rcInvalidCredentials, false)
  | .err _ => .ok (rcInvalidCredentials, false)
  | .panic => .panic
  | .hang => .hang

/-- `ldifHandler.Bind`, handler.go:174-213. -/
def ldifBind (bindDN pw : Str) : Act LdifSt (Nat × Bool) := fun st =>
  let dn := V.C.lower bindDN
  if !ldifValidDN cfg dn then (.ok (rcInsufficientAccessRights, false), st)
  else if pw = [] then
    if dn = [] then (.ok (rcSuccess, false), st) else (.ok (rcUnwillingToPerform, false), st)
  else match treeGet st.main.tree dn with
    | none => (.ok (rcInvalidCredentials, false), st)
    | some e => (ldifBindCode (ldifValidate V e pw), st)

/-- `ldifMiddleware.Bind`, middleware.go:135-166. -/
def confBind (bindDN pw : Str) : Act LdifSt (Nat × Bool) := fun st =>
  let dn := V.C.lower bindDN
  if pw = [] then ldifBind V cfg dn pw st
  else match treeGet st.conf.tree dn with
    | some e =>
      if !hasSuffix dn (V.C.lower cfg.optBase) then (.ok (rcInvalidCredentials, false), st)
      else (ldifBindCode (ldifValidate V e pw), st)
    | none => ldifBind V cfg dn pw st

/-- How the loop of a search ends: the entries taken, what the producer still has, whether the end was seen, and the result code. -/
structure Page where
  entries : List Entry
  rest : List LEntry
  eof : Bool
  code : Nat

/-- Add an entry to a page. -/
def Page.cons (e : Entry) (p : Page) : Page := { p with entries := e :: p.entries }

/-- An `int` converted to `uint32`. -/
def toU32 (i : Int) : Nat := (i % 4294967296).toNat

/-- The loop of `Search`, handler.go:323-393. `paging` is the page size; `count` counts the entries taken. -/
def searchPage (fp : Packet) (r : SearchReq) (paging : Option Nat) : (count : Nat) → List LEntry → Res Page
  | _, [] => .ok ⟨[], [], true, rcSuccess⟩
  | count, x :: xs =>
    match applyFilter V.C x.visible fp with
    | .err e => .err e
    | .panic => .panic
    | .hang => .hang
    | .ok (keep, code) =>
      if code ≠ rcSuccess then .ok ⟨[], xs, false, code⟩
      else if !keep then searchPage fp r paging count xs
      else
        let (keep, code) := filterScope V.C r.baseDN (scopeNat r.scope) x.visible
        if code ≠ rcSuccess then .ok ⟨[], xs, false, code⟩
        else if !keep then searchPage fp r paging count xs
        else
          let e := filterAttributes V.C r.attrs x.visible
          if paging.any (fun n => count + 1 ≥ n) then .ok ⟨[e], xs, false, rcSuccess⟩
          else if r.sizeLimit > 0 ∧ count + 1 ≥ toU32 r.sizeLimit then .ok ⟨[e], xs, false, rcSuccess⟩
          else match searchPage fp r paging (count + 1) xs with
            | .ok p => .ok (p.cons e)
            | x => x

/-- The paging control that is in force, handler.go:261-270: the first one, unless its size is not below the size limit. -/
def pagingOf (r : SearchReq) : Option (Nat × Str) :=
  match r.controls.filterMap (fun c => match c with | .paging n k => some (n, k) | .other _ => none) with
  | [] => none
  | (n, k) :: _ => if r.sizeLimit > 0 ∧ n ≥ toU32 r.sizeLimit then none else some (n, k)

/-- Removal from `activeSearchPagings`. -/
def dropCookie (k : Str) (ps : List (Str × List LEntry)) : List (Str × List LEntry) := ps.filter fun p => p.1 ≠ k

/-- Where the entries come from, handler.go:272-314: a new producer, a running one, none at all (an abandoned search receives from a nil
channel), or the cookie is unknown. -/
inductive Source where
  | from_ (l : List LEntry)
  | nil_
  | unknown

/-- What a producer hands over that gives up after `n` entries. -/
def cutTo (n : Option Nat) (l : List LEntry) : List LEntry :=
  match n with
  | none => l
  | some n => l.take n

/-- The choice of the source, handler.go:272-314, with the cookie and the new state. -/
def pageSource (base : Str) (fs : List IdxReq) (paging : Option (Nat × Str)) (st : LdifSt) : Source × Str × LdifSt :=
  match paging with
  | none => (.from_ (pump V.C W st.main base fs), [], st)
  | some (_, []) =>
    let k := st.cookie st.nCookie
    let l := cutTo (st.cut st.nCookie) (pump V.C W st.main base fs)
    (.from_ l, k, { st with nCookie := st.nCookie + 1, pagings := (k, l) :: dropCookie k st.pagings })
  | some (n, k) =>
    match st.pagings.find? (fun p => p.1 = k) with
    | none => (.unknown, k, st)
    | some (_, l) =>
      if l = [] ∧ st.inTime st.nLate = false then (.unknown, k, { st with nLate := st.nLate + 1, pagings := dropCookie k st.pagings })
      else
        let st' := if l = [] then { st with nLate := st.nLate + 1 } else st
        if n > 0 then (.from_ l, k, st') else (.nil_, k, { st' with pagings := dropCookie k st.pagings })

/-- `ldifHandler.Search`, handler.go:231-408. The middleware (middleware.go:184-186) passes searches on unchanged. -/
def ldifSearch (bound : Str) (r : SearchReq) : Act LdifSt SearchRes := fun st =>
  let base := V.C.lower r.baseDN
  if !ldifValidDN cfg (V.C.lower bound) then (.ok ⟨[], [], rcInsufficientAccessRights, true⟩, st)
  else match indexFilter V.C r.filter with
    | .err _ => (.panic, st)
    | .panic => (.panic, st)
    | .hang => (.hang, st)
    | .ok fs =>
      if !hasSuffix base cfg.base then (.ok ⟨[], [], rcInsufficientAccessRights, true⟩, st)
      else match pageSource V W base fs (pagingOf r) st with
        | (.unknown, _, st') => (.ok ⟨[], [], rcUnwillingToPerform, true⟩, st')
        | (src, k, st') => match compile r.filter with
          | none => (.ok ⟨[], [], rcOperationsError, true⟩, st')
          | some fp => match src with
            | .unknown => (.ok ⟨[], [], rcUnwillingToPerform, true⟩, st')
            | .nil_ => (.hang, st')
            | .from_ l => match searchPage V fp r ((pagingOf r).map (·.1)) 0 l with
              | .err _ => (.panic, st')
              | .panic => (.panic, st')
              | .hang => (.hang, st')
              | .ok p =>
                let st'' := if (pagingOf r).isSome then
                  { st' with pagings := (if p.eof then [] else [(k, p.rest)]) ++ dropCookie k st'.pagings } else st'
                if p.code ≠ rcSuccess then (.ok ⟨[], [], p.code, true⟩, st'')
                else (.ok ⟨p.entries, if (pagingOf r).isSome then [.paging 0 (if p.eof then [] else k)] else [], rcSuccess, false⟩, st'')

/-- The write functions of the handler and of the middleware, handler.go:170-172 and 215-229, middleware.go:131-133 and 168-182. -/
def ldifRefuse {ρ : Type} (_bound : Str) (_r : ρ) : Act LdifSt (Nat × Bool) := fun st => (.ok (rcUnwillingToPerform, true), st)

/-- The server with the LDIF handler, /repo/server/server.go:48-78 and 138-146: every function is registered under the empty suffix,
`EnforceLDAP` is not set. `Close` does nothing. -/
def ldifSrv (genPwLen : Nat) (stats : Bool) : Srv LdifSt where
  addFns := [([], ldifRefuse)]
  bindFns := [([], if cfg.conf then confBind V cfg else ldifBind V cfg)]
  deleteFns := [([], ldifRefuse)]
  modifyFns := [([], ldifRefuse)]
  modifyDNFns := [([], ldifRefuse)]
  pwExopFns := [([], ldifRefuse)]
  searchFns := [([], ldifSearch V W cfg)]
  close := fun _ st => st
  enforce := false
  genPwLen := genPwLen
  stats := stats

/-- `open`, handler.go:89-148 and middleware.go:68-98: the new data, if it can be loaded. `recs` is what the files contain now; `none`: they
cannot be read, templated or parsed. `norm` is the DN `options.BaseDN` is compared with. -/
def openLdif (norm : Str) (recs : Option (List (Option Entry))) : Option LMem :=
  if !V.C.eqFold cfg.optBase norm then none
  else recs.bind (treeFromLDIF V.C cfg.idx)

/-- `Reload` of the main handler, handler.go:166-168: the error, and the new state. -/
def reloadMain (recs : Option (List (Option Entry))) (st : LdifSt) : Bool × LdifSt :=
  match openLdif V cfg cfg.base recs with
  | none => (true, st)
  | some m => (false, { st with main := m })

/-- `Reload` of the handler in use: with a config middleware (middleware.go:122-129) its data is replaced first. -/
def reloadLdif (confRecs recs : Option (List (Option Entry))) (st : LdifSt) : Bool × LdifSt :=
  if cfg.conf then
    match openLdif V cfg (V.C.lower cfg.optBase) confRecs with
    | none => (true, st)
    | some m => reloadMain V cfg recs { st with conf := m }
  else reloadMain V cfg recs st

end
end Idm
