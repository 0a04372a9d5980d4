import Verif.Model.Paging
import Verif.Model.Parallel
/-!
# The LDIF server with overlapping requests

Every connection is served by its own goroutine (/repo/pkg/ldapserver/server.go:204-208), which treats the packets of the connection one
after the other. The goroutines of all connections share the two atomic values with the data of the LDIF handler and of the config
middleware (`current`, handler.go:40 and middleware.go:33), and the concurrent map `activeSearchPagings`. Every search that is not a
later page starts a producer goroutine and receives from it through an unbuffered channel. One more goroutine reloads the files
(/repo/server/server.go:140-154). While `Model/Ldif` treats a packet in one step, here all these goroutines run side by side; one step is
one access to something shared: a load or store of an atomic value, an operation on the concurrent map, an entry that passes through a
channel, the close of a channel.

Which function of the handler a packet leads to, with which arguments, is found by running the packet with functions that note the call
and go on with a given answer (`recordLdif`), as in `Model/Parallel`. `Proofs/LdifParallel` shows that this is what the server of
`Model/Ldif` does.
-/
namespace Idm

/-- A call of the handler that needs the data. -/
inductive LCall where
  | bind (dn pw : Str)
  | search (bound : Str) (r : SearchReq)

/-- What a call returns (`nothing`: no call was made). -/
inductive LRep where
  | nothing
  | bind (x : Res (Nat × Bool))
  | search (x : Res SearchRes)

/-- What `Bind` returned. -/
def LRep.toBind : LRep → Res (Nat × Bool)
  | .bind x => x
  | _ => .panic

/-- What `Search` returned. -/
def LRep.toSearch : LRep → Res SearchRes
  | .search x => x
  | _ => .panic

/-- The write functions, handler.go:170-172 and 215-229, middleware.go:131-133 and 168-182, see `ldifRefuse`. -/
def recRefuse {ρ : Type} (_bound : Str) (_r : ρ) : Act (Option LCall) (Nat × Bool) := fun s => (.ok (rcUnwillingToPerform, true), s)

/-- `ldifSrv` with the calls of `Bind` and `Search` noted and answered by `rep`. -/
def recordLdif (rep : LRep) (genPwLen : Nat) (stats : Bool) : Srv (Option LCall) where
  addFns := [([], recRefuse)]
  bindFns := [([], fun dn pw _ => (rep.toBind, some (.bind dn pw)))]
  deleteFns := [([], recRefuse)]
  modifyFns := [([], recRefuse)]
  modifyDNFns := [([], recRefuse)]
  pwExopFns := [([], recRefuse)]
  searchFns := [([], fun bound r _ => (rep.toSearch, some (.search bound r)))]
  close := fun _ s => s
  enforce := false
  genPwLen := genPwLen
  stats := stats

section
variable (V : Env) (W : WalkOrd) (cfg : LdifCfg) (genPwLen : Nat) (stats : Bool)

/-- The call a packet leads to on a connection with identity `b`. -/
def ldifCall (o : Oracle) (p : Packet) (b : Str) : Option LCall :=
  (handlePacket V (recordLdif .nothing genPwLen stats) o p b none).st

/-- What is sent, and what becomes of the connection, when the call returns `rep`. -/
def ldifEnd (o : Oracle) (p : Packet) (b : Str) (rep : LRep) : List Resp × Next :=
  let out := handlePacket V (recordLdif rep genPwLen stats) o p b none
  (out.resps, out.next)

/-! ## Bind -/

/-- `ldifMiddleware.Bind`, middleware.go:135-166, with the data it has loaded (148): its answer, or it passes the request on to the next
handler (139, 165). -/
def confLook (m : LMem) (bindDN pw : Str) : Option (Res (Nat × Bool)) :=
  let dn := V.C.lower bindDN
  if pw = [] then none
  else match treeGet m.tree dn with
    | some e =>
      some (if !hasSuffix dn (V.C.lower cfg.optBase) then .ok (rcInvalidCredentials, false) else ldifBindCode (ldifValidate V e pw))
    | none => none

/-- `ldifHandler.Bind`, handler.go:174-213, with the data it has loaded (198). -/
def mainLook (m : LMem) (bindDN pw : Str) : Res (Nat × Bool) :=
  let dn := V.C.lower bindDN
  if !ldifValidDN cfg dn then .ok (rcInsufficientAccessRights, false)
  else if pw = [] then
    if dn = [] then .ok (rcSuccess, false) else .ok (rcUnwillingToPerform, false)
  else match treeGet m.tree dn with
    | none => .ok (rcInvalidCredentials, false)
    | some e => ldifBindCode (ldifValidate V e pw)

/-! ## Search -/

/-- The first part of `Search`, handler.go:231-260, which uses nothing shared: it returns, or goes on with the index filter. -/
def searchPlan (bound : Str) (r : SearchReq) : Res SearchRes ⊕ List IdxReq :=
  if !ldifValidDN cfg (V.C.lower bound) then .inl (.ok ⟨[], [], rcInsufficientAccessRights, true⟩)
  else match indexFilter V.C r.filter with
    | .err _ => .inl .panic
    | .panic => .inl .panic
    | .hang => .inl .hang
    | .ok fs =>
      if !hasSuffix (V.C.lower r.baseDN) cfg.base then .inl (.ok ⟨[], [], rcInsufficientAccessRights, true⟩)
      else .inr fs

/-- What `Search` returns after its loop, handler.go:345-360 and 394-407: `last`: the channel was closed; `k` is the cookie. -/
def pageReply (r : SearchReq) (k : Str) (last : Bool) : Res (List Entry × Nat) → Res SearchRes
  | .err _ => .panic
  | .panic => .panic
  | .hang => .hang
  | .ok (es, code) =>
    if code ≠ rcSuccess then .ok ⟨[], [], code, true⟩
    else .ok ⟨es, if (pagingOf r).isSome then [.paging 0 (if last then [] else k)] else [], rcSuccess, false⟩

/-- Where a producer is: its channel is made but it is not started yet (handler.go:280 or 300); it offers entries; it is about to remove its
cookie (413; nothing is removed without paging); it is about to close the channel (414, 417); it has ended. -/
inductive ChanPhase where
  | made
  | offering
  | removing
  | closing
  | ended
  deriving DecidableEq, Repr

/-- A channel and its producer: the request that made it, the cookie (`none`: no paging), what is still to be handed over. History, which
nothing depends on: the data the producer was started with, all it had to hand over, what it has handed over and to which request, whether
it gave up. -/
structure Chan (ι : Type) where
  owner : ι
  cookie : Option Str
  phase : ChanPhase
  todo : List LEntry
  all : List LEntry
  out : List (ι × LEntry)
  gaveUp : Bool

/-- A new channel. -/
def Chan.new {ι : Type} (owner : ι) (cookie : Option Str) : Chan ι := ⟨owner, cookie, .made, [], [], [], false⟩

/-- The producer is started with the entries it is to offer, handler.go:302-305. -/
def Chan.begin {ι : Type} (ch : Chan ι) (l : List LEntry) : Chan ι := { ch with phase := .offering, todo := l, all := l }

/-- What the goroutine of a connection is doing. -/
inductive LStage (ι : Type) where
  /-- waiting for a packet; the identity of the connection -/
  | ready (b : Str)
  /-- the packet was read, nothing shared accessed yet -/
  | begun (j : Job ι)
  /-- `Bind` of the main handler was called -/
  | bindMain (j : Job ι) (dn pw : Str)
  /-- a search has made the channel `ch` (and registered it with the cookie `k`), the producer is not started yet -/
  | starting (j : Job ι) (r : SearchReq) (fs : List IdxReq) (k : Str) (ch : Nat)
  /-- a search has found the cookie `k` and is about to remove it -/
  | dropping (j : Job ι) (r : SearchReq) (k : Str)
  /-- in the loop of a search, receiving from channel `ch` -/
  | receiving (j : Job ι) (r : SearchReq) (k : Str) (ch : Nat) (con : LdifCon)
  /-- receiving from a nil channel -/
  | stuck (j : Job ι)
  /-- the handler has returned, the responses are not sent yet -/
  | returned (j : Job ι) (rep : LRep)
  /-- the connection is closed, or its goroutine blocked for ever -/
  | over

/-- The point after handler.go:314: the filter is compiled (316-321), then the loop begins. -/
def enterLoop {ι : Type} (j : Job ι) (r : SearchReq) (k : Str) (ch : Nat) : LStage ι :=
  match compile r.filter with
  | none => .returned j (.search (.ok ⟨[], [], rcOperationsError, true⟩))
  | some fp => .receiving j r k ch ⟨fp, r, (pagingOf r).map (·.1), []⟩

/-- The same without a channel. -/
def enterNil {ι : Type} (j : Job ι) (r : SearchReq) : LStage ι :=
  match compile r.filter with
  | none => .returned j (.search (.ok ⟨[], [], rcOperationsError, true⟩))
  | some _ => .stuck j

/-- An entry is received, handler.go:331-392. -/
def takeEntry {ι : Type} (j : Job ι) (r : SearchReq) (k : Str) (ch : Nat) (con : LdifCon) (x : LEntry) : LStage ι :=
  match ldifEat V con x with
  | .inl con' => .receiving j r k ch con'
  | .inr res => .returned j (.search (pageReply r k false res))

/-- What can be seen from outside: requests and responses; the data of the LDIF handler or of the config middleware is replaced (log
"loaded LDIF", handler.go:138-144, middleware.go:88-94); a cookie is made (log "ldap search paging pump start", 282); the producer of a
request gives up (logs "ldap search paging pump context done", "ldap search pump timeout" and so on, 424-437). -/
inductive LSeen (ι : Type) where
  | io (e : Seen ι)
  | main (m : LMem)
  | conf (m : LMem)
  | cookie (id : ι) (k : Str)
  | gaveUp (id : ι)

/-- The process: the data of the main handler and of the config middleware, all channels ever made, the registered cookies with their
channels, the goroutines of the connections, whether `Reload` of the middleware has replaced its data and not yet called that of the main
handler, whether the process has crashed, what was seen. -/
structure LPar (ι : Type) where
  main : LMem
  conf : LMem
  chans : List (Chan ι)
  reg : List (Str × Nat)
  conns : Nat → LStage ι
  reloading : Bool
  down : Bool
  trace : List (LSeen ι)

/-- The process at the start with the data loaded; all connections are open. -/
def LPar.start {ι : Type} (m c : LMem) : LPar ι := ⟨m, c, [], [], fun _ => .ready [], false, false, []⟩

/-- Set the stage of one goroutine. -/
def setLStage {ι : Type} (f : Nat → LStage ι) (c : Nat) (x : LStage ι) : Nat → LStage ι := fun d => if d = c then x else f d

/-- `activeSearchPagings.Remove`. -/
def regDrop (k : Str) (reg : List (Str × Nat)) : List (Str × Nat) := reg.filter fun p => p.1 ≠ k

/-- `activeSearchPagings.Get`. -/
def regGet (k : Str) (reg : List (Str × Nat)) : Option Nat := (reg.find? fun p => p.1 = k).map (·.2)

/-- The handler as a connection sees it: `loop c` says whether the address of client `c` is a loopback address. -/
def cfgAt (loop : Nat → Bool) (c : Nat) : LdifCfg := { cfg with loopback := loop c }

variable (loop : Nat → Bool)

/-- One step of one goroutine. `cfgAt cfg loop c` is the configuration as seen by connection `c`. -/
inductive LParStep {ι : Type} : LPar ι → LPar ι → Prop
  /-- a packet with a new number arrives -/
  | arrive (s c b id o p) (hd : s.down = false) (h : s.conns c = .ready b) (hnew : ∀ e, LSeen.io (.arrive id e) ∉ s.trace) :
      LParStep s { s with conns := setLStage s.conns c (.begun ⟨id, o, p, b⟩), trace := s.trace ++ [.io (.arrive id (.packet c p o))] }
  /-- the connection ends, server.go:219-232 -/
  | eof (s c b id) (hd : s.down = false) (h : s.conns c = .ready b) (hnew : ∀ e, LSeen.io (.arrive id e) ∉ s.trace) :
      LParStep s { s with conns := setLStage s.conns c .over, trace := s.trace ++ [.io (.arrive id (.eof c)), .io (.answer id [])] }
  /-- the packet leads to no call -/
  | direct (s c j) (hd : s.down = false) (h : s.conns c = .begun j) (hq : ldifCall V genPwLen stats j.o j.p j.b = none) :
      LParStep s { s with conns := setLStage s.conns c (.returned j .nothing) }
  /-- `Bind` of the middleware -/
  | bindConf (s c j dn pw) (hd : s.down = false) (h : s.conns c = .begun j) (hq : ldifCall V genPwLen stats j.o j.p j.b = some (.bind dn pw))
      (hc : cfg.conf = true) :
      LParStep s { s with conns := setLStage s.conns c (match confLook V cfg s.conf dn pw with
        | some x => .returned j (.bind x)
        | none => .bindMain j (V.C.lower dn) pw) }
  /-- there is no middleware -/
  | bindPlain (s c j dn pw) (hd : s.down = false) (h : s.conns c = .begun j) (hq : ldifCall V genPwLen stats j.o j.p j.b = some (.bind dn pw))
      (hc : cfg.conf = false) :
      LParStep s { s with conns := setLStage s.conns c (.bindMain j dn pw) }
  /-- `Bind` of the main handler -/
  | bindMain (s c j dn pw) (hd : s.down = false) (h : s.conns c = .bindMain j dn pw) :
      LParStep s { s with conns := setLStage s.conns c (.returned j (.bind (mainLook V (cfgAt cfg loop c) s.main dn pw))) }
  /-- a search returns at once, handler.go:244-259 -/
  | searchRefused (s c j bound r x) (hd : s.down = false) (h : s.conns c = .begun j)
      (hq : ldifCall V genPwLen stats j.o j.p j.b = some (.search bound r)) (hp : searchPlan V (cfgAt cfg loop c) bound r = .inl x) :
      LParStep s { s with conns := setLStage s.conns c (.returned j (.search x)) }
  /-- a search without paging makes its channel, handler.go:300 -/
  | searchPlain (s c j bound r fs) (hd : s.down = false) (h : s.conns c = .begun j)
      (hq : ldifCall V genPwLen stats j.o j.p j.b = some (.search bound r)) (hp : searchPlan V (cfgAt cfg loop c) bound r = .inr fs)
      (hg : pagingOf r = none) :
      LParStep s { s with conns := setLStage s.conns c (.starting j r fs [] s.chans.length), chans := s.chans ++ [Chan.new j.id none] }
  /-- the first page: a cookie and a channel are made and registered, handler.go:277-282; eleven characters encode eight random bytes -/
  | searchFirst (s c j bound r fs n k) (hd : s.down = false) (h : s.conns c = .begun j)
      (hq : ldifCall V genPwLen stats j.o j.p j.b = some (.search bound r)) (hp : searchPlan V (cfgAt cfg loop c) bound r = .inr fs)
      (hg : pagingOf r = some (n, [])) (hk : k.length = 11) :
      LParStep s { s with conns := setLStage s.conns c (.starting j r fs k s.chans.length), chans := s.chans ++ [Chan.new j.id (some k)],
                          reg := (k, s.chans.length) :: regDrop k s.reg, trace := s.trace ++ [.cookie j.id k] }
  /-- a later page: the cookie is unknown, handler.go:284-287 -/
  | searchUnknown (s c j bound r fs n k) (hd : s.down = false) (h : s.conns c = .begun j)
      (hq : ldifCall V genPwLen stats j.o j.p j.b = some (.search bound r)) (hp : searchPlan V (cfgAt cfg loop c) bound r = .inr fs)
      (hg : pagingOf r = some (n, k)) (hk : k ≠ []) (hr : regGet k s.reg = none) :
      LParStep s { s with conns := setLStage s.conns c (.returned j (.search (.ok ⟨[], [], rcUnwillingToPerform, true⟩))) }
  /-- a later page: the cookie is known, handler.go:288-291 -/
  | searchNext (s c j bound r fs n k ch) (hd : s.down = false) (h : s.conns c = .begun j)
      (hq : ldifCall V genPwLen stats j.o j.p j.b = some (.search bound r)) (hp : searchPlan V (cfgAt cfg loop c) bound r = .inr fs)
      (hg : pagingOf r = some (n, k)) (hk : k ≠ []) (hr : regGet k s.reg = some ch) (hn : n > 0) :
      LParStep s { s with conns := setLStage s.conns c (enterLoop j r k ch) }
  /-- page size 0 with a known cookie, handler.go:292-295 -/
  | searchAbandon (s c j bound r fs k ch) (hd : s.down = false) (h : s.conns c = .begun j)
      (hq : ldifCall V genPwLen stats j.o j.p j.b = some (.search bound r)) (hp : searchPlan V (cfgAt cfg loop c) bound r = .inr fs)
      (hg : pagingOf r = some (0, k)) (hk : k ≠ []) (hr : regGet k s.reg = some ch) :
      LParStep s { s with conns := setLStage s.conns c (.dropping j r k) }
  /-- it removes the cookie, handler.go:296 -/
  | drop (s c j r k) (hd : s.down = false) (h : s.conns c = .dropping j r k) :
      LParStep s { s with conns := setLStage s.conns c (enterNil j r), reg := regDrop k s.reg }
  /-- the data is loaded and the producer started, handler.go:302-305 -/
  | begin (s c j r fs k ch x) (hd : s.down = false) (h : s.conns c = .starting j r fs k ch) (hch : s.chans[ch]? = some x) :
      LParStep s { s with conns := setLStage s.conns c (enterLoop j r k ch),
                          chans := s.chans.set ch (x.begin (pump V.C W s.main (V.C.lower r.baseDN) fs)) }
  /-- an entry passes through a channel, handler.go:331 and 423 -/
  | hand (s c j r k ch con x e es) (hd : s.down = false) (h : s.conns c = .receiving j r k ch con) (hch : s.chans[ch]? = some x)
      (ho : x.phase = .offering) (ht : x.todo = e :: es) :
      LParStep s { s with conns := setLStage s.conns c (takeEntry V j r k ch con e),
                          chans := s.chans.set ch { x with todo := es, out := x.out ++ [(j.id, e)] } }
  /-- a handler sees that the channel is closed, handler.go:331-335 -/
  | closed (s c j r k ch con x) (hd : s.down = false) (h : s.conns c = .receiving j r k ch con) (hch : s.chans[ch]? = some x)
      (ho : x.phase = .ended) :
      LParStep s { s with conns := setLStage s.conns c (.returned j (.search (pageReply r k true (ldifFin con)))) }
  /-- a producer has handed over everything -/
  | finish (s ch x) (hd : s.down = false) (hch : s.chans[ch]? = some x) (ho : x.phase = .offering) (ht : x.todo = []) :
      LParStep s { s with chans := s.chans.set ch { x with phase := .removing } }
  /-- nobody has taken the entry for a minute, or the server shuts down, handler.go:424-437 -/
  | giveUp (s ch x) (hd : s.down = false) (hch : s.chans[ch]? = some x) (ho : x.phase = .offering) (ht : x.todo ≠ []) :
      LParStep s { s with chans := s.chans.set ch { x with phase := .removing, gaveUp := true }, trace := s.trace ++ [.gaveUp x.owner] }
  /-- a producer removes its cookie, handler.go:412-413 -/
  | remove (s ch x) (hd : s.down = false) (hch : s.chans[ch]? = some x) (ho : x.phase = .removing) :
      LParStep s { s with chans := s.chans.set ch { x with phase := .closing },
                          reg := match x.cookie with | some k => regDrop k s.reg | none => s.reg }
  /-- a producer closes its channel, handler.go:414 and 417 -/
  | close (s ch x) (hd : s.down = false) (hch : s.chans[ch]? = some x) (ho : x.phase = .closing) :
      LParStep s { s with chans := s.chans.set ch { x with phase := .ended } }
  /-- `Reload` of the middleware has loaded the config file, middleware.go:122-126 and 68-98; a failure changes nothing -/
  | reloadConf (s recs m) (hd : s.down = false) (hc : cfg.conf = true) (hr : s.reloading = false)
      (hm : openLdif V cfg (V.C.lower cfg.optBase) recs = some m) :
      LParStep s { s with conf := m, reloading := true, trace := s.trace ++ [.conf m] }
  /-- `Reload` of the main handler has loaded the files, handler.go:166-168 and 89-148 -/
  | reloadMain (s recs m) (hd : s.down = false) (hr : s.reloading = cfg.conf) (hm : openLdif V cfg cfg.base recs = some m) :
      LParStep s { s with main := m, reloading := false, trace := s.trace ++ [.main m] }
  /-- `Reload` of the main handler fails -/
  | reloadFail (s recs) (hd : s.down = false) (hr : s.reloading = true) (hm : openLdif V cfg cfg.base recs = none) :
      LParStep s { s with reloading := false }
  /-- the responses are sent and the connection goes on -/
  | goOn (s c j rep b') (hd : s.down = false) (h : s.conns c = .returned j rep)
      (hn : (ldifEnd V genPwLen stats j.o j.p j.b rep).2 = .go b') :
      LParStep s { s with conns := setLStage s.conns c (.ready b'),
                          trace := s.trace ++ [.io (.answer j.id (ldifEnd V genPwLen stats j.o j.p j.b rep).1)] }
  /-- the responses are sent and the connection is closed -/
  | hangUp (s c j rep) (hd : s.down = false) (h : s.conns c = .returned j rep)
      (hn : (ldifEnd V genPwLen stats j.o j.p j.b rep).2 = .closed) :
      LParStep s { s with conns := setLStage s.conns c .over,
                          trace := s.trace ++ [.io (.answer j.id (ldifEnd V genPwLen stats j.o j.p j.b rep).1)] }
  /-- the client is gone: a write fails after `k` responses, and the connection is closed; see `ParStep.lost` -/
  | lost (s c j rep k) (hd : s.down = false) (h : s.conns c = .returned j rep) (hk : k < (ldifEnd V genPwLen stats j.o j.p j.b rep).1.length) :
      LParStep s { s with conns := setLStage s.conns c .over,
                          trace := s.trace ++ [.io (.cut j.id ((ldifEnd V genPwLen stats j.o j.p j.b rep).1.take k))] }
  /-- the goroutine blocks for ever -/
  | block (s c j rep) (hd : s.down = false) (h : s.conns c = .returned j rep)
      (hn : (ldifEnd V genPwLen stats j.o j.p j.b rep).2 = .hang) :
      LParStep s { s with conns := setLStage s.conns c .over,
                          trace := s.trace ++ [.io (.cut j.id (ldifEnd V genPwLen stats j.o j.p j.b rep).1)] }
  /-- a panic ends the process -/
  | crash (s c j rep) (hd : s.down = false) (h : s.conns c = .returned j rep)
      (hn : (ldifEnd V genPwLen stats j.o j.p j.b rep).2 = .crash) :
      LParStep s { s with down := true, trace := s.trace ++ [.io (.cut j.id (ldifEnd V genPwLen stats j.o j.p j.b rep).1)] }

/-- States reachable from the start. -/
inductive LParReach {ι : Type} (m c : LMem) : LPar ι → Prop
  | start : LParReach m c (LPar.start m c)
  | step (s s') : LParReach m c s → LParStep V W cfg genPwLen stats loop s s' → LParReach m c s'

end
end Idm
