import Verif.Model.BoltHandler
import Verif.Model.World
import Verif.Model.Conc
/-!
# The BoltDB server with overlapping requests

Every connection is served by its own goroutine (/repo/pkg/ldapserver/server.go:204-208), which treats the packets of the connection one
after the other (`handleConnection`, server.go:213-439). All goroutines share one `*bolt.DB`. While `Model/World` treats a packet in one
step, here the goroutines run side by side, and their transactions are interleaved statement by statement (see `Model/Conc` for what
is modelled of bbolt).

Where a handler calls the store is found by running the packet with handlers that note the call they make instead of making it, and
that go on with a given answer (`recordSrv`). `Proofs/Parallel` shows that this is what the handlers of `Model/BoltHandler` do.
-/
namespace Idm

/-- An answer of the store to a mutating call. -/
def repUnit (r : Res Reply) : Res Unit := r >>= fun _ => .ok ()

/-- An answer of the store to a search. -/
def repEntries (r : Res Reply) : Res (List Entry × Option Err) := r >>= fun x =>
  match x with
  | .entries es e => .ok (es, e)
  | .unit => .ok ([], none)

section
variable (V : Env) (cfg : BoltCfg) (rep : Res Reply)

/-- `Add`, handler.go:92-113, with the call noted. -/
def recAdd (bound : Str) (r : AddReq) : Act (Option StoreReq) (Nat × Bool) := fun s =>
  if !writeAllowed cfg bound then (.ok (rcInsufficientAccessRights, false), s)
  else (storeCode (repUnit rep), some (.op (.add (entryFromAddRequest r.dn r.attrs))))

/-- `Delete`, handler.go:177-198. -/
def recDelete (bound dn : Str) : Act (Option StoreReq) (Nat × Bool) := fun s =>
  if !writeAllowed cfg bound then (.ok (rcInsufficientAccessRights, false), s)
  else (storeCode (repUnit rep), some (.op (.delete dn)))

/-- `Modify`, handler.go:200-226. -/
def recModify (bound : Str) (r : ModifyReq) : Act (Option StoreReq) (Nat × Bool) := fun s =>
  if !writeAllowed cfg bound then (.ok (rcInsufficientAccessRights, false), s)
  else (storeCodeLdap (repUnit rep), some (.op (.modify r.dn r.changes)))

/-- `ModifyDN`, handler.go:228-254. -/
def recModifyDN (bound : Str) (r : ModifyDNReq) : Act (Option StoreReq) (Nat × Bool) := fun s =>
  if !writeAllowed cfg bound then (.ok (rcInsufficientAccessRights, false), s)
  else (storeCodeLdap (repUnit rep), some (.op (.rename r)))

/-- `ModifyPasswordExop`, handler.go:256-286. -/
def recPwExop (bound : Str) (r : PwModReq) : Act (Option StoreReq) (Nat × Bool) := fun s =>
  let go : Res (Nat × Bool) × Option StoreReq :=
    (match repUnit rep with
      | .ok _ => .ok (rcSuccess, false)
      | .err _ => .ok (rcOther, true)
      | .panic => .panic
      | .hang => .hang, some (.op (.password r)))
  if bound = [] then (.ok (rcInsufficientAccessRights, false), s)
  else if r.userIdentity ≠ [] then
    match parseNormalize V.C r.userIdentity with
    | none => (.ok (rcOperationsError, true), s)
    | some user => if bound ≠ user ∧ bound ≠ cfg.admin then (.ok (rcInsufficientAccessRights, false), s) else go
  else go

/-- `Bind` and `validatePassword`, handler.go:115-175. -/
def recBind (bindDN pw : Str) : Act (Option StoreReq) (Nat × Bool) := fun s =>
  if bindDN = [] ∧ cfg.anon = false then (.ok (rcInvalidCredentials, false), s)
  else if bindDN = [] ∧ pw = [] then (.ok (rcSuccess, false), s)
  else match parseNormalize V.C bindDN with
    | none => (.ok (rcInvalidDNSyntax, false), s)
    | some n =>
      if !hasSuffix n cfg.base then (.ok (rcInvalidCredentials, false), s)
      else if pw = [] then (.ok (rcInvalidCredentials, false), s)
      else (match repEntries rep with
        | .ok ([e], none) => match validatePw V.C V.K pw (getVal V.C e.attrs sUserPassword) with
          | .ok true => .ok (rcSuccess, false)
          | .ok false => .ok (rcInvalidCredentials, false)
          | .err _ => .ok (rcInvalidCredentials, false)
          | .panic => .panic
          | .hang => .hang
        | .ok _ => .ok (rcInvalidCredentials, false)
        | .err _ => .ok (rcInvalidCredentials, false)
        | .panic => .panic
        | .hang => .hang, some (.search n scopeBase))

/-- `Search`, handler.go:288-306. -/
def recSearch (_bound : Str) (r : SearchReq) : Act (Option StoreReq) SearchRes := fun _ =>
  (match repEntries rep with
    | .ok (es, _) => .ok ⟨es, [], rcSuccess, false⟩
    | .err _ => .ok ⟨[], [], rcSuccess, false⟩
    | .panic => .panic
    | .hang => .hang, some (.search r.baseDN (scopeNat r.scope)))

/-- `boltSrv` with the store calls noted and answered by `rep`. -/
def recordSrv (genPwLen : Nat) (stats : Bool) : Srv (Option StoreReq) where
  addFns := [([], recAdd cfg rep)]
  bindFns := [([], recBind V cfg rep)]
  deleteFns := [([], recDelete cfg rep)]
  modifyFns := [([], recModify cfg rep)]
  modifyDNFns := [([], recModifyDN cfg rep)]
  pwExopFns := [([], recPwExop V cfg rep)]
  searchFns := [([], recSearch rep)]
  close := fun _ s => s
  enforce := true
  genPwLen := genPwLen
  stats := stats

end

/-- What a goroutine does for a store call: nothing, a read transaction or a read/write transaction. The depth bound of a search is
taken from the version read, as in `boltSearch`. -/
inductive Work where
  | direct (r : Res Reply)
  | read (p : Db → Prog Reply)
  | write (p : Prog Reply)

/-- A call without a depth bound to choose. -/
def Work.ofCall : Call Reply → Work
  | .direct r => .direct r
  | .read p => .read fun _ => p
  | .write p => .write p

/-- The store calls, ldbbolt.go, see `Model/Conc`. A packet that makes no call is answered at once. -/
def workOf (C : CaseEnv) (G : GobEnv) (validate : Str → Str → Res Bool) (base : Str) : Option StoreReq → Work
  | none => .direct (.ok .unit)
  | some (.op o) => .ofCall ((callOp C G validate base o).map fun _ => .unit)
  | some (.search b scope) =>
    match parseNormalize C b with
    | none => .direct (.ok (.entries [] (some .other)))
    | some n => .read fun db => (searchBody G (db.seq + 1) n scope).bind fun r => .ret (.entries r.1 r.2)

section
variable (V : Env) (G : GobEnv) (cfg : BoltCfg) (genPwLen : Nat) (stats : Bool)

/-- The store call a packet leads to on a connection with identity `b`. -/
def packetCall (o : Oracle) (p : Packet) (b : Str) : Option StoreReq :=
  (handlePacket V (recordSrv V cfg (.ok .unit) genPwLen stats) o p b none).st

/-- The work a packet leads to. -/
def packetWork (o : Oracle) (p : Packet) (b : Str) : Work :=
  workOf V.C G (validatePw V.C V.K) cfg.store (packetCall V cfg genPwLen stats o p b)

/-- What is sent, and what becomes of the connection, when the store answers `r`. -/
def packetEnd (o : Oracle) (p : Packet) (b : Str) (r : Res Reply) : List Resp × Next :=
  let out := handlePacket V (recordSrv V cfg r genPwLen stats) o p b none
  (out.resps, out.next)

/-- A packet being treated: its number, the packet and the identity of the connection when it arrived. -/
structure Job (ι : Type) where
  id : ι
  o : Oracle
  p : Packet
  b : Str

/-- What the goroutine of a connection is doing. -/
inductive Stage (ι : Type) where
  /-- waiting for a packet; the identity of the connection -/
  | ready (b : Str)
  /-- the packet was read, no transaction begun yet -/
  | begun (j : Job ι)
  /-- in a read transaction on a snapshot -/
  | reading (j : Job ι) (rest : Prog Reply) (snapshot : Db)
  /-- in a read/write transaction with private copy -/
  | writing (j : Job ι) (rest : Prog Reply) (copy : Db)
  /-- the store has answered, the responses are not sent yet -/
  | returned (j : Job ι) (r : Res Reply)
  /-- the connection is closed, or its goroutine blocked for ever -/
  | over

/-- What can be seen from outside: a packet or the end of a connection is read; the responses to it are all sent; or only the first ones are,
and no more will be. -/
inductive Seen (ι : Type) where
  | arrive (id : ι) (e : Ev)
  | answer (id : ι) (rs : List Resp)
  | cut (id : ι) (rs : List Resp)

/-- The process: the committed version, the writer lock, the goroutines, whether it has crashed, what was seen. -/
structure Par (ι : Type) where
  disk : Db
  lock : Option Nat
  conns : Nat → Stage ι
  down : Bool
  trace : List (Seen ι)

/-- Set the stage of one goroutine. -/
def setStage {ι : Type} (f : Nat → Stage ι) (c : Nat) (x : Stage ι) : Nat → Stage ι := fun d => if d = c then x else f d

/-- The process at the start on a database file; all connections are open. -/
def Par.start {ι : Type} (db : Db) : Par ι := ⟨db, none, fun _ => .ready [], false, []⟩

/-- One step of one goroutine. -/
inductive ParStep {ι : Type} : Par ι → Par ι → Prop
  /-- a packet with a new number arrives -/
  | arrive (s c b id o p) (hd : s.down = false) (h : s.conns c = .ready b) (hnew : ∀ e, Seen.arrive id e ∉ s.trace) :
      ParStep s { s with conns := setStage s.conns c (.begun ⟨id, o, p, b⟩), trace := s.trace ++ [.arrive id (.packet c p o)] }
  /-- the connection ends, server.go:219-232 -/
  | eof (s c b id) (hd : s.down = false) (h : s.conns c = .ready b) (hnew : ∀ e, Seen.arrive id e ∉ s.trace) :
      ParStep s { s with conns := setStage s.conns c .over, trace := s.trace ++ [.arrive id (.eof c), .answer id []] }
  | direct (s c j r) (hd : s.down = false) (h : s.conns c = .begun j)
      (hw : packetWork V G cfg genPwLen stats j.o j.p j.b = .direct r) :
      ParStep s { s with conns := setStage s.conns c (.returned j r) }
  | beginRead (s c j p) (hd : s.down = false) (h : s.conns c = .begun j)
      (hw : packetWork V G cfg genPwLen stats j.o j.p j.b = .read p) :
      ParStep s { s with conns := setStage s.conns c (.reading j (p s.disk) s.disk) }
  | beginWrite (s c j p) (hd : s.down = false) (h : s.conns c = .begun j)
      (hw : packetWork V G cfg genPwLen stats j.o j.p j.b = .write p) (hl : s.lock = none) :
      ParStep s { s with lock := some c, conns := setStage s.conns c (.writing j p s.disk) }
  | stepRead (s c j p d q) (hd : s.down = false) (h : s.conns c = .reading j p d) (hi : Instr (p, d) q) :
      ParStep s { s with conns := setStage s.conns c (.reading j q.1 q.2) }
  | stepWrite (s c j p d q) (hd : s.down = false) (h : s.conns c = .writing j p d) (hi : Instr (p, d) q) :
      ParStep s { s with conns := setStage s.conns c (.writing j q.1 q.2) }
  | endRead (s c j p d r) (hd : s.down = false) (h : s.conns c = .reading j p d) (ho : p.outcome = some r) :
      ParStep s { s with conns := setStage s.conns c (.returned j r) }
  | commit (s c j a d) (hd : s.down = false) (h : s.conns c = .writing j (.ret a) d) :
      ParStep s { s with disk := d, lock := none, conns := setStage s.conns c (.returned j (.ok a)) }
  | rollback (s c j p d r) (hd : s.down = false) (h : s.conns c = .writing j p d) (ho : p.outcome = some r) (hr : ∀ a, r ≠ .ok a) :
      ParStep s { s with lock := none, conns := setStage s.conns c (.returned j r) }
  /-- the responses are sent and the connection goes on -/
  | goOn (s c j r b') (hd : s.down = false) (h : s.conns c = .returned j r)
      (hn : (packetEnd V cfg genPwLen stats j.o j.p j.b r).2 = .go b') :
      ParStep s { s with conns := setStage s.conns c (.ready b'),
                         trace := s.trace ++ [.answer j.id (packetEnd V cfg genPwLen stats j.o j.p j.b r).1] }
  /-- the responses are sent and the connection is closed -/
  | close (s c j r) (hd : s.down = false) (h : s.conns c = .returned j r)
      (hn : (packetEnd V cfg genPwLen stats j.o j.p j.b r).2 = .closed) :
      ParStep s { s with conns := setStage s.conns c .over,
                         trace := s.trace ++ [.answer j.id (packetEnd V cfg genPwLen stats j.o j.p j.b r).1] }
  /-- a response cannot be written because the client is gone, server.go:441-448: the ones before it were sent, and the connection is closed (the
  `break handler` after each call of `sendPacket`, search.go:88-90 and server.go:415-418). After a failed write all later ones fail. -/
  | lost (s c j r k) (hd : s.down = false) (h : s.conns c = .returned j r) (hk : k < (packetEnd V cfg genPwLen stats j.o j.p j.b r).1.length) :
      ParStep s { s with conns := setStage s.conns c .over,
                         trace := s.trace ++ [.cut j.id ((packetEnd V cfg genPwLen stats j.o j.p j.b r).1.take k)] }
  /-- the goroutine blocks for ever -/
  | block (s c j r) (hd : s.down = false) (h : s.conns c = .returned j r)
      (hn : (packetEnd V cfg genPwLen stats j.o j.p j.b r).2 = .hang) :
      ParStep s { s with conns := setStage s.conns c .over, trace := s.trace ++ [.cut j.id (packetEnd V cfg genPwLen stats j.o j.p j.b r).1] }
  /-- a panic ends the process -/
  | crash (s c j r) (hd : s.down = false) (h : s.conns c = .returned j r)
      (hn : (packetEnd V cfg genPwLen stats j.o j.p j.b r).2 = .crash) :
      ParStep s { s with down := true, trace := s.trace ++ [.cut j.id (packetEnd V cfg genPwLen stats j.o j.p j.b r).1] }

/-- States reachable from the start. -/
inductive ParReach {ι : Type} (db : Db) : Par ι → Prop
  | start : ParReach db (Par.start db)
  | step (s s') : ParReach db s → ParStep V G cfg genPwLen stats s s' → ParReach db s'

end
end Idm
