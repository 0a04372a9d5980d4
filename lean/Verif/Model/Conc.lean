import Verif.Model.Bolt
import Verif.Spec.Directory
/-!
# Concurrent clients on one bbolt database, and crashes

Every connection is served by its own goroutine (`/repo/pkg/ldapserver/server.go:204`), all of which use the same `*bolt.DB`. Each
store call makes at most one transaction: `db.View` in `Search` (ldbbolt.go:109), `db.Update` in `EntryPut` (194), `EntryDelete` (233),
`EntryModify` (287), `EntryModifyDN` (330) and `UpdatePassword` (390).

Modelled of bbolt: a read transaction works on the version committed last when it begins; read/write transactions exclude each other by
a lock that is held from begin to commit or roll-back; writes of a transaction go to a private copy that becomes the committed version
in one atomic step at commit. A crash loses all but the committed version.
-/
namespace Idm

/-- A store call with result type `ρ`. -/
inductive Call (ρ : Type) where
  /-- answered without touching the database (e.g. a malformed DN) -/
  | direct (r : Res ρ)
  /-- `db.View` -/
  | read (p : Prog ρ)
  /-- `db.Update` -/
  | write (p : Prog ρ)

/-- The call executed alone, from begin to end. -/
def Call.exec {ρ : Type} (c : Call ρ) (db : Db) : Res ρ × Db :=
  match c with
  | .direct r => (r, db)
  | .read p => (view p db, db)
  | .write p => update p db

/-- What a goroutine is doing. `ι` identifies requests. -/
inductive Thread (ι ρ : Type) where
  | idle
  /-- the request was read, no transaction begun yet -/
  | invoked (id : ι) (c : Call ρ)
  /-- in a read transaction on a snapshot -/
  | reading (id : ι) (rest : Prog ρ) (snapshot : Db)
  /-- in a read/write transaction with private copy -/
  | writing (id : ι) (rest : Prog ρ) (copy : Db)
  /-- the call has returned, the response is not sent yet -/
  | returned (id : ι) (r : Res ρ)

/-- Observable events. -/
inductive Event (ι ρ : Type) where
  | invoke (id : ι) (c : Call ρ)
  | respond (id : ι) (r : Res ρ)

/-- The process: the committed version on disk, the writer lock, the goroutines, the events so far. -/
structure Proc (τ ι ρ : Type) where
  disk : Db
  lock : Option τ
  threads : τ → Thread ι ρ
  trace : List (Event ι ρ)

/-- Set one thread. -/
def setThread {τ ι ρ : Type} [DecidableEq τ] (f : τ → Thread ι ρ) (t : τ) (x : Thread ι ρ) : τ → Thread ι ρ :=
  fun u => if u = t then x else f u

/-- One statement of a transaction body. -/
inductive Instr {ρ : Type} : Prog ρ × Db → Prog ρ × Db → Prop
  | get (b k c db) : Instr (.get b k c, db) (c (db.tbl b k), db)
  | put (b k v c db) (h : ¬ (k = [] ∨ k.length > maxKeySize)) : Instr (.put b k v c, db) (c, db.set b k (some v))
  | putErr (b k v c db) (h : k = [] ∨ k.length > maxKeySize) : Instr (.put b k v c, db) (.fail .other, db)
  | del (b k c db) : Instr (.del b k c, db) (c, db.set b k none)
  | seq (c db) : Instr (.nextSeq c, db) (c ((db.seq + 1) % 2 ^ 64), { db with seq := (db.seq + 1) % 2 ^ 64 })

/-- The outcome of a transaction body that has ended. -/
def Prog.outcome {ρ : Type} : Prog ρ → Option (Res ρ)
  | .ret a => some (.ok a)
  | .fail e => some (.err e)
  | .panic => some .panic
  | _ => none

/-- One step of one goroutine. -/
inductive Step {τ ι ρ : Type} [DecidableEq τ] : Proc τ ι ρ → Proc τ ι ρ → Prop
  /-- a request with a new id arrives -/
  | invoke (s t id c) (h : s.threads t = .idle) (hnew : ∀ c', Event.invoke id c' ∉ s.trace) :
      Step s { s with threads := setThread s.threads t (.invoked id c), trace := s.trace ++ [.invoke id c] }
  | direct (s t id r) (h : s.threads t = .invoked id (.direct r)) :
      Step s { s with threads := setThread s.threads t (.returned id r) }
  | beginRead (s t id p) (h : s.threads t = .invoked id (.read p)) :
      Step s { s with threads := setThread s.threads t (.reading id p s.disk) }
  | beginWrite (s t id p) (h : s.threads t = .invoked id (.write p)) (hl : s.lock = none) :
      Step s { s with lock := some t, threads := setThread s.threads t (.writing id p s.disk) }
  | stepRead (s t id p d q) (h : s.threads t = .reading id p d) (hi : Instr (p, d) q) :
      Step s { s with threads := setThread s.threads t (.reading id q.1 q.2) }
  | stepWrite (s t id p d q) (h : s.threads t = .writing id p d) (hi : Instr (p, d) q) :
      Step s { s with threads := setThread s.threads t (.writing id q.1 q.2) }
  | endRead (s t id p d r) (h : s.threads t = .reading id p d) (ho : p.outcome = some r) :
      Step s { s with threads := setThread s.threads t (.returned id r) }
  | commit (s t id a d) (h : s.threads t = .writing id (.ret a) d) :
      Step s { s with disk := d, lock := none, threads := setThread s.threads t (.returned id (.ok a)) }
  | rollback (s t id p d r) (h : s.threads t = .writing id p d) (ho : p.outcome = some r) (hr : ∀ a, r ≠ .ok a) :
      Step s { s with lock := none, threads := setThread s.threads t (.returned id r) }
  | respond (s t id r) (h : s.threads t = .returned id r) :
      Step s { s with threads := setThread s.threads t .idle, trace := s.trace ++ [.respond id r] }

/-- The process after start on a database file. -/
def Proc.start {τ ι ρ : Type} (db : Db) : Proc τ ι ρ := ⟨db, none, fun _ => .idle, []⟩

/-- States reachable from the start. -/
inductive Reach {τ ι ρ : Type} [DecidableEq τ] (db : Db) : Proc τ ι ρ → Prop
  | start : Reach db (Proc.start db)
  | step (s s' : Proc τ ι ρ) : Reach db s → Step s s' → Reach db s'

/-! ## The calls of the store -/

/-- Results of store calls. -/
inductive Reply where
  | unit
  | entries (es : List Entry) (e : Option Err)
  deriving DecidableEq, Repr

/-- A request to the store: a mutating call or a search. -/
inductive StoreReq where
  | op (o : Op)
  | search (base : Str) (scope : Nat)
  deriving DecidableEq, Repr

/-- `EntryPut`, ldbbolt.go:175-220, as a call: the checks outside the transaction, then the transaction. -/
def callAdd (C : CaseEnv) (G : GobEnv) (base : Str) (e : Entry) : Call Unit :=
  match entryPutDN C e.dn with
  | none => .direct .panic
  | some [] => .direct .panic
  | some (r :: rest) =>
    if !hasSuffix (normalize C (r :: rest)) base then .direct (.err .other)
    else .write (entryPutBody G base (normalize C (r :: rest)) (normalize C rest) e)

/-- `EntryDelete`, ldbbolt.go:222-280. -/
def callDelete (C : CaseEnv) (dn : Str) : Call Unit :=
  match parseDN C dn with
  | none => .direct (.err .other)
  | some [] => .direct .panic
  | some (r :: rest) => .write (entryDeleteBody (normalize C (r :: rest)) (normalize C rest))

/-- `EntryModify`, ldbbolt.go:282-295. -/
def callModify (C : CaseEnv) (G : GobEnv) (dn : Str) (changes : List Change) : Call Unit :=
  match parseNormalize C dn with
  | none => .direct (.err .other)
  | some nDN => .write (do
      let (e, id) ← getEntryByDN G nDN
      entryModifyWithTxn C G id e dn changes)

/-- `EntryModifyDN`, ldbbolt.go:314-382. -/
def callRename (C : CaseEnv) (G : GobEnv) (req : ModifyDNReq) : Call Unit :=
  match parseDN C req.dn with
  | none => .direct (.err .other)
  | some old =>
    match parseDN C req.newRDN with
    | none => .direct (.err .other)
    | some [] => .direct .panic
    | some (newRDN :: _) =>
      match old with
      | [] => .direct .panic
      | oldRDN :: rest =>
        .write (entryModifyDNBody C G (normalize C (oldRDN :: rest)) (normalize C (newRDN :: rest))
          (renameChanges oldRDN newRDN req.deleteOldRDN))

/-- `UpdatePassword`, ldbbolt.go:384-426. -/
def callPassword (C : CaseEnv) (G : GobEnv) (validate : Str → Str → Res Bool) (req : PwModReq) : Call Unit :=
  match parseNormalize C req.userIdentity with
  | none => .direct (.err .other)
  | some nDN => .write (updatePasswordBody C G validate nDN req)

/-- A mutating call. -/
def callOp (C : CaseEnv) (G : GobEnv) (validate : Str → Str → Res Bool) (base : Str) : Op → Call Unit
  | .add e => callAdd C G base e
  | .delete dn => callDelete C dn
  | .modify dn cs => callModify C G dn cs
  | .rename req => callRename C G req
  | .password req => callPassword C G validate req

/-- `Search`, ldbbolt.go:102-134. `fuel` bounds the recursion depth. -/
def callSearch (C : CaseEnv) (G : GobEnv) (fuel : Nat) (base : Str) (scope : Nat) : Call (List Entry × Option Err) :=
  match parseNormalize C base with
  | none => .direct (.ok ([], some .other))
  | some nDN => .read (searchBody G fuel nDN scope)

/-- Map the result of a call. -/
def Call.map {α β : Type} (f : α → β) : Call α → Call β
  | .direct r => .direct (r >>= fun a => .ok (f a))
  | .read p => .read (p.bind fun a => .ret (f a))
  | .write p => .write (p.bind fun a => .ret (f a))

/-- A request as a call. -/
def callReq (C : CaseEnv) (G : GobEnv) (validate : Str → Str → Res Bool) (base : Str) (fuel : Nat) : StoreReq → Call Reply
  | .op o => (callOp C G validate base o).map fun _ => .unit
  | .search b scope => (callSearch C G fuel b scope).map fun r => .entries r.1 r.2

end Idm
