import Verif.Spec.Parallel
import Verif.Spec.BoltServer
import Verif.Spec.WellFormed
/-!
# Specification: what clients were told outlives the process

A server runs on a database file until it ends, is stopped or is killed, and then it is started again, any number of times.
-/
namespace Idm

/-- The message asks for a change of the directory: modify (6), add (8), delete (10), rename (12) or an extended request (23). -/
def AsksForChange (p : Packet) : Prop :=
  ∃ id req, Message p id req ∧ (req.tag = 6 ∨ req.tag = 8 ∨ req.tag = 10 ∨ req.tag = 12 ∨ req.tag = 23)

/-- This is the change the message asks for when a client bound as `bound` sends it: the write request that it is, or the password change,
where the store is given a hash of the new password (of any password if the message has none) and a message without a user name is about the
one who is bound. -/
def AsksFor (V : Env) (bound : Str) (p : Packet) (op : Op) : Prop :=
  ∃ id req, Message p id req ∧
    ((∃ w, IsWrite req w ∧ NamesParse V.C w ∧ op = w.op) ∨
     (req.tag = 23 ∧ ∃ value user old new pw salt hash, IsPwExop req value ∧ PwAsks V value user old new ∧ (new ≠ [] → pw = new) ∧
        hashPw V.K salt pw b!"{ARGON2}" = .ok hash ∧ op = .password ⟨if user = [] then bound else user, old, hash⟩))

/-- One life of the server: how it was configured, and the process at the moment it ended, for whatever reason. -/
structure Life (ι : Type) where
  cfg : BoltCfg
  genPwLen : Nat
  stats : Bool
  proc : Par ι

section
variable {ι : Type}

/-- Each life begins with the file the one before left, and with no connections. All have the same base DN. -/
def Lives (V : Env) (G : GobEnv) (base : Str) : Db → List (Life ι) → Prop
  | _, [] => True
  | db, l :: ls => l.cfg.store = base ∧ ParReach V G l.cfg l.genPwLen l.stats db l.proc ∧ Lives V G base l.proc.disk ls

/-- The file after the last life. -/
def fileAfter : Db → List (Life ι) → Db
  | db, [] => db
  | _, l :: ls => fileAfter l.proc.disk ls

/-- `a` was answered before `b` arrived. -/
def AnsweredBefore (seen : List (Seen ι)) (a b : ι) : Prop :=
  ∃ t₁ e t₂ rs, seen = t₁ ++ Seen.arrive b e :: t₂ ∧ Seen.answer a rs ∈ t₁

/-- A change that was made: in which life, for which request. -/
structure Made (ι : Type) where
  life : Nat
  id : ι
  op : Op

/-- `log` tells what happened to the file:
* the file is what it was in the beginning with the changes of the log made one after the other, each of which succeeded;
* every change was asked for, in the life given, by a request that arrived on a connection where the last successful bind before was by someone
  who may make that change;
* no request is in it twice;
* a request for a change that was answered is in it exactly if the answer was success; so one that was not answered is in it at most once;
* a request is not in it before one that was answered before it arrived, and the lives follow one another. -/
structure ExactlyOnce (V : Env) (G : GobEnv) (base : Str) (db : Db) (lives : List (Life ι)) (log : List (Made ι)) : Prop where
  file : boltRun V.C G (validatePw V.C V.K) base db (log.map (·.op)) = (log.map fun _ => .ok (), fileAfter db lives)
  asked : ∀ x ∈ log, ∃ l t₁ c p o t₂ bound, lives[x.life]? = some l ∧ l.proc.trace = t₁ ++ Seen.arrive x.id (.packet c p o) :: t₂ ∧
    LastBind V.C c t₁ bound ∧ Permitted V.C l.cfg.admin bound x.op ∧ AsksFor V bound p x.op
  once : log.Pairwise fun x y => ¬ (x.life = y.life ∧ x.id = y.id)
  answered : ∀ k l id c p o rs, lives[k]? = some l → Seen.arrive id (.packet c p o) ∈ l.proc.trace → Seen.answer id rs ∈ l.proc.trace →
    AsksForChange p → (Succeeded rs ↔ ∃ x ∈ log, x.life = k ∧ x.id = id)
  inOrder : log.Pairwise fun x y => x.life ≤ y.life ∧
    ∀ l, x.life = y.life → lives[x.life]? = some l → ¬ AnsweredBefore l.proc.trace y.id x.id

/-- In this life the packet `p` arrived on connection `c` as request `id`, and it was answered with `rs`. -/
def Answered (l : Life ι) (id : ι) (c : Nat) (p : Packet) (o : Oracle) (rs : List Resp) : Prop :=
  Seen.arrive id (.packet c p o) ∈ l.proc.trace ∧ Seen.answer id rs ∈ l.proc.trace

/-- The answers that clients got fit the log: a request `id` of life `k` that was answered
* got the answer that it gets from the file with the first `saw k id` changes of the log, when it is alone, from a client bound as the last one on
  its connection who was told so before it arrived;
* all changes that were answered with success before it arrived are among these, also those of earlier lives;
* and no change is that was asked for only after it was answered, nor its own;
* a request that arrived after another one was answered, or in a later life, does not see less than that one. -/
structure AnswersFit (V : Env) (G : GobEnv) (base : Str) (db : Db) (lives : List (Life ι)) (log : List (Made ι)) (saw : Nat → ι → Nat) : Prop where
  answers : ∀ k l id c p o rs, lives[k]? = some l → Answered l id c p o rs → ∃ t₁ t₂ bound,
    l.proc.trace = t₁ ++ Seen.arrive id (.packet c p o) :: t₂ ∧ LastBind V.C c t₁ bound ∧
    rs = (handlePacket V (boltSrv V G l.cfg l.genPwLen l.stats) o p bound
      (boltRun V.C G (validatePw V.C V.K) base db ((log.take (saw k id)).map (·.op))).2).resps
  nothingMissed : ∀ k l id c p o rs, lives[k]? = some l → Answered l id c p o rs → ∀ x ∈ log.drop (saw k id),
    k ≤ x.life ∧ (x.life = k → ¬ AnsweredBefore l.proc.trace x.id id)
  nothingAhead : ∀ k l id c p o rs, lives[k]? = some l → Answered l id c p o rs → ∀ x ∈ log.take (saw k id),
    x.life ≤ k ∧ (x.life = k → x.id ≠ id ∧ ¬ AnsweredBefore l.proc.trace id x.id)
  neverBack : ∀ k l id c p o rs k' l' id' c' p' o' rs', lives[k]? = some l → Answered l id c p o rs → lives[k']? = some l' →
    Answered l' id' c' p' o' rs' → (k < k' ∨ k = k' ∧ AnsweredBefore l.proc.trace id id') → saw k id ≤ saw k' id'

/-- In this life the request `id` arrived, and it asks for the change, from whom its connection was bound as then. -/
def AskedBy (V : Env) (l : Life ι) (id : ι) (op : Op) : Prop :=
  ∃ t₁ c p o t₂ bound, l.proc.trace = t₁ ++ Seen.arrive id (.packet c p o) :: t₂ ∧ LastBind V.C c t₁ bound ∧ AsksFor V bound p op

/-- In one of the lives a request arrived that asks for the change. -/
def Asked (V : Env) (lives : List (Life ι)) (op : Op) : Prop :=
  ∃ l ∈ lives, ∃ id, AskedBy V l id op

/-- In life `k` the request `id`, which is this write, was answered with success. -/
def Acknowledged (lives : List (Life ι)) (k : Nat) (id : ι) (w : Write) : Prop :=
  ∃ l c p o mid req rs, lives[k]? = some l ∧ Seen.arrive id (.packet c p o) ∈ l.proc.trace ∧ Seen.answer id rs ∈ l.proc.trace ∧
    Succeeded rs ∧ Message p mid req ∧ IsWrite req w

/-- The change was asked for in life `k` or later, by another request that was not yet answered when the request `id` of life `k` arrived. -/
def AskedSince (V : Env) (lives : List (Life ι)) (k : Nat) (id : ι) (op : Op) : Prop :=
  ∃ k' l id', k ≤ k' ∧ lives[k']? = some l ∧ AskedBy V l id' op ∧ (k' = k → id' ≠ id ∧ ¬ AnsweredBefore l.proc.trace id' id)

end

/-- In life `k` the request `id` was answered with success: it changes the password of the user called `dn` to `new`. (Without a name in the
request that is the one who was bound when it arrived.) -/
def PasswordSet {ι : Type} (V : Env) (lives : List (Life ι)) (k : Nat) (id : ι) (dn new : Str) : Prop :=
  ∃ l t₁ c p o t₂ bound mid req rs value user old, lives[k]? = some l ∧ l.proc.trace = t₁ ++ Seen.arrive id (.packet c p o) :: t₂ ∧
    LastBind V.C c t₁ bound ∧ Seen.answer id rs ∈ l.proc.trace ∧ Succeeded rs ∧ Message p mid req ∧ req.tag = 23 ∧ IsPwExop req value ∧
    PwAsks V value user old new ∧ dn = if user = [] then bound else user

/-- The change is one of the values of the entry of that name. -/
def Edits (C : CaseEnv) (name : DN) : Op → Prop
  | .modify dn _ => ∃ n, parseDN C dn = some n ∧ foldDN C n = foldDN C name
  | .password r => ∃ n, parseDN C r.userIdentity = some n ∧ foldDN C n = foldDN C name
  | _ => False

/-- The change takes the name away from its entry: deletes it or gives it another name. -/
def TakesAway (C : CaseEnv) (name : DN) : Op → Prop
  | .delete dn => ∃ n, parseDN C dn = some n ∧ foldDN C n = foldDN C name
  | .rename r => ∃ n, parseDN C r.dn = some n ∧ foldDN C n = foldDN C name
  | _ => False

/-- The change gives the name to an entry: adds one of that name, or gives an entry that name. -/
def GivesName (C : CaseEnv) (name : DN) : Op → Prop
  | .add e => ∃ n, parseDN C e.dn = some n ∧ foldDN C n = foldDN C name
  | .rename r => ∃ old parent new more, parseDN C r.dn = some (old :: parent) ∧ parseDN C r.newRDN = some (new :: more) ∧
      foldDN C (new :: parent) = foldDN C name
  | _ => False

end Idm
