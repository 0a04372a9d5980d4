import Verif.Model.Parallel
import Verif.Spec.Session
/-!
# Specification: overlapping requests are answered as in some order one after the other
-/
namespace Idm

/-- `a` comes before `b` in the order. -/
def Precedes {ι : Type} (order : List (ι × Ev)) (a b : ι) : Prop :=
  ∃ l₁ ea l₂ eb l₃, order = l₁ ++ (a, ea) :: (l₂ ++ (b, eb) :: l₃)

/-- `order` puts packets one after the other such that the server that treats them one at a time (`World.run`), starting with the
database `db`,
* ends with the database that the concurrent server `s` has on disk,
* has sent the same responses to every packet that `s` has answered,
* has sent responses that begin with those that `s` has sent to each packet whose answer ended early in `s`, as to any packet that is
  answered; unless it is a packet that crashes the server or blocks its connection after these responses, at some point of the order,
* and has the same identity on every connection on which `s` waits for a packet.
The order contains no packet twice and only packets that arrived, and a packet answered before another one arrived comes before it. -/
structure OneByOne {ι : Type} (V : Env) (srv : Srv Db) (db : Db) (s : Par ι) (order : List (ι × Ev)) : Prop where
  disk : ((World.init db).run V srv (order.map (·.2))).1.st = s.disk
  answers : ∀ id rs, Seen.answer id rs ∈ s.trace → ∃ (i : Nat) (e : Ev), order[i]? = some (id, e) ∧
    ((World.init db).run V srv (order.map (·.2))).2[i]? = some (e, rs)
  cuts : ∀ id rs, Seen.cut id rs ∈ s.trace →
    (∃ (i : Nat) (e : Ev) (all : List Resp), order[i]? = some (id, e) ∧
      ((World.init db).run V srv (order.map (·.2))).2[i]? = some (e, all) ∧ rs <+: all) ∨
    ∃ c p o k b, Seen.arrive id (.packet c p o) ∈ s.trace ∧
      ((World.init db).run V srv ((order.take k).map (·.2))).1.conn c = some b ∧
      rs <+: (handlePacket V srv o p b ((World.init db).run V srv ((order.take k).map (·.2))).1.st).resps ∧
      ((handlePacket V srv o p b ((World.init db).run V srv ((order.take k).map (·.2))).1.st).next = .crash ∨
       (handlePacket V srv o p b ((World.init db).run V srv ((order.take k).map (·.2))).1.st).next = .hang)
  identities : s.down = false → ∀ c b, s.conns c = .ready b → ((World.init db).run V srv (order.map (·.2))).1.conn c = some b
  once : (order.map (·.1)).Nodup
  arrived : ∀ id e, (id, e) ∈ order → Seen.arrive id e ∈ s.trace
  realTime : ∀ t₁ b e t₂, s.trace = t₁ ++ Seen.arrive b e :: t₂ → ∀ a rs, Seen.answer a rs ∈ t₁ →
    b ∈ order.map (·.1) → Precedes order a b

/-- The request a goroutine is working on. -/
def Stage.job {ι : Type} : Stage ι → Option (Job ι)
  | .ready _ => none
  | .begun j => some j
  | .reading j _ _ => some j
  | .writing j _ _ => some j
  | .returned j _ => some j
  | .over => none

/-- The identity of an open connection. -/
def Stage.identity {ι : Type} : Stage ι → Option Str
  | .ready b => some b
  | .begun j => some j.b
  | .reading j _ _ => some j.b
  | .writing j _ _ => some j.b
  | .returned j _ => some j.b
  | .over => none

/-- As far as clients have seen, `b` is who connection `c` is bound as: the normalised name of the last bind on `c` that was answered with
success, or nobody if there was none. -/
def LastBind {ι : Type} (C : CaseEnv) (c : Nat) (seen : List (Seen ι)) (b : Str) : Prop :=
  (b = [] ∧ ∀ id p o rs, .arrive id (.packet c p o) ∈ seen → .answer id rs ∈ seen → ¬ BindOk rs) ∨
  ∃ t₁ id rs t₂ p o dn, seen = t₁ ++ .answer id rs :: t₂ ∧ .arrive id (.packet c p o) ∈ t₁ ∧ BindOk rs ∧ BindName p dn ∧
    parseNormalize C dn = some b ∧
    ∀ id' p' o' rs', .arrive id' (.packet c p' o') ∈ seen → .answer id' rs' ∈ t₂ → ¬ BindOk rs'

/-- Some number of steps. -/
inductive ParSteps {ι : Type} (V : Env) (G : GobEnv) (cfg : BoltCfg) (genPwLen : Nat) (stats : Bool) : Par ι → Par ι → Prop
  | refl (s) : ParSteps V G cfg genPwLen stats s s
  | step (s s' s'') : ParStep V G cfg genPwLen stats s s' → ParSteps V G cfg genPwLen stats s' s'' → ParSteps V G cfg genPwLen stats s s''

/-- The request can be answered: the goroutines can go on, without another packet having to arrive and without another answer being
sent, such that the responses to this request are sent. Or the request is one that crashes the server or blocks its connection even when
it is alone, on a database that the server had. -/
def Answerable {ι : Type} (V : Env) (G : GobEnv) (cfg : BoltCfg) (genPwLen : Nat) (stats : Bool) (db : Db) (s : Par ι) (j : Job ι) : Prop :=
  (∃ s' rs, ParSteps V G cfg genPwLen stats s s' ∧ s'.trace = s.trace ++ [.answer j.id rs]) ∨
  ∃ s₁ : Par ι, ParReach V G cfg genPwLen stats db s₁ ∧
    ((handlePacket V (boltSrv V G cfg genPwLen stats) j.o j.p j.b s₁.disk).next = .crash ∨
     (handlePacket V (boltSrv V G cfg genPwLen stats) j.o j.p j.b s₁.disk).next = .hang)

end Idm
