import Verif.Model.Conc
/-!
# Specification: a concurrent execution is explained by a sequential one
-/
namespace Idm

/-- A call executed in a sequential log. -/
structure Done (ι ρ : Type) where
  id : ι
  call : Call ρ
  res : Res ρ

/-- Executing the calls of the log one after the other, each alone, from `db` gives the results in the log and ends in `db'`. -/
def Explains {ι ρ : Type} : Db → List (Done ι ρ) → Db → Prop
  | db, [], db' => db' = db
  | db, e :: log, db' => e.res = (e.call.exec db).1 ∧ Explains (e.call.exec db).2 log db'

/-- `a` comes before `b` in the log. -/
def Before {ι ρ : Type} (log : List (Done ι ρ)) (a b : ι) : Prop :=
  ∃ l₁ ea l₂ eb l₃, log = l₁ ++ ea :: (l₂ ++ eb :: l₃) ∧ ea.id = a ∧ eb.id = b

/-- The log is a sequential execution from `db` that explains the process state `s`:
it ends in the version on disk, contains no request twice and only requests that were made, contains every answered request with the
answer given, and has a request answered before another one arrived before that one. -/
structure Serialises {τ ι ρ : Type} (db : Db) (s : Proc τ ι ρ) (log : List (Done ι ρ)) : Prop where
  explains : Explains db log s.disk
  once : (log.map (·.id)).Nodup
  requested : ∀ e ∈ log, Event.invoke e.id e.call ∈ s.trace
  answered : ∀ id r, Event.respond id r ∈ s.trace → ∃ e ∈ log, e.id = id ∧ e.res = r
  realTime : ∀ t₁ b c t₂, s.trace = t₁ ++ Event.invoke b c :: t₂ → ∀ a r, Event.respond a r ∈ t₁ →
    (∃ e ∈ log, e.id = b) → Before log a b

/-- A store request executed alone: the store function as it stands. -/
def storeExec (C : CaseEnv) (G : GobEnv) (validate : Str → Str → Res Bool) (base : Str) (fuel : Nat) :
    StoreReq → Db → Res Reply × Db
  | .op o, db => ((boltStep C G validate base db o).1 >>= fun _ => .ok .unit, (boltStep C G validate base db o).2)
  | .search b scope, db => (searchFuel C G fuel db b scope >>= fun r => .ok (.entries r.1 r.2), db)

end Idm
