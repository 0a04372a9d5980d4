import Verif.Spec.Toy
import Verif.Spec.Session
import Verif.Proofs.BoltServer
/-!
# Who may read the directory of the BoltDB server
-/
namespace Idm

section
variable {V : Env} {G : GobEnv}

/-- C104: the answer to a search does not depend on who asks, nor on who is administrator or whether anonymous binds are allowed: any two
clients of two servers with the same data, whatever their settings, get the same responses to the same search request, well-formed or not.
In particular a client that has never bound gets everything the administrator gets. -/
theorem C104_same_for_all_partial (cfg cfg' : BoltCfg) (n n' : Nat) (stats stats' : Bool) (o o' : Oracle) {p : Packet} {id : Int} {req : Packet}
    (hm : Message p id req) (ht : req.tag = 3) (bound bound' : Str) (db : Db) :
    let out := handlePacket V (boltSrv V G cfg n stats) o p bound db
    let out' := handlePacket V (boltSrv V G cfg' n' stats') o' p bound' db
    out.resps = out'.resps ∧ out.st = db ∧ out'.st = db ∧ (out.next = .go bound ↔ out'.next = .go bound') := by
  obtain ⟨m, more, hk, hv, hc⟩ := hm
  have hs : ∀ cs, handleSearch V (boltSrv V G cfg n stats) bound req cs db = handleSearch V (boltSrv V G cfg' n' stats') bound' req cs db := fun _ => rfl
  have hst : ∀ cs, (handleSearch V (boltSrv V G cfg' n' stats') bound' req cs db).2 = db := fun cs => handleSearch_st bound' req cs db
  have hid : m.int? = some id := by simp [Packet.int?, hv]
  dsimp only
  unfold handlePacket
  simp only [hk, hid, hc, ht, ne_eq, not_true_eq_false, if_false]
  rcases decodeControls V ((more.head?.map Packet.kids).getD []) with cs | _ | _ | _
  · show (stepSearch V (boltSrv V G cfg n stats) id bound req cs db).resps = (stepSearch V (boltSrv V G cfg' n' stats') id bound' req cs db).resps ∧
      (stepSearch V (boltSrv V G cfg n stats) id bound req cs db).st = db ∧
      (stepSearch V (boltSrv V G cfg' n' stats') id bound' req cs db).st = db ∧
      ((stepSearch V (boltSrv V G cfg n stats) id bound req cs db).next = .go bound ↔
        (stepSearch V (boltSrv V G cfg' n' stats') id bound' req cs db).next = .go bound')
    unfold stepSearch
    rw [hs cs]
    have := hst cs
    generalize handleSearch V (boltSrv V G cfg' n' stats') bound' req cs db = z at this ⊢
    obtain ⟨⟨before, res⟩, st'⟩ := z
    change st' = db at this
    subst this
    cases res with
    | ok out =>
      dsimp only
      cases out.failed <;> simp [boltSrv]
    | _ => simp
  all_goals simp

end

/-- C104: a client that has not bound reads the whole directory, also when anonymous binds are not allowed. -/
theorem C104_anonymous_fails :
    let srv := boltSrv toyEnv gobInstance { toyCfg with anon := false } 8 false
    (handlePacket toyEnv srv toyOracle (wMsg 1 (wBind [] [])) [] toyDb).resps = [.result 1 1 49] ∧
    (handlePacket toyEnv srv toyOracle (wMsg 2 (wSearch b!"dc=lg" 2 0 (ctxStr 7 b!"mail") [b!"mail"])) [] toyDb).resps =
      [.entry 2 ⟨b!"uid=Ann,dc=lg", [⟨b!"mail", [b!"a@lg"]⟩]⟩, .searchDone 2 0 (some [])] := by
  decide +kernel

/-- C104: and so are the password hashes of all users. -/
theorem C104_password_fails :
    let srv := boltSrv toyEnv gobInstance { toyCfg with anon := false } 8 false
    (handlePacket toyEnv srv toyOracle (wMsg 1 (wSearch b!"dc=lg" 2 0 (ctxStr 7 b!"userPassword") [b!"userPassword"])) [] toyDb).resps =
      [.entry 1 ⟨b!"uid=admin,dc=lg", [⟨b!"userPassword", [b!"secret"]⟩]⟩,
       .entry 1 ⟨b!"uid=Ann,dc=lg", [⟨b!"userPassword", [b!"{ARGON2}$argon2id$pw"]⟩]⟩, .searchDone 1 0 (some [])] := by
  decide +kernel

/-- Instances of the hypotheses of C104. -/
example : Message (wMsg 7 (wSearch b!"dc=lg" 2 0 (ctxStr 7 b!"mail") [b!"mail"])) 7 (wSearch b!"dc=lg" 2 0 (ctxStr 7 b!"mail") [b!"mail"]) ∧
    (wSearch b!"dc=lg" 2 0 (ctxStr 7 b!"mail") [b!"mail"]).tag = 3 := ⟨⟨_, _, rfl, rfl, rfl⟩, rfl⟩

end Idm
