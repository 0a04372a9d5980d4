import Verif.Spec.Wire
import Verif.Spec.Search
import Verif.Model.BoltHandler
import Verif.Model.World
import Verif.Model.GobInstance
/-!
# A concrete environment and server, for examples
-/
namespace Idm

/-- Context-tagged strings with one-byte tags and lengths, at most `n`. -/
def berLiteKids : Nat → Str → List Packet
  | n + 1, t :: l :: rest => ctxStr (t.toNat % 32) (rest.take l.toNat) :: berLiteKids n (rest.drop l.toNat)
  | _, _ => []

/-- A decoder for short sequences of context-tagged strings. -/
def berLite : Str → Option Packet
  | 48 :: _ :: rest => some (wSeq (berLiteKids rest.length rest))
  | _ => none

/-- ASCII case folding, the toy password hash, controls that are all unknown. -/
def toyEnv : Env := ⟨asciiCase, toyCrypto, fun _ => .ok (.other []), berLite⟩

/-- Base `dc=lg`, administrator `uid=admin,dc=lg`, anonymous bind allowed. -/
def toyCfg : BoltCfg := ⟨b!"dc=lg", b!"uid=admin,dc=lg", true, b!"dc=lg"⟩

/-- The entries loaded in the beginning. -/
def toyOps : List Op :=
  [.add ⟨b!"dc=lg", [⟨b!"dc", [b!"lg"]⟩]⟩,
   .add ⟨b!"uid=admin,dc=lg", [⟨b!"uid", [b!"admin"]⟩, ⟨b!"userPassword", [b!"secret"]⟩]⟩,
   .add ⟨b!"uid=Ann,dc=lg", [⟨b!"uid", [b!"Ann"]⟩, ⟨b!"mail", [b!"a@lg"]⟩, ⟨b!"userPassword", [b!"{ARGON2}$argon2id$pw"]⟩]⟩]

def toyBase : DN := [[⟨b!"dc", b!"lg"⟩]]

/-- The database with these entries. -/
def toyDb : Db := (boltRun asciiCase gobInstance (validatePw asciiCase toyCrypto) b!"dc=lg" Db.empty toyOps).2

/-- The server, with metrics off. -/
def toySrv : Srv Db := boltSrv toyEnv gobInstance toyCfg 8 false

/-- Random numbers 0, 1, 2, .... -/
def toyOracle : Oracle := ⟨fun i => some i, []⟩

/-- A client's request on the toy server. -/
def toyReq (bound : Str) (req : Packet) : Out Db := handlePacket toyEnv toySrv toyOracle (wMsg 7 req) bound toyDb

example : newBoltCfg asciiCase b!"DC=lg" b!"UID=Admin,dc=lg" true = some toyCfg := by decide +kernel
example : (toyReq [] (wBind b!"uid=ann,dc=LG" b!"pw")).next = .go b!"uid=ann,dc=lg" ∧
    (toyReq [] (wBind b!"uid=ann,dc=LG" b!"pw")).resps = [.result 7 1 0] := by decide +kernel
example : (toyReq [] (wSearch b!"dc=lg" 2 0 (ctxStr 7 b!"mail") [b!"mail"])).resps =
    [.entry 7 ⟨b!"uid=Ann,dc=lg", [⟨b!"mail", [b!"a@lg"]⟩]⟩, .searchDone 7 0 (some [])] := by decide +kernel
example : (toyReq b!"uid=ann,dc=lg" (wPwModify ([48, 5, 130, 3] ++ b!"new"))).resps = [.extended 7 0 b!"1.3.6.1.4.1.4203.1.11.1" none] := by
  decide +kernel

end Idm
