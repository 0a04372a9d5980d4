import Verif.Spec.Ldif
import Verif.Spec.Toy
/-!
# A concrete LDIF server, for examples
-/
namespace Idm

/-- The toy environment, with a control of a number and a string for paging. -/
def ldEnv : Env := { toyEnv with control := fun p => match p.kids with
  | [n, k] => match n.int?, k.str? with
    | some i, some s => .ok (.paging i.toNat s)
    | _, _ => .ok (.other [])
  | _ => .ok (.other []) }

/-- Walks in the order of loading. -/
def ldOrd : WalkOrd := ⟨id, id⟩

theorem ldOrd_lawful : ldOrd.Lawful := ⟨fun _ => .refl _, fun _ => .refl _⟩

/-- Base `dc=lg`, anonymous access from loopback addresses, with a config file. -/
def ldCfg : LdifCfg := ⟨b!"dc=lg", b!"dc=lg", true, true, true, defaultIdx⟩

example : newLdifCfg asciiCase b!"dc=lg" b!"cn=admin,dc=lg" true true true defaultIdx = some ldCfg := by decide +kernel

def ldRecs : List (Option Entry) :=
  [some ⟨b!"dc=lg", [⟨b!"objectClass", [b!"domain"]⟩, ⟨b!"dc", [b!"lg"]⟩]⟩,
   some ⟨b!"ou=People,dc=lg", [⟨b!"objectClass", [b!"organizationalUnit"]⟩, ⟨b!"ou", [b!"People"]⟩]⟩,
   none,
   some ⟨b!"uid=Ann,ou=People,dc=lg", [⟨b!"objectClass", [b!"person", b!"top"]⟩, ⟨b!"uid", [b!"Ann"]⟩, ⟨b!"cn", [b!"Ann Berg"]⟩,
     ⟨b!"sn", [b!"Berg"]⟩, ⟨b!"userPassword", [b!"{ARGON2}$argon2id$pw"]⟩]⟩,
   some ⟨b!"uid=bob,ou=People,dc=lg", [⟨b!"objectClass", [b!"person"]⟩, ⟨b!"uid", [b!"bob"]⟩, ⟨b!"cn", [b!"Bob Cole", b!"Berg"]⟩,
     ⟨b!"userPassword", [b!"secret"]⟩]⟩]

/-- The config file. -/
def ldConfRecs : List (Option Entry) := [some ⟨b!"uid=bob,ou=People,dc=lg", [⟨b!"userPassword", [b!"conf"]⟩]⟩]

/-- The data loaded with other indexes. -/
def ldMemI (idx : IdxAttrs) (recs : List (Option Entry)) : LMem := (treeFromLDIF asciiCase idx recs).getD ⟨[], fun _ _ => none⟩

def ldMem (recs : List (Option Entry)) : LMem := ldMemI defaultIdx recs

/-- A server that has just started; the cookies are 0, 1, 2, ...; producers never give up and
end at once. -/
def ldStart (recs : List (Option Entry)) : LdifSt := ⟨ldMem recs, ldMem ldConfRecs, [], fun i => [UInt8.ofNat i], fun _ => none, 0, fun _ => false, 0⟩

def ldSrv : Srv LdifSt := ldifSrv ldEnv ldOrd ldCfg 8 false

/-- A request to it. -/
def ldReq (bound : Str) (req : Packet) : Out LdifSt := handlePacket ldEnv ldSrv toyOracle (wMsg 7 req) bound (ldStart ldRecs)

/-- A search of two steps: with the paging control. -/
def ldPage (st : LdifSt) (base : Str) (f : Packet) (n : Int) (cookie : Str) : Out LdifSt :=
  handlePacket ldEnv ldSrv toyOracle (wMsgC 7 (wSearch base 2 0 f [b!"cn"]) [wSeq [berInt n, octet cookie]]) [] st

theorem ldMemI_loads {idx : IdxAttrs} {recs : List (Option Entry)} (h : (treeFromLDIF asciiCase idx recs).isSome = true) :
    treeFromLDIF asciiCase idx recs = some (ldMemI idx recs) := by
  obtain ⟨m, hm⟩ := Option.isSome_iff_exists.1 h
  simp [ldMemI, hm]

theorem ldRecs_loads : treeFromLDIF asciiCase defaultIdx ldRecs = some (ldMem ldRecs) := ldMemI_loads (by decide +kernel)
theorem ldConfRecs_loads : treeFromLDIF asciiCase defaultIdx ldConfRecs = some (ldMem ldConfRecs) := ldMemI_loads (by decide +kernel)

theorem ld_reach : LdifReach ldEnv ldOrd ldCfg 8 false [ldRecs] (ldStart ldRecs) := .start _ _ _ _ _ _ ldRecs_loads

example : (ldReq [] (wSearch b!"dc=LG" 2 0 (ctxStr 7 b!"cn") [b!"cn"])).resps =
    [.entry 7 ⟨b!"uid=ann,ou=people,dc=lg", [⟨b!"cn", [b!"Ann Berg"]⟩]⟩, .entry 7 ⟨b!"uid=bob,ou=people,dc=lg", [⟨b!"cn", [b!"Bob Cole", b!"Berg"]⟩]⟩,
     .searchDone 7 0 (some [])] := by decide +kernel

end Idm
