import Verif.Model.Server
/-!
# Many connections, `/repo/pkg/ldapserver/server.go:150-211`

`serve` starts a goroutine per connection. Here an arbitrary schedule hands packets of any number of connections to the server; one
packet is processed in one step. (`Model/Parallel` has packets that overlap; C36 relates the two.)
-/
namespace Idm

/-- The server process: state of the handlers, identity of each connection that is still read (all connections are open in the
beginning), and whether the process has crashed. -/
structure World (σ : Type) where
  st : σ
  conn : Nat → Option Str
  down : Bool

/-- The start. -/
def World.init {σ : Type} (st : σ) : World σ := ⟨st, fun _ => some [], false⟩

/-- A packet arrives on a connection, or the connection ends. -/
inductive Ev where
  | packet (c : Nat) (p : Packet) (o : Oracle)
  | eof (c : Nat)

/-- Set the state of one connection. -/
def World.setConn {σ : Type} (w : World σ) (c : Nat) (b : Option Str) : World σ :=
  { w with conn := fun d => if d = c then b else w.conn d }

/-- One step: the responses sent. A crash ends the process and with it all connections. A blocked connection is not read any more. -/
def World.step {σ : Type} (V : Env) (srv : Srv σ) (w : World σ) : Ev → World σ × List Resp
  | .packet c p o =>
    match w.conn c with
    | none => (w, [])
    | some b =>
      let out := handlePacket V srv o p b w.st
      (match out.next with
        | .go b' => { w with st := out.st }.setConn c (some b')
        | .closed => { w with st := out.st }.setConn c none
        | .hang => { w with st := out.st }.setConn c none
        | .crash => ⟨out.st, fun _ => none, true⟩, out.resps)
  | .eof c =>
    match w.conn c with
    | none => (w, [])
    | some b => ({ w with st := srv.close b w.st }.setConn c none, [])

/-- A schedule: the final world, and what was sent in answer to each event. -/
def World.run {σ : Type} (V : Env) (srv : Srv σ) : World σ → List Ev → World σ × List (Ev × List Resp)
  | w, [] => (w, [])
  | w, e :: es =>
    let (w1, rs) := w.step V srv e
    let (w2, log) := World.run V srv w1 es
    (w2, (e, rs) :: log)

end Idm
