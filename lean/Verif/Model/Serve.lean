import Verif.Model.Basic

/-!
# Signals, reloads, listeners and shutdown: server/server.go and pkg/ldapserver/server.go

The goroutines of one running server: the main loop of `Serve` (server.go:202-253), the reload goroutine (149-164), the one
that closes `Quit` (227-229), and for every listener the loop of `ldapserver.Serve` (pkg/ldapserver/server.go:199-209)
and its accepting goroutine (185-197). A step is one communication or one call that may block. Go's `select` picks any
branch that is ready. Not modelled: the logging, what happens on a connection, the time-out, whose context is used
nowhere.
-/
namespace Idm

/-- The signals `Serve` asks for; server.go:204. SIGINT and SIGTERM are handled alike. -/
inductive Signal where
  | hup
  | term
  deriving DecidableEq, Repr

/-- The reload goroutine: at its `select`, inside `Reload`, or returned. -/
inductive ReloadPc where
  | idle
  | reloading
  | gone
  deriving DecidableEq, Repr

/-- The main goroutine: before `signal.Notify` (line 204), at the `select` of lines 206-220, in the loop of lines 233-250, or returned. -/
inductive MainPc where
  | starting
  | waiting
  | stopping
  | exited
  deriving DecidableEq, Repr

/-- The accepting goroutine of a listener: not yet started, as `Listen` has not returned; in `Accept`, at the send of a
connection, or returned. -/
inductive AcceptPc where
  | starting
  | accepting
  | offering (c : Nat)
  | gone
  deriving DecidableEq, Repr

/-- A listener: whether its socket is open, whether its loop runs, and its accepting goroutine. -/
structure Listener where
  sock : Bool
  loop : Bool
  acc : AcceptPc
  deriving DecidableEq, Repr

/-- The state of a running server. `sig` is the buffer of `signalCh`, of size 1 (server.go:117); `trigger` that of
`triggerCh`, of size 1 (119). `errs` are the errors in `errCh` (115): it has room for two, and there are at most two
listeners, so sending never blocks. `ready`: `OnReady` was called. `failed`: the main loop has taken an error. -/
structure SrvRun where
  sig : Option Signal
  trigger : Bool
  reload : ReloadPc
  main : MainPc
  cancelled : Bool
  quit : Bool
  errs : Nat
  ready : Bool
  failed : Bool
  lns : Nat → Listener

/-- What can be observed of a step. -/
inductive SrvEv where
  | sentEarly (s : Signal)
  | catching
  | sent (s : Signal)
  | took (s : Signal)
  | reloadStart
  | reloadEnd
  | handled (i c : Nat)
  | acceptError (i : Nat)
  | closed (i : Nat)
  | ready
  | listening (i : Nat)
  | listenError (i : Nat)
  | tookError
  | returned (failed : Bool)
  | other
  deriving DecidableEq, Repr

def SrvRun.setLn (s : SrvRun) (i : Nat) (l : Listener) : SrvRun :=
  { s with lns := fun j => if j = i then l else s.lns j }

/-- One step of a server with `n` listeners. -/
inductive SrvStep (n : Nat) : SrvRun → SrvEv → SrvRun → Prop
  /-- server.go:204. -/
  | catching (s) : s.main = .starting → SrvStep n s .catching { s with main := .waiting }
  /-- A signal that arrives before `signal.Notify` has been called: SIGHUP, SIGINT and SIGTERM then end the process at once, with everything that
  runs in it. -/
  | sendEarly (s sg) : s.main = .starting →
      SrvStep n s (.sentEarly sg)
        { s with main := .exited, cancelled := true, quit := true, reload := .gone, lns := fun _ => ⟨false, false, .gone⟩ }
  /-- `signal.Notify` does not block: a signal is dropped when the buffer is full. -/
  | send (s sg) : s.main ≠ .starting → SrvStep n s (.sent sg) { s with sig := some (s.sig.getD sg) }
  /-- server.go:210-216: the trigger is set unless it is already. -/
  | takeHup (s) : s.main = .waiting → s.sig = some .hup →
      SrvStep n s (.took .hup) { s with sig := none, trigger := true }
  /-- server.go:218-219, 224-232. -/
  | takeTerm (s) : s.main = .waiting → s.sig = some .term →
      SrvStep n s (.took .term) { s with sig := none, main := .stopping, cancelled := true }
  /-- server.go:207-208, 224-232. -/
  | takeErr (s) : s.main = .waiting → 0 < s.errs →
      SrvStep n s .tookError { s with errs := s.errs - 1, failed := true, main := .stopping, cancelled := true }
  /-- server.go:195-200: the server says it is ready. -/
  | ready (s) : s.main ≠ .exited → s.ready = false → SrvStep n s .ready { s with ready := true }
  /-- `Listen` succeeds; pkg/ldapserver/server.go:142-152, 172-176. -/
  | listen (s i) : i < n → (s.lns i).acc = .starting →
      SrvStep n s (.listening i) (s.setLn i ⟨true, true, .accepting⟩)
  /-- `Listen` fails, or certificate and key cannot be loaded; server.go:171-174, 182-185, with pkg/ldapserver/server.go:142-151, 172-175. -/
  | listenFail (s i) : i < n → (s.lns i).acc = .starting →
      SrvStep n s (.listenError i) { s.setLn i ⟨false, false, .gone⟩ with errs := s.errs + 1 }
  /-- server.go:153-154. -/
  | startReload (s) : s.reload = .idle → s.trigger = true →
      SrvStep n s .reloadStart { s with trigger := false, reload := .reloading }
  | endReload (s) : s.reload = .reloading → SrvStep n s .reloadEnd { s with reload := .idle }
  /-- server.go:160-161. -/
  | stopReload (s) : s.reload = .idle → s.cancelled = true → SrvStep n s .other { s with reload := .gone }
  /-- server.go:227-229. -/
  | closeQuit (s) : s.main ≠ .starting → s.main ≠ .waiting → s.quit = false → SrvStep n s .other { s with quit := true }
  /-- A client connects; pkg/ldapserver/server.go:187. -/
  | accept (s i c) : i < n → (s.lns i).acc = .accepting → (s.lns i).sock = true →
      SrvStep n s .other (s.setLn i { s.lns i with acc := .offering c })
  /-- `Accept` fails while the listener is open, for instance for lack of file descriptors; 188-193. -/
  | acceptFail (s i) : i < n → (s.lns i).acc = .accepting → (s.lns i).sock = true →
      SrvStep n s (.acceptError i) (s.setLn i { s.lns i with acc := .gone })
  /-- `Accept` on a closed listener; 188-193. -/
  | acceptEnd (s i) : i < n → (s.lns i).acc = .accepting → (s.lns i).sock = false →
      SrvStep n s .other (s.setLn i { s.lns i with acc := .gone })
  /-- The loop takes the connection and starts serving it; 195, 202-204. -/
  | hand (s i c) : i < n → (s.lns i).loop = true → (s.lns i).acc = .offering c →
      SrvStep n s (.handled i c) (s.setLn i { s.lns i with acc := .accepting })
  /-- 205-207. -/
  | stopLoop (s i) : i < n → (s.lns i).loop = true → s.quit = true →
      SrvStep n s (.closed i) (s.setLn i { s.lns i with loop := false, sock := false })
  /-- server.go:236-238 with 189-193: all listener loops and the reload goroutine have returned. -/
  | finish (s) : s.main = .stopping → s.reload = .gone → (∀ i, i < n → (s.lns i).loop = false ∧ (s.lns i).acc ≠ .starting) →
      SrvStep n s (.returned s.failed) { s with main := .exited }
  /-- server.go:244-246: another signal. -/
  | giveUp (s sg) : s.main = .stopping → s.sig = some sg →
      SrvStep n s (.returned s.failed) { s with sig := none, main := .exited }

/-- A run of the server with its observable events. -/
inductive SrvRuns (n : Nat) : SrvRun → List SrvEv → SrvRun → Prop
  | nil (s) : SrvRuns n s [] s
  | cons {s e s' es t} : SrvStep n s e s' → SrvRuns n s' es t → SrvRuns n s (e :: es) t

/-- The exit code of the process once `Serve` has returned, with an error or without; cmd/idmd/serve/serve.go:140-150 and 210. -/
def exitCode (failed : Bool) : Nat := if failed then 1 else 0

/-- The server when `Serve` has started its goroutines (server.go:111-200): no listener is open yet, signals are not caught yet. -/
def srvStart : SrvRun :=
  { sig := none, trigger := false, reload := .idle, main := .starting, cancelled := false, quit := false, errs := 0,
    ready := false, failed := false, lns := fun _ => ⟨false, false, .starting⟩ }

end Idm
