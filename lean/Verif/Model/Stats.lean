import Verif.Model.Basic
/-!
# The statistics of the LDAP server

`/repo/pkg/ldapserver/stats.go`, the calls of it in `/repo/pkg/ldapserver/server.go` and `Collect` in `/repo/server/metrics.go`. Many
goroutines use one `Stats` value. Every access to a field is a step of its own; what makes a count atomic is only the read/write mutex.

Modelled of sync.RWMutex: `Lock` waits until nobody holds the mutex, `RLock` until no writer holds it. (That a waiting writer keeps new
readers out is left open: the model has more schedules.)
-/
namespace Idm

/-- The fields of `Stats`, stats.go:13-22. -/
inductive Fld where
  | conns | cur | max | adds | binds | deletes | modifyDNs | modifies | unbinds | searches
  deriving DecidableEq, Repr

/-- The values of the fields (uint64). -/
abbrev Counters := Fld → Nat

/-- Assign one field. -/
def Counters.set (m : Counters) (f : Fld) (v : Nat) : Counters := fun g => if g = f then v else m g

/-- The body of a method of `Stats`: accesses to fields and the mutex. -/
inductive SProg where
  | ret (r : Option Counters)
  | get (f : Fld) (k : Nat → SProg)
  | set (f : Fld) (v : Nat) (k : SProg)
  | lock (k : SProg)
  | unlock (k : SProg)
  | rlock (k : SProg)
  | runlock (k : SProg)

/-- `stats.F += 1`. -/
def incr (f : Fld) (k : SProg) : SProg := .get f fun x => .set f ((x + 1) % 2 ^ 64) k

/-- The methods that count one event in one field: `countBinds`, `countDeletes`, `countModifyDNs`, `countModifies`, `countUnbinds`,
`countSearches`, stats.go:54-100, with delta 1 as in all calls. -/
def countOne (f : Fld) : SProg := .lock (incr f (.unlock (.ret none)))

/-- `countConns(1)`, stats.go:26-36. -/
def countConns : SProg :=
  .lock (incr .conns (incr .cur (.get .cur fun c => .get .max fun m =>
    if c > m then .get .cur fun c => .set .max c (.unlock (.ret none)) else .unlock (.ret none))))

/-- `countConnsClose(1)`, stats.go:38-44. -/
def countConnsClose : SProg := .lock (.get .cur fun x => .set .cur ((x + (2 ^ 64 - 1)) % 2 ^ 64) (.unlock (.ret none)))

/-- `countAdds(1)`, stats.go:46-52: the last statement is `Lock`, not `Unlock`. -/
def countAdds : SProg := .lock (incr .adds (.lock (.ret none)))

/-- `Clone`, stats.go:102-119: the field ConnsMax is not copied. -/
def cloneStats : SProg :=
  .rlock (.get .conns fun conns => .get .cur fun cur => .get .adds fun adds => .get .binds fun binds => .get .deletes fun deletes =>
    .get .modifyDNs fun modifyDNs => .get .modifies fun modifies => .get .unbinds fun unbinds => .get .searches fun searches =>
    .runlock (.ret (some fun
      | .conns => conns | .cur => cur | .max => 0 | .adds => adds | .binds => binds | .deletes => deletes
      | .modifyDNs => modifyDNs | .modifies => modifies | .unbinds => unbinds | .searches => searches)))

/-- `float64(n)` of an unsigned integer, for metrics.go:93-123: the nearest number with 53 binary digits, the even one of two. -/
def float64 (n : Nat) : Nat :=
  if n < 2 ^ 53 then n
  else
    let u := 2 ^ (n.log2 - 52)
    (if 2 * (n % u) > u ∨ (2 * (n % u) = u ∧ n / u % 2 = 1) then n / u + 1 else n / u) * u

/-- The two kinds of metrics in use, `prometheus.CounterValue` and `prometheus.GaugeValue`. -/
inductive MetricKind where
  | counter | gauge
  deriving DecidableEq, Repr

/-- `prometheus.BuildFQName("", metricsSubsystemLDAPServer, name)`, metrics.go:14, 40-72, with the prefix of serve.go:266. -/
def metricName (name : Str) : Str := b!"kidm_" ++ b!"ldapserver" ++ b!"_" ++ name

/-- `Collect`, metrics.go:87-125: what is sent for a copy of the counters. The descriptions (NewLDAPServerCollector, 35-76) are left out but
for their names; the collectors of the process and of the Go runtime (serve.go:269-272) are not modelled. -/
def collect (c : Counters) : List (Str × MetricKind × Nat) :=
  [(metricName b!"connections_total", .counter, float64 (c .conns)),
   (metricName b!"connections_current", .gauge, float64 (c .cur)),
   (metricName b!"connections_max", .counter, float64 (c .max)),
   (metricName b!"binds_total", .counter, float64 (c .binds)),
   (metricName b!"unbinds_total", .counter, float64 (c .unbinds)),
   (metricName b!"searches_total", .counter, float64 (c .searches))]

/-- What is counted: a connection is accepted or closed, a request of some kind arrives. -/
inductive Counted where
  | conn | close | add | bind | delete | modifyDN | modify | unbind | search
  deriving DecidableEq, Repr

/-- The method called for an event, server.go:203, 271, 295, 324, 366, 388, 410, 427, 438. -/
def Counted.prog : Counted → SProg
  | .conn => countConns
  | .close => countConnsClose
  | .add => countAdds
  | .bind => countOne .binds
  | .delete => countOne .deletes
  | .modifyDN => countOne .modifyDNs
  | .modify => countOne .modifies
  | .unbind => countOne .unbinds
  | .search => countOne .searches

/-- What can be observed: calls of the counting methods and their returns, and copies of the counters, with what had been observed when the
copy was asked for. -/
inductive SEvent (τ : Type) where
  | begin (t : τ) (e : Counted)
  | finish (t : τ) (e : Counted)
  | copied (before : List (SEvent τ)) (c : Counters)

/-- A connection (or a collector of metrics, which copies the counters). -/
inductive SThread (τ : Type) where
  /-- not accepted yet -/
  | fresh
  /-- accepted and counted, no count in progress -/
  | opened
  | counting (e : Counted) (rest : SProg)
  | copying (before : List (SEvent τ)) (rest : SProg)
  /-- closed and counted -/
  | gone

/-- The shared counters, the holders of the mutex, the goroutines, what was observed. -/
structure SState (τ : Type) where
  mem : Counters
  writer : Option τ
  readers : List τ
  threads : τ → SThread τ
  trace : List (SEvent τ)

section
variable {τ : Type} [DecidableEq τ]

/-- Set one thread. -/
def SState.at (s : SState τ) (t : τ) (x : SThread τ) : SState τ :=
  { s with threads := fun u => if u = t then x else s.threads u }

/-- Record an event. -/
def SState.obs (s : SState τ) (e : SEvent τ) : SState τ := { s with trace := s.trace ++ [e] }

/-- One access of a goroutine that executes a method: the program, counters and mutex before and after. -/
inductive Access (t : τ) : SProg × Counters × Option τ × List τ → SProg × Counters × Option τ × List τ → Prop
  | get (f k m w r) : Access t (.get f k, m, w, r) (k (m f), m, w, r)
  | set (f v k m w r) : Access t (.set f v k, m, w, r) (k, m.set f v, w, r)
  | lock (k m) : Access t (.lock k, m, none, []) (k, m, some t, [])
  | unlock (k m w r) : Access t (.unlock k, m, w, r) (k, m, none, r)
  | rlock (k m r) : Access t (.rlock k, m, none, r) (k, m, none, t :: r)
  | runlock (k m w r) : Access t (.runlock k, m, w, r) (k, m, w, r.erase t)

/-- One step of the server: connections are accepted (server.go:202-204), count their requests one after the other (handleConnection,
server.go:213-427), and are closed at last (438). A collector copies the counters (metrics.go:88). -/
inductive SStep : SState τ → SState τ → Prop
  | accept (s t) (h : s.threads t = .fresh) : SStep s ((s.at t (.counting .conn Counted.conn.prog)).obs (.begin t .conn))
  | request (s t e) (h : s.threads t = .opened) (he : e ≠ .conn) (hc : e ≠ .close) :
      SStep s ((s.at t (.counting e e.prog)).obs (.begin t e))
  | close (s t) (h : s.threads t = .opened) : SStep s ((s.at t (.counting .close Counted.close.prog)).obs (.begin t .close))
  | finish (s t e r) (h : s.threads t = .counting e (.ret r)) :
      SStep s ((s.at t (if e = .close then .gone else .opened)).obs (.finish t e))
  | copy (s t) (h : s.threads t = .fresh) : SStep s (s.at t (.copying s.trace cloneStats))
  | copied (s t b c) (h : s.threads t = .copying b (.ret (some c))) : SStep s ((s.at t .fresh).obs (.copied b c))
  | count (s t e p p' m w r) (h : s.threads t = .counting e p) (ha : Access t (p, s.mem, s.writer, s.readers) (p', m, w, r)) :
      SStep s { s.at t (.counting e p') with mem := m, writer := w, readers := r }
  | read (s t b p p' m w r) (h : s.threads t = .copying b p) (ha : Access t (p, s.mem, s.writer, s.readers) (p', m, w, r)) :
      SStep s { s.at t (.copying b p') with mem := m, writer := w, readers := r }

/-- At the start nothing is counted (`SetStats`, server.go:159-165). -/
def SState.start : SState τ := ⟨fun _ => 0, none, [], fun _ => .fresh, []⟩

/-- Some number of steps. -/
inductive SSteps : SState τ → SState τ → Prop
  | refl (s) : SSteps s s
  | step (s s' s'') : SSteps s s' → SStep s' s'' → SSteps s s''

end
end Idm
