import Verif.Model.Reload
import Verif.Model.LdifParallel
/-!
# The LDIF server with overlapping requests and the files on disk

`Model/LdifParallel` lets a reload come up with any data. Here a reload reads the disk as it is at that time, as in `Model/Reload`: first the
config file, then the main files, while the goroutines of the connections go on.
-/
namespace Idm

/-- What can be seen of the server and of its disk: what `Model/LdifParallel` shows; SIGHUP makes the server look at its config file while this is
on disk, and then at its main files while that is on disk (server/server.go:150-163). -/
inductive FSeen (ι : Type) where
  | seen (e : LSeen ι)
  | conf (d : Disk)
  | main (d : Disk)

/-- A running LDIF server, see `Live` and `LPar`. -/
structure FLive (ι : Type) where
  fn : Str
  confFn : Str
  dir : Str
  par : LPar ι

section
variable {ι : Type} (V : Env) (W : WalkOrd) (H : Host) (cfg : LdifCfg) (s : Started) (loop : Nat → Bool)

/-- What `NewServer` leaves behind, server/server.go:57-80; see `Host.live`. -/
def Host.flive (m c : LMem) : FLive ι := ⟨absPath H.cwd s.config.ldifMain, absPath H.cwd s.config.ldifConfig, H.basePath s.config, LPar.start m c⟩

/-- The first part of `Reload` of the middleware, ldif/middleware.go:122-126 and 68-98: the config file is read and, if that succeeds, its data
replaced. -/
def FLive.lookConf (d : Disk) (l : FLive ι) : FLive ι :=
  match openLdif V cfg (V.C.lower cfg.optBase) ((H.now d).readConf s.config l.confFn l.dir) with
  | none => l
  | some m => { l with par := { l.par with conf := m, reloading := true, trace := l.par.trace ++ [.conf m] } }

/-- `Reload` of the main handler, called by the middleware (ldif/middleware.go:128) or directly: ldif/handler.go:166-168 and 94-148. -/
def FLive.lookMain (d : Disk) (l : FLive ι) : FLive ι :=
  let r := (H.now d).readMain s.config l.fn l.dir
  match openLdif V cfg cfg.base r.1 with
  | none => { l with dir := r.2, par := { l.par with reloading := false } }
  | some m => { l with dir := r.2, par := { l.par with main := m, reloading := false, trace := l.par.trace ++ [.main m] } }

/-- The states of the server, with all that has been seen (the last first). The goroutines of the connections do one step, or the one that
reloads does (server/server.go:140-163); the latter takes one signal after the other. -/
inductive FRuns (m c : LMem) : List (FSeen ι) → FLive ι → Prop where
  | start : FRuns m c [] (H.flive s m c)
  | work (log : List (FSeen ι)) (l : FLive ι) (q : LPar ι) (new : List (LSeen ι)) : FRuns m c log l →
      LParStep V W cfg s.genPwLen s.stats loop l.par q → q.trace = l.par.trace ++ new → (∀ m', .main m' ∉ new ∧ .conf m' ∉ new) →
      q.reloading = l.par.reloading → FRuns m c ((new.map .seen).reverse ++ log) { l with par := q }
  | conf (log : List (FSeen ι)) (l : FLive ι) (d : Disk) : FRuns m c log l → l.par.down = false → cfg.conf = true → l.par.reloading = false →
      FRuns m c (.conf d :: log) (l.lookConf V H cfg s d)
  | main (log : List (FSeen ι)) (l : FLive ι) (d : Disk) : FRuns m c log l → l.par.down = false → l.par.reloading = cfg.conf →
      FRuns m c (.main d :: log) (l.lookMain V H cfg s d)

end
end Idm
