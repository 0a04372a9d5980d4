import Verif.Model.Startup
/-!
# The LDIF server over time: `Reload` with the files as they are then

`reloadLdif` (Model/Ldif) takes what has been read; here it is read from the disk, as `NewServer` does it in Model/Startup.
-/
namespace Idm

/-- What is on disk at some time. The template engine is part of it as templates may include files. -/
structure Disk where
  isDir : Str → Option Bool
  list : Str → List Str
  read : Str → Option FileRead
  engine : Str → List (Str × Str) → UInt64 → Str → Option Str

/-- The host when this is on disk. -/
def Host.now (H : Host) (d : Disk) : Host := { H with isDir := d.isDir, list := d.list, read := d.read, engine := d.engine }

/-- A running LDIF server: `fn` of the handler and of the middleware (ldif/handler.go:54-66, middleware.go:48-58), `templateBasePath` of the
options they share (options.go:20), and the rest. -/
structure Live where
  fn : Str
  confFn : Str
  dir : Str
  st : LdifSt

/-- What `open` of the main handler reads, and `templateBasePath` after it: ldif/handler.go:94-123. -/
def Host.readMain (H : Host) (c : Config) (fn dir : Str) : Option (List (Option Entry)) × Str :=
  match H.isDir fn with
  | none => (none, dir)
  | some true =>
    (parseLDIFDirectory H.lib (some (H.engine fn)) (startVars c) (autoStart none) (fun n => H.read (joinPath fn n)) (H.list fn), fn)
  | some false => (parseLDIFFile H.lib (some (H.engine (dirPath fn))) (startVars c) (autoStart none) (H.read fn), dirPath fn)

/-- What `open` of the middleware reads: ldif/middleware.go:76-80. The base path for templates is the one the main handler has set when it was
opened last. -/
def Host.readConf (H : Host) (c : Config) (fn dir : Str) : Option (List (Option Entry)) :=
  parseLDIFFile H.lib (some (H.engine dir)) (startVars c) (autoStart none) (H.read fn)

/-- `Reload` of the main handler, ldif/handler.go:166-168 and 94-148. (If `BaseDN` did not match, nothing would be read. It does match in a
server that has been started.) -/
def Live.reloadMain (V : Env) (H : Host) (cfg : LdifCfg) (c : Config) (l : Live) : Bool × Live :=
  let r := H.readMain c l.fn l.dir
  let s := Idm.reloadMain V cfg r.1 l.st
  (s.1, { l with dir := r.2, st := s.2 })

/-- `Reload` of the handler in use, ldif/middleware.go:122-129. -/
def Live.reload (V : Env) (H : Host) (cfg : LdifCfg) (c : Config) (l : Live) : Bool × Live :=
  if cfg.conf then
    match openLdif V cfg (V.C.lower cfg.optBase) (H.readConf c l.confFn l.dir) with
    | none => (true, l)
    | some m => Live.reloadMain V H cfg c { l with st := { l.st with conf := m } }
  else Live.reloadMain V H cfg c l

/-- What `NewServer` leaves behind, server/server.go:57-80. -/
def Host.live (H : Host) (c : Config) (st : LdifSt) : Live := ⟨absPath H.cwd c.ldifMain, absPath H.cwd c.ldifConfig, H.basePath c, st⟩

/-- What happens to a running server: a packet comes in, or SIGHUP with the disk as it is then. -/
inductive Happens where
  | packet (o : Oracle) (p : Packet) (bound : Str) (local_ : Bool)
  | hup (d : Disk)

/-- The server after that: server/server.go:150-163 for SIGHUP. -/
def Live.next (V : Env) (W : WalkOrd) (H : Host) (cfg : LdifCfg) (s : Started) (l : Live) : Happens → Live
  | .packet o p bound local_ =>
    { l with st := (handlePacket V (ldifSrv V W { cfg with loopback := local_ } s.genPwLen s.stats) o p bound l.st).st }
  | .hup d => (l.reload V (H.now d) cfg s.config).2

end Idm
