import Verif.Model.BoltHandler
import Verif.Model.Ldif
import Verif.Model.LdifFormat
/-!
# Starting `idmd serve`: cmd/idmd/serve/serve.go, `NewServer` in server/server.go

From the environment and the command line to a running server or an exit code. Not modelled: how pflag splits the command line into options
(`--name value`, `--name=value`), help output, pprof, sd_notify, the HTTP server for the metrics.
-/
namespace Idm

/-- The variables of serve.go:27-59 that are options. -/
structure Vars where
  logTimestamp : Bool
  logLevel : Str
  systemdNotify : Bool
  handler : Str
  listen : Str
  listenTLS : Str
  tlsCert : Str
  tlsKey : Str
  baseDN : Str
  adminDN : Str
  anon : Bool
  boltFile : Str
  ldifMain : Str
  ldifConfig : Str
  company : Str
  mailDomain : Str
  withPprof : Bool
  pprofListen : Str
  withMetrics : Bool
  metricsListen : Str
  deriving DecidableEq, Repr

/-- The initial values, serve.go:27-59. -/
def initialVars : Vars where
  logTimestamp := true
  logLevel := b!"info"
  systemdNotify := false
  handler := b!"ldif"
  listen := b!"127.0.0.1:10389"
  listenTLS := []
  tlsCert := []
  tlsKey := []
  baseDN := []
  adminDN := []
  anon := false
  boltFile := b!"idmbolt.db"
  ldifMain := []
  ldifConfig := []
  company := b!"Default"
  mailDomain := []
  withPprof := false
  pprofListen := b!"127.0.0.1:6060"
  withMetrics := false
  metricsListen := b!"127.0.0.1:6389"

/-- `withEnvBase`, serve.go:119-121. -/
def withEnvBase (name : Str) : Str := b!"IDMD_" ++ name

/-- `if v := os.Getenv(..); v != "" { X = v }`, as in serve.go:73-76. `os.Getenv` yields the empty string for a variable that is not set. -/
def orEnv (env : Str → Str) (name old : Str) : Str := if env (withEnvBase name) ≠ [] then env (withEnvBase name) else old

/-- `setDefaults`, serve.go:61-117; the defaults of defaults.go:9-12. -/
def setDefaults (env : Str → Str) (v : Vars) : Vars :=
  let base := if v.baseDN = [] then b!"dc=lg,dc=local" else v.baseDN
  let mail := if v.mailDomain = [] then b!"lg.local" else v.mailDomain
  { v with
    ldifMain := env (withEnvBase b!"DEFAULT_LDIF_MAIN_PATH")
    ldifConfig := env (withEnvBase b!"DEFAULT_LDIF_CONFIG_PATH")
    boltFile := orEnv env b!"DEFAULT_BOLTDB_FILE" v.boltFile
    baseDN := orEnv env b!"DEFAULT_LDAP_BASEDN" base
    adminDN := orEnv env b!"DEFAULT_LDAP_ADMINDN" v.adminDN
    listen := orEnv env b!"DEFAULT_LDAP_LISTEN" v.listen
    listenTLS := orEnv env b!"DEFAULT_LDAPS_LISTEN" v.listenTLS
    tlsCert := orEnv env b!"DEFAULT_TLS_CERT_FILE" v.tlsCert
    tlsKey := orEnv env b!"DEFAULT_TLS_KEY_FILE" v.tlsKey
    company := orEnv env b!"DEFAULT_LDIF_TEMPLATE_COMPANY" v.company
    mailDomain := orEnv env b!"DEFAULT_LDIF_TEMPLATE_MAIL_DOMAIN" mail }

/-- An option on the command line with its value, as pflag has read it. -/
inductive Flag where
  | str (name value : Str)
  | bool (name : Str) (value : Bool)
  deriving DecidableEq, Repr

/-- Setting an option, serve.go:153-182; `none`: there is no such option. (pflag also refuses text that is not a Boolean for the options that
are.) -/
def setFlag (v : Vars) : Flag → Option Vars
  | .str n s =>
    if n = b!"log-level" then some { v with logLevel := s }
    else if n = b!"ldap-handler" then some { v with handler := s }
    else if n = b!"ldap-listen" then some { v with listen := s }
    else if n = b!"ldaps-listen" then some { v with listenTLS := s }
    else if n = b!"tls-cert-file" then some { v with tlsCert := s }
    else if n = b!"tls-key-file" then some { v with tlsKey := s }
    else if n = b!"ldap-base-dn" then some { v with baseDN := s }
    else if n = b!"ldap-admin-dn" then some { v with adminDN := s }
    else if n = b!"boltdb-file" then some { v with boltFile := s }
    else if n = b!"ldif-main" then some { v with ldifMain := s }
    else if n = b!"ldif-config" then some { v with ldifConfig := s }
    else if n = b!"ldif-template-default-company" then some { v with company := s }
    else if n = b!"ldif-template-default-mail-domain" then some { v with mailDomain := s }
    else if n = b!"pprof-listen" then some { v with pprofListen := s }
    else if n = b!"metrics-listen" then some { v with metricsListen := s }
    else none
  | .bool n b =>
    if n = b!"log-timestamp" then some { v with logTimestamp := b }
    else if n = b!"systemd-notify" then some { v with systemdNotify := b }
    else if n = b!"ldap-allow-local-anonymous" then some { v with anon := b }
    else if n = b!"with-pprof" then some { v with withPprof := b }
    else if n = b!"with-metrics" then some { v with withMetrics := b }
    else none

/-- pflag sets the options in the order in which they are given. -/
def setFlags (v : Vars) : List Flag → Option Vars
  | [] => some v
  | f :: fs => (setFlag v f).bind fun v' => setFlags v' fs

/-- `checkTLSConfig`, serve.go:187-196: true if there is no error. -/
def checkTLSConfig (v : Vars) : Bool :=
  if v.listenTLS ≠ [] then
    if v.tlsCert = [] then false
    else if v.tlsKey = [] then false
    else true
  else true

/-- `server.Config`, server/config.go:14-42. `metrics`: there is a registerer. -/
structure Config where
  handler : Str
  listen : Str
  listenTLS : Str
  tlsCert : Str
  tlsKey : Str
  baseDN : Str
  adminDN : Str
  anon : Bool
  boltFile : Str
  ldifMain : Str
  ldifConfig : Str
  company : Str
  mailDomain : Str
  metrics : Bool
  deriving DecidableEq, Repr

/-- serve.go:228-281. -/
def toConfig (v : Vars) : Config where
  handler := v.handler
  listen := v.listen
  listenTLS := v.listenTLS
  tlsCert := v.tlsCert
  tlsKey := v.tlsKey
  baseDN := v.baseDN
  adminDN := v.adminDN
  anon := v.anon
  ldifMain := v.ldifMain
  ldifConfig := v.ldifConfig
  company := v.company
  mailDomain := v.mailDomain
  boltFile := v.boltFile
  metrics := v.withMetrics && v.metricsListen ≠ []

/-- What the libraries and the file system say: whether logrus accepts a log level (`ParseLevel`); whether the database file can be opened and
prepared for a base DN (boltdb/handler.go:78-90); the working directory; whether there is something at a path and whether it is a directory
(`os.Stat`); the names in a directory; what opening and reading a file gives; the Go template language, given the directory below which
templates may include files (see Model/Template); the LDIF library. -/
structure Host where
  levelOk : Str → Bool
  boltOpens : Str → Str → Bool
  cwd : Str
  isDir : Str → Option Bool
  list : Str → List Str
  read : Str → Option FileRead
  engine : Str → List (Str × Str) → UInt64 → Str → Option Str
  lib : LdifLib

/-- The variables a template starts with: server/server.go:56-66, ldif/template.go:24-47, the constants of defaults.go:9-12. The command sets no
extra variables. -/
def startVars (c : Config) : List (Str × Str) := templateVars b!"dc=lg,dc=local" b!"lg.local" c.baseDN c.company c.mailDomain []

/-- `options.templateBasePath`, as the main handler sets it: ldif/handler.go:102-103 and 116-118. The config middleware has the same options. -/
def Host.basePath (H : Host) (c : Config) : Str :=
  let fn := absPath H.cwd c.ldifMain
  if H.isDir fn = some true then fn else dirPath fn

/-- What the main handler reads, `none` if there is an error: ldif/handler.go:49-59, 94-123. -/
def Host.mainRecords (H : Host) (c : Config) : Option (List (Option Entry)) :=
  let fn := absPath H.cwd c.ldifMain
  match H.isDir fn with
  | none => none
  | some true => parseLDIFDirectory H.lib (some (H.engine (H.basePath c))) (startVars c) (autoStart none) (fun n => H.read (joinPath fn n)) (H.list fn)
  | some false => parseLDIFFile H.lib (some (H.engine (H.basePath c))) (startVars c) (autoStart none) (H.read fn)

/-- What the config middleware reads: ldif/middleware.go:40-52, 76-80. -/
def Host.confRecords (H : Host) (c : Config) : Option (List (Option Entry)) :=
  parseLDIFFile H.lib (some (H.engine (H.basePath c))) (startVars c) (autoStart none) (H.read (absPath H.cwd c.ldifConfig))

/-- A handler that has been set up. `loopback` as in `LdifCfg`: a parameter, the address of the client that is looked at. -/
inductive Backend where
  | bolt (file : Str) (cfg : BoltCfg)
  | ldif (cfg : LdifCfg) (main : LMem) (conf : LMem)

/-- A server that has been set up, server/server.go:41-103. -/
structure Started where
  backend : Backend
  enforce : Bool
  genPwLen : Nat
  stats : Bool
  config : Config

/-- `NewLDIFHandler`, `NewLDIFMiddleware` and their `open`: ldif/handler.go:49-148, ldif/middleware.go:40-98; server.go:57-80. -/
def newLdifBackend (V : Env) (H : Host) (loopback : Bool) (c : Config) : Option Backend :=
  if c.ldifMain = [] then none
  else do
    let cfg ← newLdifCfg V.C c.baseDN c.adminDN c.anon (c.ldifConfig ≠ []) loopback defaultIdx
    let main ← openLdif V cfg cfg.base (H.mainRecords c)
    if c.ldifConfig ≠ [] then
      let conf ← openLdif V cfg (V.C.lower cfg.optBase) (H.confRecords c)
      some (.ldif cfg main conf)
    else some (.ldif cfg main ⟨[], newReg V.C []⟩)

/-- `NewBoltDBHandler` and `setup`: boltdb/handler.go:44-89. -/
def newBoltBackend (V : Env) (H : Host) (c : Config) : Option Backend :=
  if c.boltFile = [] then none
  else do
    let cfg ← newBoltCfg V.C c.baseDN c.adminDN c.anon
    if H.boltOpens c.boltFile cfg.base then some (.bolt c.boltFile cfg) else none

/-- `NewServer`, server/server.go:41-103. -/
def newServer (V : Env) (H : Host) (loopback : Bool) (c : Config) : Option Started :=
  if c.handler = b!"ldif" then do
    let b ← newLdifBackend V H loopback c
    some ⟨b, false, 16, c.metrics, c⟩
  else if c.handler = b!"boltdb" then do
    let b ← newBoltBackend V H c
    some ⟨b, true, 16, c.metrics, c⟩
  else none

/-- A listening socket. -/
inductive Listen where
  | plain (addr : Str)
  | tls (addr cert key : Str)
  deriving DecidableEq, Repr

/-- The listeners `Serve` starts, server/server.go:166-187. -/
def Started.listeners (s : Started) : List Listen :=
  (if s.config.listen ≠ [] then [.plain s.config.listen] else []) ++
    (if s.config.listenTLS ≠ [] then [.tls s.config.listenTLS s.config.tlsCert s.config.tlsKey] else [])

/-- What becomes of the process: it ends, or `Serve` runs. -/
inductive Launch where
  | exits (code : Nat)
  | serves (s : Started)

/-- `main`, cmd/idmd/main.go:18-28, with the command `serve`: serve.go:123-285, error.go. -/
def launch (V : Env) (H : Host) (loopback : Bool) (env : Str → Str) (flags : List Flag) : Launch :=
  match setFlags (setDefaults env initialVars) flags with
  | none => .exits 1
  | some v =>
    if !checkTLSConfig v then .exits 1
    else if !H.levelOk v.logLevel then .exits 64
    else match newServer V H loopback (toConfig v) with
      | none => .exits 64
      | some s => .serves s

end Idm
