import Verif.Spec.Name
import Verif.Model.Startup
/-!
# What the options of `idmd serve` mean
-/
namespace Idm

/-- An option with a text value: its name on the command line, the environment variable for its default, the default if there is none. -/
structure OptDoc where
  name : Str
  env : Option Str
  default : Str

/-- The last value given for an option on the command line. -/
def lastText (name : Str) (flags : List Flag) : Option Str :=
  (flags.filterMap fun f => match f with
    | .str n v => if n = name then some v else none
    | .bool _ _ => none).getLast?

def lastSwitch (name : Str) (flags : List Flag) : Option Bool :=
  (flags.filterMap fun f => match f with
    | .bool n v => if n = name then some v else none
    | .str _ _ => none).getLast?

/-- The command line comes before the environment, a variable that is empty or not set does not count. -/
def OptDoc.value (o : OptDoc) (env : Str → Str) (flags : List Flag) : Str :=
  match lastText o.name flags, o.env with
  | some v, _ => v
  | none, some e => if env e = [] then o.default else env e
  | none, none => o.default

def optLevel : OptDoc := ⟨b!"log-level", none, b!"info"⟩
def optHandler : OptDoc := ⟨b!"ldap-handler", none, b!"ldif"⟩
def optListen : OptDoc := ⟨b!"ldap-listen", some b!"IDMD_DEFAULT_LDAP_LISTEN", b!"127.0.0.1:10389"⟩
def optListenTLS : OptDoc := ⟨b!"ldaps-listen", some b!"IDMD_DEFAULT_LDAPS_LISTEN", []⟩
def optCert : OptDoc := ⟨b!"tls-cert-file", some b!"IDMD_DEFAULT_TLS_CERT_FILE", []⟩
def optKey : OptDoc := ⟨b!"tls-key-file", some b!"IDMD_DEFAULT_TLS_KEY_FILE", []⟩
def optBase : OptDoc := ⟨b!"ldap-base-dn", some b!"IDMD_DEFAULT_LDAP_BASEDN", b!"dc=lg,dc=local"⟩
def optAdmin : OptDoc := ⟨b!"ldap-admin-dn", some b!"IDMD_DEFAULT_LDAP_ADMINDN", []⟩
def optBoltFile : OptDoc := ⟨b!"boltdb-file", some b!"IDMD_DEFAULT_BOLTDB_FILE", b!"idmbolt.db"⟩
def optMain : OptDoc := ⟨b!"ldif-main", some b!"IDMD_DEFAULT_LDIF_MAIN_PATH", []⟩
def optConfig : OptDoc := ⟨b!"ldif-config", some b!"IDMD_DEFAULT_LDIF_CONFIG_PATH", []⟩
def optCompany : OptDoc := ⟨b!"ldif-template-default-company", some b!"IDMD_DEFAULT_LDIF_TEMPLATE_COMPANY", b!"Default"⟩
def optMailDomain : OptDoc := ⟨b!"ldif-template-default-mail-domain", some b!"IDMD_DEFAULT_LDIF_TEMPLATE_MAIL_DOMAIN", b!"lg.local"⟩
def optPprofListen : OptDoc := ⟨b!"pprof-listen", none, b!"127.0.0.1:6060"⟩
def optMetricsListen : OptDoc := ⟨b!"metrics-listen", none, b!"127.0.0.1:6389"⟩

/-- The names of the options with a text value and of the switches. -/
def textOptions : List Str := [optLevel, optHandler, optListen, optListenTLS, optCert, optKey, optBase, optAdmin, optBoltFile, optMain,
  optConfig, optCompany, optMailDomain, optPprofListen, optMetricsListen].map OptDoc.name

def switches : List Str := [b!"log-timestamp", b!"systemd-notify", b!"ldap-allow-local-anonymous", b!"with-pprof", b!"with-metrics"]

/-- The command line has only known options. -/
def Known (flags : List Flag) : Prop := ∀ f ∈ flags, match f with
  | .str n _ => n ∈ textOptions
  | .bool n _ => n ∈ switches

/-- Whether anonymous binds are allowed, and whether there are metrics. Off unless asked for. -/
def wantsAnon (flags : List Flag) : Bool := (lastSwitch b!"ldap-allow-local-anonymous" flags).getD false

def wantsMetrics (env : Str → Str) (flags : List Flag) : Bool :=
  (lastSwitch b!"with-metrics" flags).getD false && optMetricsListen.value env flags ≠ []

/-- If there is a TLS listener there are a certificate and a key for it. -/
def TlsComplete (env : Str → Str) (flags : List Flag) : Prop :=
  optListenTLS.value env flags = [] ∨ (optCert.value env flags ≠ [] ∧ optKey.value env flags ≠ [])

/-- The database server that is asked for. The store normalises the normalised base DN again, and has the empty one if it cannot read it. -/
def AsksBolt (V : Env) (H : Host) (env : Str → Str) (flags : List Flag) (b : Backend) : Prop :=
  optHandler.value env flags = b!"boltdb" ∧ optBoltFile.value env flags ≠ [] ∧ optBase.value env flags ≠ [] ∧
  ∃ base admin, parseDN V.C (optBase.value env flags) = some base ∧ parseDN V.C (optAdmin.value env flags) = some admin ∧
    H.boltOpens (optBoltFile.value env flags) (normalize V.C base) = true ∧
    b = .bolt (optBoltFile.value env flags) ⟨normalize V.C base, normalize V.C admin, wantsAnon flags,
      ((parseDN V.C (normalize V.C base)).map (normalize V.C)).getD []⟩

/-- What the LDIF file at a path yields as a template, `dir` being the directory templates may include files from. The template variables are
the base DN, the company and the mail domain of the options, an empty option leaving the variable at its default; the counter starts at
1000. -/
def FileYields (H : Host) (env : Str → Str) (flags : List Flag) (dir path : Str) (recs : List (Option Entry)) : Prop :=
  parseLDIFFile H.lib (some (H.engine dir))
    (templateVars b!"dc=lg,dc=local" b!"lg.local" (optBase.value env flags) (optCompany.value env flags) (optMailDomain.value env flags) [])
    1000 (H.read path) = some recs

/-- What the files of the LDIF directory at a path yield. -/
def DirYields (H : Host) (env : Str → Str) (flags : List Flag) (path : Str) (recs : List (Option Entry)) : Prop :=
  parseLDIFDirectory H.lib (some (H.engine path))
    (templateVars b!"dc=lg,dc=local" b!"lg.local" (optBase.value env flags) (optCompany.value env flags) (optMailDomain.value env flags) [])
    1000 (fun n => H.read (joinPath path n)) (H.list path) = some recs

/-- The main path is that of a directory or of a file: `dir` is the directory itself or the one the file is in. -/
def MainYields (H : Host) (env : Str → Str) (flags : List Flag) (dir : Str) (recs : List (Option Entry)) : Prop :=
  let path := absPath H.cwd (optMain.value env flags)
  (H.isDir path = some true ∧ dir = path ∧ DirYields H env flags path recs) ∨
  (H.isDir path = some false ∧ dir = dirPath path ∧ FileYields H env flags dir path recs)

/-- The LDIF server that is asked for. Its base DN has to be spelled as the server would spell it, but for the case of letters (and so has it
again, in lower case, with a config file). Templates in the config file include files from the directory of the main file. -/
def AsksLdif (V : Env) (H : Host) (loopback : Bool) (env : Str → Str) (flags : List Flag) (b : Backend) : Prop :=
  let base := optBase.value env flags
  let main := optMain.value env flags
  let conf := optConfig.value env flags
  optHandler.value env flags = b!"ldif" ∧ main ≠ [] ∧ base ≠ [] ∧
  ∃ name admin dir recs m, parseDN V.C base = some name ∧ parseDN V.C (optAdmin.value env flags) = some admin ∧
    V.C.eqFold base (normalize V.C name) = true ∧
    MainYields H env flags dir recs ∧ treeFromLDIF V.C defaultIdx recs = some m ∧
    ((conf = [] ∧ b = .ldif ⟨base, normalize V.C name, wantsAnon flags, false, loopback, defaultIdx⟩ m ⟨[], newReg V.C []⟩) ∨
     (conf ≠ [] ∧ V.C.eqFold base (V.C.lower base) = true ∧ ∃ recs' m',
       FileYields H env flags dir (absPath H.cwd conf) recs' ∧ treeFromLDIF V.C defaultIdx recs' = some m' ∧
       b = .ldif ⟨base, normalize V.C name, wantsAnon flags, true, loopback, defaultIdx⟩ m m'))

end Idm
