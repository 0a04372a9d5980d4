import Verif.Spec.Startup
import Verif.Spec.Served
import Verif.Spec.Template
/-!
# Starting the server with LDIF files
-/
namespace Idm

/-- The path of a file in a directory. -/
def inDirectory (dir name : Str) : Str := if dir = [chSlash] then chSlash :: name else dir ++ chSlash :: name

/-- The template variables the options ask for: company, base DN and mail domain, an empty option leaving the variable at its default (C73). -/
def askedVars (env : Str → Str) (flags : List Flag) : List (Str × Str) :=
  templateVars b!"dc=lg,dc=local" b!"lg.local" (optBase.value env flags) (optCompany.value env flags) (optMailDomain.value env flags) []

/-- Company, base DN and mail domain that the options ask for. -/
def companyAsked (env : Str → Str) (flags : List Flag) : Str := if optCompany.value env flags = [] then b!"Default" else optCompany.value env flags
def baseAsked (env : Str → Str) (flags : List Flag) : Str := if optBase.value env flags = [] then b!"dc=lg,dc=local" else optBase.value env flags
def domainAsked (env : Str → Str) (flags : List Flag) : Str := if optMailDomain.value env flags = [] then b!"lg.local" else optMailDomain.value env flags

/-- What is at the path says `rs`: it is a file that as a template becomes an LDIF file with these records; or a directory in which every file
whose name ends in `.ldif` becomes an LDIF file, none but the first of them with a version, and their records in the order of the names of the
files are `rs`. (If reading a file breaks off what has been read counts as the file.) -/
inductive FilesSay (H : Host) (vars : List (Str × Str)) (path : Str) : List LdifRecord → Prop where
  | file (f : FileRead) (out : Str) (rs : List LdifRecord) : H.isDir path = some false → H.read path = some f →
      Becomes (H.engine (dirPath path)) vars f.data out → LdifSays out rs → FilesSay H vars path rs
  | directory (files : List Str) (rs : Str → List LdifRecord) : H.isDir path = some true → (∀ n ∈ H.list path, IsFileName n) →
      files.Perm ((H.list path).filter fun n => b!".ldif" <:+ n) → files.Pairwise ByteLe →
      (∀ n ∈ files, ∃ f out, H.read (inDirectory path n) = some f ∧ Becomes (H.engine path) vars f.data out ∧ LdifSays out (rs n) ∧
        (n ∈ files.tail → LdifBody out (rs n))) →
      FilesSay H vars path (files.flatMap rs)

/-- The states an LDIF server can be in after it has been started, whatever packets have come, before it reads its files again. -/
inductive NotReloaded (V : Env) (W : WalkOrd) (s : Started) : LdifSt → Prop where
  | start (cfg : LdifCfg) (m conf : LMem) (cookie : Nat → Str) (cut : Nat → Option Nat) (inTime : Nat → Bool) :
      s.backend = .ldif cfg m conf → NotReloaded V W s ⟨m, conf, [], cookie, cut, 0, inTime, 0⟩
  | packet (cfg : LdifCfg) (m conf : LMem) (st : LdifSt) (o : Oracle) (p : Packet) (bound : Str) (local_ : Bool) :
      s.backend = .ldif cfg m conf → NotReloaded V W s st →
      NotReloaded V W s (handlePacket V (ldifSrv V W { cfg with loopback := local_ } s.genPwLen s.stats) o p bound st).st

/-- The settings of the LDIF server that the options ask for, `base` being the base DN as it has been read. -/
def askedCfg (C : CaseEnv) (env : Str → Str) (flags : List Flag) (loopback : Bool) (base : DN) : LdifCfg :=
  ⟨optBase.value env flags, normalize C base, wantsAnon flags, decide (optConfig.value env flags ≠ []), loopback, defaultIdx⟩

end Idm
