import Verif.Spec.Launch
import Verif.Model.Reload
/-!
# What an LDIF server serves after SIGHUP
-/
namespace Idm

/-- No two records have the same name up to case. -/
def Distinct (C : CaseEnv) (rs : List LdifRecord) : Prop := (rs.map fun r => C.lower r.dn).Nodup

/-- The text is an LDIF file without change records in which one record is faulty (a version at the beginning is not). -/
def FaultyText (text : Str) : Prop :=
  ∃ lines recs r, HasLines lines text ∧ FileLines recs lines ∧
    (∀ r ∈ recs, ∀ l ∈ r, hasPrefix l b!"control:" = false ∧ hasPrefix l b!"changetype:" = false) ∧
    r ∈ recs ∧ Faulty r ∧ (r ∈ recs.tail ∨ ∀ l, r.head? = some l → hasPrefix l b!"version:" = false)

/-- `dir` is the directory from which templates may include files: the main path if it is a directory, else the one the main file is in. -/
def IncludeDir (H : Host) (path dir : Str) : Prop :=
  (H.isDir path = some true ∧ dir = path) ∨ (H.isDir path = some false ∧ dir = dirPath path)

/-- The config file, including files from `dir`, says `cs`. If no config file is asked for there are no config users. -/
def ConfSays (H : Host) (vars : List (Str × Str)) (cwd opt dir : Str) (cs : List LdifRecord) : Prop :=
  (opt = [] ∧ cs = []) ∨
  (opt ≠ [] ∧ ∃ f out, H.read (absPath cwd opt) = some f ∧ Becomes (H.engine dir) vars f.data out ∧ LdifSays out cs)

/-- The file cannot be used: it cannot be opened, the template engine fails, what it becomes is faulty, or two of its records have the same
name. -/
inductive FileBad (C : CaseEnv) (H : Host) (vars : List (Str × Str)) (dir path : Str) : Prop where
  | missing : H.read path = none → FileBad C H vars dir path
  | template (f : FileRead) : H.read path = some f → NotATemplate (H.engine dir) vars f.data → FileBad C H vars dir path
  | faulty (f : FileRead) (out : Str) : H.read path = some f → Becomes (H.engine dir) vars f.data out → FaultyText out → FileBad C H vars dir path
  | clash (f : FileRead) (out : Str) (rs : List LdifRecord) : H.read path = some f → Becomes (H.engine dir) vars f.data out → LdifSays out rs →
      ¬ Distinct C rs → FileBad C H vars dir path

/-- What is at the main path cannot be used: there is nothing, the file is bad, one of the files of the directory cannot be opened or the
template engine fails, a record of one of them is faulty (a version at the beginning of the first one that has records is not), or two of their
records have the same name. -/
inductive MainBad (C : CaseEnv) (H : Host) (vars : List (Str × Str)) (path : Str) : Prop where
  | nothing : H.isDir path = none → MainBad C H vars path
  | file : H.isDir path = some false → FileBad C H vars (dirPath path) path → MainBad C H vars path
  | unreadable (n : Str) : H.isDir path = some true → (∀ n ∈ H.list path, IsFileName n) → n ∈ H.list path → b!".ldif" <:+ n →
      (H.read (inDirectory path n) = none ∨ ∃ f, H.read (inDirectory path n) = some f ∧ NotATemplate (H.engine path) vars f.data) →
      MainBad C H vars path
  | faulty (files : List Str) (recs : Str → List (List Str)) (r : List Str) : H.isDir path = some true → (∀ n ∈ H.list path, IsFileName n) →
      files.Perm ((H.list path).filter fun n => b!".ldif" <:+ n) → files.Pairwise ByteLe →
      (∀ n ∈ files, ∃ f out lines, H.read (inDirectory path n) = some f ∧ Becomes (H.engine path) vars f.data out ∧ HasLines lines out ∧
        FileLines (recs n) lines) →
      (∀ r ∈ files.flatMap recs, ∀ l ∈ r, hasPrefix l b!"control:" = false ∧ hasPrefix l b!"changetype:" = false) →
      r ∈ files.flatMap recs → Faulty r → (r ∈ (files.flatMap recs).tail ∨ ∀ l, r.head? = some l → hasPrefix l b!"version:" = false) →
      MainBad C H vars path
  | clash (rs : List LdifRecord) : FilesSay H vars path rs → ¬ Distinct C rs → MainBad C H vars path

/-- What counts after all that has happened (the last first): the records `rs` of the main files and those, `cs`, of the config file, as they
were when they could be used last. If the config file is bad the main files are not looked at; if the main files are bad a good config file
counts nevertheless. `dir` is the directory from which the config file may include files the next time: that of the main files when they were
looked at last. -/
inductive Latest (C : CaseEnv) (H : Host) (env : Str → Str) (flags : List Flag) : List Happens → List LdifRecord → List LdifRecord → Str → Prop where
  | start (rs cs : List LdifRecord) (dir : Str) : FilesSay H (askedVars env flags) (absPath H.cwd (optMain.value env flags)) rs →
      IncludeDir H (absPath H.cwd (optMain.value env flags)) dir → ConfSays H (askedVars env flags) H.cwd (optConfig.value env flags) dir cs →
      Latest C H env flags [] rs cs dir
  | packet (evs : List Happens) (rs cs : List LdifRecord) (dir : Str) (o : Oracle) (p : Packet) (bound : Str) (local_ : Bool) :
      Latest C H env flags evs rs cs dir → Latest C H env flags (.packet o p bound local_ :: evs) rs cs dir
  | both (evs : List Happens) (rs cs rs' cs' : List LdifRecord) (dir dir' : Str) (d : Disk) : Latest C H env flags evs rs cs dir →
      FilesSay (H.now d) (askedVars env flags) (absPath H.cwd (optMain.value env flags)) rs' → Distinct C rs' →
      ConfSays (H.now d) (askedVars env flags) H.cwd (optConfig.value env flags) dir cs' → Distinct C cs' →
      IncludeDir (H.now d) (absPath H.cwd (optMain.value env flags)) dir' → Latest C H env flags (.hup d :: evs) rs' cs' dir'
  | confBad (evs : List Happens) (rs cs : List LdifRecord) (dir : Str) (d : Disk) : Latest C H env flags evs rs cs dir →
      optConfig.value env flags ≠ [] → FileBad C (H.now d) (askedVars env flags) dir (absPath H.cwd (optConfig.value env flags)) →
      Latest C H env flags (.hup d :: evs) rs cs dir
  | mainBad (evs : List Happens) (rs cs cs' : List LdifRecord) (dir dir' : Str) (d : Disk) : Latest C H env flags evs rs cs dir →
      MainBad C (H.now d) (askedVars env flags) (absPath H.cwd (optMain.value env flags)) →
      ConfSays (H.now d) (askedVars env flags) H.cwd (optConfig.value env flags) dir cs' → Distinct C cs' →
      (IncludeDir (H.now d) (absPath H.cwd (optMain.value env flags)) dir' ∨ (d.isDir (absPath H.cwd (optMain.value env flags)) = none ∧ dir' = dir)) →
      Latest C H env flags (.hup d :: evs) rs cs' dir'

/-- The states a started LDIF server can be in after all that has happened (the last first). -/
inductive LivesOn (V : Env) (W : WalkOrd) (H : Host) (s : Started) : List Happens → Live → Prop where
  | start (cfg : LdifCfg) (m conf : LMem) (cookie : Nat → Str) (cut : Nat → Option Nat) (inTime : Nat → Bool) :
      s.backend = .ldif cfg m conf → LivesOn V W H s [] (H.live s.config ⟨m, conf, [], cookie, cut, 0, inTime, 0⟩)
  | next (cfg : LdifCfg) (m conf : LMem) (evs : List Happens) (l : Live) (ev : Happens) :
      s.backend = .ldif cfg m conf → LivesOn V W H s evs l → LivesOn V W H s (ev :: evs) (l.next V W H cfg s ev)

end Idm
