import Verif.Model.Load
import Verif.Model.NewUsers
import Verif.Model.Template
/-!
# The commands `boltdb load`, `boltdb export` and `gen newusers` as processes

`/repo/cmd/idmd/boltdb/boltdb.go`, `/repo/cmd/idmd/boltdb/load/load.go`, `/repo/cmd/idmd/boltdb/export/export.go`,
`/repo/cmd/idmd/gen/newusers/newusers.go`, `Configure` and `Initialize` of `/repo/pkg/ldbbolt/ldbbolt.go`: options, opening of files, the lock of the
database file, exit codes. What they do with the data is in `Model/Load` and `Model/NewUsers`.

Simplified: `bolt.Open` (go.etcd.io/bbolt 1.4.0, a dependency) is `boltOpen` below, from its documentation: read-write it creates a missing file and
takes an exclusive lock, read-only it does neither and takes a shared lock, and without a timeout it waits for the lock. Whether a path is
valid is part of what the file system answers. Not modelled: the log, failing writes, and a lock that is released while a command waits.
-/
namespace Idm

/-- What there is under a path. -/
inductive DbFile where
  /-- no file, but one can be created -/
  | missing
  /-- a file that cannot be opened, or none that can be created -/
  | denied
  /-- a file that is not a bbolt database -/
  | foreign
  /-- a bbolt database without the three buckets, as left by a process that was stopped between `bolt.Open` and `Initialize` -/
  | bare
  | ready (db : Db)

/-- The locks other processes hold on the file: none, to read, to write. -/
inductive FileLock where
  | free | shared | exclusive
  deriving DecidableEq

/-- The file system. `texts`: files that are not databases; `none` cannot be opened. -/
structure FileWorld where
  dbs : Str → DbFile
  locks : Str → FileLock
  texts : Str → Option FileRead
  stdin : FileRead

/-- `bolt.Open` with options nil or `ReadOnly`, see above; `none` is a database without buckets. -/
def boltOpen (readOnly : Bool) (lock : FileLock) : DbFile → Res (Option Db)
  | .missing => if readOnly then .err .other else .ok none
  | .denied => .err .other
  | f =>
    if lock = .exclusive ∨ lock = .shared ∧ readOnly = false then .hang
    else match f with
      | .ready db => .ok (some db)
      | .bare => .ok none
      | _ => .err .other

/-- `Initialize`, ldbbolt.go:71-96. -/
def initBuckets (readOnly : Bool) (opened : Option Db) : Option Db :=
  if readOnly then opened else some (opened.getD Db.empty)

/-- The flags, boltdb.go:31-72, after cobra: `none` is a flag that is not given. `input-file` and `ldap-base-dn` are required. -/
structure BoltdbOpts where
  logLevel : Str := b!"info"
  boltdbFile : Str := []
  inputFile : Option Str
  baseDN : Option Str

section
variable (C : CaseEnv) (G : GobEnv) (L : LdifLib) (levelOk : Str → Bool)

/-- A file in the file system is replaced. -/
def FileWorld.put (w : FileWorld) (path : Str) (f : DbFile) : FileWorld :=
  { w with dbs := fun p => if p = path then f else w.dbs p }

/-- `idmd boltdb load`: boltdb.go:80-86, `NewLDIFLoader` and `Load`, load.go:24-72, `Configure`, ldbbolt.go:54-67. -/
def loadCmd (o : BoltdbOpts) (w : FileWorld) : Res Unit × FileWorld :=
  match o.inputFile, o.baseDN with
  | some input, some base =>
    if levelOk o.logLevel = false then (.err .other, w)
    else match boltOpen false (w.locks o.boltdbFile) (w.dbs o.boltdbFile) with
      | .ok opened =>
        match initBuckets false opened with
        | some db =>
          match w.texts input with
          | none => (.err .other, w.put o.boltdbFile (.ready db))
          | some f =>
            if f.broken then (.err .other, w.put o.boltdbFile (.ready db))
            else
              let r := loadLDIF C G L base db f.data
              (r.1, w.put o.boltdbFile (.ready r.2))
        | none => (.panic, w)
      | .err e => (.err e, w)
      | .panic => (.panic, w)
      | .hang => (.hang, w)
  | _, _ => (.err .other, w)

/-- `idmd boltdb export`: boltdb.go:88-95, `NewLDIFExporter` and `Export`, export.go:26-76: what is printed. The file is opened to be read.
Without buckets `Search` dereferences nil, unless the base is refused before. -/
def exportCmd (o : BoltdbOpts) (w : FileWorld) : Res Str :=
  match o.baseDN with
  | none => .err .other
  | some base =>
    if levelOk o.logLevel = false then .err .other
    else match boltOpen true (w.locks o.boltdbFile) (w.dbs o.boltdbFile) with
      | .ok opened =>
        match initBuckets true opened with
        | some db => exportLDIF C G L base db
        | none => if (parseNormalize C base).isSome then .panic else .err .other
      | .err e => .err e
      | .panic => .panic
      | .hang => .hang

end

/-- The exit code of a command: 0, 1 after an error (boltdb.go:39-44, newusers.go:82-87, main.go:24-27), 2 after a panic (Go's run-time);
none if it does not end. -/
def Res.exitCode {α : Type} : Res α → Option Nat
  | .ok _ => some 0
  | .err _ => some 1
  | .panic => some 2
  | .hang => none

/-- The flags and arguments of `gen newusers`, newusers.go:71-95. Not modelled: the flags for the cost of ARGON2. -/
structure NewusersOpts where
  args : List Str
  format : Str := b!"ldif"
  scheme : Str := b!"{ARGON2}"
  minStrength : Int := 3

/-- `idmd gen newusers`, newusers.go:79-124, output_ldif.go: what is printed on standard output, and how it ends. `hash` by scheme; `strength` is
the estimate of zxcvbn. The scanner takes the end of what could be read for the end of the file (newusers.go:140-185). -/
def newusersCmd (strength : Str → Int) (hash : Str → Str → Option Str) (mailDomain : Str) (o : NewusersOpts) (w : FileWorld) : Str × Res Unit :=
  match o.args with
  | [arg] =>
    match (if arg ≠ b!"-" then w.texts arg else some w.stdin) with
    | none => ([], .err .other)
    | some f =>
      if o.format = b!"ldif" then
        match outputLDIF (fun s => !decide (strength s < o.minStrength)) (hash o.scheme) mailDomain f.data with
        | .ok (recs, true) => (printUsers recs, .ok ())
        | .ok (recs, false) => (printUsers recs, .err .other)
        | .err e => ([], .err e)
        | .panic => ([], .panic)
        | .hang => ([], .hang)
      else ([], .err .other)
  | _ => ([], .err .other)

end Idm
