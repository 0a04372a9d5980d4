import Verif.Model.Bolt
import Verif.Model.LdifFormat
/-!
# `idm boltdb load` and `idm boltdb export`

`/repo/cmd/idmd/boltdb/load/load.go` and `/repo/cmd/idmd/boltdb/export/export.go`. Not modelled: the command line, opening files and the
database (a database without the three buckets behaves like an empty one here), and logging.
-/
namespace Idm

section
variable (C : CaseEnv) (G : GobEnv) (L : LdifLib)

/-- `Export`, export.go:44-76. The database is opened read-only and is not changed. -/
def exportLDIF (base : Str) (db : Db) : Res Str :=
  match boltSearch C G db base scopeSub with
  | .ok (es, none) => .ok (ldifWrite L es)
  | .ok (_, some e) => .err e
  | .err e => .err e
  | .panic => .panic
  | .hang => .hang

/-- The loop of `Load`, load.go:65-70. -/
def loadEntries (base : Str) : Db → List Entry → Res Unit × Db
  | db, [] => (.ok (), db)
  | db, e :: es => match entryPut C G base db e with
    | (.ok (), db') => loadEntries base db' es
    | (r, db') => (r, db')

/-- `Load`, load.go:42-72. -/
def loadLDIF (base : Str) (db : Db) (text : Str) : Res Unit × Db :=
  match ldifRead L text with
  | .ok es => loadEntries C G (configuredBase C base) db es
  | .err e => (.err e, db)
  | .panic => (.panic, db)
  | .hang => (.hang, db)

end
end Idm
