import Verif.Model.Commands
import Verif.Spec.Load
import Verif.Spec.NewUsers
/-!
# Specification: the commands of idmd around the database and the users
-/
namespace Idm

/-- The database in a file; a file that is new or was never set up is an empty database. -/
def DbFile.content : DbFile → Option Db
  | .missing => some Db.empty
  | .bare => some Db.empty
  | .ready db => some db
  | .denied => none
  | .foreign => none

/-- Nothing is different outside the database file `path`. -/
def SameBut (path : Str) (w w' : FileWorld) : Prop :=
  (∀ p, p ≠ path → w'.dbs p = w.dbs p) ∧ w'.texts = w.texts ∧ w'.locks = w.locks ∧ w'.stdin = w.stdin

/-- The field holds no number, or one of 64 bits. -/
def NumberField (s : Str) : Prop := s = [] ∨ ∃ n, IsDecimal s n ∧ -(2 ^ 63) ≤ n ∧ n < 2 ^ 63

/-- The line, if it describes a user, has all seven fields, a password as strong as asked for that can be hashed (or none), and numbers. -/
def UsableLine (strength : Str → Int) (minStrength : Int) (hash : Str → Option Str) (line : Str) : Prop :=
  ∀ fs, userFields line = some fs → 7 ≤ fs.length ∧
    (∀ p, fs[1]? = some p → p ≠ [] → minStrength ≤ strength p ∧ ∃ h, hash p = some h) ∧
    (∀ u, fs[2]? = some u → NumberField u) ∧ (∀ g, fs[3]? = some g → NumberField g)

end Idm
