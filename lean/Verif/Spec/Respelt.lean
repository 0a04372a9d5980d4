import Verif.Spec.Unrelated
import Verif.Spec.Find
/-!
# Specification vocabulary for names that are written in different ways
-/
namespace Idm

/-- The texts are two ways of writing one name (in another case, with other blanks and escapes): they are read as names that are the same
up to case. (`CaseSame`: the two comparisons of letters the server uses do not disagree on them, as is so for all ASCII names.) -/
def Respelt (C : CaseEnv) (a b : Str) : Prop :=
  ∃ n m, parseDN C a = some n ∧ parseDN C b = some m ∧ SameName C n m ∧ CaseSame C n m

/-- The calls are the same, but the name of the entry they are about may be written in different ways. (What an addition gives is stored as it
is; a rename that removes the values of the old RDN must name their types alike.) -/
inductive SameCall (C : CaseEnv) : Op → Op → Prop
  | add (e) : SameCall C (.add e) (.add e)
  | delete (a b) : Respelt C a b → SameCall C (.delete a) (.delete b)
  | modify (a b cs) : Respelt C a b → SameCall C (.modify a cs) (.modify b cs)
  | password (a b old new) : Respelt C a b → SameCall C (.password ⟨a, old, new⟩) (.password ⟨b, old, new⟩)
  | rename (a b new del) : Respelt C a b →
      (∀ n m, parseDN C a = some n → parseDN C b = some m → n.head?.map (·.map AVA.typ) = m.head?.map (·.map AVA.typ)) →
      SameCall C (.rename ⟨a, new, del⟩) (.rename ⟨b, new, del⟩)

end Idm
