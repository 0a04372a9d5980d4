import Verif.Model.Bolt
/-!
# An instance of `GobEnv`

encoding/gob stays abstract in the theorems. This serialisation satisfies `GobEnv.Lawful`, so the assumption is satisfiable, and the
examples beside the theorems can be computed with it. It models no code of /repo.
-/
namespace Idm

def encNat (n : Nat) : Str := List.replicate n 1 ++ [0]

def decNat : Str → Option (Nat × Str)
  | [] => none
  | c :: s => if c = 0 then some (0, s) else (decNat s).map fun r => (r.1 + 1, r.2)

theorem decNat_encNat (n : Nat) (s : Str) : decNat (encNat n ++ s) = some (n, s) := by
  induction n with
  | zero => rfl
  | succ n ih =>
    have : encNat (n + 1) ++ s = 1 :: (encNat n ++ s) := by simp [encNat, List.replicate_succ]
    rw [this, decNat, if_neg (by decide), ih]; rfl

def encStr (s : Str) : Str := encNat s.length ++ s

def decStr (s : Str) : Option (Str × Str) :=
  (decNat s).bind fun r => if r.1 ≤ r.2.length then some (r.2.take r.1, r.2.drop r.1) else none

theorem decStr_encStr (s t : Str) : decStr (encStr s ++ t) = some (s, t) := by
  unfold decStr encStr
  rw [List.append_assoc, decNat_encNat]
  simp

def decMany {α : Type} (d : Str → Option (α × Str)) : Nat → Str → Option (List α × Str)
  | 0, s => some ([], s)
  | n + 1, s => (d s).bind fun r => (decMany d n r.2).map fun r' => (r.1 :: r'.1, r'.2)

def encList {α : Type} (e : α → Str) (l : List α) : Str := encNat l.length ++ l.flatMap e

def decList {α : Type} (d : Str → Option (α × Str)) (s : Str) : Option (List α × Str) :=
  (decNat s).bind fun r => decMany d r.1 r.2

theorem decList_encList {α : Type} {e : α → Str} {d : Str → Option (α × Str)} (h : ∀ a s, d (e a ++ s) = some (a, s)) (l : List α)
    (s : Str) : decList d (encList e l ++ s) = some (l, s) := by
  unfold decList encList
  rw [List.append_assoc, decNat_encNat]
  simp only [Option.bind_some]
  induction l with
  | nil => rfl
  | cons a l ih =>
    rw [List.length_cons, decMany, List.flatMap_cons, List.append_assoc, h]
    simp only [Option.bind_some]
    rw [ih]; rfl

def encAttr (a : Attr) : Str := encStr a.name ++ encList encStr a.vals

def decAttr (s : Str) : Option (Attr × Str) :=
  (decStr s).bind fun r => (decList decStr r.2).map fun r' => (⟨r.1, r'.1⟩, r'.2)

theorem decAttr_encAttr (a : Attr) (s : Str) : decAttr (encAttr a ++ s) = some (a, s) := by
  unfold decAttr encAttr
  rw [List.append_assoc, decStr_encStr]
  simp only [Option.bind_some]
  rw [decList_encList decStr_encStr]; rfl

def gobInstance : GobEnv where
  enc e := encStr e.dn ++ encList encAttr e.attrs
  dec s := (decStr s).bind fun r => (decList decAttr r.2).map fun r' => ⟨r.1, r'.1⟩

theorem gobInstance_lawful : gobInstance.Lawful where
  dec_enc e := by
    simp only [gobInstance]
    rw [decStr_encStr]
    simp only [Option.bind_some]
    have := decList_encList decAttr_encAttr e.attrs []
    rw [List.append_nil] at this
    rw [this]; rfl
  dec_nil := rfl

end Idm
