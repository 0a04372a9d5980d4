import Verif.Model.World
import Verif.Proofs.Session
import Verif.Props.Session
/-!
# Schedules
-/
namespace Idm

section
variable {σ : Type} {V : Env} {srv : Srv σ}

theorem run_cons (w : World σ) (e : Ev) (es : List Ev) :
    w.run V srv (e :: es) = (((w.step V srv e).1.run V srv es).1, (e, (w.step V srv e).2) :: ((w.step V srv e).1.run V srv es).2) := rfl

theorem run_append (w : World σ) (es fs : List Ev) :
    w.run V srv (es ++ fs) =
      (((w.run V srv es).1.run V srv fs).1, (w.run V srv es).2 ++ ((w.run V srv es).1.run V srv fs).2) := by
  induction es generalizing w with
  | nil => rfl
  | cons e es ih => rw [List.cons_append, run_cons, run_cons, ih]; rfl

theorem run_snoc (w : World σ) (es : List Ev) (e : Ev) :
    w.run V srv (es ++ [e]) = (((w.run V srv es).1.step V srv e).1, (w.run V srv es).2 ++ [(e, ((w.run V srv es).1.step V srv e).2)]) := by
  rw [run_append]; rfl

/-- Induction over schedules from the end. -/
theorem snoc_induction {α : Type} {P : List α → Prop} (nil : P []) (snoc : ∀ l a, P l → P (l ++ [a])) (l : List α) : P l := by
  have : ∀ n (l : List α), l.length = n → P l := by
    intro n
    induction n with
    | zero => intro l h; rw [List.length_eq_zero_iff.1 h]; exact nil
    | succ n ih =>
      intro l h
      have hne : l ≠ [] := by rintro rfl; simp at h
      rw [← List.dropLast_concat_getLast hne]
      exact snoc _ _ (ih _ (by simp [h]))
  exact this _ l rfl

end
end Idm
