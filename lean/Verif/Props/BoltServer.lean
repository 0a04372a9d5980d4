import Verif.Proofs.BoltServer
import Verif.Proofs.World
import Verif.Spec.Toy
import Verif.Props.Modify
/-!
# C19, C20, C34: who changes the directory; C21 with many connections
-/
namespace Idm

section
variable {σ : Type} {V : Env} {srv : Srv σ}

/-- Connection `c` was answered a bind with success, for the name `dn`. -/
def BoundAs (c : Nat) (log : List (Ev × List Resp)) (dn : Str) : Prop :=
  ∃ p o rs, (Ev.packet c p o, rs) ∈ log ∧ BindOk rs ∧ BindName p dn

theorem bindOk_nil : ¬ BindOk [] := by rintro ⟨r, h, -⟩; simp at h

/-- C21 with any number of connections and any schedule: the identity of connection `c` is the normalised name of the last bind on `c`
that was answered with success, and anonymous if there was none; what other connections do has no influence. -/
theorem C21_identity_all_connections (st : σ) (evs : List Ev) (c : Nat) (b : Str)
    (h : ((World.init st).run V srv evs).1.conn c = some b) :
    (b = [] ∧ ∀ p o rs, (Ev.packet c p o, rs) ∈ ((World.init st).run V srv evs).2 → ¬ BindOk rs) ∨
    ∃ before p o rs after dn, ((World.init st).run V srv evs).2 = before ++ (.packet c p o, rs) :: after ∧ BindOk rs ∧
      (∀ p o rs, (Ev.packet c p o, rs) ∈ after → ¬ BindOk rs) ∧ BindName p dn ∧ parseNormalize V.C dn = some b := by
  induction evs using snoc_induction generalizing b with
  | nil => left; simp only [World.run, World.init, Option.some.injEq] at h; exact ⟨h.symm, by simp [World.run]⟩
  | snoc evs e ih =>
    rw [run_snoc] at h ⊢
    generalize hw : (World.init st).run V srv evs = w at h ih ⊢
    obtain ⟨w, log⟩ := w
    dsimp only at h ih ⊢
    -- if the event did not bind `c`, the induction hypothesis carries over
    have keep : ∀ rs, w.conn c = some b → (∀ p o, e = .packet c p o → ¬ BindOk rs) →
        (b = [] ∧ ∀ p o rs', (Ev.packet c p o, rs') ∈ log ++ [(e, rs)] → ¬ BindOk rs') ∨
        ∃ before p o rs' after dn, log ++ [(e, rs)] = before ++ (.packet c p o, rs') :: after ∧ BindOk rs' ∧
          (∀ p o rs, (Ev.packet c p o, rs) ∈ after → ¬ BindOk rs) ∧ BindName p dn ∧ parseNormalize V.C dn = some b := by
      intro rs hb hn
      rcases ih b hb with ⟨rfl, h2⟩ | ⟨before, p, o, rs', after, dn, h1, h2, h3, h4, h5⟩
      · left
        refine ⟨rfl, fun p o rs' hm => ?_⟩
        rcases List.mem_append.1 hm with hm | hm
        · exact h2 p o rs' hm
        · simp only [List.mem_singleton, Prod.mk.injEq] at hm
          rw [hm.2]
          exact hn p o hm.1.symm
      · right
        refine ⟨before, p, o, rs', after ++ [(e, rs)], dn, by rw [h1]; simp, h2, ?_, h4, h5⟩
        intro p' o' rs'' hm
        rcases List.mem_append.1 hm with hm | hm
        · exact h3 p' o' rs'' hm
        · simp only [List.mem_singleton, Prod.mk.injEq] at hm
          rw [hm.2]
          exact hn p' o' hm.1.symm
    cases e with
    | eof d =>
      simp only [World.step] at h ⊢
      cases hc : w.conn d with
      | none => rw [hc] at h; exact keep _ h (by simp)
      | some b' =>
        rw [hc] at h
        simp only [World.setConn] at h
        split at h
        · cases h
        · exact keep _ h (by simp)
    | packet d p o =>
      simp only [World.step] at h ⊢
      cases hc : w.conn d with
      | none => rw [hc] at h; exact keep _ h fun _ _ _ => bindOk_nil
      | some b0 =>
        rw [hc] at h
        dsimp only at h ⊢
        have hs := fun b1 => step_identity (V := V) (srv := srv) o p b0 b1 w.st
        generalize handlePacket V srv o p b0 w.st = out at h hs
        by_cases hdc : c = d
        · subst hdc
          cases hn : out.next with
          | go b1 =>
            rw [hn] at h
            simp only [World.setConn, if_true, Option.some.injEq] at h
            subst h
            rcases hs b1 hn with ⟨k1, dn, k2, k3⟩ | ⟨k1, rfl⟩
            · exact Or.inr ⟨log, p, o, out.resps, [], dn, rfl, k1, by simp, k2, k3⟩
            · exact keep _ hc fun _ _ _ => k1
          | closed => rw [hn] at h; simp [World.setConn] at h
          | hang => rw [hn] at h; simp [World.setConn] at h
          | crash => rw [hn] at h; simp at h
        · have : w.conn c = some b := by
            cases hn : out.next <;> rw [hn] at h
            case crash => simp at h
            all_goals simpa [World.setConn, hdc] using h
          refine keep _ this fun p' o' he => ?_
          simp only [Ev.packet.injEq] at he
          exact absurd he.1.symm hdc

end
end Idm
