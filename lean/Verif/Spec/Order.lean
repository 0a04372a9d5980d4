import Verif.Model.Entry
/-!
# The order of byte strings
-/
namespace Idm

/-- `s` comes before `t` in the order of bytes, or is `t`: `t` goes on where `s` ends, or there is a first place where they differ and the byte
of `s` is the smaller one. -/
def ByteLe (s t : Str) : Prop := s <+: t ∨ ∃ p a b s' t', s = p ++ a :: s' ∧ t = p ++ b :: t' ∧ a < b

theorem strLe_iff {s t : Str} : strLe s t = true ↔ ByteLe s t := by
  unfold ByteLe
  induction s generalizing t with
  | nil => simp [strLe]
  | cons x s ih =>
    cases t with
    | nil => simp [strLe]
    | cons y t =>
      rw [strLe]
      have irr : ∀ x : UInt8, ¬ x < x := fun x h => Nat.lt_irrefl _ (UInt8.lt_iff_toNat_lt.1 h)
      by_cases h1 : x < y
      · rw [if_pos h1]
        exact ⟨fun _ => Or.inr ⟨[], x, y, s, t, rfl, rfl, h1⟩, fun _ => rfl⟩
      · rw [if_neg h1]
        by_cases h2 : y < x
        · rw [if_pos h2]
          refine ⟨fun h => (by cases h), ?_⟩
          rintro (⟨r, h⟩ | ⟨p, a, b, s', t', e1, e2, h⟩)
          · simp only [List.cons_append, List.cons.injEq] at h
            rw [h.1] at h2
            exact absurd h2 (irr _)
          · cases p with
            | nil =>
              simp only [List.nil_append, List.cons.injEq] at e1 e2
              rw [e1.1, e2.1] at h1
              exact absurd h h1
            | cons c p =>
              simp only [List.cons_append, List.cons.injEq] at e1 e2
              rw [e1.1, e2.1] at h2
              exact absurd h2 (irr _)
        · rw [if_neg h2]
          have e : x = y := by
            rcases Nat.lt_trichotomy x.toNat y.toNat with h | h | h
            · exact absurd (UInt8.lt_iff_toNat_lt.2 h) h1
            · exact UInt8.toNat_inj.1 h
            · exact absurd (UInt8.lt_iff_toNat_lt.2 h) h2
          subst e
          rw [ih]
          constructor
          · rintro (⟨r, h⟩ | ⟨p, a, b, s', t', e1, e2, h⟩)
            · exact Or.inl ⟨r, by rw [← h]; rfl⟩
            · exact Or.inr ⟨x :: p, a, b, s', t', by rw [e1]; rfl, by rw [e2]; rfl, h⟩
          · rintro (⟨r, h⟩ | ⟨p, a, b, s', t', e1, e2, h⟩)
            · exact Or.inl ⟨r, by simpa using h⟩
            · cases p with
              | nil =>
                simp only [List.nil_append, List.cons.injEq] at e1 e2
                rw [← e1.1, ← e2.1] at h
                exact absurd h (irr _)
              | cons c p =>
                simp only [List.cons_append, List.cons.injEq] at e1 e2
                exact Or.inr ⟨p, a, b, s', t', e1.2, e2.2, h⟩

instance (s t : Str) : Decidable (ByteLe s t) := decidable_of_iff _ strLe_iff

theorem strLe_antisymm {s t : Str} (h : strLe s t = true) (h' : strLe t s = true) : s = t := by
  induction s generalizing t with
  | nil => cases t with
    | nil => rfl
    | cons => simp [strLe] at h'
  | cons a as ih =>
    cases t with
    | nil => simp [strLe] at h
    | cons b bs =>
      simp only [strLe] at h h'
      split at h
      · rename_i hab
        have hnb : ¬ b < a := fun hba => Nat.lt_irrefl _ (Nat.lt_trans (UInt8.lt_iff_toNat_lt.1 hab) (UInt8.lt_iff_toNat_lt.1 hba))
        rw [if_neg hnb, if_pos hab] at h'; simp at h'
      · rename_i hab
        split at h
        · simp at h
        · rename_i hba
          rw [if_neg hba, if_neg hab] at h'
          rw [ih h h']
          have : a = b := by
            apply UInt8.toNat_inj.1
            have h1 : ¬ a.toNat < b.toNat := fun x => hab (UInt8.lt_iff_toNat_lt.2 x)
            have h2 : ¬ b.toNat < a.toNat := fun x => hba (UInt8.lt_iff_toNat_lt.2 x)
            omega
          rw [this]

end Idm
