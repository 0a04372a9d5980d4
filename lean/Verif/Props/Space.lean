import Verif.Model.Space
import Verif.Model.Fold
import Verif.Spec.Space
/-!
# What `strings.TrimSpace` does
-/
namespace Idm

theorem vocab_spaces : spaces = whiteSpace.map utf8Char := by decide +kernel

theorem cutFront_some {ps : List Str} {s r : Str} (h : cutFront ps s = some r) : ∃ p ∈ ps, s = p ++ r := by
  simp only [cutFront, Option.map_eq_some_iff] at h
  obtain ⟨p, hp, rfl⟩ := h
  refine ⟨p, List.mem_of_find?_eq_some hp, ?_⟩
  have := List.find?_some hp
  obtain ⟨t, rfl⟩ := List.isPrefixOf_iff_prefix.1 this
  simp

theorem cutFront_none {ps : List Str} {s : Str} (h : cutFront ps s = none) : ∀ p ∈ ps, ¬ p <+: s := by
  simp only [cutFront, Option.map_eq_none_iff, List.find?_eq_none] at h
  exact fun p hp hc => h p hp (List.isPrefixOf_iff_prefix.2 hc)

theorem cutFront_append {ps : List Str} (hf : ∀ p ∈ ps, ∀ q ∈ ps, p <+: q → p = q) {p : Str} (hp : p ∈ ps) (s : Str) :
    cutFront ps (p ++ s) = some s := by
  cases h : cutFront ps (p ++ s) with
  | none => exact absurd (List.prefix_append p s) (cutFront_none h p hp)
  | some r =>
    obtain ⟨q, hq, e⟩ := cutFront_some h
    have : p = q := by
      rcases List.prefix_or_prefix_of_prefix (List.prefix_append p s) (e ▸ List.prefix_append q r) with h | h
      · exact hf p hp q hq h
      · exact (hf q hq p hp h).symm
    subst this
    rw [List.append_cancel_left e]

theorem stripFront_spec {ps : List Str} (hn : ∀ p ∈ ps, p ≠ []) : ∀ (n : Nat) (s : Str), s.length ≤ n →
    (∃ l : List Str, (∀ p ∈ l, p ∈ ps) ∧ s = l.flatten ++ stripFront ps n s) ∧ ∀ p ∈ ps, ¬ p <+: stripFront ps n s := by
  intro n
  induction n with
  | zero =>
    intro s hs
    have : s = [] := List.length_eq_zero_iff.1 (by omega)
    subst this
    exact ⟨⟨[], by simp, rfl⟩, fun p hp h => hn p hp (List.prefix_nil.1 h)⟩
  | succ n ih =>
    intro s hs
    rw [stripFront]
    cases h : cutFront ps s with
    | none => exact ⟨⟨[], by simp, rfl⟩, cutFront_none h⟩
    | some r =>
      obtain ⟨p, hp, rfl⟩ := cutFront_some h
      have hl : 0 < p.length := List.length_pos_iff.2 (hn p hp)
      obtain ⟨⟨l, h1, h2⟩, h3⟩ := ih r (by simp at hs; omega)
      refine ⟨⟨p :: l, ?_, ?_⟩, h3⟩
      · intro q hq
        rcases List.mem_cons.1 hq with rfl | hq
        · exact hp
        · exact h1 q hq
      · show p ++ r = (p :: l).flatten ++ stripFront ps n r
        rw [List.flatten_cons, List.append_assoc, ← h2]

theorem stripFront_append {ps : List Str} (hn : ∀ p ∈ ps, p ≠ []) (hf : ∀ p ∈ ps, ∀ q ∈ ps, p <+: q → p = q) {t : Str}
    (ht : ∀ p ∈ ps, ¬ p <+: t) : ∀ (l : List Str) (n : Nat), (∀ p ∈ l, p ∈ ps) → (l.flatten ++ t).length ≤ n →
    stripFront ps n (l.flatten ++ t) = t := by
  intro l
  induction l with
  | nil =>
    intro n _ _
    cases n with
    | zero => rfl
    | succ n =>
      show stripFront ps (n + 1) t = t
      rw [stripFront]
      cases h : cutFront ps t with
      | none => rfl
      | some r =>
        obtain ⟨p, hp, rfl⟩ := cutFront_some h
        exact absurd (List.prefix_append p r) (ht p hp)
  | cons p l ih =>
    intro n hl hlen
    have hp := hl p List.mem_cons_self
    have hpos : 0 < p.length := List.length_pos_iff.2 (hn p hp)
    cases n with
    | zero => rw [List.flatten_cons, List.append_assoc, List.length_append] at hlen; omega
    | succ n =>
      rw [List.flatten_cons, List.append_assoc, stripFront, cutFront_append hf hp]
      exact ih n (fun q hq => hl q (List.mem_cons_of_mem _ hq)) (by simp at hlen ⊢; omega)

theorem spaces_ne : ∀ p ∈ spaces, p ≠ [] := by decide +kernel
theorem spaces_free : ∀ p ∈ spaces, ∀ q ∈ spaces, p <+: q → p = q := by decide +kernel
theorem rspaces_ne : ∀ p ∈ spaces.map List.reverse, p ≠ [] := by decide +kernel
theorem rspaces_free : ∀ p ∈ spaces.map List.reverse, ∀ q ∈ spaces.map List.reverse, p <+: q → p = q := by decide +kernel

/-- A character never begins in the middle of another. -/
theorem spaces_inside : ∀ p ∈ spaces, ∀ q ∈ spaces, ∀ i ∈ List.range 4, 0 < i → i < p.length → (p.drop i).head? ≠ q.head? := by decide +kernel

theorem white_iff {s : Str} : White s ↔ ∃ l : List Str, (∀ p ∈ l, p ∈ spaces) ∧ s = l.flatten := by
  constructor
  · rintro ⟨cs, h, rfl⟩
    refine ⟨cs.map utf8Char, ?_, by rw [List.flatMap_def]⟩
    intro p hp
    obtain ⟨n, hn, rfl⟩ := List.mem_map.1 hp
    rw [vocab_spaces]
    exact List.mem_map_of_mem (h n hn)
  · rintro ⟨l, h, rfl⟩
    induction l with
    | nil => exact ⟨[], by simp, rfl⟩
    | cons p l ih =>
      obtain ⟨cs, h1, h2⟩ := ih fun q hq => h q (List.mem_cons_of_mem _ hq)
      have hp := h p List.mem_cons_self
      rw [vocab_spaces] at hp
      obtain ⟨n, hn, rfl⟩ := List.mem_map.1 hp
      refine ⟨n :: cs, ?_, by rw [List.flatten_cons, h2, List.flatMap_cons]⟩
      intro m hm
      rcases List.mem_cons.1 hm with rfl | hm
      · exact hn
      · exact h1 m hm

theorem flatten_reverse' (l : List Str) : l.flatten.reverse = (l.reverse.map List.reverse).flatten := by
  rw [List.reverse_flatten, List.map_reverse]

/-- `strings.TrimSpace`: white space at both ends is taken off, all of it, and nothing else. -/
theorem vocab_trimSpace (s t : Str) : trimSpace s = t ↔
    ∃ a b, s = a ++ t ++ b ∧ White a ∧ White b ∧ ∀ n ∈ whiteSpace, ¬ utf8Char n <+: t ∧ ¬ utf8Char n <:+ t := by
  have hsp : ∀ n ∈ whiteSpace, utf8Char n ∈ spaces := fun n hn => by rw [vocab_spaces]; exact List.mem_map_of_mem hn
  constructor
  · rintro rfl
    unfold trimSpace
    obtain ⟨⟨l, hl, e1⟩, h1⟩ := stripFront_spec spaces_ne s.length s (Nat.le_refl _)
    generalize hm : stripFront spaces s.length s = m at *
    obtain ⟨⟨r, hr, e2⟩, h2⟩ := stripFront_spec rspaces_ne m.length m.reverse (by simp)
    dsimp only
    generalize hx : stripFront (spaces.map List.reverse) m.length m.reverse = x at *
    have e3 : m = x.reverse ++ (r.reverse.map List.reverse).flatten := by
      have := congrArg List.reverse e2
      rwa [List.reverse_reverse, List.reverse_append, flatten_reverse'] at this
    refine ⟨l.flatten, (r.reverse.map List.reverse).flatten, ?_, white_iff.2 ⟨l, hl, rfl⟩, white_iff.2 ⟨_, ?_, rfl⟩, ?_⟩
    · rw [List.append_assoc, ← e3]; exact e1
    · intro p hp
      simp only [List.mem_map, List.mem_reverse] at hp
      obtain ⟨q, hq, rfl⟩ := hp
      obtain ⟨q', hq', rfl⟩ := List.mem_map.1 (hr q hq)
      rwa [List.reverse_reverse]
    · intro n hn
      refine ⟨fun h => h1 _ (hsp n hn) ?_, fun h => h2 _ (List.mem_map_of_mem (hsp n hn)) ?_⟩
      · rw [e3]; exact h.trans (List.prefix_append _ _)
      · rw [← List.reverse_suffix, List.reverse_reverse]; exact h
  · rintro ⟨a, b, rfl, ha, hb, ht⟩
    obtain ⟨l, hl, rfl⟩ := white_iff.1 ha
    obtain ⟨r, hr, rfl⟩ := white_iff.1 hb
    have hfree : ∀ p ∈ spaces, ¬ p <+: t ∧ ¬ p <:+ t := by
      intro p hp
      rw [vocab_spaces] at hp
      obtain ⟨n, hn, rfl⟩ := List.mem_map.1 hp
      exact ht n hn
    have hrr : ∀ p ∈ r.reverse.map List.reverse, p ∈ spaces.map List.reverse := by
      intro p hp
      simp only [List.mem_map, List.mem_reverse] at hp ⊢
      obtain ⟨q, hq, rfl⟩ := hp
      exact ⟨q, hr q hq, rfl⟩
    unfold trimSpace
    dsimp only
    by_cases htn : t = []
    · subst htn
      have : stripFront spaces (l.flatten ++ [] ++ r.flatten).length (l.flatten ++ [] ++ r.flatten) = [] := by
        have := stripFront_append (t := []) spaces_ne spaces_free (fun p hp h => spaces_ne p hp (List.prefix_nil.1 h)) (l ++ r)
          (l.flatten ++ [] ++ r.flatten).length (fun p hp => (List.mem_append.1 hp).elim (hl p) (hr p)) (by simp)
        simpa using this
      rw [this]; rfl
    · have hnb : ∀ p ∈ spaces, ¬ p <+: t ++ r.flatten := by
        intro p hp h
        obtain ⟨u, hu⟩ := h
        rcases List.append_eq_append_iff.1 hu with ⟨v, h1, h2⟩ | ⟨v, h1, h2⟩
        · exact (hfree p hp).1 ⟨v, h1.symm⟩
        · -- p = t ++ v
          cases hv : v with
          | nil => rw [hv, List.append_nil] at h1; exact (hfree p hp).1 (h1 ▸ List.prefix_refl _)
          | cons x xs =>
            cases r with
            | nil => rw [hv] at h2; simp at h2
            | cons q r =>
              have hq := hr q List.mem_cons_self
              have hlen : p.length ≤ 3 := (show ∀ p ∈ spaces, p.length ≤ 3 by decide +kernel) p hp
              have hpl : p.length = t.length + v.length := by rw [h1, List.length_append]
              have hvl : 0 < v.length := by rw [hv]; simp
              have := spaces_inside p hp q hq t.length (by simp; omega) (List.length_pos_iff.2 htn) (by omega)
              apply this
              rw [h1, List.drop_left]
              have hqn := spaces_ne q hq
              cases q with
              | nil => exact absurd rfl hqn
              | cons y ys =>
                rw [hv] at h2 ⊢
                simp only [List.flatten_cons, List.cons_append, List.cons.injEq] at h2
                simp [h2.1]
      have e1 : stripFront spaces (l.flatten ++ t ++ r.flatten).length (l.flatten ++ t ++ r.flatten) = t ++ r.flatten := by
        rw [List.append_assoc]
        exact stripFront_append spaces_ne spaces_free hnb l _ hl (Nat.le_refl _)
      rw [e1, List.reverse_append, flatten_reverse']
      rw [stripFront_append rspaces_ne rspaces_free ?_ _ _ hrr (by rw [← flatten_reverse']; simp; omega), List.reverse_reverse]
      intro p hp h
      obtain ⟨q, hq, rfl⟩ := List.mem_map.1 hp
      exact (hfree q hq).2 (by rw [← List.reverse_prefix]; exact h)

theorem white_nil : White [] := ⟨[], by simp, rfl⟩

theorem trimSpace_nil {s : Str} : trimSpace s = [] ↔ White s := by
  rw [vocab_trimSpace]
  constructor
  · rintro ⟨a, b, rfl, ⟨ca, h1, rfl⟩, ⟨cb, h2, rfl⟩, -⟩
    refine ⟨ca ++ cb, fun n hn => (List.mem_append.1 hn).elim (h1 n) (h2 n), by simp⟩
  · intro h
    refine ⟨s, [], by simp, h, white_nil, fun n hn => ?_⟩
    have hne : utf8Char n ≠ [] := spaces_ne _ (by rw [vocab_spaces]; exact List.mem_map_of_mem hn)
    exact ⟨fun h => hne (List.prefix_nil.1 h), fun h => hne (List.suffix_nil.1 h)⟩

theorem trimSpace_sub {s : Str} {c : UInt8} (h : c ∈ trimSpace s) : c ∈ s := by
  obtain ⟨a, b, e, -⟩ := (vocab_trimSpace s _).1 rfl
  rw [e]
  simp [h]

/-- No-break spaces and blanks around a text with an umlaut. -/
example : trimSpace [32, 0xC2, 0xA0, 97, 32, 0xC3, 0xBC, 0xE2, 0x80, 0x83, 10] = [97, 32, 0xC3, 0xBC] ∧ White [0xC2, 0xA0, 32] :=
  ⟨by decide +kernel, [0xA0, 32], by decide, by decide +kernel⟩

end Idm
