import Verif.Props.Space
import Verif.Props.Vocabulary
/-!
# The assumptions about `strings.TrimSpace` hold of what it does

`CaseEnv.Lawful` assumes seven laws of an abstract `trimSpace`. Here they are proved of `trimSpace`, with the white space of Unicode.
-/
namespace Idm

theorem spaces_blankish : ∀ p ∈ spaces, ∀ x ∈ p, isSpaceByte x = true ∨ 128 ≤ x := by decide +kernel

theorem spaces_ascii : ∀ p ∈ spaces, (∀ x ∈ p, x < 128) → ∃ x, p = [x] ∧ isSpaceByte x = true := by
  have key : ∀ p ∈ spaces, (p.all (· < 128)) = true → p.length = 1 ∧ p.all isSpaceByte = true := by decide +kernel
  intro p hp h
  obtain ⟨h1, h2⟩ := key p hp (List.all_eq_true.2 fun x hx => by simpa using h x hx)
  match p, h1 with
  | [x], _ => exact ⟨x, rfl, by simpa using h2⟩

theorem space_single {x : UInt8} (h : isSpaceByte x = true) : [x] ∈ spaces := by
  revert h; revert x; decide +kernel

theorem white_spaces {n : Nat} (hn : n ∈ whiteSpace) : utf8Char n ∈ spaces := by
  rw [vocab_spaces]; exact List.mem_map_of_mem hn

theorem white_bytes {s : Str} (h : White s) : ∀ x ∈ s, isSpaceByte x = true ∨ 128 ≤ x := by
  obtain ⟨l, hl, rfl⟩ := white_iff.1 h
  intro x hx
  obtain ⟨p, hp, hx⟩ := List.mem_flatten.1 hx
  exact spaces_blankish p (hl p hp) x hx

theorem white_of_spaces {s : Str} (h : ∀ x ∈ s, isSpaceByte x = true) : White s := by
  refine white_iff.2 ⟨s.map fun x => [x], ?_, ?_⟩
  · intro p hp
    obtain ⟨x, hx, rfl⟩ := List.mem_map.1 hp
    exact space_single (h x hx)
  · clear h
    induction s with
    | nil => rfl
    | cons x s ih => simpa using ih

theorem White.append {s t : Str} (hs : White s) (ht : White t) : White (s ++ t) := by
  obtain ⟨l, hl, rfl⟩ := white_iff.1 hs
  obtain ⟨r, hr, rfl⟩ := white_iff.1 ht
  exact white_iff.2 ⟨l ++ r, fun p hp => (List.mem_append.1 hp).elim (hl p) (hr p), by simp⟩

/-- A character that is not white space is not inside one that is. -/
theorem not_in_space {c : UInt8} (h1 : c < 128) (h2 : isSpaceByte c = false) {p : Str} (hp : p ∈ spaces) : c ∉ p := fun h => by
  rcases spaces_blankish p hp c h with h' | h'
  · rw [h2] at h'; cases h'
  · exact absurd h1 (UInt8.not_lt.2 h')

theorem trimSpace_ascii {s : Str} (hs : IsAscii s) : trimSpace s = trimBy isSpaceByte s := by
  obtain ⟨a, b, e, hab, h1, h2⟩ := (vocab_trimBy isSpaceByte s _).1 rfl
  refine (vocab_trimSpace s _).2 ⟨a, b, e, white_of_spaces fun x hx => hab x (List.mem_append_left _ hx),
    white_of_spaces fun x hx => hab x (List.mem_append_right _ hx), fun n hn => ?_⟩
  have hsub : ∀ x ∈ trimBy isSpaceByte s, x < 128 := fun x hx => hs x (by rw [e]; simp [hx])
  constructor
  · rintro ⟨u, hu⟩
    obtain ⟨x, hx, hsp⟩ := spaces_ascii _ (white_spaces hn) fun x hx => hsub x (by rw [← hu]; simp [hx])
    have := h1 x (by rw [← hu, hx]; rfl)
    rw [hsp] at this; cases this
  · rintro ⟨u, hu⟩
    obtain ⟨x, hx, hsp⟩ := spaces_ascii _ (white_spaces hn) fun x hx => hsub x (by rw [← hu]; simp [hx])
    have := h2 x (by rw [← hu, hx]; simp)
    rw [hsp] at this; cases this

theorem trimSpace_keeps {s : Str} {c : UInt8} (hc : c ∈ s) (h1 : c < 128) (h2 : isSpaceByte c = false) : trimSpace s ≠ [] := fun h => by
  rcases white_bytes (trimSpace_nil.1 h) c hc with h' | h'
  · rw [h2] at h'; cases h'
  · exact absurd h1 (UInt8.not_lt.2 h')

/-- Nothing but white space comes before a character that is not, when it is the first. -/
theorem trimSpace_cons {c : UInt8} {b : Str} (h1 : c < 128) (h2 : isSpaceByte c = false) :
    ∃ t y, trimSpace (c :: b) = c :: t ∧ b = t ++ y ∧ White y := by
  obtain ⟨x, y, e, hx, hy, -⟩ := (vocab_trimSpace (c :: b) _).1 rfl
  have hb : ∀ {z : Str}, White z → c ∉ z := fun hz hc => by
    rcases white_bytes hz c hc with h' | h'
    · rw [h2] at h'; cases h'
    · exact absurd h1 (UInt8.not_lt.2 h')
  cases x with
  | cons d x =>
    rw [List.cons_append, List.cons_append, List.cons.injEq] at e
    exact absurd (by rw [e.1]; simp) (hb hx)
  | nil =>
    cases ht : trimSpace (c :: b) with
    | nil => exact absurd ht (trimSpace_keeps List.mem_cons_self h1 h2)
    | cons d t =>
      rw [ht, List.nil_append, List.cons_append, List.cons.injEq] at e
      exact ⟨t, y, by rw [e.1], e.2, hy⟩

theorem trimSpace_left (a : Str) {c : UInt8} (b : Str) (h1 : c < 128) (h2 : isSpaceByte c = false) :
    ∃ l a', a = l ++ a' ∧ (∀ x ∈ l, isSpaceByte x = true ∨ 128 ≤ x) ∧ trimSpace (a ++ c :: b) = a' ++ trimSpace (c :: b) := by
  obtain ⟨⟨l, hl, e⟩, ha⟩ := stripFront_spec spaces_ne a.length a (Nat.le_refl _)
  generalize stripFront spaces a.length a = a' at e ha
  have hlw : White l.flatten := white_iff.2 ⟨l, hl, rfl⟩
  obtain ⟨t, y, ht, hb, hy⟩ := trimSpace_cons (b := b) h1 h2
  refine ⟨l.flatten, a', e, white_bytes hlw, ?_⟩
  have hsuf : ∀ n ∈ whiteSpace, ¬ utf8Char n <:+ c :: t := by
    obtain ⟨_, _, _, _, _, h⟩ := (vocab_trimSpace (c :: b) _).1 ht
    exact fun n hn => (h n hn).2
  rw [ht]
  refine (vocab_trimSpace _ _).2 ⟨l.flatten, y, by rw [e, hb]; simp, hlw, hy, fun n hn => ⟨?_, ?_⟩⟩
  · rintro ⟨u, hu⟩
    rcases List.append_eq_append_iff.1 hu with ⟨v, h3, -⟩ | ⟨v, h3, h4⟩
    · exact ha _ (white_spaces hn) ⟨v, h3.symm⟩
    · cases v with
      | nil => rw [List.append_nil] at h3; exact ha _ (white_spaces hn) (h3 ▸ List.prefix_refl _)
      | cons d v =>
        rw [List.cons_append, List.cons.injEq] at h4
        exact not_in_space h1 h2 (white_spaces hn) (by rw [h3, h4.1]; simp)
  · rintro ⟨u, hu⟩
    rcases List.append_eq_append_iff.1 hu with ⟨v, -, h4⟩ | ⟨v, -, h4⟩
    · exact not_in_space h1 h2 (white_spaces hn) (by rw [h4]; simp)
    · exact hsuf n hn ⟨v, h4.symm⟩

theorem trimSpace_leading {a : Str} (s : Str) (h : ∀ x ∈ a, isSpaceByte x = true) : trimSpace (a ++ s) = trimSpace s := by
  obtain ⟨x, y, e, hx, hy, ht⟩ := (vocab_trimSpace s _).1 rfl
  exact (vocab_trimSpace _ _).2 ⟨a ++ x, y, by rw [List.append_assoc, List.append_assoc, ← List.append_assoc x, ← e],
    (white_of_spaces h).append hx, hy, ht⟩

theorem trimSpace_free {s : Str} (h : trimSpace s = s) : ∀ n ∈ whiteSpace, ¬ utf8Char n <+: s ∧ ¬ utf8Char n <:+ s := by
  obtain ⟨_, _, _, _, _, h⟩ := (vocab_trimSpace s s).1 h
  exact h

theorem trimSpace_same {s : Str} (h : ∀ n ∈ whiteSpace, ¬ utf8Char n <+: s ∧ ¬ utf8Char n <:+ s) : trimSpace s = s :=
  (vocab_trimSpace s s).2 ⟨[], [], by simp, white_nil, white_nil, h⟩

theorem trimSpace_fixed {c : UInt8} {s : Str} (h1 : c < 128) (h2 : isSpaceByte c = false) (h : trimSpace s = s) :
    trimSpace (c :: s) = c :: s := by
  refine trimSpace_same fun n hn => ⟨?_, ?_⟩
  · rintro ⟨u, hu⟩
    cases hp : utf8Char n with
    | nil => exact spaces_ne _ (white_spaces hn) hp
    | cons d p =>
      rw [hp, List.cons_append, List.cons.injEq] at hu
      exact not_in_space h1 h2 (white_spaces hn) (by rw [hp, hu.1]; simp)
  · rintro ⟨u, hu⟩
    cases u with
    | nil => exact not_in_space h1 h2 (white_spaces hn) (by rw [List.nil_append] at hu; rw [hu]; simp)
    | cons d u =>
      rw [List.cons_append, List.cons.injEq] at hu
      exact (trimSpace_free h n hn).2 ⟨u, hu.2⟩

theorem spaces_lower : ∀ p ∈ spaces, ∀ x ∈ p, ∀ y, lowerByte y = x → y = x := by
  have key : ∀ y : UInt8, lowerByte y = y ∨ (97 ≤ lowerByte y ∧ lowerByte y ≤ 122) := by decide +kernel
  have free : ∀ p ∈ spaces, ∀ x ∈ p, ¬ (97 ≤ x ∧ x ≤ 122) := by decide +kernel
  intro p hp x hx y h
  rcases key y with h' | h'
  · rw [← h, h']
  · rw [h] at h'; exact absurd h' (free p hp x hx)

theorem map_lower_eq {p s : Str} (hp : p ∈ spaces) (h : s.map lowerByte = p) : s = p := by
  have : ∀ (s q : Str), (∀ x ∈ q, x ∈ p) → s.map lowerByte = q → s = q := by
    intro s
    induction s with
    | nil => intro q _ h; exact h
    | cons y s ih =>
      intro q hq h
      cases q with
      | nil => cases h
      | cons x q =>
        rw [List.map_cons, List.cons.injEq] at h
        rw [spaces_lower p hp x (hq x List.mem_cons_self) y h.1, ih q (fun z hz => hq z (List.mem_cons_of_mem _ hz)) h.2]
  exact this s p (fun _ h => h) h

/-- `asciiCase` with the true `strings.TrimSpace`. -/
def spaceCase : CaseEnv := { asciiCase with trimSpace := trimSpace }

/-- The laws assumed of `strings.TrimSpace` hold of it, together with all the others. -/
theorem spaceCase_lawful : spaceCase.Lawful :=
  { asciiCase_lawful with
    trimSpace_ascii := fun _ h => trimSpace_ascii h
    trimSpace_keeps := fun _ _ h h1 h2 => trimSpace_keeps h h1 h2
    trimSpace_inner := fun s => by
      obtain ⟨a, b, e, ha, -⟩ := (vocab_trimSpace s _).1 rfl
      exact ⟨a, b, e, white_bytes ha⟩
    trimSpace_left := fun a _ b h1 h2 => trimSpace_left a b h1 h2
    trimSpace_leading := fun _ s h => trimSpace_leading s h
    trimSpace_fixed := fun _ _ h1 h2 _ h => trimSpace_fixed h1 h2 h
    lower_trimmed := fun s h => by
      show trimSpace (s.map lowerByte) = s.map lowerByte
      refine trimSpace_same fun n hn => ⟨?_, ?_⟩
      · rintro ⟨u, hu⟩
        obtain ⟨p, q, e, h1, -⟩ := List.append_eq_map_iff.1 hu
        exact (trimSpace_free h n hn).1 ⟨q, by rw [e, map_lower_eq (white_spaces hn) h1]⟩
      · rintro ⟨u, hu⟩
        obtain ⟨p, q, e, -, h1⟩ := List.append_eq_map_iff.1 hu
        exact (trimSpace_free h n hn).2 ⟨p, by rw [e, map_lower_eq (white_spaces hn) h1]⟩ }

end Idm
