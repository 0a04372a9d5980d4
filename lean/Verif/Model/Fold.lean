import Verif.Model.Basic
/-!
# Case folding and other Unicode-dependent library functions

These are functions of the Go standard library and golang.org/x/text. They stay abstract; `CaseEnv.Lawful` states what is
assumed about them, and `asciiCase` is an instance that satisfies the assumptions.
-/
namespace Idm

/-- The Unicode-dependent string functions used by the code. -/
structure CaseEnv where
  /-- `cases.Fold().String` (golang.org/x/text/cases) -/
  fold : Str → Str
  /-- `strings.EqualFold` -/
  eqFold : Str → Str → Bool
  /-- `strings.ToLower` -/
  lower : Str → Str
  /-- `strings.ToUpper` -/
  upper : Str → Str
  /-- `string([]rune(s))`: replaces invalid UTF-8 by U+FFFD -/
  utf8Fix : Str → Str
  /-- `strings.TrimSpace` -/
  trimSpace : Str → Str
  /-- go-ldap's `decodeEncodedString`: BER value of a `#hex` attribute value -/
  berHex : Str → Option Str

/-- What is assumed about the functions of `CaseEnv`. All are facts about Unicode case mapping, which is context free and maps
ASCII to ASCII, and about UTF-8, in which an ASCII byte always is a character of its own. -/
structure CaseEnv.Lawful (C : CaseEnv) : Prop where
  fold_nil : C.fold [] = []
  fold_split : ∀ s c t, c < 128 → C.fold (s ++ c :: t) = C.fold s ++ lowerByte c :: C.fold t
  fold_space : ∀ s, (C.fold s).getLast? = some 32 → s.getLast? = some 32
  fold_idem : ∀ s, C.fold (C.fold s) = C.fold s
  eqFold_refl : ∀ s, C.eqFold s s = true
  eqFold_symm : ∀ s t, C.eqFold s t = C.eqFold t s
  eqFold_trans : ∀ s t u, C.eqFold s t = true → C.eqFold t u = true → C.eqFold s u = true
  eqFold_ascii : ∀ s t, IsAscii s → IsAscii t → (C.eqFold s t = true ↔ s.map lowerByte = t.map lowerByte)
  lower_nil : C.lower [] = []
  lower_split : ∀ s c t, c < 128 → C.lower (s ++ c :: t) = C.lower s ++ lowerByte c :: C.lower t
  lower_idem : ∀ s, C.lower (C.lower s) = C.lower s
  upper_ascii : ∀ s, IsAscii s → C.upper s = s.map upperByte
  utf8Fix_ascii : ∀ s, IsAscii s → C.utf8Fix s = s
  trimSpace_ascii : ∀ s, IsAscii s → C.trimSpace s = trimBy isSpaceByte s
  trimSpace_keeps : ∀ s c, c ∈ s → c < 128 → isSpaceByte c = false → C.trimSpace s ≠ []
  trimSpace_inner : ∀ s, ∃ l r, s = l ++ C.trimSpace s ++ r ∧ ∀ x ∈ l, isSpaceByte x = true ∨ 128 ≤ x
  trimSpace_left : ∀ a c b, c < 128 → isSpaceByte c = false → ∃ l a', a = l ++ a' ∧ (∀ x ∈ l, isSpaceByte x = true ∨ 128 ≤ x) ∧
    C.trimSpace (a ++ c :: b) = a' ++ C.trimSpace (c :: b)
  trimSpace_leading : ∀ a s, (∀ x ∈ a, isSpaceByte x = true) → C.trimSpace (a ++ s) = C.trimSpace s
  trimSpace_fixed : ∀ c s, c < 128 → isSpaceByte c = false → s ≠ [] → C.trimSpace s = s → C.trimSpace (c :: s) = c :: s
  lower_eq_nil : ∀ s, C.lower s = [] → s = []
  lower_byte : ∀ s c, c ∈ C.lower s → c < 128 → c ∈ s ∨ (97 ≤ c ∧ c ≤ 122)
  lower_valid : ∀ s, C.utf8Fix s = s → C.utf8Fix (C.lower s) = C.lower s
  lower_trimmed : ∀ s, C.trimSpace s = s → C.trimSpace (C.lower s) = C.lower s

theorem trimBy_keeps (p : UInt8 → Bool) (s : Str) (c : UInt8) (h : c ∈ s) (hp : p c = false) : trimBy p s ≠ [] := by
  have drop : ∀ s : Str, c ∈ s → c ∈ s.dropWhile p := by
    intro s hs
    induction s with
    | nil => simp at hs
    | cons x xs ih =>
      rw [List.dropWhile_cons]
      split
      · rename_i hx
        rcases List.mem_cons.1 hs with rfl | hs
        · rw [hp] at hx; cases hx
        · exact ih hs
      · exact hs
  have := drop _ (List.mem_reverse.2 (drop _ h))
  unfold trimBy
  intro e
  rw [List.reverse_eq_nil_iff] at e
  rw [e] at this
  simp at this

theorem dropWhile_append_cons {p : UInt8 → Bool} (x : Str) (c : UInt8) (y : Str) (hc : p c = false) :
    (x ++ c :: y).dropWhile p = x.dropWhile p ++ c :: y := by
  induction x with
  | nil => simp [hc]
  | cons a x ih =>
    by_cases ha : p a = true
    · simp [ha, ih]
    · simp [ha]

/-- Remove trailing elements. -/
def rtrim (p : UInt8 → Bool) (s : Str) : Str := (s.reverse.dropWhile p).reverse

theorem trimBy_append_cons {p : UInt8 → Bool} (x : Str) (c : UInt8) (y : Str) (hc : p c = false) :
    trimBy p (x ++ c :: y) = x.dropWhile p ++ c :: rtrim p y := by
  unfold trimBy rtrim
  rw [dropWhile_append_cons x c y hc]
  rw [List.reverse_append, List.reverse_cons, List.append_assoc, List.singleton_append, dropWhile_append_cons _ c _ hc]
  simp

theorem rtrim_eq {p : UInt8 → Bool} (y : Str) :
    (trimBy p y = [] ∧ rtrim p y = []) ∨ (trimBy p y ≠ [] ∧ rtrim p y = y.takeWhile p ++ trimBy p y) := by
  have hy : y = y.takeWhile p ++ y.dropWhile p := (List.takeWhile_append_dropWhile).symm
  cases hd : y.dropWhile p with
  | nil =>
    left
    have hall : ∀ c ∈ y, p c = true := by
      intro c hc
      rw [hy, hd, List.append_nil] at hc
      exact (List.all_eq_true.1 (List.all_takeWhile (p := p) (l := y))) c hc
    refine ⟨by simp [trimBy, hd], ?_⟩
    unfold rtrim
    rw [show y.reverse.dropWhile p = [] from ?_]; rfl
    have : ∀ l : Str, (∀ c ∈ l, p c = true) → l.dropWhile p = [] := by
      intro l
      induction l with
      | nil => intro _; rfl
      | cons c l ih =>
        intro h
        rw [List.dropWhile_cons_of_pos (h c List.mem_cons_self)]
        exact ih fun d hd => h d (List.mem_cons_of_mem _ hd)
    exact this _ fun c hc => hall c (List.mem_reverse.1 hc)
  | cons a t =>
    right
    have ha : p a = false := by
      have := List.head?_dropWhile_not p y
      rw [hd] at this
      simpa using this
    have h1 : trimBy p y = a :: rtrim p t := by
      unfold trimBy
      rw [hd, show ((a :: t).reverse.dropWhile p).reverse = rtrim p (a :: t) from rfl]
      have := trimBy_append_cons (p := p) [] a t ha
      simpa [trimBy, rtrim, ha] using this
    refine ⟨by rw [h1]; simp, ?_⟩
    rw [h1]
    conv => lhs; rw [hy, hd]
    unfold rtrim
    rw [List.reverse_append, List.reverse_cons, List.append_assoc, List.singleton_append, dropWhile_append_cons _ a _ ha]
    simp

theorem dropWhile_map {p : UInt8 → Bool} {f : UInt8 → UInt8} (h : ∀ c, p (f c) = p c) : ∀ s : Str, (s.map f).dropWhile p = (s.dropWhile p).map f
  | [] => rfl
  | c :: s => by
    rw [List.map_cons]
    by_cases hc : p c = true
    · rw [List.dropWhile_cons_of_pos (by rw [h]; exact hc), List.dropWhile_cons_of_pos hc, dropWhile_map h s]
    · rw [List.dropWhile_cons_of_neg (by rw [h]; exact hc), List.dropWhile_cons_of_neg hc, List.map_cons]

theorem dropWhile_all_append {p : UInt8 → Bool} : ∀ (a s : Str), (∀ x ∈ a, p x = true) → (a ++ s).dropWhile p = s.dropWhile p
  | [], _, _ => rfl
  | x :: a, s, h => by
    rw [List.cons_append, List.dropWhile_cons_of_pos (h x List.mem_cons_self)]
    exact dropWhile_all_append a s fun y hy => h y (List.mem_cons_of_mem _ hy)

theorem rtrim_prefix (p : UInt8 → Bool) (s : Str) : ∃ r, s = rtrim p s ++ r := by
  refine ⟨(s.reverse.takeWhile p).reverse, ?_⟩
  rw [rtrim, ← List.reverse_append, List.takeWhile_append_dropWhile, List.reverse_reverse]

/-- The instance that treats all bytes above 127 as caseless characters. -/
def asciiCase : CaseEnv where
  fold s := s.map lowerByte
  eqFold s t := s.map lowerByte == t.map lowerByte
  lower s := s.map lowerByte
  upper s := s.map upperByte
  utf8Fix s := s
  trimSpace s := trimBy isSpaceByte s
  berHex _ := none

theorem lowerByte_idem (c : UInt8) : lowerByte (lowerByte c) = lowerByte c := by
  revert c; decide +kernel

theorem asciiCase_lawful : asciiCase.Lawful where
  fold_nil := rfl
  fold_split := by intros; simp [asciiCase]
  fold_space := by
    intro s h
    have key : ∀ c : UInt8, lowerByte c = 32 → c = 32 := by decide +kernel
    simp only [asciiCase, List.getLast?_map, Option.map_eq_some_iff] at h
    obtain ⟨c, hc, h'⟩ := h
    rw [hc, key c h']
  fold_idem := by intro s; simp [asciiCase, Function.comp_def, lowerByte_idem]
  eqFold_refl := by intro s; simp [asciiCase]
  eqFold_symm := by intro s t; simp [asciiCase, Bool.beq_comm]
  eqFold_trans := by intro s t u; simp only [asciiCase, beq_iff_eq]; exact Eq.trans
  eqFold_ascii := by intros; simp [asciiCase]
  lower_nil := rfl
  lower_split := by intros; simp [asciiCase]
  lower_idem := by intro s; simp [asciiCase, Function.comp_def, lowerByte_idem]
  upper_ascii := by intros; rfl
  utf8Fix_ascii := by intros; rfl
  trimSpace_ascii := by intros; rfl
  trimSpace_keeps := fun s c h _ hp => trimBy_keeps _ s c h hp
  trimSpace_inner := by
    intro s
    obtain ⟨r, hr⟩ := rtrim_prefix isSpaceByte (s.dropWhile isSpaceByte)
    refine ⟨s.takeWhile isSpaceByte, r, ?_, fun x hx => .inl (List.all_eq_true.1 List.all_takeWhile x hx)⟩
    have : asciiCase.trimSpace s = rtrim isSpaceByte (s.dropWhile isSpaceByte) := rfl
    rw [this, List.append_assoc, ← hr, List.takeWhile_append_dropWhile]
  trimSpace_left := by
    intro a c b _ hp
    refine ⟨a.takeWhile isSpaceByte, a.dropWhile isSpaceByte, List.takeWhile_append_dropWhile.symm,
      fun x hx => .inl (List.all_eq_true.1 List.all_takeWhile x hx), ?_⟩
    show trimBy isSpaceByte _ = _ ++ trimBy isSpaceByte _
    rw [trimBy_append_cons a c b hp]
    have := trimBy_append_cons (p := isSpaceByte) [] c b hp
    rw [List.nil_append] at this
    rw [this]
    rfl
  trimSpace_leading := by
    intro a s h
    show trimBy isSpaceByte _ = trimBy isSpaceByte _
    rw [trimBy, trimBy, dropWhile_all_append a s h]
  trimSpace_fixed := by
    intro c s _ hp hne hs
    show trimBy isSpaceByte _ = _
    have hs : trimBy isSpaceByte s = s := hs
    have := trimBy_append_cons (p := isSpaceByte) [] c s hp
    rw [List.nil_append] at this
    rw [this]
    rcases rtrim_eq (p := isSpaceByte) s with ⟨h, -⟩ | ⟨-, h⟩
    · exact absurd (hs.symm.trans h) hne
    · rw [hs] at h
      obtain ⟨r, hr⟩ := rtrim_prefix isSpaceByte s
      have hl := congrArg List.length hr
      have hl2 := congrArg List.length h
      simp only [List.length_append] at hl hl2
      have : s.takeWhile isSpaceByte = [] := List.eq_nil_of_length_eq_zero (by omega)
      rw [this] at h
      rw [h]
      rfl
  lower_eq_nil := by intro s h; simpa [asciiCase] using h
  lower_byte := by
    intro s c hc h
    obtain ⟨d, hd, rfl⟩ := List.mem_map.1 hc
    have : ∀ d : UInt8, lowerByte d = d ∨ (97 ≤ lowerByte d ∧ lowerByte d ≤ 122) := by decide +kernel
    rcases this d with h | h
    · exact .inl (h.symm ▸ hd)
    · exact .inr h
  lower_valid := by intros; rfl
  lower_trimmed := by
    intro s hs
    have hs : trimBy isSpaceByte s = s := hs
    show trimBy isSpaceByte (s.map lowerByte) = s.map lowerByte
    have : ∀ c, isSpaceByte (lowerByte c) = isSpaceByte c := by decide +kernel
    conv => rhs; rw [← hs]
    rw [trimBy, trimBy, dropWhile_map this, ← List.map_reverse, dropWhile_map this, List.map_reverse]

end Idm
