import Verif.Spec.Template

/-!
# Lemmas about paths, lines and counters
-/
namespace Idm

/-! ## Cutting and joining -/

theorem splitOn_ne_nil (sep : UInt8) (s : Str) : splitOn sep s ≠ [] := by
  cases s with
  | nil => simp [splitOn]
  | cons c cs =>
    simp only [splitOn]
    split
    · simp
    · cases splitOn sep cs <;> simp

theorem splitOn_cons_sep (sep : UInt8) (s : Str) : splitOn sep (sep :: s) = [] :: splitOn sep s := by
  simp [splitOn]

theorem splitOn_cons_ne {sep c : UInt8} (h : c ≠ sep) (s : Str) :
    ∃ p ps, splitOn sep s = p :: ps ∧ splitOn sep (c :: s) = (c :: p) :: ps := by
  cases hs : splitOn sep s with
  | nil => exact absurd hs (splitOn_ne_nil _ _)
  | cons p ps => exact ⟨p, ps, rfl, by simp [splitOn, h, hs]⟩

theorem splitOn_no_sep {sep : UInt8} : ∀ (s : Str), ∀ p ∈ splitOn sep s, sep ∉ p := by
  intro s
  induction s with
  | nil => simp [splitOn]
  | cons c cs ih =>
    by_cases h : c = sep
    · subst h
      rw [splitOn_cons_sep]
      intro p hp
      rcases List.mem_cons.1 hp with rfl | hp
      · simp
      · exact ih p hp
    · obtain ⟨p, ps, h1, h2⟩ := splitOn_cons_ne h cs
      rw [h2]
      rw [h1] at ih
      intro q hq
      rcases List.mem_cons.1 hq with rfl | hq
      · have := ih p (by simp)
        simp only [List.mem_cons, not_or]
        exact ⟨fun e => h e.symm, this⟩
      · exact ih q (by simp [hq])

theorem joinWith_cons_ne {sep : UInt8} (p : Str) {ps : List Str} (h : ps ≠ []) :
    joinWith sep (p :: ps) = p ++ sep :: joinWith sep ps := by
  cases ps with
  | nil => exact absurd rfl h
  | cons q qs => rfl

theorem joinWith_splitOn (sep : UInt8) : ∀ (s : Str), joinWith sep (splitOn sep s) = s := by
  intro s
  induction s with
  | nil => rfl
  | cons c cs ih =>
    by_cases h : c = sep
    · subst h
      rw [splitOn_cons_sep, joinWith_cons_ne _ (splitOn_ne_nil _ _), ih]
      rfl
    · obtain ⟨p, ps, h1, h2⟩ := splitOn_cons_ne h cs
      rw [h2]
      rw [h1] at ih
      cases ps with
      | nil => simpa [joinWith] using ih
      | cons q qs => simpa [joinWith] using ih

theorem splitOn_append (sep : UInt8) (b : Str) :
    ∀ (a : Str), splitOn sep (a ++ sep :: b) = splitOn sep a ++ splitOn sep b := by
  intro a
  induction a with
  | nil => simp [splitOn]
  | cons c cs ih =>
    by_cases h : c = sep
    · subst h
      rw [List.cons_append, splitOn_cons_sep, splitOn_cons_sep, ih]
      rfl
    · obtain ⟨p, ps, h1, h2⟩ := splitOn_cons_ne h cs
      obtain ⟨p', ps', h1', h2'⟩ := splitOn_cons_ne h (cs ++ sep :: b)
      rw [List.cons_append, h2, h2']
      rw [ih, h1] at h1'
      simp only [List.cons_append, List.cons.injEq] at h1'
      rw [← h1'.1, ← h1'.2]
      rfl

theorem splitOn_single {sep : UInt8} {p : Str} (h : sep ∉ p) : splitOn sep p = [p] := by
  induction p with
  | nil => rfl
  | cons c cs ih =>
    simp only [List.mem_cons, not_or] at h
    obtain ⟨q, qs, h1, h2⟩ := splitOn_cons_ne (fun e => h.1 e.symm) cs
    rw [ih h.2] at h1
    simp only [List.cons.injEq] at h1
    rw [h2, ← h1.1, ← h1.2]

theorem splitOn_joinWith {sep : UInt8} :
    ∀ {ps : List Str}, ps ≠ [] → (∀ p ∈ ps, sep ∉ p) → splitOn sep (joinWith sep ps) = ps := by
  intro ps
  induction ps with
  | nil => intro h; exact absurd rfl h
  | cons p ps ih =>
    intro _ h
    by_cases hp : ps = []
    · subst hp
      exact splitOn_single (h p (by simp))
    · rw [joinWith_cons_ne _ hp, splitOn_append, splitOn_single (h p (by simp)),
        ih hp fun q hq => h q (by simp [hq])]
      rfl

/-! ## Paths -/

theorem cleanLoop_names : ∀ (ps acc : List Str), (∀ q ∈ acc, IsFileName q) → (∀ p ∈ ps, chSlash ∉ p) →
    ∀ q ∈ cleanLoop true acc ps, IsFileName q := by
  intro ps
  induction ps with
  | nil => intro acc ha _ q hq; exact ha q (by simpa [cleanLoop] using hq)
  | cons p ps ih =>
    intro acc ha hs
    have hs' : ∀ q ∈ ps, chSlash ∉ q := fun q hq => hs q (by simp [hq])
    rw [cleanLoop.eq_def]
    dsimp only
    by_cases h1 : p = [] ∨ p = b!"."
    · rw [if_pos h1]
      exact ih acc ha hs'
    rw [if_neg h1]
    by_cases h2 : p = b!".."
    · rw [if_pos h2]
      cases acc with
      | nil => exact ih [] (by simp) hs'
      | cons q qs =>
        have hq := ha q (by simp)
        dsimp only
        rw [if_neg hq.2.2.2]
        exact ih qs (fun r hr => ha r (by simp [hr])) hs'
    · rw [if_neg h2]
      refine ih (p :: acc) (fun q hq => ?_) hs'
      rcases List.mem_cons.1 hq with rfl | hq
      · exact ⟨fun e => h1 (Or.inl e), hs _ (by simp), fun e => h1 (Or.inr e), h2⟩
      · exact ha q hq

/-- Names survive cleaning. -/
theorem cleanLoop_self (r : Bool) : ∀ (ps acc : List Str), (∀ q ∈ ps, IsFileName q) →
    cleanLoop r acc ps = acc.reverse ++ ps := by
  intro ps
  induction ps with
  | nil => intro acc _; simp [cleanLoop]
  | cons p ps ih =>
    intro acc h
    have hp := h p (by simp)
    rw [cleanLoop.eq_def]
    dsimp only
    rw [if_neg (fun e => e.elim hp.1 hp.2.2.1), if_neg hp.2.2.2, ih _ fun q hq => h q (by simp [hq])]
    simp

theorem isAbsPath_iff (p : Str) : isAbsPath p = true ↔ ∃ t, p = chSlash :: t := by
  cases p with
  | nil => simp [isAbsPath, hasPrefix]
  | cons c cs =>
    simp only [isAbsPath, hasPrefix, List.isPrefixOf, Bool.and_true, beq_iff_eq, List.cons.injEq]
    constructor
    · intro h; exact ⟨cs, h.symm, rfl⟩
    · rintro ⟨t, h, _⟩; exact h.symm

/-- The cleaned form of an absolute path. -/
theorem cleanPath_abs {p : Str} (h : isAbsPath p = true) :
    ∃ parts, (∀ q ∈ parts, IsFileName q) ∧ cleanPath p = chSlash :: joinWith chSlash parts := by
  refine ⟨cleanLoop true [] (splitOn chSlash p), cleanLoop_names _ _ (by simp) (splitOn_no_sep p), ?_⟩
  simp [cleanPath, h]

theorem absPath_clean {cwd p : Str} (h : isAbsPath cwd = true) :
    ∃ parts, (∀ q ∈ parts, IsFileName q) ∧ absPath cwd p = chSlash :: joinWith chSlash parts := by
  unfold absPath
  by_cases hp : isAbsPath p = true
  · rw [if_pos hp]
    exact cleanPath_abs hp
  · rw [if_neg hp]
    obtain ⟨t, rfl⟩ := (isAbsPath_iff _).1 h
    unfold joinPath
    rw [if_neg (by simp)]
    split
    · exact cleanPath_abs h
    · exact cleanPath_abs ((isAbsPath_iff _).2 ⟨_, rfl⟩)

theorem descend_eq : ∀ (names : List Str) (d : Str), names ≠ [] →
    descend d names = d ++ chSlash :: joinWith chSlash names := by
  intro names
  induction names with
  | nil => intro _ h; exact absurd rfl h
  | cons q qs ih =>
    intro d _
    by_cases hq : qs = []
    · subst hq; rfl
    · show descend (d ++ chSlash :: q) qs = _
      rw [ih _ hq, joinWith_cons_ne _ hq]
      simp

theorem trimSlashes_spec (s : Str) :
    ∃ k, s = trimSlashes s ++ List.replicate k chSlash ∧ (trimSlashes s).getLast? ≠ some chSlash := by
  refine ⟨(s.reverse.takeWhile (· == chSlash)).length, ?_, ?_⟩
  · have h1 : s.reverse.takeWhile (· == chSlash) =
        List.replicate (s.reverse.takeWhile (· == chSlash)).length chSlash := by
      refine List.eq_replicate_iff.2 ⟨rfl, fun b hb => ?_⟩
      have := List.all_takeWhile (p := (· == chSlash)) (l := s.reverse)
      rw [List.all_eq_true] at this
      simpa using this b hb
    have h2 := congrArg List.reverse (List.takeWhile_append_dropWhile (p := (· == chSlash)) (l := s.reverse))
    rw [List.reverse_append, List.reverse_reverse] at h2
    rw [← List.reverse_replicate, ← h1]
    exact h2.symm
  · unfold trimSlashes
    rw [List.getLast?_reverse]
    cases h : s.reverse.dropWhile (· == chSlash) with
    | nil => simp
    | cons c cs =>
      have := List.head_dropWhile_not (p := (· == chSlash)) (l := s.reverse) (by simp [h])
      simp only [h, List.head_cons, beq_eq_false_iff_ne] at this
      simpa using this

theorem trimSlashes_append {d : Str} (k : Nat) (h : d.getLast? ≠ some chSlash) :
    trimSlashes (d ++ List.replicate k chSlash) = d := by
  unfold trimSlashes
  rw [List.reverse_append, List.reverse_replicate]
  have h1 : ∀ (k : Nat) (l : Str), (List.replicate k chSlash ++ l).dropWhile (· == chSlash) = l.dropWhile (· == chSlash) := by
    intro k l
    induction k with
    | zero => rfl
    | succ k ih => simpa [List.replicate_succ] using ih
  rw [h1]
  rw [← List.head?_reverse] at h
  cases hd : d.reverse with
  | nil => simpa using (congrArg List.reverse hd).symm
  | cons c cs =>
    rw [hd] at h
    have : ¬(c = chSlash) := by simpa using h
    rw [List.dropWhile_cons_of_neg (by simpa using this), ← hd, List.reverse_reverse]

theorem inside_of_prefix {base p : Str} {parts : List Str} (hparts : ∀ q ∈ parts, IsFileName q)
    (hp : p = chSlash :: joinWith chSlash parts) (h : hasPrefix p (trimSlashes base ++ [chSlash]) = true) :
    InsideDir base p := by
  obtain ⟨k, h1, h2⟩ := trimSlashes_spec base
  generalize trimSlashes base = d at *
  rw [hasPrefix, List.isPrefixOf_iff_prefix] at h
  obtain ⟨r, hr⟩ := h
  simp only [List.append_assoc, List.singleton_append] at hr
  by_cases hn : parts = []
  · subst hn
    refine ⟨d, k, [], h1, h2, by simp, Or.inr ?_⟩
    have hp : p = [chSlash] := hp
    subst hp
    have hl := congrArg List.length hr
    simp only [List.length_append, List.length_cons, List.length_nil] at hl
    exact ⟨List.length_eq_zero_iff.1 (by omega), rfl⟩
  · have hs : splitOn chSlash p = [] :: parts := by
      rw [hp, splitOn_cons_sep, splitOn_joinWith hn fun q hq => (hparts q hq).2.1]
    rw [← hr, splitOn_append] at hs
    obtain ⟨a, as, ha⟩ : ∃ a as, splitOn chSlash d = a :: as := by
      cases h : splitOn chSlash d with
      | nil => exact absurd h (splitOn_ne_nil _ _)
      | cons a as => exact ⟨a, as, rfl⟩
    rw [ha, List.cons_append, List.cons.injEq] at hs
    refine ⟨d, k, splitOn chSlash r, h1, h2, fun q hq => hparts q ?_, Or.inl ⟨splitOn_ne_nil _ _, ?_⟩⟩
    · rw [← hs.2]; exact List.mem_append_right _ hq
    · rw [descend_eq _ _ (splitOn_ne_nil _ _), joinWith_splitOn]
      exact hr.symm

theorem includePath_inside {cwd base fn p : Str} (hc : isAbsPath cwd = true) (h : includePath cwd base fn = some p) :
    InsideDir base p := by
  obtain ⟨parts, h1, h2⟩ := absPath_clean (p := if isAbsPath (cleanPath fn) then cleanPath fn
    else joinPath base (cleanPath fn)) hc
  rw [includePath] at h
  by_cases hb : base = []
  · rw [if_pos hb] at h
    cases h
  rw [if_neg hb] at h
  dsimp only at h
  generalize absPath cwd _ = f at h h2
  by_cases hpre : hasPrefix f (trimSlashes base ++ [chSlash]) = true
  · rw [if_pos hpre] at h
    cases h
    exact inside_of_prefix h1 h2 hpre
  · rw [if_neg hpre] at h
    cases h

/-! ## Lines -/

theorem addLogical_plain (acc : List Str) {l : Str} (h : isContinuation l = false) : addLogical acc l = l :: acc := by
  cases acc with
  | nil => rfl
  | cons p ps => simp [addLogical, h]

theorem addLogical_cont (p : Str) (ps : List Str) {l : Str} (h : isContinuation l = true) :
    addLogical (p :: ps) l = (p ++ l.drop 1) :: ps := by
  simp [addLogical, h]

theorem isComment_not_continuation {l : Str} (h : isComment l = true) : isContinuation l = false := by
  cases l with
  | nil => rfl
  | cons c cs =>
    simp only [isComment, hasPrefix, List.isPrefixOf, Bool.and_true, beq_iff_eq] at h
    subst h
    simp [isContinuation, hasPrefix, List.isPrefixOf]

/-- The logical lines other than comments do not change when comments are taken out first. `ls` is what is still to come:
either it does not begin with a continuation, or the last logical line is the same on both sides. -/
theorem fold_logical (ls : List Str) : ∀ (A B : List Str), PlainComments ls →
    ((∀ l ∈ ls.head?, isContinuation l = false) ∧ A.filter (!isComment ·) = B.filter (!isComment ·) ∨
      (∃ x A' B', A = x :: A' ∧ B = x :: B' ∧ A'.filter (!isComment ·) = B'.filter (!isComment ·)) ∨
      (A = [] ∧ B = [])) →
    (ls.foldl addLogical A).filter (!isComment ·) =
      ((ls.filter (!isComment ·)).foldl addLogical B).filter (!isComment ·) := by
  induction ls with
  | nil =>
    intro A B _ h
    rcases h with ⟨_, h⟩ | ⟨x, A', B', rfl, rfl, h⟩ | ⟨rfl, rfl⟩
    · exact h
    · simp [List.filter_cons, h]
    · rfl
  | cons l ls ih =>
    intro A B hp h
    have hp' : PlainComments ls := by
      cases ls with
      | nil => trivial
      | cons b ls => exact hp.2
    have hAB : A.filter (!isComment ·) = B.filter (!isComment ·) := by
      rcases h with ⟨_, h⟩ | ⟨x, A', B', rfl, rfl, h⟩ | ⟨rfl, rfl⟩
      · exact h
      · simp [List.filter_cons, h]
      · rfl
    by_cases hc : isComment l = true
    · have hnc := isComment_not_continuation hc
      rw [List.filter_cons_of_neg (by simp [hc]), List.foldl_cons, addLogical_plain _ hnc]
      refine ih _ _ hp' (Or.inl ⟨fun b hb => ?_, ?_⟩)
      · cases ls with
        | nil => cases hb
        | cons b' ls =>
          simp only [List.head?_cons, Option.mem_def, Option.some.injEq] at hb
          subst hb
          exact hp.1 hc
      · rw [List.filter_cons_of_neg (by simp [hc]), hAB]
    · rw [List.filter_cons_of_pos (by simp [hc]), List.foldl_cons, List.foldl_cons]
      refine ih _ _ hp' (Or.inr (Or.inl ?_))
      by_cases hk : isContinuation l = true
      · rcases h with ⟨h, _⟩ | ⟨x, A', B', rfl, rfl, h⟩ | ⟨rfl, rfl⟩
        · have := h l (by simp)
          rw [hk] at this
          cases this
        · exact ⟨_, A', B', addLogical_cont _ _ hk, addLogical_cont _ _ hk, h⟩
        · exact ⟨l, [], [], rfl, rfl, rfl⟩
      · have hk : isContinuation l = false := by simpa using hk
        exact ⟨l, A, B, addLogical_plain _ hk, addLogical_plain _ hk, hAB⟩

theorem takeWhile_all {α : Type} {p : α → Bool} : ∀ {l : List α}, (∀ x ∈ l, p x = true) → l.takeWhile p = l := by
  intro l
  induction l with
  | nil => intro _; rfl
  | cons x xs ih =>
    intro h
    rw [List.takeWhile_cons_of_pos (h x (by simp)), ih fun y hy => h y (by simp [hy])]

/-! ## The counter -/

theorem autoCalls_length (n : UInt64) (cs : List (List UInt64)) : (autoCalls n cs).length = cs.length := by
  induction cs generalizing n with
  | nil => rfl
  | cons c cs ih => simp [autoCalls, ih]

theorem autoCalls_run : ∀ (k : Nat) (n : UInt64) (cs : List (List UInt64)), (∀ i, i ≤ k → cs[i]? = some []) →
    n.toNat + (k + 1) < 2 ^ 64 → ∃ v, (autoCalls n cs)[k]? = some v ∧ v.toNat = n.toNat + (k + 1) := by
  intro k
  induction k with
  | zero =>
    intro n cs h hn
    cases cs with
    | nil => have := h 0 (Nat.le_refl _); cases this
    | cons c cs =>
      have h0 := h 0 (Nat.le_refl _)
      simp only [List.getElem?_cons_zero, Option.some.injEq] at h0
      subst h0
      refine ⟨n + 1, rfl, ?_⟩
      rw [UInt64.toNat_add]
      simp only [UInt64.reduceToNat]
      omega
  | succ k ih =>
    intro n cs h hn
    cases cs with
    | nil => have := h 0 (Nat.zero_le _); cases this
    | cons c cs =>
      have h0 := h 0 (Nat.zero_le _)
      simp only [List.getElem?_cons_zero, Option.some.injEq] at h0
      subst h0
      have hn1 : (n + 1).toNat = n.toNat + 1 := by
        rw [UInt64.toNat_add]
        simp only [UInt64.reduceToNat]
        omega
      obtain ⟨v, h1, h2⟩ := ih (n + 1) cs (fun i hi => by simpa using h (i + 1) (by omega)) (by rw [hn1]; omega)
      refine ⟨v, by simpa [autoCalls, autoIncrement] using h1, by rw [h2, hn1]; omega⟩

theorem autoCalls_from : ∀ (i d : Nat) (n : UInt64) (cs : List (List UInt64)) (u : UInt64),
    (autoCalls n cs)[i]? = some u → (∀ k, i < k → k ≤ i + (d + 1) → cs[k]? = some []) →
    u.toNat + (d + 1) < 2 ^ 64 →
    ∃ v, (autoCalls n cs)[i + (d + 1)]? = some v ∧ v.toNat = u.toNat + (d + 1) := by
  intro i
  induction i with
  | zero =>
    intro d n cs u hu h hn
    cases cs with
    | nil => cases hu
    | cons c cs =>
      simp only [autoCalls, List.getElem?_cons_zero, Option.some.injEq] at hu
      subst hu
      obtain ⟨v, h1, h2⟩ := autoCalls_run d (autoIncrement n c) cs
        (fun i hi => by simpa using h (i + 1) (by omega) (by omega)) hn
      exact ⟨v, by simpa [autoCalls] using h1, h2⟩
  | succ i ih =>
    intro d n cs u hu h hn
    cases cs with
    | nil => cases hu
    | cons c cs =>
      obtain ⟨v, h1, h2⟩ := ih d (autoIncrement n c) cs u (by simpa [autoCalls] using hu)
        (fun k h1 h2 => by simpa using h (k + 1) (by omega) (by omega)) hn
      refine ⟨v, ?_, h2⟩
      rw [show i + 1 + (d + 1) = (i + (d + 1)) + 1 from by omega]
      simpa [autoCalls] using h1

end Idm
