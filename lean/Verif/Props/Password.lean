import Verif.Model.Password
/-!
# C23, C24: password hashes and generated passwords
-/
namespace Idm

section
variable {C : CaseEnv} {K : CryptoEnv}

/-- A stored value that names a scheme: `{` somewhere followed by `}`. -/
def HasScheme (h : Str) : Prop := ∃ s t, h = chLBrace :: (s ++ chRBrace :: t)

theorem splitScheme_scheme (s t : Str) (hs : chRBrace ∉ s) :
    splitScheme (chLBrace :: (s ++ chRBrace :: t)) = (chLBrace :: (s ++ [chRBrace]), t) := by
  have h1 : ∀ (s t : Str), chRBrace ∉ s → (s ++ chRBrace :: t).takeWhile (· ≠ chRBrace) = s := by
    intro s t
    induction s with
    | nil => intro _; simp
    | cons a s ih =>
      intro h
      simp only [List.mem_cons, not_or] at h
      rw [List.cons_append, List.takeWhile_cons_of_pos (by simpa using fun e => h.1 e.symm), ih h.2]
  have h2 : ∀ (s t : Str), chRBrace ∉ s → (s ++ chRBrace :: t).dropWhile (· ≠ chRBrace) = chRBrace :: t := by
    intro s t
    induction s with
    | nil => intro _; simp
    | cons a s ih =>
      intro h
      simp only [List.mem_cons, not_or] at h
      rw [List.cons_append, List.dropWhile_cons_of_pos (by simpa using fun e => h.1 e.symm), ih h.2]
  have hne : (chLBrace ≠ chRBrace) := by decide
  simp only [splitScheme]
  rw [if_pos ⟨trivial, by simp⟩, List.takeWhile_cons_of_pos (by simpa using hne), List.dropWhile_cons_of_pos (by simpa using hne), h1 s t hs,
    h2 s t hs]
  simp

theorem splitScheme_plain (h : Str) (hn : ¬ HasScheme h) : splitScheme h = ([], h) := by
  cases h with
  | nil => rfl
  | cons c t =>
    simp only [splitScheme]
    rw [if_neg]
    rintro ⟨rfl, h2⟩
    rcases List.mem_cons.1 h2 with h2 | h2
    · exact absurd h2 (by decide)
    · obtain ⟨a, b, rfl⟩ := List.append_of_mem h2
      exact hn ⟨a, b, rfl⟩

theorem upper_nil (hC : C.Lawful) : C.upper [] = [] := by rw [hC.upper_ascii [] (by simp [IsAscii])]; rfl

/-- C23: a cleartext value accepts exactly itself. -/
theorem C23_cleartext (hC : C.Lawful) (p h : Str) (hne : h ≠ []) (hn : ¬ HasScheme h) :
    validatePw C K p h = .ok true ↔ p = h := by
  unfold validatePw
  rw [if_neg hne]
  simp only [splitScheme_plain h hn, upper_nil hC, if_true]
  constructor
  · intro hh
    by_cases hp : h = p
    · exact hp.symm
    · rw [if_neg hp] at hh; exact absurd hh (by simp)
  · rintro rfl; simp

example : b!"secret{1}" ≠ [] ∧ ¬ HasScheme b!"secret{1}" := by
  refine ⟨by simp, ?_⟩
  rintro ⟨s, t, h⟩
  exact absurd (List.cons.inj h).1 (by decide)

/-- C23: a password hashed with argon2 validates, whatever the password and salt. -/
theorem C23_argon2_roundtrip (hC : C.Lawful) (hK : K.Lawful) (p salt h : Str) (hh : hashPw K salt p b!"{ARGON2}" = .ok h) :
    validatePw C K p h = .ok true := by
  unfold hashPw at hh
  rw [if_neg (by decide), if_pos rfl] at hh
  cases hc : K.argonCreate p salt with
  | none => simp [hc] at hh
  | some x =>
    simp only [hc, Res.ok.injEq] at hh
    subst hh
    have hsp := splitScheme_scheme b!"ARGON2" x (by decide)
    have hup : C.upper b!"{ARGON2}" = b!"{ARGON2}" := by rw [hC.upper_ascii _ (by decide +kernel)]; decide +kernel
    unfold validatePw
    rw [if_neg (by simp)]
    change splitScheme (b!"{ARGON2}" ++ x) = (b!"{ARGON2}", x) at hsp
    simp only [hsp, hup]
    rw [if_neg (by decide), if_pos trivial]
    simp [hK.argon p salt x hc]

example : hashPw toyCrypto b!"salt" b!"{x}pw" b!"{ARGON2}" = .ok b!"{ARGON2}$argon2id${x}pw" := by decide

/-- C23: a cleartext hash (`Hash` without scheme) of a password that itself looks like `{x}y` is not accepted: the round trip fails. -/
theorem C23_cleartext_brace_fails :
    hashPw toyCrypto [] b!"{x}pw" [] = .ok b!"{x}pw" ∧ validatePw asciiCase toyCrypto b!"{x}pw" b!"{x}pw" ≠ .ok true := by
  decide +kernel

/-- C23 for `Hash` without scheme, missing: the empty password and passwords of the form `{..}..`. -/
theorem C23_cleartext_roundtrip_partial (hC : C.Lawful) (p salt alg h : Str) (halg : alg = [] ∨ alg = b!"{CLEARTEXT}")
    (hne : p ≠ []) (hn : ¬ HasScheme p) (hh : hashPw K salt p alg = .ok h) : validatePw C K p h = .ok true := by
  unfold hashPw at hh
  rw [if_pos halg] at hh
  cases hh
  exact (C23_cleartext hC p p hne hn).2 rfl

/-- C23: `{SSHA}` (in any ASCII case) accepts exactly the passwords whose salted SHA-1 is the stored digest; the salt is the last four
bytes. -/
theorem C23_ssha (hC : C.Lawful) (p s x : Str) (hs : s.map upperByte = b!"SSHA") (hsa : IsAscii s) :
    validatePw C K p (chLBrace :: (s ++ chRBrace :: x)) = .ok true ↔
      ∃ digest salt, salt.length = 4 ∧ K.b64dec x = some (digest ++ salt) ∧ digest = K.sha1 (p ++ salt) := by
  have hb : chRBrace ∉ s := by
    intro hm
    have : upperByte chRBrace ∈ s.map upperByte := List.mem_map.2 ⟨_, hm, rfl⟩
    rw [hs] at this
    exact absurd this (by decide)
  have hup : C.upper (chLBrace :: (s ++ [chRBrace])) = b!"{SSHA}" := by
    rw [hC.upper_ascii _ (by
      intro c hc
      simp only [List.mem_cons, List.mem_append, List.not_mem_nil, or_false] at hc
      rcases hc with rfl | hc | rfl
      · decide
      · exact hsa c hc
      · decide)]
    simp only [List.map_cons, List.map_append, hs, List.map_nil]
    decide
  unfold validatePw
  rw [if_neg (by simp)]
  simp only [splitScheme_scheme s x hb, hup]
  rw [if_neg (by decide), if_neg (by decide), if_neg (by decide), if_pos trivial]
  cases hd : K.b64dec x with
  | none => simp
  | some d =>
    simp only [Option.some.injEq]
    by_cases hl : d.length < 4
    · simp only [if_pos hl]
      constructor
      · intro h; simp at h
      · rintro ⟨digest, salt, h1, h2, -⟩
        subst h2
        simp at hl; omega
    · simp only [if_neg hl]
      constructor
      · intro h
        by_cases he : d = K.sha1 (p ++ d.drop (d.length - 4)) ++ d.drop (d.length - 4)
        · exact ⟨K.sha1 (p ++ d.drop (d.length - 4)), d.drop (d.length - 4), by simp; omega, he, rfl⟩
        · rw [if_neg he] at h; simp at h
      · rintro ⟨digest, salt, h1, h2, h3⟩
        subst h2
        have : (digest ++ salt).drop ((digest ++ salt).length - 4) = salt := by
          rw [List.length_append, h1, Nat.add_sub_cancel, List.drop_left]
        rw [this, if_pos (by rw [h3])]

example : validatePw asciiCase toyCrypto b!"pw" b!"{ssha}tlaswpsalt" = .ok true := by decide +kernel

theorem scheme_upper (hC : C.Lawful) (s S : Str) (hs : s.map upperByte = S) (hsa : IsAscii s) (hS : chRBrace ∉ S) :
    chRBrace ∉ s ∧ C.upper (chLBrace :: (s ++ [chRBrace])) = chLBrace :: (S ++ [chRBrace]) := by
  refine ⟨?_, ?_⟩
  · intro hm
    have : upperByte chRBrace ∈ s.map upperByte := List.mem_map.2 ⟨_, hm, rfl⟩
    rw [hs] at this
    exact hS this
  · rw [hC.upper_ascii _ (by
      intro c hc
      simp only [List.mem_cons, List.mem_append, List.not_mem_nil, or_false] at hc
      rcases hc with rfl | hc | rfl
      · decide
      · exact hsa c hc
      · decide)]
    simp only [List.map_cons, List.map_append, hs, List.map_nil]
    rfl

/-- C23: `{ARGON2}` (in any ASCII case) accepts exactly the passwords argon2id accepts for the rest of the value. -/
theorem C23_argon2 (hC : C.Lawful) (p s x : Str) (hs : s.map upperByte = b!"ARGON2") (hsa : IsAscii s) :
    validatePw C K p (chLBrace :: (s ++ chRBrace :: x)) = .ok true ↔ K.argonCompare p x = .ok true := by
  obtain ⟨hb, hup⟩ := scheme_upper hC s _ hs hsa (by decide)
  change _ = b!"{ARGON2}" at hup
  unfold validatePw
  rw [if_neg (by simp)]
  simp only [splitScheme_scheme s x hb, hup]
  rw [if_neg (by decide), if_pos trivial]
  cases K.argonCompare p x with
  | ok b => cases b <;> simp
  | _ => simp

example : validatePw asciiCase toyCrypto b!"pw" b!"{Argon2}$argon2id$pw" = .ok true ∧
    validatePw asciiCase toyCrypto b!"px" b!"{Argon2}$argon2id$pw" ≠ .ok true := by decide +kernel

/-- C23: `{CRYPT}` (in any ASCII case) accepts exactly the passwords that crypt(3) maps to the stored value; the salt is the value itself
(`$id$salt$hash`) or its first two bytes. -/
theorem C23_crypt (hC : C.Lawful) (p s x : Str) (hs : s.map upperByte = b!"CRYPT") (hsa : IsAscii s) :
    validatePw C K p (chLBrace :: (s ++ chRBrace :: x)) = .ok true ↔
      2 ≤ x.length ∧ ((x.head? = some chDollar ∧ 3 ≤ x.count chDollar ∧ K.crypt p x = some x) ∨
        (¬ (x.head? = some chDollar ∧ 3 ≤ x.count chDollar) ∧ K.crypt p (x.take 2) = some x)) := by
  obtain ⟨hb, hup⟩ := scheme_upper hC s _ hs hsa (by decide)
  change _ = b!"{CRYPT}" at hup
  unfold validatePw
  rw [if_neg (by simp)]
  simp only [splitScheme_scheme s x hb, hup]
  rw [if_neg (by decide), if_neg (by decide), if_pos trivial]
  by_cases hl : x.length < 2
  · rw [if_pos hl]
    constructor
    · intro h; cases h
    · rintro ⟨h, -⟩; omega
  · rw [if_neg hl]
    by_cases hd : x.head? = some chDollar ∧ 3 ≤ x.count chDollar
    · simp only [if_pos hd]
      cases hc : K.crypt p x with
      | none => simp [hd]
      | some enc =>
        by_cases he : x = enc
        · subst he; simp [hd]; omega
        · simp [he, hd, Ne.symm he]
    · simp only [if_neg hd]
      cases hc : K.crypt p (x.take 2) with
      | none => simp; intro _ h; exact fun h2 => absurd ⟨h, h2⟩ hd
      | some enc =>
        by_cases he : x = enc
        · subst he; simp [hd]; omega
        · simp only [if_neg he, Option.some.injEq, Ne.symm he, and_false, or_false]
          constructor
          · intro h; cases h
          · rintro ⟨-, h1, h2, -⟩; exact absurd ⟨h1, h2⟩ hd

/-- An instance: a crypt that puts the salt in front of the password. -/
example : validatePw asciiCase { toyCrypto with crypt := fun p s => some (s.take 2 ++ p) } b!"pw" b!"{crypt}xypw" = .ok true := by decide +kernel

/-- C23: a stored value with a scheme other than the known ones (in any case) never accepts. -/
theorem C23_unknown_scheme (hC : C.Lawful) (p s x : Str) (hsa : IsAscii s) (hb : chRBrace ∉ s)
    (h : s.map upperByte ∉ [b!"ARGON2", b!"CRYPT", b!"SSHA"]) :
    validatePw C K p (chLBrace :: (s ++ chRBrace :: x)) = .err .other := by
  have hup : C.upper (chLBrace :: (s ++ [chRBrace])) = chLBrace :: (s.map upperByte ++ [chRBrace]) := by
    rw [hC.upper_ascii _ (by
      intro c hc
      simp only [List.mem_cons, List.mem_append, List.not_mem_nil, or_false] at hc
      rcases hc with rfl | hc | rfl
      · decide
      · exact hsa c hc
      · decide)]
    simp only [List.map_cons, List.map_append, List.map_nil]
    rfl
  have key : ∀ t : Str, s.map upperByte ≠ t → chLBrace :: (s.map upperByte ++ [chRBrace]) ≠ chLBrace :: (t ++ [chRBrace]) := by
    intro t ht he
    exact ht (List.append_cancel_right (List.cons.inj he).2)
  simp only [List.mem_cons, List.not_mem_nil, or_false, not_or] at h
  have k1 : chLBrace :: (s.map upperByte ++ [chRBrace]) ≠ b!"{ARGON2}" := key b!"ARGON2" h.1
  have k2 : chLBrace :: (s.map upperByte ++ [chRBrace]) ≠ b!"{CRYPT}" := key b!"CRYPT" h.2.1
  have k3 : chLBrace :: (s.map upperByte ++ [chRBrace]) ≠ b!"{SSHA}" := key b!"SSHA" h.2.2
  unfold validatePw
  rw [if_neg (by simp)]
  simp only [splitScheme_scheme s x hb, hup]
  rw [if_neg (by simp), if_neg k1, if_neg k2, if_neg k3]

example : IsAscii b!"md5" ∧ chRBrace ∉ b!"md5" ∧ (b!"md5").map upperByte ∉ [b!"ARGON2", b!"CRYPT", b!"SSHA"] := by decide +kernel

/-- C23, C27: a comparison with a stored value ends in a panic exactly if the value is empty, `{ARGON2}` with a hash on which the argon2id library
panics, `{CRYPT}` with fewer than two characters, or `{SSHA}` with fewer than four bytes. Whether it does depends on the password in the
second case only. -/
theorem C23_panics (hC : C.Lawful) (p : Str) :
    (∀ h, ¬ HasScheme h → (validatePw C K p h = .panic ↔ h = [])) ∧
    ∀ s x, IsAscii s → chRBrace ∉ s → (validatePw C K p (chLBrace :: (s ++ chRBrace :: x)) = .panic ↔
      (s.map upperByte = b!"ARGON2" ∧ K.argonCompare p x = .panic) ∨ (s.map upperByte = b!"CRYPT" ∧ x.length < 2) ∨
      (s.map upperByte = b!"SSHA" ∧ ∃ d, K.b64dec x = some d ∧ d.length < 4)) := by
  refine ⟨fun h hn => ?_, fun s x hsa hb => ?_⟩
  · by_cases he : h = []
    · subst he; simp [validatePw]
    · unfold validatePw
      rw [if_neg he]
      simp only [splitScheme_plain h hn, upper_nil hC, if_true, he, iff_false]
      split <;> simp
  · by_cases hk : s.map upperByte ∈ [b!"ARGON2", b!"CRYPT", b!"SSHA"]
    · have e1 : (b!"ARGON2" : Str) ≠ b!"CRYPT" := by decide
      have e2 : (b!"ARGON2" : Str) ≠ b!"SSHA" := by decide
      have e3 : (b!"CRYPT" : Str) ≠ b!"SSHA" := by decide
      simp only [List.mem_cons, List.not_mem_nil, or_false] at hk
      rcases hk with hk | hk | hk
      · obtain ⟨-, hup⟩ := scheme_upper hC s _ hk hsa (by decide)
        change _ = b!"{ARGON2}" at hup
        unfold validatePw
        rw [if_neg (by simp)]
        simp only [splitScheme_scheme s x hb, hup]
        rw [if_neg (by decide), if_pos trivial, hk]
        simp only [e1, e2, true_and, false_and, or_false]
        cases K.argonCompare p x with
        | ok b => cases b <;> simp
        | _ => simp
      · obtain ⟨-, hup⟩ := scheme_upper hC s _ hk hsa (by decide)
        change _ = b!"{CRYPT}" at hup
        unfold validatePw
        rw [if_neg (by simp)]
        simp only [splitScheme_scheme s x hb, hup]
        rw [if_neg (by decide), if_neg (by decide), if_pos trivial, hk]
        simp only [e1.symm, e3, true_and, false_and, or_false, false_or]
        by_cases hl : x.length < 2
        · simp [hl]
        · rw [if_neg hl]
          simp only [hl, iff_false]
          generalize K.crypt p _ = z
          cases z with
          | none => simp
          | some enc => dsimp only; split <;> simp
      · obtain ⟨-, hup⟩ := scheme_upper hC s _ hk hsa (by decide)
        change _ = b!"{SSHA}" at hup
        unfold validatePw
        rw [if_neg (by simp)]
        simp only [splitScheme_scheme s x hb, hup]
        rw [if_neg (by decide), if_neg (by decide), if_neg (by decide), if_pos trivial, hk]
        simp only [e2.symm, e3.symm, true_and, false_and, false_or]
        cases K.b64dec x with
        | none => simp
        | some d =>
          dsimp only
          by_cases hl : d.length < 4
          · rw [if_pos hl]; exact iff_of_true rfl ⟨d, rfl, hl⟩
          · rw [if_neg hl]
            refine iff_of_false ?_ ?_
            · split <;> simp
            · rintro ⟨d', h1, h2⟩
              cases h1
              exact hl h2
    · rw [C23_unknown_scheme hC p s x hsa hb hk]
      simp only [List.mem_cons, List.not_mem_nil, or_false, not_or] at hk
      simp [hk]

example : ¬ HasScheme [] ∧ IsAscii b!"crypt" ∧ chRBrace ∉ b!"crypt" ∧ validatePw asciiCase toyCrypto b!"pw" b!"{crypt}x" = .panic ∧
    validatePw asciiCase toyCrypto b!"pw" b!"{SSHA}" = .panic ∧ validatePw asciiCase toyCrypto b!"pw" b!"{crypt}xy" ≠ .panic :=
  ⟨(fun ⟨_, _, h⟩ => by cases h), by decide +kernel⟩

/-- C23: `Validate` never answers "no match" without an error, so acceptance is `ok true`; and it accepts nothing for a `{CRYPT}` value when
crypt is not available. -/
theorem C23_never_false (p h : Str) : validatePw C K p h ≠ .ok false := by
  unfold validatePw
  dsimp only
  repeat' split
  all_goals simp

/-! ## C24 -/

/-- C24: with a random source that answers numbers below the size of the alphabet, a generated password has the length asked for and
characters of the alphabet only. -/
theorem C24_generated (rnd : Nat → Option Nat) (i n : Nat) (pw : Str) (h : generatePw rnd i n = .ok pw) :
    pw.length = n ∧ ∀ c ∈ pw, c ∈ b!"0123456789ABCDEFGHIJKLMNOPQRSTUVWXYZabcdefghijklmnopqrstuvwxyz-=+!@#$%^&*." := by
  induction n generalizing i pw with
  | zero => cases h; simp
  | succ n ih =>
    unfold generatePw at h
    cases hr : rnd i with
    | none => simp [hr] at h
    | some k =>
      cases hc : pwChars[k]? with
      | none => simp [hr, hc] at h
      | some c =>
        simp only [hr, hc] at h
        cases hg : generatePw rnd (i + 1) n with
        | ok rest =>
          simp only [hg, Res.ok_bind, Res.ok.injEq] at h
          subst h
          obtain ⟨h1, h2⟩ := ih _ _ hg
          refine ⟨by simp [h1], ?_⟩
          intro d hd
          rcases List.mem_cons.1 hd with rfl | hd
          · exact List.mem_of_getElem? hc
          · exact h2 d hd
        | _ => simp [hg] at h

/-- C24: each position is the character of the alphabet with the number drawn, so a uniform source gives uniform passwords; generation
succeeds whenever the source answers within its range. -/
theorem C24_generated_total (rnd : Nat → Option Nat) (i n : Nat) (draw : Nat → Nat) (hd : ∀ j, rnd j = some (draw j) ∧ draw j < 74) :
    ∃ pw, generatePw rnd i n = .ok pw ∧ ∀ j, j < n → pw[j]? = pwChars[draw (i + j)]? := by
  induction n generalizing i with
  | zero => exact ⟨[], rfl, by simp⟩
  | succ n ih =>
    obtain ⟨rest, h1, h2⟩ := ih (i + 1)
    have hlt : draw i < pwChars.length := (hd i).2
    refine ⟨pwChars[draw i] :: rest, ?_, ?_⟩
    · unfold generatePw
      simp only [(hd i).1, List.getElem?_eq_getElem hlt, h1, Res.ok_bind]
    · intro j hj
      cases j with
      | zero => simp [List.getElem?_eq_getElem hlt]
      | succ j =>
        rw [List.getElem?_cons_succ, h2 j (by omega)]
        congr 2; omega

/-- The alphabet has 74 different characters. -/
example : pwChars.length = 74 ∧ pwChars.Nodup := by decide +kernel

example : generatePw (fun i => some (i * 10)) 0 5 = .ok b!"0AKUe" := by decide

end
end Idm
