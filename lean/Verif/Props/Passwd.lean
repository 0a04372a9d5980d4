import Verif.Spec.Passwd
import Verif.Props.NewUsers
import Verif.Props.Space
/-!
# `idmd gen passwd`
-/
namespace Idm

section
variable {K : CryptoEnv} {W : PasswdWorld} {o : PasswdOpts}

/-! ## C89 `idmd gen passwd` takes the secret from exactly one source -/

theorem res_bind_ok {α β : Type} {r : Res α} {f : α → Res β} {b : β} : r.bind f = .ok b ↔ ∃ a, r = .ok a ∧ f a = .ok b := by
  cases r <;> simp [Res.bind]

theorem passwdCmd_ok {out : Str} : passwdCmd K W o = .ok out ↔ ∃ s text, (pickSecret W o).1 ≤ 1 ∧
    (if (pickSecret W o).1 = 0 then promptForPassword W else .ok (pickSecret W o).2.1) = .ok s ∧
    passwdTool K (fun s => !decide (W.strength s < o.minStrength)) W.salt s (pickSecret W o).2.2 = .ok text ∧
    out = text ++ (if o.omitNewline then [] else [10]) := by
  unfold passwdCmd
  dsimp only
  by_cases h1 : (pickSecret W o).1 > 1
  · rw [if_pos h1]
    constructor
    · nofun
    · rintro ⟨_, _, h, -⟩; omega
  · rw [if_neg h1, res_bind_ok]
    constructor
    · rintro ⟨s, h2, h3⟩
      obtain ⟨text, h6, h7⟩ := res_bind_ok.1 h3
      cases h7
      exact ⟨s, text, by omega, h2, h6, rfl⟩
    · rintro ⟨s, text, -, h2, h6, rfl⟩
      exact ⟨s, h2, res_bind_ok.2 ⟨text, h6, rfl⟩⟩

/-- The tool prints something exactly if the secret is not blank, strong enough and can be hashed. -/
theorem passwdTool_ok {strong : Str → Bool} {salt s alg text : Str} : passwdTool K strong salt s alg = .ok text ↔
    ∃ h, ¬ White s ∧ strong s = true ∧ hashPw K salt s alg = .ok h ∧ text = printf h := by
  unfold passwdTool
  by_cases h1 : trimSpace s = []
  · rw [if_pos h1]
    constructor
    · nofun
    · rintro ⟨_, h, -⟩; exact absurd (trimSpace_nil.1 h1) h
  · rw [if_neg h1]
    have h1' : ¬ White s := fun h => h1 (trimSpace_nil.2 h)
    cases h2 : strong s with
    | false => simp
    | true =>
      rw [if_neg (by simp)]
      cases hh : hashPw K salt s alg <;> simp only [h1', Res.ok.injEq, reduceCtorEq, false_and, and_false, exists_false, exists_const, true_and,
        not_false_eq_true]
      exact ⟨fun e => ⟨_, rfl, e.symm⟩, fun ⟨_, e, e'⟩ => by rw [e', e]⟩

/-- C89: the command succeeds exactly if the secret is given in exactly one way, is not blank, is strong enough, and can be hashed with the
scheme; it then prints the hash (through `Fprintf`, see C68). Else it prints nothing and fails. Missing: a secret file that cannot be read, see
`C89_unreadable_file_fails`. -/
theorem C89_what_is_printed_partial (hw : SourcesWork W o) (out : Str) :
    passwdCmd K W o = .ok out ↔
      ∃ s scheme h, SecretGiven W o s scheme ∧ ¬ White s ∧ o.minStrength ≤ W.strength s ∧
        hashPw K W.salt s scheme = .ok h ∧ out = printf h ++ (if o.omitNewline then [] else [10]) := by
  rw [passwdCmd_ok]
  obtain ⟨hf, hg⟩ := hw
  have key : ∀ s, ((pickSecret W o).1 ≤ 1 ∧ (if (pickSecret W o).1 = 0 then promptForPassword W else .ok (pickSecret W o).2.1) = .ok s) ↔
      SecretGiven W o s (pickSecret W o).2.2 := by
    intro s
    unfold pickSecret SecretGiven
    have hprompt : promptForPassword W = .ok s ↔ W.typed = s ∧ W.confirmed = s ∧ s ≠ [] := by
      unfold promptForPassword
      split
      · rename_i h
        constructor
        · nofun
        · rintro ⟨rfl, h1, h2⟩
          rcases h with h | h
          · exact absurd h1.symm h
          · exact absurd h h2
      · rename_i h
        simp only [not_or, Decidable.not_not] at h
        constructor
        · intro e
          cases e
          exact ⟨rfl, h.1.symm, h.2⟩
        · rintro ⟨h1, -, -⟩
          rw [h1]
    cases hs : o.secret with
    | some x =>
      cases hfl : o.secretFile with
      | some f => cases o.generate <;> simp
      | none => cases o.generate <;> simp
    | none =>
      cases hfl : o.secretFile with
      | some f =>
        obtain ⟨y, hy⟩ := hf f hs hfl
        cases o.generate <;> simp [hy]
      | none =>
        cases hgen : o.generate with
        | true =>
          obtain ⟨y, hy⟩ := hg hs hfl hgen
          simp [hy]
        | false => simp [hprompt]
  have kscheme : ∀ s scheme, SecretGiven W o s scheme → scheme = (pickSecret W o).2.2 := by
    intro s scheme h
    unfold pickSecret
    rcases h with ⟨h1, h2, h3, h4⟩ | ⟨f, h1, h2, h3, h4, h5⟩ | ⟨h1, h2, h3, h4, h5⟩ | ⟨h1, h2, h3, -, -, -, h4⟩
    · simp [h1, h2, h3, h4]
    · simp [h1, h2, h3, h4, h5]
    · simp [h1, h2, h3, h4, h5]
    · simp [h1, h2, h3, h4]
  constructor
  · rintro ⟨s, text, k1, k2, k3, k6⟩
    obtain ⟨h, g1, g2, g3, rfl⟩ := passwdTool_ok.1 k3
    exact ⟨s, _, h, (key s).1 ⟨k1, k2⟩, g1, by simpa using g2, g3, k6⟩
  · rintro ⟨s, scheme, h, k1, k3, k4, k5, k6⟩
    cases kscheme s scheme k1
    obtain ⟨g1, g2⟩ := (key s).2 k1
    exact ⟨s, _, g1, g2, passwdTool_ok.2 ⟨h, k3, by simpa using k4, k5, rfl⟩, k6⟩

/-- C89: with the default scheme what is printed, without the newline, accepts the secret when it is the `userPassword` of an entry. (A hash of
ARGON2 contains no percent sign.) -/
theorem C89_accepts {C : CaseEnv} (hC : C.Lawful) (hK : K.Lawful) (hp : ∀ p salt h, K.argonCreate p salt = some h → (37 : UInt8) ∉ h)
    (hw : SourcesWork W o) (hs : o.scheme = b!"{ARGON2}") (hg : o.generate = false) {out : Str} (h : passwdCmd K W o = .ok out) :
    ∃ s value, SecretGiven W o s o.scheme ∧ out = value ++ (if o.omitNewline then [] else [10]) ∧ validatePw C K s value = .ok true := by
  obtain ⟨s, scheme, v, h1, h2, h3, h4, rfl⟩ := (C89_what_is_printed_partial hw out).1 h
  have e : scheme = o.scheme := by
    rcases h1 with ⟨-, -, -, h⟩ | ⟨_, -, -, -, -, h⟩ | ⟨-, -, h, -⟩ | ⟨-, -, -, -, -, -, h⟩
    · exact h
    · exact h
    · rw [hg] at h; cases h
    · exact h
  subst e
  refine ⟨s, _, h1, rfl, C68_argon2 C K hC hK (fun _ => true) W.salt s _ (fun h => hp _ _ h) ?_⟩
  rw [hs] at h4
  exact passwdTool_ok.2 ⟨v, h2, rfl, h4, rfl⟩

end

/-! ## Examples and what fails -/

/-- A world with one file, where a password of six bytes is strong. -/
def toyWorld : PasswdWorld where
  readFile f := if f = b!"/secret" then some b!"from the file" else none
  clean f := f
  generated := some b!"a3sb7+x/Kq-1"
  typed := b!"typed twice"
  confirmed := b!"typed twice"
  strength s := s.length / 2
  salt := b!"salt"

/-- Instances of the hypotheses: a secret on the command line; a file; a generated one; typed twice; two ways at once; a weak one; a blank one. -/
example : SourcesWork toyWorld ⟨none, some b!"/secret", false, b!"{ARGON2}", false, 3⟩ ∧
    passwdCmd toyCrypto toyWorld ⟨some b!"12345678", none, false, b!"{ARGON2}", true, 3⟩ = .ok b!"{ARGON2}$argon2id$12345678" ∧
    passwdCmd toyCrypto toyWorld ⟨none, some b!"/secret", false, b!"{ARGON2}", false, 3⟩ = .ok (b!"{ARGON2}$argon2id$from the file" ++ [10]) ∧
    passwdCmd toyCrypto toyWorld ⟨none, none, true, b!"{ARGON2}", true, 3⟩ = .ok b!"a3sb7+x/Kq-1" ∧
    passwdCmd toyCrypto toyWorld ⟨none, none, false, b!"{CLEARTEXT}", true, 3⟩ = .ok b!"typed twice" ∧
    passwdCmd toyCrypto toyWorld ⟨some b!"12345678", some b!"/secret", false, b!"{ARGON2}", true, 3⟩ = .err .other ∧
    passwdCmd toyCrypto toyWorld ⟨some b!"123", none, false, b!"{ARGON2}", true, 3⟩ = .err .other ∧
    passwdCmd toyCrypto toyWorld ⟨some b!"        ", none, false, b!"{ARGON2}", true, 3⟩ = .err .other := by
  refine ⟨⟨?_, ?_⟩, by decide +kernel, by decide +kernel, by decide +kernel, by decide +kernel, by decide +kernel, by decide +kernel,
    by decide +kernel⟩
  · rintro f - h
    cases h
    exact ⟨_, rfl⟩
  · rintro - h
    cases h

/-- The secret file cannot be read: instead of failing, the command asks for a password, and prints the hash of that. It does so even if there is
another way given, and then does not complain about that either. -/
theorem C89_unreadable_file_fails :
    passwdCmd toyCrypto toyWorld ⟨none, some b!"/missing", true, b!"{ARGON2}", true, 3⟩ = .ok b!"{ARGON2}$argon2id$typed twice" ∧
    ∀ s scheme, ¬ SecretGiven toyWorld ⟨none, some b!"/missing", true, b!"{ARGON2}", true, 3⟩ s scheme := by
  refine ⟨by decide +kernel, ?_⟩
  rintro s scheme (⟨h, -⟩ | ⟨f, -, -, h, -⟩ | ⟨-, h, -⟩ | ⟨-, h, -⟩) <;> cases h

/-- The content of the secret file is hashed as it is: with a newline at the end, as editors write it, the value does not accept the password
without it. -/
theorem C89_file_newline_fails :
    ∃ out, passwdCmd toyCrypto { toyWorld with readFile := fun _ => some (b!"from the file" ++ [10]) }
        ⟨none, some b!"/secret", false, b!"{ARGON2}", true, 3⟩ = .ok out ∧ validatePw asciiCase toyCrypto b!"from the file" out ≠ .ok true :=
  ⟨_, rfl, by decide +kernel⟩

end Idm
