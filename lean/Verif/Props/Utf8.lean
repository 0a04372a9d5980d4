import Verif.Spec.Utf8
import Verif.Props.FilterText
import Verif.Props.BoltFind
/-!
# C59: which text is taken for a filter at all
-/
namespace Idm

theorem utf8_cont {b : UInt8} : (0x80 ≤ b ∧ b ≤ 0xBF) ↔ 0x80 ≤ b.toNat ∧ b.toNat ≤ 0xBF := by
  simp only [UInt8.le_iff_toNat_le]
  exact Iff.rfl

theorem clean_cons {n : Nat} (hn : IsScalar n ∧ n ≠ 0xFFFD) {s : Str} (h : CleanText s) : CleanText (utf8Char n ++ s) := by
  obtain ⟨cs, h1, rfl⟩ := h
  exact ⟨n :: cs, by simpa using ⟨hn, h1⟩, by simp⟩

theorem byte_of {a : UInt8} {k : Nat} (h : a.toNat = k) : UInt8.ofNat k = a := by rw [← h]; simp

theorem utf8Good_clean : ∀ s : Str, utf8Good s = true → CleanText s
  | [], _ => ⟨[], by simp, rfl⟩
  | a :: rest, h => by
    rw [utf8Good.eq_def] at h
    dsimp only at h
    by_cases h1 : a < 0x80
    · rw [if_pos h1] at h
      have h1' : a.toNat < 0x80 := UInt8.lt_iff_toNat_lt.1 h1
      have := clean_cons (n := a.toNat) ⟨Or.inl (by omega), by omega⟩ (utf8Good_clean rest h)
      rw [utf8Char, if_pos h1'] at this
      simpa using this
    · rw [if_neg h1] at h
      have h1' : ¬ a.toNat < 0x80 := fun e => h1 (UInt8.lt_iff_toNat_lt.2 e)
      match rest, h with
      | b :: rest, h =>
        dsimp only at h
        by_cases h2 : (0xC2 ≤ a && a ≤ 0xDF) = true
        · rw [if_pos h2] at h
          simp only [Bool.and_eq_true, decide_eq_true_eq, UInt8.le_iff_toNat_le] at h2 h
          obtain ⟨⟨hb1, hb2⟩, hr⟩ := h
          have e1 : (0xC2 : UInt8).toNat = 194 := rfl
          have e2 : (0xDF : UInt8).toNat = 223 := rfl
          have e3 : (0x80 : UInt8).toNat = 128 := rfl
          have e4 : (0xBF : UInt8).toNat = 191 := rfl
          have := clean_cons (n := (a.toNat - 192) * 64 + (b.toNat - 128)) ⟨Or.inl (by omega), by omega⟩ (utf8Good_clean rest hr)
          rw [utf8Char, if_neg (by omega), if_pos (by omega)] at this
          simp only [List.map_cons, List.map_nil] at this
          rw [byte_of (a := a) (by omega), byte_of (a := b) (by omega)] at this
          exact this
        · rw [if_neg h2] at h
          match rest, h with
          | c :: rest, h =>
            dsimp only at h
            have e1 : (0xE0 : UInt8).toNat = 224 := rfl
            have e2 : (0xEF : UInt8).toNat = 239 := rfl
            have e3 : (0x80 : UInt8).toNat = 128 := rfl
            have e4 : (0xBF : UInt8).toNat = 191 := rfl
            have e5 : (0xED : UInt8).toNat = 237 := rfl
            have e6 : (0xA0 : UInt8).toNat = 160 := rfl
            have e7 : (0x9F : UInt8).toNat = 159 := rfl
            have e8 : (0xBD : UInt8).toNat = 189 := rfl
            have e9 : (0xF0 : UInt8).toNat = 240 := rfl
            have e10 : (0xF4 : UInt8).toNat = 244 := rfl
            have e11 : (0x90 : UInt8).toNat = 144 := rfl
            have e12 : (0x8F : UInt8).toNat = 143 := rfl
            have ne : ∀ {x y : UInt8}, x ≠ y → x.toNat ≠ y.toNat := fun h e => h (UInt8.toNat_inj.1 e)
            by_cases h3 : (0xE0 ≤ a && a ≤ 0xEF) = true
            · rw [if_pos h3] at h
              simp only [Bool.and_eq_true, decide_eq_true_eq, UInt8.le_iff_toNat_le, Bool.not_eq_true', Bool.and_eq_false_iff, decide_eq_false_iff_not] at h3 h
              obtain ⟨⟨⟨⟨⟨hb1, hb2⟩, hc1⟩, hc2⟩, hx⟩, hr⟩ := h
              have hb1' : 128 ≤ b.toNat ∧ (a.toNat = 224 → 160 ≤ b.toNat) := by
                by_cases ha : a = 0xE0
                · rw [if_pos ha] at hb1; omega
                · rw [if_neg ha] at hb1; have := ne ha; omega
              have hb2' : b.toNat ≤ 191 ∧ (a.toNat = 237 → b.toNat ≤ 159) := by
                by_cases ha : a = 0xED
                · rw [if_pos ha] at hb2; omega
                · rw [if_neg ha] at hb2; have := ne ha; omega
              have hx' : ¬ (a.toNat = 239 ∧ b.toNat = 191 ∧ c.toNat = 189) := by
                rintro ⟨p, q, r⟩
                rcases hx with (hx | hx) | hx
                · exact hx (UInt8.toNat_inj.1 (p.trans e2.symm))
                · exact hx (UInt8.toNat_inj.1 (q.trans e4.symm))
                · exact hx (UInt8.toNat_inj.1 (r.trans e8.symm))
              have := clean_cons (n := (a.toNat - 224) * 4096 + (b.toNat - 128) * 64 + (c.toNat - 128)) ⟨by unfold IsScalar; omega, by omega⟩
                (utf8Good_clean rest hr)
              rw [utf8Char, if_neg (by omega), if_neg (by omega), if_pos (by omega)] at this
              simp only [List.map_cons, List.map_nil] at this
              rw [byte_of (a := a) (by omega), byte_of (a := b) (by omega), byte_of (a := c) (by omega)] at this
              exact this
            · rw [if_neg h3] at h
              match rest, h with
              | d :: rest, h =>
                dsimp only at h
                simp only [Bool.and_eq_true, decide_eq_true_eq, UInt8.le_iff_toNat_le] at h
                obtain ⟨⟨⟨⟨⟨⟨⟨⟨ha1, ha2⟩, hb1⟩, hb2⟩, hc1⟩, hc2⟩, hd1⟩, hd2⟩, hr⟩ := h
                have hb1' : 128 ≤ b.toNat ∧ (a.toNat = 240 → 144 ≤ b.toNat) := by
                  by_cases ha : a = 0xF0
                  · rw [if_pos ha] at hb1; omega
                  · rw [if_neg ha] at hb1; have := ne ha; omega
                have hb2' : b.toNat ≤ 191 ∧ (a.toNat = 244 → b.toNat ≤ 143) := by
                  by_cases ha : a = 0xF4
                  · rw [if_pos ha] at hb2; omega
                  · rw [if_neg ha] at hb2; have := ne ha; omega
                have := clean_cons (n := (a.toNat - 240) * 262144 + (b.toNat - 128) * 4096 + (c.toNat - 128) * 64 + (d.toNat - 128))
                  ⟨by unfold IsScalar; omega, by omega⟩ (utf8Good_clean rest hr)
                rw [utf8Char, if_neg (by omega), if_neg (by omega), if_neg (by omega)] at this
                simp only [List.map_cons, List.map_nil] at this
                rw [byte_of (a := a) (by omega), byte_of (a := b) (by omega), byte_of (a := c) (by omega), byte_of (a := d) (by omega)] at this
                exact this

theorem utf8Good_char (n : Nat) (hn : IsScalar n ∧ n ≠ 0xFFFD) (s : Str) : utf8Good (utf8Char n ++ s) = utf8Good s := by
  have e1 : (0x80 : UInt8).toNat = 128 := rfl
  have e2 : (0xC2 : UInt8).toNat = 194 := rfl
  have e3 : (0xDF : UInt8).toNat = 223 := rfl
  have e4 : (0xBF : UInt8).toNat = 191 := rfl
  have e5 : (0xE0 : UInt8).toNat = 224 := rfl
  have e6 : (0xEF : UInt8).toNat = 239 := rfl
  have e7 : (0xED : UInt8).toNat = 237 := rfl
  have e8 : (0xA0 : UInt8).toNat = 160 := rfl
  have e9 : (0x9F : UInt8).toNat = 159 := rfl
  have e10 : (0xF0 : UInt8).toNat = 240 := rfl
  have e11 : (0xF4 : UInt8).toNat = 244 := rfl
  have e12 : (0x90 : UInt8).toNat = 144 := rfl
  have e13 : (0x8F : UInt8).toNat = 143 := rfl
  have e14 : (0xBD : UInt8).toNat = 189 := rfl
  have m : ∀ k, k < 256 → (UInt8.ofNat k).toNat = k := fun k hk => by simp; omega
  have eq : ∀ x y : UInt8, (x = y) ↔ x.toNat = y.toNat := fun x y => UInt8.toNat_inj.symm
  obtain ⟨hs, hx⟩ := hn
  unfold IsScalar at hs
  unfold utf8Char
  by_cases h1 : n < 0x80
  · rw [if_pos h1]
    simp only [List.map_cons, List.map_nil, List.cons_append, List.nil_append]
    rw [utf8Good.eq_def]
    dsimp only
    rw [if_pos (by rw [UInt8.lt_iff_toNat_lt, m _ (by omega)]; omega)]
  · rw [if_neg h1]
    by_cases h2 : n < 0x800
    · rw [if_pos h2]
      have ma := m (0xC0 + n / 64) (by omega)
      have mb := m (0x80 + n % 64) (by omega)
      simp only [List.map_cons, List.map_nil, List.cons_append, List.nil_append]
      generalize UInt8.ofNat (0xC0 + n / 64) = a at *
      generalize UInt8.ofNat (0x80 + n % 64) = b at *
      rw [utf8Good.eq_def]
      dsimp only
      rw [if_neg (by rw [UInt8.lt_iff_toNat_lt]; omega), if_pos (by simp only [Bool.and_eq_true, decide_eq_true_eq, UInt8.le_iff_toNat_le]; omega)]
      have h3 : 0x80 ≤ b ∧ b ≤ 0xBF := by simp only [UInt8.le_iff_toNat_le]; omega
      simp [h3.1, h3.2]
    · rw [if_neg h2]
      by_cases h3 : n < 0x10000
      · rw [if_pos h3]
        have ma := m (0xE0 + n / 4096) (by omega)
        have mb := m (0x80 + n / 64 % 64) (by omega)
        have mc := m (0x80 + n % 64) (by omega)
        simp only [List.map_cons, List.map_nil, List.cons_append, List.nil_append]
        generalize UInt8.ofNat (0xE0 + n / 4096) = a at *
        generalize UInt8.ofNat (0x80 + n / 64 % 64) = b at *
        generalize UInt8.ofNat (0x80 + n % 64) = c at *
        rw [utf8Good.eq_def]
        dsimp only
        rw [if_neg (by rw [UInt8.lt_iff_toNat_lt]; omega), if_neg (by simp only [Bool.and_eq_true, decide_eq_true_eq, UInt8.le_iff_toNat_le]; omega),
          if_pos (by simp only [Bool.and_eq_true, decide_eq_true_eq, UInt8.le_iff_toNat_le]; omega)]
        have k1 : (if a = 0xE0 then (0xA0 : UInt8) else 0x80) ≤ b := by
          split
          · rename_i h; rw [eq] at h; simp only [UInt8.le_iff_toNat_le]; omega
          · simp only [UInt8.le_iff_toNat_le]; omega
        have k2 : b ≤ (if a = 0xED then (0x9F : UInt8) else 0xBF) := by
          split
          · rename_i h; rw [eq] at h; simp only [UInt8.le_iff_toNat_le]; omega
          · simp only [UInt8.le_iff_toNat_le]; omega
        have k3 : 0x80 ≤ c ∧ c ≤ 0xBF := by simp only [UInt8.le_iff_toNat_le]; omega
        have k4 : (!(decide (a = 0xEF) && decide (b = 0xBF) && decide (c = 0xBD))) = true := by
          simp only [Bool.not_eq_true', Bool.and_eq_false_iff, decide_eq_false_iff_not, eq]
          omega
        rw [k4, decide_eq_true k1, decide_eq_true k2, decide_eq_true k3.1, decide_eq_true k3.2]
        rfl
      · rw [if_neg h3]
        have ma := m (0xF0 + n / 262144) (by omega)
        have mb := m (0x80 + n / 4096 % 64) (by omega)
        have mc := m (0x80 + n / 64 % 64) (by omega)
        have md := m (0x80 + n % 64) (by omega)
        simp only [List.map_cons, List.map_nil, List.cons_append, List.nil_append]
        generalize UInt8.ofNat (0xF0 + n / 262144) = a at *
        generalize UInt8.ofNat (0x80 + n / 4096 % 64) = b at *
        generalize UInt8.ofNat (0x80 + n / 64 % 64) = c at *
        generalize UInt8.ofNat (0x80 + n % 64) = d at *
        rw [utf8Good.eq_def]
        dsimp only
        rw [if_neg (by rw [UInt8.lt_iff_toNat_lt]; omega), if_neg (by simp only [Bool.and_eq_true, decide_eq_true_eq, UInt8.le_iff_toNat_le]; omega),
          if_neg (by simp only [Bool.and_eq_true, decide_eq_true_eq, UInt8.le_iff_toNat_le]; omega)]
        have k1 : (if a = 0xF0 then (0x90 : UInt8) else 0x80) ≤ b := by
          split
          · rename_i h; rw [eq] at h; simp only [UInt8.le_iff_toNat_le]; omega
          · simp only [UInt8.le_iff_toNat_le]; omega
        have k2 : b ≤ (if a = 0xF4 then (0x8F : UInt8) else 0xBF) := by
          split
          · rename_i h; rw [eq] at h; simp only [UInt8.le_iff_toNat_le]; omega
          · simp only [UInt8.le_iff_toNat_le]; omega
        have k3 : 0x80 ≤ c ∧ c ≤ 0xBF ∧ 0x80 ≤ d ∧ d ≤ 0xBF ∧ 0xF0 ≤ a ∧ a ≤ 0xF4 := by simp only [UInt8.le_iff_toNat_le]; omega
        rw [decide_eq_true k1, decide_eq_true k2, decide_eq_true k3.1, decide_eq_true k3.2.1, decide_eq_true k3.2.2.1, decide_eq_true k3.2.2.2.1,
          decide_eq_true k3.2.2.2.2.1, decide_eq_true k3.2.2.2.2.2]
        rfl

/-- C59: only text in UTF-8 without U+FFFD is taken for a filter; a search whose filter contains other text is refused. -/
theorem C59_utf8 (s : Str) : (utf8Good s = true ↔ CleanText s) ∧ ((∃ p, compile s = some p) → CleanText s) := by
  have h1 : utf8Good s = true ↔ CleanText s := by
    refine ⟨utf8Good_clean s, ?_⟩
    rintro ⟨cs, h, rfl⟩
    induction cs with
    | nil => rfl
    | cons n cs ih =>
      rw [List.flatMap_cons, utf8Good_char n (h n (by simp))]
      exact ih fun m hm => h m (by simp [hm])
  refine ⟨h1, ?_⟩
  rintro ⟨p, h⟩
  rw [← h1]
  unfold compile at h
  split at h
  · assumption
  · cases h

theorem good_before : ∀ (a : Str) {c : UInt8} (t : Str), c < 0x80 → utf8Good (a ++ c :: t) = true → utf8Good a = true ∧ utf8Good (c :: t) = true
  | [], c, t, _, h => ⟨rfl, h⟩
  | x :: a, c, t, hc, h => by
    have hc' : ¬ (0x80 : UInt8) ≤ c := fun e => by rw [UInt8.le_iff_toNat_le] at e; rw [UInt8.lt_iff_toNat_lt] at hc; omega
    have hc2 : ∀ {p : Prop} [Decidable p], ¬ (if p then (0xA0 : UInt8) else 0x80) ≤ c := fun {p} _ e => by
      rw [UInt8.lt_iff_toNat_lt] at hc
      split at e <;> rw [UInt8.le_iff_toNat_le] at e
      · have : (0xA0 : UInt8).toNat = 160 := rfl
        have : (0x80 : UInt8).toNat = 128 := rfl
        omega
      · omega
    have hc3 : ∀ {p : Prop} [Decidable p], ¬ (if p then (0x90 : UInt8) else 0x80) ≤ c := fun {p} _ e => by
      rw [UInt8.lt_iff_toNat_lt] at hc
      split at e <;> rw [UInt8.le_iff_toNat_le] at e
      · have : (0x90 : UInt8).toNat = 144 := rfl
        have : (0x80 : UInt8).toNat = 128 := rfl
        omega
      · omega
    rw [List.cons_append, utf8Good.eq_def] at h
    rw [utf8Good.eq_def]
    dsimp only at h ⊢
    by_cases h1 : x < 0x80
    · rw [if_pos h1] at h ⊢
      exact good_before a t hc h
    · rw [if_neg h1] at h ⊢
      match a, h with
      | [], h =>
        exfalso
        simp only [List.nil_append] at h
        by_cases h2 : (0xC2 ≤ x && x ≤ 0xDF) = true
        · rw [if_pos h2] at h
          simp [hc'] at h
        · rw [if_neg h2] at h
          match t, h with
          | y :: t, h =>
            dsimp only at h
            by_cases h3 : (0xE0 ≤ x && x ≤ 0xEF) = true
            · rw [if_pos h3] at h
              simp [hc2] at h
            · rw [if_neg h3] at h
              match t, h with
              | z :: t, h => simp [hc3] at h
      | b :: a, h =>
        simp only [List.cons_append] at h ⊢
        by_cases h2 : (0xC2 ≤ x && x ≤ 0xDF) = true
        · rw [if_pos h2] at h ⊢
          simp only [Bool.and_eq_true, decide_eq_true_eq] at h ⊢
          have := good_before a t hc h.2
          exact ⟨⟨h.1, this.1⟩, this.2⟩
        · rw [if_neg h2] at h ⊢
          match a, h with
          | [], h =>
            exfalso
            simp only [List.nil_append] at h
            by_cases h3 : (0xE0 ≤ x && x ≤ 0xEF) = true
            · rw [if_pos h3] at h
              simp [hc'] at h
            · rw [if_neg h3] at h
              match t, h with
              | z :: t, h => simp [hc'] at h
          | d :: a, h =>
            simp only [List.cons_append] at h ⊢
            by_cases h3 : (0xE0 ≤ x && x ≤ 0xEF) = true
            · rw [if_pos h3] at h ⊢
              rw [Bool.and_eq_true] at h ⊢
              have := good_before a t hc h.2
              exact ⟨⟨h.1, this.1⟩, this.2⟩
            · rw [if_neg h3] at h ⊢
              match a, h with
              | [], h => exfalso; simp [hc'] at h
              | e :: a, h =>
                simp only [List.cons_append] at h ⊢
                rw [Bool.and_eq_true] at h ⊢
                have := good_before a t hc h.2
                exact ⟨⟨h.1, this.1⟩, this.2⟩

theorem good_middle {x a t : Str} {c : UInt8} (hc : c < 0x80) (h : utf8Good (x ++ chLPar :: (a ++ c :: t)) = true) : CleanText a := by
  have h1 := (good_before x _ (by decide) h).2
  rw [utf8Good.eq_def] at h1
  dsimp only at h1
  rw [if_pos (by decide)] at h1
  exact utf8Good_clean a (good_before a t hc h1).1

/-- Bytes that are no text, between `(` and another ASCII character. -/
def HasBytes (s : Str) : Prop := ∃ x a c t, s = x ++ chLPar :: (a ++ c :: t) ∧ c < 0x80 ∧ ¬ CleanText a

theorem hasBytes_around {s : Str} (h : HasBytes s) (p q : Str) : HasBytes (p ++ s ++ q) := by
  obtain ⟨x, a, c, t, rfl, hc, ha⟩ := h
  exact ⟨p ++ x, a, c, t ++ q, by simp, hc, ha⟩

mutual
theorem decompile_bytes : (f : Filter) → (w : Packet) → Wire f w → NamesBytes f → ∀ {s}, decompile w = some s → HasBytes s
  | .and fs, .mk _ _ tag _ data kids, h, hb, s, hs => by
    obtain ⟨ht, hk⟩ := h
    simp only [Packet.tag] at ht
    subst ht
    rw [decompile.eq_def] at hs
    simp only [if_true, Option.bind_eq_bind, Option.bind_eq_some_iff, Option.some.injEq] at hs
    obtain ⟨t, h1, rfl⟩ := hs
    exact hasBytes_around (decompileAll_bytes fs kids hk hb h1) _ _
  | .or fs, .mk _ _ tag _ data kids, h, hb, s, hs => by
    obtain ⟨ht, hk⟩ := h
    simp only [Packet.tag] at ht
    subst ht
    rw [decompile.eq_def] at hs
    simp only [Nat.one_ne_zero, if_true, if_false, Option.bind_eq_bind, Option.bind_eq_some_iff, Option.some.injEq] at hs
    obtain ⟨t, h1, rfl⟩ := hs
    exact hasBytes_around (decompileAll_bytes fs kids hk hb h1) _ _
  | .not f, .mk _ _ tag _ data kids, h, hb, s, hs => by
    obtain ⟨ht, q, hq, hf⟩ := h
    simp only [Packet.tag] at ht
    simp only [Packet.kids] at hq
    subst ht; subst hq
    rw [decompile.eq_def] at hs
    simp only [show (2 : Nat) ≠ 0 by decide, show (2 : Nat) ≠ 1 by decide, if_true, if_false, Option.bind_eq_bind, Option.bind_eq_some_iff, Option.some.injEq] at hs
    obtain ⟨t, h1, rfl⟩ := hs
    exact hasBytes_around (decompile_bytes f q hf hb h1) _ _
  | .eq a v, .mk _ _ tag _ data kids, h, hb, s, hs => by
    obtain ⟨ht, x, y, hk, hx, hy⟩ := h
    simp only [Packet.tag] at ht
    simp only [Packet.kids] at hk
    subst ht; subst hk
    rw [show decompile _ = some (b!"(" ++ a ++ b!"=" ++ escapeFilter v ++ b!")") by simp [decompile, hx, hy]] at hs
    cases hs
    exact ⟨[], a, 61, escapeFilter v ++ b!")", by simp [chLPar], by decide, hb⟩
  | .sub a i m f, .mk _ _ tag _ data kids, h, hb, s, hs => by
    obtain ⟨ht, x, y, hk, hx, hy⟩ := h
    simp only [Packet.tag] at ht
    simp only [Packet.kids] at hk
    subst ht; subst hk
    rw [show decompile _ = some (b!"(" ++ a ++ b!"=" ++ decompileSubs true y.kids ++ b!")") by simp [decompile, hx]] at hs
    cases hs
    exact ⟨[], a, 61, decompileSubs true y.kids ++ b!")", by simp [chLPar], by decide, hb⟩
  | .present a, .mk _ _ tag _ data kids, h, hb, s, hs => by
    obtain ⟨ht, hd⟩ := h
    simp only [Packet.tag] at ht
    simp only [Packet.data] at hd
    subst ht; subst hd
    rw [show decompile _ = some (b!"(" ++ data ++ b!"=*)") by rw [decompile.eq_def]; simp] at hs
    cases hs
    exact ⟨[], data, 61, b!"*)", by simp [chLPar], by decide, hb⟩
  | .cmp t a v, .mk _ _ tag _ data kids, h, hb, s, hs => by
    obtain ⟨htt, ht, x, y, hk, hx, hy⟩ := h
    simp only [Packet.tag] at ht
    simp only [Packet.kids] at hk
    subst ht; subst hk
    rcases htt with rfl | rfl | rfl
    · rw [show decompile _ = some (b!"(" ++ a ++ b!">=" ++ escapeFilter v ++ b!")") by simp [decompile, hx, hy]] at hs
      cases hs
      exact ⟨[], a, 62, b!"=" ++ escapeFilter v ++ b!")", by simp [chLPar], by decide, hb⟩
    · rw [show decompile _ = some (b!"(" ++ a ++ b!"<=" ++ escapeFilter v ++ b!")") by simp [decompile, hx, hy]] at hs
      cases hs
      exact ⟨[], a, 60, b!"=" ++ escapeFilter v ++ b!")", by simp [chLPar], by decide, hb⟩
    · rw [show decompile _ = some (b!"(" ++ a ++ b!"~=" ++ escapeFilter v ++ b!")") by simp [decompile, hx, hy]] at hs
      cases hs
      exact ⟨[], a, 126, b!"=" ++ escapeFilter v ++ b!")", by simp [chLPar], by decide, hb⟩
  | .ext _ _ _ _, _, _, hb, _, _ => hb.elim
theorem decompileAll_bytes : (fs : List Filter) → (ws : List Packet) → WireAll fs ws → NamesBytesAny fs → ∀ {s}, decompileAll ws = some s →
    HasBytes s
  | [], _, _, hb, _, _ => hb.elim
  | f :: fs, ws, h, hb, s, hs => by
    obtain ⟨q, qs, rfl, hq, hqs⟩ := h
    rw [decompileAll] at hs
    simp only [Option.bind_eq_bind, Option.bind_eq_some_iff, Option.some.injEq] at hs
    obtain ⟨t, h1, u, h2, rfl⟩ := hs
    rcases hb with hb | hb
    · simpa using hasBytes_around (decompile_bytes f q hq hb h1) [] u
    · simpa using hasBytes_around (decompileAll_bytes fs qs hqs hb h2) t []
end

/-- C59: a search whose filter names an attribute by bytes that are no text is answered with operationsError (1), and nothing else. -/
theorem C59_bytes_refused (V : Env) (G : GobEnv) (cfg : BoltCfg) (n : Nat) (stats : Bool) (o : Oracle) (id : Int) (bound b : Str)
    (scope m : Nat) (f : Filter) (w : Packet) (hw : Wire f w) (hb : NamesBytes f) (attrs : List Str) (db : Db) :
    handlePacket V (boltSrv V G cfg n stats) o (wMsg id (wSearch b scope m w attrs)) bound db = ⟨[.searchDone id 1 none], .closed, db⟩ := by
  rw [wSearch_step]
  cases hd : decompile w with
  | none => rfl
  | some s =>
    obtain ⟨x, a, c, t, rfl, hc, ha⟩ := decompile_bytes f w hw hb hd
    dsimp only
    rw [show compile _ = none by
      rw [compile.eq_def, if_neg]
      intro h
      exact ha (good_middle hc h)]

/-- `ÿ=x` in Latin-1, inside a conjunction; and names that are text: `größe`, and U+10000. -/
example : ∃ w, Wire (.and [.present b!"cn", .eq [255] b!"x"]) w ∧ NamesBytes (.and [.present b!"cn", .eq [255] b!"x"]) :=
  ⟨.mk .context true 0 .nil [] [.mk .context false 7 .nil b!"cn" [], .mk .context true 3 .nil [] [octet [255], octet b!"x"]],
    ⟨rfl, _, _, rfl, ⟨rfl, rfl⟩, _, _, rfl, ⟨rfl, _, _, rfl, rfl, rfl⟩, rfl⟩,
    .inr (.inl fun h => absurd ((C59_utf8 _).1.2 h) (by decide))⟩
example : CleanText ([0x67, 0x72, 0xC3, 0xB6, 0xC3, 0x9F, 0x65] ++ [0xF0, 0x90, 0x80, 0x80]) := (C59_utf8 _).1.1 (by decide)
example : ¬ CleanText [0xC0, 0x80] ∧ ¬ CleanText [0xED, 0xA0, 0x80] ∧ ¬ CleanText [0xEF, 0xBF, 0xBD] :=
  ⟨fun h => absurd ((C59_utf8 _).1.2 h) (by decide), fun h => absurd ((C59_utf8 _).1.2 h) (by decide), fun h => absurd ((C59_utf8 _).1.2 h) (by decide)⟩
example : ∃ p, compile ([40, 0xC3, 0xB6] ++ b!"=x)") = some p := Option.isSome_iff_exists.1 (by decide +kernel)

end Idm
