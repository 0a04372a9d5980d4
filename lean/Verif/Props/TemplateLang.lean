import Verif.Spec.TemplateLang
import Verif.Props.Login
import Verif.Props.Reload
/-!
# C105: what templates stand for
-/
namespace Idm

/-! ## Reading what is written -/

theorem isDigitByte_iff {c : UInt8} : isDigitByte c = true ↔ 48 ≤ c ∧ c ≤ 57 := by
  unfold isDigitByte
  simp

theorem tplName_iff {n : Str} (h : IsName n) : tplName n = true ∧ n.all isAlnumByte = true ∧ n ≠ [] := by
  obtain ⟨⟨c, r, rfl, hc⟩, h⟩ := h
  have ha : (c :: r).all isAlnumByte = true := List.all_eq_true.2 fun d hd => by
    rcases h d hd with g | g | g <;> simp [isAlnumByte, isDigitByte, g]
  refine ⟨?_, ha, by simp⟩
  rw [tplName, ha, Bool.and_true, Bool.not_eq_true', ← Bool.not_eq_true, isDigitByte_iff]
  exact hc

theorem litByte_iff {v : Str} (h : IsLiteral v) : v.all litByte = true := List.all_eq_true.2 fun c hc => by
  obtain ⟨h1, h2, h3⟩ := h c hc
  simp only [List.mem_cons, List.not_mem_nil, or_false, not_or] at h3
  simp [litByte, h1, h2, h3]

theorem takeWhile_exact {p : UInt8 → Bool} : ∀ {v : Str} (x : Str), v.all p = true → x.head?.all (fun c => !p c) = true →
    (v ++ x).takeWhile p = v ∧ (v ++ x).dropWhile p = x
  | [], x, _, h => by
    cases x with
    | nil => simp
    | cons c x => simp at h; simp [h]
  | c :: v, x, h, hx => by
    simp only [List.all_cons, Bool.and_eq_true] at h
    obtain ⟨h1, h2⟩ := takeWhile_exact x h.2 hx
    rw [List.cons_append, List.takeWhile_cons_of_pos h.1, List.dropWhile_cons_of_pos h.1, h1, h2]
    exact ⟨rfl, rfl⟩

theorem parseLit_written {v : Str} (h : IsLiteral v) (r : Str) : parseLit (34 :: (v ++ 34 :: r)) = some (v, r) := by
  obtain ⟨h1, h2⟩ := takeWhile_exact (p := litByte) (v := v) (34 :: r) (litByte_iff h) (by rw [List.head?_cons]; decide)
  simp only [parseLit, h1, h2]

theorem natTextGo_lead : ∀ (fuel n : Nat), n < 10 ^ fuel → 0 < n → ∃ c r, natTextGo fuel n = c :: r ∧ c ≠ 48
  | 0, n, h, h0 => by simp at h; omega
  | fuel + 1, n, h, h0 => by
    rw [natTextGo]
    by_cases hn : n < 10
    · rw [if_pos hn]
      refine ⟨_, [], rfl, ?_⟩
      have : ∀ n < 10, 0 < n → UInt8.ofNat (48 + n) ≠ 48 := by decide
      exact this n hn h0
    · rw [if_neg hn]
      obtain ⟨c, r, e, hc⟩ := natTextGo_lead fuel (n / 10) (by rw [Nat.pow_succ] at h; omega) (by omega)
      exact ⟨c, r ++ _, by rw [e]; rfl, hc⟩

theorem parseCount_written (k : UInt64) : parseCount (natText k.toNat) = some k := by
  have hk : k.toNat < 10 ^ 20 := Nat.lt_trans k.toNat_lt (by decide)
  obtain ⟨h1, h2, h3⟩ := natTextGo_spec 20 k.toNat hk (by omega)
  change digitsVal (natText k.toNat) = _ at h1
  change (natText k.toNat).all isDigitByte = true at h2
  change natText k.toNat ≠ [] at h3
  unfold parseCount
  rw [if_pos, h1]
  · simp
  · refine ⟨h3, h2, ?_, by rw [h1]; exact k.toNat_lt⟩
    intro h
    by_cases h0 : k.toNat = 0
    · rw [h0]; decide
    · obtain ⟨c, r, e, hc⟩ := natTextGo_lead 20 k.toNat hk (by omega)
      change natText k.toNat = _ at e
      rw [e] at h
      exact absurd (Option.some.inj h) hc

theorem literal_no_brace {v : Str} (h : IsLiteral v) : 125 ∉ v := fun hm => absurd (h 125 hm).2.2 (by decide)

theorem name_no_brace {n : Str} (h : IsName n) : 125 ∉ n := fun hm => absurd (h.2 125 hm) (by decide)

theorem hasPrefix_lit {a : Str} (p : Str) (h : (p.isPrefixOf a) = false) : hasPrefix a p = false := h

/-- What is written is read; it has no closing brace, and does not end in ` -`. -/
theorem written_read {act : Action} {a : Str} (h : Written act a) : parseAction a = some act ∧ 125 ∉ a ∧ a.getLast? ≠ some 45 := by
  have lastName : ∀ {n : Str} (x : UInt8), IsName n → (x :: n).getLast? ≠ some 45 := by
    intro n x hn e
    obtain ⟨⟨c, r, rfl, -⟩, h⟩ := hn
    rw [List.getLast?_cons_cons] at e
    exact absurd (h 45 (List.mem_of_getLast? e)) (by decide)
  have lastOf : ∀ (x : Str) (y : Str), y ≠ [] → y.getLast? ≠ some 45 → (x ++ y).getLast? ≠ some 45 := by
    intro x y hy h
    rw [List.getLast?_append]
    cases hg : y.getLast? with
    | none => exact absurd (List.getLast?_eq_none_iff.1 hg) hy
    | some c => rw [hg] at h; simpa using h
  cases h with
  | field n hn =>
    obtain ⟨h1, h2, h3⟩ := tplName_iff hn
    exact ⟨by show parseAction (46 :: n) = _; rw [parseAction, if_pos h1], by simpa using name_no_brace hn, lastName 46 hn⟩
  | auto => exact ⟨by decide, by decide, by decide⟩
  | autoFrom k =>
    have hk : k.toNat < 10 ^ 20 := Nat.lt_trans k.toNat_lt (by decide)
    obtain ⟨-, -, h3⟩ := natTextGo_spec 20 k.toNat hk (by omega)
    have hdig : ∀ c ∈ natText k.toNat, isDigitByte c = true := natTextGo_digits 20 k.toNat
    refine ⟨?_, ?_, lastOf _ _ h3 fun e => absurd (hdig 45 (List.mem_of_getLast? e)) (by decide)⟩
    · have := parseCount_written k
      generalize natText k.toNat = t at this
      show parseAction (b!"AutoIncrement " ++ t) = _
      simp only [parseAction, List.cons_append, List.nil_append]
      simp [hasPrefix, List.isPrefixOf, this]
    · rw [List.mem_append]
      rintro (hm | hm)
      · exact absurd hm (by decide)
      · exact absurd (hdig 125 hm) (by decide)
  | company v hv =>
    refine ⟨?_, by simpa using literal_no_brace hv, lastOf _ _ (by simp) (by decide)⟩
    have := parseLit_written hv []
    simp only [parseAction, List.cons_append, List.nil_append]
    simp [hasPrefix, List.isPrefixOf, setters, this]
  | baseDN v hv =>
    refine ⟨?_, by simpa using literal_no_brace hv, lastOf _ _ (by simp) (by decide)⟩
    have := parseLit_written hv []
    simp only [parseAction, List.cons_append, List.nil_append]
    simp [hasPrefix, List.isPrefixOf, setters, this]
  | mailDomain v hv =>
    refine ⟨?_, by simpa using literal_no_brace hv, lastOf _ _ (by simp) (by decide)⟩
    have := parseLit_written hv []
    simp only [parseAction, List.cons_append, List.nil_append]
    simp [hasPrefix, List.isPrefixOf, setters, this]
  | declare n v hn hv =>
    refine ⟨?_, ?_, lastOf _ _ (by simp) (by decide)⟩
    · obtain ⟨h1, h2, h3⟩ := tplName_iff hn
      obtain ⟨a1, a2⟩ := takeWhile_exact (p := isAlnumByte) (v := n) (b!" := \"" ++ v ++ b!"\"") h2 (by simp; decide)
      have := parseLit_written hv []
      rw [show b!"$" ++ n ++ b!" := \"" ++ v ++ b!"\"" = 36 :: (n ++ (b!" := \"" ++ v ++ b!"\"")) by simp]
      simp only [parseAction, a1, a2, h1, if_true]
      simp [hasPrefix, List.isPrefixOf, this]
    · simpa using ⟨name_no_brace hn, literal_no_brace hv⟩
  | local_ n hn =>
    refine ⟨?_, by simpa using name_no_brace hn, lastName 36 hn⟩
    obtain ⟨h1, h2, h3⟩ := tplName_iff hn
    obtain ⟨a1, a2⟩ := takeWhile_exact (p := isAlnumByte) (v := n) [] h2 (by simp)
    rw [List.append_nil] at a1 a2
    show parseAction (36 :: n) = _
    simp [parseAction, a1, a2, h1]
  | block => exact ⟨by decide, by decide, by decide⟩
  | close => exact ⟨by decide, by decide, by decide⟩
  | base64 v hv =>
    refine ⟨?_, by simpa using literal_no_brace hv, lastOf _ _ (by simp) (by decide)⟩
    have := parseLit_written hv b!" | formatAsBase64"
    simp only [parseAction, List.cons_append, List.nil_append, this, if_true]
  | file v hv =>
    refine ⟨?_, by simpa using literal_no_brace hv, lastOf _ _ (by simp) (by decide)⟩
    have := parseLit_written hv b!" | formatAsFileBase64"
    simp only [parseAction, List.cons_append, List.nil_append, this]
    simp

/-! ## Cutting -/

theorem cutPair_text : ∀ {s : Str} (t : Str), contains s b!"{{" = false → s.getLast? ≠ some 123 → cutPair 123 (s ++ 123 :: 123 :: t) = some (s, t)
  | [], t, _, _ => by simp [cutPair]
  | c :: s, t, h, hl => by
    rw [braces_cons, Bool.or_eq_false_iff] at h
    have ih := cutPair_text t h.2 (by
      cases s with
      | nil => simp
      | cons d s => simpa [List.getLast?_cons_cons] using hl)
    cases s with
    | nil =>
      rw [List.nil_append] at ih
      rw [List.cons_append, List.nil_append, cutPair, if_neg, ih]
      · rfl
      · rintro ⟨e, -⟩
        exact hl (by simp [e])
    | cons d s =>
      rw [List.cons_append, List.cons_append, cutPair, if_neg, ← List.cons_append, ih]
      · rfl
      · rintro ⟨e1, e2⟩
        simp [e1, e2] at h

theorem cutPair_none : ∀ {s : Str}, contains s b!"{{" = false → cutPair 123 s = none
  | [], _ => rfl
  | [c], _ => rfl
  | c :: d :: s, h => by
    rw [braces_cons, Bool.or_eq_false_iff] at h
    rw [cutPair, if_neg, cutPair_none h.2]
    · rfl
    · rintro ⟨e1, e2⟩
      simp [e1, e2] at h

theorem cutPair_close : ∀ {a : Str} (r : Str), 125 ∉ a → cutPair 125 (a ++ 125 :: 125 :: r) = some (a, r)
  | [], r, _ => by simp [cutPair]
  | c :: a, r, h => by
    have ih := cutPair_close r fun hm => h (List.mem_cons_of_mem _ hm)
    have hc : c ≠ 125 := fun e => h (by simp [e])
    cases a with
    | nil =>
      rw [List.nil_append] at ih
      rw [List.cons_append, List.nil_append, cutPair, if_neg (fun h => hc h.1), ih]
      rfl
    | cons d a =>
      rw [List.cons_append, List.cons_append, cutPair, if_neg (fun h => hc h.1), ← List.cons_append, ih]
      rfl

/-! ## Executing -/

/-- The value of the last local variable of a name. -/
def lastLocal (l : List (Str × Str)) (n : Str) : Option Str := (l.find? fun p => p.1 = n).map (·.2)

def Nested : List (Str × Str) → List Nat → List (Str → Option Str) → Prop
  | _, [], [] => True
  | l, m :: ms, s :: r => m ≤ l.length ∧ (∀ n, s n = lastLocal (l.drop (l.length - m)) n) ∧ Nested (l.drop (l.length - m)) ms r
  | _, _, _ => False

structure Same (st : TplSt) (sp : TplState) : Prop where
  var : ∀ n, sp.var n = varValue st.vars n
  count : sp.count = st.counter
  seen : ∀ n, sp.seen n = lastLocal st.locals n
  around : Nested st.locals st.marks sp.around

theorem nested_nil {l : List (Str × Str)} {ms : List Nat} {ar : List (Str → Option Str)} (h : Nested l ms ar) : ms = [] ↔ ar = [] := by
  cases ms <;> cases ar <;> simp_all [Nested]

theorem does_exec {S : TplEnv} (henc : ∀ s, S.encode s = base64 s) {st : TplSt} {sp sp' : TplState} {a : Action} {v : Str} (hs : Same st sp)
    (h : Does S.file sp a sp' v) : ∃ st', st.exec S a = some (st', v) ∧ Same st' sp' := by
  cases h with
  | field n v hv => exact ⟨st, by rw [TplSt.exec, ← hs.var n, hv]; rfl, hs⟩
  | missing n hv => exact ⟨st, by rw [TplSt.exec, ← hs.var n, hv]; rfl, hs⟩
  | next => exact ⟨{ st with counter := st.counter + 1 }, by rw [hs.count]; rfl, hs.var, by rw [hs.count], hs.seen, hs.around⟩
  | set k => exact ⟨{ st with counter := k }, rfl, hs.var, rfl, hs.seen, hs.around⟩
  | assign n v =>
    refine ⟨{ st with vars := withVar n v st.vars }, rfl, fun k => ?_, hs.count, hs.seen, hs.around⟩
    show put sp.var n v k = _
    rw [put, withVar, varValue_append, varValue_single]
    by_cases e : k = n
    · simp [e]
    · rw [if_neg e, if_neg fun h => e h.symm, hs.var k]
      simp
  | declare n v =>
    refine ⟨{ st with locals := (n, v) :: st.locals }, rfl, hs.var, hs.count, fun k => ?_, ?_⟩
    · show put sp.seen n v k = _
      rw [put, lastLocal, List.find?_cons]
      by_cases e : k = n
      · simp [e]
      · rw [if_neg e, hs.seen k]
        rw [show decide ((n, v).1 = k) = false from decide_eq_false fun h => e h.symm]
        rfl
    · have := hs.around
      generalize sp.around = ar at this
      show Nested ((n, v) :: st.locals) st.marks ar
      cases hm : st.marks with
      | nil => rw [hm] at this; cases ar <;> simp_all [Nested]
      | cons m ms =>
        rw [hm] at this
        cases ar with
        | nil => cases this
        | cons s r =>
          obtain ⟨h1, h2, h3⟩ := this
          have e : ((n, v) :: st.locals).drop (((n, v) :: st.locals).length - m) = st.locals.drop (st.locals.length - m) := by
            rw [List.length_cons, show st.locals.length + 1 - m = (st.locals.length - m) + 1 by omega]
            rfl
          exact ⟨by simp; omega, by rw [e]; exact h2, by rw [e]; exact h3⟩
  | local_ n v hv =>
    refine ⟨st, ?_, hs⟩
    rw [hs.seen n, lastLocal] at hv
    obtain ⟨p, hp, rfl⟩ := Option.map_eq_some_iff.1 hv
    rw [TplSt.exec, hp]
  | block =>
    refine ⟨{ st with marks := st.locals.length :: st.marks }, rfl, hs.var, hs.count, hs.seen, ?_⟩
    show Nested st.locals (st.locals.length :: st.marks) (sp.seen :: sp.around)
    refine ⟨Nat.le_refl _, ?_, ?_⟩ <;> rw [Nat.sub_self, List.drop_zero]
    · exact hs.seen
    · exact hs.around
  | close s r hr =>
    have := hs.around
    rw [hr] at this
    cases hm : st.marks with
    | nil => rw [hm] at this; cases this
    | cons m ms =>
      rw [hm] at this
      obtain ⟨h1, h2, h3⟩ := this
      exact ⟨{ st with locals := st.locals.drop (st.locals.length - m), marks := ms }, by rw [TplSt.exec, hm], hs.var, hs.count, h2, h3⟩
  | base64 v => exact ⟨st, by rw [TplSt.exec, henc], hs⟩
  | file v out hv => exact ⟨st, by rw [TplSt.exec, hv]; rfl, hs⟩

theorem fails_exec {S : TplEnv} {st : TplSt} {sp : TplState} {a : Action} (hs : Same st sp) (h : Fails S.file sp a) : st.exec S a = none := by
  cases h with
  | local_ n hn =>
    rw [hs.seen n, lastLocal, Option.map_eq_none_iff] at hn
    rw [TplSt.exec, hn]
  | close hr =>
    have := (nested_nil hs.around).2 hr
    rw [TplSt.exec, this]
  | file v hv => rw [TplSt.exec, hv]; rfl

theorem suffix_dash {a : Str} (h : a.getLast? ≠ some 45) : hasSuffix a b!" -" = false := by
  cases hb : hasSuffix a b!" -" with
  | false => rfl
  | true =>
    obtain ⟨t, rfl⟩ := hasSuffix_iff.1 hb
    rw [List.getLast?_append] at h
    exact absurd rfl h

/-- C105: a template becomes what it stands for. -/
theorem C105_template {S : TplEnv} (henc : ∀ s, S.encode s = base64 s) (vars : List (Str × Str)) (start : UInt64) {ps : List (Str × Action)}
    {tail text : Str} {out : Option Str} (hc : Consists ps tail text) (hy : Yields S.file (tplStart (varValue vars) start) ps tail out) :
    tplRun S vars start text = some out := by
  have key : ∀ (f : Nat) (st : TplSt) (sp : TplState), Same st sp → text.length < f → ∀ out, Yields S.file sp ps tail out →
      tplGo S f st text = some out := by
    clear hy
    induction hc with
    | done s h =>
      intro f st sp hs hf out hy
      obtain ⟨f, rfl⟩ : ∃ g, f = g + 1 := ⟨f - 1, by omega⟩
      rw [tplGo, cutPair_none h]
      have := nested_nil hs.around
      cases hy with
      | done _ _ ha => exact if_pos (this.2 ha)
      | unclosed _ _ ha => exact if_neg fun h => ha (this.1 h)
    | action s a act ps tail rest h1 h2 h3 _ ih =>
      intro f st sp hs hf out hy
      obtain ⟨f, rfl⟩ : ∃ g, f = g + 1 := ⟨f - 1, by omega⟩
      obtain ⟨g1, g2, g3⟩ := written_read h3
      simp only [List.length_append, List.length_cons, List.length_nil] at hf
      rw [show s ++ b!"{{" ++ a ++ b!"}}" ++ rest = s ++ 123 :: 123 :: (a ++ 125 :: 125 :: rest) by simp, tplGo, cutPair_text _ h1 h2]
      dsimp only
      rw [cutPair_close _ g2]
      dsimp only
      rw [suffix_dash g3]
      simp only [Bool.false_eq_true, if_false, g1]
      cases hy with
      | next _ sp' _ v _ _ _ out hd hy =>
        obtain ⟨st', e, hs'⟩ := does_exec henc hs hd
        rw [e]
        dsimp only
        rw [ih f st' sp' hs' (by omega) _ hy]
        rfl
      | fails _ _ _ _ _ hd => rw [fails_exec hs hd]
    | trimmed s a w act ps tail rest h1 h2 h3 hw hr _ ih =>
      intro f st sp hs hf out hy
      obtain ⟨f, rfl⟩ : ∃ g, f = g + 1 := ⟨f - 1, by omega⟩
      obtain ⟨g1, g2, g3⟩ := written_read h3
      simp only [List.length_append, List.length_cons, List.length_nil] at hf
      rw [show s ++ b!"{{" ++ a ++ b!" -}}" ++ w ++ rest = s ++ 123 :: 123 :: ((a ++ b!" -") ++ 125 :: 125 :: (w ++ rest)) by simp, tplGo, cutPair_text _ h1 h2]
      dsimp only
      rw [cutPair_close _ (by simpa using g2)]
      dsimp only
      have htrim : hasSuffix (a ++ b!" -") b!" -" = true := hasSuffix_iff.2 ⟨a, rfl⟩
      have hd : (w ++ rest).dropWhile tplSpace = rest := by
        have sp : ∀ c : UInt8, tplSpace c = decide (c ∈ b!" \t\r\n") := by decide +kernel
        refine (takeWhile_exact rest ?_ ?_).2
        · exact List.all_eq_true.2 fun c hc => by rw [sp]; exact decide_eq_true (hw c hc)
        · cases hh : rest.head? with
          | none => rfl
          | some c => rw [Option.all_some, sp, decide_eq_false (hr c hh)]; rfl
      rw [htrim]
      simp only [if_true, List.length_append, List.length_cons, List.length_nil, Nat.zero_add, Nat.reduceAdd, Nat.add_sub_cancel, List.take_left, g1, hd]
      cases hy with
      | next _ sp' _ v _ _ _ out hd hy =>
        obtain ⟨st', e, hs'⟩ := does_exec henc hs hd
        rw [e]
        dsimp only
        rw [ih f st' sp' hs' (by omega) _ hy]
        rfl
      | fails _ _ _ _ _ hd => rw [fails_exec hs hd]
  exact key (text.length + 1) { vars := vars, counter := start, locals := [], marks := [] } (tplStart (varValue vars) start) ⟨fun _ => rfl, rfl, fun _ => rfl, trivial⟩ (Nat.lt_succ_self _) out hy

/-! ## What is read is written -/

theorem name_of {n : Str} (h : tplName n = true) : IsName n := by
  cases n with
  | nil => cases h
  | cons c r =>
    rw [tplName, Bool.and_eq_true, Bool.not_eq_true', ← Bool.not_eq_true, isDigitByte_iff] at h
    refine ⟨⟨c, r, rfl, h.1⟩, fun d hd => ?_⟩
    have := List.all_eq_true.1 h.2 d hd
    simp only [isAlnumByte, isDigitByte, Bool.or_eq_true, Bool.and_eq_true, decide_eq_true_eq] at this
    rcases this with (h | h) | h
    · exact .inl h
    · exact .inr (.inl h)
    · exact .inr (.inr h)

theorem literal_of {t : Str} : IsLiteral (t.takeWhile litByte) := fun c hc => by
  have := List.all_eq_true.1 (List.all_takeWhile (p := litByte) (l := t)) c hc
  simp only [litByte, Bool.and_eq_true, decide_eq_true_eq, bne_iff_ne, ne_eq] at this
  obtain ⟨⟨⟨⟨h1, h2⟩, h3⟩, h4⟩, h5⟩ := this
  exact ⟨h1, h2, by simp [h3, h4, h5]⟩

theorem parseLit_sound {s v r : Str} (h : parseLit s = some (v, r)) : IsLiteral v ∧ s = 34 :: (v ++ 34 :: r) := by
  unfold parseLit at h
  split at h
  · rename_i t
    split at h
    · rename_i r' hd
      simp only [Option.some.injEq, Prod.mk.injEq] at h
      obtain ⟨rfl, rfl⟩ := h
      refine ⟨literal_of, ?_⟩
      rw [← hd, List.takeWhile_append_dropWhile]
    · cases h
  · cases h

theorem digit_back {c : UInt8} (h : isDigitByte c = true) : UInt8.ofNat (48 + (c.toNat - 48)) = c ∧ c.toNat - 48 < 10 := by
  have : ∀ c : UInt8, isDigitByte c = true → UInt8.ofNat (48 + (c.toNat - 48)) = c ∧ c.toNat - 48 < 10 := by decide +kernel
  exact this c h

theorem digitsVal_pos {t : Str} (h : t.all isDigitByte = true) (hne : t ≠ []) (h0 : t.head? ≠ some 48) : 0 < digitsVal t := by
  have key : ∀ (r : Str) (k : Nat), 0 < k → 0 < r.foldl (fun n c => n * 10 + (c.toNat - 48)) k := by
    intro r
    induction r with
    | nil => intro k hk; exact hk
    | cons c r ih => intro k hk; exact ih _ (show 0 < k * 10 + (c.toNat - 48) by omega)
  cases t with
  | nil => exact absurd rfl hne
  | cons c r =>
    simp only [List.all_cons, Bool.and_eq_true] at h
    have pos : ∀ c : UInt8, isDigitByte c = true → c ≠ 48 → 0 < c.toNat - 48 := by decide +kernel
    have := pos c h.1 (by simpa using h0)
    exact key r _ (show 0 < 0 * 10 + (c.toNat - 48) by omega)

theorem natTextGo_back : ∀ (fuel : Nat) {t : Str}, digitsVal t < 10 ^ fuel → t.all isDigitByte = true → t ≠ [] → (t.head? = some 48 → t = [48]) →
    natTextGo fuel (digitsVal t) = t ∨ fuel = 0
  | 0, _, _, _, _, _ => .inr rfl
  | fuel + 1, t, h, hd, hne, h0 => by
    left
    obtain ⟨u, c, rfl⟩ : ∃ u c, t = u ++ [c] := ⟨t.dropLast, t.getLast hne, (List.dropLast_concat_getLast hne).symm⟩
    rw [List.all_append, Bool.and_eq_true] at hd
    obtain ⟨b1, b2⟩ := digit_back (c := c) (by simpa using hd.2)
    rw [natTextGo]
    rw [digitsVal_snoc] at h ⊢
    by_cases hu : u = []
    · subst hu
      rw [show digitsVal [] = 0 from rfl, Nat.zero_mul, Nat.zero_add, if_pos b2, b1, List.nil_append]
    · have hu0 : u.head? ≠ some 48 := by
        intro e
        have := h0 (by rw [List.head?_append, e]; rfl)
        cases u with
        | nil => exact hu rfl
        | cons d u => simp at this
      have hpos := digitsVal_pos hd.1 hu hu0
      rw [if_neg (by omega), show (digitsVal u * 10 + (c.toNat - 48)) / 10 = digitsVal u by omega,
        show (digitsVal u * 10 + (c.toNat - 48)) % 10 = c.toNat - 48 by omega, b1]
      rw [Nat.pow_succ] at h
      rcases natTextGo_back fuel (by omega) hd.1 hu (fun e => absurd e hu0) with e | e
      · rw [e]
      · subst e
        omega

theorem parseCount_sound {t : Str} {k : UInt64} (h : parseCount t = some k) : t = natText k.toNat := by
  unfold parseCount at h
  split at h
  · rename_i hc
    obtain ⟨h1, h2, h3, h4⟩ := hc
    cases h
    have : (UInt64.ofNat (digitsVal t)).toNat = digitsVal t := by
      rw [UInt64.toNat_ofNat']
      exact Nat.mod_eq_of_lt h4
    rw [this]
    rcases natTextGo_back 20 (Nat.lt_trans h4 (by decide)) h2 h1 h3 with e | e
    · exact e.symm
    · cases e
  · cases h

theorem prefix_split {s p : Str} (h : hasPrefix s p = true) : s = p ++ s.drop p.length := by
  obtain ⟨t, rfl⟩ := List.isPrefixOf_iff_prefix.1 h
  simp

/-- What is read has been written. -/
theorem read_written {act : Action} {a : Str} (h : parseAction a = some act) : Written act a := by
  unfold parseAction at h
  split at h
  · split at h
    · rename_i hn
      cases h
      exact .field _ (name_of hn)
    · cases h
  · rename_i t
    dsimp only at h
    have ht : t = t.takeWhile isAlnumByte ++ t.dropWhile isAlnumByte := List.takeWhile_append_dropWhile.symm
    split at h
    · rename_i hn
      split at h
      · rename_i hr
        cases h
        rw [hr, List.append_nil] at ht
        have := Written.local_ _ (name_of hn)
        rw [show ([36] ++ t.takeWhile isAlnumByte : Str) = 36 :: t by rw [← ht]; rfl] at this
        exact this
      · split at h
        · rename_i hp
          split at h
          · rename_i v hv
            cases h
            obtain ⟨l1, l2⟩ := parseLit_sound hv
            have e := prefix_split hp
            have := Written.declare _ v (name_of hn) l1
            have e2 : 36 :: t = b!"$" ++ t.takeWhile isAlnumByte ++ b!" := \"" ++ v ++ b!"\"" := by
              rw [show (b!" := " : Str).length = 4 from rfl, l2] at e
              rw [e] at ht
              rw [show (b!"$" ++ t.takeWhile isAlnumByte ++ b!" := \"" ++ v ++ b!"\"" : Str) =
                36 :: (t.takeWhile isAlnumByte ++ (b!" := " ++ 34 :: (v ++ [34]))) by simp, ← ht]
            rw [e2]
            exact this
          · cases h
        · cases h
    · cases h
  · rename_i t
    split at h
    · rename_i v r hv
      obtain ⟨l1, l2⟩ := parseLit_sound hv
      split at h
      · rename_i hr
        cases h
        have := Written.base64 v l1
        rw [l2, hr]
        simpa using this
      · split at h
        · rename_i hr
          cases h
          have := Written.file v l1
          rw [l2, hr]
          simpa using this
        · cases h
    · cases h
  · split at h
    · rename_i e; cases h; rw [e]; exact .close
    split at h
    · rename_i e; cases h; rw [e]; exact .block
    split at h
    · rename_i e; cases h; rw [e]; exact .auto
    split at h
    · rename_i hp
      obtain ⟨k, hk, rfl⟩ := Option.map_eq_some_iff.1 h
      have e := prefix_split hp
      rw [show (b!"AutoIncrement " : Str).length = 14 from rfl, parseCount_sound hk] at e
      rw [e]
      exact .autoFrom k
    · split at h
      · rename_i p hp
        have hm := List.mem_of_find?_eq_some hp
        have hx := List.find?_some hp
        split at h
        · rename_i v hv
          cases h
          obtain ⟨l1, l2⟩ := parseLit_sound hv
          have e := prefix_split hx
          rw [l2] at e
          rw [e]
          simp only [setters, List.mem_cons, List.not_mem_nil, or_false] at hm
          rcases hm with rfl | rfl | rfl
          · simpa using Written.company v l1
          · simpa using Written.baseDN v l1
          · simpa using Written.mailDomain v l1
        · cases h
      · cases h

theorem cutPair_sound : ∀ {c : UInt8} {text s t : Str}, cutPair c text = some (s, t) → text = s ++ c :: c :: t
  | c, a :: b :: r, s, t, h => by
    rw [cutPair] at h
    split at h
    · rename_i e
      simp only [Option.some.injEq, Prod.mk.injEq] at h
      obtain ⟨rfl, rfl⟩ := h
      rw [e.1, e.2, List.nil_append]
    · obtain ⟨⟨s', t'⟩, h1, h2⟩ := Option.map_eq_some_iff.1 h
      simp only [Prod.mk.injEq] at h2
      obtain ⟨rfl, rfl⟩ := h2
      rw [cutPair_sound h1, List.cons_append]

theorem cutPair_first : ∀ {text s t : Str}, cutPair 123 text = some (s, t) → contains s b!"{{" = false ∧ s.getLast? ≠ some 123
  | a :: b :: r, s, t, h => by
    rw [cutPair] at h
    split at h
    · rename_i e
      simp only [Option.some.injEq, Prod.mk.injEq] at h
      obtain ⟨rfl, rfl⟩ := h
      exact ⟨rfl, nofun⟩
    · rename_i hne
      obtain ⟨⟨s', t'⟩, h1, h2⟩ := Option.map_eq_some_iff.1 h
      simp only [Prod.mk.injEq] at h2
      obtain ⟨rfl, rfl⟩ := h2
      obtain ⟨i1, i2⟩ := cutPair_first h1
      have hs := cutPair_sound h1
      cases s' with
      | nil =>
        rw [List.nil_append, List.cons.injEq] at hs
        refine ⟨by rw [braces_cons]; simp; rfl, ?_⟩
        intro e
        simp only [List.getLast?_singleton, Option.some.injEq] at e
        exact hne ⟨e, hs.1⟩
      | cons d s' =>
        rw [List.cons_append, List.cons.injEq] at hs
        obtain ⟨rfl, -⟩ := hs
        refine ⟨?_, by rw [List.getLast?_cons_cons]; exact i2⟩
        rw [braces_cons, i1, Bool.or_false]
        simpa using fun e1 e2 => hne ⟨e1, e2⟩

theorem cutPair_braceless : ∀ {text : Str}, cutPair 123 text = none → contains text b!"{{" = false
  | [], _ => rfl
  | [c], _ => by rw [braces_cons]; simp; rfl
  | a :: b :: r, h => by
    rw [cutPair] at h
    split at h
    · cases h
    · rename_i hne
      rw [braces_cons, cutPair_braceless (Option.map_eq_none_iff.1 h), Bool.or_false]
      simpa using fun e1 e2 => hne ⟨e1, e2⟩

theorem exec_does {S : TplEnv} (henc : ∀ s, S.encode s = base64 s) {st st' : TplSt} {sp : TplState} {a : Action} {v : Str} (hs : Same st sp)
    (h : st.exec S a = some (st', v)) : ∃ sp', Does S.file sp a sp' v ∧ Same st' sp' := by
  have key : ∀ sp' w, Does S.file sp a sp' w → ∃ sp', Does S.file sp a sp' v ∧ Same st' sp' := by
    intro sp' w hd
    obtain ⟨st2, e, hs2⟩ := does_exec henc hs hd
    rw [h] at e
    cases e
    exact ⟨sp', hd, hs2⟩
  cases a with
  | field n =>
    cases hv : sp.var n with
    | some v => exact key _ _ (.field sp n v hv)
    | none => exact key _ _ (.missing sp n hv)
  | auto arg => cases arg with
    | none => exact key _ _ (.next sp)
    | some k => exact key _ _ (.set sp k)
  | assign n v => exact key _ _ (.assign sp n v)
  | declare n v => exact key _ _ (.declare sp n v)
  | local_ n =>
    cases hv : sp.seen n with
    | some v => exact key _ _ (.local_ sp n v hv)
    | none => rw [fails_exec hs (.local_ sp n hv)] at h; cases h
  | block => exact key _ _ (.block sp)
  | close =>
    cases hv : sp.around with
    | cons s r => exact key _ _ (.close sp s r hv)
    | nil => rw [fails_exec hs (.close sp hv)] at h; cases h
  | base64 v => exact key _ _ (.base64 sp v)
  | file v =>
    cases hv : S.file v with
    | some out => exact key _ _ (.file sp v out hv)
    | none => rw [fails_exec hs (.file sp v hv)] at h; cases h

/-- C105, the other direction: if the template becomes something, it consists of actions that are written as they have to be, and it is what they
stand for. -/
theorem C105_exact {S : TplEnv} (henc : ∀ s, S.encode s = base64 s) (vars : List (Str × Str)) (start : UInt64) (text out : Str) :
    tplRun S vars start text = some (some out) ↔
      ∃ ps tail, Consists ps tail text ∧ Yields S.file (tplStart (varValue vars) start) ps tail (some out) := by
  constructor
  · have key : ∀ (f : Nat) (st : TplSt) (sp : TplState) (text out : Str), Same st sp → tplGo S f st text = some (some out) →
        ∃ ps tail, Consists ps tail text ∧ Yields S.file sp ps tail (some out) := by
      intro f
      induction f with
      | zero => intro st sp text out hs h; cases h
      | succ f ih =>
        intro st sp text out hs h
        rw [tplGo] at h
        cases hc : cutPair 123 text with
        | none =>
          rw [hc] at h
          dsimp only at h
          split at h
          · rename_i hm
            cases h
            exact ⟨[], text, .done text (cutPair_braceless hc), .done sp text ((nested_nil hs.around).1 hm)⟩
          · cases h
        | some p =>
          obtain ⟨s, t⟩ := p
          rw [hc] at h
          dsimp only at h
          cases hb : cutPair 125 t with
          | none => rw [hb] at h; cases h
          | some q =>
            obtain ⟨b, r⟩ := q
            rw [hb] at h
            dsimp only at h
            obtain ⟨f1, f2⟩ := cutPair_first hc
            have ht := cutPair_sound hc
            rw [cutPair_sound hb] at ht
            generalize hx : parseAction _ = x at h
            cases x with
            | none => cases h
            | some a =>
              dsimp only at h
              have hw := read_written hx
              cases he : st.exec S a with
              | none => rw [he] at h; cases h
              | some z =>
                obtain ⟨st', v⟩ := z
                rw [he] at h
                dsimp only at h
                obtain ⟨o, ho, hout⟩ := Option.map_eq_some_iff.1 h
                obtain ⟨o, rfl, rfl⟩ := Option.map_eq_some_iff.1 hout
                obtain ⟨sp', hd, hs'⟩ := exec_does henc hs he
                obtain ⟨ps, tail, hcs, hy⟩ := ih st' sp' _ o hs' ho
                refine ⟨(s, a) :: ps, tail, ?_, .next sp sp' s v a ps tail _ hd hy⟩
                cases hsuf : hasSuffix b b!" -" with
                | false =>
                  rw [hsuf] at hw hcs
                  have := Consists.action s _ a ps tail _ f1 f2 hw hcs
                  rw [ht]
                  simpa using this
                | true =>
                  rw [hsuf] at hw hcs
                  obtain ⟨b', rfl⟩ := hasSuffix_iff.1 hsuf
                  simp only [if_true, List.length_append, List.length_cons, List.length_nil, Nat.zero_add, Nat.reduceAdd, Nat.add_sub_cancel, List.take_left] at hw hcs
                  have sp : ∀ c : UInt8, tplSpace c = decide (c ∈ b!" \t\r\n") := by decide +kernel
                  have := Consists.trimmed s b' (r.takeWhile tplSpace) a ps tail (r.dropWhile tplSpace) f1 f2 hw
                    (fun c hc => by
                      have := List.all_eq_true.1 (List.all_takeWhile (p := tplSpace) (l := r)) c hc
                      rw [sp] at this
                      exact of_decide_eq_true this)
                    (fun c hc hm => by
                      have := List.head?_dropWhile_not tplSpace r
                      rw [hc] at this
                      have h2 := sp c
                      rw [decide_eq_true hm] at h2
                      change tplSpace c = false at this
                      rw [h2] at this
                      cases this)
                    hcs
                  rw [List.append_assoc _ (r.takeWhile tplSpace), List.takeWhile_append_dropWhile] at this
                  rw [ht]
                  simpa using this
    exact key (text.length + 1) { vars := vars, counter := start, locals := [], marks := [] } (tplStart (varValue vars) start) text out
      ⟨fun _ => rfl, rfl, fun _ => rfl, trivial⟩
  · rintro ⟨ps, tail, hc, hy⟩
    exact C105_template henc vars start hc hy

/-! ## With the template engine of the server -/

theorem tplGo_same {S S' : TplEnv} (h1 : ∀ v, S.file v = S'.file v) (h2 : ∀ v, S.encode v = S'.encode v) : S = S' := by
  cases S
  cases S'
  simp only [TplEnv.mk.injEq]
  exact ⟨funext h1, funext h2⟩

/-- C105: what a template becomes depends on the files inside of the include directory and on no other files. -/
theorem C105_confined {H H' : Host} (hcwd : isAbsPath H.cwd = true) (hc : H.cwd = H'.cwd) (dir : Str) (h : ∀ p, InsideDir dir p → H.read p = H'.read p)
    (vars : List (Str × Str)) (start : UInt64) (text : Str) :
    tplRun (H.tplEnv base64 dir) vars start text = tplRun (H'.tplEnv base64 dir) vars start text := by
  have : H.tplEnv base64 dir = H'.tplEnv base64 dir := by
    refine tplGo_same (fun v => ?_) fun _ => rfl
    show formatAsFile _ _ _ _ _ = formatAsFile _ _ _ _ _
    rw [← hc]
    exact C53_confined base64 _ _ H.cwd dir v hcwd fun p hp => by rw [h p hp]
  rw [this]

theorem yields_total (file : Str → Option Str) (tail : Str) : ∀ (ps : List (Str × Action)) (st : TplState), ∃ out, Yields file st ps tail out
  | [], st => by
    by_cases h : st.around = []
    · exact ⟨_, .done st tail h⟩
    · exact ⟨_, .unclosed st tail h⟩
  | (s, a) :: ps, st => by
    have key : (∃ st' v, Does file st a st' v) ∨ Fails file st a := by
      cases a with
      | field n =>
        cases hv : st.var n with
        | some v => exact .inl ⟨_, _, .field st n v hv⟩
        | none => exact .inl ⟨_, _, .missing st n hv⟩
      | auto arg => cases arg with
        | none => exact .inl ⟨_, _, .next st⟩
        | some k => exact .inl ⟨_, _, .set st k⟩
      | assign n v => exact .inl ⟨_, _, .assign st n v⟩
      | declare n v => exact .inl ⟨_, _, .declare st n v⟩
      | local_ n =>
        cases hv : st.seen n with
        | some v => exact .inl ⟨_, _, .local_ st n v hv⟩
        | none => exact .inr (.local_ st n hv)
      | block => exact .inl ⟨_, _, .block st⟩
      | close =>
        cases hv : st.around with
        | cons s r => exact .inl ⟨_, _, .close st s r hv⟩
        | nil => exact .inr (.close st hv)
      | base64 v => exact .inl ⟨_, _, .base64 st v⟩
      | file v =>
        cases hv : file v with
        | some out => exact .inl ⟨_, _, .file st v out hv⟩
        | none => exact .inr (.file st v hv)
    rcases key with ⟨st', v, hd⟩ | hf
    · obtain ⟨out, ho⟩ := yields_total file tail ps st'
      exact ⟨_, .next st st' s v a ps tail out hd ho⟩
    · exact ⟨_, .fails st s a ps tail hf⟩

theorem yields_refused {file : Str → Option Str} {tail s0 v0 : Str} (hv : file v0 = none) : ∀ {ps : List (Str × Action)} {st : TplState}
    {out : Option Str}, (s0, Action.file v0) ∈ ps → Yields file st ps tail out → out = none
  | _ :: ps, st, out, hm, h => by
    cases h with
    | next _ st' s v a _ _ out hd hy =>
      rcases List.mem_cons.1 hm with e | hm
      · cases e
        cases hd with
        | file _ _ hf => rw [hv] at hf; cases hf
      · rw [yields_refused hv hm hy]
        rfl
    | fails => rfl

/-- A template whose only actions are variables. -/
theorem renders_consists {vars : List (Str × Str)} {text out : Str} (h : Renders vars text out) :
    ∃ ps tail, Consists ps tail text ∧ ∀ (file : Str → Option Str) (st : TplState), st.var = varValue vars → st.around = [] →
      Yields file st ps tail (some out) := by
  induction h with
  | text s hs => exact ⟨[], s, .done s hs, fun file st _ ha => .done st s ha⟩
  | var s n v rest out h1 h2 h3 h4 h5 _ ih =>
    obtain ⟨ps, tail, c, y⟩ := ih
    have hn : IsName n := by
      refine ⟨?_, fun c hc => ?_⟩
      · cases n with
        | nil => simp at h3
        | cons c r =>
          refine ⟨c, r, rfl, fun hd => ?_⟩
          simp only [List.head?_cons, Option.any_some, isDigitByte] at h3
          simp [hd.1, hd.2] at h3
      · have := List.all_eq_true.1 h4 c hc
        have dec : ∀ c : UInt8, isAlnumByte c = decide ((48 ≤ c ∧ c ≤ 57) ∨ (65 ≤ c ∧ c ≤ 90) ∨ (97 ≤ c ∧ c ≤ 122)) := by decide +kernel
        rw [dec] at this
        exact of_decide_eq_true this
    refine ⟨(s, .field n) :: ps, tail, ?_, fun file st hst ha => ?_⟩
    · have := Consists.action s (b!"." ++ n) (.field n) ps tail rest h1 h2 (.field n hn) c
      simpa using this
    · exact .next st st s v _ ps tail (some out) (.field st n v (by rw [hst]; exact h5)) (y file st hst ha)

/-- C105: the engine replaces variables by their values, whatever the counter. -/
theorem C105_variables {H : Host} (hg : GoEngine H) (dir : Str) : TemplateEngine (H.engine dir) := by
  intro vars start text out h
  by_cases hv : vars = []
  · subst hv
    cases h with
    | text s hs => exact hg.1 dir _ _ _ hs
    | var s n v rest out _ _ _ _ h5 => exact absurd h5 (by simp [varValue])
  · obtain ⟨ps, tail, c, y⟩ := renders_consists h
    exact hg.2 dir vars start _ _ hv (C105_template (S := H.tplEnv base64 dir) (fun _ => rfl) vars start c (y _ _ rfl rfl))

section
variable {H : Host} (hg : GoEngine H) {dir : Str} {vars : List (Str × Str)} (hv : vars ≠ []) {text : Str} {lines : List Str} (hl : LinesRead lines text) {ps : List (Str × Action)} {tail : Str}
  (hc : Consists ps tail (List.intercalate [10] (lines.filter fun l => l.head? ≠ some 35)))
include hg hv hl hc

/-- C105: a file that is a template becomes what it stands for without its comment lines; then C99 and C101 say what is served. -/
theorem C105_becomes {out : Str} (hy : Yields (H.tplEnv base64 dir).file (tplStart (varValue vars) 1000) ps tail (some out)) :
    Becomes (H.engine dir) vars text out :=
  ⟨lines, hl, hg.2 dir vars 1000 _ _ hv (C105_template (S := H.tplEnv base64 dir) (fun _ => rfl) vars 1000 hc hy)⟩

/-- C105: a file that is a template and fails cannot be used; then C101 says that the server does not start or goes on with what it has. -/
theorem C105_fails (hy : Yields (H.tplEnv base64 dir).file (tplStart (varValue vars) 1000) ps tail none) : NotATemplate (H.engine dir) vars text :=
  ⟨lines, hl, hg.2 dir vars 1000 _ _ hv (C105_template (S := H.tplEnv base64 dir) (fun _ => rfl) vars 1000 hc hy)⟩

/-- C105: a template that includes a file by an absolute path which is not inside of the directory cannot be used. -/
theorem C105_outside (hcwd : isAbsPath H.cwd = true) (s : Str) (names : List Str) (hn : names ≠ []) (hnames : ∀ q ∈ names, IsFileName q)
    (hm : (s, Action.file (descend [] names)) ∈ ps) (hout : ¬ InsideDir dir (descend [] names)) : NotATemplate (H.engine dir) vars text := by
  obtain ⟨out, hy⟩ := yields_total (H.tplEnv base64 dir).file tail ps (tplStart (varValue vars) 1000)
  have hnone : (H.tplEnv base64 dir).file (descend [] names) = none := by
    show formatAsFile _ _ _ _ _ = none
    have : includePath H.cwd dir (descend [] names) = none := by
      cases hi : includePath H.cwd dir (descend [] names) with
      | none => rfl
      | some p =>
        have hin := includePath_inside hcwd hi
        have e : p = descend [] names := by
          have habs : isAbsPath (descend [] names) = true := by rw [descend_eq _ _ hn]; exact (isAbsPath_iff _).2 ⟨_, rfl⟩
          have hclean : cleanPath (descend [] names) = descend [] names := by
            rw [descend_eq _ _ hn]
            exact cleanPath_names hnames hn
          unfold includePath at hi
          split at hi
          · cases hi
          · simp only [hclean, habs, if_true, absPath] at hi
            split at hi
            · exact (Option.some.inj hi).symm
            · cases hi
        rw [e] at hin
        exact absurd hin hout
    unfold formatAsFile
    rw [this]
    rfl
  rw [yields_refused hnone hm hy] at hy
  exact C105_fails hg hv hl hc hy
end

/-! ## Examples -/

/-- A host whose engine is the modelled part of the language; other templates fail. -/
def tplHost (isDir : Str → Option Bool) (list : Str → List Str) (read : Str → Option FileRead) : Host where
  levelOk := fun l => l = b!"info"
  boltOpens := fun _ _ => false
  cwd := b!"/srv"
  isDir := isDir
  list := list
  read := read
  engine := fun dir vars start text =>
    (tplRun ⟨formatAsFile base64 (fun p => (read p).bind fun f => if f.broken then none else some f.data) b!"/srv" dir, base64⟩ vars start text).getD none
  lib := goLdif

theorem tplHost_engine (isDir : Str → Option Bool) (list : Str → List Str) (read : Str → Option FileRead) : GoEngine (tplHost isDir list read) := by
  refine ⟨fun dir vars start text h => ?_, fun dir vars start text r _ h => ?_⟩
  · show (tplRun (Host.tplEnv (tplHost isDir list read) base64 dir) vars start text).getD none = _
    rw [C105_template (S := Host.tplEnv (tplHost isDir list read) base64 dir) (fun _ => rfl) vars start (.done text h) (.done _ text rfl)]
    rfl
  · show (tplRun (Host.tplEnv (tplHost isDir list read) base64 dir) vars start text).getD none = r
    rw [h]
    rfl

def tplText : Str := b!"{{WithMailDomain \"lg.example\"}}\ndn: {{.BaseDN}}\ndc: lg\n\n{{with .}}\n{{$uid := \"bob\" -}}\n\ndn: uid={{$uid}},{{.BaseDN}}\nuid: {{$uid}}\nmail: {{$uid}}@{{.MailDomain}}\nuidNumber: {{AutoIncrement}}\ngidNumber: {{AutoIncrement 7}}\nuserPassword:: {{\"secret\" | formatAsBase64}}\njpegPhoto:: {{\"img/b.jpg\" | formatAsFileBase64}}\n{{end}}"

def tplEx : TplEnv := ⟨fun v => if v = b!"img/b.jpg" then some b!"AAEC" else none, base64⟩

def tplOut : Str := b!"\ndn: dc=lg\ndc: lg\n\n\ndn: uid=bob,dc=lg\nuid: bob\nmail: bob@lg.example\nuidNumber: 1001\ngidNumber: 7\nuserPassword:: c2VjcmV0\njpegPhoto:: AAEC\n"

theorem tplEx_run : tplRun tplEx [(b!"BaseDN", b!"dc=lg"), (b!"MailDomain", b!"lg.local")] 1000 tplText = some (some tplOut) := by decide +kernel

/-- the template consists of actions, and this is what they stand for -/
theorem tplEx_yields : ∃ ps tail, Consists ps tail tplText ∧
    Yields tplEx.file (tplStart (varValue [(b!"BaseDN", b!"dc=lg"), (b!"MailDomain", b!"lg.local")]) 1000) ps tail (some tplOut) :=
  (C105_exact (fun _ => rfl) _ _ _ _).1 tplEx_run

example : ∃ ps tail, Consists ps tail tplText ∧ tplRun tplEx [(b!"BaseDN", b!"dc=lg"), (b!"MailDomain", b!"lg.local")] 1000 tplText = some (some tplOut) := by
  obtain ⟨ps, tail, h1, h2⟩ := tplEx_yields
  exact ⟨ps, tail, h1, C105_template (S := tplEx) (fun _ => rfl) _ _ h1 h2⟩

/-- A template file, in the manner of docs/example-template.ldif. -/
def docsLines : List Str := [b!"## Main", b!"dn: {{.BaseDN}}", b!"dc: lg", b!"", b!"{{with .}}", b!"{{$uid := \"bob\" -}}", b!"dn: uid={{$uid}},{{.BaseDN}}",
  b!"uid: {{$uid}}", b!"uidNumber: {{AutoIncrement}}", b!"cn: {{.Company}}", b!"{{end}}"]

def docsHost : Host := tplHost (fun p => if p = b!"/srv/d/a.ldif" then some false else none) (fun _ => [])
  fun p => if p = b!"/srv/d/a.ldif" then some (.whole (docsLines.flatMap (· ++ [10]))) else none

def docsRecords : List LdifRecord := [⟨b!"DC=lg", [(b!"dc", b!"lg")]⟩, ⟨b!"uid=bob,DC=lg", [(b!"uid", b!"bob"), (b!"uidNumber", b!"1001"), (b!"cn", b!"Default")]⟩]

def docsOutLines : List Str := [b!"dn: DC=lg", b!"dc: lg", b!"", b!"", b!"dn: uid=bob,DC=lg", b!"uid: bob", b!"uidNumber: 1001", b!"cn: Default"]

theorem docs_says : LdifSays (docsOutLines.flatMap (· ++ [10])) docsRecords := by
  refine ⟨docsOutLines, [[b!"dn: DC=lg", b!"dc: lg"], [b!"dn: uid=bob,DC=lg", b!"uid: bob", b!"uidNumber: 1001", b!"cn: Default"]],
    hasLines_lf docsOutLines (by decide), ?_, .plain _ _ ?_⟩
  · refine .record _ [b!"dn: DC=lg", b!"dc: lg"] _ _ (by simp) ?_ (.empty _ _ (.last _ _ (by simp) ?_))
    · exact .line _ [b!"dn: DC=lg"] _ _ ⟨_, [], rfl, rfl, by decide⟩ (.line _ [b!"dc: lg"] [] [] ⟨_, [], rfl, rfl, by decide⟩ .done)
    · exact .line _ [b!"dn: uid=bob,DC=lg"] _ _ ⟨_, [], rfl, rfl, by decide⟩ (.line _ [b!"uid: bob"] _ _ ⟨_, [], rfl, rfl, by decide⟩
        (.line _ [b!"uidNumber: 1001"] _ _ ⟨_, [], rfl, rfl, by decide⟩ (.line _ [b!"cn: Default"] [] [] ⟨_, [], rfl, rfl, by decide⟩ .done)))
  · exact (.cons _ _ _ _ (.mk _ _ _ (.plain b!"dn" b!"DC=lg" 1 (by decide) (by decide)) (by simp)
        (.cons _ _ _ _ ⟨.plain b!"dc" b!"lg" 1 (by decide) (by decide), by decide, by decide, by decide⟩ .nil))
      (.cons _ _ _ _ (.mk _ _ _ (.plain b!"dn" b!"uid=bob,DC=lg" 1 (by decide) (by decide)) (by simp)
        (.cons _ _ _ _ ⟨.plain b!"uid" b!"bob" 1 (by decide) (by decide), by decide, by decide, by decide⟩
        (.cons _ _ _ _ ⟨.plain b!"uidNumber" b!"1001" 1 (by decide) (by decide), by decide, by decide, by decide⟩
        (.cons _ _ _ _ ⟨.plain b!"cn" b!"Default" 1 (by decide) (by decide), by decide, by decide, by decide⟩ .nil)))) .nil))

/-- the file at the main path says these two records, the second one with the number 1001 and the company of the defaults -/
theorem docs_files : FilesSay docsHost (askedVars (fun _ => []) (svFlags b!"d/a.ldif")) (absPath docsHost.cwd (optMain.value (fun _ => []) (svFlags b!"d/a.ldif")))
    docsRecords := by
  rw [show absPath docsHost.cwd (optMain.value (fun _ => []) (svFlags b!"d/a.ldif")) = b!"/srv/d/a.ldif" by decide +kernel]
  refine .file (.whole (docsLines.flatMap (· ++ [10]))) _ _ (by decide) (by decide +kernel) ?_ docs_says
  obtain ⟨ps, tail, h1, h2⟩ := (C105_exact (S := docsHost.tplEnv base64 (dirPath b!"/srv/d/a.ldif")) (fun _ => rfl)
    (askedVars (fun _ => []) (svFlags b!"d/a.ldif")) 1000 (List.intercalate [10] (docsLines.filter fun l => l.head? ≠ some 35))
    (docsOutLines.flatMap (· ++ [10]))).1 (by decide +kernel)
  exact C105_becomes (tplHost_engine _ _ _) (by decide +kernel) (linesRead_all (hasLines_lf docsLines (by decide +kernel)) (by decide +kernel)) h1 h2

/-- so a search for `(cn=default)` finds the second one -/
example (s : Started) (h : launch ldEnv docsHost true (fun _ => []) (svFlags b!"d/a.ldif") = .serves s) (st : LdifSt) (hst : NotReloaded ldEnv ldOrd s st) :=
  C99_search_partial (V := ldEnv) asciiCase_lawful ldOrd_lawful (H := docsHost) goLdif_lawful (by decide) docs_files (by decide +kernel)
    s h [[⟨b!"DC", b!"lg"⟩]] (by decide +kernel) st hst [] (Or.inl ⟨rfl, by decide +kernel, rfl⟩)
    b!"dc=lg" [[⟨b!"dc", b!"lg"⟩]] (by decide +kernel) (by decide +kernel) 2 (by omega) (by decide)
    (by
      simp only [docsRecords, List.forall_mem_cons, List.not_mem_nil, false_implies, implies_true, and_true]
      exact ⟨C39_plain_names asciiCase_lawful (nb := [⟨b!"dc", b!"lg"⟩]) (ns := [⟨b!"DC", b!"lg"⟩]) (by decide +kernel) (by simp)
          (by decide +kernel) (by decide +kernel) 2 (by decide +kernel),
        C39_plain_names asciiCase_lawful (nb := [⟨b!"dc", b!"lg"⟩]) (ns := [⟨b!"uid", b!"bob"⟩, ⟨b!"DC", b!"lg"⟩]) (by decide +kernel) (by simp)
          (by decide +kernel) (by decide +kernel) 2 (by decide +kernel)⟩)
    (.eq b!"cn" b!"default") _ (wEq_wire _ _)
    (by decide +kernel : AttrText b!"cn") trivial trivial false (by decide +kernel) (fun r _ => ⟨ascii_agrees _ _, fun h => by cases h⟩) [b!"cn"]
    (by decide +kernel) toyOracle 7

/-- a template that includes `/etc/shadow` cannot be used -/
example : NotATemplate (docsHost.engine b!"/srv/d") (askedVars (fun _ => []) []) b!"dn: dc=lg\nx:: {{\"/etc/shadow\" | formatAsFileBase64}}\n" := by
  refine C105_outside (H := docsHost) (tplHost_engine _ _ _) (by decide +kernel) (lines := [b!"dn: dc=lg", b!"x:: {{\"/etc/shadow\" | formatAsFileBase64}}"])
    (linesRead_all (.lf b!"dn: dc=lg" _ _ (by decide) (by decide) (.lf _ _ _ (by decide) (by decide) .none)) (by decide))
    (ps := [(b!"dn: dc=lg\nx:: ", .file b!"/etc/shadow")]) (tail := [])
    (.action b!"dn: dc=lg\nx:: " _ (.file b!"/etc/shadow") [] [] [] (by decide +kernel) (by decide) (.file _ (by unfold IsLiteral; decide +kernel)) (.done [] rfl))
    (by decide) b!"dn: dc=lg\nx:: " [b!"etc", b!"shadow"] (by decide) (by unfold IsFileName; decide) (by decide) ?_
  rintro ⟨d, k, names, h1, h2, h3, h4⟩
  have hd : ∃ r, d = 47 :: 115 :: r := by
    rcases h4 with ⟨-, h⟩ | ⟨h, -⟩
    · match d, h1, h2 with
      | [], h1, _ => exact absurd h1 (by cases k with
        | zero => simp
        | succ k => cases k with
          | zero => simp [List.replicate_succ]
          | succ k => simp [List.replicate_succ, chSlash])
      | [c], h1, h2 =>
        simp only [List.cons_append, List.nil_append, List.cons.injEq] at h1
        rw [← h1.1] at h2
        exact absurd rfl h2
      | c :: e :: r, h1, _ =>
        simp only [List.cons_append, List.cons.injEq] at h1
        exact ⟨r, by rw [← h1.1, ← h1.2.1]⟩
    · subst h
      exact absurd h1 (by cases k with
        | zero => simp
        | succ k => cases k with
          | zero => simp [List.replicate_succ]
          | succ k => simp [List.replicate_succ, chSlash])
  obtain ⟨r, rfl⟩ := hd
  rcases h4 with ⟨hne, h⟩ | ⟨h, -⟩
  · rw [descend_eq _ _ hne] at h
    exact absurd h (by simp [descend, chSlash])
  · cases h

end Idm
