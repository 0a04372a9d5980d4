import Verif.Model.Filter
import Verif.Spec.Scope
import Verif.Proofs.DN
/-!
# The text after the first comma of a DN is the text of its parent
-/
namespace Idm

theorem trimBy_blanks (b s : Str) (hb : ∀ c ∈ b, c = chSpace) : trimBy (· == chSpace) (b ++ s) = trimBy (· == chSpace) s := by
  unfold trimBy
  congr 3
  induction b with
  | nil => rfl
  | cons c b ih =>
    rw [List.cons_append, List.dropWhile_cons_of_pos (by simp [hb c List.mem_cons_self])]
    exact ih fun d hd => hb d (List.mem_cons_of_mem _ hd)

theorem decodeString_blanks {C : CaseEnv} (b s : Str) (hb : ∀ c ∈ b, c = chSpace) : decodeString C (b ++ s) = decodeString C s := by
  unfold decodeString
  congr 2
  unfold stripSpaces
  simp only [trimBy_blanks b s hb]
  cases s with
  | nil =>
    have : trimBy (fun x => x == chSpace) [] = [] := rfl
    rw [this]
    simp
  | cons c s => simp

theorem scan_blanks {C : CaseEnv} (b : Str) (hb : ∀ c ∈ b, c = chSpace) : ∀ (cs : Str) (st : ScanSt), st.typ = [] →
    scanFinish C (scan C { st with cur := b ++ st.cur } cs) = scanFinish C (scan C st cs) := by
  intro cs
  induction cs with
  | nil => intro st ht; simp [scan, scanFinish, scanEnd, ht]
  | cons c cs ih =>
    intro st ht
    have key : ∀ st' : ScanSt, st'.typ = [] → scanStep C st c = .ok st' → scanStep C { st with cur := b ++ st.cur } c = .ok { st' with cur := b ++ st'.cur } →
        scanFinish C (scan C { st with cur := b ++ st.cur } (c :: cs)) = scanFinish C (scan C st (c :: cs)) := by
      intro st' h1 h2 h3
      simp only [scan, h2, h3]
      exact ih st' h1
    have same : scanStep C { st with cur := b ++ st.cur } c = scanStep C st c →
        scanFinish C (scan C { st with cur := b ++ st.cur } (c :: cs)) = scanFinish C (scan C st (c :: cs)) := by
      intro h
      simp only [scan, h]
    by_cases he : st.esc
    · exact key { st with esc := false, cur := st.cur ++ [c] } ht (by simp [scanStep, he]) (by simp [scanStep, he])
    · by_cases hbs : c = chBackslash
      · exact key { st with esc := true, cur := st.cur ++ [c] } ht (by simp [scanStep, he, hbs]) (by simp [scanStep, he, hbs])
      · by_cases heq : c = chEq
        · apply same
          simp only [scanStep, he, heq, ht, decodeString_blanks b st.cur hb]
          simp
          cases decodeString C st.cur <;> rfl
        · by_cases hsep : c = chComma ∨ c = chPlus ∨ c = chSemi
          · apply same
            simp [scanStep, he, hbs, heq, ht, hsep]
          · exact key { st with cur := st.cur ++ [c] } ht (by simp [scanStep, he, hbs, heq, ht, hsep])
              (by simp [scanStep, he, hbs, heq, ht, hsep])

theorem scanStep_dn {C : CaseEnv} (D : DN) (st st' : ScanSt) (c : UInt8) (h : scanStep C { st with dn := D ++ st.dn } c = .ok st') :
    ∃ st'', scanStep C st c = .ok st'' ∧ st' = { st'' with dn := D ++ st''.dn } := by
  unfold scanStep at h ⊢
  by_cases he : st.esc
  · simp only [he, if_true, Except.ok.injEq] at h ⊢
    exact ⟨_, rfl, h.symm⟩
  · simp only [he] at h ⊢
    by_cases hbs : c = chBackslash
    · simp only [hbs, if_true] at h ⊢
      simp at h ⊢
      exact h.symm
    · simp only [hbs, if_false] at h ⊢
      by_cases heq : c = chEq ∧ st.typ = []
      · simp only [if_pos heq] at h ⊢
        simp at h ⊢
        cases hd : decodeString C st.cur with
        | none => simp [hd] at h
        | some t => simp [hd] at h ⊢; exact h.symm
      · simp only [if_neg heq] at h ⊢
        simp only [Bool.false_eq_true, if_false] at h ⊢
        by_cases hsep : c = chComma ∨ c = chPlus ∨ c = chSemi
        · simp only [if_pos hsep] at h ⊢
          by_cases ht : st.typ = []
          · simp [ht] at h
          · simp only [if_neg ht] at h ⊢
            cases hd : decodeValue C st.cur with
            | none => simp [hd] at h
            | some v =>
              simp only [hd] at h ⊢
              by_cases hp : c = chPlus
              · simp only [if_pos hp, Except.ok.injEq] at h ⊢
                exact ⟨_, rfl, h.symm⟩
              · simp only [if_neg hp, Except.ok.injEq] at h ⊢
                exact ⟨_, rfl, by rw [← h]; simp⟩
        · simp only [if_neg hsep, Except.ok.injEq] at h ⊢
          exact ⟨_, rfl, h.symm⟩

theorem scan_dn_prefix {C : CaseEnv} (D : DN) : ∀ (cs : Str) (st : ScanSt) (n : DN),
    scanFinish C (scan C { st with dn := D ++ st.dn } cs) = .ok n → ∃ n', n = D ++ n' ∧ scanFinish C (scan C st cs) = .ok n' := by
  intro cs
  induction cs with
  | nil =>
    intro st n h
    simp only [scan, scanFinish, scanEnd] at h ⊢
    by_cases ht : st.typ = []
    · simp [ht] at h
    · simp only [if_neg ht] at h ⊢
      cases hd : decodeValue C st.cur with
      | none => simp [hd] at h
      | some v =>
        simp only [hd, ParseRes.ok.injEq] at h ⊢
        exact ⟨_, by rw [← h, List.append_assoc], rfl⟩
  | cons c cs ih =>
    intro st n h
    cases hs : scanStep C { st with dn := D ++ st.dn } c with
    | error e => simp [scan, hs, scanFinish] at h
    | ok st' =>
      obtain ⟨st'', h1, rfl⟩ := scanStep_dn D st st' c hs
      simp only [scan, hs] at h
      obtain ⟨n', g1, g2⟩ := ih st'' n h
      exact ⟨n', g1, by simpa only [scan, h1] using g2⟩

theorem scanStep_first {C : CaseEnv} {st st1 : ScanSt} {c : UInt8} (he : st.esc = false) (h1 : c ≠ chComma) (h2 : c ≠ chSemi) (h3 : c ≠ chBackslash)
    (hs : scanStep C st c = .ok st1) : st1.dn = st.dn ∧ st1.esc = false := by
  unfold scanStep at hs
  simp only [he, Bool.false_eq_true, if_false, if_neg h3] at hs
  by_cases heq : c = chEq ∧ st.typ = []
  · simp only [if_pos heq] at hs
    cases hd : decodeString C st.cur with
    | none => simp [hd] at hs
    | some t => simp [hd] at hs; subst hs; exact ⟨rfl, rfl⟩
  · simp only [if_neg heq] at hs
    by_cases hp : c = chPlus
    · simp only [hp, or_true, true_or, if_true] at hs
      by_cases ht : st.typ = []
      · simp [ht] at hs
      · simp only [if_neg ht] at hs
        cases hd : decodeValue C st.cur with
        | none => simp [hd] at hs
        | some v => simp [hd] at hs; subst hs; exact ⟨rfl, rfl⟩
    · simp only [h1, h2, hp, or_self, if_false, Except.ok.injEq] at hs
      subst hs; exact ⟨rfl, rfl⟩

/-- Scanning the text of one RDN, or of an initial part of it, stays within the first RDN. -/
theorem scan_first {C : CaseEnv} : ∀ (x : Str), wholeEscapes x = true → chComma ∉ x → ∀ (m : Str) (st st' : ScanSt), m <+: x → st.esc = false →
    scan C st m = .ok st' → st'.dn = st.dn ∧ (m = x → st'.esc = false) := by
  intro x
  induction x using wholeEscapes.induct with
  | case1 =>
    intro _ _ m st st' hm he h
    rw [List.prefix_nil.1 hm, scan] at h
    cases h
    exact ⟨rfl, fun _ => he⟩
  | case2 c =>
    intro hw hc m st st' hm he h
    simp only [wholeEscapes, Bool.and_eq_true, bne_iff_ne] at hw
    rcases m with _ | ⟨d, m⟩
    · rw [scan] at h; cases h; exact ⟨rfl, fun _ => he⟩
    · obtain ⟨hce, hm'⟩ := List.cons_prefix_cons.1 hm
      subst hce
      replace hm := hm'
      clear hm'
      rw [List.prefix_nil.1 hm, scan] at h
      cases hs : scanStep C st d with
      | error e => rw [hs] at h; cases h
      | ok st1 =>
        rw [hs] at h
        simp only [scan, Except.ok.injEq] at h
        subst h
        obtain ⟨g1, g2⟩ := scanStep_first he (fun e => hc (e ▸ List.mem_cons_self)) hw.2 hw.1 hs
        exact ⟨g1, fun _ => g2⟩
  | case3 d s ih =>
    intro hw hc m st st' hm he h
    rw [wholeEscapes, if_pos rfl] at hw
    rcases m with _ | ⟨c, m⟩
    · rw [scan] at h; cases h; exact ⟨rfl, fun _ => he⟩
    · obtain ⟨hce, hm'⟩ := List.cons_prefix_cons.1 hm
      subst hce
      replace hm := hm'
      clear hm'
      have h1 : scanStep C st 92 = .ok { st with esc := true, cur := st.cur ++ [92] } := by
        unfold scanStep
        rw [if_neg (by rw [he]; decide), if_pos (show (92 : UInt8) = chBackslash from rfl)]
      rw [scan, h1] at h
      rcases m with _ | ⟨e, m⟩
      · simp only [scan, Except.ok.injEq] at h
        subst h
        exact ⟨rfl, fun h => by cases h⟩
      · obtain ⟨hce, hm'⟩ := List.cons_prefix_cons.1 hm
        subst hce
        replace hm := hm'
        clear hm'
        have h2 : scanStep C { st with esc := true, cur := st.cur ++ [92] } e = .ok { st with esc := false, cur := st.cur ++ [92] ++ [e] } := by
          unfold scanStep
          rw [if_pos rfl]
        simp only [scan, h2] at h
        obtain ⟨g1, g2⟩ := ih hw (fun hm => hc (List.mem_cons_of_mem _ (List.mem_cons_of_mem _ hm))) m _ st' hm rfl h
        exact ⟨g1, fun e => g2 (by cases e; rfl)⟩
  | case4 c d s hne ih =>
    intro hw hc m st st' hm he h
    rw [wholeEscapes, if_neg hne] at hw
    simp only [Bool.and_eq_true, bne_iff_ne] at hw
    rcases m with _ | ⟨e, m⟩
    · rw [scan] at h; cases h; exact ⟨rfl, fun _ => he⟩
    · obtain ⟨hce, hm'⟩ := List.cons_prefix_cons.1 hm
      subst hce
      replace hm := hm'
      clear hm'
      rw [scan] at h
      cases hs : scanStep C st e with
      | error x => rw [hs] at h; cases h
      | ok st1 =>
        rw [hs] at h
        obtain ⟨g1, g2⟩ := scanStep_first he (fun e => hc (e ▸ List.mem_cons_self)) hw.1 hne hs
        obtain ⟨k1, k2⟩ := ih hw.2 (fun hm => hc (List.mem_cons_of_mem _ hm)) m st1 st' hm g2 h
        exact ⟨k1.trans g1, fun e => k2 (by cases e; rfl)⟩

theorem wholeEscapes_tail {c : UInt8} {x : Str} (hc : c ≠ 92) (h : wholeEscapes (c :: x) = true) : wholeEscapes x = true := by
  cases x with
  | nil => rfl
  | cons d x =>
    rw [wholeEscapes, if_neg hc, Bool.and_eq_true] at h
    exact h.2

theorem wholeEscapes_drop {x : Str} : ∀ {l : Str}, (∀ c ∈ l, isSpaceByte c = true ∨ 128 ≤ c) → wholeEscapes (l ++ x) = true → wholeEscapes x = true
  | [], _, h => h
  | c :: l, hl, h => by
    refine wholeEscapes_drop (l := l) (fun d hd => hl d (List.mem_cons_of_mem _ hd)) (wholeEscapes_tail (c := c) ?_ h)
    rintro rfl
    rcases hl 92 List.mem_cons_self with h | h <;> revert h <;> decide

theorem afterComma_some {s y : Str} (h : afterComma s = some y) : ∃ x, s = x ++ chComma :: y ∧ chComma ∉ x := by
  induction s with
  | nil => simp [afterComma] at h
  | cons c s ih =>
    unfold afterComma at h
    by_cases hc : c = chComma
    · rw [if_pos hc] at h; cases h; exact ⟨[], by simp [hc], by simp⟩
    · rw [if_neg hc] at h
      obtain ⟨x, rfl, hx⟩ := ih h
      exact ⟨c :: x, rfl, by simp [Ne.symm hc, hx]⟩

theorem afterComma_none {s : Str} (h : afterComma s = none) : chComma ∉ s := by
  induction s with
  | nil => simp
  | cons c s ih =>
    unfold afterComma at h
    by_cases hc : c = chComma
    · rw [if_pos hc] at h; simp at h
    · rw [if_neg hc] at h
      simp [Ne.symm hc, ih h]

theorem isSpaceByte_printable (c : UInt8) (h : 32 ≤ c) : isSpaceByte c = (c == chSpace) := by
  revert h; revert c; decide +kernel

theorem trimBy_congr {p q : UInt8 → Bool} {s : Str} (h : ∀ c ∈ s, p c = q c) : trimBy p s = trimBy q s := by
  have dw : ∀ s : Str, (∀ c ∈ s, p c = q c) → s.dropWhile p = s.dropWhile q := by
    intro s
    induction s with
    | nil => intro _; rfl
    | cons c s ih =>
      intro h
      have hc := h c List.mem_cons_self
      have := ih fun d hd => h d (List.mem_cons_of_mem _ hd)
      by_cases hp : p c = true
      · rw [List.dropWhile_cons_of_pos hp, List.dropWhile_cons_of_pos (hc ▸ hp), this]
      · rw [List.dropWhile_cons_of_neg hp, List.dropWhile_cons_of_neg (hc ▸ hp)]
  unfold trimBy
  rw [dw s h, dw _ fun c hc => h c ((List.dropWhile_sublist _).mem (List.mem_reverse.1 hc))]

theorem trimSpace_printable {C : CaseEnv} (hC : C.Lawful) {s : Str} (h : ∀ c ∈ s, 32 ≤ c ∧ c ≤ 126) :
    C.trimSpace s = trimBy (· == chSpace) s := by
  rw [hC.trimSpace_ascii s (isAscii_of_printable h)]
  exact trimBy_congr fun c hc => isSpaceByte_printable c (h c hc).1

/-- A DN text that parses to `r :: rest`, whose first comma ends its first RDN, parses to `rest` after its first comma. -/
theorem parse_afterComma {C : CaseEnv} (hC : C.Lawful) {x y : Str} {n : DN} (h1 : chComma ∉ x) (h2 : wholeEscapes x = true)
    (h3 : (y.dropWhile (· == 32)).head?.any (fun c => 33 ≤ c && c ≤ 126) = true) (h : parseDN C (x ++ chComma :: y) = some n) :
    ∃ r rest, n = r :: rest ∧ parseDN C y = some rest ∧ rest ≠ [] := by
  cases hyd : y.dropWhile (· == 32) with
  | nil => rw [hyd] at h3; cases h3
  | cons d z =>
  rw [hyd] at h3
  simp only [List.head?_cons, Option.any_some, Bool.and_eq_true, decide_eq_true_eq] at h3
  have hd : d < 128 ∧ isSpaceByte d = false :=
    (show ∀ d : UInt8, 33 ≤ d ∧ d ≤ 126 → d < 128 ∧ isSpaceByte d = false by decide +kernel) d h3
  let b := y.takeWhile (· == 32)
  have hb : ∀ c ∈ b, c = chSpace := fun c hc => by
    have := List.all_eq_true.1 (List.all_takeWhile (p := (· == 32)) (l := y)) c hc
    exact beq_iff_eq.1 this
  have hy : y = b ++ d :: z := by
    rw [← hyd]; exact List.takeWhile_append_dropWhile.symm
  clear_value b
  subst hy
  let t := C.trimSpace (d :: z)
  have ht : t ≠ [] := hC.trimSpace_keeps _ d List.mem_cons_self hd.1 hd.2
  have hty : C.trimSpace (b ++ d :: z) = t := hC.trimSpace_leading b _ fun c hc => by rw [hb c hc]; decide
  obtain ⟨l, x', hx, hl, htr⟩ := hC.trimSpace_left x chComma (b ++ d :: z) (by decide) (by decide)
  have htc : C.trimSpace (chComma :: (b ++ d :: z)) = chComma :: (b ++ t) := by
    obtain ⟨l2, a2, e1, e2, e3⟩ := hC.trimSpace_left (chComma :: b) d z hd.1 hd.2
    have : l2 = [] := by
      cases l2 with
      | nil => rfl
      | cons c l2 =>
        have hc : c = chComma := by
          have := congrArg List.head? e1
          exact (Option.some.inj this).symm
        exact absurd (e2 c List.mem_cons_self) (by rw [hc]; decide)
    subst this
    rw [List.nil_append] at e1
    rw [← e1] at e3
    exact e3
  rw [htc] at htr
  subst hx
  have hcx : chComma ∉ x' := fun hm => h1 (List.mem_append_right _ hm)
  have hwx := wholeEscapes_drop hl h2
  unfold parseDN at h ⊢
  unfold parseDNRes at h ⊢
  simp only [htr, hty] at h ⊢
  rw [if_neg (by simp)] at h
  rw [scan_append_ok] at h
  cases hxs : scan C {} x' with
  | error e => simp [hxs, scanFinish] at h
  | ok st =>
    obtain ⟨g1, g2⟩ := scan_first x' hwx hcx x' {} st (List.prefix_refl _) rfl hxs
    have g2 := g2 rfl
    simp only [hxs] at h
    cases hs : scanStep C st chComma with
    | error e => simp [scan, hs, scanFinish] at h
    | ok st' =>
      simp only [scan, hs] at h
      have : ∃ r, st' = { dn := [r] } := by
        unfold scanStep at hs
        simp only [g2, Bool.false_eq_true, if_false, show chComma ≠ chBackslash by decide, show chComma ≠ chEq by decide, false_and,
          true_or, if_true] at hs
        by_cases ht : st.typ = []
        · simp [ht] at hs
        · simp only [if_neg ht] at hs
          cases hd : decodeValue C st.cur with
          | none => simp [hd] at hs
          | some v =>
            simp only [hd, show chComma ≠ chPlus by decide, if_false, Except.ok.injEq] at hs
            refine ⟨st.rdn ++ [⟨st.typ, v⟩], ?_⟩
            rw [← hs]
            simp [g1]
      obtain ⟨r, rfl⟩ := this
      -- skip the blanks
      have hskip : scanFinish C (scan C { dn := [r] } (b ++ t)) = scanFinish C (scan C { dn := [r] } t) := by
        have h4 : ∀ (b : Str), (∀ c ∈ b, c = chSpace) → ∀ cur : Str, scan C { dn := [r], cur := cur } b =
            .ok { dn := [r], cur := cur ++ b } := by
          intro b
          induction b with
          | nil => intro _ cur; simp [scan]
          | cons c b ih =>
            intro hb cur
            have hc := hb c List.mem_cons_self
            subst hc
            have : scanStep C { dn := [r], cur := cur } chSpace = .ok { dn := [r], cur := cur ++ [chSpace] } := by
              simp [scanStep, show chSpace ≠ chBackslash by decide, show chSpace ≠ chEq by decide, show chSpace ≠ chComma by decide,
                show chSpace ≠ chPlus by decide, show chSpace ≠ chSemi by decide]
            rw [scan, this]
            simp only
            rw [ih (fun d hd => hb d (List.mem_cons_of_mem _ hd))]
            simp
        rw [scan_append_ok, h4 _ hb []]
        simp only
        have := scan_blanks (C := C) b hb t { dn := [r] } rfl
        simpa using this
      rw [hskip] at h
      cases hf : scanFinish C (scan C { dn := [r] } t) with
      | fail p => simp [hf] at h
      | ok n1 =>
        simp only [hf, Option.some.injEq] at h
        subst h
        obtain ⟨n', e1, e2⟩ := scan_dn_prefix (C := C) [r] t {} n1 (by simpa using hf)
        refine ⟨r, n', by simpa using e1, by rw [if_neg ht, e2], ?_⟩
        rintro rfl
        -- a successful scan yields at least one RDN
        have : ∀ (o : Except (Option DN) ScanSt), scanFinish C o ≠ .ok [] := by
          intro o ho
          cases o with
          | error p => simp [scanFinish] at ho
          | ok st =>
            simp only [scanFinish, scanEnd] at ho
            by_cases ht : st.typ = []
            · simp [ht] at ho
            · simp only [if_neg ht] at ho
              cases hd : decodeValue C st.cur <;> simp [hd] at ho
        exact this _ e2

/-- A DN text without comma, and with semicolons in escapes only, parses to at most one RDN. -/
theorem parse_noComma {C : CaseEnv} (hC : C.Lawful) {x : Str} {n : DN} (h1 : chComma ∉ x) (h2 : wholeEscapes x = true)
    (h : parseDN C x = some n) : n.length ≤ 1 := by
  unfold parseDN at h
  unfold parseDNRes at h
  obtain ⟨l, r, hx, hl⟩ := hC.trimSpace_inner x
  by_cases ht : C.trimSpace x = []
  · simp only [ht, if_true] at h; cases h; simp
  · simp only [if_neg ht] at h
    rw [List.append_assoc] at hx
    rw [hx] at h1 h2
    have hw := wholeEscapes_drop hl h2
    cases hs : scan C {} (C.trimSpace x) with
    | error e => simp [hs, scanFinish] at h
    | ok st =>
      obtain ⟨g1, -⟩ := scan_first _ hw (fun hm => h1 (List.mem_append_right _ hm)) _ {} st (List.prefix_append _ r) rfl hs
      simp only [hs, scanFinish, scanEnd] at h
      by_cases hty : st.typ = []
      · simp [hty] at h
      · simp only [if_neg hty] at h
        cases hd : decodeValue C st.cur with
        | none => simp [hd] at h
        | some v => simp [hd, g1] at h; subst h; simp

end Idm
