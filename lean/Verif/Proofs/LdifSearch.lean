import Verif.Proofs.LdifServer
/-!
# Searches on the LDIF server: what is looked up, kept and found
-/
namespace Idm

theorem lowAva_idem {C : CaseEnv} (hC : C.Lawful) (a : AVA) : lowAva C (lowAva C a) = lowAva C a := by
  cases a
  simp [lowAva, Function.comp_def, lowerByte_idem, hC.lower_idem]

theorem map_lowAva_idem {C : CaseEnv} (hC : C.Lawful) (ns : List AVA) : (ns.map (lowAva C)).map (lowAva C) = ns.map (lowAva C) := by
  simp [lowAva_idem hC]

/-- Lower case makes no difference for what is in scope. -/
theorem inScope_low {C : CaseEnv} (hC : C.Lawful) {b n : List AVA} (hb : ∀ a ∈ b, SimpleAva C a) (hn : ∀ a ∈ n, SimpleAva C a)
    (hag : NamesAgree C n b) (s : Nat) : InScopeFold C s (dnOf b) (dnOf (n.map (lowAva C))) ↔ InScopeFold C s (dnOf b) (dnOf n) := by
  have hl : ∀ {n : List AVA}, (∀ a ∈ n, SimpleAva C a) → ∀ a ∈ n.map (lowAva C), SimpleAva C a := by
    intro n hn a ha
    obtain ⟨a', ha', rfl⟩ := List.mem_map.1 ha
    exact simple_lowAva hC (hn a' ha')
  have h0 : ∀ {n : List AVA}, (∀ a ∈ n, SimpleAva C a) → NamesAgree C n b →
      (SameDn C (dnOf (n.map (lowAva C))) (dnOf b) ↔ SameDn C (dnOf n) (dnOf b)) := by
    intro n hn hag
    rw [sameDn_plain hC (hl hn) hb (hag.lowered hC), sameDn_plain hC hn hb hag.values, map_lowAva_idem hC]
  have h2 := inScope2_plain hC hb hn hag.values
  have h2' := inScope2_plain hC hb (hl hn) (hag.lowered hC)
  rw [map_lowAva_idem hC] at h2'
  by_cases hs : s = 2
  · subst hs
    rw [h2, h2']
  · constructor
    · rintro (⟨e, h⟩ | ⟨e, r, p, h1, h⟩ | ⟨e, -⟩)
      · exact Or.inl ⟨e, (h0 hn hag).1 h⟩
      · cases n with
        | nil => simp [dnOf] at h1
        | cons a n =>
          simp only [dnOf, List.map_cons, List.cons.injEq] at h1
          refine Or.inr (Or.inl ⟨e, [a], dnOf n, rfl, (h0 (fun a ha => hn a (by simp [ha])) (fun a ha => hag a (by simp [ha]))).1 ?_⟩)
          rw [← h1.2] at h
          exact h
      · exact absurd e hs
    · rintro (⟨e, h⟩ | ⟨e, r, p, h1, h⟩ | ⟨e, -⟩)
      · exact Or.inl ⟨e, (h0 hn hag).2 h⟩
      · cases n with
        | nil => simp [dnOf] at h1
        | cons a n =>
          simp only [dnOf, List.map_cons, List.cons.injEq] at h1
          refine Or.inr (Or.inl ⟨e, [lowAva C a], dnOf (n.map (lowAva C)), rfl,
            (h0 (fun a ha => hn a (by simp [ha])) (fun a ha => hag a (by simp [ha]))).2 ?_⟩)
          rw [← h1.2] at h
          exact h
      · exact absurd e hs

theorem textInScope_plain {C : CaseEnv} (hC : C.Lawful) {b d : Str} {nb ns : List AVA} (hb : PlainDN C b nb) (hd : PlainDN C d ns) (s : Nat) :
    TextInScope C s b d ↔ InScopeFold C s (dnOf nb) (dnOf ns) := by
  unfold TextInScope
  rw [parse_plain hC hb, parse_plain hC hd]
  simp

/-- Text suffix and subtree. -/
theorem suffix_scope2 {C : CaseEnv} (hC : C.Lawful) {b d : Str} {nb ns : List AVA} (hb : PlainDN C b nb) (hd : PlainDN C d ns)
    (hag : NamesAgree C ns nb) (hne : nb ≠ []) :
    (TextInScope C 2 b d → hasSuffix (C.lower d) (C.lower b) = true) ∧
    (NoLongerType nb ns → hasSuffix (C.lower d) (C.lower b) = true → TextInScope C 2 b d) := by
  rw [textInScope_plain hC hb hd, inScope2_plain hC hb.2 hd.2 hag.values, (lower_plain hC hb).1, (lower_plain hC hd).1]
  constructor
  · exact plainText_suffix (by simpa using hne)
  · intro hl h
    cases nb with
    | nil => exact absurd rfl hne
    | cons x xs =>
      refine suffix_plainText (lower_plain hC hb).2 (lower_plain hC hd).2 ?_ (hasSuffix_iff.1 h)
      intro a ha hs
      obtain ⟨a', ha', rfl⟩ := List.mem_map.1 ha
      exact hl x rfl a' ha' hs

/-- Plainly written names. -/
theorem tells_plain {C : CaseEnv} (hC : C.Lawful) {b d : Str} {nb ns : List AVA} (hb : PlainDN C b nb) (hd : PlainDN C d ns)
    (hag : NamesAgree C ns nb) (hne : nb ≠ []) (scope : Nat) (hl : scope = 2 → NoLongerType nb ns) : TextTells C scope b d := by
  have hsub := suffix_scope2 hC hb hd hag hne
  have hlow := lower_plain hC hd
  refine ⟨fun h => hsub.1 ?_, fun h => ⟨⟨_, parse_plain hC hlow⟩, fun e => hsub.2 (hl e) h, fun _ => ?_, fun _ => plainFirst_plain hlow⟩⟩
  · rw [textInScope_plain hC hb hd] at h ⊢
    exact inScope_sub h
  · rw [textInScope_plain hC hb hd, textInScope_plain hC hb hlow, inScope_low hC hb.2 hd.2 hag]

theorem textInScope_sub {C : CaseEnv} {s : Nat} {b d : Str} (h : TextInScope C s b d) : TextInScope C 2 b d := by
  obtain ⟨x, y, h1, h2, h3⟩ := h
  exact ⟨x, y, h1, h2, inScope_sub h3⟩

theorem count_comma_plain {C : CaseEnv} : ∀ (ns : List AVA), (∀ a ∈ ns, SimpleAva C a) → ns ≠ [] → (plainText ns).count chComma + 1 = ns.length
  | [], _, h => absurd rfl h
  | [a], h, _ => by
    have ha := h a (by simp)
    have h1 : a.typ.count chComma = 0 := List.count_eq_zero.2 fun hm => (okTypeByte_facts' _ (ha.1.2 _ hm)).2.1 rfl
    have h2 : a.val.count chComma = 0 := List.count_eq_zero.2 fun hm => (okValByte_facts _ (ha.2.2.1 _ hm)).2.2.1 rfl
    simp [plainText, List.count_append, List.count_cons, h1, h2, show (chEq == chComma) = false by decide]
  | a :: b :: bs, h, _ => by
    have ha := h a (by simp)
    have h1 : a.typ.count chComma = 0 := List.count_eq_zero.2 fun hm => (okTypeByte_facts' _ (ha.1.2 _ hm)).2.1 rfl
    have h2 : a.val.count chComma = 0 := List.count_eq_zero.2 fun hm => (okValByte_facts _ (ha.2.2.1 _ hm)).2.2.1 rfl
    have ih := count_comma_plain (b :: bs) (fun c hc => h c (by simp [hc])) (by simp)
    rw [plainText_cons (by simp), List.count_append, List.count_append, List.count_cons, List.count_cons, h1, h2, List.length_cons, ← ih]
    simp [show (chEq == chComma) = false by decide]

/-- A suffix of `x,y` with no more commas than `y` is a suffix of `y`, if it does not begin with a comma. -/
theorem suffix_tail {x y t : Str} (h : t <:+ x ++ chComma :: y) (hc : t.count chComma ≤ y.count chComma) : t <:+ y := by
  rcases List.suffix_or_suffix_of_suffix h (List.suffix_append x (chComma :: y)) with h | h
  · rcases List.suffix_cons_iff.1 h with rfl | h
    · simp at hc
      omega
    · exact h
  · have := h.sublist.count_le chComma
    simp at this
    omega

/-- Names whose first RDN is written in any way. -/
theorem tells_first {C : CaseEnv} (hC : C.Lawful) {b : Str} {nb ns : List AVA} (hb : PlainDN C b nb) (hne : nb ≠ []) {x : Str} {r r' : RDN}
    (hns : ∀ a ∈ ns, SimpleAva C a) (hle : nb.length ≤ ns.length)
    (hp : parseDN C (x ++ chComma :: plainText ns) = (parseDN C (plainText ns)).map (r :: ·))
    (hlp : parseDN C (C.lower (x ++ chComma :: plainText ns)) = (parseDN C (C.lower (plainText ns))).map (r' :: ·))
    (hag : NamesAgree C ns nb) (scope : Nat) (hl : scope = 2 → NoLongerType nb ns)
    (hf : scope = 1 → PlainFirst (C.lower (x ++ chComma :: plainText ns))) : TextTells C scope b (x ++ chComma :: plainText ns) := by
  have hd : PlainDN C (plainText ns) ns := ⟨rfl, hns⟩
  have hlow := lower_plain hC hd
  have hlowb := lower_plain hC hb
  have hsub := suffix_scope2 hC hb hd hag hne
  have hlen : 0 < nb.length := List.length_pos_iff.2 hne
  have hnn : ns ≠ [] := List.ne_nil_of_length_pos (by omega)
  have hbp := parse_plain hC hb
  have hnp := parse_plain hC hd
  have hlnp := parse_plain hC hlow
  rw [hnp, Option.map_some] at hp
  rw [hlnp, Option.map_some] at hlp
  have hlx : C.lower (x ++ chComma :: plainText ns) = C.lower x ++ chComma :: C.lower (plainText ns) := hC.lower_split x chComma _ (by decide)
  have hscope : ∀ {n : DN} {d : Str}, parseDN C d = some n → ∀ s, TextInScope C s b d ↔ InScopeFold C s (dnOf nb) n := by
    intro n d h s
    unfold TextInScope
    rw [hbp, h]
    simp
  -- below the base means that the rest is below the base
  have hrest : ∀ {s : Nat}, TextInScope C s b (x ++ chComma :: plainText ns) → TextInScope C 2 b (plainText ns) := by
    intro s h
    rw [hscope hp] at h
    rw [hscope hnp]
    rcases inScope_sub h with ⟨h, -⟩ | ⟨h, -⟩ | ⟨-, q, p, h1, h2⟩
    · cases h
    · cases h
    · cases q with
      | nil =>
        have := h2.1
        rw [← show r :: dnOf ns = p from h1] at this
        simp [dnOf] at this
        omega
      | cons c q =>
        simp only [List.cons_append, List.cons.injEq] at h1
        exact Or.inr (Or.inr ⟨rfl, q, p, h1.2, h2⟩)
  refine ⟨fun h => ?_, fun h => ⟨⟨_, hlp⟩, fun e => ?_, fun h2 => ?_, hf⟩⟩
  · have := hsub.1 (hrest h)
    rw [hlx, hasSuffix_iff] 
    rw [hasSuffix_iff] at this
    exact this.trans ⟨C.lower x ++ [chComma], by simp⟩
  · rw [hlx, hasSuffix_iff] at h
    have hcb := count_comma_plain _ hlowb.2 (by simpa using hne)
    have hcn := count_comma_plain _ hlow.2 (by simpa using hnn)
    rw [← hlowb.1, List.length_map] at hcb
    rw [← hlow.1, List.length_map] at hcn
    have := suffix_tail h (by omega)
    obtain ⟨bb, n, k1, k2, k3⟩ := hsub.2 (hl e) (hasSuffix_iff.2 this)
    rw [hnp] at k2
    cases k2
    rw [hbp] at k1
    cases k1
    rw [hscope hp]
    rcases k3 with ⟨h, -⟩ | ⟨h, -⟩ | ⟨-, q, p, h1, h2⟩
    · cases h
    · cases h
    · exact Or.inr (Or.inr ⟨rfl, r :: q, p, by rw [h1]; rfl, h2⟩)
  · rw [hscope hp, hscope hlp]
    have h0 := inScope_low hC hb.2 hns hag 0
    simp only [InScopeFold, true_and, show (0 : Nat) ≠ 1 by decide, show (0 : Nat) ≠ 2 by decide, false_and, or_false] at h0
    have hno : ∀ (n : List AVA) (q : RDN), n.length = ns.length → ¬ SameDn C (q :: dnOf n) (dnOf nb) := by
      intro n q hn h
      have := h.1
      simp [dnOf] at this
      omega
    simp only [InScopeFold, h2, false_and, or_false]
    constructor
    · rintro (⟨-, h⟩ | ⟨e, q, p, h1, h⟩)
      · exact absurd h (hno _ _ (by simp))
      · cases h1
        exact Or.inr ⟨e, r, _, rfl, h0.1 h⟩
    · rintro (⟨-, h⟩ | ⟨e, q, p, h1, h⟩)
      · exact absurd h (hno _ _ rfl)
      · cases h1
        exact Or.inr ⟨e, r', _, rfl, h0.2 h⟩

/-! ## What is looked up -/

theorem dropObjectClass_map (C : CaseEnv) (f : Filter) (ms : List IdxReq) (h : ms.map (fun g => (g.attr, g.kind)) = comparisons f) :
    (dropObjectClass C ms).map (fun g => (g.attr, g.kind)) = lookedUp C f ∧
    ∀ g ∈ ms, ((lookedUp C f).any fun p => p.1 = g.attr) = true → g ∈ dropObjectClass C ms := by
  unfold lookedUp dropObjectClass
  rw [← h]
  simp only [List.all_map, Function.comp_def]
  have hoc : ∀ g : IdxReq, C.eqFold b!"objectClass" g.attr = isObjectClass C g := fun _ => rfl
  simp only [hoc]
  by_cases hall : (ms.all fun g => isObjectClass C g) = true
  · rw [if_pos hall]
    have hany : (ms.any fun f => !isObjectClass C f) = false := by
      rw [List.any_eq_false]
      intro x hx
      rw [List.all_eq_true] at hall
      simp [hall x hx]
    have hfil : (ms.filter fun f => !(decide (ms.length > 1) && ms.any fun f => !isObjectClass C f) || !isObjectClass C f) = ms := by
      rw [hany]
      simp
    simp only [hfil]
    exact ⟨trivial, fun g hg _ => hg⟩
  · rw [if_neg hall]
    have hany : (ms.any fun f => !isObjectClass C f) = true := by
      rw [List.all_eq_true] at hall
      simp only [Classical.not_forall] at hall
      obtain ⟨x, hx, hn⟩ := hall
      rw [List.any_eq_true]
      exact ⟨x, hx, by simpa using hn⟩
    have hfil : (ms.filter fun f => !(decide (ms.length > 1) && ms.any fun f => !isObjectClass C f) || !isObjectClass C f) =
        ms.filter fun f => !isObjectClass C f := by
      rw [hany]
      by_cases hl : ms.length > 1
      · simp [hl]
      · match ms, hl, hany with
        | [], _, h => simp at h
        | [x], _, h =>
          simp only [List.any_cons, List.any_nil, Bool.or_false] at h
          simp [h]
        | _ :: _ :: _, hl, _ => simp at hl
    simp only [hfil]
    refine ⟨by rw [List.filter_map]; rfl, fun g hg hu => ?_⟩
    rw [List.any_eq_true] at hu
    obtain ⟨p, hp, hpe⟩ := hu
    obtain ⟨hp1, hp2⟩ := List.mem_filter.1 hp
    simp only [decide_eq_true_eq] at hpe
    refine List.mem_filter.2 ⟨hg, ?_⟩
    unfold isObjectClass
    rw [← hpe]
    exact hp2

/-- Using the indexes loses no entry that satisfies the filter. -/
theorem indexFilter_covers {C : CaseEnv} {u : Filter → Entry → Prop} {idx : IdxAttrs} {f : Filter} {s : Str} {fp : Packet}
    (hc : compile s = some fp) (henc : Encodes f fp) (ends : Bool) (hlost : NoneLost C idx ends f = true) :
    ∃ fs, indexFilter C s = .ok fs ∧ (∀ g ∈ fs, TagOk g.kind g.tag) ∧
      ∀ e, CaseAgrees C e f → (ends = true → EndsAgree C e f) → Sat C u e (firstOnly f) →
        fs = [] ∨ (∃ g ∈ fs, indexed C idx (C.lower g.attr) g.kind = false) ∨
          ∃ g ∈ fs, ∃ a ∈ e.attrs, C.lower a.name = C.lower g.attr ∧ Hit C g.kind g.value g.tag a := by
  have hl := fun e => leaves_spec (C := C) (u := u) (e := e) f fp henc (compile_shape hc)
  unfold indexFilter
  rw [hc]
  dsimp only
  rcases hl ⟨[], []⟩ with h | ⟨ms, h, h1, h2, -⟩
  · rw [h]
    exact ⟨[], rfl, by simp, fun _ _ _ _ => Or.inl rfl⟩
  · rw [h]
    obtain ⟨d1, d2⟩ := dropObjectClass_map C f ms h1
    refine ⟨_, rfl, fun g hg => h2 g (List.mem_filter.1 hg).1, fun e hag hend hsat => ?_⟩
    unfold NoneLost at hlost
    simp only [Bool.or_eq_true] at hlost
    rcases hlost with ((h0 | h0) | h0) | h0
    · left
      rw [List.isEmpty_iff, ← d1, List.map_eq_nil_iff] at h0
      exact h0
    · exact absurd h (leaves_several f fp henc h0 ms)
    · right; left
      rw [← d1, List.any_eq_true] at h0
      obtain ⟨p, hp, hi⟩ := h0
      obtain ⟨g, hg, rfl⟩ := List.mem_map.1 hp
      exact ⟨g, hg, by simpa using hi⟩
    · right; right
      rcases hl e with h' | ⟨ms', h', -, -, h3⟩
      · rw [h] at h'; cases h'
      · rw [h] at h'
        cases h'
        obtain ⟨g, hg, hu, a, ha, hn, hh⟩ := h3 ends _ h0 hag hend hsat
        exact ⟨g, d2 g hg hu, a, ha, hn, hh⟩

/-! ## What is kept -/

theorem scopeNat_nat (s : Nat) : scopeNat (s : Int) = s := by unfold scopeNat; rw [if_neg (by omega)]; omega

/-- Kept entries satisfy the filter of the first components. -/
theorem kept_sat {C : CaseEnv} {f : Filter} {fp : Packet} (henc : Encodes f fp) (h1 : HasComponents f) {r : SearchReq} {x : LEntry}
    (h : kept C fp r x = true) (u : Filter → Entry → Prop) : Sat C u x.visible (firstOnly f) := by
  unfold kept at h
  simp only [Bool.and_eq_true, decide_eq_true_eq] at h
  rcases C29_first_unsupported_partial (C := C) (e := x.visible) f fp henc h1 with h' | ⟨b, h', hu⟩
  · rw [h'] at h; cases h.1
  · rw [h'] at h
    have := h.1
    cases this
    exact (hu u).1 rfl

/-- What the check of the scope says, for base searches of any name. -/
theorem scope_judged {C : CaseEnv} (hC : C.Lawful) {b : Str} {base n : DN} {e : Entry} (hb : parseDN C b = some base) (hn : parseDN C e.dn = some n)
    {s : Nat} (hs : s ≤ 2) (h1 : s = 1 → base ≠ [] ∧ PlainFirst e.dn) :
    ∃ k, filterScope C b s e = (k, rcSuccess) ∧ (s ≠ 2 → (k = true ↔ InScopeFold C s base n)) := by
  by_cases h2 : s = 2
  · subst h2
    exact ⟨true, by simp [filterScope, hb, hn], fun h => absurd rfl h⟩
  by_cases hs1 : s = 1
  · obtain ⟨k, k1, k2⟩ := C30_scope_partial hC b base n e s (Or.inr hs1) hb hn (h1 hs1).1 (h1 hs1).2
    exact ⟨k, k1, fun _ => k2⟩
  · have h0 : s = 0 := by omega
    subst h0
    refine ⟨dnEqFold C n base, ?_, fun _ => by simp [dnEqFold_iff, InScopeFold]⟩
    simp only [filterScope, hb, hn, if_true]
    cases dnEqFold C n base <;> rfl

/-- Kept entries have names, and those of base and one-level searches are in scope. -/
theorem kept_scope {C : CaseEnv} (hC : C.Lawful) {fp : Packet} {r : SearchReq} {s : Nat} (hs : r.scope = (s : Int)) {x : LEntry} (h : kept C fp r x = true) :
    ∃ base n, parseDN C r.baseDN = some base ∧ parseDN C x.dn = some n ∧
      (s = 0 ∨ s = 1 ∧ base ≠ [] ∧ PlainFirst x.dn → InScopeFold C s base n) := by
  unfold kept at h
  simp only [Bool.and_eq_true, decide_eq_true_eq] at h
  have h := h.2
  have hd : x.visible.dn = x.dn := rfl
  rw [hs, scopeNat_nat] at h
  cases hb : parseDN C r.baseDN with
  | none => rw [C30_bad_name _ _ _ (Or.inl hb)] at h; cases h
  | some base =>
    cases hn : parseDN C x.dn with
    | none => rw [C30_bad_name _ _ _ (Or.inr hn)] at h; cases h
    | some n =>
      refine ⟨base, n, rfl, rfl, fun hs01 => ?_⟩
      obtain ⟨k, h1, h2⟩ := scope_judged hC (e := x.visible) hb hn (s := s) (by omega) (fun h1 => by
        rcases hs01 with h0 | ⟨-, h⟩
        · omega
        · exact h)
      rw [h] at h1
      cases h1
      refine (h2 ?_).1 rfl
      omega

end Idm
