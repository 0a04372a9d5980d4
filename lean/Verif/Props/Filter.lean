import Verif.Model.Filter
import Verif.Spec.Filter
/-!
# C29: filters mean what RFC 4511 says
-/
namespace Idm

section
variable {C : CaseEnv} {u : Filter → Entry → Prop} {e : Entry}

theorem contains_iff (v s : Str) : contains v s = true ↔ ∃ x y, v = x ++ s ++ y := by
  induction v with
  | nil =>
    unfold contains
    simp only [Bool.or_false, List.isPrefixOf_iff_prefix]
    constructor
    · rintro ⟨t, ht⟩; exact ⟨[], t, by simpa using ht.symm⟩
    · rintro ⟨x, y, h⟩
      have := List.append_eq_nil_iff.1 h.symm
      have h2 := List.append_eq_nil_iff.1 this.1
      exact ⟨[], by simp [h2.2]⟩
  | cons c v ih =>
    unfold contains
    simp only [Bool.or_eq_true, List.isPrefixOf_iff_prefix, ih]
    constructor
    · rintro (⟨t, ht⟩ | ⟨x, y, h⟩)
      · exact ⟨[], t, by simpa using ht.symm⟩
      · exact ⟨c :: x, y, by simp [h]⟩
    · rintro ⟨x, y, h⟩
      cases x with
      | nil => exact .inl ⟨y, by simpa using h.symm⟩
      | cons d x =>
        simp only [List.cons_append, List.cons.injEq] at h
        exact .inr ⟨x, y, h.2⟩

/-- The test of a single component. -/
theorem subTest_iff (i : Option Str) (m : List Str) (f : Option Str) (t : Nat) (s v : Str)
    (h : components i m f = [(t, s)]) : subTest t v s = true ↔ MatchSub i m f v := by
  unfold components at h
  cases i with
  | some i =>
    simp only [Option.toList, List.map_cons, List.map_nil, List.cons_append, List.nil_append, List.cons.injEq, Prod.mk.injEq,
      List.append_eq_nil_iff, List.map_eq_nil_iff] at h
    obtain ⟨⟨rfl, rfl⟩, rfl, h3⟩ := h
    cases f with
    | some f => simp at h3
    | none =>
      simp only [subTest, subInitial, if_true, hasPrefix, List.isPrefixOf_iff_prefix, MatchSub, MatchMid, Option.getD_some,
        Option.getD_none, List.append_nil]
      constructor
      · rintro ⟨y, rfl⟩; exact ⟨y, rfl, y, rfl⟩
      · rintro ⟨y, rfl, -⟩; exact ⟨y, rfl⟩
  | none =>
    cases m with
    | cons m ms =>
      simp only [Option.toList, List.map_cons, List.map_nil, List.cons_append, List.nil_append, List.cons.injEq, Prod.mk.injEq,
        List.append_eq_nil_iff, List.map_eq_nil_iff] at h
      obtain ⟨⟨rfl, rfl⟩, rfl, h3⟩ := h
      cases f with
      | some f => simp at h3
      | none =>
        simp only [subTest, subInitial, subAny, Nat.one_ne_zero, if_false, if_true, contains_iff, MatchSub, MatchMid, Option.getD_none,
          List.append_nil, List.nil_append]
        constructor
        · rintro ⟨x, y, h⟩; exact ⟨v, rfl, x, y, h, y, rfl⟩
        · rintro ⟨_, rfl, x, y, h, -⟩; exact ⟨x, y, h⟩
    | nil =>
      cases f with
      | none => simp at h
      | some f =>
        simp only [Option.toList, List.map_cons, List.map_nil, List.nil_append, List.cons.injEq, Prod.mk.injEq, and_true] at h
        obtain ⟨rfl, rfl⟩ := h
        simp only [subTest, subInitial, subAny, subFinal, if_true, hasSuffix, MatchSub, MatchMid,
          Option.getD_none, List.nil_append, Option.getD_some]
        rw [show (if (2 : Nat) = 0 then hasPrefix v f else if (2 : Nat) = 1 then contains v f else f.isSuffixOf v) = f.isSuffixOf v from rfl,
          List.isSuffixOf_iff_suffix]
        constructor
        · rintro ⟨x, rfl⟩; exact ⟨_, rfl, x, rfl⟩
        · rintro ⟨_, rfl, x, rfl⟩; exact ⟨x, rfl⟩

theorem components_map (g : Str → Str) (i : Option Str) (m : List Str) (f : Option Str) :
    components (i.map g) (m.map g) (f.map g) = (components i m f).map fun x => (x.1, g x.2) := by
  unfold components
  cases i <;> cases f <;> simp [Function.comp_def]

mutual
/-- Filters with one component in every substring filter keep their components. -/
theorem firstOnly_id : (f : Filter) → OneComponent f → firstOnly f = f
  | .and fs, h => by rw [firstOnly, firstOnlyAll_id fs h]
  | .or fs, h => by rw [firstOnly, firstOnlyAll_id fs h]
  | .not f, h => by rw [firstOnly, firstOnly_id f h]
  | .sub a i m f, h => by
    simp only [OneComponent, components] at h
    cases i with
    | some i =>
      cases m with
      | nil => cases f with
        | none => rfl
        | some f => simp at h
      | cons m ms => simp at h
    | none =>
      cases m with
      | nil => rfl
      | cons m ms =>
        cases ms with
        | nil => cases f with
          | none => rfl
          | some f => simp at h
        | cons m' ms => simp at h
  | .eq .., _ => rfl
  | .present _, _ => rfl
  | .cmp .., _ => rfl
  | .ext .., _ => rfl
theorem firstOnlyAll_id : (fs : List Filter) → OneComponentAll fs → firstOnlyAll fs = fs
  | [], _ => rfl
  | f :: fs, h => by rw [firstOnlyAll, firstOnly_id f h.1, firstOnlyAll_id fs h.2]
end

mutual
theorem oneComponent_has : (f : Filter) → OneComponent f → HasComponents f
  | .and fs, h => oneComponentAll_has fs h
  | .or fs, h => oneComponentAll_has fs h
  | .not f, h => oneComponent_has f h
  | .sub .., h => by
    simp only [OneComponent] at h
    intro h0
    rw [h0] at h
    cases h
  | .eq .., _ => trivial
  | .present _, _ => trivial
  | .cmp .., _ => trivial
  | .ext .., _ => trivial
theorem oneComponentAll_has : (fs : List Filter) → OneComponentAll fs → HasComponentsAll fs
  | [], _ => trivial
  | f :: fs, h => ⟨oneComponent_has f h.1, oneComponentAll_has fs h.2⟩
end

mutual
theorem firstOnly_supported : (f : Filter) → (Supported (firstOnly f) ↔ Supported f)
  | .and fs => firstOnlyAll_supported fs
  | .or fs => firstOnlyAll_supported fs
  | .not f => firstOnly_supported f
  | .sub _ i m f => by cases i <;> cases m <;> simp [firstOnly, Supported]
  | .eq .. => Iff.rfl
  | .present _ => Iff.rfl
  | .cmp .. => Iff.rfl
  | .ext .. => Iff.rfl
theorem firstOnlyAll_supported : (fs : List Filter) → (SupportedAll (firstOnlyAll fs) ↔ SupportedAll fs)
  | [] => Iff.rfl
  | f :: fs => by rw [firstOnlyAll, SupportedAll, SupportedAll, firstOnly_supported f, firstOnlyAll_supported fs]
end

/-- The test of the first component. -/
theorem sat_firstOnly_sub (a : Str) (i : Option Str) (m : List Str) (f : Option Str) (t : Nat) (d : Str) (l : List (Nat × Str))
    (h : components i m f = (t, d) :: l) : Sat C u e (firstOnly (.sub a i m f)) ↔
      ∃ x ∈ e.attrs, C.eqFold x.name a = true ∧ ∃ w ∈ x.vals, subTest t (C.fold w) (C.fold d) = true := by
  cases i with
  | some i =>
    have : t = 0 ∧ d = i := by simpa [components, eq_comm] using congrArg List.head? h
    obtain ⟨rfl, rfl⟩ := this
    simp only [firstOnly, Sat]
    have key := fun w => subTest_iff (some (C.fold d)) [] none 0 (C.fold d) (C.fold w) rfl
    simp only [key]
    rfl
  | none =>
    cases m with
    | cons m ms =>
      have : t = 1 ∧ d = m := by simpa [components, eq_comm] using congrArg List.head? h
      obtain ⟨rfl, rfl⟩ := this
      simp only [firstOnly, Sat]
      have key := fun w => subTest_iff none [C.fold d] none 1 (C.fold d) (C.fold w) rfl
      simp only [key]
      rfl
    | nil =>
      cases f with
      | none => simp [components] at h
      | some f =>
        have : t = 2 ∧ d = f := by simpa [components, eq_comm] using congrArg List.head? h
        obtain ⟨rfl, rfl⟩ := this
        simp only [firstOnly, Sat]
        have key := fun w => subTest_iff none [] (some (C.fold d)) 2 (C.fold d) (C.fold w) rfl
        simp only [key]
        rfl

mutual
/-- What `ServerApplyFilter` answers: a verdict that is right for the first components, or operationsError. -/
theorem applyFilter_spec : (f : Filter) → (p : Packet) → Encodes f p → HasComponents f →
    ∃ b code, applyFilter C e p = .ok (b, code) ∧ (code = rcSuccess ∨ code = rcOperationsError ∧ b = false) ∧
      (code = rcSuccess → (b = true ↔ Sat C u e (firstOnly f))) ∧ (Supported f → code = rcSuccess)
  | .and fs, .mk _ _ tag _ data kids, h, h1 => by
    obtain ⟨ht, hk⟩ := h
    simp only [Packet.tag] at ht
    subst ht
    simpa [applyFilter, filterEq, filterPresent, filterAnd, firstOnly, Sat, Supported] using applyAnd_spec fs kids hk h1
  | .or fs, .mk _ _ tag _ data kids, h, h1 => by
    obtain ⟨ht, hk⟩ := h
    simp only [Packet.tag] at ht
    subst ht
    obtain ⟨b, code, g1, g2, g3, g4⟩ := applyOr_spec fs kids hk h1 false
    refine ⟨b, code, by simpa [applyFilter, filterEq, filterPresent, filterAnd, filterOr] using g1, g2, ?_, g4⟩
    intro hc
    simpa [firstOnly, Sat] using g3 hc
  | .not f, .mk _ _ tag _ data kids, h, h1 => by
    obtain ⟨ht, q, hq, hf⟩ := h
    simp only [Packet.tag] at ht
    simp only [Packet.kids] at hq
    subst ht; subst hq
    obtain ⟨b, code, g1, g2, g3, g4⟩ := applyFilter_spec f q hf h1
    simp only [applyFilter, filterEq, filterPresent, filterAnd, filterOr, filterNot, applyNot, g1, Res.ok_bind]
    by_cases hc : code = rcSuccess
    · subst hc
      refine ⟨!b, rcSuccess, by simp, .inl rfl, ?_, fun _ => rfl⟩
      intro _
      rw [firstOnly, Sat, ← g3 rfl]
      cases b <;> simp
    · refine ⟨false, code, by simp [hc], .inr ⟨(g2.resolve_left hc).1, rfl⟩, fun h => absurd h hc, fun h => absurd (g4 h) hc⟩
  | .eq a v, .mk _ _ tag _ data kids, h, _ => by
    obtain ⟨ht, x, y, hk, hx, hy⟩ := h
    simp only [Packet.tag] at ht
    simp only [Packet.kids] at hk
    subst ht; subst hk
    refine ⟨_, _, by simp only [applyFilter, filterEq, if_true, applyEq, Packet.mustStr, hx, hy, Res.ok_bind]; rfl, .inl rfl, ?_,
      fun _ => rfl⟩
    intro _
    simp [firstOnly, Sat, List.any_eq_true]
  | .sub a i m f, .mk _ _ tag _ data kids, h, h1 => by
    obtain ⟨ht, x, s, hk, hx, hs⟩ := h
    simp only [Packet.tag] at ht
    simp only [Packet.kids] at hk
    subst ht; subst hk
    simp only [HasComponents] at h1
    obtain ⟨⟨t, d⟩, l, hc⟩ := List.exists_cons_of_ne_nil h1
    rw [hc] at hs
    obtain ⟨c, cs, hsk, hcd, -⟩ := List.map_eq_cons_iff.1 hs
    simp only [Prod.mk.injEq] at hcd
    refine ⟨_, _, by simp only [applyFilter, filterEq, filterPresent, filterAnd, filterOr, filterNot, filterSub, applySub, Packet.mustStr,
        hx, hsk, Res.ok_bind, if_true]; simp; rfl, .inl rfl, ?_, fun _ => rfl⟩
    intro _
    rw [sat_firstOnly_sub a i m f t d l hc]
    simp only [List.any_eq_true, Bool.and_eq_true, hcd.1, hcd.2]
  | .present a, .mk _ _ tag _ data kids, h, _ => by
    obtain ⟨ht, hd⟩ := h
    simp only [Packet.tag] at ht
    simp only [Packet.data] at hd
    subst ht; subst hd
    refine ⟨_, _, by simp only [applyFilter, filterEq, filterPresent]; simp; rfl, .inl rfl, ?_, fun _ => rfl⟩
    intro _
    simp [firstOnly, Sat, List.any_eq_true]
  | .cmp t a v, .mk _ _ tag _ data kids, h, _ => by
    obtain ⟨ht0, ht, -⟩ := h
    simp only [Packet.tag] at ht
    subst ht
    refine ⟨false, rcOperationsError, ?_, .inr ⟨rfl, rfl⟩, by simp [rcSuccess, rcOperationsError], by simp [Supported]⟩
    rcases ht0 with rfl | rfl | rfl <;> simp [applyFilter, filterEq, filterPresent, filterAnd, filterOr, filterNot, filterSub]
  | .ext r a v d, .mk _ _ tag _ data kids, h, _ => by
    obtain ⟨ht, -⟩ := h
    simp only [Packet.tag] at ht
    subst ht
    refine ⟨false, rcOperationsError, ?_, .inr ⟨rfl, rfl⟩, by simp [rcSuccess, rcOperationsError], by simp [Supported]⟩
    simp [applyFilter, filterEq, filterPresent, filterAnd, filterOr, filterNot, filterSub]

theorem applyAnd_spec : (fs : List Filter) → (ps : List Packet) → EncodesAll fs ps → HasComponentsAll fs →
    ∃ b code, applyAnd C e ps = .ok (b, code) ∧ (code = rcSuccess ∨ code = rcOperationsError ∧ b = false) ∧
      (code = rcSuccess → (b = true ↔ SatAll C u e (firstOnlyAll fs))) ∧ (SupportedAll fs → code = rcSuccess)
  | [], ps, h, _ => by
    simp only [EncodesAll] at h
    subst h
    exact ⟨true, rcSuccess, by simp [applyAnd], .inl rfl, by simp [firstOnlyAll, SatAll], fun _ => rfl⟩
  | f :: fs, ps, h, h1 => by
    obtain ⟨q, qs, rfl, hq, hqs⟩ := h
    obtain ⟨b, code, g1, g2, g3, g4⟩ := applyFilter_spec f q hq h1.1
    obtain ⟨b', code', k1, k2, k3, k4⟩ := applyAnd_spec fs qs hqs h1.2
    simp only [applyAnd, g1, Res.ok_bind]
    by_cases hc : code = rcSuccess
    · subst hc
      have g3 := g3 rfl
      cases b with
      | false =>
        refine ⟨false, rcSuccess, by simp, .inl rfl, ?_, fun _ => rfl⟩
        intro _
        simp only [firstOnlyAll, SatAll]
        simp at g3 ⊢
        intro h; exact absurd h g3
      | true =>
        refine ⟨b', code', by simpa using k1, k2, ?_, fun h => k4 h.2⟩
        intro h
        rw [k3 h, firstOnlyAll, SatAll, ← g3]; simp
    · exact ⟨false, code, by simp [hc], .inr ⟨(g2.resolve_left hc).1, rfl⟩, fun h => absurd h hc, fun h => absurd (g4 h.1) hc⟩

theorem applyOr_spec : (fs : List Filter) → (ps : List Packet) → EncodesAll fs ps → HasComponentsAll fs → (any : Bool) →
    ∃ b code, applyOr C e ps any = .ok (b, code) ∧ (code = rcSuccess ∨ code = rcOperationsError ∧ b = false) ∧
      (code = rcSuccess → (b = true ↔ any = true ∨ SatAny C u e (firstOnlyAll fs))) ∧ (SupportedAll fs → code = rcSuccess)
  | [], ps, h, _, any => by
    simp only [EncodesAll] at h
    subst h
    exact ⟨any, rcSuccess, by simp [applyOr], .inl rfl, by simp [firstOnlyAll, SatAny], fun _ => rfl⟩
  | f :: fs, ps, h, h1, any => by
    obtain ⟨q, qs, rfl, hq, hqs⟩ := h
    obtain ⟨b, code, g1, g2, g3, g4⟩ := applyFilter_spec f q hq h1.1
    simp only [applyOr, g1, Res.ok_bind]
    by_cases hc : code = rcSuccess
    · subst hc
      have g3 := g3 rfl
      obtain ⟨b', code', k1, k2, k3, k4⟩ := applyOr_spec fs qs hqs h1.2 (any || b)
      refine ⟨b', code', by simpa using k1, k2, ?_, fun h => k4 h.2⟩
      intro h
      rw [k3 h, firstOnlyAll, SatAny, ← g3, Bool.or_eq_true, or_assoc]
    · exact ⟨false, code, by simp [hc], .inr ⟨(g2.resolve_left hc).1, rfl⟩, fun h => absurd h hc, fun h => absurd (g4 h.1) hc⟩
end

/-- C29, what holds of every filter of the supported kinds: the entry is selected exactly if it satisfies the filter that is left when all
components but the first are taken out of every substring filter. Missing: the components taken out, see `C29_substring_fails`. -/
theorem C29_first_component_partial (f : Filter) (p : Packet) (hp : Encodes f p) (h1 : HasComponents f) (hs : Supported f) :
    ∃ b, applyFilter C e p = .ok (b, rcSuccess) ∧ (b = true ↔ Sat C u e (firstOnly f)) := by
  obtain ⟨b, code, g1, -, g3, g4⟩ := applyFilter_spec (u := u) f p hp h1
  have := g4 hs
  subst this
  exact ⟨b, g1, g3 rfl⟩

/-- C29 for filters of the supported kinds in which every substring filter has one component: the entry is selected exactly if it
satisfies the filter. Missing: substring filters with several components, see `C29_substring_fails`, and the unsupported kinds, which
`C29_unsupported` covers. -/
theorem C29_filter_partial (f : Filter) (p : Packet) (hp : Encodes f p) (h1 : OneComponent f) (hs : Supported f) :
    ∃ b, applyFilter C e p = .ok (b, rcSuccess) ∧ (b = true ↔ Sat C u e f) := by
  have := C29_first_component_partial (C := C) (u := u) (e := e) f p hp (oneComponent_has f h1) hs
  rwa [firstOnly_id f h1] at this

/-- C29 with unsupported kinds, for every filter: either operationsError is reported or the verdict is that of the first components,
whatever the unsupported parts mean. -/
theorem C29_first_unsupported_partial (f : Filter) (p : Packet) (hp : Encodes f p) (h1 : HasComponents f) :
    applyFilter C e p = .ok (false, rcOperationsError) ∨
    ∃ b, applyFilter C e p = .ok (b, rcSuccess) ∧ ∀ u, (b = true ↔ Sat C u e (firstOnly f)) := by
  obtain ⟨b, code, g1, g2, -, -⟩ := applyFilter_spec (u := fun _ _ => True) (C := C) (e := e) f p hp h1
  rcases g2 with rfl | ⟨rfl, rfl⟩
  · right
    refine ⟨b, g1, fun u => ?_⟩
    obtain ⟨b', code', k1, -, k3, -⟩ := applyFilter_spec (u := u) (C := C) (e := e) f p hp h1
    rw [g1] at k1
    cases k1
    exact k3 rfl
  · exact .inl g1

/-- C29 with unsupported kinds: either operationsError is reported or the verdict is right whatever the unsupported parts mean. -/
theorem C29_unsupported (f : Filter) (p : Packet) (hp : Encodes f p) (h1 : OneComponent f) :
    applyFilter C e p = .ok (false, rcOperationsError) ∨
    ∃ b, applyFilter C e p = .ok (b, rcSuccess) ∧ ∀ u, (b = true ↔ Sat C u e f) := by
  have := C29_first_unsupported_partial (C := C) (e := e) f p hp (oneComponent_has f h1)
  rwa [firstOnly_id f h1] at this

theorem subTest_first (i : Option Str) (m : List Str) (f : Option Str) (t : Nat) (s v : Str) (l : List (Nat × Str))
    (h : components i m f = (t, s) :: l) (hm : MatchSub i m f v) : subTest t v s = true := by
  unfold components at h
  obtain ⟨y, rfl, hy⟩ := hm
  cases i with
  | some i =>
    simp only [Option.toList, List.map_cons, List.map_nil, List.cons_append, List.nil_append, List.cons.injEq, Prod.mk.injEq] at h
    obtain ⟨⟨rfl, rfl⟩, -⟩ := h
    simp only [subTest, subInitial, if_true, hasPrefix, List.isPrefixOf_iff_prefix]
    exact ⟨y, rfl⟩
  | none =>
    cases m with
    | cons m ms =>
      simp only [Option.toList, List.map_cons, List.map_nil, List.cons_append, List.nil_append, List.cons.injEq, Prod.mk.injEq] at h
      obtain ⟨⟨rfl, rfl⟩, -⟩ := h
      obtain ⟨x, z, rfl, -⟩ := hy
      simp only [subTest, subInitial, subAny, Nat.one_ne_zero, if_false, if_true, contains_iff]
      exact ⟨x, z, rfl⟩
    | nil =>
      cases f with
      | none => simp at h
      | some f =>
        simp only [Option.toList, List.map_cons, List.map_nil, List.nil_append, List.cons.injEq, Prod.mk.injEq] at h
        obtain ⟨⟨rfl, rfl⟩, -⟩ := h
        obtain ⟨x, rfl⟩ := hy
        rw [show ∀ w, subTest 2 w f = f.isSuffixOf w from fun _ => rfl, List.isSuffixOf_iff_suffix]
        exact ⟨x, rfl⟩

mutual
theorem applyFilter_pos : (f : Filter) → (p : Packet) → Encodes f p → Positive f → Supported f →
    ∃ b, applyFilter C e p = .ok (b, rcSuccess) ∧ (Sat C u e f → b = true)
  | .and fs, .mk _ _ tag _ data kids, h, h1, hs => by
    obtain ⟨ht, hk⟩ := h
    simp only [Packet.tag] at ht
    subst ht
    simpa [applyFilter, filterEq, filterPresent, filterAnd, Sat] using applyAnd_pos fs kids hk h1 hs
  | .or fs, .mk _ _ tag _ data kids, h, h1, hs => by
    obtain ⟨ht, hk⟩ := h
    simp only [Packet.tag] at ht
    subst ht
    obtain ⟨b, g1, g2⟩ := applyOr_pos fs kids hk h1 hs false
    refine ⟨b, by simpa [applyFilter, filterEq, filterPresent, filterAnd, filterOr] using g1, ?_⟩
    intro hc
    exact g2 (.inr hc)
  | .not f, _, _, h1, _ => absurd h1 (by simp [Positive])
  | .eq a v, .mk _ _ tag _ data kids, h, _, _ => by
    obtain ⟨b, g1, g2⟩ := C29_filter_partial (u := u) (C := C) (e := e) (.eq a v) (.mk _ _ tag _ data kids) h (by simp [OneComponent])
      (by simp [Supported])
    exact ⟨b, g1, g2.2⟩
  | .sub a i m f, .mk _ _ tag _ data kids, h, h1, _ => by
    obtain ⟨ht, x, s, hk, hx, hs⟩ := h
    simp only [Packet.tag] at ht
    simp only [Packet.kids] at hk
    subst ht; subst hk
    simp only [Positive] at h1
    obtain ⟨⟨t, d⟩, l, hc⟩ := List.exists_cons_of_ne_nil h1
    rw [hc] at hs
    obtain ⟨c, cs, hsk, hcd, -⟩ := List.map_eq_cons_iff.1 hs
    simp only [Prod.mk.injEq] at hcd
    refine ⟨_, by simp only [applyFilter, filterEq, filterPresent, filterAnd, filterOr, filterNot, filterSub, applySub, Packet.mustStr,
        hx, hsk, Res.ok_bind, if_true]; simp; rfl, ?_⟩
    rintro ⟨x, hx, hn, w, hw, hm⟩
    have key := subTest_first (i.map C.fold) (m.map C.fold) (f.map C.fold) t (C.fold d) (C.fold w) _
      (by rw [components_map, hc]; rfl) hm
    simp only [List.any_eq_true, Bool.and_eq_true, hcd.1, hcd.2]
    exact ⟨x, hx, hn, w, hw, key⟩
  | .present a, .mk _ _ tag _ data kids, h, _, _ => by
    obtain ⟨b, g1, g2⟩ := C29_filter_partial (u := u) (C := C) (e := e) (.present a) (.mk _ _ tag _ data kids) h (by simp [OneComponent])
      (by simp [Supported])
    exact ⟨b, g1, g2.2⟩
  | .cmp t a v, _, _, _, hs => absurd hs (by simp [Supported])
  | .ext .., _, _, _, hs => absurd hs (by simp [Supported])

theorem applyAnd_pos : (fs : List Filter) → (ps : List Packet) → EncodesAll fs ps → PositiveAll fs → SupportedAll fs →
    ∃ b, applyAnd C e ps = .ok (b, rcSuccess) ∧ (SatAll C u e fs → b = true)
  | [], ps, h, _, _ => by
    simp only [EncodesAll] at h
    subst h
    exact ⟨true, by simp [applyAnd], fun _ => rfl⟩
  | f :: fs, ps, h, h1, hs => by
    obtain ⟨q, qs, rfl, hq, hqs⟩ := h
    obtain ⟨b, g1, g2⟩ := applyFilter_pos f q hq h1.1 hs.1
    obtain ⟨b', k1, k2⟩ := applyAnd_pos fs qs hqs h1.2 hs.2
    simp only [applyAnd, g1, Res.ok_bind]
    cases b with
    | false => exact ⟨false, by simp, fun h => by simpa using g2 h.1⟩
    | true => exact ⟨b', by simpa using k1, fun h => k2 h.2⟩

theorem applyOr_pos : (fs : List Filter) → (ps : List Packet) → EncodesAll fs ps → PositiveAll fs → SupportedAll fs → (any : Bool) →
    ∃ b, applyOr C e ps any = .ok (b, rcSuccess) ∧ (any = true ∨ SatAny C u e fs → b = true)
  | [], ps, h, _, _, any => by
    simp only [EncodesAll] at h
    subst h
    exact ⟨any, by simp [applyOr], by simp [SatAny]⟩
  | f :: fs, ps, h, h1, hs, any => by
    obtain ⟨q, qs, rfl, hq, hqs⟩ := h
    obtain ⟨b, g1, g2⟩ := applyFilter_pos f q hq h1.1 hs.1
    obtain ⟨b', k1, k2⟩ := applyOr_pos fs qs hqs h1.2 hs.2 (any || b)
    refine ⟨b', by simpa [applyOr, g1] using k1, ?_⟩
    rintro (rfl | h | h)
    · exact k2 (.inl rfl)
    · exact k2 (.inl (by simp [g2 h]))
    · exact k2 (.inr h)
end

/-- C29 for filters without negation, with substring filters of any number of components: an entry that satisfies the filter is always
selected. Missing: the converse, see `C29_substring_fails`. -/
theorem C29_no_entry_lost_partial (f : Filter) (p : Packet) (hp : Encodes f p) (h1 : Positive f) (hs : Supported f) (h : Sat C u e f) :
    applyFilter C e p = .ok (true, rcSuccess) := by
  obtain ⟨b, g1, g2⟩ := applyFilter_pos (u := u) f p hp h1 hs
  rw [g1, g2 h]

end

/-! ## Examples and counterexamples -/

/-- A filter's packet, as go-ldap's `CompileFilter` builds it (`Data` of constructed packets left empty). -/
def subPacket (a : Str) (comps : List (Nat × Str)) : Packet :=
  .mk .context true 4 .nil [] [octet a, .mk .universal true tagSequence .nil [] (comps.map fun c => ctxStr c.1 c.2)]
def eqPacket (a v : Str) : Packet := .mk .context true 3 .nil [] [octet a, octet v]

/-- `(&(cn=Anna*)(!(mail=x)))` -/
example : Encodes (.and [.sub b!"cn" (some b!"Anna") [] none, .not (.eq b!"mail" b!"x")])
    (.mk .context true 0 .nil [] [subPacket b!"cn" [(0, b!"Anna")], .mk .context true 2 .nil [] [eqPacket b!"mail" b!"x"]]) ∧
    OneComponent (.and [.sub b!"cn" (some b!"Anna") [] none, .not (.eq b!"mail" b!"x")]) ∧
    Supported (.and [.sub b!"cn" (some b!"Anna") [] none, .not (.eq b!"mail" b!"x")]) := by
  refine ⟨?_, ?_, ?_⟩
  · exact ⟨rfl, _, _, rfl, ⟨rfl, _, _, rfl, rfl, rfl⟩, _, _, rfl, ⟨rfl, _, rfl, rfl, _, _, rfl, rfl, rfl⟩, rfl⟩
  · simp [OneComponent, OneComponentAll, components]
  · simp [Supported, SupportedAll]

/-- `(&(cn=A*b*c)(!(mail=*x*y)))` is judged as `(&(cn=A*)(!(mail=*x*)))`. -/
example : let f : Filter := .and [.sub b!"cn" (some b!"A") [b!"b"] (some b!"c"), .not (.sub b!"mail" none [b!"x"] (some b!"y"))]
    Encodes f (.mk .context true 0 .nil [] [subPacket b!"cn" [(0, b!"A"), (1, b!"b"), (2, b!"c")],
      .mk .context true 2 .nil [] [subPacket b!"mail" [(1, b!"x"), (2, b!"y")]]]) ∧ HasComponents f ∧ Supported f ∧
    firstOnly f = .and [.sub b!"cn" (some b!"A") [] none, .not (.sub b!"mail" none [b!"x"] none)] := by
  refine ⟨?_, ?_, ?_, rfl⟩
  · exact ⟨rfl, _, _, rfl, ⟨rfl, _, _, rfl, rfl, rfl⟩, _, _, rfl, ⟨rfl, _, rfl, rfl, _, _, rfl, rfl, rfl⟩, rfl⟩
  · simp [HasComponents, HasComponentsAll, components]
  · simp [Supported, SupportedAll]

/-- `(|(cn=A*b*c)(mail=*))` meets the hypotheses of `C29_no_entry_lost_partial` for an entry with `cn: a1b2c`. -/
example : Positive (.or [.sub b!"cn" (some b!"A") [b!"b"] (some b!"c"), .present b!"mail"]) ∧
    Sat asciiCase (fun _ _ => False) ⟨b!"cn=x", [⟨b!"CN", [b!"a1b2c"]⟩]⟩
      (.or [.sub b!"cn" (some b!"A") [b!"b"] (some b!"c"), .present b!"mail"]) := by
  refine ⟨by simp [Positive, PositiveAll, components], .inl ⟨_, List.mem_cons_self, by decide, b!"a1b2c", by simp, b!"1b2c", by decide,
    b!"1", b!"2c", by decide, b!"2", by decide⟩⟩

/-- C29 fails for substring filters with several components: `(cn=a*z)` selects `cn: abc`, because only the first component is
looked at. -/
theorem C29_substring_fails :
    ∃ f p e, Encodes f p ∧ applyFilter asciiCase e p = .ok (true, rcSuccess) ∧ ∀ u, ¬ Sat asciiCase u e f := by
  refine ⟨.sub b!"cn" (some b!"a") [] (some b!"z"), subPacket b!"cn" [(0, b!"a"), (2, b!"z")], ⟨b!"cn=x", [⟨b!"cn", [b!"abc"]⟩]⟩, ?_, ?_, ?_⟩
  · exact ⟨rfl, _, _, rfl, rfl, rfl⟩
  · rfl
  · rintro u ⟨x, hx, -, w, hw, y, hy, z, hz⟩
    simp only [List.mem_singleton] at hx
    subst hx
    simp only [List.mem_singleton] at hw
    subst hw
    subst hz
    have := congrArg List.reverse hy
    simp [asciiCase] at this
    exact absurd this.1 (by decide)

/-- C29: with negation the same defect loses entries: `(!(cn=a*z))` does not select `cn: abc`. -/
theorem C29_negated_substring_fails :
    ∃ f p e, Encodes f p ∧ applyFilter asciiCase e p = .ok (false, rcSuccess) ∧ ∀ u, Sat asciiCase u e f := by
  obtain ⟨f, p, e, h1, h2, h3⟩ := C29_substring_fails
  refine ⟨.not f, .mk .context true 2 .nil [] [p], e, ⟨rfl, p, rfl, h1⟩, ?_, h3⟩
  simp [applyFilter, filterEq, filterPresent, filterAnd, filterOr, filterNot, applyNot, h2]

/-- A substring filter without components, which go-ldap's `CompileFilter` makes of `(cn=**)`, panics (see C27). -/
theorem C29_empty_substring_panics (C : CaseEnv) (e : Entry) (a : Str) : applyFilter C e (subPacket a []) = .panic := by
  simp [applyFilter, subPacket, filterEq, filterPresent, filterAnd, filterOr, filterNot, filterSub, applySub, octet, Packet.mustStr,
    Packet.val, Packet.kids]

end Idm
