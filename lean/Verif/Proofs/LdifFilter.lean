import Verif.Proofs.Ldif
import Verif.Spec.Ldif
import Verif.Props.Crash
/-!
# What the LDIF server looks up for a filter
-/
namespace Idm

section
variable {C : CaseEnv} {u : Filter → Entry → Prop} {e : Entry}

/-- The look-ups of a filter, and that they find the entries that satisfy it if they cover it. -/
def LeavesOk (C : CaseEnv) (u : Filter → Entry → Prop) (e : Entry) (cmps : List (Str × IdxKind)) (sat : Prop)
    (cov : Bool → (Str → Bool) → Bool) (agree : Prop) (ea : Prop) (ms : List IdxReq) : Prop :=
  ms.map (fun g => (g.attr, g.kind)) = cmps ∧ (∀ g ∈ ms, TagOk g.kind g.tag) ∧
    ∀ ends use, cov ends use = true → agree → (ends = true → ea) → sat →
      ∃ g ∈ ms, use g.attr = true ∧ ∃ a ∈ e.attrs, C.lower a.name = C.lower g.attr ∧ Hit C g.kind g.value g.tag a

def CaseAgreesW (C : CaseEnv) (e : Entry) (ws : List Str) : Prop :=
  ∀ w ∈ ws, ∀ a ∈ e.attrs, (C.eqFold a.name w = true → C.lower a.name = C.lower w) ∧
    ∀ v ∈ a.vals, C.eqFold v w = true → C.lower v = C.lower w

def EndsAgreeW (C : CaseEnv) (e : Entry) (ps : List (Str × Nat × Str)) : Prop :=
  ∀ p ∈ ps, ∀ a ∈ e.attrs, C.eqFold a.name p.1 = true → ∀ v ∈ a.vals,
    (p.2.1 = 0 → hasPrefix (C.fold v) (C.fold p.2.2) = true → hasPrefix v p.2.2 = true) ∧
    (p.2.1 = 2 → hasSuffix (C.fold v) (C.fold p.2.2) = true → hasSuffix v p.2.2 = true)

mutual
theorem leaves_spec : (f : Filter) → (p : Packet) → Encodes f p → ShapeF p →
    leaves p = .err .other ∨ ∃ ms, leaves p = .ok ms ∧
      LeavesOk C u e (comparisons f) (Sat C u e (firstOnly f)) (fun x y => Covers x y f) (CaseAgreesW C e (filterWords f)) (EndsAgreeW C e (subEnds f)) ms
  | .and fs, .mk _ _ tag _ data kids, h, hs => by
    obtain ⟨ht, hk⟩ := h
    simp only [Packet.tag] at ht
    subst ht
    simp only [leaves, filterEq, filterPresent, filterSub, filterAnd]
    rcases leavesAll_spec fs kids hk (hs.2.2 (Or.inl rfl)) with h | ⟨ms, h, h1, h2, h3, -⟩
    · exact Or.inl (by simpa using h)
    · exact Or.inr ⟨ms, by simpa using h, h1, h2, h3⟩
  | .or fs, .mk _ _ tag _ data kids, h, hs => by
    obtain ⟨ht, hk⟩ := h
    simp only [Packet.tag] at ht
    subst ht
    simp only [leaves, filterEq, filterPresent, filterSub, filterAnd, filterOr]
    rcases leavesAll_spec fs kids hk (hs.2.2 (Or.inr (Or.inl rfl))) with h | ⟨ms, h, h1, h2, -, h3⟩
    · exact Or.inl (by simpa using h)
    · exact Or.inr ⟨ms, by simpa using h, h1, h2, h3⟩
  | .not f, .mk _ _ tag _ data kids, h, hs => by
    obtain ⟨ht, -⟩ := h
    simp only [Packet.tag] at ht
    subst ht
    right
    exact ⟨[], by simp [leaves, filterEq, filterPresent, filterSub, filterAnd, filterOr], by simp [LeavesOk, comparisons, Covers]⟩
  | .eq a v, .mk _ _ tag _ data kids, h, hs => by
    obtain ⟨ht, x, y, hk, hx, hy⟩ := h
    simp only [Packet.tag] at ht
    simp only [Packet.kids] at hk
    subst ht; subst hk
    right
    refine ⟨[⟨a, .eq, v, none⟩], by simp [leaves, filterEq, Packet.mustStr, hx, hy], rfl, by simp [TagOk], ?_⟩
    intro ends use hc hag _ hsat
    simp only [firstOnly, Sat] at hsat
    obtain ⟨b, hb, hn, w, hw, hv⟩ := hsat
    exact ⟨_, List.mem_singleton.2 rfl, by simpa [Covers] using hc, b, hb, ((hag a (by simp [filterWords])) b hb).1 hn,
      List.mem_map.2 ⟨w, hw, ((hag v (by simp [filterWords])) b hb).2 w hw hv⟩⟩
  | .sub a i m f, .mk _ _ tag _ data kids, h, hs => by
    obtain ⟨ht, x, s, hk, hx, hcs⟩ := h
    simp only [Packet.tag] at ht
    simp only [Packet.kids] at hk
    subst ht; subst hk
    have hval := (hs.2.1 rfl x s rfl).2
    by_cases hlen : (components i m f).length = 1
    · obtain ⟨⟨t, d⟩, hc⟩ := List.length_eq_one_iff.1 hlen
      rw [hc] at hcs
      obtain ⟨c, hsk, hcd⟩ := List.map_eq_singleton_iff.1 hcs
      simp only [Prod.mk.injEq] at hcd
      have hcv := hval c (by rw [hsk]; simp)
      have htag : t = 0 ∨ t = 1 ∨ t = 2 := by
        have : (t, d) ∈ components i m f := by rw [hc]; simp
        simp only [components, List.mem_append, List.mem_map, Prod.mk.injEq] at this
        rcases this with (⟨_, _, h, _⟩ | ⟨_, _, h, _⟩) | ⟨_, _, h, _⟩
        · exact Or.inl h.symm
        · exact Or.inr (Or.inl h.symm)
        · exact Or.inr (Or.inr h.symm)
      right
      refine ⟨[⟨a, .sub, d, some t⟩], ?_, rfl, ?_, ?_⟩
      · simp only [leaves, filterEq, filterPresent, filterSub, Packet.mustStr, hx, hsk, hcv, Res.ok_bind, subInitial, subAny, subFinal, hcd.1, hcd.2]
        rw [if_pos htag]
        simp
      · simp only [List.mem_singleton, TagOk, subAny, subInitial, subFinal]
        rintro g rfl -
        rcases htag with h | h | h <;> simp [h]
      · intro ends use hcov hag hea hsat
        rw [sat_firstOnly_sub a i m f t d [] hc] at hsat
        obtain ⟨b, hb, hn, w, hw, hv⟩ := hsat
        have huse : use a = true := by
          unfold Covers at hcov
          split at hcov <;> simp_all
        refine ⟨_, List.mem_singleton.2 rfl, huse, b, hb, ((hag a (by simp [filterWords])) b hb).1 hn, ?_⟩
        simp only [Hit, subAny, subInitial, subFinal, Option.some.injEq]
        have hends : t ≠ 1 → ends = true := by
          intro ht
          cases i with
          | some i => simp [Covers] at hcov; exact hcov.1
          | none => cases m with
            | nil => simp [Covers] at hcov; exact hcov.1
            | cons m ms =>
              exfalso
              apply ht
              simp [components] at hc
              exact hc.1.1.symm
        have hmem : t ≠ 1 → (a, t, d) ∈ subEnds (.sub a i m f) := by
          intro ht
          simp [subEnds, hc, ht]
        rcases htag with h | h | h
        · subst h
          right; left
          refine ⟨rfl, w, hw, ?_⟩
          exact (hea (hends (by omega)) _ (hmem (by omega)) b hb hn w hw).1 rfl (by simpa [subTest, subInitial] using hv)
        · exact Or.inl h
        · subst h
          right; right
          refine ⟨rfl, w, hw, ?_⟩
          exact (hea (hends (by omega)) _ (hmem (by omega)) b hb hn w hw).2 rfl (by simpa [subTest, subInitial, subAny, subFinal] using hv)
    · left
      have hl : s.kids.length ≠ 1 := by
        intro h
        apply hlen
        rw [← hcs]
        simpa using h
      simp only [leaves, filterEq, filterPresent, filterSub, Packet.mustStr, hx, Res.ok_bind]
      match hk : s.kids, hl with
      | [], _ => simp
      | [_], h => simp at h
      | _ :: _ :: _, _ => simp
  | .present a, .mk _ _ tag _ data kids, h, hs => by
    obtain ⟨ht, hd⟩ := h
    simp only [Packet.tag] at ht
    simp only [Packet.data] at hd
    subst ht; subst hd
    by_cases hk : kids.length = 0
    · right
      refine ⟨[⟨data, .pres, [], none⟩], by simp [leaves, filterEq, filterPresent, hk], rfl, by simp [TagOk], ?_⟩
      intro ends use hc hag _ hsat
      simp only [firstOnly, Sat] at hsat
      obtain ⟨b, hb, hn⟩ := hsat
      exact ⟨_, List.mem_singleton.2 rfl, by simpa [Covers] using hc, b, hb, ((hag data (by simp [filterWords])) b hb).1 hn, rfl⟩
    · left
      simp [leaves, filterEq, filterPresent, hk]
  | .cmp t a v, .mk _ _ tag _ data kids, h, hs => by
    obtain ⟨h5, ht, -⟩ := h
    simp only [Packet.tag] at ht
    subst ht
    right
    refine ⟨[], ?_, by simp [LeavesOk, comparisons, Covers]⟩
    rcases h5 with h | h | h <;> subst h <;> simp [leaves, filterEq, filterPresent, filterSub, filterAnd, filterOr]
  | .ext r a v d, .mk _ _ tag _ data kids, h, hs => by
    obtain ⟨ht, -⟩ := h
    simp only [Packet.tag] at ht
    subst ht
    right
    refine ⟨[], ?_, by simp [LeavesOk, comparisons, Covers]⟩
    simp [leaves, filterEq, filterPresent, filterSub, filterAnd, filterOr]
theorem leavesAll_spec : (fs : List Filter) → (ps : List Packet) → EncodesAll fs ps → ShapeFs ps →
    leavesAll ps = .err .other ∨ ∃ ms, leavesAll ps = .ok ms ∧ ms.map (fun g => (g.attr, g.kind)) = comparisonsAll fs ∧
      (∀ g ∈ ms, TagOk g.kind g.tag) ∧
      (∀ ends use, CoversSome ends use fs = true → CaseAgreesW C e (filterWordsAll fs) → (ends = true → EndsAgreeW C e (subEndsAll fs)) →
        SatAll C u e (firstOnlyAll fs) → ∃ g ∈ ms, use g.attr = true ∧ ∃ a ∈ e.attrs, C.lower a.name = C.lower g.attr ∧ Hit C g.kind g.value g.tag a) ∧
      (∀ ends use, CoversAll ends use fs = true → CaseAgreesW C e (filterWordsAll fs) → (ends = true → EndsAgreeW C e (subEndsAll fs)) →
        SatAny C u e (firstOnlyAll fs) → ∃ g ∈ ms, use g.attr = true ∧ ∃ a ∈ e.attrs, C.lower a.name = C.lower g.attr ∧ Hit C g.kind g.value g.tag a)
  | [], ps, h, _ => by
    simp only [EncodesAll] at h
    subst h
    exact Or.inr ⟨[], rfl, rfl, by simp, by simp [CoversSome], by simp [firstOnlyAll, SatAny]⟩
  | f :: fs, ps, h, hs => by
    obtain ⟨q, qs, rfl, hq, hqs⟩ := h
    obtain ⟨s1, s2⟩ := hs
    rcases leaves_spec f q hq s1 with h1 | ⟨ms, h1, a1, a2, a3⟩
    · left; simp [leavesAll, h1]
    · rcases leavesAll_spec fs qs hqs s2 with h2 | ⟨ms', h2, b1, b2, b3, b4⟩
      · left; simp [leavesAll, h1, h2]
      · right
        have w1 : CaseAgreesW C e (filterWordsAll (f :: fs)) → CaseAgreesW C e (filterWords f) ∧ CaseAgreesW C e (filterWordsAll fs) :=
          fun h => ⟨fun w hw => h w (by simp [filterWordsAll, hw]), fun w hw => h w (by simp [filterWordsAll, hw])⟩
        have w2 : EndsAgreeW C e (subEndsAll (f :: fs)) → EndsAgreeW C e (subEnds f) ∧ EndsAgreeW C e (subEndsAll fs) :=
          fun h => ⟨fun w hw => h w (by simp [subEndsAll, hw]), fun w hw => h w (by simp [subEndsAll, hw])⟩
        refine ⟨ms ++ ms', by simp [leavesAll, h1, h2], by simp [comparisonsAll, a1, b1], ?_, ?_, ?_⟩
        · intro g hg
          rcases List.mem_append.1 hg with h | h
          · exact a2 g h
          · exact b2 g h
        · intro ends use hc hag hea hsat
          simp only [CoversSome, Bool.or_eq_true] at hc
          rcases hc with hc | hc
          · obtain ⟨g, hg, k⟩ := a3 ends use hc (w1 hag).1 (fun h => (w2 (hea h)).1) hsat.1
            exact ⟨g, by simp [hg], k⟩
          · obtain ⟨g, hg, k⟩ := b3 ends use hc (w1 hag).2 (fun h => (w2 (hea h)).2) hsat.2
            exact ⟨g, by simp [hg], k⟩
        · intro ends use hc hag hea hsat
          simp only [CoversAll, Bool.and_eq_true] at hc
          rcases hsat with hsat | hsat
          · obtain ⟨g, hg, k⟩ := a3 ends use hc.1 (w1 hag).1 (fun h => (w2 (hea h)).1) hsat
            exact ⟨g, by simp [hg], k⟩
          · obtain ⟨g, hg, k⟩ := b4 ends use hc.2 (w1 hag).2 (fun h => (w2 (hea h)).2) hsat
            exact ⟨g, by simp [hg], k⟩
end

end

mutual
/-- Nothing is looked up for filters with several components in a substring filter. -/
theorem leaves_several : (f : Filter) → (p : Packet) → Encodes f p → SeveralComponents f = true → ∀ ms, leaves p ≠ .ok ms
  | .and fs, .mk _ _ tag _ data kids, h, hs, ms => by
    obtain ⟨ht, hk⟩ := h
    simp only [Packet.tag] at ht
    subst ht
    simpa [leaves, filterEq, filterPresent, filterSub, filterAnd] using leavesAll_several fs kids hk hs ms
  | .or fs, .mk _ _ tag _ data kids, h, hs, ms => by
    obtain ⟨ht, hk⟩ := h
    simp only [Packet.tag] at ht
    subst ht
    simpa [leaves, filterEq, filterPresent, filterSub, filterAnd, filterOr] using leavesAll_several fs kids hk hs ms
  | .sub a i m f, .mk _ _ tag _ data kids, h, hs, ms => by
    obtain ⟨ht, x, s, hk, hx, hcs⟩ := h
    simp only [Packet.tag] at ht
    simp only [Packet.kids] at hk
    subst ht; subst hk
    have hl : s.kids.length > 1 := by
      simp only [SeveralComponents, decide_eq_true_eq] at hs
      rw [← hcs] at hs
      simpa using hs
    simp only [leaves, filterEq, filterPresent, filterSub, Packet.mustStr, hx, Res.ok_bind]
    match hk : s.kids, hl with
    | [], h => simp at h
    | [_], h => simp at h
    | _ :: _ :: _, _ => simp
  | .not _, _, _, hs, _ => by cases hs
  | .eq .., _, _, hs, _ => by cases hs
  | .present _, _, _, hs, _ => by cases hs
  | .cmp .., _, _, hs, _ => by cases hs
  | .ext .., _, _, hs, _ => by cases hs
theorem leavesAll_several : (fs : List Filter) → (ps : List Packet) → EncodesAll fs ps → SeveralSome fs = true → ∀ ms, leavesAll ps ≠ .ok ms
  | [], _, _, hs, _ => by cases hs
  | f :: fs, ps, h, hs, ms => by
    obtain ⟨q, qs, rfl, hq, hqs⟩ := h
    simp only [SeveralSome, Bool.or_eq_true] at hs
    rw [leavesAll]
    rcases hs with hs | hs
    · have := leaves_several f q hq hs
      cases hl : leaves q with
      | ok ms => exact absurd hl (this ms)
      | _ => simp
    · have := leavesAll_several fs qs hqs hs
      cases hl : leaves q with
      | ok ms =>
        cases hl' : leavesAll qs with
        | ok ms' => exact absurd hl' (this ms')
        | _ => simp
      | _ => simp
end
end Idm
