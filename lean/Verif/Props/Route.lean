import Verif.Model.Server
/-!
# C35: which handler gets a request
-/
namespace Idm

/-- `s` is a suffix of the DN text that begins at a component: it is the whole text, or what follows a comma. -/
def AtComponent (s dn : Str) : Prop := s = dn ∨ ∃ p, dn = p ++ chComma :: s

theorem AtComponent.suffix {s dn : Str} (h : AtComponent s dn) : s <:+ dn := by
  rcases h with rfl | ⟨p, rfl⟩
  · exact List.suffix_refl _
  · exact ⟨p ++ [chComma], by simp⟩

theorem hasSuffix_iff {s t : Str} : hasSuffix s t = true ↔ t <:+ s := by
  simp [hasSuffix]

theorem splitLen_lt {f g dn : Str} (hf : AtComponent f dn) (hg : g <:+ dn) (hl : f.length < g.length) : splitLen f < splitLen g := by
  rcases hf with rfl | ⟨p, rfl⟩
  · exact absurd hg.length_le (by omega)
  · have : chComma :: f <:+ g := List.suffix_of_suffix_length_le ⟨p, rfl⟩ hg (by simp; omega)
    obtain ⟨q, rfl⟩ := this
    simp [splitLen, List.count_append, List.count_cons]
    omega

/-- What holds of the best suffix found so far. -/
def Best (dn best : Str) (seen : List Str) : Prop :=
  (best = [] ∨ best ∈ seen ∧ best <:+ dn) ∧ ∀ fn ∈ seen, fn <:+ dn → fn.length ≤ best.length

theorem routeLoop_best (dn : Str) : ∀ (fns seen : List Str) (best : Str), (∀ fn ∈ seen ++ fns, fn ≠ [] → fn <:+ dn → AtComponent fn dn) →
    Best dn best seen → Best dn (routeLoop dn best fns) (seen ++ fns)
  | [], seen, best, _, h => by simpa [routeLoop] using h
  | fn :: fns, seen, best, hb, h => by
    have e : seen ++ fn :: fns = (seen ++ [fn]) ++ fns := by simp
    rw [e] at hb ⊢
    rw [routeLoop]
    split
    · rename_i hs
      rw [hasSuffix_iff] at hs
      apply routeLoop_best dn fns (seen ++ [fn]) _ hb
      by_cases hbest : best = []
      · subst hbest
        rw [if_pos rfl, if_pos (by simp [splitLen])]
        refine ⟨Or.inr ⟨by simp, hs⟩, fun g hg hgs => ?_⟩
        rcases List.mem_append.1 hg with hg | hg
        · have := h.2 g hg hgs
          simp only [List.length_nil, Nat.le_zero_eq] at this
          omega
        · simp only [List.mem_singleton] at hg; subst hg; omega
      · obtain ⟨h1, h2⟩ := h
        have h1 := h1.resolve_left hbest
        rw [if_neg hbest]
        split
        · rename_i hgt
          have hle : best.length ≤ fn.length := by
            apply Nat.le_of_not_lt
            intro hlt
            by_cases hfn : fn = []
            · subst hfn; simp [splitLen] at hgt
            · have := splitLen_lt (hb fn (by simp) hfn hs) h1.2 hlt
              omega
          refine ⟨Or.inr ⟨by simp, hs⟩, fun g hg hgs => ?_⟩
          rcases List.mem_append.1 hg with hg | hg
          · exact Nat.le_trans (h2 g hg hgs) hle
          · simp only [List.mem_singleton] at hg; subst hg; omega
        · rename_i hgt
          refine ⟨Or.inr ⟨by simp [h1.1], h1.2⟩, fun g hg hgs => ?_⟩
          rcases List.mem_append.1 hg with hg | hg
          · exact h2 g hg hgs
          · simp only [List.mem_singleton] at hg
            subst hg
            apply Nat.le_of_not_lt
            intro hlt
            exact hgt (splitLen_lt (hb best (by simp [h1.1]) hbest h1.2) hs hlt)
    · rename_i hs
      rw [hasSuffix_iff] at hs
      apply routeLoop_best dn fns (seen ++ [fn]) _ hb
      refine ⟨?_, fun g hg hgs => ?_⟩
      · rcases h.1 with h1 | h1
        · exact Or.inl h1
        · exact Or.inr ⟨by simp [h1.1], h1.2⟩
      · rcases List.mem_append.1 hg with hg | hg
        · exact h.2 g hg hgs
        · simp only [List.mem_singleton] at hg; subst hg; exact absurd hgs hs

/-- C35: if every registered suffix that matches the DN text begins at a component of it, then the suffix chosen is the longest
one that matches, or the empty one (the catch-all handler) if no other matches. (Missing: suffixes that match in the middle of a
component, see `C35_tie_fails` and `C35_middle_fails`.) -/
theorem C35_longest_partial (dn : Str) (fns : List Str) (hb : ∀ fn ∈ fns, fn ≠ [] → fn <:+ dn → AtComponent fn dn) (r : Str) :
    routeFunc dn fns = r ↔
      (r = [] ∨ r ∈ fns ∧ r <:+ dn) ∧ ∀ fn ∈ fns, fn <:+ dn → fn.length ≤ r.length := by
  have h := routeLoop_best dn fns [] [] (by simpa using hb) ⟨Or.inl rfl, by simp⟩
  simp only [List.nil_append] at h
  constructor
  · rintro rfl
    exact h
  · rintro ⟨h1, h2⟩
    have a : (routeFunc dn fns).length ≤ r.length := by
      rcases h.1 with e | e
      · rw [routeFunc, e]; simp
      · exact h2 _ e.1 e.2
    have b : r.length ≤ (routeFunc dn fns).length := by
      rcases h1 with e | e
      · rw [e]; simp
      · exact h.2 _ e.1 e.2
    have s1 : r <:+ dn := by
      rcases h1 with e | e
      · rw [e]; exact List.nil_suffix
      · exact e.2
    have s2 : routeFunc dn fns <:+ dn := by
      rcases h.1 with e | e
      · rw [routeFunc, e]; exact List.nil_suffix
      · exact e.2
    exact (List.suffix_of_suffix_length_le s2 s1 a).eq_of_length (by omega)

/-- C35, for every DN text and all registered suffixes: the catch-all handler is used exactly if no other suffix matches, and otherwise the
first one, in the order in which the map is gone through, among those that match and have the most commas. So suffixes that match in the
middle of a component are told apart by their commas only, and a tie goes to whichever comes first. -/
theorem C35_most_commas (dn : Str) (fns : List Str) :
    (routeFunc dn fns = [] ∧ ∀ fn ∈ fns, fn ≠ [] → ¬ fn <:+ dn) ∨
    (routeFunc dn fns ≠ [] ∧ routeFunc dn fns <:+ dn ∧ ∃ before rest, fns = before ++ routeFunc dn fns :: rest ∧
      (∀ fn ∈ before, fn ≠ [] → fn <:+ dn → fn.count 44 < (routeFunc dn fns).count 44) ∧
      (∀ fn ∈ rest, fn ≠ [] → fn <:+ dn → fn.count 44 ≤ (routeFunc dn fns).count 44)) := by
  have main : ∀ (fns seen : List Str) (best : Str),
      ((best = [] ∧ ∀ fn ∈ seen, fn ≠ [] → ¬ fn <:+ dn) ∨
        (best ≠ [] ∧ best <:+ dn ∧ ∃ before rest, seen = before ++ best :: rest ∧
          (∀ fn ∈ before, fn ≠ [] → fn <:+ dn → fn.count 44 < best.count 44) ∧
          (∀ fn ∈ rest, fn ≠ [] → fn <:+ dn → fn.count 44 ≤ best.count 44))) →
      ((routeLoop dn best fns = [] ∧ ∀ fn ∈ seen ++ fns, fn ≠ [] → ¬ fn <:+ dn) ∨
        (routeLoop dn best fns ≠ [] ∧ routeLoop dn best fns <:+ dn ∧ ∃ before rest, seen ++ fns = before ++ routeLoop dn best fns :: rest ∧
          (∀ fn ∈ before, fn ≠ [] → fn <:+ dn → fn.count 44 < (routeLoop dn best fns).count 44) ∧
          (∀ fn ∈ rest, fn ≠ [] → fn <:+ dn → fn.count 44 ≤ (routeLoop dn best fns).count 44))) := by
    intro fns
    induction fns with
    | nil => intro seen best h; simpa [routeLoop] using h
    | cons fn fns ih =>
      intro seen best h
      have e : seen ++ fn :: fns = (seen ++ [fn]) ++ fns := by simp
      rw [e, routeLoop]
      by_cases hs : hasSuffix dn fn = true
      · rw [if_pos hs]
        rw [hasSuffix_iff] at hs
        apply ih
        rcases h with ⟨rfl, h⟩ | ⟨hb, hd, before, rest, rfl, h1, h2⟩
        · rw [if_pos rfl, if_pos (by simp [splitLen])]
          by_cases hf : fn = []
          · left
            refine ⟨hf, fun g hg hg0 => ?_⟩
            rcases List.mem_append.1 hg with hg | hg
            · exact h g hg hg0
            · simp only [List.mem_singleton] at hg; exact absurd (hg.trans hf) hg0
          · right
            exact ⟨hf, hs, seen, [], rfl, fun g hg hg0 hgs => absurd hgs (h g hg hg0), by simp⟩
        · rw [if_neg hb]
          right
          by_cases hgt : splitLen fn > splitLen best
          · rw [if_pos hgt]
            have hlt : best.count 44 < fn.count 44 := by simpa [splitLen, chComma] using hgt
            refine ⟨?_, hs, before ++ best :: rest, [], by simp, ?_, by simp⟩
            · rintro rfl; simp at hlt
            · intro g hg hg0 hgs
              rcases List.mem_append.1 hg with hg | hg
              · exact Nat.lt_trans (h1 g hg hg0 hgs) hlt
              · rcases List.mem_cons.1 hg with rfl | hg
                · exact hlt
                · exact Nat.lt_of_le_of_lt (h2 g hg hg0 hgs) hlt
          · rw [if_neg hgt]
            have hle : fn.count 44 ≤ best.count 44 := by simpa [splitLen, chComma] using hgt
            refine ⟨hb, hd, before, rest ++ [fn], by simp, h1, ?_⟩
            intro g hg hg0 hgs
            rcases List.mem_append.1 hg with hg | hg
            · exact h2 g hg hg0 hgs
            · simp only [List.mem_singleton] at hg; subst hg; exact hle
      · rw [if_neg hs]
        rw [hasSuffix_iff] at hs
        apply ih
        rcases h with ⟨hb, h⟩ | ⟨hb, hd, before, rest, rfl, h1, h2⟩
        · left
          refine ⟨hb, fun g hg hg0 => ?_⟩
          rcases List.mem_append.1 hg with hg | hg
          · exact h g hg hg0
          · simp only [List.mem_singleton] at hg; subst hg; exact hs
        · right
          refine ⟨hb, hd, before, rest ++ [fn], by simp, h1, ?_⟩
          intro g hg hg0 hgs
          rcases List.mem_append.1 hg with hg | hg
          · exact h2 g hg hg0 hgs
          · simp only [List.mem_singleton] at hg; subst hg; exact absurd hgs hs
  have := main fns [] [] (.inl ⟨rfl, by simp⟩)
  simp only [List.nil_append] at this
  exact this

/-- two suffixes that match with the same number of commas, one in the middle of a component: the first is chosen, in either order -/
example : routeFunc b!"cn=a,o=org" [b!"", b!"rg", b!"o=org", b!"dc=x,dc=y"] = b!"rg" ∧
    routeFunc b!"cn=a,o=org" [b!"", b!"o=org", b!"rg", b!"dc=x,dc=y"] = b!"o=org" := by decide +kernel

/-- C35: the choice does not depend on the order in which the map of handlers is gone through. -/
theorem C35_any_order_partial {α : Type} (dn : Str) (fns fns' : List (Str × α)) (hp : fns.Perm fns') (hnd : (fns.map (·.1)).Nodup)
    (hb : ∀ fn ∈ fns.map (·.1), fn ≠ [] → fn <:+ dn → AtComponent fn dn) : pick fns dn = pick fns' dn := by
  have hk := hp.map (·.1)
  have h1 := (C35_longest_partial dn (fns.map (·.1)) hb _).1 rfl
  have h2 : routeFunc dn (fns'.map (·.1)) = routeFunc dn (fns.map (·.1)) := by
    rw [C35_longest_partial dn (fns'.map (·.1)) fun fn hf => hb fn (hk.mem_iff.2 hf)]
    exact ⟨h1.1.imp id fun h => ⟨hk.mem_iff.1 h.1, h.2⟩, fun fn hf => h1.2 fn (hk.mem_iff.2 hf)⟩
  unfold pick fnAt
  rw [h2]
  generalize routeFunc dn (fns.map (·.1)) = k
  congr 1
  have key : ∀ (l : List (Str × α)), (l.map (·.1)).Nodup → ∀ p, l.find? (fun p => decide (p.1 = k)) = some p ↔ p ∈ l ∧ p.1 = k := by
    intro l hl p
    induction l with
    | nil => simp
    | cons a l ih =>
      simp only [List.map_cons, List.nodup_cons] at hl
      rw [List.find?_cons]
      by_cases ha : a.1 = k
      · simp only [ha, decide_true, Option.some.injEq, List.mem_cons]
        constructor
        · rintro rfl; exact ⟨Or.inl rfl, ha⟩
        · rintro ⟨rfl | hm, hk⟩
          · rfl
          · exact absurd (List.mem_map.2 ⟨p, hm, by rw [hk, ha]⟩) hl.1
      · simp only [ha, decide_false]
        rw [ih hl.2]
        constructor
        · rintro ⟨h, h'⟩; exact ⟨by simp [h], h'⟩
        · rintro ⟨h, h'⟩
          rcases List.mem_cons.1 h with rfl | h
          · exact absurd h' ha
          · exact ⟨h, h'⟩
  apply Option.ext
  intro p
  rw [key fns hnd, key fns' ((hk.nodup_iff).1 hnd), hp.mem_iff]

/-- hypotheses of both -/
example : let fns : List (Str × Nat) := [([], 0), (b!"dc=com", 1), (b!"ou=x,dc=com", 2), (b!"dc=org", 3)]
    (∀ fn ∈ fns.map (·.1), fn ≠ [] → fn <:+ b!"uid=a,ou=x,dc=com" → AtComponent fn b!"uid=a,ou=x,dc=com") ∧
    (fns.map (·.1)).Nodup ∧ pick fns b!"uid=a,ou=x,dc=com" = some 2 ∧ pick fns b!"ou=y,dc=com" = some 1 ∧
    pick fns b!"dc=net" = some 0 := by
  refine ⟨?_, by decide +kernel⟩
  intro fn hf _ hs
  simp only [List.map_cons, List.map_nil, List.mem_cons, List.not_mem_nil, or_false] at hf
  rcases hf with rfl | rfl | rfl | rfl
  · contradiction
  · exact Or.inr ⟨b!"uid=a,ou=x", rfl⟩
  · exact Or.inr ⟨b!"uid=a", rfl⟩
  · exact absurd (hasSuffix_iff.2 hs) (by decide +kernel)

/-- C35 fails in general: suffixes are compared as text and only commas are counted, so the handlers for "c=com" and "dc=com" both match
"dc=com" equally well, and the order of the map decides. -/
theorem C35_tie_fails : ∃ (dn : Str) (fns fns' : List (Str × Nat)), fns.Perm fns' ∧ (fns.map (·.1)).Nodup ∧ pick fns dn ≠ pick fns' dn :=
  ⟨b!"uid=a,dc=com", [(b!"c=com", 1), (b!"dc=com", 2)], [(b!"dc=com", 2), (b!"c=com", 1)], List.Perm.swap _ _ _, by decide +kernel,
    by decide +kernel⟩

/-- C35 fails: a handler gets requests for names that are not below its suffix if the text matches in the middle of a component. -/
theorem C35_middle_fails : ∃ (dn : Str) (fns : List (Str × Nat)), pick fns dn = some 1 ∧ fns = [([], 0), (b!"c=com", 1)] ∧
    parseDN asciiCase dn = some [[⟨b!"uid", b!"a"⟩], [⟨b!"dc", b!"com"⟩]] :=
  ⟨b!"uid=a,dc=com", _, by decide +kernel, rfl, by decide +kernel⟩

/-- C35 fails: the text of the DN is compared with upper and lower case distinct, so a name written in another case is not routed to the
handler of its suffix. -/
theorem C35_case_fails : ∃ (dn : Str) (fns : List (Str × Nat)), pick fns dn = some 0 ∧ fns = [([], 0), (b!"dc=com", 1)] ∧
    parseNormalize asciiCase dn = some b!"uid=a,dc=com" :=
  ⟨b!"uid=a,DC=com", _, by decide +kernel, rfl, by decide +kernel⟩

end Idm
