import Verif.Spec.Scope
import Verif.Proofs.Scope
/-!
# C30 search scope, C31 attribute selection
-/
namespace Idm

theorem rdnEqFold_iff {C : CaseEnv} (r s : RDN) : rdnEqFold C r s = true ↔ SameRdn C r s := by
  simp only [rdnEqFold, AVA.eqFold, SameRdn, SameAva, Bool.and_eq_true, beq_iff_eq, List.all_eq_true, List.any_eq_true, and_assoc]

theorem dnEqFold_iff {C : CaseEnv} (p q : DN) : dnEqFold C p q = true ↔ SameDn C p q := by
  induction p generalizing q with
  | nil => cases q <;> simp [dnEqFold, SameDn]
  | cons r p ih =>
    cases q with
    | nil => simp [dnEqFold, SameDn]
    | cons s q =>
      simp only [dnEqFold, Bool.and_eq_true, rdnEqFold_iff, ih, SameDn, List.length_cons, Nat.add_right_cancel_iff]
      constructor
      · rintro ⟨h1, h2, h3⟩
        refine ⟨h2, fun i a b ha hb => ?_⟩
        cases i with
        | zero => simp at ha hb; subst ha hb; exact h1
        | succ i => exact h3 i a b (by simpa using ha) (by simpa using hb)
      · rintro ⟨h2, h3⟩
        exact ⟨h3 0 r s rfl rfl, h2, fun i a b ha hb => h3 (i + 1) a b (by simpa using ha) (by simpa using hb)⟩

theorem takeWhile_comma {x y : Str} (h : chComma ∉ x) : (x ++ chComma :: y).takeWhile (· != chComma) = x := by
  induction x with
  | nil => simp
  | cons c x ih =>
    simp only [List.mem_cons, not_or] at h
    simp [Ne.symm h.1, ih h.2]

theorem takeWhile_noComma {x : Str} (h : chComma ∉ x) : x.takeWhile (· != chComma) = x := by
  induction x with
  | nil => simp
  | cons c x ih =>
    simp only [List.mem_cons, not_or] at h
    simp [Ne.symm h.1, ih h.2]

theorem dropWhile_comma {x y : Str} (h : chComma ∉ x) : (x ++ chComma :: y).dropWhile (· != chComma) = chComma :: y := by
  induction x with
  | nil => rfl
  | cons c x ih =>
    simp only [List.mem_cons, not_or] at h
    rw [List.cons_append, List.dropWhile_cons_of_pos (by simpa using Ne.symm h.1)]
    exact ih h.2

section
variable {C : CaseEnv}

/-- C30 for the scopes base object and single level, missing: subtree (not checked at all, see `C30_subtree_fails`), entries whose first
RDN contains an escaped comma (`C30_escaped_comma_fails`) or ends in a semicolon (`C30_semicolon_fails`), or is followed by a tab or the
like, and single-level searches at the root (`C30_root_fails`). -/
theorem C30_scope_partial (hC : C.Lawful) (baseText : Str) (base n : DN) (e : Entry) (scope : Nat) (hs : scope = 0 ∨ scope = 1)
    (hb : parseDN C baseText = some base) (he : parseDN C e.dn = some n) (hne : base ≠ []) (hp : PlainFirst e.dn) :
    ∃ keep, filterScope C baseText scope e = (keep, rcSuccess) ∧ (keep = true ↔ InScopeFold C scope base n) := by
  unfold filterScope
  simp only [hb, he]
  rcases hs with rfl | rfl
  · rw [if_pos rfl]
    refine ⟨dnEqFold C n base, by cases dnEqFold C n base <;> rfl, ?_⟩
    simp [dnEqFold_iff, InScopeFold]
  · rw [if_neg (by decide), if_pos rfl]
    cases ha : afterComma e.dn with
    | none =>
      have hx := afterComma_none ha
      have h2 := hp.1
      rw [takeWhile_noComma hx] at h2
      have hl := parse_noComma hC hx h2 he
      have hnot : ¬ InScopeFold C 1 base n := by
        rintro (⟨h, -⟩ | ⟨-, r, p, rfl, h⟩ | ⟨h, -⟩)
        · cases h
        · have h0 : p.length = base.length := h.1
          simp only [List.length_cons] at hl
          exact hne (List.length_eq_zero_iff.1 (by omega))
        · cases h
      refine ⟨false, ?_, by simp [hnot]⟩
      by_cases hd : dnEqFold C n base = true
      · have hnil : parseDN C [] = some [] := by
          simp [parseDN, parseDNRes, hC.trimSpace_ascii [] (by simp [IsAscii]), trimBy]
        simp only [hd, Option.isNone_none, Bool.not_true, Bool.and_false, Bool.false_eq_true, if_false, Option.getD_none, hnil]
        cases base with
        | nil => exact absurd rfl hne
        | cons => simp [dnEqFold]
      · simp [hd]
    | some y =>
      obtain ⟨x, hx, hcx⟩ := afterComma_some ha
      have h2 := hp.1
      have h3 := hp.2 (by rw [hx]; simp)
      rw [hx, takeWhile_comma hcx] at h2
      rw [hx, dropWhile_comma hcx, List.drop_one, List.tail_cons] at h3
      rw [hx] at he
      obtain ⟨r, rest, rfl, hy, -⟩ := parse_afterComma hC hcx h2 h3 he
      simp only [Option.isNone_some, Bool.false_and, Bool.false_eq_true, if_false, Option.getD_some, hy]
      refine ⟨dnEqFold C rest base, by cases dnEqFold C rest base <;> rfl, ?_⟩
      rw [dnEqFold_iff]
      constructor
      · intro h; exact Or.inr (Or.inl ⟨rfl, r, rest, rfl, h⟩)
      · rintro (⟨h, -⟩ | ⟨-, r', p, h1, h⟩ | ⟨h, -⟩)
        · cases h
        · cases h1; exact h
        · cases h

/-- C30 for the subtree scope, missing: that entries outside the subtree are dropped. -/
theorem C30_subtree_partial (baseText : Str) (base n : DN) (e : Entry) (hb : parseDN C baseText = some base)
    (he : parseDN C e.dn = some n) (_hin : InScopeFold C 2 base n) : filterScope C baseText 2 e = (true, rcSuccess) := by
  simp [filterScope, hb, he]

/-- C30: a base or an entry whose name cannot be parsed ends the search with an error. -/
theorem C30_bad_name (baseText : Str) (scope : Nat) (e : Entry) (h : parseDN C baseText = none ∨ parseDN C e.dn = none) :
    filterScope C baseText scope e = (false, rcOperationsError) := by
  unfold filterScope
  rcases h with h | h
  · simp [h]
  · cases hb : parseDN C baseText <;> simp [h]

/-- C31: the result keeps the name, and has exactly the requested attributes with their values. -/
theorem C31_selected (req : List Str) (e : Entry) (a : Attr) :
    (filterAttributes C req e).dn = e.dn ∧ (a ∈ (filterAttributes C req e).attrs ↔ a ∈ e.attrs ∧ Requested C req a.name) := by
  unfold filterAttributes
  by_cases h : (decide (req.length > 1) || (decide (req.length = 1) && req.head? ≠ some [])) = true
  · rw [if_pos h]
    refine ⟨rfl, ?_⟩
    have h1 : req ≠ [] := by rintro rfl; simp at h
    have h2 : req ≠ [[]] := by rintro rfl; simp at h
    simp only [selectAttrs, List.mem_flatMap, List.mem_map, List.mem_filter, Bool.or_eq_true, decide_eq_true_eq, Requested, h1, h2, false_or]
    constructor
    · rintro ⟨b, hb, r, ⟨hr, hm⟩, rfl⟩
      refine ⟨hb, ?_⟩
      rcases hm with rfl | hm
      · exact Or.inl hr
      · exact Or.inr ⟨r, hr, hm⟩
    · rintro ⟨ha, h | ⟨r, hr, hm⟩⟩
      · exact ⟨a, ha, _, ⟨h, Or.inl rfl⟩, rfl⟩
      · exact ⟨a, ha, r, ⟨hr, Or.inr hm⟩, rfl⟩
  · rw [if_neg h]
    refine ⟨rfl, ?_⟩
    have : req = [] ∨ req = [[]] := by
      match req with
      | [] => exact Or.inl rfl
      | [x] =>
        right
        simp at h
        rw [h]
      | x :: y :: t => simp at h
    rcases this with h | h <;> simp [Requested, h]

theorem filter_le_one {C : CaseEnv} (hC : C.Lawful) (name : Str) : ∀ req : List Str, (req.Pairwise fun r s => C.eqFold r s = false) →
    (req.filter fun r => C.eqFold name r) = [] ∨ ∃ r, (req.filter fun r => C.eqFold name r) = [r] := by
  intro req
  induction req with
  | nil => intro _; simp
  | cons r req ih =>
    intro h
    rw [List.pairwise_cons] at h
    by_cases hr : C.eqFold name r = true
    · right
      refine ⟨r, ?_⟩
      rw [List.filter_cons_of_pos hr]
      congr 1
      rw [List.filter_eq_nil_iff]
      intro s hs hn
      have := hC.eqFold_trans r name s (by rw [hC.eqFold_symm]; exact hr) hn
      rw [h.1 s hs] at this
      cases this
    · rw [List.filter_cons_of_neg hr]
      exact ih h.2

/-- C31, for every request list: the attributes sent are those of the entry, in its order, each as many times as the request list asks for it
(by name, or by `*`), and once each if the list is empty or is the list of one empty name. -/
theorem C31_times (req : List Str) (e : Entry) :
    (filterAttributes C req e).attrs =
      if req = [] ∨ req = [[]] then e.attrs
      else e.attrs.flatMap fun a => List.replicate (req.countP fun r => r = [42] ∨ C.eqFold a.name r = true) a := by
  unfold filterAttributes
  by_cases h : req = [] ∨ req = [[]]
  · rw [if_pos h, if_neg (by rcases h with rfl | rfl <;> simp)]
  · rw [if_neg h, if_pos]
    · simp only [selectAttrs, List.map_const', List.countP_eq_length_filter]
      congr 1
      funext a
      congr 2
      apply List.filter_congr
      intro r _
      rw [Bool.eq_iff_iff]
      simp [show b!"*" = [42] from rfl]
    · match req, h with
      | [], h => simp at h
      | [r], h => simpa using h
      | _ :: _ :: _, _ => simp

/-- an attribute asked for three times, and one asked for once -/
example : ((filterAttributes asciiCase [b!"MAIL", b!"*", b!"mail"] ⟨b!"uid=a", [⟨b!"uid", [b!"a"]⟩, ⟨b!"mail", [b!"x"]⟩]⟩).attrs.map (·.name)) =
    [b!"uid", b!"mail", b!"mail", b!"mail"] := by decide +kernel

open Classical in
/-- C31, missing: request lists that ask for an attribute more than once (see `C31_repeated_fails`). Each requested attribute occurs
once, in the order of the entry. -/
theorem C31_once_partial (hC : C.Lawful) (req : List Str) (e : Entry) (hr : NoRepeat C req) :
    (filterAttributes C req e).attrs = e.attrs.filter fun a => decide (Requested C req a.name) := by
  unfold filterAttributes
  by_cases h : (decide (req.length > 1) || (decide (req.length = 1) && req.head? ≠ some [])) = true
  · rw [if_pos h]
    have h1 : req ≠ [] := by rintro rfl; simp at h
    have h2 : req ≠ [[]] := by rintro rfl; simp at h
    simp only [selectAttrs]
    have key : ∀ a : Attr, ((req.filter fun r => decide (r = b!"*") || C.eqFold a.name r).map fun _ => a) =
        if Requested C req a.name then [a] else [] := by
      intro a
      rcases hr with rfl | ⟨hstar, hp⟩
      · simp [Requested]
      · have : (req.filter fun r => decide (r = b!"*") || C.eqFold a.name r) = req.filter fun r => C.eqFold a.name r := by
          apply List.filter_congr
          intro r hr
          have : r ≠ b!"*" := fun hh => hstar (hh ▸ hr)
          simp [this]
        rw [this]
        rcases filter_le_one hC a.name req hp with hf | ⟨r, hf⟩
        · rw [hf, if_neg]; rfl
          rintro (h | h | h | ⟨r, hr, hm⟩)
          · exact h1 h
          · exact h2 h
          · exact hstar h
          · have : r ∈ req.filter fun r => C.eqFold a.name r := List.mem_filter.2 ⟨hr, hm⟩
            rw [hf] at this
            simp at this
        · rw [hf, if_pos]; rfl
          have : r ∈ req.filter fun r => C.eqFold a.name r := by simp [hf]
          exact Or.inr (Or.inr (Or.inr ⟨r, List.mem_filter.1 this⟩))
    clear h
    induction e.attrs with
    | nil => rfl
    | cons a as ih =>
      rw [List.flatMap_cons, ih, key a]
      by_cases hq : Requested C req a.name
      · rw [if_pos hq, List.filter_cons_of_pos (by simpa using hq)]; rfl
      · rw [if_neg hq, List.filter_cons_of_neg (by simpa using hq)]; rfl
  · rw [if_neg h]
    have : req = [] ∨ req = [[]] := by
      match req with
      | [] => exact Or.inl rfl
      | [x] => right; simp at h; rw [h]
      | x :: y :: t => simp at h
    rw [List.filter_eq_self.2]
    intro a _
    rcases this with h | h <;> simp [Requested, h]

end

/-! ## Examples and counterexamples -/

def exScopeEntry : Entry := ⟨b!"uid=Ada, ou=people ,dc=ex", [⟨b!"uid", [b!"Ada"]⟩, ⟨b!"mail", [b!"a@x", b!"b@x"]⟩]⟩

/-- `C30_scope_partial` applies to a child with blanks around the separators. -/
example : ∃ base n, parseDN asciiCase b!"OU=People,DC=ex" = some base ∧ parseDN asciiCase exScopeEntry.dn = some n ∧ base ≠ [] ∧
    PlainFirst exScopeEntry.dn ∧ filterScope asciiCase b!"OU=People,DC=ex" 1 exScopeEntry = (true, rcSuccess) := by
  refine ⟨[[⟨b!"OU", b!"People"⟩], [⟨b!"DC", b!"ex"⟩]], [[⟨b!"uid", b!"Ada"⟩], [⟨b!"ou", b!"people"⟩], [⟨b!"dc", b!"ex"⟩]], ?_⟩
  decide +kernel

/-- C30 fails for subtree: an entry that is not below the base is kept. -/
theorem C30_subtree_fails : ∃ baseText base e n, parseDN asciiCase baseText = some base ∧ parseDN asciiCase e.dn = some n ∧
    filterScope asciiCase baseText 2 e = (true, rcSuccess) ∧ ¬ InScopeFold asciiCase 2 base n := by
  refine ⟨b!"dc=a", [[⟨b!"dc", b!"a"⟩]], ⟨b!"dc=b", []⟩, [[⟨b!"dc", b!"b"⟩]], by decide +kernel, by decide +kernel, by decide +kernel, ?_⟩
  rintro (⟨h, -⟩ | ⟨h, -⟩ | ⟨-, q, p, h1, h⟩)
  · cases h
  · cases h
  · have hl : p.length = 1 := h.1
    obtain ⟨r, rfl⟩ := List.length_eq_one_iff.1 hl
    have hq : q = [] := by
      have := congrArg List.length h1
      simp at this
      exact this
    subst hq
    simp only [List.nil_append, List.cons.injEq, and_true] at h1
    subst h1
    have h2 := h.2 0 _ _ rfl rfl
    obtain ⟨b, hb, -, hv⟩ := h2.2.1 _ List.mem_cons_self
    simp only [List.mem_singleton] at hb
    subst hb
    exact absurd hv (by decide +kernel)

/-- C30 fails for names with an escaped comma: a direct child is answered with an error (it ends the whole search). -/
theorem C30_escaped_comma_fails : ∃ baseText base e n, parseDN asciiCase baseText = some base ∧ parseDN asciiCase e.dn = some n ∧
    filterScope asciiCase baseText 1 e = (false, rcOperationsError) ∧ InScopeFold asciiCase 1 base n := by
  refine ⟨b!"dc=a", [[⟨b!"dc", b!"a"⟩]], ⟨b!"cn=x\\,y,dc=a", []⟩, [[⟨b!"cn", b!"x,y"⟩], [⟨b!"dc", b!"a"⟩]], by decide +kernel,
    by decide +kernel, by decide +kernel, Or.inr (Or.inl ⟨rfl, _, _, rfl, ?_⟩)⟩
  exact (dnEqFold_iff _ _).1 (by decide +kernel)

/-- C30 fails for names with a semicolon as separator: what follows the first comma is then not the parent. A direct child is dropped. -/
theorem C30_semicolon_fails : ∃ baseText base e n, parseDN asciiCase baseText = some base ∧ parseDN asciiCase e.dn = some n ∧
    filterScope asciiCase baseText 1 e = (false, rcSuccess) ∧ InScopeFold asciiCase 1 base n := by
  refine ⟨b!"ou=b,dc=a", [[⟨b!"ou", b!"b"⟩], [⟨b!"dc", b!"a"⟩]], ⟨b!"cn=x;ou=b,dc=a", []⟩, [[⟨b!"cn", b!"x"⟩], [⟨b!"ou", b!"b"⟩], [⟨b!"dc", b!"a"⟩]],
    by decide +kernel, by decide +kernel, by decide +kernel, Or.inr (Or.inl ⟨rfl, _, _, rfl, ?_⟩)⟩
  exact (dnEqFold_iff _ _).1 (by decide +kernel)

/-- `C30_scope_partial` applies to names with escapes and bytes outside ASCII. -/
example : PlainFirst b!"cn=J\xc3\xb6rg \\+ \\; \\\\, ou=\xc3\xa4\\,b,dc=a" ∧ (parseDN asciiCase b!"cn=J\xc3\xb6rg \\+ \\; \\\\, ou=\xc3\xa4\\,b,dc=a").isSome = true := by
  decide +kernel

/-- C30 fails at the root: the one-component entry below the root is dropped. -/
theorem C30_root_fails : ∃ e n, parseDN asciiCase [] = some [] ∧ parseDN asciiCase e.dn = some n ∧
    filterScope asciiCase [] 1 e = (false, rcSuccess) ∧ InScopeFold asciiCase 1 [] n := by
  refine ⟨⟨b!"dc=a", []⟩, [[⟨b!"dc", b!"a"⟩]], by decide +kernel, by decide +kernel, by decide +kernel, Or.inr (Or.inl ⟨rfl, _, _, rfl, ?_⟩)⟩
  exact (dnEqFold_iff _ _).1 (by decide +kernel)

/-- `C31_once_partial` applies to a request for one of two attributes in other case. -/
example : NoRepeat asciiCase [b!"MAIL", b!"sn"] ∧ (filterAttributes asciiCase [b!"MAIL", b!"sn"] exScopeEntry).attrs = [⟨b!"mail", [b!"a@x", b!"b@x"]⟩] := by
  decide +kernel

/-- C31 fails when an attribute is asked for twice: it is sent twice. -/
theorem C31_repeated_fails :
    (filterAttributes asciiCase [b!"*", b!"mail"] exScopeEntry).attrs =
      [⟨b!"uid", [b!"Ada"]⟩, ⟨b!"mail", [b!"a@x", b!"b@x"]⟩, ⟨b!"mail", [b!"a@x", b!"b@x"]⟩] := by
  decide +kernel

end Idm
