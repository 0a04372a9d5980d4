import Verif.Props.NewUsers
import Verif.Props.Template
import Verif.Proofs.DN
import Verif.Proofs.LdifFormat
import Verif.Props.Space
/-!
# C75: the text newusers prints
-/
namespace Idm

/-! ## Numbers -/

theorem digitsVal_snoc (s : Str) (c : UInt8) : digitsVal (s ++ [c]) = digitsVal s * 10 + (c.toNat - 48) := by
  simp [digitsVal]

theorem digit_toNat {k : Nat} (h : k < 10) : (UInt8.ofNat (48 + k)).toNat = 48 + k := by
  rw [UInt8.toNat_ofNat']
  omega

theorem natTextGo_spec : ∀ (fuel n : Nat), n < 10 ^ fuel → 0 < fuel → digitsVal (natTextGo fuel n) = n ∧
    (natTextGo fuel n).all isDigitByte = true ∧ natTextGo fuel n ≠ [] := by
  intro fuel
  induction fuel with
  | zero => intro n _ h; omega
  | succ fuel ih =>
    intro n hn _
    have dig : ∀ k, k < 10 → isDigitByte (UInt8.ofNat (48 + k)) = true := by
      intro k hk
      have := digit_toNat hk
      simp only [isDigitByte, Bool.and_eq_true, decide_eq_true_eq, UInt8.le_iff_toNat_le, this]
      constructor
      · show 48 ≤ _; omega
      · show _ ≤ 57; omega
    rw [natTextGo]
    by_cases h : n < 10
    · rw [if_pos h]
      refine ⟨?_, ?_, by simp⟩
      · simp only [digitsVal, List.foldl_cons, List.foldl_nil, digit_toNat h]; omega
      · simp only [List.all_cons, List.all_nil, dig n h, Bool.and_self]
    · rw [if_neg h]
      have hf : 0 < fuel := by
        cases fuel with
        | zero => simp at hn; omega
        | succ f => omega
      have hlt : n / 10 < 10 ^ fuel := by
        rw [Nat.div_lt_iff_lt_mul (by omega)]
        rw [Nat.pow_succ] at hn
        exact hn
      obtain ⟨h1, h2, h3⟩ := ih (n / 10) hlt hf
      have hm : n % 10 < 10 := Nat.mod_lt _ (by omega)
      refine ⟨?_, ?_, by simp⟩
      · rw [digitsVal_snoc, h1, digit_toNat hm]; omega
      · rw [List.all_append, h2]; simp only [List.all_cons, List.all_nil, dig _ hm, Bool.and_self]

theorem natText_head {n : Nat} (h : n < 10 ^ 20) : ∃ c cs, natText n = c :: cs ∧ isDigitByte c = true := by
  obtain ⟨-, h2, h3⟩ := natTextGo_spec 20 n h (by omega)
  cases hs : natText n with
  | nil => exact absurd hs h3
  | cons c cs =>
    refine ⟨c, cs, rfl, ?_⟩
    have : (natText n).all isDigitByte = true := h2
    rw [hs] at this
    simp at this
    exact this.1

/-- A number printed is read as that number. -/
theorem parse_intText {n : Int} (h1 : -(2 ^ 63) ≤ n) (h2 : n < 2 ^ 63) : parseInt64 (intText n) = some n := by
  have hn : n.natAbs < 10 ^ 20 := by omega
  obtain ⟨d1, d2, d3⟩ := natTextGo_spec 20 n.natAbs hn (by omega)
  change digitsVal (natText n.natAbs) = _ at d1
  change (natText n.natAbs).all isDigitByte = true at d2
  change natText n.natAbs ≠ [] at d3
  obtain ⟨c, cs, hc, hd⟩ := natText_head hn
  unfold intText parseInt64
  by_cases hneg : n < 0
  · rw [if_pos hneg]
    have e1 : hasPrefix (chMinus :: natText n.natAbs) b!"-" = true := by simp [hasPrefix, chMinus]
    simp only [e1, Bool.true_or, if_true, List.drop_succ_cons, List.drop_zero, d1, d2, d3]
    simp
    omega
  · rw [if_neg hneg]
    have hc1 : c ≠ 45 := by rintro rfl; revert hd; decide
    have hc2 : c ≠ 43 := by rintro rfl; revert hd; decide
    have e1 : hasPrefix (natText n.natAbs) b!"-" = false := by
      rw [hc]; simp [hasPrefix, List.isPrefixOf, Ne.symm hc1]
    have e2 : hasPrefix (natText n.natAbs) b!"+" = false := by
      rw [hc]; simp [hasPrefix, List.isPrefixOf, Ne.symm hc2]
    simp only [e1, e2, Bool.or_self, Bool.false_eq_true, if_false, d1, d2, d3]
    simp
    omega

theorem digitsVal_decVal (ds : Str) : digitsVal ds = decVal ds := by
  have : ∀ (ds : Str) (k : Nat), ds.foldl (fun n c => n * 10 + (c.toNat - 48)) k = k * 10 ^ ds.length + decVal ds := by
    intro ds
    induction ds with
    | nil => intro k; simp [decVal]
    | cons d ds ih =>
      intro k
      rw [List.foldl_cons, ih, decVal, List.length_cons, Nat.pow_succ, Nat.add_mul, Nat.mul_assoc, Nat.mul_comm 10]
      omega
  rw [digitsVal, this]
  simp

theorem all_digits {ds : Str} : ds.all isDigitByte = true ↔ ∀ c ∈ ds, 48 ≤ c ∧ c ≤ 57 := by
  simp [List.all_eq_true, isDigitByte]

/-- C66: the numbers newusers reads are exactly the decimal numbers that fit into 64 bits. -/
theorem C66_number_read (s : Str) (n : Int) : parseInt64 s = some n ↔ IsDecimal s n ∧ -(2 ^ 63) ≤ n ∧ n < 2 ^ 63 := by
  have fin : ∀ (neg : Bool) (ds : Str), (if ds = [] ∨ ds.all isDigitByte = false then none
      else if neg then (if digitsVal ds ≤ 2 ^ 63 then some (-(digitsVal ds : Int)) else none)
      else if digitsVal ds < 2 ^ 63 then some (digitsVal ds : Int) else none) = some n ↔
      ds ≠ [] ∧ (∀ c ∈ ds, 48 ≤ c ∧ c ≤ 57) ∧ (n = if neg then -(decVal ds : Int) else decVal ds) ∧ -(2 ^ 63) ≤ n ∧ n < 2 ^ 63 := by
    intro neg ds
    rw [digitsVal_decVal, ← all_digits]
    by_cases h1 : ds = []
    · simp [h1]
    · cases h2 : ds.all isDigitByte with
      | false => simp
      | true =>
        have hc : ¬ (ds = [] ∨ true = false) := by simp [h1]
        rw [if_neg hc]
        cases neg with
        | true =>
          simp only [if_true]
          by_cases h3 : decVal ds ≤ 2 ^ 63
          · rw [if_pos h3, Option.some.injEq]
            constructor
            · rintro rfl; exact ⟨h1, trivial, rfl, by omega, by omega⟩
            · rintro ⟨-, -, rfl, -⟩; rfl
          · rw [if_neg h3]
            constructor
            · intro h; cases h
            · rintro ⟨-, -, rfl, h4, -⟩; omega
        | false =>
          simp only [Bool.false_eq_true, if_false]
          by_cases h3 : decVal ds < 2 ^ 63
          · rw [if_pos h3, Option.some.injEq]
            constructor
            · rintro rfl; exact ⟨h1, trivial, rfl, by omega, by omega⟩
            · rintro ⟨-, -, rfl, -⟩; rfl
          · rw [if_neg h3]
            constructor
            · intro h; cases h
            · rintro ⟨-, -, rfl, -, h4⟩; omega
  have pre : ∀ (c : UInt8) (cs : Str) (d : UInt8), hasPrefix (c :: cs) [d] = decide (c = d) := by
    intro c cs d
    by_cases h : c = d
    · simp [hasPrefix, List.isPrefixOf, h]
    · simp [hasPrefix, List.isPrefixOf, h, Ne.symm h]
  cases s with
  | nil =>
    constructor
    · intro h; cases h
    · rintro ⟨⟨ds, h1, -, ⟨h, -⟩ | ⟨h, -⟩ | ⟨h, -⟩⟩, -⟩
      · exact absurd h.symm h1
      · cases h
      · cases h
  | cons c cs =>
    have e0 : parseInt64 (c :: cs) = some n ↔ _ := fin (hasPrefix (c :: cs) b!"-") (if hasPrefix (c :: cs) b!"-" || hasPrefix (c :: cs) b!"+" then (c :: cs).drop 1 else c :: cs)
    have m45 : (b!"-" : Str) = [45] := by decide
    have m43 : (b!"+" : Str) = [43] := by decide
    rw [m45, m43, pre, pre] at e0
    have e : parseInt64 (c :: cs) = some n ↔ _ := e0
    simp only [Bool.or_eq_true, decide_eq_true_eq, List.drop_succ_cons, List.drop_zero] at e
    · rw [e]
      clear e e0
      by_cases h1 : c = 45
      · subst h1
        simp only [true_or, if_true]
        constructor
        · rintro ⟨h2, h3, h4, h5⟩; exact ⟨⟨cs, h2, h3, .inr (.inr ⟨rfl, h4⟩)⟩, h5⟩
        · rintro ⟨⟨ds, h2, h3, ⟨h, h4⟩ | ⟨h, h4⟩ | ⟨h, h4⟩⟩, h5⟩
          · exact absurd (h3 45 (by rw [← h]; simp)).1 (by decide)
          · cases h
          · cases h; exact ⟨h2, h3, h4, h5⟩
      · by_cases h2 : c = 43
        · subst h2
          have : ¬ ((43 : UInt8) = 45) := by decide
          simp only [this, or_true, if_true, if_false]
          constructor
          · rintro ⟨h2, h3, h4, h5⟩; exact ⟨⟨cs, h2, h3, .inr (.inl ⟨rfl, h4⟩)⟩, h5⟩
          · rintro ⟨⟨ds, h2, h3, ⟨h, h4⟩ | ⟨h, h4⟩ | ⟨h, h4⟩⟩, h5⟩
            · exact absurd (h3 43 (by rw [← h]; simp)).1 (by decide)
            · cases h; exact ⟨h2, h3, h4, h5⟩
            · cases h
        · simp only [h1, h2, or_self, if_false]
          constructor
          · rintro ⟨h2, h3, h4, h5⟩; exact ⟨⟨c :: cs, h2, h3, .inl ⟨rfl, h4⟩⟩, h5⟩
          · rintro ⟨⟨ds, h3, h4, ⟨h, h5⟩ | ⟨h, h5⟩ | ⟨h, h5⟩⟩, h6⟩
            · subst h; exact ⟨h3, h4, h5, h6⟩
            · cases h; exact absurd rfl h2
            · cases h; exact absurd rfl h1

example : IsDecimal b!"-9223372036854775808" (-(2 ^ 63)) :=
  ⟨b!"9223372036854775808", by decide +kernel, by decide +kernel, .inr (.inr (by decide +kernel))⟩

/-! ## Lines -/

/-- The line of an attribute. -/
def attrLine (p : Str × Str) : Str := p.1 ++ b!": " ++ p.2

/-- The lines printed for a user. -/
def userLines (r : UserRec) : List Str :=
  (b!"# " ++ natText r.line ++ b!": " ++ trimSpace r.name) :: (r.attrs newUsersBase).map attrLine

theorem joinWith_nl_cons (p : Str) (ps : List Str) : joinWith 10 (p :: ps) = p ++ ps.flatMap fun q => 10 :: q := by
  induction ps generalizing p with
  | nil => simp [joinWith]
  | cons q qs ih => rw [joinWith_cons_ne p (by simp), ih]; simp

set_option maxRecDepth 8000 in
theorem printUser_lines (r : UserRec) : printUser r = joinWith 10 (userLines r) ++ [10, 10] := by
  unfold printUser userTemplate userLines UserRec.attrs
  rw [joinWith_nl_cons]
  cases r.gidNumber <;> cases r.userPassword <;> cases r.givenName <;> cases r.sn <;>
    simp [withText, attrLine, List.flatMap_map, List.append_assoc, Function.comp_def]

theorem recordsFrom_full : ∀ (ls cur : List Str), (∀ l ∈ ls, l ≠ []) → cur ++ ls ≠ [] → recordsFrom cur ls = [cur ++ ls] := by
  intro ls
  induction ls with
  | nil => intro cur _ h; simp at h; simp [recordsFrom, h]
  | cons l ls ih =>
    intro cur h _
    rw [recordsFrom, if_neg (h l (by simp)), ih _ (fun x hx => h x (by simp [hx])) (by simp)]
    simp

theorem readValue_plain {v : Str} (h : plainValue v) : readValue v = v := by
  obtain ⟨h1, h2⟩ := h
  unfold readValue dropCR
  rw [if_neg h2]
  cases v with
  | nil => rfl
  | cons c cs =>
    have : c ≠ 32 := by intro hc; exact h1 (by simp [hc])
    simp [this]

theorem dropCR_append (a b : Str) (h : b ≠ []) : dropCR (a ++ b) = a ++ dropCR b := by
  unfold dropCR
  have : (a ++ b).getLast? = b.getLast? := by
    rw [List.getLast?_append]
    cases hb : b.getLast? with
    | none => exact absurd (List.getLast?_eq_none_iff.1 hb) h
    | some x => rfl
  rw [this]
  split
  · exact List.dropLast_append_of_ne_nil h
  · rfl

theorem dropCR_colon (v : Str) : dropCR (b!": " ++ v) = b!": " ++ dropCR v := by
  cases v with
  | nil => decide
  | cons c cs => exact dropCR_append _ _ (by simp)

theorem cutLine_attrLine (t v : Str) (ht : (58 : UInt8) ∉ t) : cutLine (dropCR (attrLine (t, v))) = (t, readValue v) := by
  unfold attrLine
  rw [List.append_assoc, dropCR_append _ _ (by simp), dropCR_colon]
  unfold cutLine readValue
  have h1 : ∀ w : Str, (t ++ (58 :: w)).takeWhile (· ≠ 58) = t := by
    intro w
    rw [List.takeWhile_append_of_pos]
    · simp
    · intro a ha; simp; rintro rfl; exact ht ha
  have h2 : ∀ w : Str, (t ++ (58 :: w)).dropWhile (· ≠ 58) = 58 :: w := by
    intro w
    rw [List.dropWhile_append_of_pos]
    · simp
    · intro a ha; simp; rintro rfl; exact ht ha
  have e : b!": " ++ dropCR v = 58 :: 32 :: dropCR v := rfl
  rw [e, h1, h2]
  simp

/-- The types of the template are not empty, contain no colon and no line feed and do not begin a comment. -/
theorem attrs_types (base : Str) (r : UserRec) : ∀ p ∈ r.attrs base, (58 : UInt8) ∉ p.1 ∧ (10 : UInt8) ∉ p.1 ∧ ∃ c cs, p.1 = c :: cs ∧ c ≠ 35 := by
  intro p hp
  have ok : ∀ t : Str, (t.contains 58 = false ∧ t.contains 10 = false ∧ ∃ c cs, t = c :: cs ∧ c ≠ 35) →
      (58 : UInt8) ∉ t ∧ (10 : UInt8) ∉ t ∧ ∃ c cs, t = c :: cs ∧ c ≠ 35 := by
    intro t h
    simpa using h
  apply ok
  simp only [UserRec.attrs, List.mem_append, List.mem_cons, List.not_mem_nil, or_false, Option.mem_toList, Option.map_eq_some_iff, List.mem_map] at hp
  rcases hp with (((((((rfl | rfl | rfl | rfl | rfl | rfl) | ⟨g, -, rfl⟩) | ⟨g, -, rfl⟩) | rfl) | ⟨g, -, rfl⟩) | rfl) | ⟨g, -, rfl⟩) | ⟨g, -, rfl⟩ <;>
    (dsimp only; exact ⟨by decide, by decide, _, _, rfl, by decide⟩)

theorem natText_no_nl {n : Nat} (h : n < 10 ^ 20) : (10 : UInt8) ∉ natText n := by
  intro hm
  have := (natTextGo_spec 20 n h (by omega)).2.1
  have := List.all_eq_true.1 this 10 hm
  revert this; decide

theorem trimBy_sub {p : UInt8 → Bool} {s : Str} {c : UInt8} (h : c ∈ trimBy p s) : c ∈ s := by
  unfold trimBy at h
  simp only [List.mem_reverse] at h
  have h := List.IsSuffix.subset (List.dropWhile_suffix _) h
  simp only [List.mem_reverse] at h
  exact List.IsSuffix.subset (List.dropWhile_suffix _) h

/-- Whatever the users are, if no value contains a line feed then the text printed consists of one record per user, in order, and
the record has exactly the attributes of the user; blanks in front of a value and a carriage return at its end are lost. -/
theorem printUsers_attrs (rs : List UserRec) (hv : ∀ r ∈ rs, ∀ p ∈ r.attrs newUsersBase, (10 : UInt8) ∉ p.2) (hl : ∀ r ∈ rs, r.line < 10 ^ 20) :
    recordAttrs (printUsers rs) = rs.map fun r => (r.attrs newUsersBase).map fun p => (p.1, readValue p.2) := by
  unfold recordAttrs
  induction rs with
  | nil => rfl
  | cons r rs ih =>
    have hn : (10 : UInt8) ∉ r.name := hv r (by simp) (b!"uid", r.name) (by simp [UserRec.attrs])
    have hlines : ∀ l ∈ userLines r, (10 : UInt8) ∉ l := by
      intro l hm
      simp only [userLines, List.mem_cons, List.mem_map] at hm
      rcases hm with rfl | ⟨p, hp, rfl⟩
      · have h1 := natText_no_nl (hl r (by simp))
        have h2 : (10 : UInt8) ∉ trimSpace r.name := fun h => hn (trimSpace_sub h)
        simp [h1, h2]
      · have h1 := (attrs_types newUsersBase r p hp).2.1
        have h2 := hv r (by simp) p hp
        simp [attrLine, h1, h2]
    have hrec : records (joinWith 10 (userLines r)) = [(userLines r).map dropCR] := by
      unfold records
      rw [splitOn_joinWith (by simp [userLines]) hlines, recordsFrom_full _ _ _ (by simp [userLines])]
      · simp
      · intro l hm
        simp only [userLines, List.mem_map, List.mem_cons] at hm
        obtain ⟨l', hl', rfl⟩ := hm
        rcases hl' with rfl | ⟨p, hp, rfl⟩
        · rw [List.append_assoc, List.append_assoc, dropCR_append _ _ (by simp)]
          simp
        · rw [attrLine, List.append_assoc, dropCR_append _ _ (by simp), dropCR_colon]
          simp
    have e : printUsers (r :: rs) = joinWith 10 (userLines r) ++ [10, 10] ++ printUsers rs := by
      rw [printUsers, List.flatMap_cons, printUser_lines]; rfl
    rw [e, records_sep, hrec, List.map_append, ih (fun r' h' => hv r' (by simp [h'])) (fun r' h' => hl r' (by simp [h']))]
    simp only [List.map_cons, List.map_nil, List.cons_append, List.nil_append, List.cons.injEq, and_true]
    simp only [userLines, List.map_cons, List.map_map]
    have hc : isComment (dropCR (b!"# " ++ natText r.line ++ b!": " ++ trimSpace r.name)) = true := by
      rw [List.append_assoc, List.append_assoc, dropCR_append _ _ (by simp)]
      rfl
    rw [List.filter_cons_of_neg (by rw [hc]; decide)]
    rw [List.filter_eq_self.2]
    · rw [List.map_map]
      apply List.map_congr_left
      intro p hp
      exact cutLine_attrLine p.1 p.2 (attrs_types newUsersBase r p hp).1
    · intro l hm
      simp only [List.mem_map, Function.comp_apply] at hm
      obtain ⟨p, hp, rfl⟩ := hm
      obtain ⟨-, -, c, cs, h1, h2⟩ := attrs_types newUsersBase r p hp
      rw [attrLine, h1, List.append_assoc, dropCR_append _ _ (by simp)]
      simp [isComment, hasPrefix, List.isPrefixOf, Ne.symm h2]

/-! ## Where the values come from -/

theorem scanLines_no_nl {text l : Str} (h : l ∈ scanLines text) : (10 : UInt8) ∉ l := by
  unfold scanLines at h
  obtain ⟨l', hl, rfl⟩ := List.mem_map.1 h
  have h1 : l' ∈ rawLines text := List.IsPrefix.subset (List.takeWhile_prefix _) hl
  have h2 : l' ∈ splitOn 10 text := by
    unfold rawLines at h1
    dsimp only at h1
    split at h1
    · exact List.IsPrefix.subset (List.dropLast_prefix _) h1
    · exact h1
  intro hm
  have : (10 : UInt8) ∈ l' := by
    unfold dropCR at hm
    split at hm
    · exact List.IsPrefix.subset (List.dropLast_prefix _) hm
    · exact hm
  exact splitOn_no_sep text l' h2 this

theorem splitOn_length_le (sep : UInt8) (s : Str) : (splitOn sep s).length ≤ s.length + 1 := by
  induction s with
  | nil => simp [splitOn]
  | cons c cs ih =>
    by_cases hc : c = sep
    · subst hc; rw [splitOn_cons_sep]; simp; omega
    · obtain ⟨p, ps, h1, h2⟩ := splitOn_cons_ne hc cs
      rw [h2]; rw [h1] at ih; simp at ih ⊢; omega

theorem scanLines_length (text : Str) : (scanLines text).length ≤ text.length + 1 := by
  unfold scanLines
  rw [List.length_map]
  have h1 := (List.takeWhile_prefix (p := fun l : Str => decide (l.length < maxToken)) (l := rawLines text)).length_le
  have h2 : (rawLines text).length ≤ (splitOn 10 text).length := by
    unfold rawLines
    dsimp only
    split
    · simp
    · exact Nat.le_refl _
  have h3 := splitOn_length_le 10 text
  omega

theorem splitOn_mem_sub {sep : UInt8} : ∀ {s p : Str} {c : UInt8}, p ∈ splitOn sep s → c ∈ p → c ∈ s := by
  intro s
  induction s with
  | nil => intro p c hp hc; simp [splitOn] at hp; subst hp; cases hc
  | cons d cs ih =>
    intro p c hp hc
    by_cases hd : d = sep
    · subst hd
      rw [splitOn_cons_sep] at hp
      rcases List.mem_cons.1 hp with rfl | hp
      · cases hc
      · exact List.mem_cons_of_mem _ (ih hp hc)
    · obtain ⟨q, qs, h1, h2⟩ := splitOn_cons_ne hd cs
      rw [h2] at hp
      rcases List.mem_cons.1 hp with rfl | hp
      · rcases List.mem_cons.1 hc with rfl | hc
        · exact List.mem_cons_self
        · exact List.mem_cons_of_mem _ (ih (by rw [h1]; exact List.mem_cons_self) hc)
      · exact List.mem_cons_of_mem _ (ih (by rw [h1]; exact List.mem_cons_of_mem _ hp) hc)

/-- The entries of a file: fields without line feed, line numbers up to the number of lines. -/
theorem parsePwLines_clean (strong : Str → Bool) : ∀ (ls : List Str) (n : Nat) (es : List PwEntry), (∀ l ∈ ls, (10 : UInt8) ∉ l) →
    parsePwLines strong n ls = .ok es → ∀ e ∈ es, e.line ≤ n + ls.length ∧ ∀ f ∈ e.fields, (10 : UInt8) ∉ f := by
  intro ls
  induction ls with
  | nil => intro n es _ h e he; cases h; cases he
  | cons l ls ih =>
    intro n es hl h e he
    rw [parsePwLines] at h
    cases h1 : parsePwLine strong (n + 1) l with
    | ok o =>
      rw [h1] at h
      cases h2 : parsePwLines strong (n + 1) ls with
      | ok es' =>
        rw [h2] at h
        cases h
        rcases List.mem_append.1 he with he | he
        · rcases parsePwLine_cases strong (n + 1) l with ⟨-, h3⟩ | ⟨fs, h3, h4 | h4 | ⟨e', h5, h6, h7, h8 | h8⟩⟩
          · rw [h3] at h1; cases h1; cases he
          · rw [h4.2] at h1; cases h1
          · rw [h4.2.2] at h1; cases h1
          · rw [h8.2.2] at h1; cases h1
          · rw [h8.2] at h1
            cases h1
            simp only [Option.toList_some, List.mem_singleton] at he
            subst he
            refine ⟨by rw [h5]; simp, fun f hf hm => ?_⟩
            rw [h6] at hf
            have hf := List.mem_of_mem_take hf
            unfold userFields at h3
            split at h3
            · cases h3
            · cases h3
              exact hl l (by simp) (trimSpace_sub (splitOn_mem_sub hf hm))
        · have := ih (n + 1) es' (fun x hx => hl x (by simp [hx])) h2 e he
          exact ⟨by simp; omega, this.2⟩
      | err e => rw [h2] at h; cases h
      | panic => rw [h2] at h; cases h
      | hang => rw [h2] at h; cases h
    | err e => rw [h1] at h; cases h
    | panic => rw [h1] at h; cases h
    | hang => rw [h1] at h; cases h

theorem intText_no_nl {n : Int} (h : n.natAbs < 10 ^ 20) : (10 : UInt8) ∉ intText n := by
  have := natText_no_nl h
  unfold intText
  split
  · simp only [List.mem_cons, not_or]; exact ⟨by decide, this⟩
  · exact this

theorem parseInt64_num {s : Str} {n : Int} (h : parseInt64 s = some n) : -(2 ^ 63) ≤ n ∧ n < 2 ^ 63 := by
  unfold parseInt64 at h
  dsimp only at h
  generalize (if hasPrefix s b!"-" || hasPrefix s b!"+" then s.drop 1 else s) = ds at h
  generalize digitsVal ds = k at h
  split at h
  · cases h
  · split at h
    · split at h
      · cases h; omega
      · cases h
    · split at h
      · cases h; omega
      · cases h

theorem inc64_num {n : Int} (h : -(2 ^ 63) ≤ n ∧ n < 2 ^ 63) : -(2 ^ 63) ≤ inc64 n ∧ inc64 n < 2 ^ 63 := by
  unfold inc64
  split <;> omega

theorem entryNumbers_num {e : PwEntry} {d : Option Int × Option Int} (h : entryNumbers e = some d) :
    (∀ n, d.1 = some n → -(2 ^ 63) ≤ n ∧ n < 2 ^ 63) ∧ ∀ n, d.2 = some n → -(2 ^ 63) ≤ n ∧ n < 2 ^ 63 := by
  unfold entryNumbers at h
  by_cases hu : e.uid = [] <;> by_cases hg : e.gid = [] <;>
    simp only [hu, hg, if_true, if_false, Option.bind_eq_bind, Option.bind_some, Option.bind_eq_some_iff, Option.map_eq_some_iff] at h
  · cases h; exact ⟨fun _ h => (by cases h), fun _ h => (by cases h)⟩
  · obtain ⟨g, ⟨m, hm, rfl⟩, h⟩ := h
    cases h
    exact ⟨fun _ h => (by cases h), fun _ h => (by cases h; exact parseInt64_num hm)⟩
  · obtain ⟨g, ⟨m, hm, rfl⟩, h⟩ := h
    cases h
    exact ⟨fun _ h => (by cases h; exact parseInt64_num hm), fun _ h => (by cases h)⟩
  · obtain ⟨u, ⟨k, hk, rfl⟩, g, ⟨m, hm, rfl⟩, h⟩ := h
    cases h
    exact ⟨fun _ h => (by cases h; exact parseInt64_num hk), fun _ h => (by cases h; exact parseInt64_num hm)⟩

theorem preprocess_num : ∀ (es : List PwEntry) (a : Int) (ds : List (Option Int × Option Int)) (last : Int), preprocess a es = some (ds, last) →
    (-(2 ^ 63) ≤ a ∧ a < 2 ^ 63) → -(2 ^ 63) ≤ last ∧ last < 2 ^ 63 := by
  intro es
  induction es with
  | nil => intro a ds last h ha; cases h; exact ha
  | cons e es ih =>
    intro a ds last h ha
    rw [preprocess] at h
    simp only [Option.bind_eq_bind, Option.bind_eq_some_iff] at h
    obtain ⟨d, hd, ⟨ds', last'⟩, hr, h⟩ := h
    cases h
    obtain ⟨h1, h2⟩ := entryNumbers_num hd
    have raise : ∀ (a : Int) (o : Option Int), (-(2 ^ 63) ≤ a ∧ a < 2 ^ 63) → (∀ n, o = some n → -(2 ^ 63) ≤ n ∧ n < 2 ^ 63) →
        -(2 ^ 63) ≤ raiseTo a o ∧ raiseTo a o < 2 ^ 63 := by
      intro a o ha ho
      cases o with
      | none => exact ha
      | some n => unfold raiseTo; dsimp only; split; exact ho n rfl; exact ha
    exact ih _ _ _ hr (raise _ _ (raise _ _ ha h1) h2)

theorem nonEmpty_some {s v : Str} (h : nonEmpty s = some v) : v = s := by
  unfold nonEmpty at h
  split at h
  · cases h
  · cases h; rfl

theorem genUser_clean {hash : Str → Option Str} (hh : ∀ p h, hash p = some h → (10 : UInt8) ∉ h) {md : Str} {auto auto' : Int} {tpl tpl' : UInt64}
    {e : PwEntry} {d : Option Int × Option Int} {r : UserRec} (h : genUser hash md auto tpl e d = some (r, auto', tpl'))
    (ha : -(2 ^ 63) ≤ auto ∧ auto < 2 ^ 63) (hd : entryNumbers e = some d) (hf : ∀ f ∈ e.fields, (10 : UInt8) ∉ f) :
    (-(2 ^ 63) ≤ auto' ∧ auto' < 2 ^ 63) ∧ r.line = e.line ∧ ∀ p ∈ r.attrs newUsersBase, (10 : UInt8) ∉ p.2 := by
  unfold genUser at h
  simp only [Option.bind_eq_bind] at h
  cases hpw : newPassword hash e with
  | none => rw [hpw] at h; cases h
  | some pw =>
    rw [hpw] at h
    simp only [Option.bind_some, Option.some.injEq, Prod.mk.injEq] at h
    obtain ⟨rfl, rfl, rfl⟩ := h
    have hauto : -(2 ^ 63) ≤ (if e.uid = [] ∨ e.gid = [] then inc64 auto else auto) ∧ (if e.uid = [] ∨ e.gid = [] then inc64 auto else auto) < 2 ^ 63 := by
      split
      · exact inc64_num ha
      · exact ha
    refine ⟨hauto, rfl, ?_⟩
    obtain ⟨n1, n2⟩ := entryNumbers_num hd
    have hname : (10 : UInt8) ∉ e.name := hf _ (by simp [PwEntry.fields])
    have hgecos : (10 : UInt8) ∉ e.gecos := hf _ (by simp [PwEntry.fields])
    have hpass : (10 : UInt8) ∉ pw := by
      unfold newPassword at hpw
      split at hpw
      · exact hh _ _ hpw
      · cases hpw; exact hname
    have hpart : ∀ q ∈ splitOn 44 e.gecos, (10 : UInt8) ∉ q := fun q hq hm => hgecos (splitOn_mem_sub hq hm)
    have hcn : (10 : UInt8) ∉ (if e.gecos ≠ [] then (splitOn 44 e.gecos).headD [] else e.name) := by
      split
      · cases hs : splitOn 44 e.gecos with
        | nil => simp
        | cons q qs => exact hpart q (by rw [hs]; simp)
      · exact hname
    generalize hcne : (if e.gecos ≠ [] then (splitOn 44 e.gecos).headD [] else e.name) = cn at hcn
    generalize hae : (if e.uid = [] ∨ e.gid = [] then inc64 auto else auto) = a' at hauto
    intro p hp
    simp only [UserRec.attrs, List.mem_append, List.mem_cons, List.not_mem_nil, or_false, Option.mem_toList, Option.map_eq_some_iff, List.mem_map] at hp
    rcases hp with (((((((rfl | rfl | rfl | rfl | rfl | rfl) | ⟨g, hg, rfl⟩) | ⟨g, hg, rfl⟩) | rfl) | ⟨g, hg, rfl⟩) | rfl) | ⟨g, hg, rfl⟩) | ⟨g, hg, rfl⟩ <;> dsimp only
    · simp only [List.mem_append, not_or]; exact ⟨⟨⟨by decide, hname⟩, by decide⟩, by decide⟩
    · decide
    · decide
    · decide
    · exact hname
    · apply intText_no_nl
      split
      · have h1 := (tpl + 1).toNat_lt
        have h2 := tpl.toNat_lt
        omega
      · cases hd1 : d.1 with
        | none => simp only [Option.getD_none]; omega
        | some n => have := n1 n hd1; simp only [Option.getD_some]; omega
    · unfold nonZero at hg
      split at hg
      · cases hg
      · cases hg
        apply intText_no_nl
        cases hd1 : d.2 with
        | none => simp only [Option.getD_none]; omega
        | some n => have := n2 n hd1; simp only [Option.getD_some]; omega
    · rw [nonEmpty_some hg]; exact hpass
    · simp only [List.mem_append, not_or]; exact ⟨hname, by decide⟩
    · split at hg
      · obtain ⟨v, hv, rfl⟩ := List.mem_map.1 hg
        have hv1 := hpart v (List.mem_of_mem_drop (List.mem_filter.1 hv).1)
        unfold gecosMail
        split
        · simp only [List.mem_append, not_or]
          exact ⟨fun hm => hv1 (List.mem_of_mem_take hm), by decide⟩
        · exact hv1
      · cases hg
    · exact hcn
    all_goals
      obtain ⟨nm, h1, h2⟩ := Option.bind_eq_some_iff.1 hg
      rw [nonEmpty_some h2]
      split at h1
      · unfold nameParts at h1
        split at h1
        · cases h1
          dsimp only
          intro hm
          first
          | exact hcn (List.IsPrefix.subset (List.takeWhile_prefix _) hm)
          | exact hcn (List.IsSuffix.subset (List.dropWhile_suffix _) (List.mem_of_mem_drop hm))
        · cases h1
      · cases h1

theorem genUsers_clean {hash : Str → Option Str} (hh : ∀ p h, hash p = some h → (10 : UInt8) ∉ h) (md : Str) :
    ∀ (ps : List (PwEntry × (Option Int × Option Int))) (auto : Int) (tpl : UInt64), (-(2 ^ 63) ≤ auto ∧ auto < 2 ^ 63) →
      (∀ p ∈ ps, entryNumbers p.1 = some p.2) → (∀ p ∈ ps, ∀ f ∈ p.1.fields, (10 : UInt8) ∉ f) →
      ∀ r ∈ (genUsers hash md auto tpl ps).1, (∃ p ∈ ps, r.line = p.1.line) ∧ ∀ p ∈ r.attrs newUsersBase, (10 : UInt8) ∉ p.2 := by
  intro ps
  induction ps with
  | nil => intro _ _ _ _ _ r hr; cases hr
  | cons p ps ih =>
    intro auto tpl ha hd hf r hr
    obtain ⟨e, d⟩ := p
    rw [genUsers] at hr
    cases hg : genUser hash md auto tpl e d with
    | none => rw [hg] at hr; cases hr
    | some q =>
      obtain ⟨r0, auto', tpl'⟩ := q
      rw [hg] at hr
      obtain ⟨h1, h2, h3⟩ := genUser_clean hh hg ha (hd (e, d) (by simp)) (hf (e, d) (by simp))
      rcases List.mem_cons.1 hr with rfl | hr
      · exact ⟨⟨(e, d), by simp, h2⟩, h3⟩
      · obtain ⟨⟨p, hp, h4⟩, h5⟩ := ih auto' tpl' h1 (fun p hp => hd p (by simp [hp])) (fun p hp => hf p (by simp [hp])) r hr
        exact ⟨⟨p, by simp [hp], h4⟩, h5⟩

/-! ## C75 -/

theorem outputLDIF_clean {strong : Str → Bool} {hash : Str → Option Str} (hh : ∀ p h, hash p = some h → (10 : UInt8) ∉ h) {md text : Str}
    (ht : text.length < 2 ^ 64) {recs : List UserRec} {fin : Bool} (h : outputLDIF strong hash md text = .ok (recs, fin)) :
    (∀ r ∈ recs, ∀ p ∈ r.attrs newUsersBase, (10 : UInt8) ∉ p.2) ∧ ∀ r ∈ recs, r.line < 10 ^ 20 := by
  cases hes : parsePasswdFile strong text with
  | err e => unfold outputLDIF at h; rw [hes] at h; cases h
  | panic => unfold outputLDIF at h; rw [hes] at h; cases h
  | hang => unfold outputLDIF at h; rw [hes] at h; cases h
  | ok es =>
    obtain ⟨ds, last, hp, hg⟩ := outputLDIF_parts hes h
    obtain ⟨p1, p2, -⟩ := preprocess_spec es 1000 ds last hp
    have hl := preprocess_num es 1000 ds last hp (by omega)
    have hc := parsePwLines_clean strong (scanLines text) 0 es (fun l hl => scanLines_no_nl hl) hes
    have hlen := scanLines_length text
    have hr := genUsers_clean hh md (es.zip ds) last 1000 hl p2 fun p hp => (hc p.1 (List.of_mem_zip hp).1).2
    rw [hg] at hr
    constructor
    · intro r hm; exact (hr r hm).2
    · intro r hm
      obtain ⟨⟨p, hp, h1⟩, -⟩ := hr r hm
      have := (hc p.1 (List.of_mem_zip hp).1).1
      omega

/-- C75: whatever the input of newusers is, the text it prints consists of one LDIF record per user, in order; the record has exactly the
attributes of that user. No field of the input can add, remove or merge lines or records. What is lost of a value are blanks in front and
a carriage return at the end (`readValue`). -/
theorem C75_records (strong : Str → Bool) (hash : Str → Option Str) (hh : ∀ p h, hash p = some h → (10 : UInt8) ∉ h) (md text : Str)
    (ht : text.length < 2 ^ 64) (recs : List UserRec) (fin : Bool) (h : outputLDIF strong hash md text = .ok (recs, fin)) :
    recordAttrs (printUsers recs) = recs.map fun r => (r.attrs newUsersBase).map fun p => (p.1, readValue p.2) :=
  printUsers_attrs recs (outputLDIF_clean hh ht h).1 (outputLDIF_clean hh ht h).2

theorem attrs_names (base : Str) (r : UserRec) : ∀ p ∈ (r.attrs base).drop 1,
    p.1 ∈ [b!"objectClass", b!"uid", b!"uidNumber", b!"gidNumber", b!"userPassword", b!"mail", b!"mailAlternateAddress", b!"cn",
      b!"givenName", b!"sn"] := by
  intro p hp
  have : (r.attrs base).drop 1 = [(b!"objectClass", b!"posixAccount"), (b!"objectClass", b!"top"),
    (b!"objectClass", b!"inetOrgPerson"), (b!"uid", r.name), (b!"uidNumber", intText r.uidNumber)] ++
  (r.gidNumber.map fun g => (b!"gidNumber", intText g)).toList ++
  (r.userPassword.map fun v => (b!"userPassword", v)).toList ++
  [(b!"mail", r.name ++ b!"@{{.MailDomain}}")] ++
  r.mails.map (fun v => (b!"mailAlternateAddress", v)) ++
  [(b!"cn", r.cn)] ++
  (r.givenName.map fun v => (b!"givenName", v)).toList ++
  (r.sn.map fun v => (b!"sn", v)).toList := by simp [UserRec.attrs]
  rw [this] at hp
  simp only [List.mem_append, List.mem_cons, List.not_mem_nil, or_false, Option.mem_toList, Option.map_eq_some_iff, List.mem_map] at hp
  rcases hp with (((((((rfl | rfl | rfl | rfl | rfl) | ⟨g, -, rfl⟩) | ⟨g, -, rfl⟩) | rfl) | ⟨g, -, rfl⟩) | rfl) | ⟨g, -, rfl⟩) | ⟨g, -, rfl⟩ <;>
    (dsimp only; decide)

theorem attrs_ldif (base : Str) (r : UserRec) : ∀ p ∈ (r.attrs base).drop 1, ldifType p.1 = true ∧ p.1 ≠ b!"control" ∧ p.1 ≠ b!"changetype" := by
  intro p hp
  have := attrs_names base r p hp
  revert this
  generalize p.1 = t
  revert t
  decide

theorem attrs_head (base : Str) (r : UserRec) : r.attrs base = (b!"dn", b!"uid=" ++ r.name ++ b!"," ++ base) :: (r.attrs base).drop 1 := by
  simp [UserRec.attrs]

theorem attrs_first (base : Str) (r : UserRec) : ∀ p ∈ r.attrs base, p.1 ≠ [] ∧ p.1.head? ≠ some 32 ∧ p.1.head? ≠ some 35 ∧ 13 ∉ p.1 := by
  intro p hp
  rw [attrs_head] at hp
  rcases List.mem_cons.1 hp with rfl | hp
  · simp
  · have := attrs_names base r p hp
    revert this
    generalize p.1 = t
    revert t
    decide

theorem says_blanks (t v : Str) : LineSays t (v.dropWhile (· = 32)) (attrLine (t, v)) := by
  have h : ∀ v : Str, ∃ n, v = List.replicate n 32 ++ v.dropWhile (· = 32) := by
    intro v
    induction v with
    | nil => exact ⟨0, rfl⟩
    | cons c v ih =>
      by_cases hc : c = 32
      · obtain ⟨n, e⟩ := ih
        refine ⟨n + 1, ?_⟩
        rw [List.dropWhile_cons_of_pos (by simp [hc]), List.replicate_succ, List.cons_append, ← e, hc]
      · exact ⟨0, by rw [List.dropWhile_cons_of_neg (by simp [hc])]; rfl⟩
  have hh : (v.dropWhile (· = 32)).head? ≠ some 32 := by
    intro e
    have := List.head?_dropWhile_not (fun c : UInt8 => decide (c = 32)) v
    rw [e] at this
    simp at this
  obtain ⟨n, e⟩ := h v
  have : attrLine (t, v) = t ++ 58 :: List.replicate (n + 1) 32 ++ v.dropWhile (· = 32) := by
    have e' : t ++ b!": " ++ v = t ++ b!": " ++ (List.replicate n 32 ++ v.dropWhile (· = 32)) := congrArg (t ++ b!": " ++ ·) e
    rw [attrLine, e']
    simp [List.replicate_succ]
  rw [this]
  exact .plain t _ (n + 1) hh (by simp)

theorem joinWith_lf {ls : List Str} (h : ls ≠ []) : joinWith 10 ls ++ [10] = lfText ls := by
  induction ls with
  | nil => exact absurd rfl h
  | cons l ls ih =>
    cases ls with
    | nil => simp [joinWith, lfText]
    | cons l' ls =>
      rw [joinWith, List.append_assoc, List.cons_append, ih (by simp)]
      simp [lfText]

theorem recordLines_attrs : ∀ (ps : List (Str × Str)), (∀ p ∈ ps, p.1 ≠ [] ∧ p.1.head? ≠ some 32 ∧ p.1.head? ≠ some 35) →
    RecordLines (ps.map attrLine) (ps.map attrLine)
  | [], _ => .done
  | p :: ps, h => by
    obtain ⟨h1, h2, h3⟩ := h p (by simp)
    refine .line _ [attrLine p] _ _ ⟨_, [], rfl, by simp, ?_⟩ (recordLines_attrs ps fun q hq => h q (by simp [hq]))
    obtain ⟨t, v⟩ := p
    cases t with
    | nil => exact absurd rfl h1
    | cons c t => exact ⟨by simp [attrLine], by simpa [attrLine] using h2, by simpa [attrLine] using h3⟩

theorem matched_map' {α β γ : Type} {R : β → γ → Prop} (f : α → β) (g : α → γ) : ∀ l : List α, (∀ a ∈ l, R (f a) (g a)) → Matched R (l.map f) (l.map g)
  | [], _ => .nil
  | a :: l, h => .cons _ _ _ _ (h a (by simp)) (matched_map' f g l fun b hb => h b (by simp [hb]))

theorem printUsers_lf (recs : List UserRec) : printUsers recs = lfText (recs.flatMap fun r => userLines r ++ [[]]) := by
  induction recs with
  | nil => rfl
  | cons r recs ih =>
    have e2 : lfText ((r :: recs).flatMap fun r => userLines r ++ [[]]) = lfText (userLines r) ++ [10] ++ lfText (recs.flatMap fun r => userLines r ++ [[]]) := by
      simp [lfText]
    rw [e2, ← ih, ← joinWith_lf (by simp [userLines]), printUsers, List.flatMap_cons, printUser_lines]
    simp [printUsers]

/-- C75: the text newusers prints is an LDIF file; it has one record per user, in order, with the attributes of that user. Blanks in front of
a value are lost; carriage returns must not occur in the values. By `C90_read_partial` this is what is read from it. -/
theorem C75_ldif_partial (strong : Str → Bool) (hash : Str → Option Str) (hh : ∀ p h, hash p = some h → (10 : UInt8) ∉ h) (md text : Str)
    (ht : text.length < 2 ^ 64) (recs : List UserRec) (fin : Bool) (h : outputLDIF strong hash md text = .ok (recs, fin))
    (hcr : ∀ r ∈ recs, ∀ p ∈ r.attrs newUsersBase, (13 : UInt8) ∉ p.2) :
    LdifBody (printUsers recs) (recs.map fun r => ⟨b!"uid=" ++ r.name ++ b!"," ++ newUsersBase,
      ((r.attrs newUsersBase).drop 1).map fun p => (p.1, p.2.dropWhile (· = 32))⟩) := by
  obtain ⟨hv, hl⟩ := outputLDIF_clean hh ht h
  clear h
  refine ⟨recs.flatMap fun r => userLines r ++ [[]], recs.map fun r => (r.attrs newUsersBase).map attrLine, ?_, ?_, ?_⟩
  · rw [printUsers_lf]
    refine hasLines_lf _ fun l hm => ?_
    obtain ⟨r, hr, hm⟩ := List.mem_flatMap.1 hm
    rcases List.mem_append.1 hm with hm | hm
    · simp only [userLines, List.mem_cons, List.mem_map] at hm
      rcases hm with rfl | ⟨p, hp, rfl⟩
      · have hn := natText_no_nl (hl r hr)
        have hn' : (13 : UInt8) ∉ natText r.line := by
          intro hm
          have := List.all_eq_true.1 (natTextGo_spec 20 r.line (hl r hr) (by decide)).2.1 13 hm
          revert this; decide
        have h10 : (10 : UInt8) ∉ trimSpace r.name := fun h => hv r hr (b!"uid", r.name) (by simp [UserRec.attrs]) (trimSpace_sub h)
        have h13 : (13 : UInt8) ∉ trimSpace r.name := fun h => hcr r hr (b!"uid", r.name) (by simp [UserRec.attrs]) (trimSpace_sub h)
        simp [hn, hn', h10, h13]
      · have h1 := (attrs_types newUsersBase r p hp).2.1
        have h2 := (attrs_first newUsersBase r p hp).2.2.2
        have h3 := hv r hr p hp
        have h4 := hcr r hr p hp
        simp [attrLine, h1, h2, h3, h4]
    · rw [List.mem_singleton] at hm
      subst hm
      simp
  · clear hv hl hcr
    induction recs with
    | nil => exact .done
    | cons r recs ih =>
      rw [List.flatMap_cons, List.append_assoc]
      refine .record _ (userLines r) _ _ (by dsimp only; rw [attrs_head]; simp) ?_ ih
      exact .comment _ [] _ _ (recordLines_attrs _ fun p hp => by have := attrs_first newUsersBase r p hp; exact ⟨this.1, this.2.1, this.2.2.1⟩)
  · refine matched_map' _ _ _ fun r _ => ?_
    have e : (r.attrs newUsersBase).map attrLine =
        attrLine (b!"dn", b!"uid=" ++ r.name ++ b!"," ++ newUsersBase) :: ((r.attrs newUsersBase).drop 1).map attrLine := by
      conv => lhs; rw [attrs_head]
      rfl
    rw [e]
    refine .mk _ _ _ ?_ (by simp [UserRec.attrs]) ?_
    · have := says_blanks b!"dn" (b!"uid=" ++ r.name ++ b!"," ++ newUsersBase)
      rwa [show (b!"uid=" ++ r.name ++ b!"," ++ newUsersBase).dropWhile (· = 32) = b!"uid=" ++ r.name ++ b!"," ++ newUsersBase by
        simp [List.dropWhile]] at this
    · exact matched_map' _ _ _ fun p hp => ⟨says_blanks _ _, (attrs_ldif _ r p hp).1, (attrs_ldif _ r p hp).2⟩

/-- C75: a value without blanks in front and carriage return at the end is read as it is. -/
theorem C75_values (v : Str) (h : plainValue v) : readValue v = v := readValue_plain h

/-- C75: the numbers in the text are read as the numbers of the user. -/
theorem C75_numbers (n : Int) (h1 : -(2 ^ 63) ≤ n) (h2 : n < 2 ^ 63) : IsDecimal (intText n) n :=
  ((C66_number_read _ _).1 (parse_intText h1 h2)).1

theorem natTextGo_canonical : ∀ (fuel n : Nat), n < 10 ^ fuel → 0 < n → (natTextGo fuel n).head? ≠ some 48
  | 0, n, h, h0 => by simp at h; omega
  | fuel + 1, n, h, h0 => by
    rw [natTextGo]
    by_cases h10 : n < 10
    · rw [if_pos h10]
      have : ∀ n : Nat, n < 10 → 0 < n → [UInt8.ofNat (48 + n)].head? ≠ some 48 := by decide
      exact this n h10 h0
    · rw [if_neg h10]
      have hlt : n / 10 < 10 ^ fuel := by
        rw [Nat.pow_succ] at h
        omega
      have hpos : 0 < n / 10 := by omega
      cases fuel with
      | zero => simp at hlt; omega
      | succ f =>
        have ih := natTextGo_canonical (f + 1) (n / 10) hlt hpos
        have hne : natTextGo (f + 1) (n / 10) ≠ [] := (natTextGo_spec (f + 1) (n / 10) hlt (by omega)).2.2
        cases hg : natTextGo (f + 1) (n / 10) with
        | nil => exact absurd hg hne
        | cons c cs => rw [hg] at ih; exact ih

/-- C75: numbers are printed without a plus sign and without zeros in front. -/
theorem C75_number_text (n : Int) (h1 : -(2 ^ 63) ≤ n) (h2 : n < 2 ^ 63) :
    (n = 0 → intText n = b!"0") ∧ (0 < n → ∃ d ds, intText n = d :: ds ∧ 49 ≤ d ∧ d ≤ 57) ∧
    (n < 0 → ∃ d ds, intText n = 45 :: d :: ds ∧ 49 ≤ d ∧ d ≤ 57) := by
  have pos : ∀ m : Nat, 0 < m → m < 10 ^ 20 → ∃ d ds, natText m = d :: ds ∧ 49 ≤ d ∧ d ≤ 57 := by
    intro m h0 hm
    obtain ⟨d, ds, hd, hdig⟩ := natText_head hm
    have hc := natTextGo_canonical 20 m hm h0
    change (natText m).head? ≠ some 48 at hc
    rw [hd] at hc
    refine ⟨d, ds, hd, ?_⟩
    have hne : d ≠ 48 := by simpa using hc
    simp only [isDigitByte, Bool.and_eq_true, decide_eq_true_eq] at hdig
    refine ⟨?_, hdig.2⟩
    have ha := hdig.1
    have hb : d.toNat ≠ 48 := fun h => hne (UInt8.toNat_inj.1 h)
    rw [UInt8.le_iff_toNat_le] at ha ⊢
    have : (48 : UInt8).toNat = 48 := rfl
    have : (49 : UInt8).toNat = 49 := rfl
    omega
  refine ⟨?_, ?_, ?_⟩
  · rintro rfl; decide
  · intro h
    unfold intText
    rw [if_neg (by omega)]
    exact pos _ (by omega) (by omega)
  · intro h
    unfold intText
    rw [if_pos h]
    obtain ⟨d, ds, hd, h3⟩ := pos n.natAbs (by omega) (by omega)
    exact ⟨d, ds, by rw [hd]; rfl, h3⟩

example : IsDecimal (intText (-120)) (-120) ∧ ∃ d ds, intText (-120) = 45 :: d :: ds ∧ 49 ≤ d ∧ d ≤ 57 :=
  ⟨C75_numbers _ (by decide) (by decide), (C75_number_text _ (by decide) (by decide)).2.2 (by decide)⟩

theorem encodeLoop_safe : ∀ (v : Str) (first : Bool), v.all (fun c => isAlnumByte c || b!"._-@".contains c) = true → encodeLoop first v = v := by
  intro v
  induction v with
  | nil => intro _ _; rfl
  | cons c cs ih =>
    intro first h
    rw [List.all_cons, Bool.and_eq_true] at h
    have key : ∀ c : UInt8, (isAlnumByte c || b!"._-@".contains c) = true → ∀ f l : Bool, escByte f l c = [c] := by decide +kernel
    rw [encodeLoop, ih false h.2, key c h.1]
    rfl

/-- C75: if the name of the user consists of letters, digits and `.`, `_`, `-`, `@`, then the DN of the record names the entry
`uid=<name>` directly below the base. -/
theorem C75_dn_partial (C : CaseEnv) (hC : C.Lawful) (name : Str)
    (hp : name.all (fun c => isAlnumByte c || b!"._-@".contains c) = true) (base : DN) (hb : NameOk base) (he : EndOk base) (hne : base ≠ []) :
    parseDN C (b!"uid=" ++ name ++ b!"," ++ render base) = some ([⟨b!"uid", name⟩] :: base) := by
  have hr : b!"uid=" ++ name ++ b!"," ++ render base = render ([⟨b!"uid", name⟩] :: base) := by
    have h1 : ∀ (r : DN), r ≠ [] → (∀ x ∈ r, x ≠ []) → renderFrom [chComma] r = chComma :: renderFrom [] r := by
      intro r hr hx
      cases r with
      | nil => exact absurd rfl hr
      | cons x xs =>
        cases x with
        | nil => exact absurd rfl (hx [] (by simp))
        | cons a as => simp [renderFrom, renderRDN]
    unfold render
    rw [renderFrom, h1 base hne (fun x hx => (hb x hx).1)]
    simp only [renderRDN, encodeRDNValue, encodeLoop_safe name true hp]
    simp [chEq, chComma]
  rw [hr]
  apply parseDN_render hC
  · intro r hm
    rcases List.mem_cons.1 hm with rfl | hm
    · exact ⟨by simp, by intro a ha; simp only [List.mem_singleton] at ha; subst ha; show TypeOk b!"uid"; decide +kernel⟩
    · exact hb r hm
  · unfold EndOk at he ⊢
    cases base with
    | nil => exact absurd rfl hne
    | cons r rs => simpa using he

/-- C75 fails for other names: they are put into the DN as they are. The user `x,ou=Admins` is not created below the base but below
an organisational unit in it. -/
theorem C75_dn_fails : parseDN asciiCase (b!"uid=" ++ b!"x,ou=Admins" ++ b!"," ++ b!"dc=lg") =
    some [[⟨b!"uid", b!"x"⟩], [⟨b!"ou", b!"Admins"⟩], [⟨b!"dc", b!"lg"⟩]] ∧
    ∃ recs, outputLDIF (fun _ => true) some [] b!"x,ou=Admins:pw:::X:/:sh\n" = .ok (recs, true) ∧
      (recordAttrs (printUsers recs)).map (·.head?) = [some (b!"dn", b!"uid=x,ou=Admins," ++ newUsersBase)] :=
  ⟨by decide +kernel, [⟨1, b!"x,ou=Admins", 1001, some 1001, some b!"pw", [], b!"X", none, none⟩], by decide +kernel, by decide +kernel⟩

/-- Non-vacuity of C75. -/
example : ∃ recs, outputLDIF (fun _ => true) some b!"lg.io" b!"ann:pw:7::Ann  B,x,a@lg.io:/:sh\n# no\nbob:::: Bob:/:sh\n" = .ok (recs, true) ∧
    (recordAttrs (printUsers recs)).length = 2 ∧ (b!"sn", b!"B") ∈ (recordAttrs (printUsers recs))[0]! ∧
    (b!"cn", b!"Bob") ∈ (recordAttrs (printUsers recs))[1]! := by
  refine ⟨[⟨1, b!"ann", 7, some 1001, some b!"pw", [b!"a@{{.MailDomain}}"], b!"Ann  B", some b!"Ann", some b!" B"⟩,
    ⟨3, b!"bob", 1002, some 1002, some b!"bob", [], b!" Bob", none, some b!"Bob"⟩], by decide +kernel, by decide +kernel, by decide +kernel, by decide +kernel⟩

-- the hypotheses of C75_ldif_partial are met by these users, and the text is read as it says
example : ∃ recs, outputLDIF (fun _ => true) some b!"lg.io" b!"bob:::: Bob:/:sh\n" = .ok (recs, true) ∧
    (∀ r ∈ recs, ∀ p ∈ r.attrs newUsersBase, (13 : UInt8) ∉ p.2) ∧
    ldifUnmarshal goLdif (printUsers recs) = some [some ⟨b!"uid=bob,ou=Users,ou={{.Company}},{{.BaseDN}}", [⟨b!"cn", [b!"Bob"]⟩, ⟨b!"gidNumber", [b!"1001"]⟩,
      ⟨b!"mail", [b!"bob@{{.MailDomain}}"]⟩, ⟨b!"objectClass", [b!"posixAccount", b!"top", b!"inetOrgPerson"]⟩, ⟨b!"sn", [b!"Bob"]⟩,
      ⟨b!"uid", [b!"bob"]⟩, ⟨b!"uidNumber", [b!"1001"]⟩, ⟨b!"userPassword", [b!"bob"]⟩]⟩] :=
  ⟨[⟨1, b!"bob", 1001, some 1001, some b!"bob", [], b!" Bob", none, some b!"Bob"⟩], by decide +kernel, by decide +kernel, by decide +kernel⟩

end Idm
