import Verif.Spec.Ldif
import Verif.Proofs.DN
import Verif.Props.Scope
/-!
# Plainly written DNs
-/
namespace Idm

theorem okValByte_facts : ∀ c, okValByte c = true → c ≠ chHash ∧ c ≠ chEq ∧ c ≠ chComma ∧ c ≠ chBackslash ∧ c ≠ chSemi ∧ c ≠ chPlus := by
  decide +kernel

theorem okTypeByte_facts' : ∀ c, okTypeByte c = true → c ≠ chEq ∧ c ≠ chComma ∧ c ≠ chBackslash ∧ c ≠ chSemi ∧ c ≠ chPlus ∧ 32 ≤ c ∧ c ≤ 126 ∧
    c < 128 ∧ okTypeByte (lowerByte c) = true ∧ isSpaceByte c = false := by
  decide +kernel

/-- The DN of a plain name. -/
def dnOf (ns : List AVA) : DN := ns.map fun a => [a]

theorem plainText_cons {a : AVA} {as : List AVA} (h : as ≠ []) : plainText (a :: as) = a.typ ++ chEq :: a.val ++ chComma :: plainText as := by
  cases as with
  | nil => exact absurd rfl h
  | cons b bs => rfl

/-! ## Parsing plain names -/

section
variable {C : CaseEnv}

theorem decodeValue_simple {a : AVA} (h : SimpleAva C a) : decodeValue C a.val = some a.val := by
  obtain ⟨-, h1, h2, h3, h4, h5, -⟩ := h
  have hs : decodeString C a.val = some a.val := by
    have htrim : trimBy (· == chSpace) a.val = a.val := by
      apply trimBy_eq_self
      · intro c hc
        cases hcc : c == chSpace with
        | false => rfl
        | true => exact absurd (beq_iff_eq.1 hcc ▸ hc) h3
      · intro c hc
        cases hcc : c == chSpace with
        | false => rfl
        | true => exact absurd (beq_iff_eq.1 hcc ▸ hc) h4
    unfold decodeString stripSpaces
    simp only [htrim]
    rw [if_neg (fun h => h4 h.2), h5]
    exact decodeBytes_noBackslash _ fun c hc => (okValByte_facts c (h2 c hc)).2.2.2.1
  cases hv : a.val with
  | nil => exact absurd hv h1
  | cons c v =>
    rw [hv] at hs
    simp only [decodeValue]
    rw [if_neg (okValByte_facts c (h2 c (by rw [hv]; simp))).1]
    exact hs

theorem scan_val (dn : DN) (rdn : RDN) (t v cur rest : Str) (ht : t ≠ []) (hv : ∀ c ∈ v, okValByte c = true) :
    scan C ⟨dn, rdn, t, cur, false⟩ (v ++ rest) = scan C ⟨dn, rdn, t, cur ++ v, false⟩ rest := by
  induction v generalizing cur with
  | nil => simp
  | cons c cs ih =>
    have hb := okValByte_facts c (hv c (by simp))
    rw [List.cons_append, scan_cons (scanStep_plain rfl hb.2.2.2.1 (fun _ => ht) hb.2.2.1 hb.2.2.2.2.2 hb.2.2.2.2.1)]
    rw [ih _ (fun d hd => hv d (by simp [hd]))]
    simp

theorem scan_simple (hC : C.Lawful) (dn : DN) {a : AVA} (h : SimpleAva C a) (rest : Str) :
    scan C ⟨dn, [], [], [], false⟩ (a.typ ++ chEq :: a.val ++ rest) = scan C ⟨dn, [], a.typ, a.val, false⟩ rest := by
  rw [List.append_assoc, scan_type _ _ _ _ _ h.1.2]
  simp only [List.nil_append, List.cons_append]
  have : scanStep C ⟨dn, [], [], a.typ, false⟩ chEq = .ok ⟨dn, [], a.typ, [], false⟩ := by
    unfold scanStep
    simp only [Bool.false_eq_true, if_false]
    rw [if_neg (by decide), if_pos (by simp), decodeString_type hC h.1]
  rw [scan_cons this, scan_val _ _ _ _ _ _ h.1.1 h.2.2.1]
  rfl

theorem scan_plainText (hC : C.Lawful) : ∀ (ns : List AVA) (dn : DN), ns ≠ [] → (∀ a ∈ ns, SimpleAva C a) →
    scanFinish C (scan C ⟨dn, [], [], [], false⟩ (plainText ns)) = .ok (dn ++ dnOf ns)
  | [], _, h, _ => absurd rfl h
  | [a], dn, _, h => by
    have ha := h a (by simp)
    have := scan_simple hC dn ha []
    rw [List.append_nil] at this
    rw [plainText, this, scan]
    simp only [scanFinish, scanEnd]
    rw [if_neg ha.1.1, decodeValue_simple ha]
    rfl
  | a :: b :: bs, dn, _, h => by
    have ha := h a (by simp)
    have ih := scan_plainText hC (b :: bs) (dn ++ [[a]]) (by simp) (fun c hc => h c (by simp [hc]))
    have hs : scanStep C ⟨dn, [], a.typ, a.val, false⟩ chComma = .ok ⟨dn ++ [[a]], [], [], [], false⟩ := by
      unfold scanStep
      simp only [Bool.false_eq_true, if_false]
      rw [if_neg (by decide), if_neg (by simp [show chComma ≠ chEq by decide]), if_pos (by simp), if_neg ha.1.1, decodeValue_simple ha]
      rfl
    rw [plainText_cons (by simp), scan_simple hC dn ha, scan_cons hs, ih]
    simp [dnOf]

theorem trimSpace_start (hC : C.Lawful) {t : Str} (ht : TypeOk t) (x : Str) (c : UInt8) (b : Str) (hc : c < 128) (hsp : isSpaceByte c = false) :
    C.trimSpace (t ++ x ++ c :: b) = t ++ x ++ C.trimSpace (c :: b) := by
  obtain ⟨l, a', h1, h2, h3⟩ := hC.trimSpace_left (t ++ x) c b hc hsp
  cases l with
  | nil => rw [h3, h1]; rfl
  | cons d l =>
    exfalso
    cases t with
    | nil => exact ht.1 rfl
    | cons e t =>
      have e1 : e = d := by simpa using congrArg List.head? h1
      have hd := okTypeByte_facts' d (e1 ▸ ht.2 e (by simp))
      rcases h2 d (by simp) with h | h
      · rw [hd.2.2.2.2.2.2.2.2.2] at h; cases h
      · exact absurd hd.2.2.2.2.2.2.2.1 (by rw [UInt8.not_lt]; exact h)

theorem trimSpace_plainText (hC : C.Lawful) : ∀ (ns : List AVA), ns ≠ [] → (∀ a ∈ ns, SimpleAva C a) → C.trimSpace (plainText ns) = plainText ns
  | [], h, _ => absurd rfl h
  | [a], _, h => by
    have ha := h a (by simp)
    have h1 := trimSpace_start hC ha.1 [] chEq a.val (by decide) (by decide)
    rw [List.append_nil] at h1
    rw [plainText, h1, hC.trimSpace_fixed chEq a.val (by decide) (by decide) ha.2.1 ha.2.2.2.2.2.2]
  | a :: b :: bs, _, h => by
    have ha := h a (by simp)
    have ih := trimSpace_plainText hC (b :: bs) (by simp) (fun c hc => h c (by simp [hc]))
    have hne : plainText (b :: bs) ≠ [] := by
      cases bs <;> simp [plainText]
    have h1 := trimSpace_start hC ha.1 (chEq :: a.val) chComma (plainText (b :: bs)) (by decide) (by decide)
    rw [plainText_cons (by simp), h1, hC.trimSpace_fixed chComma _ (by decide) (by decide) hne ih]

theorem parse_plain (hC : C.Lawful) {s : Str} {ns : List AVA} (h : PlainDN C s ns) : parseDN C s = some (dnOf ns) := by
  obtain ⟨rfl, h2⟩ := h
  unfold parseDN parseDNRes
  cases ns with
  | nil =>
    have : C.trimSpace [] = [] := by
      rw [hC.trimSpace_ascii [] (by simp [IsAscii])]; rfl
    simp [plainText, this, dnOf]
  | cons a as =>
    simp only [trimSpace_plainText hC _ (List.cons_ne_nil a as) h2]
    have hne : plainText (a :: as) ≠ [] := by cases as <;> simp [plainText]
    have hs := scan_plainText hC _ [] (List.cons_ne_nil a as) h2
    rw [if_neg hne, hs]
    rfl

/-! ## Lower case -/

theorem lower_ascii (hC : C.Lawful) {s : Str} (h : IsAscii s) : C.lower s = s.map lowerByte := by
  induction s with
  | nil => exact hC.lower_nil
  | cons c s ih =>
    have := hC.lower_split [] c s (h c (by simp))
    simp only [List.nil_append, hC.lower_nil] at this
    rw [this, ih fun d hd => h d (by simp [hd])]
    rfl

theorem lower_hasSpace (hC : C.Lawful) {s : Str} (h : (32 : UInt8) ∈ C.lower s) : (32 : UInt8) ∈ s := by
  rcases hC.lower_byte s 32 h (by decide) with h | h
  · exact h
  · exact absurd h (by decide)

theorem lower_head (hC : C.Lawful) {s : Str} (h : (C.lower s).head? = some 32) : s.head? = some 32 := by
  obtain ⟨x, y, rfl, hx⟩ := List.eq_append_cons_of_mem (lower_hasSpace hC (List.mem_of_mem_head? h))
  rw [hC.lower_split x 32 y (by decide)] at h
  cases x with
  | nil => rfl
  | cons c x =>
    cases hl : C.lower (c :: x) with
    | nil => exact absurd (hC.lower_eq_nil _ hl) (by simp)
    | cons d z =>
      rw [hl] at h
      simp at h
      exact absurd (lower_hasSpace hC (s := c :: x) (by rw [hl, h]; simp)) hx

theorem lower_last (hC : C.Lawful) {s : Str} (h : (C.lower s).getLast? = some 32) : s.getLast? = some 32 := by
  have hm := lower_hasSpace hC (List.mem_of_getLast? h)
  obtain ⟨x, y, hxy, hx⟩ := List.eq_append_cons_of_mem (List.mem_reverse.2 hm)
  have hs : s = y.reverse ++ 32 :: x.reverse := by
    have := congrArg List.reverse hxy
    simpa using this
  rw [hs] at h ⊢
  rw [hC.lower_split _ 32 _ (by decide)] at h
  cases hxr : x.reverse with
  | nil => simp
  | cons c z =>
    rw [hxr] at h
    have hne : C.lower (c :: z) ≠ [] := fun e => absurd (hC.lower_eq_nil _ e) (by simp)
    have hl : (C.lower (c :: z)).getLast? = some 32 := by
      cases hlz : C.lower (c :: z) with
      | nil => exact absurd hlz hne
      | cons d w => rw [hlz] at h; simpa using h
    have := lower_hasSpace hC (List.mem_of_getLast? hl)
    rw [← hxr] at this
    exact absurd (List.mem_reverse.1 this) hx

/-- Type and value in lower case. -/
def lowAva (C : CaseEnv) (a : AVA) : AVA := ⟨a.typ.map lowerByte, C.lower a.val⟩

theorem simple_lowAva (hC : C.Lawful) {a : AVA} (h : SimpleAva C a) : SimpleAva C (lowAva C a) := by
  obtain ⟨⟨h1, h2⟩, h3, h4, h5, h6, h7, h8⟩ := h
  refine ⟨⟨by simpa [lowAva] using h1, ?_⟩, fun e => h3 (hC.lower_eq_nil _ e), ?_, fun e => h5 (lower_head hC e), fun e => h6 (lower_last hC e),
    hC.lower_valid _ h7, hC.lower_trimmed _ h8⟩
  · intro c hc
    obtain ⟨d, hd, rfl⟩ := List.mem_map.1 hc
    exact (okTypeByte_facts' d (h2 d hd)).2.2.2.2.2.2.2.2.1
  · intro c hc
    by_cases hc1 : c < 128
    · rcases hC.lower_byte _ c hc hc1 with h | h
      · exact h4 c h
      · exact (show ∀ c : UInt8, 97 ≤ c ∧ c ≤ 122 → okValByte c = true by decide +kernel) c h
    · exact (show ∀ c : UInt8, ¬ c < 128 → okValByte c = true by decide +kernel) c hc1

theorem typeOk_ascii {t : Str} (h : TypeOk t) : IsAscii t := fun c hc => (okTypeByte_facts' c (h.2 c hc)).2.2.2.2.2.2.2.1

theorem lower_plainText (hC : C.Lawful) : ∀ (ns : List AVA), (∀ a ∈ ns, SimpleAva C a) → C.lower (plainText ns) = plainText (ns.map (lowAva C))
  | [], _ => hC.lower_nil
  | [a], h => by
    rw [plainText, hC.lower_split _ chEq _ (by decide), lower_ascii hC (typeOk_ascii (h a (by simp)).1)]
    rfl
  | a :: b :: bs, h => by
    rw [plainText_cons (by simp), hC.lower_split _ chComma _ (by decide), lower_plainText hC (b :: bs) (fun c hc => h c (by simp [hc])),
      hC.lower_split _ chEq _ (by decide), lower_ascii hC (typeOk_ascii (h a (by simp)).1)]
    rfl

theorem lower_plain (hC : C.Lawful) {s : Str} {ns : List AVA} (h : PlainDN C s ns) : PlainDN C (C.lower s) (ns.map (lowAva C)) := by
  obtain ⟨rfl, h2⟩ := h
  refine ⟨lower_plainText hC ns h2, ?_⟩
  intro a ha
  obtain ⟨b, hb, rfl⟩ := List.mem_map.1 ha
  exact simple_lowAva hC (h2 b hb)

theorem wholeEscapes_plain : ∀ (x : Str), (∀ c ∈ x, c ≠ chBackslash ∧ c ≠ chSemi) → wholeEscapes x = true
  | [], _ => rfl
  | [c], h => by
    have := h c (by simp)
    simp only [wholeEscapes, Bool.and_eq_true, bne_iff_ne]
    exact this
  | c :: d :: s, h => by
    have := h c (by simp)
    rw [wholeEscapes, if_neg (show c ≠ 92 from this.1), wholeEscapes_plain (d :: s) fun e he => h e (List.mem_cons_of_mem _ he), Bool.and_true, bne_iff_ne]
    exact this.2

theorem plainFirst_plain {s : Str} {ns : List AVA} (h : PlainDN C s ns) : PlainFirst s := by
  obtain ⟨rfl, h2⟩ := h
  have key : ∀ c ∈ plainText ns, c ≠ chBackslash ∧ c ≠ chSemi := by
    induction ns with
    | nil => simp [plainText]
    | cons a as ih =>
      intro c hc
      have hmem : c ∈ a.typ ∨ c = chEq ∨ c ∈ a.val ∨ c = chComma ∨ c ∈ plainText as := by
        by_cases hne : as = []
        · subst hne
          simp only [plainText, List.mem_append, List.mem_cons] at hc
          rcases hc with h | h | h <;> simp [h]
        · rw [plainText_cons hne] at hc
          simp only [List.mem_append, List.mem_cons] at hc
          rcases hc with (h | h | h) | h | h <;> simp [h]
      rcases hmem with h | h | h | h | h
      · have := okTypeByte_facts' c ((h2 a (by simp)).1.2 c h); exact ⟨this.2.2.1, this.2.2.2.1⟩
      · subst h; decide
      · have := okValByte_facts c ((h2 a (by simp)).2.2.1 c h); exact ⟨this.2.2.2.1, this.2.2.2.2.1⟩
      · subst h; decide
      · exact ih (fun b hb => h2 b (by simp [hb])) c h
  refine ⟨wholeEscapes_plain _ fun c hc => key c ((List.takeWhile_sublist _).mem hc), fun hcm => ?_⟩
  cases ns with
  | nil => cases hcm
  | cons a as =>
    have ha := h2 a (by simp)
    have hno : chComma ∉ a.typ ++ chEq :: a.val := by
      intro h
      rcases List.mem_append.1 h with h | h
      · exact (okTypeByte_facts' _ (ha.1.2 _ h)).2.1 rfl
      · rcases List.mem_cons.1 h with h | h
        · revert h; decide
        · exact (okValByte_facts _ (ha.2.2.1 _ h)).2.2.1 rfl
    cases as with
    | nil => exact absurd hcm hno
    | cons b bs =>
      rw [plainText_cons (by simp), dropWhile_comma hno, List.drop_one, List.tail_cons]
      have hb := h2 b (by simp)
      obtain ⟨c, t, ht⟩ : ∃ c t, b.typ = c :: t := by
        cases hbt : b.typ with
        | nil => exact absurd hbt hb.1.1
        | cons c t => exact ⟨c, t, rfl⟩
      obtain ⟨u, hu⟩ : ∃ u, plainText (b :: bs) = c :: u := by
        cases bs with
        | nil => exact ⟨_, by rw [plainText, ht]; rfl⟩
        | cons b' bs => exact ⟨_, by rw [plainText_cons (by simp), ht]; rfl⟩
      have hc : okTypeByte c = true := hb.1.2 c (by rw [ht]; simp)
      have : ∀ c : UInt8, okTypeByte c = true → (c == 32) = false ∧ (33 ≤ c && c ≤ 126) = true := by decide +kernel
      rw [hu, List.dropWhile_cons_of_neg (by rw [(this c hc).1]; decide), List.head?_cons, Option.any_some, (this c hc).2]

/-! ## Same name, suffixes -/

theorem lowAva_eq_iff {a b : AVA} : lowAva C a = lowAva C b ↔ a.typ.map lowerByte = b.typ.map lowerByte ∧ C.lower a.val = C.lower b.val := by
  simp [lowAva]

/-- `strings.EqualFold` and `strings.ToLower` agree on the values. -/
def ValuesAgree (C : CaseEnv) (p q : List AVA) : Prop := ∀ a ∈ p, ∀ b ∈ q, (C.eqFold a.val b.val = true ↔ C.lower a.val = C.lower b.val)

theorem NamesAgree.values {ns nb : List AVA} (h : NamesAgree C ns nb) : ValuesAgree C ns nb := fun a ha b hb => (h a ha b hb).1

theorem NamesAgree.lowered (hC : C.Lawful) {ns nb : List AVA} (h : NamesAgree C ns nb) : ValuesAgree C (ns.map (lowAva C)) nb := by
  intro a ha b hb
  obtain ⟨a', ha', rfl⟩ := List.mem_map.1 ha
  show C.eqFold (C.lower a'.val) b.val = true ↔ C.lower (C.lower a'.val) = C.lower b.val
  rw [hC.lower_idem]
  exact (h a' ha' b hb).2

/-- ASCII values agree. -/
theorem namesAgree_ascii (hC : C.Lawful) {ns nb : List AVA} (h1 : ∀ a ∈ ns, IsAscii a.val) (h2 : ∀ b ∈ nb, IsAscii b.val) : NamesAgree C ns nb := by
  intro a ha b hb
  have hl := lower_ascii hC (h1 a ha)
  have hla : IsAscii (a.val.map lowerByte) := by
    intro c hc
    obtain ⟨d, hd, rfl⟩ := List.mem_map.1 hc
    exact (show ∀ d : UInt8, d < 128 → lowerByte d < 128 by decide +kernel) d (h1 a ha d hd)
  rw [hl, lower_ascii hC (h2 b hb), hC.eqFold_ascii _ _ (h1 a ha) (h2 b hb), hC.eqFold_ascii _ _ hla (h2 b hb)]
  simp only [List.map_map, Function.comp_def, lowerByte_idem, and_self]

theorem sameDn_plain (hC : C.Lawful) {p q : List AVA} (hp : ∀ a ∈ p, SimpleAva C a) (hq : ∀ a ∈ q, SimpleAva C a) (hag : ValuesAgree C p q) :
    SameDn C (dnOf p) (dnOf q) ↔ p.map (lowAva C) = q.map (lowAva C) := by
  rw [← dnEqFold_iff]
  induction p generalizing q with
  | nil => cases q <;> simp [dnOf, dnEqFold]
  | cons a p ih =>
    cases q with
    | nil => simp [dnOf, dnEqFold]
    | cons b q =>
      have ih' := ih (q := q) (fun c hc => hp c (by simp [hc])) (fun c hc => hq c (by simp [hc])) (fun c hc d hd => hag c (by simp [hc]) d (by simp [hd]))
      have ha := typeOk_ascii (hp a (by simp)).1
      have hb := typeOk_ascii (hq b (by simp)).1
      have h1 := hC.eqFold_ascii _ _ ha hb
      have h2 := hag a (by simp) b (by simp)
      have h1' := hC.eqFold_ascii _ _ hb ha
      have h2' : C.eqFold b.val a.val = true ↔ C.lower a.val = C.lower b.val := by rw [hC.eqFold_symm]; exact h2
      simp only [dnOf, List.map_cons, dnEqFold, rdnEqFold, AVA.eqFold, Bool.and_eq_true, List.cons.injEq, lowAva_eq_iff] at ih' ⊢
      simp only [← ih', List.length_singleton, beq_self_eq_true, List.all_cons, List.all_nil, List.any_cons, List.any_nil, Bool.or_false,
        Bool.and_true, Bool.and_eq_true, h1, h2, h1', h2', true_and]
      constructor
      · rintro ⟨⟨h, -⟩, h'⟩; exact ⟨h, h'⟩
      · rintro ⟨h, h'⟩; exact ⟨⟨h, h.1.symm, h.2⟩, h'⟩

theorem inScope2_plain (hC : C.Lawful) {b n : List AVA} (hb : ∀ a ∈ b, SimpleAva C a) (hn : ∀ a ∈ n, SimpleAva C a) (hag : ValuesAgree C n b) :
    InScopeFold C 2 (dnOf b) (dnOf n) ↔ b.map (lowAva C) <:+ n.map (lowAva C) := by
  constructor
  · rintro (⟨h, -⟩ | ⟨h, -⟩ | ⟨-, q, p, h1, h2⟩)
    · cases h
    · cases h
    · obtain ⟨q', p', rfl, rfl, rfl⟩ := List.map_eq_append_iff.1 h1
      have h2 : SameDn C (dnOf p') (dnOf b) := h2
      rw [sameDn_plain hC (p := p') (fun a ha => hn a (by simp [ha])) hb (fun a ha => hag a (by simp [ha]))] at h2
      exact ⟨q'.map (lowAva C), by rw [← h2]; simp⟩
  · rintro ⟨t, ht⟩
    obtain ⟨q, p, rfl, rfl, h⟩ := List.map_eq_append_iff.1 ht.symm
    refine Or.inr (Or.inr ⟨rfl, dnOf q, dnOf p, by simp [dnOf], ?_⟩)
    exact (sameDn_plain hC (fun a ha => hn a (by simp [ha])) hb (fun a ha => hag a (by simp [ha]))).2 h

theorem inScope_sub {s : Nat} {b n : DN} (h : InScopeFold C s b n) : InScopeFold C 2 b n := by
  rcases h with ⟨-, h⟩ | ⟨-, r, p, rfl, h⟩ | ⟨-, q, p, rfl, h⟩
  · exact Or.inr (Or.inr ⟨rfl, [], n, rfl, h⟩)
  · exact Or.inr (Or.inr ⟨rfl, [r], p, rfl, h⟩)
  · exact Or.inr (Or.inr ⟨rfl, q, p, rfl, h⟩)

theorem plainText_suffix {b n : List AVA} (hb : b ≠ []) (h : b <:+ n) : hasSuffix (plainText n) (plainText b) = true := by
  obtain ⟨q, rfl⟩ := h
  simp only [hasSuffix, List.isSuffixOf_iff_suffix]
  induction q with
  | nil => exact List.suffix_refl _
  | cons a q ih =>
    rw [List.cons_append, plainText_cons (by simp [hb])]
    exact ih.trans ⟨a.typ ++ chEq :: a.val ++ [chComma], by simp⟩

theorem mem_plainText_head {b : AVA} {bs : List AVA} : ∃ t, plainText (b :: bs) = b.typ ++ chEq :: t := by
  cases bs with
  | nil => exact ⟨b.val, rfl⟩
  | cons c cs => exact ⟨b.val ++ chComma :: plainText (c :: cs), by simp [plainText]⟩

theorem first_eq {x y s t : Str} (hx : chEq ∉ x) (hy : chEq ∉ y) (h : x ++ chEq :: s = y ++ chEq :: t) : x = y ∧ s = t := by
  induction x generalizing y with
  | nil =>
    cases y with
    | nil => simpa using h
    | cons c y => simp only [List.nil_append, List.cons_append, List.cons.injEq] at h; exact absurd h.1 (by rintro rfl; simp at hy)
  | cons c x ih =>
    cases y with
    | nil => simp only [List.nil_append, List.cons_append, List.cons.injEq] at h; exact absurd h.1 (by rintro rfl; simp at hx)
    | cons d y =>
      simp only [List.cons_append, List.cons.injEq, List.mem_cons, not_or] at h hx hy
      obtain ⟨h1, h2⟩ := ih hx.2 hy.2 h.2
      exact ⟨by rw [h.1, h1], h2⟩

theorem first_comma {x y s t : Str} (hx : chComma ∉ x) (hy : chComma ∉ y) (h : x ++ chComma :: s = y ++ chComma :: t) : x = y ∧ s = t := by
  induction x generalizing y with
  | nil =>
    cases y with
    | nil => simpa using h
    | cons c y => simp only [List.nil_append, List.cons_append, List.cons.injEq] at h; exact absurd h.1 (by rintro rfl; simp at hy)
  | cons c x ih =>
    cases y with
    | nil => simp only [List.nil_append, List.cons_append, List.cons.injEq] at h; exact absurd h.1 (by rintro rfl; simp at hx)
    | cons d y =>
      simp only [List.cons_append, List.cons.injEq, List.mem_cons, not_or] at h hx hy
      obtain ⟨h1, h2⟩ := ih hx.2 hy.2 h.2
      exact ⟨by rw [h.1, h1], h2⟩

theorem plainText_inj {p q : List AVA} (hp : ∀ a ∈ p, SimpleAva C a) (hq : ∀ a ∈ q, SimpleAva C a) (h : plainText p = plainText q) : p = q := by
  have htyp : ∀ a : AVA, SimpleAva C a → chEq ∉ a.typ := fun a ha hm => (okTypeByte_facts' _ (ha.1.2 _ hm)).1 rfl
  have hval : ∀ a : AVA, SimpleAva C a → chComma ∉ a.val := fun a ha hm => (okValByte_facts _ (ha.2.2.1 _ hm)).2.2.1 rfl
  induction p generalizing q with
  | nil =>
    cases q with
    | nil => rfl
    | cons b bs => obtain ⟨t, ht⟩ := mem_plainText_head (b := b) (bs := bs); rw [ht] at h; simp [plainText] at h
  | cons a as ih =>
    cases q with
    | nil => obtain ⟨t, ht⟩ := mem_plainText_head (b := a) (bs := as); rw [ht] at h; simp [plainText] at h
    | cons b bs =>
      have ha := hp a (by simp)
      have hb := hq b (by simp)
      have two : ∀ (x : AVA) (xs : List AVA), xs ≠ [] → plainText (x :: xs) = x.typ ++ chEq :: (x.val ++ chComma :: plainText xs) := by
        intro x xs hx
        rw [plainText_cons hx, List.append_assoc, List.cons_append]
      cases as with
      | nil =>
        cases bs with
        | nil =>
          obtain ⟨h1, h2⟩ := first_eq (htyp a ha) (htyp b hb) h
          cases a; cases b; simp only at h1 h2; rw [h1, h2]
        | cons b' bs =>
          rw [two b _ (by simp)] at h
          obtain ⟨-, h2⟩ := first_eq (htyp a ha) (htyp b hb) h
          exact absurd (by rw [h2]; simp) (hval a ha)
      | cons a' as =>
        rw [two a _ (by simp)] at h
        cases bs with
        | nil =>
          obtain ⟨-, h2⟩ := first_eq (htyp a ha) (htyp b hb) h
          exact absurd (by rw [← h2]; simp) (hval b hb)
        | cons b' bs =>
          rw [two b _ (by simp)] at h
          obtain ⟨h1, h2⟩ := first_eq (htyp a ha) (htyp b hb) h
          obtain ⟨h3, h4⟩ := first_comma (hval a ha) (hval b hb) h2
          have := ih (fun c hc => hp c (by simp [hc])) (fun c hc => hq c (by simp [hc])) h4
          rw [this]
          cases a; cases b; simp only at h1 h3; rw [h1, h3]

/-- A text suffix of a plain name that is a plain name is a suffix of the name, if no type of the name is longer than the first type of the
suffix and ends in it. -/
theorem suffix_plainText {b : AVA} {bs n : List AVA} (hb : ∀ a ∈ b :: bs, SimpleAva C a) (hn : ∀ a ∈ n, SimpleAva C a)
    (ht : ∀ a ∈ n, hasSuffix a.typ b.typ = true → a.typ = b.typ) (h : plainText (b :: bs) <:+ plainText n) : b :: bs <:+ n := by
  have htyp : ∀ a : AVA, SimpleAva C a → chEq ∉ a.typ := fun a ha hm => (okTypeByte_facts' _ (ha.1.2 _ hm)).1 rfl
  have hval : ∀ a : AVA, SimpleAva C a → chEq ∉ a.val := fun a ha hm => (okValByte_facts _ (ha.2.2.1 _ hm)).2.1 rfl
  induction n with
  | nil =>
    obtain ⟨t, h1⟩ := mem_plainText_head (b := b) (bs := bs)
    rw [h1] at h
    simp [plainText] at h
  | cons a as ih =>
    have hsa := hn a (by simp)
    have hsb := hb b (by simp)
    obtain ⟨t, h1⟩ := mem_plainText_head (b := b) (bs := bs)
    -- the first part of the text
    have whole : ∀ pre, plainText (a :: as) = pre ++ plainText (b :: bs) → (∃ u, a.typ = pre ++ u ∧ u ++ chEq :: (plainText (a :: as)).drop (a.typ.length + 1) = plainText (b :: bs)) →
        b :: bs <:+ a :: as := by
      rintro pre hpre ⟨u, hu, hu2⟩
      rw [h1] at hu2
      have hue : chEq ∉ u := fun hm => htyp a hsa (by rw [hu]; simp [hm])
      obtain ⟨e1, -⟩ := first_eq hue (htyp b hsb) hu2
      have : a.typ = b.typ := ht a (by simp) (by
        simp only [hasSuffix, List.isSuffixOf_iff_suffix]
        exact ⟨pre, by rw [hu, e1]⟩)
      have hpre0 : pre = [] := by
        have h4 := hu
        rw [e1, this] at h4
        have := congrArg List.length h4
        simp only [List.length_append] at this
        exact List.eq_nil_of_length_eq_zero (by omega)
      subst hpre0
      rw [List.nil_append] at hpre
      rw [plainText_inj hn hb hpre]
      exact List.suffix_refl _
    obtain ⟨pre, hpre⟩ := h
    by_cases hl : pre.length ≤ a.typ.length
    · -- the suffix starts inside the first type
      obtain ⟨t', h2⟩ := mem_plainText_head (b := a) (bs := as)
      rw [h2] at hpre
      obtain ⟨u, hu⟩ : ∃ u, a.typ = pre ++ u := by
        rcases List.append_eq_append_iff.1 hpre with ⟨u, hu, -⟩ | ⟨u, hu, -⟩
        · exact ⟨u, hu⟩
        · refine ⟨[], ?_⟩
          have := congrArg List.length hu
          simp only [List.length_append] at this
          have : u = [] := List.eq_nil_of_length_eq_zero (by omega)
          rw [hu, this]; simp
      refine whole pre (by rw [h2, ← hpre]) ⟨u, hu, ?_⟩
      have h3 : (plainText (a :: as)).drop (a.typ.length + 1) = t' := by
        rw [h2]; simp [List.drop_append]
      rw [h3]
      rw [hu, List.append_assoc] at hpre
      exact (List.append_cancel_left hpre).symm
    · -- it starts later
      by_cases hne : as = []
      · subst hne
        exfalso
        have hx : a.typ ++ chEq :: a.val = pre ++ plainText (b :: bs) := by rw [hpre]; rfl
        rcases List.append_eq_append_iff.1 hx with ⟨u, hu, hu2⟩ | ⟨u, hu, -⟩
        · cases u with
          | nil => simp at hu; rw [hu] at hl; omega
          | cons c u =>
            simp only [List.cons_append, List.cons.injEq] at hu2
            apply hval a hsa
            rw [hu2.2, h1]
            simp
        · have := congrArg List.length hu
          simp only [List.length_append] at this
          omega
      · have hx : a.typ ++ chEq :: a.val ++ chComma :: plainText as = pre ++ plainText (b :: bs) := by rw [hpre, plainText_cons hne]
        rcases List.append_eq_append_iff.1 hx with ⟨u, hu, hu2⟩ | ⟨u, hu, hu2⟩
        · cases u with
          | nil =>
            simp only [List.nil_append] at hu2
            exfalso
            rw [h1] at hu2
            cases hbt : b.typ with
            | nil => exact hsb.1.1 hbt
            | cons c cs =>
              rw [hbt] at hu2
              simp only [List.cons_append, List.cons.injEq] at hu2
              exact (okTypeByte_facts' c (hsb.1.2 c (by simp [hbt]))).2.1 hu2.1.symm
          | cons c u =>
            simp only [List.cons_append, List.cons.injEq] at hu2
            have := ih (fun x hx => hn x (by simp [hx])) (fun x hx => ht x (by simp [hx])) ⟨u, hu2.2.symm⟩
            exact this.trans (List.suffix_cons a as)
        · -- the suffix starts inside the first value (or after its end)
          exfalso
          rcases List.append_eq_append_iff.1 hu with ⟨w, hw, hw2⟩ | ⟨w, hw, -⟩
          · cases w with
            | nil => simp at hw; rw [hw] at hl; omega
            | cons c w =>
              simp only [List.cons_append, List.cons.injEq] at hw2
              have hu3 : chEq ∉ u := fun hm => hval a hsa (by rw [hw2.2]; simp [hm])
              rw [h1] at hu2
              -- b.typ ++ '=' :: t = u ++ ',' :: …
              have hc : chComma ∉ b.typ := fun hm => (okTypeByte_facts' _ (hsb.1.2 _ hm)).2.1 rfl
              rcases List.append_eq_append_iff.1 hu2 with ⟨z, hz, hz2⟩ | ⟨z, hz, hz2⟩
              · cases z with
                | nil => simp [chEq, chComma] at hz2
                | cons d z =>
                  simp only [List.cons_append, List.cons.injEq] at hz2
                  exact hu3 (by rw [hz, ← hz2.1]; simp)
              · cases z with
                | nil => simp [chEq, chComma] at hz2
                | cons d z =>
                  simp only [List.cons_append, List.cons.injEq] at hz2
                  exact hc (by rw [hz, ← hz2.1]; simp)
          · have := congrArg List.length hw
            simp only [List.length_append] at this
            omega

end
end Idm
