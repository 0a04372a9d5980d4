import Verif.Model.FilterText
import Verif.Spec.FilterText
import Verif.Props.Filter
/-!
# C59: turning a filter into text and back does not change it
-/
namespace Idm

theorem escape_bytes : ∀ c : UInt8, mustEscape c = true →
    hexVal (hexDigit (c / 16)) = some (c / 16) ∧ hexVal (hexDigit (c % 16)) = some (c % 16) ∧ (c / 16) * 16 + c % 16 = c ∧
    hexDigit (c / 16) < 128 ∧ hexDigit (c % 16) < 128 ∧ hexDigit (c / 16) ∉ b!"()*" ∧ hexDigit (c % 16) ∉ b!"()*" := by
  have : ∀ n : Fin 256, mustEscape (UInt8.ofNat n) = true →
    hexVal (hexDigit (UInt8.ofNat n / 16)) = some (UInt8.ofNat n / 16) ∧ hexVal (hexDigit (UInt8.ofNat n % 16)) = some (UInt8.ofNat n % 16) ∧
    (UInt8.ofNat n / 16) * 16 + UInt8.ofNat n % 16 = UInt8.ofNat n ∧
    hexDigit (UInt8.ofNat n / 16) < 128 ∧ hexDigit (UInt8.ofNat n % 16) < 128 ∧ hexDigit (UInt8.ofNat n / 16) ∉ b!"()*" ∧
    hexDigit (UInt8.ofNat n % 16) ∉ b!"()*" := by decide +kernel
  intro c
  have h := this ⟨c.toNat, c.toNat_lt⟩
  simpa using h

theorem escape_plain : ∀ c : UInt8, mustEscape c = false → c < 128 ∧ c ∉ b!"()*" ∧ c ≠ chBackslash := by
  have : ∀ n : Fin 256, mustEscape (UInt8.ofNat n) = false →
    UInt8.ofNat n < 128 ∧ UInt8.ofNat n ∉ b!"()*" ∧ UInt8.ofNat n ≠ chBackslash := by decide +kernel
  intro c
  have h := this ⟨c.toNat, c.toNat_lt⟩
  simpa using h

theorem escape_cons (c : UInt8) (v : Str) : escapeFilter (c :: v) =
    (if mustEscape c then [chBackslash, hexDigit (c / 16), hexDigit (c % 16)] else [c]) ++ escapeFilter v := rfl

theorem decode_escape (v : Str) : decodeEscapes (escapeFilter v) = some v := by
  induction v with
  | nil => rfl
  | cons c v ih =>
    rw [escape_cons]
    by_cases h : mustEscape c = true
    · obtain ⟨h1, h2, h3, -⟩ := escape_bytes c h
      rw [if_pos h]
      simp only [List.cons_append, List.nil_append, decodeEscapes, if_pos trivial, h1, h2, ih, h3, Option.bind_eq_bind,
        Option.bind_some]
    · have h' : mustEscape c = false := by simpa using h
      rw [if_neg h]
      rw [List.cons_append, List.nil_append, decodeEscapes.eq_def]
      simp [(escape_plain c h').2.2, ih]

theorem escape_text (v : Str) : ∀ c ∈ escapeFilter v, c < 128 ∧ c ∉ b!"()*" := by
  intro c hc
  obtain ⟨d, -, hd⟩ := List.mem_flatMap.1 hc
  by_cases h : mustEscape d = true
  · obtain ⟨-, -, -, h1, h2, h3, h4⟩ := escape_bytes d h
    rw [if_pos h] at hd
    simp only [List.mem_cons, List.not_mem_nil, or_false] at hd
    rcases hd with rfl | rfl | rfl
    · decide
    · exact ⟨h1, h3⟩
    · exact ⟨h2, h4⟩
  · have h' : mustEscape d = false := by simpa using h
    rw [if_neg h, List.mem_singleton] at hd
    subst hd
    exact ⟨(escape_plain c h').1, (escape_plain c h').2.1⟩

theorem escape_nil {v : Str} (h : escapeFilter v = []) : v = [] := by
  have := decode_escape v
  rw [h] at this
  simpa [decodeEscapes] using this.symm

/-! ## The item loop -/

theorem itemLoop_attr {a : Str} (ha : AttrText a) (st : ItemSt) (hm : st.mode = 0) (hs : st.skip = 0) (rest : Str) :
    itemLoop st (a ++ rest) = itemLoop { st with attr := st.attr ++ a } rest := by
  induction a generalizing st with
  | nil => simp
  | cons c a ih =>
    have hc := (ha c (by simp)).2
    have h2 : ∀ c' ∈ a, c' < 128 ∧ c' ∉ b!"()&|!:=<>~" := fun c' h => ha c' (by simp [h])
    simp only [List.mem_cons, List.not_mem_nil, or_false, not_or] at hc
    obtain ⟨-, c2, -, -, -, c6, c7, c8, c9, c10⟩ := hc
    have hstep : itemStep st c (c :: (a ++ rest)) = { st with attr := st.attr ++ [c] } := by
      simp [itemStep, hm, hasPrefix, List.isPrefixOf, chColon, chEq, Ne.symm c6, c6, c7, Ne.symm c8, Ne.symm c9, Ne.symm c10]
    rw [List.cons_append, itemLoop, if_neg (by omega), if_neg (by exact c2), hstep, ih h2 { st with attr := st.attr ++ [c] } hm hs]
    simp

theorem itemLoop_cond (v : Str) (hv : chRPar ∉ v) (st : ItemSt) (hm : st.mode = 2) (hs : st.skip = 0) (rest : Str) :
    itemLoop st (v ++ chRPar :: rest) = some ({ st with cond := st.cond ++ v }, rest) := by
  induction v generalizing st with
  | nil => cases st; simp_all [itemLoop]
  | cons c v ih =>
    simp only [List.mem_cons, not_or] at hv
    have hstep : itemStep st c (c :: (v ++ chRPar :: rest)) = { st with cond := st.cond ++ [c] } := by simp [itemStep, hm]
    rw [List.cons_append, itemLoop, if_neg (by omega), if_neg (Ne.symm hv.1), hstep, ih hv.2 { st with cond := st.cond ++ [c] } hm hs]
    simp

/-- The item loop on attribute, operator and condition. -/
theorem itemLoop_item {a v : Str} (ha : AttrText a) (hv : chRPar ∉ v) (rest : Str) :
    itemLoop {} (a ++ b!"=" ++ v ++ b!")" ++ rest) = some ({ mode := 2, tag := some 3, attr := a, cond := v }, rest) ∧
    itemLoop {} (a ++ b!">=" ++ v ++ b!")" ++ rest) = some ({ mode := 2, tag := some 5, attr := a, cond := v }, rest) ∧
    itemLoop {} (a ++ b!"<=" ++ v ++ b!")" ++ rest) = some ({ mode := 2, tag := some 6, attr := a, cond := v }, rest) ∧
    itemLoop {} (a ++ b!"~=" ++ v ++ b!")" ++ rest) = some ({ mode := 2, tag := some 8, attr := a, cond := v }, rest) := by
  refine ⟨?_, ?_, ?_, ?_⟩
  all_goals
    simp only [List.append_assoc]
    rw [itemLoop_attr ha {} rfl rfl]
    simp only [List.cons_append, List.nil_append]
    simp only [itemLoop, itemStep, hasPrefix, List.isPrefixOf, chRPar, chColon, chEq]
    simp
    rw [show (41 : UInt8) = chRPar from rfl, itemLoop_cond v hv _ rfl rfl]
    rfl

theorem itemLoop_rule (r : Str) (hr : AttrText r) (st : ItemSt) (hm : st.mode = 1) (hs : st.skip = 0) (rest : Str) :
    itemLoop st (r ++ rest) = itemLoop { st with rule := st.rule ++ r } rest := by
  induction r generalizing st with
  | nil => simp
  | cons c r ih =>
    have hc := (hr c (by simp)).2
    have h2 : ∀ c' ∈ r, c' < 128 ∧ c' ∉ b!"()&|!:=<>~" := fun c' h => hr c' (by simp [h])
    simp only [List.mem_cons, List.not_mem_nil, or_false, not_or] at hc
    obtain ⟨-, c2, -, -, -, c6, -⟩ := hc
    have hstep : itemStep st c (c :: (r ++ rest)) = { st with rule := st.rule ++ [c] } := by
      simp [itemStep, hm, hasPrefix, List.isPrefixOf, Ne.symm c6]
    rw [List.cons_append, itemLoop, if_neg (by omega), if_neg (by exact c2), hstep, ih h2 { st with rule := st.rule ++ [c] } hm hs]
    simp

/-- The item loop on an extensible match without rule. -/
theorem itemLoop_ext {a v : Str} (ha : AttrText a) (hv : chRPar ∉ v) (rest : Str) :
    itemLoop {} (a ++ b!":=" ++ v ++ b!")" ++ rest) = some ({ mode := 2, tag := some 9, attr := a, cond := v }, rest) := by
  simp only [List.append_assoc]
  rw [itemLoop_attr ha {} rfl rfl]
  simp only [List.cons_append, List.nil_append]
  simp only [itemLoop, itemStep, hasPrefix, List.isPrefixOf, chRPar]
  simp
  rw [show (41 : UInt8) = chRPar from rfl, itemLoop_cond v hv _ rfl rfl]
  rfl

/-- The item loop on an extensible match with a rule. -/
theorem itemLoop_extRule {a r v : Str} (ha : AttrText a) (hr : AttrText r) (hr0 : r ≠ []) (hdn : r ≠ b!"dn") (hv : chRPar ∉ v) (rest : Str) :
    itemLoop {} (a ++ b!":" ++ r ++ b!":=" ++ v ++ b!")" ++ rest) =
      some ({ mode := 2, tag := some 9, attr := a, rule := r, cond := v }, rest) := by
  simp only [List.append_assoc]
  rw [itemLoop_attr ha {} rfl rfl]
  simp only [List.cons_append, List.nil_append]
  have hno : ∀ c ∈ r, c ≠ 58 ∧ c ≠ 61 := by
    intro c hc
    have := (hr c hc).2
    simp only [List.mem_cons, List.not_mem_nil, or_false, not_or] at this
    exact ⟨this.2.2.2.2.2.1, this.2.2.2.2.2.2.1⟩
  have h1 : ¬ hasPrefix (58 :: (r ++ 58 :: 61 :: (v ++ 41 :: rest))) b!":dn:" = true := by
    intro h
    match r, hr0, hdn, hno with
    | [c], _, _, hno => simp [hasPrefix, List.isPrefixOf] at h
    | [c, d], _, hdn, hno =>
      simp [hasPrefix, List.isPrefixOf] at h
      exact hdn (by rw [← h.1, ← h.2])
    | c :: d :: e :: _, _, _, hno =>
      simp [hasPrefix, List.isPrefixOf] at h
      exact (hno e (by simp)).1 h.2.2.symm
  have h2 : ¬ hasPrefix (58 :: (r ++ 58 :: 61 :: (v ++ 41 :: rest))) b!":dn:=" = true := by
    intro h
    apply h1
    match r, hr0 with
    | [c], _ => simp [hasPrefix, List.isPrefixOf] at h
    | [c, d], _ => simpa [hasPrefix, List.isPrefixOf] using h
    | [c, d, e], _ => simp [hasPrefix, List.isPrefixOf] at h
    | c :: d :: e :: f :: _, _ => simp [hasPrefix, List.isPrefixOf] at h ⊢; exact ⟨h.1, h.2.1, h.2.2.1⟩
  have h3 : ¬ hasPrefix (58 :: (r ++ 58 :: 61 :: (v ++ 41 :: rest))) b!":=" = true := by
    intro h
    match r, hr0, hno with
    | c :: _, _, hno =>
      simp [hasPrefix, List.isPrefixOf] at h
      exact (hno c (by simp)).2 h.symm
  rw [itemLoop, if_neg (by simp), if_neg (by decide), itemStep, if_pos rfl, if_neg h2, if_neg h1, if_neg h3, if_pos (by decide),
    itemLoop_rule r hr _ rfl rfl]
  simp only [itemLoop, itemStep, hasPrefix, List.isPrefixOf, chRPar]
  simp
  rw [show (41 : UInt8) = chRPar from rfl, itemLoop_cond v hv _ rfl rfl]
  rfl

/-- The text of an extensible match depends on tags, values and data of its parts. -/
theorem decompileExt_map (a r v : Str) (d : Bool) (cs ds : List Packet)
    (h : cs.map (fun q => (q.tag, q.val, q.data)) = ds.map (fun q => (q.tag, q.val, q.data))) :
    decompileExt a r v d cs = decompileExt a r v d ds := by
  induction cs generalizing a r v d ds with
  | nil => cases ds with
    | nil => rfl
    | cons => simp at h
  | cons c cs ih => cases ds with
    | nil => simp at h
    | cons e es =>
      simp only [List.map_cons, List.cons.injEq, Prod.mk.injEq] at h
      obtain ⟨⟨h1, h2, h3⟩, h4⟩ := h
      simp only [decompileExt, h1, h2, h3, ih _ _ _ _ _ h4]

/-! ## Substrings -/

/-- Join with `*`. -/
def joinStar : List Str → Str
  | [] => []
  | [p] => p
  | p :: ps => p ++ chStar :: joinStar ps

theorem splitStar_noStar (p : Str) (h : chStar ∉ p) : splitStar p = [p] := by
  induction p with
  | nil => rfl
  | cons c p ih =>
    simp only [List.mem_cons, not_or] at h
    rw [splitStar, if_neg (Ne.symm h.1), ih h.2]

theorem splitStar_star (p s : Str) (h : chStar ∉ p) : splitStar (p ++ chStar :: s) = p :: splitStar s := by
  induction p with
  | nil => simp [splitStar]
  | cons c p ih =>
    simp only [List.mem_cons, not_or] at h
    rw [List.cons_append, splitStar, if_neg (Ne.symm h.1), ih h.2]

theorem split_join : ∀ ps : List Str, ps ≠ [] → (∀ p ∈ ps, chStar ∉ p) → splitStar (joinStar ps) = ps
  | [], h, _ => absurd rfl h
  | [p], _, h => splitStar_noStar p (h p (by simp))
  | p :: q :: ps, _, h => by
    rw [joinStar, splitStar_star p _ (h p (by simp)), split_join (q :: ps) (by simp) (fun x hx => h x (by simp [hx]))]
    simp

/-- The parts between the stars. -/
def parts (i : Option Str) (m : List Str) (f : Option Str) : List Str :=
  (escapeFilter (i.getD []) :: m.map escapeFilter) ++ [escapeFilter (f.getD [])]

theorem decompileSubs_map (first : Bool) (cs ds : List Packet) (h : cs.map (fun q => (q.tag, q.data)) = ds.map (fun q => (q.tag, q.data))) :
    decompileSubs first cs = decompileSubs first ds := by
  induction cs generalizing ds first with
  | nil => cases ds with
    | nil => rfl
    | cons => simp at h
  | cons c cs ih => cases ds with
    | nil => simp at h
    | cons d ds =>
      simp only [List.map_cons, List.cons.injEq, Prod.mk.injEq] at h
      simp only [decompileSubs, h.1.1, h.1.2, ih false ds h.2]

theorem decompileSubs_mid (m : List Str) (f : Option Str) :
    decompileSubs false (m.map (ctxStr 1) ++ f.toList.map (ctxStr 2)) = joinStar (m.map escapeFilter ++ [escapeFilter (f.getD [])]) := by
  induction m with
  | nil => cases f <;> simp [decompileSubs, joinStar, ctxStr, Packet.tag, Packet.data, escapeFilter]
  | cons b m ih =>
    rw [List.map_cons, List.cons_append, decompileSubs, ih]
    have : ∀ l : List Str, l ≠ [] → joinStar (escapeFilter b :: l) = escapeFilter b ++ chStar :: joinStar l := by
      intro l hl; cases l with
      | nil => exact absurd rfl hl
      | cons => rfl
    rw [List.map_cons, List.cons_append, this _ (by simp)]
    simp [ctxStr, Packet.tag, Packet.data]

theorem decompileSubs_eq (cs : List Packet) (i : Option Str) (m : List Str) (f : Option Str)
    (h : cs.map (fun q => (q.tag, q.data)) = components i m f) (hne : components i m f ≠ []) :
    decompileSubs true cs = joinStar (parts i m f) := by
  have e : decompileSubs true cs = decompileSubs true (i.toList.map (ctxStr 0) ++ m.map (ctxStr 1) ++ f.toList.map (ctxStr 2)) := by
    apply decompileSubs_map
    rw [h, components]
    simp [ctxStr, Packet.tag, Packet.data, Function.comp_def]
  rw [e, parts]
  have J : ∀ (p : Str) (l : List Str), l ≠ [] → joinStar (p :: l) = p ++ chStar :: joinStar l := by
    intro p l hl; cases l with
    | nil => exact absurd rfl hl
    | cons => rfl
  rw [List.cons_append, J _ _ (by simp), ← decompileSubs_mid]
  cases i with
  | some a => simp [decompileSubs, ctxStr, Packet.tag, Packet.data]
  | none =>
    cases m with
    | cons b m => simp [decompileSubs, ctxStr, Packet.tag, Packet.data, escapeFilter]
    | nil => cases f with
      | some c => simp [decompileSubs, ctxStr, Packet.tag, Packet.data, escapeFilter]
      | none => simp [components] at hne

theorem parts_noStar (i : Option Str) (m : List Str) (f : Option Str) : ∀ p ∈ parts i m f, chStar ∉ p ∧ chRPar ∉ p := by
  intro p hp
  have : ∃ v, p = escapeFilter v := by
    simp only [parts, List.cons_append, List.mem_cons, List.mem_append, List.mem_map, List.not_mem_nil, or_false] at hp
    rcases hp with rfl | ⟨v, -, rfl⟩ | rfl
    · exact ⟨_, rfl⟩
    · exact ⟨v, rfl⟩
    · exact ⟨_, rfl⟩
  obtain ⟨v, rfl⟩ := this
  constructor
  · intro h; exact (escape_text v _ h).2 (by decide)
  · intro h; exact (escape_text v _ h).2 (by decide)

theorem joinStar_mem (ps : List Str) (c : UInt8) (h : c ∈ joinStar ps) : c = chStar ∨ ∃ p ∈ ps, c ∈ p := by
  induction ps with
  | nil => simp [joinStar] at h
  | cons p ps ih =>
    cases ps with
    | nil => exact Or.inr ⟨p, by simp, h⟩
    | cons q ps =>
      rw [joinStar] at h
      simp only [List.mem_append, List.mem_cons] at h
      rcases h with h | h | h
      · exact Or.inr ⟨p, by simp, h⟩
      · exact Or.inl h
      · rcases ih h with h | ⟨x, hx, hc⟩
        · exact Or.inl h
        · exact Or.inr ⟨x, by simp [hx], hc⟩
      · simp

theorem subParts_mid (n : Nat) (m : List Str) (hm : ∀ b ∈ m, b ≠ []) (f : Option Str) (hf : ∀ c, f = some c → c ≠ []) (i : Nat)
    (hi : 0 < i) (hn : i + m.length + 1 = n) :
    subParts n i (m.map escapeFilter ++ [escapeFilter (f.getD [])]) = some (m.map (ctxNew 1) ++ f.toList.map (ctxNew 2)) := by
  induction m generalizing i with
  | nil =>
    simp only [List.length_nil, Nat.add_zero] at hn
    cases f with
    | none => simp [subParts, escapeFilter]
    | some c =>
      have : escapeFilter c ≠ [] := fun h => hf c rfl (escape_nil h)
      simp [subParts, this, decode_escape, hn, Nat.ne_of_gt hi]
  | cons b m ih =>
    have hb : escapeFilter b ≠ [] := fun h => hm b (by simp) (escape_nil h)
    simp only [List.length_cons] at hn
    rw [List.map_cons, List.cons_append, subParts, if_neg hb, decode_escape, ih (fun x hx => hm x (by simp [hx])) (i + 1) (by omega) (by omega)]
    have h1 : i ≠ 0 := by omega
    have h2 : i + 1 ≠ n := by omega
    simp [h1, h2]

theorem subParts_eq (i : Option Str) (m : List Str) (f : Option Str) (hne : ∀ c ∈ components i m f, c.2 ≠ []) :
    subParts (parts i m f).length 0 (parts i m f) = some ((components i m f).map fun c => ctxNew c.1 c.2) := by
  have hi : ∀ c, i = some c → c ≠ [] := by rintro c rfl; exact hne (0, c) (by simp [components])
  have hm : ∀ b ∈ m, b ≠ [] := fun b hb => hne (1, b) (by simp [components, hb])
  have hf : ∀ c, f = some c → c ≠ [] := by rintro c rfl; exact hne (2, c) (by simp [components])
  have key := subParts_mid (parts i m f).length m hm f hf 1 (by omega) (by simp [parts]; omega)
  have e : (components i m f).map (fun c => ctxNew c.1 c.2) = i.toList.map (ctxNew 0) ++ (m.map (ctxNew 1) ++ f.toList.map (ctxNew 2)) := by
    simp [components, Function.comp_def]
  rw [e]
  generalize hL : (parts i m f).length = L at key
  rw [parts, List.cons_append, subParts, key]
  cases i with
  | none => simp [escapeFilter]
  | some c =>
    have : escapeFilter c ≠ [] := fun h => hi c rfl (escape_nil h)
    simp [this, decode_escape]

/-! ## The whole filter -/

theorem hasNoSpecial {a : Str} (ha : AttrText a) (op : UInt8) (hop : op ∉ b!"(&|!") (s : Str) :
    ∃ c cs, a ++ op :: s = c :: cs ∧ c ∉ b!"(&|!" := by
  cases a with
  | nil => exact ⟨op, s, rfl, hop⟩
  | cons c a =>
    refine ⟨c, a ++ op :: s, rfl, fun h => (ha c (by simp)).2 ?_⟩
    simp only [List.mem_cons, List.not_mem_nil, or_false] at h ⊢
    rcases h with h | h | h | h <;> simp [h]

theorem compileAt_item (n : Nat) (c : UInt8) (cs : Str) (hc : c ∉ b!"(&|!") :
    compileAt (n + 1) (c :: cs) = (itemLoop {} (c :: cs)).bind fun x => (itemPacket x.1).bind fun p => some (p, x.2) := by
  simp only [List.mem_cons, List.not_mem_nil, or_false, not_or] at hc
  rw [compileAt, if_neg (by exact hc.1), if_neg (by exact hc.2.1), if_neg (by exact hc.2.2.1), if_neg (by exact hc.2.2.2)]
  rfl

theorem ascii_append {s t : Str} (hs : IsAscii s) (ht : IsAscii t) : IsAscii (s ++ t) := by
  intro c hc
  rcases List.mem_append.1 hc with h | h
  · exact hs c h
  · exact ht c h

theorem ascii_attr {a : Str} (ha : AttrText a) : IsAscii a := fun c hc => (ha c hc).1
theorem ascii_escape (v : Str) : IsAscii (escapeFilter v) := fun c hc => (escape_text v c hc).1
theorem noPar_escape (v : Str) : chRPar ∉ escapeFilter v := fun h => (escape_text v _ h).2 (by decide)
theorem noStar_escape (v : Str) : chStar ∉ escapeFilter v := fun h => (escape_text v _ h).2 (by decide)

theorem noPar_join (i : Option Str) (m : List Str) (f : Option Str) : chRPar ∉ joinStar (parts i m f) := by
  intro h
  rcases joinStar_mem _ _ h with h | ⟨p, hp, h⟩
  · revert h; decide
  · exact (parts_noStar i m f p hp).2 h

theorem ascii_join (i : Option Str) (m : List Str) (f : Option Str) : IsAscii (joinStar (parts i m f)) := by
  intro c h
  rcases joinStar_mem _ _ h with rfl | ⟨p, hp, h⟩
  · decide
  · simp only [parts, List.cons_append, List.mem_cons, List.mem_append, List.mem_map, List.not_mem_nil, or_false] at hp
    rcases hp with rfl | ⟨v, -, rfl⟩ | rfl <;> exact ascii_escape _ c h

mutual
/-- The text of a filter compiles to an encoding of the filter, whatever follows it. -/
theorem compile_decompile : (f : Filter) → (w : Packet) → Wire f w → FilterOk f →
    ∃ s p, decompile w = some (chLPar :: s) ∧ IsAscii s ∧ Encodes f p ∧
      ∀ rest n, s.length < n → compileAt n (s ++ rest) = some (p, rest)
  | .and fs, .mk _ _ tag _ data kids, h, ho => by
    obtain ⟨ht, hk⟩ := h
    simp only [Packet.tag] at ht
    subst ht
    obtain ⟨s, ps, h1, h2, h3, h4⟩ := compile_decompileAll fs kids hk ho
    refine ⟨chAmp :: (s ++ [chRPar]), .mk .context true 0 .nil [] ps, by rw [decompile.eq_def]; simp [h1, chLPar, chAmp, chRPar], ?_, ⟨rfl, h3⟩, ?_⟩
    · exact ascii_append (s := [chAmp]) (by decide +kernel) (ascii_append h2 (by decide +kernel))
    · intro rest n hn
      obtain ⟨k, rfl⟩ : ∃ k, n = k + 1 := ⟨n - 1, by omega⟩
      simp only [List.length_cons, List.length_append, List.length_nil] at hn
      rw [List.cons_append, compileAt, if_neg (by decide +kernel), if_pos rfl, List.append_assoc, List.singleton_append, h4 rest k (by omega)]
      rfl
  | .or fs, .mk _ _ tag _ data kids, h, ho => by
    obtain ⟨ht, hk⟩ := h
    simp only [Packet.tag] at ht
    subst ht
    obtain ⟨s, ps, h1, h2, h3, h4⟩ := compile_decompileAll fs kids hk ho
    refine ⟨chBar :: (s ++ [chRPar]), .mk .context true 1 .nil [] ps, by rw [decompile.eq_def]; simp [h1, chLPar, chBar, chRPar], ?_, ⟨rfl, h3⟩, ?_⟩
    · exact ascii_append (s := [chBar]) (by decide +kernel) (ascii_append h2 (by decide +kernel))
    · intro rest n hn
      obtain ⟨k, rfl⟩ : ∃ k, n = k + 1 := ⟨n - 1, by omega⟩
      simp only [List.length_cons, List.length_append, List.length_nil] at hn
      rw [List.cons_append, compileAt, if_neg (by decide +kernel), if_neg (by decide +kernel), if_pos rfl, List.append_assoc, List.singleton_append,
        h4 rest k (by omega)]
      rfl
  | .not f, .mk _ _ tag _ data kids, h, ho => by
    obtain ⟨ht, q, hq, hf⟩ := h
    simp only [Packet.tag] at ht
    simp only [Packet.kids] at hq
    subst ht; subst hq
    obtain ⟨s, p, h1, h2, h3, h4⟩ := compile_decompile f q hf ho
    refine ⟨chBang :: chLPar :: (s ++ [chRPar]), .mk .context true 2 .nil [] [p], by rw [decompile.eq_def]; simp [h1, chLPar, chBang, chRPar], ?_,
      ⟨rfl, p, rfl, h3⟩, ?_⟩
    · exact ascii_append (s := [chBang, chLPar]) (by decide +kernel) (ascii_append h2 (by decide +kernel))
    · intro rest n hn
      obtain ⟨k, rfl⟩ : ∃ k, n = k + 1 + 1 := ⟨n - 2, by simp only [List.length_cons] at hn; omega⟩
      simp only [List.length_cons, List.length_append, List.length_nil] at hn
      rw [List.cons_append, compileAt, if_neg (by decide +kernel), if_neg (by decide +kernel), if_neg (by decide +kernel), if_pos rfl, List.cons_append, compileAt,
        if_pos rfl, List.append_assoc, List.singleton_append, h4 (chRPar :: rest) k (by omega)]
      rfl
  | .eq a v, .mk _ _ tag _ data kids, h, ho => by
    obtain ⟨ht, x, y, hk, hx, hy⟩ := h
    simp only [Packet.tag] at ht
    simp only [Packet.kids] at hk
    subst ht; subst hk
    have ho : AttrText a := ho
    refine ⟨a ++ b!"=" ++ escapeFilter v ++ b!")", .mk .context true 3 .nil [] [octet a, octet v],
      by simp [decompile, hx, hy, chLPar], ?_, ⟨rfl, _, _, rfl, rfl, rfl⟩, ?_⟩
    · exact ascii_append (ascii_append (ascii_append (ascii_attr ho) (by decide +kernel)) (ascii_escape v)) (by decide +kernel)
    · intro rest n hn
      obtain ⟨k, rfl⟩ : ∃ k, n = k + 1 := ⟨n - 1, by omega⟩
      have hi := (itemLoop_item ho (noPar_escape v) rest).1
      obtain ⟨c, cs, e, hc⟩ := hasNoSpecial ho 61 (by decide +kernel) (escapeFilter v ++ b!")" ++ rest)
      have e' : a ++ b!"=" ++ escapeFilter v ++ b!")" ++ rest = c :: cs := by rw [← e]; simp
      rw [e'] at hi ⊢
      rw [compileAt_item k c cs hc, hi]
      have h1 : escapeFilter v ≠ [chStar] := fun h => noStar_escape v (by rw [h]; simp)
      simp [itemPacket, h1, noStar_escape, decode_escape]
  | .sub a i m f, .mk _ _ tag _ data kids, h, ho => by
    obtain ⟨ht, x, s, hk, hx, hs⟩ := h
    simp only [Packet.tag] at ht
    simp only [Packet.kids] at hk
    subst ht; subst hk
    obtain ⟨ho, hne, hc⟩ := ho
    have ed := decompileSubs_eq s.kids i m f hs hne
    have hsplit : splitStar (joinStar (parts i m f)) = parts i m f :=
      split_join _ (by simp [parts]) (fun p hp => (parts_noStar i m f p hp).1)
    have hsub := subParts_eq i m f hc
    have hstar : chStar ∈ joinStar (parts i m f) := by
      apply Decidable.byContradiction
      intro hn
      rw [splitStar_noStar _ hn] at hsplit
      have := congrArg List.length hsplit
      simp [parts] at this
    have hne1 : joinStar (parts i m f) ≠ [chStar] := by
      intro hj
      rw [hj] at hsplit
      have e2 : parts i m f = [[], []] := hsplit.symm.trans (by decide +kernel)
      have : subParts (parts i m f).length 0 (parts i m f) = some [] := by rw [e2]; rfl
      rw [this] at hsub
      simp only [Option.some.injEq] at hsub
      exact hne (List.map_eq_nil_iff.1 hsub.symm)
    refine ⟨a ++ b!"=" ++ joinStar (parts i m f) ++ b!")",
      .mk .context true 4 .nil [] [octet a, .mk .universal true tagSequence .nil [] ((components i m f).map fun c => ctxNew c.1 c.2)],
      by simp [decompile, hx, ed, chLPar], ?_, ⟨rfl, _, _, rfl, rfl, ?_⟩, ?_⟩
    · exact ascii_append (ascii_append (ascii_append (ascii_attr ho) (by decide +kernel)) (ascii_join i m f)) (by decide +kernel)
    · simp [Packet.kids, Packet.tag, Packet.data, ctxNew, Function.comp_def]
    · intro rest n hn
      obtain ⟨k, rfl⟩ : ∃ k, n = k + 1 := ⟨n - 1, by omega⟩
      have hi := (itemLoop_item ho (noPar_join i m f) rest).1
      obtain ⟨c, cs, e, hc⟩ := hasNoSpecial ho 61 (by decide +kernel) (joinStar (parts i m f) ++ b!")" ++ rest)
      have e' : a ++ b!"=" ++ joinStar (parts i m f) ++ b!")" ++ rest = c :: cs := by rw [← e]; simp
      rw [e'] at hi ⊢
      rw [compileAt_item k c cs hc, hi]
      simp [itemPacket, hne1, hstar, hsplit, hsub]
  | .present a, .mk _ _ tag _ data kids, h, ho => by
    obtain ⟨ht, hd⟩ := h
    simp only [Packet.tag] at ht
    simp only [Packet.data] at hd
    subst ht; subst hd
    have ho : AttrText data := ho
    refine ⟨data ++ b!"=" ++ b!"*" ++ b!")", ctxNew 7 data, by rw [decompile.eq_def]; simp [chLPar], ?_, ⟨rfl, rfl⟩, ?_⟩
    · exact ascii_append (ascii_append (ascii_append (ascii_attr ho) (by decide +kernel)) (by decide +kernel)) (by decide +kernel)
    · intro rest n hn
      obtain ⟨k, rfl⟩ : ∃ k, n = k + 1 := ⟨n - 1, by omega⟩
      have hi := (itemLoop_item ho (v := b!"*") (by decide +kernel) rest).1
      obtain ⟨c, cs, e, hc⟩ := hasNoSpecial ho 61 (by decide +kernel) (b!"*" ++ b!")" ++ rest)
      have e' : data ++ b!"=" ++ b!"*" ++ b!")" ++ rest = c :: cs := by rw [← e]; simp
      rw [e'] at hi ⊢
      rw [compileAt_item k c cs hc, hi]
      simp [itemPacket, chStar]
  | .cmp t a v, .mk _ _ tag _ data kids, h, ho => by
    obtain ⟨htt, ht, x, y, hk, hx, hy⟩ := h
    simp only [Packet.tag] at ht
    simp only [Packet.kids] at hk
    subst ht; subst hk
    have ho : AttrText a := ho
    have hI := itemLoop_item ho (noPar_escape v)
    rcases htt with rfl | rfl | rfl
    · refine ⟨a ++ b!">=" ++ escapeFilter v ++ b!")", .mk .context true 5 .nil [] [octet a, octet v],
        by simp [decompile, hx, hy, chLPar], ?_, ⟨by simp, rfl, _, _, rfl, rfl, rfl⟩, ?_⟩
      · exact ascii_append (ascii_append (ascii_append (ascii_attr ho) (by decide +kernel)) (ascii_escape v)) (by decide +kernel)
      · intro rest n hn
        obtain ⟨k, rfl⟩ : ∃ k, n = k + 1 := ⟨n - 1, by omega⟩
        have hi := (hI rest).2.1
        obtain ⟨c, cs, e, hc⟩ := hasNoSpecial ho 62 (by decide +kernel) (b!"=" ++ escapeFilter v ++ b!")" ++ rest)
        have e' : a ++ b!">=" ++ escapeFilter v ++ b!")" ++ rest = c :: cs := by rw [← e]; simp
        rw [e'] at hi ⊢
        rw [compileAt_item k c cs hc, hi]
        simp [itemPacket, decode_escape]
    · refine ⟨a ++ b!"<=" ++ escapeFilter v ++ b!")", .mk .context true 6 .nil [] [octet a, octet v],
        by simp [decompile, hx, hy, chLPar], ?_, ⟨by simp, rfl, _, _, rfl, rfl, rfl⟩, ?_⟩
      · exact ascii_append (ascii_append (ascii_append (ascii_attr ho) (by decide +kernel)) (ascii_escape v)) (by decide +kernel)
      · intro rest n hn
        obtain ⟨k, rfl⟩ : ∃ k, n = k + 1 := ⟨n - 1, by omega⟩
        have hi := (hI rest).2.2.1
        obtain ⟨c, cs, e, hc⟩ := hasNoSpecial ho 60 (by decide +kernel) (b!"=" ++ escapeFilter v ++ b!")" ++ rest)
        have e' : a ++ b!"<=" ++ escapeFilter v ++ b!")" ++ rest = c :: cs := by rw [← e]; simp
        rw [e'] at hi ⊢
        rw [compileAt_item k c cs hc, hi]
        simp [itemPacket, decode_escape]
    · refine ⟨a ++ b!"~=" ++ escapeFilter v ++ b!")", .mk .context true 8 .nil [] [octet a, octet v],
        by simp [decompile, hx, hy, chLPar], ?_, ⟨by simp, rfl, _, _, rfl, rfl, rfl⟩, ?_⟩
      · exact ascii_append (ascii_append (ascii_append (ascii_attr ho) (by decide +kernel)) (ascii_escape v)) (by decide +kernel)
      · intro rest n hn
        obtain ⟨k, rfl⟩ : ∃ k, n = k + 1 := ⟨n - 1, by omega⟩
        have hi := (hI rest).2.2.2
        obtain ⟨c, cs, e, hc⟩ := hasNoSpecial ho 126 (by decide +kernel) (b!"=" ++ escapeFilter v ++ b!")" ++ rest)
        have e' : a ++ b!"~=" ++ escapeFilter v ++ b!")" ++ rest = c :: cs := by rw [← e]; simp
        rw [e'] at hi ⊢
        rw [compileAt_item k c cs hc, hi]
        simp [itemPacket, decode_escape]
  | .ext r a v d, .mk _ _ tag _ data kids, h, ho => by
    obtain ⟨ht, hk⟩ := h
    obtain ⟨hr, ha, hd⟩ := ho
    simp only [Packet.tag] at ht
    simp only [Packet.kids] at hk
    subst ht; subst hd
    have hk' : decompileExt [] [] [] false kids = decompileExt [] [] [] false ((extParts r a v false).map fun c => ctxStr c.1 c.2) :=
      decompileExt_map _ _ _ _ _ _ (by rw [hk]; simp [ctxStr, Packet.tag, Packet.val, Packet.data, List.map_map, Function.comp_def])
    have hA : AttrText (a.getD []) := by
      cases a with
      | none => intro c hc; cases hc
      | some x => exact (ha x rfl).2
    have hdec : decompileExt [] [] [] false kids =
        some (a.getD [] ++ (match r with | none => [] | some x => b!":" ++ x) ++ b!":=" ++ escapeFilter v) := by
      rw [hk']
      cases r with
      | none => cases a <;> simp [extParts, decompileExt, ctxStr, Packet.tag, Packet.data]
      | some x =>
        have := (hr x rfl).1
        cases a <;> simp [extParts, decompileExt, ctxStr, Packet.tag, Packet.data, this, chColon]
    have hpart : (if a.getD [] = [] then [] else [ctxNew 2 (a.getD [])]) = a.toList.map (ctxNew 2) := by
      cases a with
      | none => rfl
      | some x => simp [(ha x rfl).1]
    cases r with
    | none =>
      refine ⟨a.getD [] ++ b!":=" ++ escapeFilter v ++ b!")", .mk .context true 9 .nil [] (a.toList.map (ctxNew 2) ++ [ctxNew 3 v]),
        by rw [decompile.eq_def]; simp [hdec, chLPar], ?_, ⟨rfl, ?_⟩, ?_⟩
      · exact ascii_append (ascii_append (ascii_append (ascii_attr hA) (by decide +kernel)) (ascii_escape v)) (by decide +kernel)
      · cases a <;> simp [extParts, ctxNew, Packet.kids, Packet.tag, Packet.data]
      · intro rest n hn
        obtain ⟨k, rfl⟩ : ∃ k, n = k + 1 := ⟨n - 1, by omega⟩
        have hi := itemLoop_ext hA (noPar_escape v) rest
        obtain ⟨c, cs, e, hc⟩ := hasNoSpecial hA 58 (by decide +kernel) (b!"=" ++ escapeFilter v ++ b!")" ++ rest)
        have e' : a.getD [] ++ b!":=" ++ escapeFilter v ++ b!")" ++ rest = c :: cs := by rw [← e]; simp
        rw [e'] at hi ⊢
        rw [compileAt_item k c cs hc, hi]
        simp [itemPacket, decode_escape]
        exact hpart
    | some x =>
      obtain ⟨x0, x1, x2⟩ := hr x rfl
      refine ⟨a.getD [] ++ b!":" ++ x ++ b!":=" ++ escapeFilter v ++ b!")",
        .mk .context true 9 .nil [] (ctxNew 1 x :: a.toList.map (ctxNew 2) ++ [ctxNew 3 v]),
        by rw [decompile.eq_def]; simp [hdec, chLPar], ?_, ⟨rfl, ?_⟩, ?_⟩
      · exact ascii_append (ascii_append (ascii_append (ascii_append (ascii_append (ascii_attr hA) (by decide +kernel)) (ascii_attr x1))
          (by decide +kernel)) (ascii_escape v)) (by decide +kernel)
      · cases a <;> simp [extParts, ctxNew, Packet.kids, Packet.tag, Packet.data]
      · intro rest n hn
        obtain ⟨k, rfl⟩ : ∃ k, n = k + 1 := ⟨n - 1, by omega⟩
        have hi := itemLoop_extRule hA x1 x0 x2 (noPar_escape v) rest
        obtain ⟨c, cs, e, hc⟩ := hasNoSpecial hA 58 (by decide +kernel) (x ++ b!":=" ++ escapeFilter v ++ b!")" ++ rest)
        have e' : a.getD [] ++ b!":" ++ x ++ b!":=" ++ escapeFilter v ++ b!")" ++ rest = c :: cs := by rw [← e]; simp
        rw [e'] at hi ⊢
        rw [compileAt_item k c cs hc, hi]
        simp [itemPacket, decode_escape, x0]
        exact hpart
theorem compile_decompileAll : (fs : List Filter) → (ws : List Packet) → WireAll fs ws → FilterOkAll fs →
    ∃ s ps, decompileAll ws = some s ∧ IsAscii s ∧ EncodesAll fs ps ∧
      ∀ rest n, s.length < n → compileSet n (s ++ chRPar :: rest) = some (ps, rest)
  | [], ws, h, _ => by
    have h : ws = [] := h
    subst h
    refine ⟨[], [], rfl, by decide +kernel, rfl, ?_⟩
    intro rest n hn
    obtain ⟨k, rfl⟩ : ∃ k, n = k + 1 := ⟨n - 1, by simp at hn; omega⟩
    rfl
  | f :: fs, ws, h, ho => by
    obtain ⟨q, qs, rfl, hq, hqs⟩ := h
    obtain ⟨s, p, h1, h2, h3, h4⟩ := compile_decompile f q hq ho.1
    obtain ⟨t, ps, g1, g2, g3, g4⟩ := compile_decompileAll fs qs hqs ho.2
    refine ⟨chLPar :: s ++ t, p :: ps, by simp [decompileAll, h1, g1], ?_, ⟨p, ps, rfl, h3, g3⟩, ?_⟩
    · exact ascii_append (ascii_append (s := [chLPar]) (by decide +kernel) h2) g2
    · intro rest n hn
      obtain ⟨k, rfl⟩ : ∃ k, n = k + 1 := ⟨n - 1, by omega⟩
      simp only [List.length_append, List.length_cons] at hn
      rw [List.cons_append, List.cons_append, compileSet, if_pos rfl, List.append_assoc, h4 _ k (by omega)]
      simp only [Option.bind_eq_bind, Option.bind_some]
      rw [g4 rest k (by omega)]
      rfl
end

theorem utf8Good_ascii {s : Str} (h : IsAscii s) : utf8Good s = true := by
  induction s with
  | nil => rfl
  | cons c s ih =>
    rw [utf8Good.eq_def]
    simp only
    rw [if_pos (h c (by simp))]
    exact ih fun d hd => h d (by simp [hd])

mutual
theorem filterOk_has : (f : Filter) → FilterOk f → HasComponents f
  | .and fs, h => filterOkAll_has fs h
  | .or fs, h => filterOkAll_has fs h
  | .not f, h => filterOk_has f h
  | .sub .., h => h.2.1
  | .eq .., _ => trivial
  | .present _, _ => trivial
  | .cmp .., _ => trivial
  | .ext .., _ => trivial
theorem filterOkAll_has : (fs : List Filter) → FilterOkAll fs → HasComponentsAll fs
  | [], _ => trivial
  | f :: fs, h => ⟨filterOk_has f h.1, filterOkAll_has fs h.2⟩
end

/-- C59: a filter received is turned into text and compiled again without change of meaning. (Missing: the flag
`dnAttributes` of an extensible match, see `C59_dn_attributes_fails`, a matching rule called `dn`; filters RFC 4511 does not allow, see
`C59_empty_component_fails`.) -/
theorem C59_filter_text_partial (f : Filter) (w : Packet) (hw : Wire f w) (ho : FilterOk f) :
    ∃ s p, decompile w = some s ∧ compile s = some p ∧ Encodes f p := by
  obtain ⟨s, p, h1, h2, h3, h4⟩ := compile_decompile f w hw ho
  refine ⟨_, p, h1, ?_, h3⟩
  have hu : utf8Good (chLPar :: s) = true := utf8Good_ascii (ascii_append (s := [chLPar]) (by decide +kernel) h2)
  rw [compile, if_pos hu]
  have := h4 [] ((chLPar :: s).length + 1) (by simp; omega)
  rw [List.append_nil] at this
  simp only [this, if_true]

/-- The empty substring component that some client sends as `(cn=**)`: the compiled filter has no component at all (and applying it
crashes the server, see C27). -/
theorem C59_empty_component_fails :
    ∃ (w : Packet) (s : Str) (p : Packet), Wire (.sub b!"cn" none [[]] none) w ∧ decompile w = some s ∧ compile s = some p ∧
      ¬ Encodes (.sub b!"cn" none [[]] none) p ∧ applyFilter asciiCase ⟨b!"cn=a", []⟩ p = .panic := by
  refine ⟨.mk .context true 4 .nil [] [octet b!"cn", .mk .universal true 16 .nil [] [ctxStr 1 []]], b!"(cn=**)",
    .mk .context true 4 .nil [] [octet b!"cn", .mk .universal true 16 .nil [] []],
    ⟨rfl, _, _, rfl, rfl, rfl⟩, by decide +kernel, rfl, ?_, by decide +kernel⟩
  rintro ⟨-, x, s, h1, -, h2⟩
  simp only [Packet.kids, List.cons.injEq, and_true] at h1
  obtain ⟨-, rfl⟩ := h1
  simp [Packet.kids, components] at h2

/-- An extensible match with the flag `dnAttributes`: the flag is read from the value of the packet, which the reader of BER leaves empty for
a context-specific tag. The filter is refused. -/
theorem C59_dn_attributes_fails : ∃ w, Wire (.ext none (some b!"ou") b!"people" true) w ∧ decompile w = none :=
  ⟨.mk .context true 9 .nil [] [ctxStr 2 b!"ou", ctxStr 3 b!"people", ctxStr 4 [255]], ⟨rfl, by decide⟩, by decide +kernel⟩

/-- An extensible match, `(cn:caseIgnoreMatch:=a*)`. -/
example : let f : Filter := .ext (some b!"caseIgnoreMatch") (some b!"cn") b!"a*" false
    FilterOk f ∧ ∃ w, Wire f w ∧ decompile w = some b!"(cn:caseIgnoreMatch:=a\\2a)" := by
  refine ⟨⟨?_, ?_, rfl⟩, .mk .context true 9 .nil [] [ctxStr 1 b!"caseIgnoreMatch", ctxStr 2 b!"cn", ctxStr 3 b!"a*"], ⟨rfl, by decide⟩,
    by decide +kernel⟩
  · intro x hx; cases hx; exact ⟨by decide, by decide +kernel, by decide +kernel⟩
  · intro x hx; cases hx; exact ⟨by decide, by decide +kernel⟩

/-- An instance: `(&(objectClass=person)(|(cn=a*b*(c)(!(uid=*))))`. -/
example : let f : Filter := .and [.eq b!"objectClass" b!"person", .or [.sub b!"cn" (some b!"a") [b!"b"] (some b!"(c"), .not (.present b!"uid")]]
    FilterOk f ∧ ∃ w, Wire f w ∧ decompile w = some b!"(&(objectClass=person)(|(cn=a*b*\\28c)(!(uid=*))))" := by
  refine ⟨⟨by unfold FilterOk; decide +kernel, ⟨⟨by decide +kernel, by decide +kernel, by decide +kernel⟩, by unfold FilterOk FilterOk; decide +kernel, trivial⟩, trivial⟩,
    .mk .context true 0 .nil [] [.mk .context true 3 .nil [] [octet b!"objectClass", octet b!"person"],
      .mk .context true 1 .nil [] [.mk .context true 4 .nil [] [octet b!"cn", .mk .universal true 16 .nil [] [ctxStr 0 b!"a", ctxStr 1 b!"b", ctxStr 2 b!"(c"]],
        .mk .context true 2 .nil [] [ctxStr 7 b!"uid"]]],
    ⟨rfl, _, _, rfl, ⟨rfl, _, _, rfl, rfl, rfl⟩, _, _, rfl, ⟨rfl, _, _, rfl, ⟨rfl, _, _, rfl, rfl, rfl⟩, _, _, rfl,
      ⟨rfl, _, rfl, ⟨rfl, rfl⟩⟩, rfl⟩, rfl⟩, by decide +kernel⟩

end Idm
