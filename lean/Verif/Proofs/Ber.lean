import Verif.Spec.Ber
/-!
# Lemmas on BER
-/
namespace Idm

/-! ## Numbers -/

theorem beVal_snoc (s : Str) (b : UInt8) : beVal (s ++ [b]) = beVal s * 256 + b.toNat := by
  induction s with
  | nil => simp [beVal]
  | cons c cs ih =>
    rw [List.cons_append, beVal, ih, beVal, List.length_append, List.length_singleton, Nat.pow_succ, Nat.add_mul, ← Nat.mul_assoc]
    omega

theorem beVal_lt (s : Str) : beVal s < 256 ^ s.length := by
  induction s with
  | nil => simp [beVal]
  | cons c cs ih =>
    rw [beVal, List.length_cons, Nat.pow_succ]
    have := c.toNat_lt
    have h2 : c.toNat * 256 ^ cs.length ≤ 255 * 256 ^ cs.length := Nat.mul_le_mul_right _ (by omega)
    omega

theorem beVal_foldl (s : Str) : s.foldl (fun n b => n * 256 + b.toNat) 0 = beVal s := by
  have : ∀ (s : Str) (k : Nat), s.foldl (fun n b => n * 256 + b.toNat) k = k * 256 ^ s.length + beVal s := by
    intro s
    induction s with
    | nil => intro k; simp [beVal]
    | cons c cs ih =>
      intro k
      rw [List.foldl_cons, ih, beVal, List.length_cons, Nat.pow_succ, Nat.add_mul, Nat.mul_assoc, Nat.mul_comm 256]
      omega
  rw [this]; simp

theorem parseBerInt_sint {s : Str} (h : s.length ≤ 8) : parseBerInt s = sint s := by
  unfold parseBerInt sint
  rw [if_neg (by omega), beVal_foldl]

theorem toNat_ofNat_lt {n : Nat} (h : n < 256) : (UInt8.ofNat n).toNat = n := by
  rw [UInt8.toNat_ofNat']
  exact Nat.mod_eq_of_lt h

theorem uintGo_spec (f n : Nat) (h : n < 256 ^ f) (hf : 0 < f) :
    beVal (uintGo f n) = n ∧ 1 ≤ (uintGo f n).length ∧ (uintGo f n).length ≤ f := by
  induction f generalizing n with
  | zero => omega
  | succ f ih =>
    rw [uintGo]
    split
    · rename_i hn
      refine ⟨?_, by simp, by simp⟩
      simp [beVal, toNat_ofNat_lt (show n < 256 by omega)]
    · rename_i hn
      have hf : 0 < f := by
        cases f with
        | zero => simp at h; omega
        | succ f => omega
      have hlt : n / 256 < 256 ^ f := by
        rw [Nat.div_lt_iff_lt_mul (by omega)]
        rwa [Nat.pow_succ] at h
      obtain ⟨h1, h2, h3⟩ := ih (n / 256) hlt hf
      refine ⟨?_, by simp, by simp; omega⟩
      rw [beVal_snoc, h1, toNat_ofNat_lt (Nat.mod_lt _ (by omega))]
      omega

theorem lengthBytes_octets {n : Nat} (h : n < 2 ^ 64) : LenOctets n (lengthBytes n) := by
  unfold lengthBytes
  split
  · obtain ⟨h1, h2, h3⟩ := uintGo_spec 8 n (by omega) (by omega)
    exact .inr ⟨_, h2, h3, h1, rfl⟩
  · exact .inl ⟨by omega, rfl⟩

theorem sint_single (i : Int) (h1 : -128 ≤ i) (h2 : i ≤ 127) : sint [UInt8.ofNat (i % 256).toNat] = i := by
  have h3 : (i % 256).toNat < 256 := by omega
  unfold sint
  simp only [beVal, List.length_singleton, List.length_nil, Nat.pow_zero, Nat.mul_one, Nat.add_zero, toNat_ofNat_lt h3]
  split <;> omega

/-- Appending a byte to a two's complement number. -/
theorem sint_snoc (s : Str) (b : UInt8) (h : s ≠ []) : sint (s ++ [b]) = sint s * 256 + b.toNat := by
  unfold sint
  obtain ⟨k, hk⟩ : ∃ k, s.length = k + 1 := by
    cases s with
    | nil => exact absurd rfl h
    | cons c cs => exact ⟨cs.length, rfl⟩
  have hb := b.toNat_lt
  have e1 : 8 * (s ++ [b]).length - 1 = (8 * s.length - 1) + 8 := by simp; omega
  have e2 : 8 * (s ++ [b]).length = 8 * s.length + 8 := by simp; omega
  rw [beVal_snoc, e1, e2, Nat.pow_add, Int.pow_add]
  have e3 : (2 : Nat) ^ 8 = 256 := rfl
  have e4 : (2 : Int) ^ 8 = 256 := rfl
  rw [e3, e4]
  by_cases hc : beVal s < 2 ^ (8 * s.length - 1)
  · rw [if_pos hc, if_pos (by omega)]
    omega
  · rw [if_neg hc, if_neg (by omega)]
    generalize (2 : Int) ^ (8 * s.length) = w
    omega

theorem intGo_spec (f : Nat) (i : Int) (h1 : -(2 ^ (8 * f - 1)) ≤ i) (h2 : i < 2 ^ (8 * f - 1)) (hf : 0 < f) :
    sint (intGo f i) = i ∧ 1 ≤ (intGo f i).length ∧ (intGo f i).length ≤ f := by
  induction f generalizing i with
  | zero => omega
  | succ f ih =>
    rw [intGo]
    by_cases hc : -128 ≤ i ∧ i ≤ 127
    · rw [if_pos hc]
      exact ⟨sint_single i hc.1 hc.2, by simp, by simp⟩
    · rw [if_neg hc]
      have hf : 0 < f := by
        cases f with
        | zero => simp at h1 h2; omega
        | succ f => omega
      obtain ⟨g, rfl⟩ : ∃ g, f = g + 1 := ⟨f - 1, by omega⟩
      have e : (2 : Int) ^ (8 * (g + 1 + 1) - 1) = 2 ^ (8 * (g + 1) - 1) * 256 := by
        rw [show 8 * (g + 1 + 1) - 1 = (8 * (g + 1) - 1) + 8 by omega, Int.pow_add]; rfl
      rw [e] at h1 h2
      generalize hp : (2 : Int) ^ (8 * (g + 1) - 1) = w at *
      obtain ⟨k1, k2, k3⟩ := ih (i / 256) (by omega) (by omega) hf
      have hne : intGo (g + 1) (i / 256) ≠ [] := by intro hx; rw [hx] at k2; simp at k2
      refine ⟨?_, by simp, by simp; omega⟩
      rw [sint_snoc _ _ hne, k1, toNat_ofNat_lt (by omega)]
      omega

theorem intBytes_spec {i : Int} (h1 : -(2 ^ 63) ≤ i) (h2 : i < 2 ^ 63) :
    sint (intBytes i) = i ∧ 1 ≤ (intBytes i).length ∧ (intBytes i).length ≤ 8 := intGo_spec 8 i h1 h2 (by omega)

/-! ## Reading headers -/

theorem identBytes_octet {c : Cls} {k : Bool} {t : Nat} (h : t < 31) : identBytes c k t = [identOctet c k t] := by
  unfold identBytes identOctet clsBits
  rw [if_pos h]
  cases c <;> rfl

theorem readIdent_octet {c : Cls} {k : Bool} {t : Nat} (h : t < 31) (s : Str) : readIdent (identOctet c k t :: s) = .ok ((c, k, t), s) := by
  have key : ∀ t : Fin 31, (identOctet c k t).toNat % 32 ≠ 31 ∧ clsOf (identOctet c k t) = c ∧
      decide ((identOctet c k t).toNat / 32 % 2 = 1) = k ∧ (identOctet c k t).toNat % 32 = t := by
    cases c <;> cases k <;> decide +kernel
  obtain ⟨h1, h2, h3, h4⟩ := key ⟨t, h⟩
  dsimp only at h1 h2 h3 h4
  rw [readIdent, if_pos h1, h2, h3, h4]

theorem readLenBytes_append (ds s : Str) (acc : Nat) (ha : acc < 2 ^ 64) :
    readLenBytes ds.length acc (ds ++ s) = .ok ((acc * 256 ^ ds.length + beVal ds) % 2 ^ 64, s) := by
  induction ds generalizing acc with
  | nil => simp [readLenBytes, beVal, Nat.mod_eq_of_lt ha]
  | cons d ds ih =>
    rw [List.length_cons, List.cons_append, readLenBytes, ih _ (Nat.mod_lt _ (by decide)), beVal]
    congr 2
    rw [Nat.add_mod, Nat.mul_mod, Nat.mod_mod, ← Nat.mul_mod, ← Nat.add_mod, Nat.pow_succ 256, Nat.add_mul, Nat.mul_assoc, Nat.mul_comm 256,
      Nat.add_assoc]

theorem readLenBytes_short (n : Nat) (s : Str) (acc : Nat) (h : s.length < n) : readLenBytes n acc s = .more := by
  induction n generalizing s acc with
  | zero => omega
  | succ n ih =>
    cases s with
    | nil => rfl
    | cons b s => rw [readLenBytes]; exact ih s _ (by simp at h; omega)

theorem readLen_octets {n : Nat} {l : Str} (h : LenOctets n l) (hn : n < 2 ^ 63) (s : Str) : readLen (l ++ s) = .ok (some n, s) := by
  rcases h with ⟨h1, rfl⟩ | ⟨ds, h1, h2, h3, rfl⟩
  · have key : ∀ n : Fin 128, UInt8.ofNat n ≠ 255 ∧ UInt8.ofNat n ≠ 128 ∧ UInt8.ofNat n < 128 ∧ (UInt8.ofNat n).toNat = n := by decide +kernel
    obtain ⟨k1, k2, k3, k4⟩ := key ⟨n, h1⟩
    dsimp only at k1 k2 k3 k4
    rw [List.cons_append, readLen, if_neg k1, if_neg k2, if_pos k3, k4]
    rfl
  · have key : ∀ k : Fin 9, 1 ≤ k.val → UInt8.ofNat (128 + k) ≠ 255 ∧ UInt8.ofNat (128 + k) ≠ 128 ∧ ¬ UInt8.ofNat (128 + k) < 128 ∧
        (UInt8.ofNat (128 + k)).toNat - 128 = k := by decide +kernel
    obtain ⟨k1, k2, k3, k4⟩ := key ⟨ds.length, by omega⟩ h1
    dsimp only at k1 k2 k3 k4
    rw [List.cons_append, readLen, if_neg k1, if_neg k2, if_neg k3, k4, if_neg (by omega), readLenBytes_append _ _ _ (by decide)]
    have e : (0 * 256 ^ ds.length + beVal ds) % 2 ^ 64 = n := by
      rw [h3, Nat.zero_mul, Nat.zero_add, Nat.mod_eq_of_lt (by omega)]
    dsimp only
    rw [e, if_neg (by omega), if_neg (by omega)]

/-- A part of the length octets makes the reader wait. -/
theorem readLen_prefix {n : Nat} {l : Str} (h : LenOctets n l) {pre suf : Str} (hp : l = pre ++ suf) (hs : suf ≠ []) : readLen pre = .more := by
  cases pre with
  | nil => rfl
  | cons b pre =>
    rcases h with ⟨h1, rfl⟩ | ⟨ds, h1, h2, h3, rfl⟩
    · rw [List.cons_append] at hp
      have := (List.cons.inj hp).2
      have := congrArg List.length this
      simp at this
      exact absurd (List.length_eq_zero_iff.1 (show suf.length = 0 by omega)) hs
    · obtain ⟨rfl, hp2⟩ := List.cons.inj hp
      have key : ∀ k : Fin 9, 1 ≤ k.val → UInt8.ofNat (128 + k) ≠ 255 ∧ UInt8.ofNat (128 + k) ≠ 128 ∧ ¬ UInt8.ofNat (128 + k) < 128 ∧
          (UInt8.ofNat (128 + k)).toNat - 128 = k := by decide +kernel
      obtain ⟨k1, k2, k3, k4⟩ := key ⟨ds.length, by omega⟩ h1
      dsimp only at k1 k2 k3 k4
      have hl : pre.length < ds.length := by
        have hp3 := congrArg List.length hp2
        simp at hp3
        have : suf.length ≠ 0 := fun hx => hs (List.length_eq_zero_iff.1 hx)
        omega
      rw [readLen, if_neg k1, if_neg k2, if_neg k3, k4, if_neg (by omega), readLenBytes_short _ _ _ hl]

theorem LenOctets.ne_nil {n : Nat} {l : Str} (h : LenOctets n l) : l ≠ [] := by
  rcases h with ⟨-, rfl⟩ | ⟨ds, -, -, -, rfl⟩ <;> simp

/-! ## Reading packets -/

theorem BerOf.long {t : Tlv} {bs : Str} (h : BerOf t bs) : 2 ≤ bs.length := by
  cases h with
  | prim c t v l h1 h2 => have := List.length_pos_iff.2 h2.ne_nil; simp; omega
  | con c t ks body l h1 h2 h3 => have := List.length_pos_iff.2 h3.ne_nil; simp; omega

theorem not_isEOC (t : Tlv) (h : LdapTypes t) : isEOC t.packet = false := by
  cases t with
  | con c t ks => simp [isEOC, Tlv.packet, Packet.cons]
  | prim c t v =>
    unfold isEOC Tlv.packet
    simp only [LdapTypes] at h
    simp only [Packet.cls, Packet.tag]
    by_cases hc : c = .universal
    · have := h hc
      have ht : t ≠ 0 := by omega
      simp [ht]
    · simp [hc]

theorem readPrim_ok (other : Nat → Str → Option Val) (c : Cls) (t : Nat) (v rest : Str) (h : LdapTypes (.prim c t v))
    (hl : v.length < 2 ^ 31) : readPrim other c t v.length (v ++ rest) = .ok ((Tlv.prim c t v).packet, rest) := by
  unfold readPrim maxPacketLength
  rw [if_neg (by omega), if_neg (by simp), List.take_left, List.drop_left, Tlv.packet]
  by_cases hc : c = .universal
  · rw [if_pos hc, if_pos hc]
    have h := h hc
    unfold readVal
    simp only [tagBoolean, tagInteger, tagEnumerated, tagOctetString]
    rcases h with rfl | ⟨h | h | h, h1, h2⟩
    · simp
    · subst h; simp [parseBerInt_sint h2]
    · subst h; simp [parseBerInt_sint h2]
    · subst h; simp [parseBerInt_sint h2]
  · rw [if_neg hc, if_neg hc]

mutual
/-- Every encoding of a value is read as the packet of the value, and no byte more. -/
theorem readPkt_ber (other : Nat → Str → Option Val) : (t : Tlv) → (bs : Str) → BerOf t bs → LdapTypes t → bs.length < 2 ^ 31 →
    ∀ (f : Nat) (rest : Str), bs.length < f → readPkt other f (bs ++ rest) = .ok (t.packet, rest)
  | .prim c t v, bs, h, ht, hl, f, rest, hf => by
    cases h with
    | prim _ _ _ l h1 h2 =>
      obtain ⟨f, rfl⟩ : ∃ g, f = g + 1 := ⟨f - 1, by omega⟩
      simp at hl
      rw [readPkt, List.cons_append, readIdent_octet h1]
      dsimp only
      rw [List.append_assoc, readLen_octets h2 (by omega)]
      dsimp only
      rw [if_neg (by decide)]
      exact readPrim_ok other c t v rest ht (by omega)
  | .con c t ks, bs, h, ht, hl, f, rest, hf => by
    cases h with
    | con _ _ _ body l h1 h2 h3 =>
      obtain ⟨f, rfl⟩ : ∃ g, f = g + 1 := ⟨f - 1, by omega⟩
      have := List.length_pos_iff.2 h3.ne_nil
      simp at hl hf
      rw [readPkt, List.cons_append, readIdent_octet h1]
      dsimp only
      rw [List.append_assoc, readLen_octets h3 (by omega)]
      dsimp only
      rw [if_pos rfl, readKids_ber other ks body h2 ht (by omega) f rest (by omega)]
      rfl
theorem readKids_ber (other : Nat → Str → Option Val) : (ks : List Tlv) → (body : Str) → BerOfAll ks body → LdapTypesAll ks →
    body.length < 2 ^ 31 → ∀ (f : Nat) (rest : Str), body.length + 1 < f →
    readKids other f (some body.length) (body ++ rest) = .ok (packets ks, rest)
  | [], body, h, ht, hl, f, rest, hf => by
    cases h
    obtain ⟨f, rfl⟩ : ∃ g, f = g + 1 := ⟨f - 1, by omega⟩
    rfl
  | k :: ks, body, h, ht, hl, f, rest, hf => by
    cases h with
    | cons _ _ a b h1 h2 =>
      obtain ⟨f, rfl⟩ : ∃ g, f = g + 1 := ⟨f - 1, by omega⟩
      have ha := h1.long
      simp at hl hf
      rw [readKids, if_neg (by simp; intro hx; simp [hx] at ha), List.append_assoc,
        readPkt_ber other k a h1 ht.1 (by omega) f (b ++ rest) (by omega)]
      dsimp only
      rw [if_neg (by rw [not_isEOC k ht.1]; decide)]
      have e : (a ++ (b ++ rest)).length - (b ++ rest).length = a.length := by simp
      rw [e, if_neg (by simp)]
      have e2 : Option.map (fun x => x - a.length) (some (a ++ b).length) = some b.length := by simp
      rw [e2, readKids_ber other ks b h2 ht.2 (by omega) f rest (by omega)]
      rfl
end

/-- Two ways to cut a text. -/
theorem append_split {a b pre suf : Str} (h : a ++ b = pre ++ suf) :
    (∃ x, pre = a ++ x ∧ b = x ++ suf) ∨ (∃ x, x ≠ [] ∧ a = pre ++ x) := by
  rcases List.append_eq_append_iff.1 h with ⟨x, h1, h2⟩ | ⟨x, h1, h2⟩
  · exact .inl ⟨x, h1, h2⟩
  · by_cases hx : x = []
    · subst hx; exact .inl ⟨[], by simpa using h1.symm, by simpa using h2.symm⟩
    · exact .inr ⟨x, hx, h1⟩

theorem readPrim_short (other : Nat → Str → Option Val) (c : Cls) (t n : Nat) (s : Str) (hn : n < 2 ^ 31) (h : s.length < n) :
    readPrim other c t n s = .more := by
  unfold readPrim maxPacketLength
  rw [if_neg (by omega), if_pos h]

theorem length_lt_of_append {x v suf : Str} (h : v = x ++ suf) (hs : suf ≠ []) : x.length < v.length := by
  have := List.length_pos_iff.2 hs
  rw [h, List.length_append]; omega

mutual
/-- A part of an encoding makes the reader wait for more. -/
theorem readPkt_prefix (other : Nat → Str → Option Val) : (t : Tlv) → (bs : Str) → BerOf t bs → LdapTypes t → bs.length < 2 ^ 31 →
    ∀ (pre suf : Str), bs = pre ++ suf → suf ≠ [] → ∀ f : Nat, pre.length < f → readPkt other f pre = .more
  | .prim c t v, bs, h, ht, hl, [], suf, he, hs, f, hf => by
    obtain ⟨f, rfl⟩ : ∃ g, f = g + 1 := ⟨f - 1, by omega⟩
    rfl
  | .con c t ks, bs, h, ht, hl, [], suf, he, hs, f, hf => by
    obtain ⟨f, rfl⟩ : ∃ g, f = g + 1 := ⟨f - 1, by omega⟩
    rfl
  | .prim c t v, bs, h, ht, hl, b :: pre, suf, he, hs, f, hf => by
    cases h with
    | prim _ _ _ l h1 h2 =>
      obtain ⟨f, rfl⟩ : ∃ g, f = g + 1 := ⟨f - 1, by omega⟩
      obtain ⟨rfl, he2⟩ := List.cons.inj he
      have he2 : l ++ v = pre ++ suf := he2
      simp at hl
      rw [readPkt, readIdent_octet h1]
      dsimp only
      rcases append_split he2 with ⟨x, rfl, hv⟩ | ⟨x, hx, hv⟩
      · rw [readLen_octets h2 (by omega)]
        dsimp only
        rw [if_neg (by decide)]
        exact readPrim_short other c t _ x (by omega) (length_lt_of_append hv hs)
      · rw [readLen_prefix h2 hv hx]
  | .con c t ks, bs, h, ht, hl, b :: pre, suf, he, hs, f, hf => by
    cases h with
    | con _ _ _ body l h1 h2 h3 =>
      obtain ⟨f, rfl⟩ : ∃ g, f = g + 1 := ⟨f - 1, by omega⟩
      obtain ⟨rfl, he2⟩ := List.cons.inj he
      have he2 : l ++ body = pre ++ suf := he2
      have := List.length_pos_iff.2 h3.ne_nil
      simp at hl
      rw [readPkt, readIdent_octet h1]
      dsimp only
      rcases append_split he2 with ⟨x, rfl, hv⟩ | ⟨x, hx, hv⟩
      · simp at hf
        rw [readLen_octets h3 (by omega)]
        dsimp only
        rw [if_pos rfl, readKids_prefix other ks body h2 ht (by omega) x suf hv hs f (by omega)]
      · rw [readLen_prefix h3 hv hx]
theorem readKids_prefix (other : Nat → Str → Option Val) : (ks : List Tlv) → (body : Str) → BerOfAll ks body → LdapTypesAll ks →
    body.length < 2 ^ 31 → ∀ (pre suf : Str), body = pre ++ suf → suf ≠ [] → ∀ f : Nat, pre.length + 1 < f →
    readKids other f (some body.length) pre = .more
  | [], body, h, ht, hl, pre, suf, he, hs, f, hf => by
    cases h
    have := congrArg List.length he
    have := List.length_pos_iff.2 hs
    simp at *
    omega
  | k :: ks, body, h, ht, hl, pre, suf, he, hs, f, hf => by
    cases h with
    | cons _ _ a b h1 h2 =>
      obtain ⟨f, rfl⟩ : ∃ g, f = g + 1 := ⟨f - 1, by omega⟩
      have ha := h1.long
      simp at hl
      rw [readKids, if_neg (by simp; intro hx; simp [hx] at ha)]
      rcases append_split he with ⟨x, rfl, hv⟩ | ⟨x, hx, hv⟩
      · simp at hf
        rw [readPkt_ber other k a h1 ht.1 (by omega) f x (by omega)]
        dsimp only
        rw [if_neg (by rw [not_isEOC k ht.1]; decide)]
        have e : (a ++ x).length - x.length = a.length := by simp
        rw [e, if_neg (by simp)]
        have e2 : Option.map (fun x => x - a.length) (some (a ++ b).length) = some b.length := by simp
        rw [e2, readKids_prefix other ks b h2 ht.2 (by omega) x suf hv hs f (by omega)]
      · rw [readPkt_prefix other k a h1 ht.1 (by omega) pre x hv hx f (by omega)]
end

/-! ## Any bytes: the reader decides on the bytes read so far -/

/-- The reader `g` takes at least `k` bytes, and what it makes of them does not depend on what follows. -/
def RdSettled {α : Type} (k : Nat) (g : Str → Rd (α × Str)) : Prop :=
  (∀ s a r, g s = .ok (a, r) → (∃ c, k ≤ c.length ∧ s = c ++ r) ∧ ∀ x, g (s ++ x) = .ok (a, r ++ x)) ∧
  (∀ s, g s = .bad → ∀ x, g (s ++ x) = .bad)

theorem readHigh_settled (n tag : Nat) : RdSettled 1 (readHigh n tag) := by
  suffices h : ∀ s n tag, (∀ a r, readHigh n tag s = .ok (a, r) → (∃ c, 1 ≤ c.length ∧ s = c ++ r) ∧ ∀ x, readHigh n tag (s ++ x) = .ok (a, r ++ x)) ∧
      (readHigh n tag s = .bad → ∀ x, readHigh n tag (s ++ x) = .bad) from ⟨fun s => (h s n tag).1, fun s => (h s n tag).2⟩
  intro s
  induction s with
  | nil => intro n tag; exact ⟨(fun a r h => by cases h), fun h => by cases h⟩
  | cons b s ih =>
    intro n tag
    simp only [List.cons_append, readHigh]
    generalize (tag * 128 + b.toNat % 128) % 2 ^ 64 = tag'
    by_cases h1 : n = 0 ∧ tag' = 0
    · simp only [if_pos h1]; exact ⟨(fun a r h => by cases h), by simp⟩
    simp only [if_neg h1]
    by_cases h2 : n + 1 > 9
    · simp only [if_pos h2]; exact ⟨(fun a r h => by cases h), by simp⟩
    simp only [if_neg h2]
    by_cases h3 : b < 128
    · simp only [if_pos h3]
      refine ⟨fun a r h => ?_, fun h => by cases h⟩
      cases h
      exact ⟨⟨[b], by simp, rfl⟩, fun _ => rfl⟩
    · simp only [if_neg h3]
      refine ⟨fun a r h => ?_, (ih (n + 1) tag').2⟩
      obtain ⟨⟨c, hc, he⟩, hx⟩ := (ih (n + 1) tag').1 a r h
      exact ⟨⟨b :: c, by simp, by rw [he]; rfl⟩, hx⟩

theorem readIdent_settled : RdSettled 1 readIdent := by
  refine ⟨fun s a r h => ?_, fun s h x => ?_⟩
  · cases s with
    | nil => cases h
    | cons b s =>
      simp only [List.cons_append, readIdent] at h ⊢
      by_cases h1 : b.toNat % 32 ≠ 31
      · simp only [if_pos h1] at h ⊢
        cases h
        exact ⟨⟨[b], by simp, rfl⟩, fun _ => rfl⟩
      · simp only [if_neg h1] at h ⊢
        cases hr : readHigh 0 0 s with
        | more => rw [hr] at h; cases h
        | bad => rw [hr] at h; cases h
        | ok q =>
          obtain ⟨tag, r'⟩ := q
          rw [hr] at h
          cases h
          obtain ⟨⟨c, hc, he⟩, hx⟩ := (readHigh_settled 0 0).1 s _ _ hr
          refine ⟨⟨b :: c, by simp, by rw [he]; rfl⟩, fun x => ?_⟩
          rw [hx x]
  · cases s with
    | nil => cases h
    | cons b s =>
      simp only [List.cons_append, readIdent] at h ⊢
      by_cases h1 : b.toNat % 32 ≠ 31
      · simp only [if_pos h1] at h; cases h
      · simp only [if_neg h1] at h ⊢
        cases hr : readHigh 0 0 s with
        | more => rw [hr] at h; cases h
        | ok q => rw [hr] at h; cases h
        | bad => rw [(readHigh_settled 0 0).2 s hr x]

theorem readLenBytes_settled (n acc : Nat) : RdSettled 0 (readLenBytes n acc) := by
  suffices h : ∀ n acc s, (∀ a r, readLenBytes n acc s = .ok (a, r) → (∃ c, 0 ≤ c.length ∧ s = c ++ r) ∧
        ∀ x, readLenBytes n acc (s ++ x) = .ok (a, r ++ x)) ∧
      (readLenBytes n acc s = .bad → ∀ x, readLenBytes n acc (s ++ x) = .bad) from ⟨fun s => (h n acc s).1, fun s => (h n acc s).2⟩
  intro n
  induction n with
  | zero =>
    intro acc s
    simp only [readLenBytes]
    refine ⟨fun a r h => ?_, fun h => by cases h⟩
    cases h
    exact ⟨⟨[], by simp, rfl⟩, fun _ => rfl⟩
  | succ n ih =>
    intro acc s
    cases s with
    | nil => exact ⟨(fun a r h => by cases h), fun h => by cases h⟩
    | cons b s =>
      simp only [List.cons_append, readLenBytes]
      refine ⟨fun a r h => ?_, (ih _ s).2⟩
      obtain ⟨⟨c, hc, he⟩, hx⟩ := (ih _ s).1 a r h
      exact ⟨⟨b :: c, by simp, by rw [he]; rfl⟩, hx⟩

theorem readLen_settled : RdSettled 1 readLen := by
  refine ⟨fun s a r h => ?_, fun s h x => ?_⟩
  · cases s with
    | nil => cases h
    | cons b s =>
      simp only [List.cons_append, readLen] at h ⊢
      by_cases h1 : b = 255
      · simp only [if_pos h1] at h; cases h
      simp only [if_neg h1] at h ⊢
      by_cases h2 : b = 128
      · simp only [if_pos h2] at h ⊢; cases h; exact ⟨⟨[b], by simp, rfl⟩, fun _ => rfl⟩
      simp only [if_neg h2] at h ⊢
      by_cases h3 : b < 128
      · simp only [if_pos h3] at h ⊢; cases h; exact ⟨⟨[b], by simp, rfl⟩, fun _ => rfl⟩
      simp only [if_neg h3] at h ⊢
      by_cases h4 : b.toNat - 128 > 8
      · simp only [if_pos h4] at h; cases h
      simp only [if_neg h4] at h ⊢
      cases hr : readLenBytes (b.toNat - 128) 0 s with
      | more => rw [hr] at h; cases h
      | bad => rw [hr] at h; cases h
      | ok q =>
        obtain ⟨n, r'⟩ := q
        rw [hr] at h
        dsimp only at h
        obtain ⟨⟨c, hc, he⟩, hx⟩ := (readLenBytes_settled _ 0).1 s _ _ hr
        by_cases h5 : n = 2 ^ 64 - 1
        · rw [if_pos h5] at h
          cases h
          refine ⟨⟨b :: c, by simp, by rw [he]; rfl⟩, fun x => ?_⟩
          rw [hx x]; dsimp only; rw [if_pos h5]
        rw [if_neg h5] at h
        by_cases h6 : n ≥ 2 ^ 63
        · rw [if_pos h6] at h; cases h
        rw [if_neg h6] at h
        cases h
        refine ⟨⟨b :: c, by simp, by rw [he]; rfl⟩, fun x => ?_⟩
        rw [hx x]; dsimp only; rw [if_neg h5, if_neg h6]
  · cases s with
    | nil => cases h
    | cons b s =>
      simp only [List.cons_append, readLen] at h ⊢
      by_cases h1 : b = 255
      · simp only [if_pos h1]
      simp only [if_neg h1] at h ⊢
      by_cases h2 : b = 128
      · simp only [if_pos h2] at h; cases h
      simp only [if_neg h2] at h ⊢
      by_cases h3 : b < 128
      · simp only [if_pos h3] at h; cases h
      simp only [if_neg h3] at h ⊢
      by_cases h4 : b.toNat - 128 > 8
      · simp only [if_pos h4]
      simp only [if_neg h4] at h ⊢
      cases hr : readLenBytes (b.toNat - 128) 0 s with
      | more => rw [hr] at h; cases h
      | bad => rw [(readLenBytes_settled _ 0).2 s hr x]
      | ok q =>
        obtain ⟨n, r'⟩ := q
        rw [hr] at h
        dsimp only at h
        obtain ⟨-, hx⟩ := (readLenBytes_settled _ 0).1 s _ _ hr
        rw [hx x]
        dsimp only
        by_cases h5 : n = 2 ^ 64 - 1
        · rw [if_pos h5] at h; cases h
        rw [if_neg h5] at h ⊢
        by_cases h6 : n ≥ 2 ^ 63
        · rw [if_pos h6]
        · rw [if_neg h6] at h; cases h

theorem readPrim_settled (other : Nat → Str → Option Val) (c : Cls) (t n : Nat) : RdSettled 0 (readPrim other c t n) := by
  have ht : ∀ s x : Str, ¬ s.length < n → (s ++ x).take n = s.take n ∧ (s ++ x).drop n = s.drop n ++ x := by
    intro s x h
    rw [List.take_append_of_le_length (by omega), List.drop_append_of_le_length (by omega)]
    exact ⟨rfl, rfl⟩
  refine ⟨fun s a r h => ?_, fun s h x => ?_⟩
  · unfold readPrim at h ⊢
    by_cases h1 : n > maxPacketLength
    · rw [if_pos h1] at h; cases h
    rw [if_neg h1] at h
    by_cases h2 : s.length < n
    · rw [if_pos h2] at h; cases h
    rw [if_neg h2] at h
    have hk : ∀ x : Str, ¬ (s ++ x).length < n := fun x => by rw [List.length_append]; omega
    by_cases h3 : c = .universal
    · rw [if_pos h3] at h
      cases hv : readVal other t (s.take n) with
      | none => rw [hv] at h; cases h
      | some v =>
        rw [hv] at h
        cases h
        refine ⟨⟨s.take n, by simp, (List.take_append_drop n s).symm⟩, fun x => ?_⟩
        rw [if_neg h1, if_neg (hk x), if_pos h3, (ht s x h2).1, (ht s x h2).2, hv]
    · rw [if_neg h3] at h
      cases h
      refine ⟨⟨s.take n, by simp, (List.take_append_drop n s).symm⟩, fun x => ?_⟩
      rw [if_neg h1, if_neg (hk x), if_neg h3, (ht s x h2).1, (ht s x h2).2]
  · unfold readPrim at h ⊢
    by_cases h1 : n > maxPacketLength
    · rw [if_pos h1]
    rw [if_neg h1] at h ⊢
    by_cases h2 : s.length < n
    · rw [if_pos h2] at h; cases h
    rw [if_neg h2] at h
    rw [if_neg (by rw [List.length_append]; omega)]
    by_cases h3 : c = .universal
    · rw [if_pos h3] at h ⊢
      rw [(ht s x h2).1]
      cases hv : readVal other t (s.take n) with
      | none => rfl
      | some v => rw [hv] at h; cases h
    · rw [if_neg h3] at h; cases h

/-- What a reader with a bound on the recursion makes of `s`, the reader with another bound makes of `s` and more bytes. -/
def Agree {α : Type} (k : Nat) (s x : Str) (r r' : Rd (α × Str)) : Prop :=
  match r with
  | .ok (a, t) => (∃ c, k ≤ c.length ∧ s = c ++ t) ∧ r' = .ok (a, t ++ x)
  | .bad => r' = .bad
  | .more => x = [] → r' = .more

theorem readPkt_agree (other : Nat → Str → Option Val) (f : Nat) :
    (∀ s : Str, s.length < f → ∀ (f' : Nat) (x : Str), (s ++ x).length < f' → Agree 2 s x (readPkt other f s) (readPkt other f' (s ++ x))) ∧
    (∀ (left : Option Nat) (s : Str), s.length + 1 < f → ∀ (f' : Nat) (x : Str), (s ++ x).length + 1 < f' →
      Agree 0 s x (readKids other f left s) (readKids other f' left (s ++ x))) := by
  induction f with
  | zero => exact ⟨fun s h => absurd h (by omega), fun l s h => absurd h (by omega)⟩
  | succ f ih =>
    obtain ⟨ih1, ih2⟩ := ih
    constructor
    · intro s hf f' x hf'
      obtain ⟨f', rfl⟩ : ∃ g, f' = g + 1 := ⟨f' - 1, by omega⟩
      rw [readPkt, readPkt]
      cases hi : readIdent s with
      | more =>
        intro hx
        subst hx
        rw [List.append_nil, hi]
      | bad => rw [readIdent_settled.2 s hi x]; exact rfl
      | ok q =>
        obtain ⟨⟨c, k, t⟩, s1⟩ := q
        obtain ⟨⟨c1, hc1, rfl⟩, hx1⟩ := readIdent_settled.1 s _ _ hi
        rw [hx1 x]
        dsimp only
        cases hl : readLen s1 with
        | more =>
          intro hx
          subst hx
          rw [List.append_nil, hl]
        | bad => rw [readLen_settled.2 s1 hl x]; exact rfl
        | ok q =>
          obtain ⟨len, s2⟩ := q
          obtain ⟨⟨c2, hc2, rfl⟩, hx2⟩ := readLen_settled.1 s1 _ _ hl
          rw [hx2 x]
          dsimp only
          simp only [List.length_append] at hf hf'
          cases k with
          | true =>
            rw [if_pos rfl, if_pos rfl]
            have := ih2 len s2 (by omega) f' x (by simp only [List.length_append]; omega)
            revert this
            cases hk : readKids other f len s2 with
            | more => intro h hx; rw [h hx]
            | bad => intro h; rw [h]; exact rfl
            | ok q =>
              obtain ⟨kids, s3⟩ := q
              rintro ⟨⟨c3, -, rfl⟩, h⟩
              rw [h]
              refine ⟨⟨c1 ++ (c2 ++ c3), by simp only [List.length_append]; omega, by simp⟩, rfl⟩
          | false =>
            rw [if_neg (by decide), if_neg (by decide)]
            cases len with
            | none => exact rfl
            | some n =>
              dsimp only
              cases hp : readPrim other c t n s2 with
              | more =>
                intro hx
                subst hx
                rw [List.append_nil, hp]
              | bad => exact (readPrim_settled other c t n).2 s2 hp x
              | ok q =>
                obtain ⟨p, s3⟩ := q
                obtain ⟨⟨c3, -, rfl⟩, hx3⟩ := (readPrim_settled other c t n).1 s2 _ _ hp
                rw [hx3 x]
                exact ⟨⟨c1 ++ (c2 ++ c3), by simp only [List.length_append]; omega, by simp⟩, rfl⟩
    · intro left s hf f' x hf'
      obtain ⟨f', rfl⟩ : ∃ g, f' = g + 1 := ⟨f' - 1, by omega⟩
      rw [readKids, readKids]
      by_cases h0 : left = some 0
      · rw [if_pos h0, if_pos h0]
        exact ⟨⟨[], by simp, rfl⟩, rfl⟩
      rw [if_neg h0, if_neg h0]
      have := ih1 s (by omega) f' x (by omega)
      revert this
      cases hp : readPkt other f s with
      | more => intro h hx; rw [h hx]
      | bad => intro h; rw [h]; exact rfl
      | ok q =>
        obtain ⟨p, s'⟩ := q
        rintro ⟨⟨c, hc, rfl⟩, h⟩
        rw [h]
        dsimp only
        have e1 : (c ++ s').length - s'.length = c.length := by simp
        have e2 : (c ++ s' ++ x).length - (s' ++ x).length = c.length := by simp
        rw [e1, e2]
        by_cases h1 : isEOC p = true
        · rw [if_pos h1, if_pos h1]
          cases left with
          | none => exact ⟨⟨c, by omega, rfl⟩, rfl⟩
          | some n => exact rfl
        rw [if_neg h1, if_neg h1]
        by_cases h2 : left.any (· < c.length) = true
        · rw [if_pos h2, if_pos h2]; exact rfl
        rw [if_neg h2, if_neg h2]
        simp only [List.length_append] at hf hf'
        have := ih2 (left.map (· - c.length)) s' (by omega) f' x (by simp only [List.length_append]; omega)
        revert this
        cases hk : readKids other f (left.map (· - c.length)) s' with
        | more => intro h hx; rw [h hx]
        | bad => intro h; rw [h]; exact rfl
        | ok q =>
          obtain ⟨ps, s''⟩ := q
          rintro ⟨⟨c', -, rfl⟩, h⟩
          rw [h]
          exact ⟨⟨c ++ c', by simp, by simp⟩, rfl⟩

theorem readPacket_agree (other : Nat → Str → Option Val) (s x : Str) : Agree 2 s x (readPacket other s) (readPacket other (s ++ x)) :=
  (readPkt_agree other (s.length + 1)).1 s (by omega) _ x (by omega)

end Idm
