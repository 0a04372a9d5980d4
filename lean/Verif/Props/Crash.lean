import Verif.Proofs.Crash
import Verif.Props.BoltWrite
/-!
# C27: which packets crash the server
-/
namespace Idm
open Dir

/-! ## Filters made by the compiler -/

mutual
/-- What the filter compiler makes: the children of comparisons that are read as strings are strings. -/
def ShapeF : Packet → Prop
  | .mk _ _ tag _ _ kids =>
    (tag = 3 → ∀ a v, kids = [a, v] → (∃ s, a.val = .str s) ∧ ∃ s, v.val = .str s) ∧
    (tag = 4 → ∀ a v, kids = [a, v] → (∃ s, a.val = .str s) ∧ ∀ c ∈ v.kids, c.val = .str c.data) ∧
    (tag = 0 ∨ tag = 1 ∨ tag = 2 → ShapeFs kids)
def ShapeFs : List Packet → Prop
  | [] => True
  | p :: ps => ShapeF p ∧ ShapeFs ps
end

theorem itemStep_tag (st : ItemSt) (c : UInt8) (s : Str) (h : ∀ t, st.tag = some t → 3 ≤ t) : ∀ t, (itemStep st c s).tag = some t → 3 ≤ t := by
  unfold itemStep
  repeat' split
  all_goals first | exact h | (intro t ht; simp at ht; omega)

theorem itemLoop_tag : ∀ (s : Str) (st st' : ItemSt) (rest : Str), itemLoop st s = some (st', rest) → (∀ t, st.tag = some t → 3 ≤ t) →
    ∀ t, st'.tag = some t → 3 ≤ t
  | [], st, st', rest, h, _ => by simp [itemLoop] at h
  | c :: cs, st, st', rest, h, ht => by
    rw [itemLoop] at h
    split at h
    · exact itemLoop_tag cs _ st' rest h ht
    · split at h
      · simp at h; rw [← h.1]; exact ht
      · exact itemLoop_tag cs _ st' rest h (itemStep_tag st c _ ht)

theorem subParts_val (n : Nat) : ∀ (ps : List Str) (i : Nat) (l : List Packet), subParts n i ps = some l → ∀ c ∈ l, c.val = .str c.data
  | [], _, l, h, c, hc => by simp [subParts] at h; subst h; simp at hc
  | p :: ps, i, l, h, c, hc => by
    rw [subParts] at h
    split at h
    · exact subParts_val n ps (i + 1) l h c hc
    · cases hd : decodeEscapes p with
      | none => simp [hd] at h
      | some v =>
        cases hr : subParts n (i + 1) ps with
        | none => simp [hd, hr] at h
        | some rest =>
          simp only [hd, hr, Option.bind_eq_bind, Option.bind_some, Option.some.injEq] at h
          subst h
          rcases List.mem_cons.1 hc with h | h
          · rw [h]; rfl
          · exact subParts_val n ps (i + 1) rest hr c h

theorem itemPacket_shape {st : ItemSt} {p : Packet} (h : itemPacket st = some p) (ht : ∀ t, st.tag = some t → 3 ≤ t) : ShapeF p := by
  unfold itemPacket at h
  split at h
  · cases h
  · cases hd : decodeEscapes st.cond with
    | none => simp [hd] at h
    | some v => simp [hd] at h; subst h; simp [ShapeF]
  · rename_i t htag _
    have h3 := ht _ (by assumption)
    split at h
    · simp at h; subst h; simp [ShapeF, ctxNew]
    · split at h
      · cases hd : subParts (splitStar st.cond).length 0 (splitStar st.cond) with
        | none => simp [hd] at h
        | some v =>
          simp [hd] at h; subst h
          have := subParts_val _ _ _ _ hd
          simpa [ShapeF, octet, Packet.val, Packet.kids] using this
      · cases hd : decodeEscapes st.cond with
        | none => simp [hd] at h
        | some v =>
          simp [hd] at h; subst h
          refine ⟨?_, ?_, ?_⟩
          · rintro _ a v h; simp at h; rw [← h.1, ← h.2]; exact ⟨⟨_, rfl⟩, _, rfl⟩
          · rintro _ a v h; simp at h; rw [← h.1, ← h.2]; exact ⟨⟨_, rfl⟩, by simp [octet, Packet.kids]⟩
          · intro h; omega

mutual
theorem compileAt_shape : ∀ (n : Nat) (s : Str) (p : Packet) (rest : Str), compileAt n s = some (p, rest) → ShapeF p
  | 0, s, p, rest, h => by simp [compileAt] at h
  | n + 1, [], p, rest, h => by simp [compileAt] at h
  | n + 1, c :: cs, p, rest, h => by
    rw [compileAt] at h
    split at h
    · cases hx : compileAt n cs with
      | none => simp [hx] at h
      | some y =>
        obtain ⟨q, r⟩ := y
        rw [hx] at h
        simp only [Option.bind_eq_bind, Option.bind_some] at h
        cases r with
        | nil => cases h
        | cons a as => simp at h; rw [← h.1]; exact compileAt_shape n cs q _ hx
    · split at h
      · cases hx : compileSet n cs with
        | none => simp [hx] at h
        | some y =>
          simp [hx] at h
          rw [← h.1]
          have := compileSet_shape n cs y.1 y.2 hx
          simp [ShapeF, this]
      · split at h
        · cases hx : compileSet n cs with
          | none => simp [hx] at h
          | some y =>
            simp [hx] at h
            rw [← h.1]
            have := compileSet_shape n cs y.1 y.2 hx
            simp [ShapeF, this]
        · split at h
          · cases hx : compileAt n cs with
            | none => simp [hx] at h
            | some y =>
              simp [hx] at h
              rw [← h.1]
              have := compileAt_shape n cs y.1 y.2 hx
              simp [ShapeF, ShapeFs, this]
          · cases hx : itemLoop {} (c :: cs) with
            | none => simp [hx] at h
            | some y =>
              rw [hx] at h
              simp only [Option.bind_eq_bind, Option.bind_some] at h
              cases hy : itemPacket y.1 with
              | none => simp [hy] at h
              | some q =>
                simp [hy] at h
                rw [← h.1]
                exact itemPacket_shape hy (itemLoop_tag _ _ _ _ hx (by simp))
theorem compileSet_shape : ∀ (n : Nat) (s : Str) (ps : List Packet) (rest : Str), compileSet n s = some (ps, rest) → ShapeFs ps
  | 0, s, p, rest, h => by simp [compileSet] at h
  | n + 1, [], p, rest, h => by simp [compileSet] at h
  | n + 1, c :: cs, ps, rest, h => by
    rw [compileSet] at h
    split at h
    · cases hx : compileAt n cs with
      | none => simp [hx] at h
      | some y =>
        rw [hx] at h
        simp only [Option.bind_eq_bind, Option.bind_some] at h
        cases hy : compileSet n y.2 with
        | none => simp [hy] at h
        | some z =>
          simp [hy] at h
          rw [← h.1]
          exact ⟨compileAt_shape n cs y.1 y.2 hx, compileSet_shape n y.2 z.1 z.2 hy⟩
    · simp at h; rw [h.1]; trivial
end

theorem compile_shape {s : Str} {p : Packet} (h : compile s = some p) : ShapeF p := by
  unfold compile at h
  split at h
  · split at h
    · split at h
      · split at h
        · rename_i hx
          cases h
          exact compileAt_shape _ _ _ _ hx
        · cases h
      · cases h
    · cases h
  · cases h

/-- A result of matching: a verdict, or a crash with a cause. -/
def MatchOr (r : Res (Bool × Nat)) (cause : Prop) : Prop := (∃ x, r = .ok x) ∨ (r = .panic ∧ cause)

mutual
theorem applyFilter_calm (C : CaseEnv) (e : Entry) : ∀ (p : Packet), ShapeF p → MatchOr (applyFilter C e p) (EmptySub p)
  | .mk cls cons tag val data kids, h => by
    simp only [ShapeF] at h
    rw [applyFilter]
    by_cases h1 : tag = filterEq
    · rw [if_pos h1]
      left
      unfold applyEq
      split
      · rename_i a v
        obtain ⟨⟨s, hs⟩, t, ht⟩ := h.1 h1 a v rfl
        simp [Packet.mustStr, hs, ht]
      · exact ⟨_, rfl⟩
    · rw [if_neg h1]
      by_cases h2 : tag = filterPresent
      · rw [if_pos h2]; exact Or.inl ⟨_, rfl⟩
      · rw [if_neg h2]
        by_cases h3 : tag = filterAnd
        · rw [if_pos h3]
          rcases applyAnd_calm C e kids (h.2.2 (Or.inl h3)) with x | ⟨x, k, hk, y⟩
          · exact Or.inl x
          · exact Or.inr ⟨x, .under (Or.inl h3) hk y⟩
        · rw [if_neg h3]
          by_cases h4 : tag = filterOr
          · rw [if_pos h4]
            rcases applyOr_calm C e kids false (h.2.2 (Or.inr (Or.inl h4))) with x | ⟨x, k, hk, y⟩
            · exact Or.inl x
            · exact Or.inr ⟨x, .under (Or.inr (Or.inl h4)) hk y⟩
          · rw [if_neg h4]
            by_cases h5 : tag = filterNot
            · rw [if_pos h5]
              have hs := h.2.2 (Or.inr (Or.inr h5))
              match kids, hs with
              | [], _ => exact Or.inl ⟨_, rfl⟩
              | [k], hs =>
                rw [applyNot]
                rcases applyFilter_calm C e k hs.1 with ⟨⟨b, c⟩, x⟩ | ⟨x, y⟩
                · left
                  rw [x]
                  simp only [Res.ok_bind]
                  split <;> exact ⟨_, rfl⟩
                · right
                  rw [x]
                  exact ⟨rfl, .under (Or.inr (Or.inr h5)) (List.mem_singleton.2 rfl) y⟩
              | _ :: _ :: _, _ => exact Or.inl ⟨_, rfl⟩
            · rw [if_neg h5]
              by_cases h6 : tag = filterSub
              · rw [if_pos h6]
                unfold applySub
                split
                · rename_i a s
                  obtain ⟨⟨t, ht⟩, -⟩ := h.2.1 h6 a s rfl
                  simp only [Packet.mustStr, ht, Res.ok_bind]
                  cases hk : s.kids with
                  | nil => exact Or.inr ⟨rfl, .here h6 rfl hk⟩
                  | cons c cs => exact Or.inl ⟨_, rfl⟩
                · exact Or.inl ⟨_, rfl⟩
              · rw [if_neg h6]; exact Or.inl ⟨_, rfl⟩
theorem applyAnd_calm (C : CaseEnv) (e : Entry) : ∀ (ps : List Packet), ShapeFs ps →
    MatchOr (applyAnd C e ps) (∃ k ∈ ps, EmptySub k)
  | [], _ => Or.inl ⟨_, rfl⟩
  | p :: ps, h => by
    rw [applyAnd]
    rcases applyFilter_calm C e p h.1 with ⟨⟨b, c⟩, x⟩ | ⟨x, y⟩
    · rw [x]
      simp only [Res.ok_bind]
      split
      · exact Or.inl ⟨_, rfl⟩
      · split
        · exact Or.inl ⟨_, rfl⟩
        · rcases applyAnd_calm C e ps h.2 with z | ⟨z, k, hk, w⟩
          · exact Or.inl z
          · exact Or.inr ⟨z, k, by simp [hk], w⟩
    · right; rw [x]; exact ⟨rfl, p, by simp, y⟩
theorem applyOr_calm (C : CaseEnv) (e : Entry) : ∀ (ps : List Packet) (any : Bool), ShapeFs ps →
    MatchOr (applyOr C e ps any) (∃ k ∈ ps, EmptySub k)
  | [], _, _ => Or.inl ⟨_, rfl⟩
  | p :: ps, any, h => by
    rw [applyOr]
    rcases applyFilter_calm C e p h.1 with ⟨⟨b, c⟩, x⟩ | ⟨x, y⟩
    · rw [x]
      simp only [Res.ok_bind]
      split
      · exact Or.inl ⟨_, rfl⟩
      · rcases applyOr_calm C e ps _ h.2 with z | ⟨z, k, hk, w⟩
        · exact Or.inl z
        · exact Or.inr ⟨z, k, by simp [hk], w⟩
    · right; rw [x]; exact ⟨rfl, p, by simp, y⟩
end

theorem searchLoop_calm (C : CaseEnv) (fp : Packet) (h : ShapeF fp) (r : SearchReq) : ∀ (es : List Entry) (i : Nat),
    (∃ c, (searchLoop C fp r i es).2 = .ok c) ∨ ((searchLoop C fp r i es).2 = .panic ∧ EmptySub fp)
  | [], i => Or.inl ⟨_, rfl⟩
  | e :: es, i => by
    rw [searchLoop]
    rcases applyFilter_calm C e fp h with ⟨⟨b, c⟩, x⟩ | ⟨x, y⟩
    · rw [x]
      dsimp only
      repeat' split
      all_goals first | exact Or.inl ⟨_, rfl⟩ | exact searchLoop_calm C fp h r es _
    · rw [x]; exact Or.inr ⟨rfl, y⟩

/-! ## Requests -/

theorem strVals_calm : ∀ ps : List Packet, strVals ps ≠ .panic ∧ strVals ps ≠ .hang
  | [] => by simp [strVals]
  | p :: ps => by
    rw [strVals]
    have := strVals_calm ps
    split
    · simp
    · cases h : strVals ps with
      | ok x => simp
      | err x => simp
      | panic => exact absurd h this.1
      | hang => exact absurd h this.2

theorem parseAttribute_calm (a : Packet) (part : Bool) : parseAttribute a part ≠ .panic ∧ parseAttribute a part ≠ .hang := by
  unfold parseAttribute
  split
  · simp
  · rename_i h1
    split
    · simp
    · rename_i h2
      split
      · rename_i h0
        exfalso
        cases part <;> simp_all
      · rename_i ad h0
        split
        · simp
        · split
          · simp
          · split
            · simp
            · rename_i h3
              split
              · rename_i h4
                exfalso
                cases part
                · simp at h2; rw [List.getElem?_eq_none_iff] at h4; omega
                · rw [List.getElem?_eq_none_iff] at h4
                  simp only [Bool.true_and, Bool.or_eq_true, decide_eq_true_eq, not_or, Nat.not_lt] at h1 h3
                  omega
              · rename_i v _
                have hv : parseAttributeValues v ≠ .panic ∧ parseAttributeValues v ≠ .hang := by
                  unfold parseAttributeValues
                  split
                  · simp
                  · exact strVals_calm _
                cases h : parseAttributeValues v with
                | ok x => simp
                | err x => simp
                | panic => exact absurd h hv.1
                | hang => exact absurd h hv.2

theorem parseAttrs_calm : ∀ ps : List Packet, parseAttrs ps ≠ .panic ∧ parseAttrs ps ≠ .hang
  | [] => by simp [parseAttrs]
  | p :: ps => by
    rw [parseAttrs]
    have h1 := parseAttribute_calm p false
    have h2 := parseAttrs_calm ps
    cases h : parseAttribute p false with
    | ok x =>
      cases h' : parseAttrs ps with
      | ok x => simp
      | err x => simp
      | panic => exact absurd h' h2.1
      | hang => exact absurd h' h2.2
    | err x => simp
    | panic => exact absurd h h1.1
    | hang => exact absurd h h1.2

theorem parseAdd_calm {C : CaseEnv} (req : Packet) :
    parseAddRequest C req ≠ .panic ∧ parseAddRequest C req ≠ .hang ∧
    ∀ r, parseAddRequest C req = .ok r → ∃ d l name, req.kids = [d, l] ∧ d.val = .str r.dn ∧ parseDN C r.dn = some name := by
  unfold parseAddRequest
  split
  · rename_i d l hk
    cases hs : d.str? with
    | none => simp
    | some dn =>
      dsimp only
      cases hp : parseDN C dn with
      | none => simp
      | some name =>
        dsimp only
        have hv : parseAttributeList l ≠ .panic ∧ parseAttributeList l ≠ .hang := by
          unfold parseAttributeList
          split
          · simp
          · exact parseAttrs_calm _
        cases h : parseAttributeList l with
        | ok x => simp; exact ⟨d, hk ▸ ⟨⟨l, rfl⟩, str?_iff.1 hs, name, hp⟩⟩
        | err x => simp
        | panic => exact absurd h hv.1
        | hang => exact absurd h hv.2
  · simp

theorem parseMods_calm : ∀ ps : List Packet, parseMods ps ≠ .hang ∧ (parseMods ps = .panic → ∃ c ∈ ps, BadChange c)
  | [] => by simp [parseMods]
  | c :: cs => by
    have ih := parseMods_calm cs
    rw [parseMods]
    cases h0 : c.kids[0]? with
    | none =>
      rw [List.getElem?_eq_none_iff] at h0
      exact ⟨by simp, fun _ => ⟨c, by simp, Or.inl (by omega)⟩⟩
    | some o =>
      dsimp only
      cases h1 : o.data[0]? with
      | none =>
        refine ⟨by simp, fun _ => ⟨c, by simp, Or.inr ⟨o, h0, ?_⟩⟩⟩
        rw [List.getElem?_eq_none_iff] at h1
        exact List.eq_nil_of_length_eq_zero (by omega)
      | some b =>
        dsimp only
        split
        · simp
        · cases h2 : c.kids[1]? with
          | none =>
            rw [List.getElem?_eq_none_iff] at h2
            exact ⟨by simp, fun _ => ⟨c, by simp, Or.inl (by omega)⟩⟩
          | some a =>
            dsimp only
            have h3 := parseAttribute_calm a true
            cases h : parseAttribute a true with
            | ok x =>
              cases h' : parseMods cs with
              | ok x => simp
              | err x => simp
              | panic =>
                refine ⟨by simp, fun _ => ?_⟩
                obtain ⟨c', hc, hb⟩ := ih.2 h'
                exact ⟨c', by simp [hc], hb⟩
              | hang => exact absurd h' ih.1
            | err x => simp
            | panic => exact absurd h h3.1
            | hang => exact absurd h h3.2

theorem parseModify_calm {C : CaseEnv} (req : Packet) :
    parseModifyRequest C req ≠ .hang ∧
    (parseModifyRequest C req = .panic → ∃ l c, req.kids[1]? = some l ∧ c ∈ l.kids ∧ BadChange c) := by
  unfold parseModifyRequest
  split
  · rename_i d l hk
    cases hs : d.str? with
    | none => simp
    | some dn =>
      dsimp only
      cases hp : parseDN C dn with
      | none => simp
      | some name =>
        dsimp only
        have hv : parseModList l ≠ .hang ∧ (parseModList l = .panic → ∃ c ∈ l.kids, BadChange c) := by
          unfold parseModList
          split
          · simp
          · exact parseMods_calm _
        cases h : parseModList l with
        | ok x => simp
        | err x => simp
        | panic =>
          refine ⟨by simp, fun _ => ?_⟩
          obtain ⟨c, h1, h2⟩ := hv.2 h
          exact ⟨l, c, by rw [hk]; rfl, h1, h2⟩
        | hang => exact absurd h hv.1
  · simp

theorem parseDelete_calm {C : CaseEnv} (req : Packet) :
    parseDeleteRequest C req ≠ .panic ∧ parseDeleteRequest C req ≠ .hang ∧ ∀ dn, parseDeleteRequest C req = .ok dn → dn = req.data := by
  unfold parseDeleteRequest
  split
  · simp
  · split
    · simp
    · simp

theorem parseModifyDN_calm {C : CaseEnv} (req : Packet) :
    parseModifyDNRequest C req ≠ .panic ∧ parseModifyDNRequest C req ≠ .hang ∧
    ∀ r, parseModifyDNRequest C req = .ok r → ∃ d n, d ∈ req.kids ∧ n ∈ req.kids ∧ d.val = .str r.dn ∧ n.val = .str r.newRDN := by
  unfold parseModifyDNRequest
  split
  · simp
  · rename_i hlen
    split
    · rename_i d nw r rest hk
      cases hs : d.str? with
      | none => simp
      | some dn =>
        dsimp only
        cases hp : parseDN C dn with
        | none => simp
        | some name =>
          dsimp only
          cases hs2 : nw.str? with
          | none => simp
          | some rdn =>
            dsimp only
            cases hp2 : parseDN C rdn with
            | none => simp
            | some name2 =>
              dsimp only
              cases hs3 : r.bool? with
              | none => simp
              | some del =>
                dsimp only
                split
                · simp
                · refine ⟨by simp, by simp, ?_⟩
                  intro x hx
                  cases hx
                  exact ⟨d, nw, by rw [hk]; simp, by rw [hk]; simp, str?_iff.1 hs, str?_iff.1 hs2⟩
    · rename_i hne
      exfalso
      match hk : req.kids with
      | [] => rw [hk] at hlen; simp at hlen
      | [_] => rw [hk] at hlen; simp at hlen
      | [_, _] => rw [hk] at hlen; simp at hlen
      | a :: b :: c :: rest => exact hne a b c rest hk

theorem pwKids_fields (V : Env) : ∀ (ks : List Packet) (r r' : PwModReq), pwKids r ks = .ok r' →
    (r'.userIdentity = r.userIdentity ∨ ∃ k ∈ ks, k.tag = 0 ∧ k.data = r'.userIdentity) ∧
    (r'.oldPassword = r.oldPassword ∨ ∃ k ∈ ks, k.tag = 1 ∧ k.data = r'.oldPassword)
  | [], r, r', h => by simp [pwKids] at h; subst h; exact ⟨Or.inl rfl, Or.inl rfl⟩
  | k :: ks, r, r', h => by
    rw [pwKids] at h
    have lift : ∀ (t : Nat) (s : Str), (∃ x ∈ ks, x.tag = t ∧ x.data = s) → ∃ x ∈ k :: ks, x.tag = t ∧ x.data = s := by
      rintro t s ⟨x, h1, h2⟩; exact ⟨x, by simp [h1], h2⟩
    split at h
    · cases h
    · split at h
      · rename_i ht
        obtain ⟨h1, h2⟩ := pwKids_fields V ks _ r' h
        refine ⟨Or.inr ?_, h2.imp id (lift _ _)⟩
        rcases h1 with h1 | h1
        · exact ⟨k, by simp, ht, h1.symm⟩
        · exact lift _ _ h1
      · split at h
        · rename_i ht
          obtain ⟨h1, h2⟩ := pwKids_fields V ks _ r' h
          refine ⟨h1.imp id (lift _ _), Or.inr ?_⟩
          rcases h2 with h2 | h2
          · exact ⟨k, by simp, ht, h2.symm⟩
          · exact lift _ _ h2
        · split at h
          · obtain ⟨h1, h2⟩ := pwKids_fields V ks _ r' h
            exact ⟨h1.imp id (lift _ _), h2.imp id (lift _ _)⟩
          · cases h

theorem pwKids_calm : ∀ (ks : List Packet) (r : PwModReq), pwKids r ks ≠ .panic ∧ pwKids r ks ≠ .hang
  | [], r => by simp [pwKids]
  | k :: ks, r => by
    rw [pwKids]
    repeat' split
    all_goals first | (simp; done) | exact pwKids_calm ks _

theorem parsePw_calm (V : Env) (req b : Packet) (body : Option Packet) (hb : ∀ b, body = some b → b ∈ req.kids) :
    parsePwModify V body ≠ .panic ∧ parsePwModify V body ≠ .hang ∧
    ∀ r, parsePwModify V body = .ok r → (r.userIdentity = [] ∨ PwField V req 0 r.userIdentity) ∧
      (r.oldPassword = [] ∨ PwField V req 1 r.oldPassword) := by
  unfold parsePwModify
  split
  · simp
  · rename_i b
    split
    · simp
    · rename_i inner hd
      split
      · simp
      · refine ⟨(pwKids_calm _ _).1, (pwKids_calm _ _).2, ?_⟩
        intro r hr
        obtain ⟨h1, h2⟩ := pwKids_fields V _ _ r hr
        refine ⟨h1.imp id ?_, h2.imp id ?_⟩
        all_goals
          rintro ⟨k, hk, ht, he⟩
          exact ⟨b, inner, k, hb b rfl, hd, hk, ht, he⟩

/-! ## One packet -/

theorem decodeControls_calm (V : Env) : ∀ ps : List Packet, (∀ e, decodeControls V ps ≠ .err e) ∧
    (decodeControls V ps = .panic → ∃ q ∈ ps, V.control q = .panic) ∧ (decodeControls V ps = .hang → ∃ q ∈ ps, V.control q = .hang)
  | [] => by simp [decodeControls]
  | p :: ps => by
    have ih := decodeControls_calm V ps
    rw [decodeControls]
    cases hc : V.control p with
    | ok c =>
      cases h : decodeControls V ps with
      | ok x => simp
      | err x => exact absurd h (ih.1 x)
      | panic =>
        obtain ⟨q, hq, hp⟩ := ih.2.1 h
        exact ⟨by simp, fun _ => ⟨q, by simp [hq], hp⟩, by simp⟩
      | hang =>
        obtain ⟨q, hq, hp⟩ := ih.2.2 h
        exact ⟨by simp, by simp, fun _ => ⟨q, by simp [hq], hp⟩⟩
    | err x =>
      refine ⟨ih.1, fun h => ?_, fun h => ?_⟩
      · obtain ⟨q, hq, hp⟩ := ih.2.1 h; exact ⟨q, by simp [hq], hp⟩
      · obtain ⟨q, hq, hp⟩ := ih.2.2 h; exact ⟨q, by simp [hq], hp⟩
    | panic => exact ⟨by simp, fun _ => ⟨p, by simp, hc⟩, by simp⟩
    | hang => exact ⟨by simp, by simp, fun _ => ⟨p, by simp, hc⟩⟩

theorem generatePw_calm (rnd : Nat → Option Nat) (h : ∀ i k, rnd i = some k → k < 74) : ∀ (n i : Nat),
    generatePw rnd i n ≠ .panic ∧ generatePw rnd i n ≠ .hang
  | 0, i => by simp [generatePw]
  | n + 1, i => by
    have ih := generatePw_calm rnd h n (i + 1)
    rw [generatePw]
    cases hr : rnd i with
    | none => simp
    | some k =>
      have hk : k < pwChars.length := h i k hr
      simp only [List.getElem?_eq_getElem hk]
      cases hg : generatePw rnd (i + 1) n with
      | ok x => simp
      | err x => simp
      | panic => exact absurd hg ih.1
      | hang => exact absurd hg ih.2

theorem hashPw_calm (K : CryptoEnv) (salt pw alg : Str) : hashPw K salt pw alg ≠ .panic ∧ hashPw K salt pw alg ≠ .hang := by
  unfold hashPw
  repeat' split
  all_goals simp

theorem reply_calm {σ : Type} {id : Int} {tag : Nat} {bound : Str} {x : Res Nat × σ} {cause : Prop} (h : x.1 ≠ .hang ∧ (x.1 = .panic → cause)) :
    (reply id tag bound x).next ≠ .hang ∧ ((reply id tag bound x).next = .crash → cause) := by
  rcases reply_cases id tag bound x with ⟨c, e, -⟩ | ⟨e, e'⟩ | ⟨e, e'⟩
  · rw [e]; simp
  · rw [e]; exact ⟨by simp, fun _ => h.2 e'⟩
  · exact absurd e' h.1

theorem codeOf_calm {x : Res (Nat × Bool)} {cause : Prop} (h : x ≠ .hang ∧ (x = .panic → cause)) : codeOf x ≠ .hang ∧ (codeOf x = .panic → cause) := by
  cases x with
  | ok c => simp [codeOf]
  | err e => cases e <;> simp [codeOf]
  | panic => exact ⟨by simp [codeOf], fun _ => h.2 rfl⟩
  | hang => exact absurd rfl h.1

theorem storeCode_calm {x : Res Unit} {cause : Prop} (h : x ≠ .hang ∧ (x = .panic → cause)) : storeCode x ≠ .hang ∧ (storeCode x = .panic → cause) := by
  cases x with
  | ok c => simp [storeCode]
  | err e => cases e <;> simp [storeCode]
  | panic => exact ⟨by simp [storeCode], fun _ => h.2 rfl⟩
  | hang => exact absurd rfl h.1

theorem storeCodeLdap_calm {x : Res Unit} {cause : Prop} (h : x ≠ .hang ∧ (x = .panic → cause)) :
    storeCodeLdap x ≠ .hang ∧ (storeCodeLdap x = .panic → cause) := by
  cases x with
  | ok c => simp [storeCodeLdap]
  | err e => cases e <;> simp [storeCodeLdap]
  | panic => exact ⟨by simp [storeCodeLdap], fun _ => h.2 rfl⟩
  | hang => exact absurd rfl h.1

theorem parseFailed_calm {σ ρ : Type} {r : Res ρ} {st : σ} {cause : Prop} (h : r ≠ .hang ∧ (r = .panic → cause)) :
    (parseFailed r st).1 ≠ .hang ∧ ((parseFailed r st).1 = .panic → cause) := by
  cases r with
  | ok c => simp [parseFailed]
  | err e => cases e <;> simp [parseFailed]
  | panic => exact ⟨by simp [parseFailed], fun _ => h.2 rfl⟩
  | hang => exact absurd rfl h.1

theorem writeAllowed_admin {cfg : BoltCfg} {bound : Str} (h : ¬ (!writeAllowed cfg bound) = true) : bound = cfg.admin := by
  simp [writeAllowed] at h
  exact h.2.symm

section
variable {V : Env} {G : GobEnv} {cfg : BoltCfg} {n : Nat} {stats : Bool}

theorem add_calm {db : Db} (hi : IdsOk db) (bound : Str) (req : Packet) :
    (handleAdd V (boltSrv V G cfg n stats) bound req db).1 ≠ .hang ∧ ((handleAdd V (boltSrv V G cfg n stats) bound req db).1 = .panic →
      bound = cfg.admin ∧ bound ≠ [] ∧ ∃ x s, x ∈ req.kids ∧ x.val = .str s ∧ IsRoot V.C s) := by
  unfold handleAdd
  split
  · simp
  · rename_i hb
    obtain ⟨h1, h2, h3⟩ := parseAdd_calm (C := V.C) req
    split
    · rename_i r hr
      obtain ⟨d, l, name, hk, hd, hp⟩ := h3 r hr
      unfold callFn
      rw [show (boltSrv V G cfg n stats).addFns = [([], boltAdd V G cfg)] from rfl, pick_single]
      dsimp only
      apply codeOf_calm
      unfold boltAdd
      split
      · simp
      · rename_i ha
        apply storeCode_calm
        have := entryPut_calm (C := V.C) (G := G) hi cfg.store (entryFromAddRequest r.dn r.attrs) (name := name) hp
        refine ⟨this.1, fun h => ⟨writeAllowed_admin ha, hb, d, r.dn, by simp [hk], hd, this.2 h⟩⟩
    · apply parseFailed_calm
      exact ⟨h2, fun h => absurd h h1⟩

theorem delete_calm {db : Db} (hi : IdsOk db) (bound : Str) (req : Packet) :
    (handleDelete V (boltSrv V G cfg n stats) bound req db).1 ≠ .hang ∧
    ((handleDelete V (boltSrv V G cfg n stats) bound req db).1 = .panic → bound = cfg.admin ∧ bound ≠ [] ∧ IsRoot V.C req.data) := by
  unfold handleDelete
  split
  · simp
  · rename_i hb
    obtain ⟨h1, h2, h3⟩ := parseDelete_calm (C := V.C) req
    split
    · rename_i dn hr
      have := h3 dn hr
      subst this
      unfold callFn
      rw [show (boltSrv V G cfg n stats).deleteFns = [([], boltDelete V cfg)] from rfl, pick_single]
      dsimp only
      apply codeOf_calm
      unfold boltDelete
      split
      · simp
      · rename_i ha
        apply storeCode_calm
        have := entryDelete_calm (C := V.C) hi req.data
        exact ⟨this.1, fun h => ⟨writeAllowed_admin ha, hb, this.2 h⟩⟩
    · apply parseFailed_calm
      exact ⟨h2, fun h => absurd h h1⟩

theorem modify_calm {db : Db} (hi : IdsOk db) (he : EntOk V.C G db) (bound : Str) (req : Packet) :
    (handleModify V (boltSrv V G cfg n stats) bound req db).1 ≠ .hang ∧
    ((handleModify V (boltSrv V G cfg n stats) bound req db).1 = .panic → bound ≠ [] ∧
      ∃ l c, req.kids[1]? = some l ∧ c ∈ l.kids ∧ BadChange c) := by
  unfold handleModify
  split
  · simp
  · rename_i hb
    have hm := parseModify_calm (C := V.C) req
    split
    · rename_i r hr
      unfold callFn
      rw [show (boltSrv V G cfg n stats).modifyFns = [([], boltModify V G cfg)] from rfl, pick_single]
      dsimp only
      apply codeOf_calm
      unfold boltModify
      split
      · simp
      · apply storeCodeLdap_calm
        have := entryModify_calm (C := V.C) (G := G) hi he r.dn r.changes
        exact ⟨this.2, fun h => absurd h this.1⟩
    · apply parseFailed_calm
      exact ⟨hm.1, fun h => ⟨hb, hm.2 h⟩⟩

theorem modifyDN_calm (hC : V.C.Lawful) {db : Db} (hi : IdsOk db) (he : EntOk V.C G db) (bound : Str) (req : Packet) :
    (handleModifyDN V (boltSrv V G cfg n stats) bound req db).1 ≠ .hang ∧
    ((handleModifyDN V (boltSrv V G cfg n stats) bound req db).1 = .panic →
      bound = cfg.admin ∧ bound ≠ [] ∧ ∃ x s, x ∈ req.kids ∧ x.val = .str s ∧ IsRoot V.C s) := by
  unfold handleModifyDN
  split
  · simp
  · rename_i hb
    obtain ⟨h1, h2, h3⟩ := parseModifyDN_calm (C := V.C) req
    split
    · rename_i r hr
      obtain ⟨d, nw, hd, hn, h4, h5⟩ := h3 r hr
      unfold callFn
      rw [show (boltSrv V G cfg n stats).modifyDNFns = [([], boltModifyDN V G cfg)] from rfl, pick_single]
      dsimp only
      apply codeOf_calm
      unfold boltModifyDN
      split
      · simp
      · rename_i ha
        apply storeCodeLdap_calm
        have := entryModifyDN_calm (G := G) hC hi he r
        refine ⟨this.1, fun h => ⟨writeAllowed_admin ha, hb, ?_⟩⟩
        rcases this.2 h with h | h
        · exact ⟨d, r.dn, hd, h4, h⟩
        · exact ⟨nw, r.newRDN, hn, h5, h⟩
    · apply parseFailed_calm
      exact ⟨h2, fun h => absurd h h1⟩

theorem bind_calm {base : DN} {db : Db} {ns : List INode} (hG : G.Lawful) (R : Rel V.C G base db ns) (id : Int) (bound : Str) (req : Packet) :
    (stepBind V (boltSrv V G cfg n stats) id bound req db).next ≠ .hang ∧
    (stepBind V (boltSrv V G cfg n stats) id bound req db).next ≠ .crash := by
  have hbind : ∀ dn pw, (boltBind V G cfg dn pw db).1 ≠ .hang := by
    intro dn pw
    unfold boltBind
    repeat' split
    all_goals try simp
    unfold validateUser
    obtain ⟨x, hx⟩ := R.search_calm hG ‹Str› scopeBase
    rw [hx]
    split
    · have := validatePw_not_hang (C := V.C) V.K pw (getVal V.C (‹Entry› : Entry).attrs sUserPassword)
      split <;> simp_all
    · simp
    · simp
    · simp_all
    · simp_all
  have hbody : ∀ r st', bindBody (boltSrv V G cfg n stats) req db = (r, st') →
      r ≠ .hang ∧ (∀ e, r ≠ .err e) ∧ (r = .ok rcSuccess → ∃ d, req.kids[1]? = some d) := by
    intro r st' h
    unfold bindBody at h
    cases h0 : req.kids[0]? with
    | none => simp [h0] at h; simp [← h.1]
    | some v =>
      rw [h0] at h
      dsimp only at h
      cases h1 : v.int? with
      | none => simp [h1] at h; simp [← h.1, rcProtocolError, rcSuccess]
      | some version =>
        rw [h1] at h
        dsimp only at h
        by_cases h2 : version ≠ 3
        · rw [if_pos h2] at h; cases h; simp [rcInappropriateAuthentication, rcSuccess]
        · rw [if_neg h2] at h
          cases h3 : req.kids[1]? with
          | none => simp [h3] at h; simp [← h.1]
          | some d =>
            rw [h3] at h
            refine ⟨?_, ?_, fun _ => ⟨d, rfl⟩⟩
            all_goals
              dsimp only at h
              cases h4 : d.str? with
              | none => simp [h4] at h; simp [← h.1]
              | some bindDN =>
                rw [h4] at h
                dsimp only at h
                cases h5 : req.kids[2]? with
                | none => simp [h5] at h; simp [← h.1]
                | some auth =>
                  rw [h5] at h
                  dsimp only at h
                  by_cases h6 : auth.tag = authSimple
                  · rw [if_pos h6] at h
                    by_cases h7 : req.kids.length = 3
                    · rw [if_pos h7, show (boltSrv V G cfg n stats).bindFns = [([], boltBind V G cfg)] from rfl, pick_single] at h
                      dsimp only at h
                      have := hbind bindDN auth.data
                      rcases hf : boltBind V G cfg bindDN auth.data db with ⟨res, st2⟩
                      rw [hf] at h this
                      cases res with
                      | ok c =>
                        obtain ⟨c, b⟩ := c
                        cases b <;> (simp at h; simp [← h.1])
                      | err e => simp at h; simp [← h.1]
                      | panic => simp at h; simp [← h.1]
                      | hang => exact absurd rfl this
                    · rw [if_neg h7] at h; cases h; simp
                  · rw [if_neg h6] at h; cases h; simp
  unfold stepBind
  have hh : ∀ r st', handleBind (boltSrv V G cfg n stats) req db = (r, st') →
      r ≠ .hang ∧ r ≠ .panic ∧ (∀ e, r ≠ .err e) ∧ (r = .ok rcSuccess → ∃ d, req.kids[1]? = some d) := by
    intro r st' h
    unfold handleBind at h
    rcases hb : bindBody (boltSrv V G cfg n stats) req db with ⟨res, st2⟩
    have := hbody res st2 hb
    rw [hb] at h
    cases res with
    | panic => simp at h; simp [← h.1, rcOperationsError, rcSuccess]
    | ok c => simp at h; rw [← h.1]; exact ⟨this.1, by simp, this.2.1, this.2.2⟩
    | err e => exact absurd rfl (this.2.1 e)
    | hang => exact absurd rfl this.1
  rcases hx : handleBind (boltSrv V G cfg n stats) req db with ⟨r, st'⟩
  obtain ⟨k1, k2, k3, k4⟩ := hh r st' hx
  cases r with
  | panic => exact absurd rfl k2
  | hang => exact absurd rfl k1
  | err e => exact absurd rfl (k3 e)
  | ok code =>
    dsimp only
    by_cases hc : code = rcSuccess
    · rw [if_pos hc]
      obtain ⟨d, hd⟩ := k4 (by rw [hc])
      rw [hd]
      dsimp only
      split
      · simp
      · split <;> simp
    · rw [if_neg hc]; simp

theorem search_calm {base : DN} {db : Db} {ns : List INode} (hG : G.Lawful) (R : Rel V.C G base db ns) (id : Int) (bound : Str) (req : Packet)
    (controls : List Control) :
    (stepSearch V (boltSrv V G cfg n stats) id bound req controls db).next ≠ .hang ∧
    ((stepSearch V (boltSrv V G cfg n stats) id bound req controls db).next = .crash →
      ∃ f fp text, req.kids[6]? = some f ∧ decompile f = some text ∧ compile text = some fp ∧ EmptySub fp) := by
  have key : ∀ x st', handleSearch V (boltSrv V G cfg n stats) bound req controls db = (x, st') →
      (∃ out, x.2 = .ok out) ∨ (x.2 = .panic ∧
        ∃ f fp text, req.kids[6]? = some f ∧ decompile f = some text ∧ compile text = some fp ∧ EmptySub fp) := by
    intro x st' h
    unfold handleSearch at h
    cases hp : parseSearchRequest req controls with
    | none => rw [hp] at h; cases h; exact Or.inl ⟨_, rfl⟩
    | some r =>
      rw [hp] at h
      dsimp only at h
      rw [show (boltSrv V G cfg n stats).enforce = true from rfl, if_pos rfl] at h
      cases hf : compile r.filter with
      | none => rw [hf] at h; cases h; exact Or.inl ⟨_, rfl⟩
      | some fp =>
        rw [hf, show (boltSrv V G cfg n stats).searchFns = [([], boltSearchFn V G)] from rfl, pick_single] at h
        dsimp only at h
        obtain ⟨y, hy⟩ := R.search_calm hG r.baseDN (scopeNat r.scope)
        have hs : boltSearchFn V G bound r db = (.ok ⟨y.1, [], rcSuccess, false⟩, db) := by
          unfold boltSearchFn; rw [hy]
        rw [hs] at h
        simp only [Bool.false_eq_true, if_false] at h
        rcases hl : searchLoop V.C fp r 0 y.1 with ⟨sent, res⟩
        have hc := searchLoop_calm V.C fp (compile_shape hf) r y.1 0
        rw [hl] at hc h
        rcases hc with ⟨c, hc⟩ | ⟨hc, he⟩
        · simp only at hc; subst hc; cases h; exact Or.inl ⟨_, rfl⟩
        · simp only at hc; subst hc
          cases h
          refine Or.inr ⟨rfl, ?_⟩
          have : ∃ f, req.kids[6]? = some f ∧ decompile f = some r.filter := by
            unfold parseSearchRequest at hp
            split at hp
            · rename_i hk
              simp only [Option.bind_eq_bind, Option.bind_eq_some_iff] at hp
              obtain ⟨_, -, _, -, _, -, _, -, _, -, hp⟩ := hp
              split at hp
              all_goals
                simp only [Option.bind_eq_some_iff] at hp
                obtain ⟨_, -, t, ht, _, -, e⟩ := hp
                cases e
                exact ⟨_, by rw [hk]; rfl, ht⟩
            · cases hp
          obtain ⟨f, h1, h2⟩ := this
          exact ⟨f, fp, r.filter, h1, h2, hf, he⟩
  unfold stepSearch
  rcases hx : handleSearch V (boltSrv V G cfg n stats) bound req controls db with ⟨⟨before, r⟩, st'⟩
  rcases key _ _ hx with ⟨out, ho⟩ | ⟨ho, hc⟩
  · simp only at ho; subst ho
    dsimp only
    split <;> simp
  · simp only at ho; subst ho
    exact ⟨by simp, fun _ => hc⟩

theorem extended_calm {base : DN} {db : Db} {ns : List INode} (hG : G.Lawful) (R : Rel V.C G base db ns) (he : EntOk V.C G db)
    (o : Oracle) (ho : ∀ i k, o.rnd i = some k → k < 74) (id : Int) (bound : Str) (req : Packet) :
    (stepExtended V (boltSrv V G cfg n stats) o id bound req db).next ≠ .hang ∧
    ((stepExtended V (boltSrv V G cfg n stats) o id bound req db).next = .crash → bound ≠ [] ∧
      ((bound ≠ cfg.admin ∧ ∃ user nn, (user = bound ∨ PwField V req 0 user) ∧ parseNormalize V.C user = some nn ∧ nn ≠ bound) ∨
       ∃ old x, PwField V req 1 old ∧ old ≠ [] ∧ x ∈ dirOf ns ∧
        validatePw V.C V.K old (getVal V.C x.entry.attrs sUserPassword) = .panic)) := by
  let cause : Prop := bound ≠ [] ∧
      ((bound ≠ cfg.admin ∧ ∃ user nn, (user = bound ∨ PwField V req 0 user) ∧ parseNormalize V.C user = some nn ∧ nn ≠ bound) ∨
       ∃ old x, PwField V req 1 old ∧ old ≠ [] ∧ x ∈ dirOf ns ∧
        validatePw V.C V.K old (getVal V.C x.entry.attrs sUserPassword) = .panic)
  -- the handler
  have hfn : ∀ r : PwModReq, bound ≠ [] → r.userIdentity ≠ [] →
      (r.userIdentity = bound ∨ PwField V req 0 r.userIdentity) → (r.oldPassword = [] ∨ PwField V req 1 r.oldPassword) →
      (boltPwExop V G cfg bound r db).1 ≠ .hang ∧ ((boltPwExop V G cfg bound r db).1 = .panic → cause) ∧
      ∀ code, (boltPwExop V G cfg bound r db).1 = .ok (code, false) → code ≠ rcSuccess → cause := by
    intro r hb hu hu' hold
    unfold boltPwExop
    rw [if_neg hb, if_pos hu]
    cases hn : parseNormalize V.C r.userIdentity with
    | none => simp
    | some user =>
      dsimp only
      by_cases hx : bound ≠ user ∧ bound ≠ cfg.admin
      · rw [if_pos hx]
        refine ⟨by simp, by simp, fun _ _ _ => ⟨hb, Or.inl ⟨hx.2, r.userIdentity, user, hu', hn, hx.1.symm⟩⟩⟩
      · rw [if_neg hx]
        have hup := updatePassword_calm (K := V.K) R.idsOk he r
        cases hr : (updatePassword V.C G (validatePw V.C V.K) db r).1 with
        | ok x =>
          refine ⟨by simp, by simp, fun code h1 h2 => ?_⟩
          cases h1
          exact absurd rfl h2
        | err x => simp
        | panic =>
          obtain ⟨h1, k, e, h2, h3⟩ := hup.2 hr
          obtain ⟨x, hx, rfl⟩ := R.entry_of hG h2
          exact ⟨by simp, fun _ => ⟨hb, Or.inr ⟨_, x.node, hold.resolve_left h1, h1, List.mem_map.2 ⟨x, hx, rfl⟩, h3⟩⟩, by simp⟩
        | hang => exact absurd hr hup.1
  -- the extended operation
  have hpw : ∀ body, (∀ b, body = some b → b ∈ req.kids) →
      (handlePwModify V (boltSrv V G cfg n stats) o bound body db).1 ≠ .hang ∧
      ((handlePwModify V (boltSrv V G cfg n stats) o bound body db).1 = .panic → cause) ∧
      ∀ code, (handlePwModify V (boltSrv V G cfg n stats) o bound body db).1 = .err (.ldap code false) → cause := by
    intro body hbody
    unfold handlePwModify
    by_cases hb : bound = []
    · rw [if_pos hb]; simp
    · rw [if_neg hb]
      obtain ⟨h1, h2, h3⟩ := parsePw_calm V req req body hbody
      have herr : ∀ e, parsePwModify V body = .err e → ∀ code, e ≠ .ldap code false := by
        intro e h code
        have hk : ∀ (ks : List Packet) (r : PwModReq) (e : Err), pwKids r ks = .err e → e ≠ .ldap code false := by
          intro ks
          induction ks with
          | nil => intro r e h; simp [pwKids] at h
          | cons k ks ih =>
            intro r e h
            rw [pwKids] at h
            repeat' split at h
            all_goals first | exact ih _ _ h | (cases h; simp)
        unfold parsePwModify at h
        repeat' split at h
        all_goals first | exact hk _ _ _ h | (cases h; try simp)
      cases hp : parsePwModify V body with
      | err e => refine ⟨by simp, by simp, fun code h => ?_⟩; cases h; exact absurd rfl (herr _ hp code)
      | panic => exact absurd hp h1
      | hang => exact absurd hp h2
      | ok r =>
        obtain ⟨k1, k2⟩ := h3 r hp
        dsimp only
        have hg : ∀ x, (if r.newPassword = [] then generatePw o.rnd 0 n else .ok r.newPassword) = x → x ≠ .panic ∧ x ≠ .hang := by
          intro x hx
          split at hx
          · rw [← hx]; exact generatePw_calm _ ho _ _
          · rw [← hx]; simp
        rw [show (boltSrv V G cfg n stats).genPwLen = n from rfl]
        cases hx : (if r.newPassword = [] then generatePw o.rnd 0 n else .ok r.newPassword) with
        | err e => simp
        | panic => exact absurd rfl (hg _ hx).1
        | hang => exact absurd rfl (hg _ hx).2
        | ok pw =>
          dsimp only
          have hh := hashPw_calm V.K o.salt pw b!"{ARGON2}"
          cases hy : hashPw V.K o.salt pw b!"{ARGON2}" with
          | err e => simp
          | panic => exact absurd hy hh.1
          | hang => exact absurd hy hh.2
          | ok hashed =>
            dsimp only
            rw [show (boltSrv V G cfg n stats).pwExopFns = [([], boltPwExop V G cfg)] from rfl, pick_single]
            dsimp only
            have := hfn ⟨if r.userIdentity = [] then bound else r.userIdentity, r.oldPassword, hashed⟩ hb
              (by dsimp only; split <;> assumption)
              (by
                dsimp only
                split
                · exact Or.inl rfl
                · rename_i h; exact Or.inr (k1.resolve_left h)) k2
            rcases hz : boltPwExop V G cfg bound ⟨if r.userIdentity = [] then bound else r.userIdentity, r.oldPassword, hashed⟩ db with ⟨res, st2⟩
            rw [hz] at this
            dsimp only at this ⊢
            cases res with
            | ok c =>
              obtain ⟨code, e⟩ := c
              simp only [pwExopAnswer]
              by_cases hc : code ≠ rcSuccess
              · rw [if_pos hc]
                refine ⟨by simp, by simp, fun code' h => ?_⟩
                cases h
                exact this.2.2 code rfl hc
              · rw [if_neg hc]; simp
            | err e =>
              exfalso
              unfold boltPwExop at hz
              rw [if_neg hb] at hz
              dsimp only at hz
              repeat' split at hz
              all_goals simp at hz
            | panic => exact ⟨by simp [pwExopAnswer], fun _ => this.2.1 rfl, by simp [pwExopAnswer]⟩
            | hang => exact absurd rfl this.1
  have hext : (handleExtended V (boltSrv V G cfg n stats) o bound req db).1 ≠ .hang ∧
      ((handleExtended V (boltSrv V G cfg n stats) o bound req db).1 = .panic → cause) := by
    unfold handleExtended
    have hq : ∀ q, parseExtendedRequest req = q → q ≠ .panic ∧ q ≠ .hang ∧ ∀ oid body, q = .ok (oid, body) → ∀ b, body = some b → b ∈ req.kids := by
      intro q h
      subst h
      unfold parseExtendedRequest
      split
      · split <;> simp
      · split
        · simp
        · split
          · simp
          · rename_i hk _ _
            refine ⟨by simp, by simp, ?_⟩
            intro oid body h b hb
            subst hb
            simp at h
            rw [hk, ← h.2]
            simp
      · simp
    cases hp : parseExtendedRequest req with
    | err e => simp
    | panic => exact absurd rfl (hq _ hp).1
    | hang => exact absurd rfl (hq _ hp).2.1
    | ok ob =>
      obtain ⟨oid, body⟩ := ob
      dsimp only
      split
      · have := hpw body (fun b hb => (hq _ hp).2.2 oid body rfl b hb)
        rcases hz : handlePwModify V (boltSrv V G cfg n stats) o bound body db with ⟨res, st2⟩
        rw [hz] at this
        dsimp only at this
        cases res with
        | ok g => simp
        | err e =>
          cases e with
          | ldap code b =>
            cases b with
            | true => simp
            | false => exact ⟨by simp, fun _ => this.2.2 code rfl⟩
          | _ => simp
        | panic => exact ⟨by simp, fun _ => this.2.1 rfl⟩
        | hang => exact absurd rfl this.1
      · simp
  rcases stepExtended_cases V (boltSrv V G cfg n stats) o id bound req db with ⟨h, -⟩ | ⟨_, _, _, h, -⟩ | ⟨h, h'⟩ | ⟨h, h'⟩
  · rw [h]; simp
  · rw [h]; simp
  · rw [h]; exact ⟨by simp, fun _ => hext.2 h'⟩
  · exact absurd h' hext.1

end

/-! ## C27 -/

section
variable {V : Env} {G : GobEnv} {cfg : BoltCfg} {base : DN} {n : Nat} {stats : Bool}

theorem packet_calm (hC : V.C.Lawful) (hG : G.Lawful) {db : Db} {ns : List INode} (R : Rel V.C G base db ns) (he : EntOk V.C G db)
    (o : Oracle) (ho : ∀ i k, o.rnd i = some k → k < 74) (p : Packet) (bound : Str) :
    ((handlePacket V (boltSrv V G cfg n stats) o p bound db).next = .crash → CrashCause V cfg.admin (dirOf ns) p bound) ∧
    ((handlePacket V (boltSrv V G cfg n stats) o p bound db).next = .hang →
      (∃ m req c more q, p.kids = m :: req :: c :: more ∧ q ∈ c.kids ∧ V.control q = .hang) ∨
      (stats = true ∧ ∃ id req, Message p id req ∧ req.tag = 8)) := by
  generalize hout : handlePacket V (boltSrv V G cfg n stats) o p bound db = out
  have hcase := handlePacket_cases V (boltSrv V G cfg n stats) o p bound db
  rw [hout] at hcase
  cases hcase with
  | closed => simp
  | crash more m req hk hcls hp =>
    refine ⟨fun _ => ?_, by simp⟩
    have hd := decodeControls_calm V ((more.head?.map Packet.kids).getD [])
    rcases hp with hp | ⟨e, hp⟩
    · obtain ⟨q, hq, hc⟩ := hd.2.1 hp
      cases more with
      | nil => simp at hq
      | cons c more => exact .control m req c more q hk hq hc
    · exact absurd hp (hd.1 e)
  | hang more m req hk hcls hp =>
    refine ⟨by simp, fun _ => Or.inl ?_⟩
    obtain ⟨q, hq, hc⟩ := (decodeControls_calm V ((more.head?.map Packet.kids).getD [])).2.2 hp
    cases more with
    | nil => simp at hq
    | cons c more => exact ⟨m, req, c, more, q, hk, hq, hc⟩
  | addHang id req hm ht hs => exact ⟨by simp, fun _ => Or.inr ⟨hs, id, req, hm, ht⟩⟩
  | add id req hm ht hs =>
    have := reply_calm (id := id) (tag := 9) (bound := bound) (add_calm (V := V) (G := G) (cfg := cfg) (n := n) (stats := stats) R.idsOk bound req)
    refine ⟨fun h => ?_, fun h => absurd h this.1⟩
    obtain ⟨h1, h2, x, s, h3, h4, h5⟩ := this.2 h
    exact .root id req x s hm (Or.inl ht) h1 h2 h3 h4 h5
  | bind id req hm ht =>
    have := bind_calm (cfg := cfg) (n := n) (stats := stats) hG R id bound req
    exact ⟨fun h => absurd h this.2, fun h => absurd h this.1⟩
  | compare id req hm ht => simp
  | delete id req hm ht =>
    have := reply_calm (id := id) (tag := 11) (bound := bound) (delete_calm (V := V) (G := G) (cfg := cfg) (n := n) (stats := stats) R.idsOk bound req)
    refine ⟨fun h => ?_, fun h => absurd h this.1⟩
    obtain ⟨h1, h2, h3⟩ := this.2 h
    exact .deleteRoot id req hm ht h1 h2 h3
  | extended id req hm ht =>
    have := extended_calm (cfg := cfg) (n := n) (stats := stats) hG R he o ho id bound req
    refine ⟨fun h => ?_, fun h => absurd h this.1⟩
    obtain ⟨h1, ⟨h2, user, nn, h3, h4, h5⟩ | ⟨old, x, h2, h3, h4, h5⟩⟩ := this.2 h
    · exact .notOwner id req user nn hm ht h1 h2 h3 h4 h5
    · exact .oldPassword id req old x hm ht h1 h2 h3 h4 h5
  | modifyDN id req hm ht =>
    have := reply_calm (id := id) (tag := 13) (bound := bound) (modifyDN_calm (V := V) (G := G) (cfg := cfg) (n := n) (stats := stats) hC R.idsOk he bound req)
    refine ⟨fun h => ?_, fun h => absurd h this.1⟩
    obtain ⟨h1, h2, x, s, h3, h4, h5⟩ := this.2 h
    exact .root id req x s hm (Or.inr ht) h1 h2 h3 h4 h5
  | modify id req hm ht =>
    have := reply_calm (id := id) (tag := 7) (bound := bound) (modify_calm (V := V) (G := G) (cfg := cfg) (n := n) (stats := stats) R.idsOk he bound req)
    refine ⟨fun h => ?_, fun h => absurd h this.1⟩
    obtain ⟨h1, l, c, h2, h3, h4⟩ := this.2 h
    exact .change id req l c hm ht h1 h2 h3 h4
  | search id req controls hm ht =>
    have := search_calm (V := V) (cfg := cfg) (n := n) (stats := stats) hG R id bound req controls
    refine ⟨fun h => ?_, fun h => absurd h this.1⟩
    obtain ⟨f, fp, text, h1, h2, h3, h4⟩ := this.2 h
    exact .substring id req f fp text hm ht h1 h2 h3 h4

theorem packet_calm_after (hC : V.C.Lawful) (hG : G.Lawful) (hb : BaseOk V.C base) (ops : List Op) (h : HistOk V.C ops)
    (o : Oracle) (ho : ∀ i k, o.rnd i = some k → k < 74) (p : Packet) (bound : Str) :
    ((handlePacket V (boltSrv V G cfg n stats) o p bound (after V.C G (validatePw V.C V.K) base ops)).next = .crash →
      CrashCause V cfg.admin (dirAfter V.C (validatePw V.C V.K) base ops) p bound) ∧
    ((handlePacket V (boltSrv V G cfg n stats) o p bound (after V.C G (validatePw V.C V.K) base ops)).next = .hang →
      (∃ m req c more q, p.kids = m :: req :: c :: more ∧ q ∈ c.kids ∧ V.control q = .hang) ∨
      (stats = true ∧ ∃ id req, Message p id req ∧ req.tag = 8)) := by
  obtain ⟨ns, -, h2, R, -⟩ := sim_run_empty (validate := validatePw V.C V.K) hC hG hb ops h.ok h.len
  have he : EntOk V.C G (after V.C G (validatePw V.C V.K) base ops) := by
    intro k e hk
    obtain ⟨x, hx, rfl⟩ := R.entry_of hG hk
    have := specRun_noRoot (validate := validatePw V.C V.K) (base := base) hC ops [] (by simp)
    rw [h2] at this
    exact this x.node (List.mem_map.2 ⟨x, hx, rfl⟩)
  have := packet_calm (cfg := cfg) (n := n) (stats := stats) hC hG R he o ho p bound
  rw [dirAfter, h2]
  exact this

/-- **C27**, as far as it holds: after any history of the store, whatever packet any client sends, the server crashes only for one of the
causes listed in `CrashCause`. (Missing: these causes, each of which is real, see the `C27_..._fails` below. `ho`: the random source
gives numbers in the range it was asked for, as crypto/rand promises.) -/
theorem C27_crash_causes_partial (hC : V.C.Lawful) (hG : G.Lawful) (hb : BaseOk V.C base) (ops : List Op) (h : HistOk V.C ops)
    (o : Oracle) (ho : ∀ i k, o.rnd i = some k → k < 74) (p : Packet) (bound : Str)
    (hc : (handlePacket V (boltSrv V G cfg n stats) o p bound (after V.C G (validatePw V.C V.K) base ops)).next = .crash) :
    CrashCause V cfg.admin (dirAfter V.C (validatePw V.C V.K) base ops) p bound :=
  (packet_calm_after hC hG hb ops h o ho p bound).1 hc

/-- C27 for blocking: no packet blocks its connection forever, except a control that `DecodeControl` blocks on and, with metrics
enabled, an add request (C52). -/
theorem C27_hang_causes_partial (hC : V.C.Lawful) (hG : G.Lawful) (hb : BaseOk V.C base) (ops : List Op) (h : HistOk V.C ops)
    (o : Oracle) (ho : ∀ i k, o.rnd i = some k → k < 74) (p : Packet) (bound : Str)
    (hc : (handlePacket V (boltSrv V G cfg n stats) o p bound (after V.C G (validatePw V.C V.K) base ops)).next = .hang) :
    (∃ m req c more q, p.kids = m :: req :: c :: more ∧ q ∈ c.kids ∧ V.control q = .hang) ∨
    (stats = true ∧ ∃ id req, Message p id req ∧ req.tag = 8) :=
  (packet_calm_after hC hG hb ops h o ho p bound).2 hc

/-- A client that has not bound crashes the server only by a control or by an empty substring filter. -/
theorem C27_anonymous_partial (hC : V.C.Lawful) (hG : G.Lawful) (hb : BaseOk V.C base) (ops : List Op) (h : HistOk V.C ops)
    (o : Oracle) (ho : ∀ i k, o.rnd i = some k → k < 74) (p : Packet)
    (hc : (handlePacket V (boltSrv V G cfg n stats) o p [] (after V.C G (validatePw V.C V.K) base ops)).next = .crash) :
    (∃ m req c more q, p.kids = m :: req :: c :: more ∧ q ∈ c.kids ∧ V.control q = .panic) ∨
    (∃ id req f fp text, Message p id req ∧ req.tag = 3 ∧ req.kids[6]? = some f ∧ decompile f = some text ∧ compile text = some fp ∧ EmptySub fp) := by
  cases C27_crash_causes_partial hC hG hb ops h o ho p [] hc with
  | control m req c more q h1 h2 h3 => exact Or.inl ⟨m, req, c, more, q, h1, h2, h3⟩
  | substring id req f fp text h1 h2 h3 h4 h5 h6 => exact Or.inr ⟨id, req, f, fp, text, h1, h2, h3, h4, h5, h6⟩
  | change _ _ _ _ _ _ hb => exact absurd rfl hb
  | root _ _ _ _ _ _ _ hb => exact absurd rfl hb
  | deleteRoot _ _ _ _ _ hb => exact absurd rfl hb
  | notOwner _ _ _ _ _ _ hb => exact absurd rfl hb
  | oldPassword _ _ _ _ _ _ hb => exact absurd rfl hb

theorem message_wMsg {id id' : Int} {req req' : Packet} (h : Message (wMsg id' req') id req) : req = req' := by
  obtain ⟨m, more, h1, -, -⟩ := h
  simp [wMsg, wSeq, Packet.kids] at h1
  exact h1.2.1.symm

theorem wMsg_no_controls {id : Int} {req' m req c : Packet} {more : List Packet} (h : (wMsg id req').kids = m :: req :: c :: more) : False := by
  simp [wMsg, wSeq, Packet.kids] at h

/-- Well-formed write requests of any client about anything but the root DN, with any effect, never crash the server. -/
theorem C27_writes_safe (hC : V.C.Lawful) (hG : G.Lawful) (hb : BaseOk V.C base) (ops : List Op) (h : HistOk V.C ops)
    (o : Oracle) (ho : ∀ i k, o.rnd i = some k → k < 74) (id : Int) (w : Write) (hw : ∀ s ∈ w.names, ¬ IsRoot V.C s) (bound : Str) :
    (handlePacket V (boltSrv V G cfg n stats) o (wMsg id w.packet) bound (after V.C G (validatePw V.C V.K) base ops)).next ≠ .crash := by
  intro hc
  cases C27_crash_causes_partial hC hG hb ops h o ho _ bound hc with
  | control _ _ _ _ _ h1 => exact wMsg_no_controls h1
  | substring _ req _ _ _ h1 h2 =>
    have := message_wMsg h1; subst this
    cases w <;> simp [Write.packet, wAdd, wDelete, wModify, wModifyDN, wReq, Packet.tag] at h2
  | change _ req l c h1 h2 _ h3 h4 h5 =>
    have := message_wMsg h1; subst this
    cases w with
    | modify dn cs =>
      simp [Write.packet, wModify, wReq, Packet.kids] at h3
      subst h3
      simp [wSeq, Packet.kids] at h4
      obtain ⟨ch, -, rfl⟩ := h4
      rcases h5 with h5 | ⟨x, h5, h6⟩
      · simp [wChange, wSeq, Packet.kids] at h5
      · simp [wChange, wSeq, Packet.kids] at h5
        subst h5
        simp [wEnum, Packet.data] at h6
    | _ => simp [Write.packet, wAdd, wDelete, wModifyDN, wReq, Packet.tag] at h2
  | root _ req x s h1 h2 _ _ h3 h4 h5 =>
    have := message_wMsg h1; subst this
    cases w with
    | add dn as =>
      simp [Write.packet, wAdd, wReq, Packet.kids] at h3
      rcases h3 with rfl | rfl
      · cases h4; exact hw _ (by simp [Write.names]) h5
      · cases h4
    | rename dn rdn del =>
      simp [Write.packet, wModifyDN, wReq, Packet.kids] at h3
      rcases h3 with rfl | rfl | rfl
      · cases h4; exact hw _ (by simp [Write.names]) h5
      · cases h4; exact hw _ (by simp [Write.names]) h5
      · cases h4
    | _ => simp [Write.packet, wDelete, wModify, wReq, Packet.tag] at h2
  | deleteRoot _ req h1 h2 _ _ h3 =>
    have := message_wMsg h1; subst this
    cases w with
    | delete dn => exact hw dn (by simp [Write.names]) h3
    | _ => simp [Write.packet, wAdd, wModify, wModifyDN, wReq, Packet.tag] at h2
  | notOwner _ req _ _ h1 h2 =>
    have := message_wMsg h1; subst this
    cases w <;> simp [Write.packet, wAdd, wDelete, wModify, wModifyDN, wReq, Packet.tag] at h2
  | oldPassword _ req _ _ h1 h2 =>
    have := message_wMsg h1; subst this
    cases w <;> simp [Write.packet, wAdd, wDelete, wModify, wModifyDN, wReq, Packet.tag] at h2

mutual
theorem encodes_no_empty : ∀ (f : Filter) (q : Packet), Encodes f q → FilterOk f → ¬ EmptySub q
  | .and fs, q, he, ho, hs => by
    cases hs with
    | here h => rw [he.1] at h; cases h
    | under _ hk hs => exact encodesAll_no_empty fs _ he.2 ho _ hk hs
  | .or fs, q, he, ho, hs => by
    cases hs with
    | here h => rw [he.1] at h; cases h
    | under _ hk hs => exact encodesAll_no_empty fs _ he.2 ho _ hk hs
  | .not f, q, he, ho, hs => by
    cases hs with
    | here h => rw [he.1] at h; cases h
    | under _ hk hs =>
      obtain ⟨k, hk', he'⟩ := he.2
      rw [hk'] at hk
      simp at hk
      subst hk
      exact encodes_no_empty f _ he' ho hs
  | .eq a v, q, he, ho, hs => by
    cases hs with
    | here h => rw [he.1] at h; cases h
    | under h => rw [he.1] at h; simp at h
  | .sub a i m f, q, he, ho, hs => by
    cases hs with
    | here h h1 h2 =>
      obtain ⟨-, x, s, h3, -, h4⟩ := he
      rw [h1] at h3
      cases h3
      rw [h2] at h4
      exact ho.2.1 h4.symm
    | under h => rw [he.1] at h; simp at h
  | .present a, q, he, ho, hs => by
    cases hs with
    | here h => rw [he.1] at h; cases h
    | under h => rw [he.1] at h; simp at h
  | .cmp t a v, q, he, ho, hs => by
    cases hs with
    | here h => have := he.1; have := he.2.1; omega
    | under h => have := he.1; have := he.2.1; omega
  | .ext r a v d, q, he, ho, hs => by
    cases hs with
    | here h => rw [he.1] at h; cases h
    | under h => rw [he.1] at h; simp at h
theorem encodesAll_no_empty : ∀ (fs : List Filter) (qs : List Packet), EncodesAll fs qs → FilterOkAll fs → ∀ k ∈ qs, ¬ EmptySub k
  | [], qs, he, ho, k, hk, hs => by simp [EncodesAll] at he; subst he; cases hk
  | f :: fs, qs, he, ho, k, hk, hs => by
    obtain ⟨q, rest, rfl, h1, h2⟩ := he
    cases hk with
    | head => exact encodes_no_empty f _ h1 ho.1 hs
    | tail _ hk => exact encodesAll_no_empty fs rest h2 ho.2 k hk hs
end

/-- Well-formed searches of any client, with any base, scope, limit and attributes, never crash the server. -/
theorem C27_searches_safe (hC : V.C.Lawful) (hG : G.Lawful) (hb : BaseOk V.C base) (ops : List Op) (h : HistOk V.C ops)
    (o : Oracle) (ho : ∀ i k, o.rnd i = some k → k < 74) (id : Int) (b : Str) (scope size : Nat) (f : Filter) (fp : Packet) (attrs : List Str)
    (hw : Wire f fp) (hf : FilterOk f) (bound : Str) :
    (handlePacket V (boltSrv V G cfg n stats) o (wMsg id (wSearch b scope size fp attrs)) bound
      (after V.C G (validatePw V.C V.K) base ops)).next ≠ .crash := by
  intro hc
  have tag : (wSearch b scope size fp attrs).tag = 3 := rfl
  cases C27_crash_causes_partial hC hG hb ops h o ho _ bound hc with
  | control _ _ _ _ _ h1 => exact wMsg_no_controls h1
  | substring _ req f' fp' text h1 h2 h3 h4 h5 h6 =>
    have := message_wMsg h1; subst this
    have hfp : fp = f' := by simpa [wSearch, wReq, Packet.kids] using h3
    subst hfp
    obtain ⟨s, q, k1, k2, k3⟩ := C59_filter_text_partial f fp hw hf
    rw [k1] at h4; cases h4
    rw [k2] at h5; cases h5
    exact encodes_no_empty f _ k3 hf h6
  | change _ req _ _ h1 h2 => have := message_wMsg h1; subst this; rw [tag] at h2; cases h2
  | root _ req _ _ h1 h2 => have := message_wMsg h1; subst this; rw [tag] at h2; simp at h2
  | deleteRoot _ req h1 h2 => have := message_wMsg h1; subst this; rw [tag] at h2; cases h2
  | notOwner _ req _ _ h1 h2 => have := message_wMsg h1; subst this; rw [tag] at h2; cases h2
  | oldPassword _ req _ _ h1 h2 => have := message_wMsg h1; subst this; rw [tag] at h2; cases h2

/-- Bind requests, well-formed or not, and whatever is stored as password, never crash the server: a panic is recovered there. -/
theorem C27_binds_safe (hC : V.C.Lawful) (hG : G.Lawful) (hb : BaseOk V.C base) (ops : List Op) (h : HistOk V.C ops)
    (o : Oracle) (ho : ∀ i k, o.rnd i = some k → k < 74) (id : Int) (kids : List Packet) (bound : Str) :
    (handlePacket V (boltSrv V G cfg n stats) o (wMsg id (wReq 0 kids)) bound (after V.C G (validatePw V.C V.K) base ops)).next ≠ .crash := by
  intro hc
  have tag : (wReq 0 kids).tag = 0 := rfl
  cases C27_crash_causes_partial hC hG hb ops h o ho _ bound hc with
  | control _ _ _ _ _ h1 => exact wMsg_no_controls h1
  | substring _ req _ _ _ h1 h2 => have := message_wMsg h1; subst this; rw [tag] at h2; cases h2
  | change _ req _ _ h1 h2 => have := message_wMsg h1; subst this; rw [tag] at h2; cases h2
  | root _ req _ _ h1 h2 => have := message_wMsg h1; subst this; rw [tag] at h2; simp at h2
  | deleteRoot _ req h1 h2 => have := message_wMsg h1; subst this; rw [tag] at h2; cases h2
  | notOwner _ req _ _ h1 h2 => have := message_wMsg h1; subst this; rw [tag] at h2; cases h2
  | oldPassword _ req _ _ h1 h2 => have := message_wMsg h1; subst this; rw [tag] at h2; cases h2

end

/-- An instance of the hypotheses, with a request the server answers. -/
example : HistOk asciiCase toyOps ∧ BaseOk asciiCase toyBase ∧
    after asciiCase gobInstance (validatePw asciiCase toyCrypto) toyBase toyOps = toyDb ∧
    (toyReq b!"uid=admin,dc=lg" (wDelete b!"uid=ann,dc=lg")).next = .go b!"uid=admin,dc=lg" :=
  ⟨⟨by decide +kernel, by decide +kernel⟩, by decide +kernel, rfl, by decide +kernel⟩

/-- Anyone, without bind, crashes the server with the search filter `(cn=**)`. -/
theorem C27_substring_fails :
    (toyReq [] (wSearch b!"dc=lg" 2 0 (.mk .context true 4 .nil [] [octet b!"cn", wSeq [ctxStr 1 []]]) [])).next = .crash := by
  decide +kernel

/-- Any bound client crashes the server with a modify request that contains an empty change. -/
theorem C27_change_fails : (toyReq b!"uid=ann,dc=lg" (wReq 6 [octet b!"uid=ann,dc=lg", wSeq [wSeq []]])).next = .crash := by
  decide +kernel

/-- Any bound client crashes the server by asking to change the password of somebody else. -/
theorem C27_not_owner_fails : (toyReq b!"uid=ann,dc=lg" (wPwModify ([48, 23, 128, 15] ++ b!"uid=admin,dc=lg" ++ [130, 3] ++ b!"new"))).next = .crash := by
  decide +kernel

/-- The administrator crashes the server by deleting the root DN, or adding it, or renaming it. -/
theorem C27_root_fails : (toyReq b!"uid=admin,dc=lg" (wDelete [])).next = .crash ∧
    (toyReq b!"uid=admin,dc=lg" (wAdd ⟨[], []⟩)).next = .crash ∧ (toyReq b!"uid=admin,dc=lg" (wModifyDN ⟨[], b!"cn=x", true⟩)).next = .crash := by
  decide +kernel

/-- The administrator crashes the server by changing the password of an entry without password and giving an old one. -/
theorem C27_old_password_fails :
    (toyReq b!"uid=admin,dc=lg" (wPwModify ([48, 17, 128, 5] ++ b!"dc=lg" ++ [129, 3] ++ b!"old" ++ [130, 3] ++ b!"new"))).next = .crash := by
  decide +kernel

end Idm
