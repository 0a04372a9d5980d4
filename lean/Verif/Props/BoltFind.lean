import Verif.Props.BoltBind
import Verif.Props.Filter
import Verif.Props.FilterText
import Verif.Props.Scope
import Verif.Spec.Find
import Verif.Proofs.EntryText
/-!
# C32 size limit, C33 search end to end
-/
namespace Idm
open Dir

/-! ## The loop of the search handler -/

mutual
theorem applyFilter_code (C : CaseEnv) (e : Entry) : ∀ (p : Packet) (b : Bool) (c : Nat), applyFilter C e p = .ok (b, c) → c = 0 ∨ c = 1
  | .mk _ _ tag _ data kids, b, c, h => by
    rw [applyFilter] at h
    by_cases h1 : tag = filterEq
    · rw [if_pos h1] at h
      unfold applyEq at h
      split at h
      · rename_i a v
        cases ha : a.mustStr <;> cases hv : v.mustStr <;> simp [ha, hv, rcSuccess] at h
        exact Or.inl h.2.symm
      · simp [rcOperationsError] at h; exact Or.inr h.2.symm
    · rw [if_neg h1] at h
      by_cases h2 : tag = filterPresent
      · rw [if_pos h2] at h; simp [rcSuccess] at h; exact Or.inl h.2.symm
      · rw [if_neg h2] at h
        by_cases h3 : tag = filterAnd
        · rw [if_pos h3] at h; exact applyAnd_code C e kids b c h
        · rw [if_neg h3] at h
          by_cases h4 : tag = filterOr
          · rw [if_pos h4] at h; exact applyOr_code C e kids false b c h
          · rw [if_neg h4] at h
            by_cases h5 : tag = filterNot
            · rw [if_pos h5] at h
              match kids, h with
              | [p], h =>
                rw [applyNot] at h
                cases hp : applyFilter C e p with
                | err x => simp [hp] at h
                | panic => simp [hp] at h
                | hang => simp [hp] at h
                | ok y =>
                  obtain ⟨b', c'⟩ := y
                  have := applyFilter_code C e p b' c' hp
                  rw [hp] at h
                  simp only [Res.ok_bind] at h
                  split at h <;> simp [rcSuccess] at h
                  · rw [← h.2]; exact this
                  · exact Or.inl h.2.symm
              | [], h => simp [applyNot, rcOperationsError] at h; exact Or.inr h.2.symm
              | _ :: _ :: _, h => simp [applyNot, rcOperationsError] at h; exact Or.inr h.2.symm
            · rw [if_neg h5] at h
              by_cases h6 : tag = filterSub
              · rw [if_pos h6] at h
                unfold applySub at h
                split at h
                · rename_i a s
                  cases ha : a.mustStr <;> simp [ha] at h
                  split at h
                  · simp at h
                  · simp [rcSuccess] at h; exact Or.inl h.2.symm
                · simp [rcOperationsError] at h; exact Or.inr h.2.symm
              · rw [if_neg h6] at h
                simp [rcOperationsError] at h; exact Or.inr h.2.symm
theorem applyAnd_code (C : CaseEnv) (e : Entry) : ∀ (ps : List Packet) (b : Bool) (c : Nat), applyAnd C e ps = .ok (b, c) → c = 0 ∨ c = 1
  | [], b, c, h => by simp [applyAnd, rcSuccess] at h; exact Or.inl h.2.symm
  | p :: ps, b, c, h => by
    rw [applyAnd] at h
    cases hp : applyFilter C e p with
    | err x => simp [hp] at h
    | panic => simp [hp] at h
    | hang => simp [hp] at h
    | ok y =>
      obtain ⟨b', c'⟩ := y
      have := applyFilter_code C e p b' c' hp
      rw [hp] at h
      simp only [Res.ok_bind] at h
      split at h
      · simp at h; rw [← h.2]; exact this
      · split at h
        · simp [rcSuccess] at h; exact Or.inl h.2.symm
        · exact applyAnd_code C e ps b c h
theorem applyOr_code (C : CaseEnv) (e : Entry) : ∀ (ps : List Packet) (any b : Bool) (c : Nat), applyOr C e ps any = .ok (b, c) → c = 0 ∨ c = 1
  | [], any, b, c, h => by simp [applyOr, rcSuccess] at h; exact Or.inl h.2.symm
  | p :: ps, any, b, c, h => by
    rw [applyOr] at h
    cases hp : applyFilter C e p with
    | err x => simp [hp] at h
    | panic => simp [hp] at h
    | hang => simp [hp] at h
    | ok y =>
      obtain ⟨b', c'⟩ := y
      have := applyFilter_code C e p b' c' hp
      rw [hp] at h
      simp only [Res.ok_bind] at h
      split at h
      · simp at h; rw [← h.2]; exact this
      · exact applyOr_code C e ps _ b c h
end

theorem filterScope_code (C : CaseEnv) (b : Str) (s : Nat) (e : Entry) : (filterScope C b s e).2 = 0 ∨ (filterScope C b s e).2 = 1 := by
  unfold filterScope
  repeat' split
  all_goals simp [rcSuccess, rcOperationsError]

/-- With a size limit the loop does the same as without one until the limit is exceeded. -/
theorem searchLoop_limit (C : CaseEnv) (fp : Packet) (r : SearchReq) (m : Nat) (hm : 0 < m) : ∀ (es : List Entry) (i : Nat), i ≤ m →
    searchLoop C fp { r with sizeLimit := (m : Nat) } i es =
      let x := searchLoop C fp { r with sizeLimit := (0 : Nat) } i es
      if i + x.1.length ≤ m then x else (x.1.take (m - i), .ok rcSizeLimitExceeded) := by
  intro es
  induction es with
  | nil => intro i hi; simp [searchLoop, hi]
  | cons e es ih =>
    intro i hi
    simp only [searchLoop]
    rcases applyFilter C e fp with ⟨keep, code⟩ | x | _ | _
    · dsimp only
      by_cases hc : code = rcSuccess
      · subst hc
        simp only [ne_eq, not_true_eq_false, if_false]
        cases keep with
        | false => simpa using ih i hi
        | true =>
          simp only [Bool.not_true, Bool.false_eq_true, if_false]
          rcases filterScope C r.baseDN (scopeNat r.scope) e with ⟨keep, code⟩
          dsimp only
          by_cases hc' : code = rcSuccess
          · subst hc'
            simp only [ne_eq, not_true_eq_false, if_false]
            cases keep with
            | false => simpa using ih i hi
            | true =>
              simp only [Bool.not_true, Bool.false_eq_true, if_false]
              have h0 : ¬ (((0 : Nat) : Int) > 0 ∧ (i : Int) ≥ ((0 : Nat) : Int)) := by omega
              simp only [if_neg h0]
              by_cases hl : (m : Int) > 0 ∧ (i : Int) ≥ (m : Int)
              · rw [if_pos hl]
                have hl' : i = m := by omega
                subst hl'
                simp
              · rw [if_neg hl]
                have hl' : i < m := by omega
                rw [ih (i + 1) hl']
                rcases hx : searchLoop C fp { r with sizeLimit := (0 : Nat) } (i + 1) es with ⟨sent, res⟩
                dsimp only
                by_cases hs : i + 1 + sent.length ≤ m
                · rw [if_pos hs, if_pos (by simp; omega)]
                · rw [if_neg hs, if_neg (by simp; omega)]
                  have : m - i = (m - (i + 1)) + 1 := by omega
                  rw [this]
                  simp
          · simp [hc', hi]
      · simp [hc, hi]
    all_goals simp [hi]

theorem searchLoop_code (C : CaseEnv) (fp : Packet) (r : SearchReq) (h0 : r.sizeLimit = (0 : Nat)) : ∀ (es : List Entry) (i : Nat) (sent : List Entry) (c : Nat),
    searchLoop C fp r i es = (sent, .ok c) → c = 0 ∨ c = 1 := by
  intro es
  induction es with
  | nil => intro i sent c h; simp [searchLoop, rcSuccess] at h; exact Or.inl h.2.symm
  | cons e es ih =>
    intro i sent c h
    simp only [searchLoop] at h
    cases hf : applyFilter C e fp with
    | err x => simp [hf] at h
    | panic => simp [hf] at h
    | hang => simp [hf] at h
    | ok y =>
      obtain ⟨keep, code⟩ := y
      rw [hf] at h
      dsimp only at h
      split at h
      · simp at h; rw [← h.2]; exact applyFilter_code C e fp keep code hf
      · split at h
        · exact ih i sent c h
        · have hsc := filterScope_code C r.baseDN (scopeNat r.scope) e
          rcases hg : filterScope C r.baseDN (scopeNat r.scope) e with ⟨keep', code'⟩
          rw [hg] at h hsc
          dsimp only at h hsc
          split at h
          · simp at h; rw [← h.2]; exact hsc
          · split at h
            · exact ih i sent c h
            · rw [if_neg (by rw [h0]; omega)] at h
              rcases hx : searchLoop C fp r (i + 1) es with ⟨sent', res⟩
              rw [hx] at h
              simp at h
              obtain ⟨-, rfl⟩ := h
              exact ih (i + 1) sent' c hx

/-- If filter and scope check give no error then the loop keeps the entries that pass both. -/
theorem searchLoop_ok (C : CaseEnv) (fp : Packet) (r : SearchReq) (h0 : r.sizeLimit = (0 : Nat)) (p : Entry → Bool) : ∀ (es : List Entry) (i : Nat),
    (∀ e ∈ es, applyFilter C e fp = .ok (p e, rcSuccess) ∧ filterScope C r.baseDN (scopeNat r.scope) e = (true, rcSuccess)) →
    searchLoop C fp r i es = ((es.filter p).map (filterAttributes C r.attrs), .ok rcSuccess) := by
  intro es
  induction es with
  | nil => intro i h; rfl
  | cons e es ih =>
    intro i h
    obtain ⟨h1, h2⟩ := h e (by simp)
    have hi := fun j => ih j fun x hx => h x (by simp [hx])
    simp only [searchLoop, h1, h2, ne_eq, not_true_eq_false, if_false]
    cases hp : p e with
    | false => simp [hi, hp]
    | true =>
      simp only [Bool.not_true, Bool.false_eq_true, if_false]
      rw [if_neg (by rw [h0]; omega), hi]
      simp [hp]

section
variable {V : Env} {G : GobEnv} {cfg : BoltCfg} {n : Nat} {stats : Bool} {base : DN}

theorem wSearch_packet {σ : Type} (V : Env) (srv : Srv σ) (o : Oracle) (id : Int) (b : Str) (scope m : Nat) (f : Packet) (attrs : List Str)
    (bound : Str) (st : σ) :
    handlePacket V srv o (wMsg id (wSearch b scope m f attrs)) bound st = stepSearch V srv id bound (wSearch b scope m f attrs) [] st := by
  simp [handlePacket, wMsg, wSeq, Packet.kids, berInt, Packet.int?, Packet.val, wSearch, wReq, Packet.cls, decodeControls, Packet.tag,
    appAddRequest, appBindRequest, appCompareRequest, appDelRequest, appExtendedRequest, appModifyDNRequest, appModifyRequest, appSearchRequest]

theorem parseAttrNames_octet (attrs : List Str) : parseAttrNames (attrs.map octet) = some attrs := by
  induction attrs with
  | nil => rfl
  | cons a as ih => simp [parseAttrNames, ih, octet, Packet.str?, Packet.val]

theorem wSearch_parse (b : Str) (scope m : Nat) (f : Packet) (attrs : List Str) (cs : List Control) :
    parseSearchRequest (wSearch b scope m f attrs) cs =
      (decompile f).map fun s => ⟨b, scope, (0 : Nat), m, (0 : Nat), false, s, attrs, cs⟩ := by
  have h1 := parseAttrNames_octet attrs
  have h2 : (octet b).str? = some b := rfl
  have h3 : ∀ i, (wEnum i).int? = some (i : Int) := fun _ => rfl
  have h4 : ∀ i : Int, (berInt i).int? = some i := fun _ => rfl
  have h5 : (wBool false).val ≠ .nil := by simp [wBool, Packet.val]
  have h6 : (wBool false).bool? = some false := rfl
  simp only [parseSearchRequest, wSearch, wReq, Packet.kids, wSeq, h1, h2, h3, h4, if_neg h5, h6]
  cases hf : decompile f <;> simp

/-- What the server sends for the outcome of the loop. -/
def searchOut (id : Int) (bound : Str) (db : Db) : List Entry × Res Nat → Out Db
  | (sent, .ok code) => ⟨sent.map (.entry id) ++ [.searchDone id code (some [])], if code = 0 then .go bound else .closed, db⟩
  | (sent, .hang) => ⟨sent.map (.entry id), .hang, db⟩
  | (sent, _) => ⟨sent.map (.entry id), .crash, db⟩

/-- A search on the BoltDB server. -/
theorem wSearch_step (o : Oracle) (id : Int) (bound b : Str) (scope m : Nat) (f : Packet) (attrs : List Str) (db : Db) :
    handlePacket V (boltSrv V G cfg n stats) o (wMsg id (wSearch b scope m f attrs)) bound db =
      match decompile f with
      | none => ⟨[.searchDone id 1 none], .closed, db⟩
      | some s => match compile s with
        | none => ⟨[.searchDone id 1 none], .closed, db⟩
        | some fp => match boltSearch V.C G db b scope with
          | .ok (es, _) => searchOut id bound db (searchLoop V.C fp ⟨b, scope, (0 : Nat), m, (0 : Nat), false, s, attrs, []⟩ 0 es)
          | .err _ => ⟨[.searchDone id 0 (some [])], .go bound, db⟩
          | .panic => ⟨[], .crash, db⟩
          | .hang => ⟨[], .hang, db⟩ := by
  rw [wSearch_packet]
  unfold stepSearch handleSearch
  rw [wSearch_parse]
  cases hd : decompile f with
  | none => simp [rcOperationsError, boltSrv]
  | some s =>
    have he : (boltSrv V G cfg n stats).enforce = true := rfl
    simp only [Option.map_some, he, if_true]
    cases hc : compile s with
    | none => simp [rcOperationsError, boltSrv]
    | some fp =>
      have hp : pick (boltSrv V G cfg n stats).searchFns b = some (boltSearchFn V G) := by simp [boltSrv]
      have hs : scopeNat (scope : Int) = scope := by unfold scopeNat; rw [if_neg (by omega)]; omega
      simp only [hp, boltSearchFn, hs]
      cases hb : boltSearch V.C G db b scope with
      | err x => simp [searchLoop, rcSuccess]
      | panic => rfl
      | hang => rfl
      | ok y =>
        obtain ⟨es, er⟩ := y
        simp only [Bool.false_eq_true, if_false]
        rcases hl : searchLoop V.C fp ⟨b, scope, (0 : Nat), m, (0 : Nat), false, s, attrs, []⟩ 0 es with ⟨sent, r⟩
        cases r with
        | ok code =>
          simp only [searchOut, boltSrv, rcSuccess]
          by_cases h : code = 0 <;> simp [h]
        | err x => rfl
        | panic => rfl
        | hang => rfl

theorem entriesOf_append (xs ys : List Resp) : entriesOf (xs ++ ys) = entriesOf xs ++ entriesOf ys := List.filterMap_append ..

theorem entriesOf_map (id : Int) (es : List Entry) : entriesOf (es.map (.entry id)) = es := by
  unfold entriesOf
  rw [List.filterMap_map]
  exact List.filterMap_some

theorem entriesOf_out (id : Int) (bound : Str) (db : Db) (x : List Entry × Res Nat) : entriesOf (searchOut id bound db x).resps = x.1 := by
  obtain ⟨sent, r⟩ := x
  cases r <;> simp [searchOut, entriesOf_append, entriesOf_map]
  rfl

theorem done_mem_out (id : Int) (bound : Str) (db : Db) (x : List Entry × Res Nat) (k : Nat) :
    (∃ c, Resp.searchDone id k c ∈ (searchOut id bound db x).resps) ↔ x.2 = .ok k := by
  obtain ⟨sent, r⟩ := x
  cases r with
  | ok code => simp [searchOut, eq_comm]
  | err _ => simp [searchOut]
  | panic => simp [searchOut]
  | hang => simp [searchOut]

/-- C32: compare a search with size limit `m > 0` with the same search without limit, on any database, by any client. The entries
returned are the first `m` of those returned without limit. If there are no more than `m` then everything is the same. Otherwise, and
only then, the result is sizeLimitExceeded (4); the connection is closed after that. -/
theorem C32_size_limit (o : Oracle) (id : Int) (bound b : Str) (scope m : Nat) (hm : 0 < m) (f : Packet) (attrs : List Str) (db : Db) :
    let all := handlePacket V (boltSrv V G cfg n stats) o (wMsg id (wSearch b scope 0 f attrs)) bound db
    let out := handlePacket V (boltSrv V G cfg n stats) o (wMsg id (wSearch b scope m f attrs)) bound db
    entriesOf out.resps = (entriesOf all.resps).take m ∧
    ((entriesOf all.resps).length ≤ m → out = all) ∧
    ((∃ c, .searchDone id 4 c ∈ out.resps) ↔ m < (entriesOf all.resps).length) ∧
    (m < (entriesOf all.resps).length → out.next = .closed) := by
  intro all out
  have h1 : out = _ := wSearch_step o id bound b scope m f attrs db
  have h2 : all = _ := wSearch_step o id bound b scope 0 f attrs db
  rw [h1, h2]
  clear h1 h2 out all
  cases decompile f with
  | none => simp [entriesOf]
  | some s =>
    dsimp only
    cases compile s with
    | none => simp [entriesOf]
    | some fp =>
      dsimp only
      rcases boltSearch V.C G db b scope with ⟨es, er⟩ | x | _ | _
      · dsimp only
        have hl := searchLoop_limit V.C fp ⟨b, scope, (0 : Nat), m, (0 : Nat), false, s, attrs, []⟩ m hm es 0 (Nat.zero_le _)
        dsimp only at hl
        rw [hl]
        have hc := searchLoop_code V.C fp ⟨b, scope, (0 : Nat), (0 : Nat), (0 : Nat), false, s, attrs, []⟩ rfl es 0
        rcases hx : searchLoop V.C fp ⟨b, scope, (0 : Nat), (0 : Nat), (0 : Nat), false, s, attrs, []⟩ 0 es with ⟨sent, r⟩
        rw [hx] at hc
        rw [entriesOf_out, done_mem_out]
        dsimp only
        rw [entriesOf_out]
        dsimp only
        by_cases hlen : 0 + sent.length ≤ m
        · rw [if_pos hlen]
          refine ⟨(List.take_of_length_le (by dsimp only; omega)).symm, fun _ => rfl,
            ⟨fun h => ?_, fun h => by omega⟩, fun h => by omega⟩
          dsimp only at h
          subst h
          rcases hc sent 4 rfl with h | h <;> cases h
        · rw [if_neg hlen]
          exact ⟨rfl, fun h => by omega, by simp [rcSizeLimitExceeded]; omega, fun _ => rfl⟩
      all_goals simp [entriesOf]

/-- more entries than allowed, and exactly as many -/
example : (toyReq [] (wSearch b!"dc=lg" 2 1 (ctxStr 7 b!"uid") [b!"uid"])).resps =
      [.entry 7 ⟨b!"uid=admin,dc=lg", [⟨b!"uid", [b!"admin"]⟩]⟩, .searchDone 7 4 (some [])] ∧
    (toyReq [] (wSearch b!"dc=lg" 2 2 (ctxStr 7 b!"uid") [b!"uid"])).resps =
      [.entry 7 ⟨b!"uid=admin,dc=lg", [⟨b!"uid", [b!"admin"]⟩]⟩, .entry 7 ⟨b!"uid=Ann,dc=lg", [⟨b!"uid", [b!"Ann"]⟩]⟩,
       .searchDone 7 0 (some [])] := by decide +kernel

/-! ## C33 -/

/-- All pairs of ASCII names are such. -/
theorem caseSame_ascii {C : CaseEnv} (hC : C.Lawful) {m n : DN} (hm : AsciiName m) (hn : AsciiName n) : CaseSame C m n :=
  fun r hr a ha s hs b hb => ⟨fun h => (eqFold_iff_fold hC (hm r hr a ha).1 (hn s hs b hb).1).2 h.symm,
    fun h => (eqFold_iff_fold hC (hm r hr a ha).2 (hn s hs b hb).2).2 h.symm⟩

theorem sameRdn_of_fold {C : CaseEnv} (hC : C.Lawful) : ∀ {r s : RDN}, (∀ a ∈ r, ∀ b ∈ s,
    (C.fold a.typ = C.fold b.typ → C.eqFold a.typ b.typ = true) ∧ (C.fold a.val = C.fold b.val → C.eqFold a.val b.val = true)) →
    r.map (fun a => (⟨C.fold a.typ, C.fold a.val⟩ : AVA)) = s.map (fun a => ⟨C.fold a.typ, C.fold a.val⟩) →
    SameRdn C r s := by
  intro r s hr h
  have hsame : ∀ a b : AVA, a ∈ r → b ∈ s →
      (⟨C.fold a.typ, C.fold a.val⟩ : AVA) = ⟨C.fold b.typ, C.fold b.val⟩ → SameAva C a b := by
    intro a b ha hb e
    simp only [AVA.mk.injEq] at e
    exact ⟨(hr a ha b hb).1 e.1, (hr a ha b hb).2 e.2⟩
  refine ⟨by simpa using congrArg List.length h, fun a ha => ?_, fun b hb => ?_⟩
  · have : (⟨C.fold a.typ, C.fold a.val⟩ : AVA) ∈ s.map (fun a => ⟨C.fold a.typ, C.fold a.val⟩) := h ▸ List.mem_map_of_mem ha
    obtain ⟨b, hb, e⟩ := List.mem_map.1 this
    exact ⟨b, hb, hsame a b ha hb e.symm⟩
  · have : (⟨C.fold b.typ, C.fold b.val⟩ : AVA) ∈ r.map (fun a => ⟨C.fold a.typ, C.fold a.val⟩) := h ▸ List.mem_map_of_mem hb
    obtain ⟨a, ha, e⟩ := List.mem_map.1 this
    obtain ⟨h1, h2⟩ := hsame a b ha hb e
    exact ⟨a, ha, (hC.eqFold_symm _ _).trans h1, (hC.eqFold_symm _ _).trans h2⟩

theorem sameDn_of_fold {C : CaseEnv} (hC : C.Lawful) : ∀ {p q : DN}, CaseSame C p q → foldDN C p = foldDN C q → SameDn C p q := by
  intro p
  induction p with
  | nil =>
    intro q _ h
    cases q with
    | nil => exact ⟨rfl, by simp⟩
    | cons _ _ => simp [foldDN] at h
  | cons r p ih =>
    intro q hp h
    cases q with
    | nil => simp [foldDN] at h
    | cons s q =>
      simp only [foldDN, List.map_cons, List.cons.injEq] at h
      have h1 := sameRdn_of_fold hC (fun a ha b hb => hp r (by simp) a ha s (by simp) b hb) h.1
      obtain ⟨h2, h3⟩ := ih (q := q) (fun x hx a ha y hy b hb => hp x (by simp [hx]) a ha y (by simp [hy]) b hb) h.2
      refine ⟨by simpa using h2, fun i a b ha hb => ?_⟩
      cases i with
      | zero => simp at ha hb; subst ha hb; exact h1
      | succ i => exact h3 i a b (by simpa using ha) (by simpa using hb)

theorem inScope_fold {C : CaseEnv} (hC : C.Lawful) {scope : Nat} {b nm k : DN} (hb : CaseSame C nm b)
    (hk : foldDN C nm = k) (hs : scope = 0 ∨ scope = 1) (h : InScope scope (foldDN C b) k) : InScopeFold C scope b nm := by
  subst hk
  rcases h with ⟨rfl, h⟩ | ⟨rfl, r, h⟩ | ⟨rfl, h⟩
  · exact Or.inl ⟨rfl, sameDn_of_fold hC hb h⟩
  · cases nm with
    | nil => simp [foldDN] at h
    | cons r0 p =>
      simp only [foldDN, List.map_cons, List.cons.injEq] at h
      exact Or.inr (Or.inl ⟨rfl, r0, p, rfl, sameDn_of_fold hC (fun x hx => hb x (by simp [hx])) h.2⟩)
  · rcases hs with h | h <;> cases h

theorem filterAttributes_reduced {C : CaseEnv} (hC : C.Lawful) (attrs : List Str) (h : NoRepeat C attrs) (e : Entry) :
    filterAttributes C attrs e = reduced C attrs e := by
  have h1 := C31_once_partial hC attrs e h
  have h2 := (C31_selected (C := C) attrs e ⟨[], []⟩).1
  cases hf : filterAttributes C attrs e with
  | mk d as => rw [hf] at h1 h2; simp only at h1 h2; rw [h1, h2]; rfl

/-- A search whose base exists: the entries in scope that satisfy the filter of the first components. -/
theorem search_found (hC : V.C.Lawful) (u : Filter → Entry → Prop) {db : Db} {d : Dir} (hserv : Serves V.C G db d)
    (htext : ∀ x ∈ d, TextOf V.C x) (hparse : ∀ x ∈ d, ∃ nm, parseDN V.C x.entry.dn = some nm)
    (b : Str) (name : DN) (hb : parseDN V.C b = some name) (hok : NameOk name) (scope : Nat) (hs : scope ≤ 2) (hne : name ≠ [])
    (hplain : scope ≠ 2 → ∀ x ∈ d, PlainFirst x.entry.dn ∧ ∀ nm, parseDN V.C x.entry.dn = some nm → CaseSame V.C nm name)
    (f : Filter) (w : Packet) (hw : Wire f w) (hf : FilterOk f) (hsup : Supported f) (attrs : List Str)
    (hrep : NoRepeat V.C attrs) (o : Oracle) (id : Int) (bound : Str) (hhas : d.has (foldDN V.C name) = true) :
    ∃ found : List Node, (found.map (·.name)).Nodup ∧
      (∀ x, x ∈ found ↔ x ∈ d ∧ InScope scope (foldDN V.C name) x.name ∧ Sat V.C u x.entry (firstOnly f)) ∧
      handlePacket V (boltSrv V G cfg n stats) o (wMsg id (wSearch b scope 0 w attrs)) bound db =
        ⟨found.map (fun x => .entry id (reduced V.C attrs x.entry)) ++ [.searchDone id 0 (some [])], .go bound, db⟩ := by
  obtain ⟨s, fp, hdec, hcomp, henc⟩ := C59_filter_text_partial f w hw hf
  obtain ⟨all, hall, hnd, hmem⟩ := (hserv b name hb hok scope).1 hhas
  have hfil : ∀ e : Entry, ∃ q, applyFilter V.C e fp = .ok (q, rcSuccess) ∧ (q = true ↔ Sat V.C u e (firstOnly f)) := fun e =>
    C29_first_component_partial f fp henc (filterOk_has f hf) hsup
  let p : Entry → Bool := fun e => match applyFilter V.C e fp with | .ok (q, _) => q | _ => false
  have hp : ∀ e, applyFilter V.C e fp = .ok (p e, rcSuccess) ∧ (p e = true ↔ Sat V.C u e (firstOnly f)) := by
    intro e
    obtain ⟨q, k1, k2⟩ := hfil e
    have : p e = q := by simp only [p, k1]
    rw [this]
    exact ⟨k1, k2⟩
  have hscope : ∀ e ∈ all.map (·.entry), filterScope V.C b (scopeNat (scope : Int)) e = (true, rcSuccess) := by
    intro e he
    obtain ⟨x, hx, rfl⟩ := List.mem_map.1 he
    obtain ⟨hxd, hxs⟩ := (hmem x).1 hx
    have hsn : scopeNat (scope : Int) = scope := by unfold scopeNat; rw [if_neg (by omega)]; omega
    rw [hsn]
    obtain ⟨nm, hnm⟩ := hparse x hxd
    by_cases h2 : scope = 2
    · subst h2
      simp [filterScope, hb, hnm]
    · obtain ⟨k2, k3⟩ := hplain h2 x hxd
      have hs' : scope = 0 ∨ scope = 1 := by omega
      obtain ⟨keep, m1, m2⟩ := C30_scope_partial hC b name nm x.entry scope hs' hb hnm hne k2
      rw [m1, m2.2 (inScope_fold hC (k3 nm hnm) (htext x hxd nm hnm) hs' hxs)]
  refine ⟨all.filter fun x => p x.entry, ?_, ?_, ?_⟩
  · exact List.Sublist.nodup (List.Sublist.map _ List.filter_sublist) hnd
  · intro x
    simp only [List.mem_filter, hmem, (hp x.entry).2, and_assoc]
  · rw [wSearch_step, hdec]
    simp only [hcomp, hall]
    have hloop := searchLoop_ok V.C fp ⟨b, scope, (0 : Nat), (0 : Nat), (0 : Nat), false, s, attrs, []⟩ rfl p (all.map (·.entry)) 0
      (fun e he => ⟨(hp e).1, hscope e he⟩)
    rw [hloop]
    simp only [searchOut, rcSuccess, if_true, List.filter_map, List.map_map, Function.comp_def, filterAttributes_reduced hC attrs hrep]

/-- C33: after any history of store calls, any client's search without size limit whose base exists is answered by exactly the entries of
the directory that are in scope and satisfy what is left of the filter when all components but the first are taken out of every substring
filter, none twice, each reduced to the requested attributes; then success. Nothing else changes. For filters that have no more components
this is `C33_search_exact_partial`. (Missing: the other components, see `C29_substring_fails`; and what `C33_search_exact_partial` lists.) -/
theorem C33_search_first_partial (hC : V.C.Lawful) (hG : G.Lawful) (hb : BaseOk V.C base) (ops : List Op) (h : HistOk V.C ops)
    (u : Filter → Entry → Prop)
    (hparse : ∀ x ∈ dirAfter V.C (validatePw V.C V.K) base ops, ∃ nm, parseDN V.C x.entry.dn = some nm)
    (b : Str) (name : DN) (hname : parseDN V.C b = some name) (hok : NameOk name) (hne : name ≠ []) (scope : Nat) (hs : scope ≤ 2)
    (hplain : scope ≠ 2 → ∀ x ∈ dirAfter V.C (validatePw V.C V.K) base ops,
      PlainFirst x.entry.dn ∧ ∀ nm, parseDN V.C x.entry.dn = some nm → CaseSame V.C nm name)
    (f : Filter) (w : Packet) (hw : Wire f w) (hf : FilterOk f) (hsup : Supported f) (attrs : List Str)
    (hrep : NoRepeat V.C attrs) (o : Oracle) (id : Int) (bound : Str) :
    let d := dirAfter V.C (validatePw V.C V.K) base ops
    let db := after V.C G (validatePw V.C V.K) base ops
    d.has (foldDN V.C name) = true →
    ∃ found : List Node, (found.map (·.name)).Nodup ∧
      (∀ x, x ∈ found ↔ x ∈ d ∧ InScope scope (foldDN V.C name) x.name ∧ Sat V.C u x.entry (firstOnly f)) ∧
      handlePacket V (boltSrv V G cfg n stats) o (wMsg id (wSearch b scope 0 w attrs)) bound db =
        ⟨found.map (fun x => .entry id (reduced V.C attrs x.entry)) ++ [.searchDone id 0 (some [])], .go bound, db⟩ := by
  intro d db hhas
  exact search_found hC u (C05_search_exact hC hG hb ops h) (dirAfter_text hC ops h) hparse b name hname hok scope hs hne hplain f w hw hf
    hsup attrs hrep o id bound hhas

/-- C33: after any history of store calls, any client's search without size limit whose base exists is answered by exactly the entries of
the directory that are in scope and satisfy the filter, none twice, each reduced to the requested attributes; then success. Nothing else
changes. (Missing, each false in general: entries whose DN text does not parse (`C33_unparsable_name_fails`), base and one-level searches
of names whose first RDN does not end at their first comma (`C30_escaped_comma_fails`) or on whose case the store and the front end do not
agree (`C33_case_fails`), filters with several substring components or of unsupported kinds (C29),
attributes asked for twice (C31).) -/
theorem C33_search_exact_partial (hC : V.C.Lawful) (hG : G.Lawful) (hb : BaseOk V.C base) (ops : List Op) (h : HistOk V.C ops)
    (u : Filter → Entry → Prop)
    (hparse : ∀ x ∈ dirAfter V.C (validatePw V.C V.K) base ops, ∃ nm, parseDN V.C x.entry.dn = some nm)
    (b : Str) (name : DN) (hname : parseDN V.C b = some name) (hok : NameOk name) (hne : name ≠ []) (scope : Nat) (hs : scope ≤ 2)
    (hplain : scope ≠ 2 → ∀ x ∈ dirAfter V.C (validatePw V.C V.K) base ops,
      PlainFirst x.entry.dn ∧ ∀ nm, parseDN V.C x.entry.dn = some nm → CaseSame V.C nm name)
    (f : Filter) (w : Packet) (hw : Wire f w) (hf : FilterOk f) (h1 : OneComponent f) (hsup : Supported f) (attrs : List Str)
    (hrep : NoRepeat V.C attrs) (o : Oracle) (id : Int) (bound : Str) :
    let d := dirAfter V.C (validatePw V.C V.K) base ops
    let db := after V.C G (validatePw V.C V.K) base ops
    d.has (foldDN V.C name) = true →
    ∃ found : List Node, (found.map (·.name)).Nodup ∧
      (∀ x, x ∈ found ↔ x ∈ d ∧ InScope scope (foldDN V.C name) x.name ∧ Sat V.C u x.entry f) ∧
      handlePacket V (boltSrv V G cfg n stats) o (wMsg id (wSearch b scope 0 w attrs)) bound db =
        ⟨found.map (fun x => .entry id (reduced V.C attrs x.entry)) ++ [.searchDone id 0 (some [])], .go bound, db⟩ := by
  intro d db hhas
  have := C33_search_first_partial (cfg := cfg) (n := n) (stats := stats) hC hG hb ops h u hparse b name hname hok hne scope hs hplain f w hw hf
    hsup attrs hrep o id bound hhas
  rwa [firstOnly_id f h1] at this

/-- The hypothesis of C33 on DN texts holds if all add calls of the history had texts that parse; all add requests of the protocol do. -/
theorem C33_names_parse {C : CaseEnv} {validate : Str → Str → Res Bool} (ops : List Op)
    (hadd : ∀ e, Op.add e ∈ ops → ∃ nm, parseDN C e.dn = some nm) :
    ∀ x ∈ dirAfter C validate base ops, ∃ nm, parseDN C x.entry.dn = some nm := by
  intro x hx
  exact Option.isSome_iff_exists.1 (specRun_parse ops [] (by simp) (fun e he => Option.isSome_iff_exists.2 (hadd e he)) x hx)

/-- C61: after any history, the DN text of an entry that is found, if it parses, is a text of the name it is found under. (Missing: texts that
do not parse, see `C61_parses_partial` and `C61_unparsable_name_fails`; escaped attribute types, see `C61_escaped_type_fails`.) -/
theorem C61_text_names_entry_partial {C : CaseEnv} {validate : Str → Str → Res Bool} (hC : C.Lawful) (hG : G.Lawful) (hb : BaseOk C base)
    (ops : List Op) (h : HistOk C ops) (text : Str) (name : DN) (hp : parseDN C text = some name) (hok : NameOk name)
    (e : Entry) (hf : boltSearch C G (after C G validate base ops) text scopeBase = .ok ([e], none)) (name' : DN)
    (hp' : parseDN C e.dn = some name') : SameName C name' name := by
  rw [sameName_iff_foldDN]
  obtain ⟨k1, k2⟩ := C05_search_exact (validate := validate) hC hG hb ops h text name hp hok scopeBase
  cases hh : (dirAfter C validate base ops).has (foldDN C name) with
  | false => rw [k2 hh] at hf; simp at hf
  | true =>
    obtain ⟨found, m1, -, m3⟩ := k1 hh
    rw [m1] at hf
    simp only [Res.ok.injEq, Prod.mk.injEq, and_true] at hf
    obtain ⟨x, hx, rfl⟩ : ∃ x ∈ found, x.entry = e := by
      have : e ∈ found.map (·.entry) := by rw [hf]; simp
      simpa using this
    obtain ⟨hxd, hxs⟩ := (m3 x).1 hx
    have hn : x.name = foldDN C name := by
      rcases hxs with ⟨-, h⟩ | ⟨h, -⟩ | ⟨h, -⟩
      · exact h
      · simp [scopeBase] at h
      · simp [scopeBase] at h
    rw [dirAfter_text hC ops h x hxd name' hp', hn]

/-- hypotheses of C61, for an entry that was renamed -/
example : let ops := toyOps ++ [.rename ⟨b!"uid=ann,dc=lg", b!"uid=Eve\\, E", true⟩]
    HistOk asciiCase ops ∧ parseDN asciiCase b!"UID=eve\\2c e,DC=lg" = some [[⟨b!"UID", b!"eve, e"⟩], [⟨b!"DC", b!"lg"⟩]] ∧
    NameOk [[⟨b!"UID", b!"eve, e"⟩], [⟨b!"DC", b!"lg"⟩]] ∧
    (∃ e, boltSearch asciiCase gobInstance (after asciiCase gobInstance (validatePw asciiCase toyCrypto) toyBase ops) b!"UID=eve\\2c e,DC=lg" scopeBase =
      .ok ([e], none) ∧ e.dn = b!"uid=eve\\, e,dc=lg") := by
  refine ⟨by decide +kernel, by decide +kernel, by decide +kernel,
    ⟨b!"uid=eve\\, e,dc=lg", [⟨b!"mail", [b!"a@lg"]⟩, ⟨b!"userPassword", [b!"{ARGON2}$argon2id$pw"]⟩, ⟨b!"uid", [b!"Eve, E"]⟩]⟩, ?_, ?_⟩
  · decide +kernel
  · decide +kernel

/-- C61: if all add calls of the history had texts that parse, as all add requests of the protocol do, then so does the DN text of an entry that
is found, and it is a text of the name it is found under. (Missing: escaped attribute types, see `C61_escaped_type_fails`.) -/
theorem C61_parses_partial {C : CaseEnv} {validate : Str → Str → Res Bool} (hC : C.Lawful) (hG : G.Lawful) (hb : BaseOk C base)
    (ops : List Op) (h : HistOk C ops) (hadd : ∀ e, Op.add e ∈ ops → ∃ nm, parseDN C e.dn = some nm)
    (text : Str) (name : DN) (hp : parseDN C text = some name) (hok : NameOk name)
    (e : Entry) (hf : boltSearch C G (after C G validate base ops) text scopeBase = .ok ([e], none)) :
    ∃ name', parseDN C e.dn = some name' ∧ SameName C name' name := by
  obtain ⟨k1, k2⟩ := C05_search_exact (validate := validate) hC hG hb ops h text name hp hok scopeBase
  cases hh : (dirAfter C validate base ops).has (foldDN C name) with
  | false => rw [k2 hh] at hf; simp at hf
  | true =>
    obtain ⟨found, m1, -, m3⟩ := k1 hh
    have hf' := hf
    rw [m1] at hf'
    simp only [Res.ok.injEq, Prod.mk.injEq, and_true] at hf'
    obtain ⟨x, hx, rfl⟩ : ∃ x ∈ found, x.entry = e := by
      have : e ∈ found.map (·.entry) := by rw [hf']; simp
      simpa using this
    obtain ⟨nm, hnm⟩ := C33_names_parse ops hadd x ((m3 x).1 hx).1
    exact ⟨nm, hnm, C61_text_names_entry_partial hC hG hb ops h text name hp hok x.entry hf nm hnm⟩

/-- the added texts of the example parse -/
example : ∀ e, Op.add e ∈ toyOps ++ [.rename ⟨b!"uid=ann,dc=lg", b!"uid=Eve\\, E", true⟩] → ∃ nm, parseDN asciiCase e.dn = some nm := by
  intro e he
  apply Option.isSome_iff_exists.1
  have hall : ∀ op ∈ toyOps ++ [.rename ⟨b!"uid=ann,dc=lg", b!"uid=Eve\\, E", true⟩], (match op with | .add e => (parseDN asciiCase e.dn).isSome | _ => true) = true := by
    decide +kernel
  exact hall _ he

/-- C61 fails for names whose attribute types contain escaped separators: the entry found is called otherwise. -/
theorem C61_escaped_type_fails :
    ∃ (ops : List Op) (text : Str) (name name' : DN) (e : Entry), HistOk asciiCase ops ∧ parseDN asciiCase text = some name ∧
      boltSearch asciiCase gobInstance (after asciiCase gobInstance exValidate exBase ops) text scopeBase = .ok ([e], none) ∧
      parseDN asciiCase e.dn = some name' ∧ ¬ SameName asciiCase name' name :=
  ⟨[.add ⟨b!"dc=lg", []⟩, .add ⟨b!"ou=x,dc=lg", []⟩, .add ⟨b!"uid=a,ou=x,dc=lg", []⟩], b!"uid\\=a\\,ou=x,dc=lg",
    [[⟨b!"uid=a,ou", b!"x"⟩], [⟨b!"dc", b!"lg"⟩]], [[⟨b!"uid", b!"a"⟩], [⟨b!"ou", b!"x"⟩], [⟨b!"dc", b!"lg"⟩]], ⟨b!"uid=a,ou=x,dc=lg", []⟩,
    by decide +kernel, by decide +kernel, by decide +kernel, by decide +kernel, fun h => by
      rw [sameName_iff_foldDN] at h
      exact absurd h (by decide +kernel)⟩

/-- C61 fails for entries that `boltdb load` was given with a broken name: the DN in the result is not a name. -/
theorem C61_unparsable_name_fails :
    ∃ (ops : List Op) (text : Str) (name : DN) (e : Entry), HistOk asciiCase ops ∧ parseDN asciiCase text = some name ∧ NameOk name ∧
      boltSearch asciiCase gobInstance (after asciiCase gobInstance exValidate exBase ops) text scopeBase = .ok ([e], none) ∧
      parseDN asciiCase e.dn = none :=
  ⟨[.add ⟨b!"dc=lg,x", []⟩], b!"dc=lg", [[⟨b!"dc", b!"lg"⟩]], ⟨b!"dc=lg,x", []⟩,
    by decide +kernel, by decide +kernel, by decide +kernel, by decide +kernel, by decide +kernel⟩

/-- C33: a search below a name that is no entry is answered by success without entries. -/
theorem C33_no_base_partial (hC : V.C.Lawful) (hG : G.Lawful) (hb : BaseOk V.C base) (ops : List Op) (h : HistOk V.C ops)
    (b : Str) (name : DN) (hname : parseDN V.C b = some name) (hok : NameOk name) (scope : Nat)
    (f : Filter) (w : Packet) (hw : Wire f w) (hf : FilterOk f) (attrs : List Str) (m : Nat) (o : Oracle) (id : Int) (bound : Str) :
    let db := after V.C G (validatePw V.C V.K) base ops
    (dirAfter V.C (validatePw V.C V.K) base ops).has (foldDN V.C name) = false →
      handlePacket V (boltSrv V G cfg n stats) o (wMsg id (wSearch b scope m w attrs)) bound db =
        ⟨[.searchDone id 0 (some [])], .go bound, db⟩ := by
  intro db hhas
  obtain ⟨s, fp, hdec, hcomp, -⟩ := C59_filter_text_partial f w hw hf
  have := (C05_search_exact (validate := validatePw V.C V.K) hC hG hb ops h b name hname hok scope).2 hhas
  rw [wSearch_step, hdec]
  simp only [hcomp, db, this]
  simp [searchLoop, searchOut, rcSuccess]

/-- hypotheses of C33 for a one-level search in the toy directory, with the filter `(&(uid=a*)(!(mail=x)))`, and its result -/
example : let d := dirAfter asciiCase (validatePw asciiCase toyCrypto) toyBase toyOps
    (∀ x ∈ d, (parseDN asciiCase x.entry.dn).isSome = true) ∧ parseDN asciiCase b!"DC=lg" = some [[⟨b!"DC", b!"lg"⟩]] ∧
    NameOk [[⟨b!"DC", b!"lg"⟩]] ∧
    (∀ x ∈ d, PlainFirst x.entry.dn ∧ ∀ nm, parseDN asciiCase x.entry.dn = some nm → CaseSame asciiCase nm [[⟨b!"DC", b!"lg"⟩]]) ∧
    NoRepeat asciiCase [b!"MAIL"] ∧ d.has (foldDN asciiCase [[⟨b!"DC", b!"lg"⟩]]) = true ∧
    (toyReq [] (wSearch b!"DC=lg" 1 0 (.mk .context true 0 .nil [] [.mk .context true 4 .nil [] [octet b!"uid", wSeq [ctxStr 0 b!"a"]],
      .mk .context true 2 .nil [] [.mk .context true 3 .nil [] [octet b!"mail", octet b!"x"]]]) [b!"MAIL"])).resps =
      [.entry 7 ⟨b!"uid=admin,dc=lg", []⟩, .entry 7 ⟨b!"uid=Ann,dc=lg", [⟨b!"mail", [b!"a@lg"]⟩]⟩, .searchDone 7 0 (some [])] := by
  decide +kernel

example : let f : Filter := .and [.sub b!"uid" (some b!"a") [] none, .not (.eq b!"mail" b!"x")]
    Wire f (.mk .context true 0 .nil [] [.mk .context true 4 .nil [] [octet b!"uid", wSeq [ctxStr 0 b!"a"]],
      .mk .context true 2 .nil [] [.mk .context true 3 .nil [] [octet b!"mail", octet b!"x"]]]) ∧
    FilterOk f ∧ OneComponent f ∧ Supported f := by
  refine ⟨⟨rfl, _, _, rfl, ⟨rfl, _, _, rfl, rfl, rfl⟩, _, _, rfl, ⟨rfl, _, rfl, rfl, _, _, rfl, rfl, rfl⟩, rfl⟩,
    ⟨⟨by decide +kernel, by decide +kernel, by decide +kernel⟩, by unfold FilterOk FilterOk; decide +kernel, trivial⟩, ⟨rfl, trivial, trivial⟩, ⟨trivial, trivial, trivial⟩⟩

/-- the filter `(!(uid=A*x))`, for `C33_search_first_partial`, and the result of a search for it: none of the entries with `uid: Ann` -/
example : let f : Filter := .not (.sub b!"uid" (some b!"A") [] (some b!"x"))
    let w : Packet := .mk .context true 2 .nil [] [.mk .context true 4 .nil [] [octet b!"uid", wSeq [ctxStr 0 b!"A", ctxStr 2 b!"x"]]]
    Wire f w ∧ FilterOk f ∧ Supported f ∧
    (toyReq [] (wSearch b!"DC=lg" 2 0 w [b!"1.1"])).resps = [.entry 7 ⟨b!"dc=lg", []⟩, .searchDone 7 0 (some [])] := by
  refine ⟨⟨rfl, _, rfl, rfl, _, _, rfl, rfl, rfl⟩, ⟨by decide +kernel, by decide +kernel, by decide +kernel⟩, trivial, by decide +kernel⟩

/-- The toy directory after `idm boltdb load` added an entry whose DN is not a DN: go-ldap returns the part it understood beside the
error, which `EntryPut` ignores. (The add request of the protocol is checked before.) -/
def toyBadName : Res Unit × Db := boltStep asciiCase gobInstance (validatePw asciiCase toyCrypto) b!"dc=lg" toyDb
  (.add ⟨b!"uid=x,dc=lg,foo", [⟨b!"uid", [b!"x"]⟩]⟩)

/-- C33 fails once the directory has an entry with such a name: every search that comes across it ends in an error and closes the
connection, although all entries match. -/
theorem C33_unparsable_name_fails : toyBadName.1 = .ok () ∧
    (handlePacket toyEnv toySrv toyOracle (wMsg 8 (wSearch b!"dc=lg" 2 0 (ctxStr 7 b!"uid") [b!"uid"])) [] toyBadName.2).resps =
      [.entry 8 ⟨b!"uid=admin,dc=lg", [⟨b!"uid", [b!"admin"]⟩]⟩, .entry 8 ⟨b!"uid=Ann,dc=lg", [⟨b!"uid", [b!"Ann"]⟩]⟩,
       .searchDone 8 1 (some [])] ∧
    (handlePacket toyEnv toySrv toyOracle (wMsg 8 (wSearch b!"dc=lg" 2 0 (ctxStr 7 b!"uid") [b!"uid"])) [] toyBadName.2).next = .closed := by
  decide +kernel

/-- C33 fails for entries with an escaped comma in the RDN: a one-level search ends in an error. -/
theorem C33_escaped_comma_fails :
    let st := (toyReq b!"uid=admin,dc=lg" (wAdd ⟨b!"uid=x\\,y,dc=lg", [⟨b!"uid", [b!"x,y"]⟩]⟩)).st
    (handlePacket toyEnv toySrv toyOracle (wMsg 8 (wSearch b!"dc=lg" 1 0 (ctxStr 7 b!"mail") [])) [] st).resps =
      (toyReq [] (wSearch b!"dc=lg" 1 0 (ctxStr 7 b!"mail") [])).resps.map (fun r => match r with
        | .entry _ e => .entry 8 e | .searchDone _ _ c => .searchDone 8 0 c | x => x) ∧
    (handlePacket toyEnv toySrv toyOracle (wMsg 8 (wSearch b!"dc=lg" 1 0 (ctxStr 7 b!"uid") [b!"uid"])) [] st).resps =
      [.entry 8 ⟨b!"uid=admin,dc=lg", [⟨b!"uid", [b!"admin"]⟩]⟩, .entry 8 ⟨b!"uid=Ann,dc=lg", [⟨b!"uid", [b!"Ann"]⟩]⟩,
       .searchDone 8 1 (some [])] := by
  decide +kernel

end
end Idm
