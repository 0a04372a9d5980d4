import Verif.Props.LdifSearch
import Verif.Proofs.LdifCalm
import Verif.Proofs.BoltSearch
import Verif.Proofs.Template
import Verif.Spec.IndexAttrs
/-!
# C111: what the indexes of the LDIF server do to answers
-/
namespace Idm

section
variable {V : Env} {W W' : WalkOrd} {cfg : LdifCfg} {g : Nat} {stats : Bool}

/-- The filter can be evaluated on the entry, and also the scope if the filter keeps it. -/
def Passed (C : CaseEnv) (fp : Packet) (r : SearchReq) (x : LEntry) : Prop :=
  ∃ b, applyFilter C x.visible fp = .ok (b, rcSuccess) ∧ (b = true → ∃ k, filterScope C r.baseDN (scopeNat r.scope) x.visible = (k, rcSuccess))

theorem searchPage_passed (V : Env) (fp : Packet) (r : SearchReq) (hl : r.sizeLimit ≤ 0) : ∀ (l : List LEntry) (count : Nat) (p : Page),
    searchPage V fp r none count l = .ok p → p.code = rcSuccess → ∀ x ∈ l, Passed V.C fp r x
  | [], _, _, _, _ => by simp
  | x :: xs, count, p, h, hc => by
    have ih := searchPage_passed V fp r hl xs
    have hl' : ¬ (r.sizeLimit > 0 ∧ count + 1 ≥ toU32 r.sizeLimit) := fun h => by omega
    rw [searchPage] at h
    cases ha : applyFilter V.C x.visible fp with
    | err e => rw [ha] at h; cases h
    | panic => rw [ha] at h; cases h
    | hang => rw [ha] at h; cases h
    | ok y =>
      obtain ⟨keep, code⟩ := y
      rw [ha] at h
      dsimp only at h
      by_cases hcode : code ≠ rcSuccess
      · rw [if_pos hcode] at h
        cases h
        exact absurd hc hcode
      · rw [if_neg hcode] at h
        have hcode : code = rcSuccess := by simpa using hcode
        subst hcode
        cases keep with
        | false =>
          rw [if_pos (by simp)] at h
          exact List.forall_mem_cons.2 ⟨⟨false, ha, by simp⟩, ih _ _ h hc⟩
        | true =>
          rw [if_neg (by simp)] at h
          cases hs : filterScope V.C r.baseDN (scopeNat r.scope) x.visible with
          | mk k2 c2 =>
            rw [hs] at h
            dsimp only at h
            by_cases hc2 : c2 ≠ rcSuccess
            · rw [if_pos hc2] at h
              cases h
              exact absurd hc hc2
            · rw [if_neg hc2] at h
              have hc2 : c2 = rcSuccess := by simpa using hc2
              subst hc2
              have hx : Passed V.C fp r x := ⟨true, ha, fun _ => ⟨k2, hs⟩⟩
              cases k2 with
              | false =>
                rw [if_pos (by simp)] at h
                exact List.forall_mem_cons.2 ⟨hx, ih _ _ h hc⟩
              | true =>
                rw [if_neg (by simp), if_neg (by simp), if_neg hl'] at h
                cases hp : searchPage V fp r none (count + 1) xs with
                | err e => rw [hp] at h; cases h
                | panic => rw [hp] at h; cases h
                | hang => rw [hp] at h; cases h
                | ok q =>
                  rw [hp] at h
                  cases h
                  exact List.forall_mem_cons.2 ⟨hx, ih _ _ hp hc⟩

theorem searchPage_of_passed (V : Env) (fp : Packet) (r : SearchReq) (hl : r.sizeLimit ≤ 0) : ∀ (l : List LEntry) (count : Nat),
    (∀ x ∈ l, Passed V.C fp r x) →
    searchPage V fp r none count l = .ok ⟨(l.filter (kept V.C fp r)).map (fun x => filterAttributes V.C r.attrs x.visible), [], true, rcSuccess⟩
  | [], _, _ => rfl
  | x :: xs, count, h => by
    have ih := fun c => searchPage_of_passed V fp r hl xs c fun y hy => h y (by simp [hy])
    obtain ⟨b, hb, hk⟩ := h x (by simp)
    have hl' : ¬ (r.sizeLimit > 0 ∧ count + 1 ≥ toU32 r.sizeLimit) := fun h => by omega
    rw [searchPage, hb]
    cases b with
    | false => simp [ih, kept, hb]
    | true =>
      obtain ⟨k, hk⟩ := hk rfl
      cases k <;> simp [hk, ih, hl', kept, hb, Page.cons]

/-- A search without controls and size limit that is answered with success: what it consists of, and when this is the answer. -/
theorem ldifSearch_success (bound : Str) (r : SearchReq) (hr : r.controls = []) (hl : r.sizeLimit ≤ 0) (st st' : LdifSt) (es : List Entry) :
    ldifSearch V W cfg bound r st = (.ok ⟨es, [], rcSuccess, false⟩, st') ↔
      st' = st ∧ ldifValidDN cfg (V.C.lower bound) = true ∧ hasSuffix (V.C.lower r.baseDN) cfg.base = true ∧
      ∃ fs fp, indexFilter V.C r.filter = .ok fs ∧ compile r.filter = some fp ∧
        (∀ x ∈ pump V.C W st.main (V.C.lower r.baseDN) fs, Passed V.C fp r x) ∧
        es = ((pump V.C W st.main (V.C.lower r.baseDN) fs).filter (kept V.C fp r)).map (fun x => filterAttributes V.C r.attrs x.visible) := by
  have hp : pagingOf r = none := by simp [pagingOf, hr]
  obtain ⟨fs, hfs⟩ := indexFilter_calm V.C r.filter
  unfold ldifSearch
  dsimp only
  rw [hp, hfs]
  simp only [pageSource, Option.isSome_none, Bool.false_eq_true, if_false, Option.map_none]
  by_cases hv : ldifValidDN cfg (V.C.lower bound) = true
  · rw [if_neg (by simp [hv])]
    by_cases hb : hasSuffix (V.C.lower r.baseDN) cfg.base = true
    · rw [if_neg (by simp [hb])]
      cases hc : compile r.filter with
      | none => simp
      | some fp =>
        dsimp only
        generalize hL : pump V.C W st.main (V.C.lower r.baseDN) fs = L
        constructor
        · intro h
          cases hpg : searchPage V fp r none 0 L with
          | err e => rw [hpg] at h; cases h
          | panic => rw [hpg] at h; cases h
          | hang => rw [hpg] at h; cases h
          | ok p =>
            rw [hpg] at h
            dsimp only at h
            by_cases hcode : p.code ≠ rcSuccess
            · rw [if_pos hcode] at h
              simp at h
            · rw [if_neg hcode] at h
              have hpass := searchPage_passed V fp r hl L 0 p hpg (by simpa using hcode)
              have := searchPage_of_passed V fp r hl L 0 hpass
              rw [hpg] at this
              simp only [Res.ok.injEq] at this
              subst this
              simp only [Prod.mk.injEq, Res.ok.injEq, SearchRes.mk.injEq, and_true] at h
              refine ⟨h.2.symm, hv, hb, fs, fp, rfl, rfl, ?_, ?_⟩
              · rw [hL]; exact hpass
              · rw [hL]; exact h.1.symm
        · rintro ⟨rfl, -, -, fs', fp', e1, e2, hpass, rfl⟩
          cases e1
          cases e2
          rw [hL] at hpass ⊢
          rw [searchPage_of_passed V fp r hl L 0 hpass]
          simp [rcSuccess]
    · rw [if_pos (by simpa using hb)]
      simp [hb]
  · rw [if_pos (by simpa using hv)]
    simp [hv]

theorem ldifSearch_code {bound : Str} {r : SearchReq} {st st' : LdifSt} {es : List Entry} {cs : List Control} {code : Nat}
    (h : ldifSearch V W cfg bound r st = (.ok ⟨es, cs, code, false⟩, st')) : code = rcSuccess := by
  unfold ldifSearch at h
  dsimp only at h
  repeat' split at h
  all_goals first
    | (simp only [Prod.mk.injEq, Res.ok.injEq, SearchRes.mk.injEq, Bool.true_eq_false, and_false, false_and] at h; done)
    | (cases h; done)
    | (simp only [Prod.mk.injEq, Res.ok.injEq, SearchRes.mk.injEq] at h; exact h.1.2.2.1.symm)

theorem ldifSearch_err (bound : Str) (r : SearchReq) (st : LdifSt) (es : List Entry) (cs : List Control) (st' : LdifSt) :
    ldifSearch V W cfg bound r st ≠ (.ok ⟨es, cs, 0, true⟩, st') := by
  intro h
  unfold ldifSearch at h
  dsimp only at h
  repeat' split at h
  all_goals first
    | (cases h; done)
    | (simp [rcInsufficientAccessRights, rcUnwillingToPerform, rcOperationsError] at h; done)
    | (simp only [Prod.mk.injEq, Res.ok.injEq, SearchRes.mk.injEq] at h; exact absurd h.1.2.2.1 (by assumption))

theorem perm_rest {α : Type} [DecidableEq α] {a b : List α} (ha : a.Nodup) (hb : b.Nodup) (h : ∀ x ∈ a, x ∈ b) :
    (a ++ b.filter (· ∉ a)).Perm b := by
  refine perm_of_nodup ?_ hb fun x => ?_
  · rw [List.nodup_append]
    refine ⟨ha, hb.sublist List.filter_sublist, fun x hx y hy e => ?_⟩
    subst e
    have := (List.mem_filter.1 hy).2
    simp [hx] at this
  · simp only [List.mem_append, List.mem_filter, decide_eq_true_eq]
    constructor
    · rintro (hx | hx)
      · exact h x hx
      · exact hx.1
    · intro hx
      by_cases hxa : x ∈ a
      · exact Or.inl hxa
      · exact Or.inr ⟨hx, hxa⟩

theorem ldifOut_success {id : Int} {bound : Str} {x : Res SearchRes × LdifSt} {es : List Entry}
    (herr : ∀ a b st, x ≠ (.ok ⟨a, b, 0, true⟩, st))
    (h : (ldifOut id bound x).resps = es.map (.entry id) ++ [.searchDone id 0 (some [])]) :
    ∃ code st, x = (.ok ⟨es, [], code, false⟩, st) := by
  obtain ⟨res, st'⟩ := x
  cases res with
  | err e => simp [ldifOut] at h
  | panic => simp [ldifOut] at h
  | hang => simp [ldifOut] at h
  | ok sr =>
    obtain ⟨es', cs, code, err⟩ := sr
    cases err with
    | true =>
      simp only [ldifOut, if_true] at h
      have h3 : (List.map (Resp.entry id) es).length = 0 := by
        have := congrArg List.length h
        simp at this
        simp [this]
      rw [List.length_eq_zero_iff] at h3
      rw [h3] at h
      simp only [List.nil_append, List.cons.injEq, Resp.searchDone.injEq, true_and, and_true] at h
      rw [h.1] at herr
      exact absurd rfl (herr _ _ _)
    | false =>
      simp only [ldifOut, Bool.false_eq_true, if_false] at h
      have h1 := h
      have h2 := List.append_inj' h1 rfl
      have e1 : es' = es := by
        have := h2.1
        have hinj : ∀ (a b : List Entry), a.map (Resp.entry id) = b.map (Resp.entry id) → a = b := by
          intro a
          induction a with
          | nil => intro b hb; cases b with
            | nil => rfl
            | cons y b => cases hb
          | cons x a ih => intro b hb; cases b with
            | nil => cases hb
            | cons y b =>
              simp only [List.map_cons, List.cons.injEq, Resp.entry.injEq, true_and] at hb
              rw [hb.1, ih b hb.2]
        exact hinj _ _ this
      have e2 : cs = [] := by simpa using h2.2
      subst e1 e2
      exact ⟨code, st', rfl⟩

/-- C111: indexes never add anything to an answer, whatever the request looks like: if a server without any index that has loaded the same
data answers a search without size limit and controls with success, then so does the server with indexes, and all entries it sends are among
those the other one sends. -/
theorem C111_never_adds (hW : W.Lawful) (hW' : W'.Lawful) {recs older older'} {st st' : LdifSt}
    (h : LdifReach V W cfg g stats (recs :: older) st) (h' : LdifReach V W' { cfg with idx := [] } g stats (recs :: older') st')
    (bound b : Str) (scope : Nat) (w : Packet) (attrs : List Str) (o : Oracle) (id : Int) (es : List Entry)
    (hans : (handlePacket V (ldifSrv V W' { cfg with idx := [] } g stats) o (wMsg id (wSearch b scope 0 w attrs)) bound st').resps =
      es.map (.entry id) ++ [.searchDone id 0 (some [])]) :
    ∃ sent lost : List Entry, (sent ++ lost).Perm es ∧
      handlePacket V (ldifSrv V W cfg g stats) o (wMsg id (wSearch b scope 0 w attrs)) bound st =
        ⟨sent.map (.entry id) ++ [.searchDone id 0 (some [])], .go bound, st⟩ := by
  classical
  obtain ⟨⟨recs₁, older₁, e, hm⟩, -⟩ := reach_inv hW h
  cases e
  obtain ⟨⟨recs₁, older₁, e, hm'⟩, -⟩ := reach_inv hW' h'
  cases e
  rw [wSearch_packet, ldif_stepSearch, wSearch_parse] at hans ⊢
  cases hd : decompile w with
  | none =>
    rw [hd] at hans
    have := congrArg List.getLast? hans
    simp at this
  | some s =>
    rw [hd] at hans
    dsimp only [Option.map_some] at hans ⊢
    generalize hr : (⟨b, scope, (0 : Nat), (0 : Nat), (0 : Nat), false, s, attrs, []⟩ : SearchReq) = r at hans ⊢
    have hrc : r.controls = [] := by rw [← hr]
    have hrl : r.sizeLimit ≤ 0 := by rw [← hr]; show ((0 : Nat) : Int) ≤ 0; omega
    obtain ⟨code, st'', hx⟩ := ldifOut_success (ldifSearch_err bound r st') hans
    have hcode : code = rcSuccess := ldifSearch_code hx
    subst hcode
    obtain ⟨-, hv, hb, fs, fp, hfs, hfp, hpass, rfl⟩ := (ldifSearch_success _ _ hrc hrl _ _ _).1 hx
    have htag := indexFilter_tagOk _ _ _ hfs
    obtain ⟨t1, -, -⟩ := (treeFromLDIF_spec V.C cfg.idx recs).2 st.main hm
    obtain ⟨t1', -, -⟩ := (treeFromLDIF_spec V.C [] recs).2 st'.main hm'
    obtain ⟨p1, p2, -⟩ := pump_spec hW hm (V.C.lower r.baseDN) fs htag
    obtain ⟨q1, q2, q3⟩ := pump_spec hW' hm' (V.C.lower r.baseDN) fs htag
    have hsub : ∀ x ∈ pump V.C W st.main (V.C.lower r.baseDN) fs, x ∈ pump V.C W' st'.main (V.C.lower r.baseDN) fs := by
      intro x hx
      obtain ⟨hxt, hxs⟩ := p2 x hx
      rw [t1] at hxt
      obtain ⟨q, hq, rfl⟩ := List.mem_map.1 hxt
      refine q3 q hq hxs ?_
      cases fs with
      | nil => exact Or.inl rfl
      | cons f fs => exact Or.inr (Or.inl ⟨f, by simp, rfl⟩)
    have hperm := perm_rest ((nodup_of_map p1).sublist List.filter_sublist) ((nodup_of_map q1).sublist List.filter_sublist)
      (a := (pump V.C W st.main (V.C.lower r.baseDN) fs).filter (kept V.C fp r))
      (b := (pump V.C W' st'.main (V.C.lower r.baseDN) fs).filter (kept V.C fp r))
      (fun x hx => List.mem_filter.2 ⟨hsub x (List.mem_filter.1 hx).1, (List.mem_filter.1 hx).2⟩)
    have hmap := hperm.map (fun x : LEntry => filterAttributes V.C r.attrs x.visible)
    rw [List.map_append] at hmap
    refine ⟨_, _, hmap, ?_⟩
    rw [(ldifSearch_success (cfg := cfg) bound r hrc hrl st st _).2 ⟨rfl, hv, hb, fs, fp, hfs, hfp, fun x hx => hpass x (hsub x hx), rfl⟩]
    simp [ldifOut]

/-- C111: where the indexes lose nothing (`NoneLost`, see C39), two servers with different indexes that have loaded the same data send the
same entries, perhaps in another order. (Missing: what C39 lists.) -/
theorem C111_same_partial (hC : V.C.Lawful) (hW : W.Lawful) (hW' : W'.Lawful) {recs older older'} {st st' : LdifSt} (idx' : IdxAttrs)
    (h : LdifReach V W cfg g stats (recs :: older) st) (h' : LdifReach V W' { cfg with idx := idx' } g stats (recs :: older') st')
    (bound : Str) (hread : MayRead V.C cfg bound)
    (b : Str) (nb : DN) (hb : parseDN V.C b = some nb) (hbase : hasSuffix (V.C.lower b) cfg.base = true)
    (scope : Nat) (hs : scope ≤ 2) (hroot : scope = 1 → nb ≠ [])
    (hdn : ∀ r ∈ entriesIn recs, TextTells V.C scope b r.dn)
    (f : Filter) (w : Packet) (hw : Wire f w) (hf : FilterOk f) (hsup : Supported f)
    (ends : Bool) (hlost : NoneLost V.C cfg.idx ends f = true) (hlost' : NoneLost V.C idx' ends f = true)
    (hagree : ∀ r ∈ entriesIn recs, CaseAgrees V.C (publicView V.C r) f ∧ (ends = true → EndsAgree V.C (publicView V.C r) f))
    (attrs : List Str) (hrep : NoRepeat V.C attrs) (o : Oracle) (id : Int) :
    ∃ es es' : List Entry, es.Perm es' ∧
      handlePacket V (ldifSrv V W cfg g stats) o (wMsg id (wSearch b scope 0 w attrs)) bound st =
        ⟨es.map (.entry id) ++ [.searchDone id 0 (some [])], .go bound, st⟩ ∧
      handlePacket V (ldifSrv V W' { cfg with idx := idx' } g stats) o (wMsg id (wSearch b scope 0 w attrs)) bound st' =
        ⟨es'.map (.entry id) ++ [.searchDone id 0 (some [])], .go bound, st'⟩ := by
  obtain ⟨f1, a1, a2, a3⟩ := C39_search_first_partial (g := g) (stats := stats) hC hW h (fun _ _ => False) bound hread b nb hb hbase scope hs hroot hdn
    f w hw hf hsup ends hlost hagree attrs hrep o id
  obtain ⟨f2, b1, b2, b3⟩ := C39_search_first_partial (g := g) (stats := stats) hC hW' h' (fun _ _ => False) bound hread b nb hb hbase scope hs hroot hdn
    f w hw hf hsup ends hlost' hagree attrs hrep o id
  refine ⟨f1.map fun r => reduced V.C attrs (publicView V.C r), f2.map fun r => reduced V.C attrs (publicView V.C r),
    (perm_of_nodup (nodup_of_map a1) (nodup_of_map b1) fun r => by rw [a2, b2]).map _, ?_, ?_⟩
  · rw [a3, List.map_map]; rfl
  · rw [b3, List.map_map]; rfl

end
/-! ## Configured indexes -/

theorem idxKind_word (op : Str) (k : IdxKind) : idxKind op = some k ↔ op = k.word := by
  unfold idxKind
  constructor
  · intro h
    repeat' split at h
    all_goals first
      | (cases h; assumption)
      | cases h
  · rintro rfl
    cases k <;> decide

theorem lists_iff (text : Str) (k : IdxKind) : Lists text k.word ↔ k.word ∈ splitOn chComma text := by
  constructor
  · rintro ⟨ws, h1, h2, h3⟩
    rw [← h2, splitOn_joinWith (List.ne_nil_of_mem h3) h1]
    exact h3
  · intro h
    exact ⟨_, splitOn_no_sep text, joinWith_splitOn _ _, h⟩

theorem mem_idxCalls : ∀ (calls : List IdxCall) (m : IdxTexts) (name indices : Str),
    (name, indices) ∈ calls.foldl IdxCall.run m ↔
      (∃ before after, calls = before ++ .add name indices :: after ∧ ∀ c ∈ after, c.name ≠ name) ∨
      ((∀ c ∈ calls, c.name ≠ name) ∧ (name, indices) ∈ m)
  | [], m, name, indices => by simp
  | c :: calls, m, name, indices => by
    rw [List.foldl_cons, mem_idxCalls calls (c.run m) name indices]
    have hrun : (name, indices) ∈ c.run m ↔ c = .add name indices ∨ (c.name ≠ name ∧ (name, indices) ∈ m) := by
      cases c with
      | add n i =>
        simp only [IdxCall.run, addIndexAttribute, List.mem_cons, Prod.mk.injEq, List.mem_filter, decide_eq_true_eq, IdxCall.add.injEq, IdxCall.name]
        constructor
        · rintro (⟨rfl, rfl⟩ | ⟨h1, h2⟩)
          · exact Or.inl ⟨rfl, rfl⟩
          · exact Or.inr ⟨fun e => h2 e.symm, h1⟩
        · rintro (⟨rfl, rfl⟩ | ⟨h1, h2⟩)
          · exact Or.inl ⟨rfl, rfl⟩
          · exact Or.inr ⟨h2, fun e => h1 e.symm⟩
      | remove n =>
        simp only [IdxCall.run, removeIndexAttribute, List.mem_filter, decide_eq_true_eq, reduceCtorEq, false_or, IdxCall.name]
        exact ⟨fun ⟨h1, h2⟩ => ⟨fun e => h2 e.symm, h1⟩, fun ⟨h1, h2⟩ => ⟨h2, fun e => h1 e.symm⟩⟩
    rw [hrun]
    constructor
    · rintro (⟨x, y, rfl, hy⟩ | ⟨h1, rfl | ⟨h2, h3⟩⟩)
      · exact Or.inl ⟨c :: x, y, rfl, hy⟩
      · exact Or.inl ⟨[], calls, rfl, h1⟩
      · exact Or.inr ⟨List.forall_mem_cons.2 ⟨h2, h1⟩, h3⟩
    · rintro (⟨x, y, e, hy⟩ | ⟨h1, h2⟩)
      · cases x with
        | nil =>
          simp only [List.nil_append, List.cons.injEq] at e
          obtain ⟨rfl, rfl⟩ := e
          exact Or.inr ⟨hy, Or.inl rfl⟩
        | cons z x =>
          simp only [List.cons_append, List.cons.injEq] at e
          exact Or.inl ⟨x, y, e.2, hy⟩
      · have := List.forall_mem_cons.1 h1
        exact Or.inr ⟨this.2, Or.inr ⟨this.1, h2⟩⟩

/-- C111, configuration: after any calls of `AddIndexAttribute` and `RemoveIndexAttribute`, handlers have an index of a kind for an attribute
exactly if some spelling of its name is asked for with a list that has the kind. -/
theorem C111_configured (C : CaseEnv) (calls : List IdxCall) (attr : Str) (k : IdxKind) :
    (newReg C (idxAttrsOf (calls.foldl IdxCall.run defaultIdxTexts)) (C.lower attr) k).isSome = true ↔
      ∃ name indices, C.lower name = C.lower attr ∧ IdxAsked calls name indices ∧ Lists indices k.word := by
  have : (newReg C (idxAttrsOf (calls.foldl IdxCall.run defaultIdxTexts)) (C.lower attr) k).isSome = true ↔
      indexed C (idxAttrsOf (calls.foldl IdxCall.run defaultIdxTexts)) (C.lower attr) k = true := by
    unfold newReg
    split <;> simp_all
  rw [this]
  simp only [indexed, idxAttrsOf, List.any_map, List.any_eq_true, Function.comp_def, Bool.and_eq_true, decide_eq_true_eq, List.contains_eq_mem,
    List.mem_filterMap, idxKind_word, exists_eq_right]
  constructor
  · rintro ⟨⟨name, indices⟩, hm, h1, h2⟩
    exact ⟨name, indices, h1, (mem_idxCalls _ _ _ _).1 hm, (lists_iff _ _).2 h2⟩
  · rintro ⟨name, indices, h1, h2, h3⟩
    exact ⟨(name, indices), (mem_idxCalls _ _ _ _).2 h2, h1, (lists_iff _ _).1 h3⟩

/-- The indexes at the start. -/
theorem defaultIdx_texts : idxAttrsOf defaultIdxTexts = defaultIdx := by decide +kernel

/-! ## Non-vacuity -/

/-- The toy server with other indexes. -/
def ixStart (idx : IdxAttrs) : LdifSt := { ldStart ldRecs with main := ldMemI idx ldRecs }

theorem ix_reach (idx : IdxAttrs) (h : (treeFromLDIF asciiCase idx ldRecs).isSome = true) :
    LdifReach ldEnv ldOrd { ldCfg with idx := idx } 8 false [ldRecs] (ixStart idx) := .start _ _ _ _ _ _ (ldMemI_loads h)

/-- hypotheses of `C111_never_adds` -/
example := C111_never_adds (V := ldEnv) (g := 8) (stats := false) ldOrd_lawful ldOrd_lawful ld_reach (ix_reach [] (by decide +kernel)) [] b!"dc=lg" 2
  (.mk .context true 4 .nil [] [octet b!"cn", wSeq [ctxStr 0 b!"ANN"]]) [b!"sn"] toyOracle 7
  [⟨b!"uid=ann,ou=people,dc=lg", [⟨b!"sn", [b!"Berg"]⟩]⟩] (by decide +kernel)

/-- hypotheses of `C111_same_partial`, for a server whose only index is that of `uid` -/
example := C111_same_partial (V := ldEnv) (g := 8) (stats := false) asciiCase_lawful ldOrd_lawful ldOrd_lawful [(b!"uid", [.eq])] ld_reach
    (ix_reach _ (by decide +kernel)) [] (Or.inl ⟨rfl, rfl, rfl⟩)
    b!"ou=People,dc=lg" [[⟨b!"ou", b!"People"⟩], [⟨b!"dc", b!"lg"⟩]] (by decide +kernel) (by decide +kernel) 2 (by omega) (by decide)
    ldRecs_tells ldFilter (.mk .context true 0 .nil [] [wEq b!"objectClass" b!"person", wEq b!"cn" b!"berg"])
    ⟨rfl, _, _, rfl, wEq_wire _ _, _, _, rfl, wEq_wire _ _, rfl⟩ ⟨(by decide +kernel : AttrText b!"objectClass"), (by decide +kernel : AttrText b!"cn"), trivial⟩
    ⟨trivial, trivial, trivial⟩ false (by decide +kernel) (by decide +kernel) (fun r _ => ⟨ascii_agrees _ _, fun h => by cases h⟩) [b!"cn"] (by decide +kernel) toyOracle 7

/-- C111 fails for other filters: the server without indexes finds an entry for `(cn=ANN*)`, the one with the default indexes does not. -/
theorem C111_loses_fails : ∃ w : Packet,
    (handlePacket ldEnv (ldifSrv ldEnv ldOrd { ldCfg with idx := [] } 8 false) toyOracle (wMsg 7 (wSearch b!"dc=lg" 2 0 w [b!"sn"])) [] (ixStart [])).resps =
      [.entry 7 ⟨b!"uid=ann,ou=people,dc=lg", [⟨b!"sn", [b!"Berg"]⟩]⟩, .searchDone 7 0 (some [])] ∧
    (handlePacket ldEnv (ldifSrv ldEnv ldOrd { ldCfg with idx := defaultIdx } 8 false) toyOracle (wMsg 7 (wSearch b!"dc=lg" 2 0 w [b!"sn"])) []
      (ixStart defaultIdx)).resps = [.searchDone 7 0 (some [])] :=
  ⟨.mk .context true 4 .nil [] [octet b!"cn", wSeq [ctxStr 0 b!"ANN"]], by decide +kernel, by decide +kernel⟩

/-- an instance of `C111_configured`: an index taken away, one added with a word that means nothing -/
example : let idx := idxAttrsOf ([IdxCall.remove b!"cn", .add b!"Title" b!"eq,none,sub"].foldl IdxCall.run defaultIdxTexts)
    (newReg asciiCase idx b!"cn" .eq).isSome = false ∧ (newReg asciiCase idx b!"title" .sub).isSome = true ∧
    (newReg asciiCase idx b!"title" .pres).isSome = false ∧ (newReg asciiCase idx b!"uid" .eq).isSome = true := by decide +kernel

end Idm
