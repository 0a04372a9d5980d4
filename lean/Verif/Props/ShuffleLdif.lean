import Verif.Props.LdifSearch
import Verif.Props.LdifBind
/-!
# C116 for the server with LDIF files
-/
namespace Idm

section
variable {V : Env} {W : WalkOrd} {cfg : LdifCfg} {g : Nat} {stats : Bool}

/-- The record is offered by the producer: nothing is looked up, or something that has no index, or one of the comparisons hits it. -/
def Offered (C : CaseEnv) (idx : IdxAttrs) (base : Str) (fs : List IdxReq) (r : Entry) : Prop :=
  hasSuffix (C.lower r.dn) base = true ∧ (fs = [] ∨ (∃ f ∈ fs, indexed C idx (C.lower f.attr) f.kind = false) ∨
    ∃ f ∈ fs, ∃ a ∈ r.attrs, C.lower a.name = C.lower f.attr ∧ Hit C f.kind f.value f.tag a)

theorem pump_mem {C : CaseEnv} (hW : W.Lawful) {idx : IdxAttrs} {recs : List (Option Entry)} {m : LMem} (hm : treeFromLDIF C idx recs = some m)
    (base : Str) (fs : List IdxReq) (ht : ∀ f ∈ fs, TagOk f.kind f.tag) (x : LEntry) :
    x ∈ pump C W m base fs ↔ ∃ p ∈ numbered C 0 recs, p.1 = x ∧ Offered C idx base fs p.2 := by
  obtain ⟨t1, t2, t3⟩ := (treeFromLDIF_spec C idx recs).2 m hm
  obtain ⟨-, p2, p3⟩ := pump_spec hW hm base fs ht
  have hdn : ∀ p ∈ numbered C 0 recs, p.1.dn = C.lower p.2.dn := by
    intro p hp
    obtain ⟨i, -, e⟩ := numbered_build C recs 0 p hp
    rw [e]
    rfl
  constructor
  · intro hx
    obtain ⟨h1, h2⟩ := p2 x hx
    rw [t1] at h1
    obtain ⟨p, hp, rfl⟩ := List.mem_map.1 h1
    refine ⟨p, hp, rfl, by rw [← hdn p hp]; exact h2, ?_⟩
    by_cases hfs : fs = []
    · exact .inl hfs
    rcases loadAll_spec (C := C) hW t3 fs ht with ⟨h, -⟩ | ⟨-, l, hl, hmem⟩
    · exact .inr (.inl h)
    · refine .inr (.inr ?_)
      unfold pump at hx
      rw [if_neg hfs, hl] at hx
      have hpt := numbered_ptr C recs 0
      have hsub : ∀ x ∈ l, ∃ q ∈ numbered C 0 recs, q.1 = x := by
        intro x hxl
        obtain ⟨f, -, q, hq, e, -⟩ := (hmem x).1 hxl
        exact ⟨q, hq, e⟩
      have hinj : ∀ x ∈ l, ∀ y ∈ l, x.ptr = y.ptr → x = y := by
        intro x hx y hy e
        obtain ⟨q, hq, rfl⟩ := hsub x hx
        obtain ⟨q', hq', rfl⟩ := hsub y hy
        rw [nodup_inj hpt q hq q' hq' e]
      have := (((pumpIndexed_spec base l [] hinj).2 _).1 hx).1
      obtain ⟨f, hf, q, hq, e, a, ha, h3, h4⟩ := (hmem _).1 this
      have : q = p := nodup_inj hpt q hq p hp (by rw [e])
      subst this
      exact ⟨f, hf, a, ha, h3, h4⟩
  · rintro ⟨p, hp, rfl, h1, h2⟩
    exact p3 p hp (by rw [hdn p hp]; exact h1) h2

/-- What is offered, as entries, is a list that depends on the records only, up to its order. -/
theorem pump_perm {C : CaseEnv} (hW : W.Lawful) {idx : IdxAttrs} {recs recs' : List (Option Entry)} {m m' : LMem} (hm : treeFromLDIF C idx recs = some m)
    (hm' : treeFromLDIF C idx recs' = some m') (hp : (entriesIn recs).Perm (entriesIn recs'))
    (base : Str) (fs : List IdxReq) (ht : ∀ f ∈ fs, TagOk f.kind f.tag) :
    ((pump C W m base fs).map (·.visible)).Perm ((pump C W m' base fs).map (·.visible)) := by
  have key : ∀ {recs m}, treeFromLDIF C idx recs = some m → ((pump C W m base fs).map (·.visible)).Nodup ∧
      ∀ e, e ∈ (pump C W m base fs).map (·.visible) ↔ ∃ r ∈ entriesIn recs, e = publicView C r ∧ Offered C idx base fs r := by
    intro recs m hm
    have hin : ∀ {r}, r ∈ entriesIn recs ↔ ∃ p ∈ numbered C 0 recs, p.2 = r := by
      intro r
      rw [show entriesIn recs = (numbered C 0 recs).map (·.2) from (numbered_snd C recs 0).symm, List.mem_map]
    have hv : ∀ p ∈ numbered C 0 recs, p.1.visible = publicView C p.2 := by
      intro p hp
      obtain ⟨i, -, e⟩ := numbered_build C recs 0 p hp
      rw [e]
      rfl
    refine ⟨?_, fun e => ?_⟩
    · have := (pump_spec hW hm base fs ht).1
      refine nodup_of_map (f := Entry.dn) ?_
      rw [List.map_map]
      exact this
    · rw [List.mem_map]
      constructor
      · rintro ⟨x, hx, rfl⟩
        obtain ⟨p, hp, rfl, ho⟩ := (pump_mem hW hm base fs ht x).1 hx
        exact ⟨p.2, hin.2 ⟨p, hp, rfl⟩, hv p hp, ho⟩
      · rintro ⟨r, hr, rfl, ho⟩
        obtain ⟨p, hp, rfl⟩ := hin.1 hr
        exact ⟨p.1, (pump_mem hW hm base fs ht _).2 ⟨p, hp, rfl, ho⟩, hv p hp⟩
  rw [List.perm_ext_iff_of_nodup (key hm).1 (key hm').1]
  intro e
  rw [(key hm).2, (key hm').2]
  constructor
  · rintro ⟨r, hr, h⟩; exact ⟨r, hp.mem_iff.1 hr, h⟩
  · rintro ⟨r, hr, h⟩; exact ⟨r, hp.mem_iff.2 hr, h⟩

/-- The entry can be judged without an error. -/
def Judgeable (C : CaseEnv) (fp : Packet) (r : SearchReq) (e : Entry) : Prop :=
  ∃ b, applyFilter C e fp = .ok (b, rcSuccess) ∧ (b = true → ∃ k, filterScope C r.baseDN (scopeNat r.scope) e = (k, rcSuccess))

/-- `kept`, of the visible part. -/
def keptEntry (C : CaseEnv) (fp : Packet) (r : SearchReq) (e : Entry) : Bool :=
  decide (applyFilter C e fp = .ok (true, rcSuccess)) && decide (filterScope C r.baseDN (scopeNat r.scope) e = (true, rcSuccess))

theorem searchPage_iff (fp : Packet) (r : SearchReq) (hl : r.sizeLimit ≤ 0) : ∀ (l : List LEntry) (count : Nat),
    ((∀ e ∈ l.map (·.visible), Judgeable V.C fp r e) → searchPage V fp r none count l =
      .ok ⟨((l.map (·.visible)).filter (keptEntry V.C fp r)).map (filterAttributes V.C r.attrs), [], true, rcSuccess⟩) ∧
    ((∃ p, searchPage V fp r none count l = .ok p ∧ p.code = rcSuccess) → ∀ e ∈ l.map (·.visible), Judgeable V.C fp r e)
  | [], _ => ⟨fun _ => rfl, fun _ => by simp⟩
  | x :: xs, count => by
    have ih := fun c => searchPage_iff fp r hl xs c
    have hl' : ¬ (r.sizeLimit > 0 ∧ count + 1 ≥ toU32 r.sizeLimit) := fun h => by omega
    simp only [List.map_cons, List.forall_mem_cons, searchPage]
    cases ha : applyFilter V.C x.visible fp with
    | err e => exact ⟨fun h => by obtain ⟨⟨b, hb, -⟩, -⟩ := h; rw [ha] at hb; simp at hb, fun ⟨p, h, _⟩ => by simp at h⟩
    | panic => exact ⟨fun h => by obtain ⟨⟨b, hb, -⟩, -⟩ := h; rw [ha] at hb; simp at hb, fun ⟨p, h, _⟩ => by simp at h⟩
    | hang => exact ⟨fun h => by obtain ⟨⟨b, hb, -⟩, -⟩ := h; rw [ha] at hb; simp at hb, fun ⟨p, h, _⟩ => by simp at h⟩
    | ok q =>
      obtain ⟨keep, code⟩ := q
      dsimp only
      by_cases hc : code = rcSuccess
      · subst hc
        rw [if_neg (by simp)]
        cases keep with
        | false =>
          have hk : keptEntry V.C fp r x.visible = false := by simp [keptEntry, ha]
          rw [if_pos (by rfl), List.filter_cons, if_neg (by simp [hk])]
          exact ⟨fun h => (ih count).1 h.2, fun h => ⟨⟨false, ha, fun h => nomatch h⟩, (ih count).2 h⟩⟩
        | true =>
          rw [if_neg (by simp)]
          cases hs : filterScope V.C r.baseDN (scopeNat r.scope) x.visible with
          | mk k c =>
            dsimp only
            by_cases hcs : c = rcSuccess
            · subst hcs
              rw [if_neg (by simp)]
              cases k with
              | false =>
                have hk : keptEntry V.C fp r x.visible = false := by simp [keptEntry, hs]
                rw [if_pos (by rfl), List.filter_cons, if_neg (by simp [hk])]
                exact ⟨fun h => (ih count).1 h.2, fun h => ⟨⟨true, ha, fun _ => ⟨_, hs⟩⟩, (ih count).2 h⟩⟩
              | true =>
                have hk : keptEntry V.C fp r x.visible = true := by simp [keptEntry, ha, hs]
                rw [if_neg (by simp), if_neg (by simp), if_neg hl', List.filter_cons, if_pos hk]
                refine ⟨fun h => ?_, fun ⟨p, h, hp⟩ => ⟨⟨true, ha, fun _ => ⟨_, hs⟩⟩, ?_⟩⟩
                · rw [(ih (count + 1)).1 h.2]
                  rfl
                · refine (ih (count + 1)).2 ?_
                  cases hsp : searchPage V fp r none (count + 1) xs with
                  | ok p' =>
                    rw [hsp] at h
                    cases h
                    exact ⟨p', rfl, hp⟩
                  | err e => rw [hsp] at h; cases h
                  | panic => rw [hsp] at h; cases h
                  | hang => rw [hsp] at h; cases h
            · rw [if_pos hcs]
              refine ⟨fun h => ?_, fun ⟨p, h, hp⟩ => ?_⟩
              · obtain ⟨⟨b, hb, hb2⟩, -⟩ := h
                rw [ha] at hb
                cases hb
                obtain ⟨k, hk⟩ := hb2 rfl
                rw [hs] at hk
                cases hk
                exact absurd rfl hcs
              · cases h
                exact absurd hp hcs
      · rw [if_pos hc]
        refine ⟨fun h => ?_, fun ⟨p, h, hp⟩ => ?_⟩
        · obtain ⟨⟨b, hb, -⟩, -⟩ := h
          rw [ha] at hb
          cases hb
          exact absurd rfl hc
        · cases h
          exact absurd hp hc

/-- Two servers that offer the same entries answer a search alike. -/
theorem ldif_search_alike {st st' : LdifSt} (b : Str)
    (hpump : ∀ fs : List IdxReq, (∀ f ∈ fs, TagOk f.kind f.tag) →
      ((pump V.C W st.main (V.C.lower b) fs).map (·.visible)).Perm ((pump V.C W st'.main (V.C.lower b) fs).map (·.visible)))
    (o o' : Oracle) (id : Int) (scope : Nat) (w : Packet) (attrs : List Str) (bound : Str) (cs : Option (List Control))
    (hok : .searchDone id 0 cs ∈ (handlePacket V (ldifSrv V W cfg g stats) o (wMsg id (wSearch b scope 0 w attrs)) bound st).resps) :
    ∃ es es' : List Entry, es.Perm es' ∧
      (handlePacket V (ldifSrv V W cfg g stats) o (wMsg id (wSearch b scope 0 w attrs)) bound st).resps =
        es.map (.entry id) ++ [.searchDone id 0 (some [])] ∧
      (handlePacket V (ldifSrv V W cfg g stats) o' (wMsg id (wSearch b scope 0 w attrs)) bound st').resps =
        es'.map (.entry id) ++ [.searchDone id 0 (some [])] := by
  rw [wSearch_packet, ldif_stepSearch, wSearch_parse] at hok ⊢
  rw [wSearch_packet, ldif_stepSearch, wSearch_parse]
  cases hdec : decompile w with
  | none => rw [hdec] at hok; simp at hok
  | some s =>
    rw [hdec] at hok
    dsimp only [Option.map_some] at hok ⊢
    generalize hrq : (⟨b, scope, (0 : Nat), (0 : Nat), (0 : Nat), false, s, attrs, []⟩ : SearchReq) = rq at hok
    have hbq : rq.baseDN = b := by rw [← hrq]
    have hpg : pagingOf rq = none := by rw [← hrq]; rfl
    have hsl : rq.sizeLimit ≤ 0 := by rw [← hrq]; exact Int.le_refl _
    have hnot : ∀ (c : Nat) (st : LdifSt), c ≠ 0 →
        ¬ .searchDone id 0 cs ∈ (ldifOut id bound (.ok ⟨[], [], c, true⟩, st)).resps := by
      intro c st hc hh
      simp [ldifOut] at hh
      exact hc hh.1.symm
    unfold ldifSearch at hok ⊢
    dsimp only at hok ⊢
    by_cases hv : (!ldifValidDN cfg (V.C.lower bound)) = true
    · rw [if_pos hv] at hok; exact absurd hok (hnot _ _ (by decide))
    rw [if_neg hv] at hok ⊢
    rw [if_neg hv]
    cases hfs : indexFilter V.C rq.filter with
    | err e => rw [hfs] at hok; simp [ldifOut] at hok
    | panic => rw [hfs] at hok; simp [ldifOut] at hok
    | hang => rw [hfs] at hok; simp [ldifOut] at hok
    | ok fs =>
      rw [hfs] at hok
      dsimp only at hok ⊢
      by_cases hbs : (!hasSuffix (V.C.lower rq.baseDN) cfg.base) = true
      · rw [if_pos hbs] at hok; exact absurd hok (hnot _ _ (by decide))
      rw [if_neg hbs, hpg] at hok ⊢
      rw [if_neg hbs]
      simp only [pageSource] at hok ⊢
      cases hcomp : compile rq.filter with
      | none => rw [hcomp] at hok; exact absurd hok (hnot _ _ (by decide))
      | some fp =>
        rw [hcomp] at hok
        dsimp only [Option.map_none] at hok ⊢
        have hperm := hpump fs (indexFilter_tagOk V.C _ fs hfs)
        rw [← hbq] at hperm
        obtain ⟨s1, s2⟩ := searchPage_iff (V := V) fp rq hsl (pump V.C W st.main (V.C.lower rq.baseDN) fs) 0
        obtain ⟨s1', -⟩ := searchPage_iff (V := V) fp rq hsl (pump V.C W st'.main (V.C.lower rq.baseDN) fs) 0
        have hJ : ∃ p, searchPage V fp rq none 0 (pump V.C W st.main (V.C.lower rq.baseDN) fs) = .ok p ∧ p.code = rcSuccess := by
          cases hsp : searchPage V fp rq none 0 (pump V.C W st.main (V.C.lower rq.baseDN) fs) with
          | ok p =>
            refine ⟨p, rfl, Classical.byContradiction fun hc => ?_⟩
            rw [hsp] at hok
            dsimp only at hok
            rw [if_pos hc] at hok
            exact absurd hok (hnot _ _ hc)
          | err e => rw [hsp] at hok; simp [ldifOut] at hok
          | panic => rw [hsp] at hok; simp [ldifOut] at hok
          | hang => rw [hsp] at hok; simp [ldifOut] at hok
        have hJ1 := s2 hJ
        have hJ2 : ∀ e ∈ (pump V.C W st'.main (V.C.lower rq.baseDN) fs).map (·.visible), Judgeable V.C fp rq e := fun e he => hJ1 e (hperm.mem_iff.2 he)
        rw [s1 hJ1, s1' hJ2]
        exact ⟨_, _, (hperm.filter (keptEntry V.C fp rq)).map (filterAttributes V.C rq.attrs), by simp [ldifOut, rcSuccess], by simp [ldifOut, rcSuccess]⟩

/-- C116 for the server with LDIF files: if two servers, whatever happened before, have loaded files with the same records in different order, and one
answers a search (without size limit and controls) with success, then so does the other one, with the same entries, perhaps in another order. -/
theorem C116_ldif_search (hW : W.Lawful) {recs older recs' older'} {st st' : LdifSt} (h : LdifReach V W cfg g stats (recs :: older) st)
    (h' : LdifReach V W cfg g stats (recs' :: older') st') (hp : (entriesIn recs).Perm (entriesIn recs'))
    (o o' : Oracle) (id : Int) (b : Str) (scope : Nat) (w : Packet) (attrs : List Str) (bound : Str) (cs : Option (List Control))
    (hok : .searchDone id 0 cs ∈ (handlePacket V (ldifSrv V W cfg g stats) o (wMsg id (wSearch b scope 0 w attrs)) bound st).resps) :
    ∃ es es' : List Entry, es.Perm es' ∧
      (handlePacket V (ldifSrv V W cfg g stats) o (wMsg id (wSearch b scope 0 w attrs)) bound st).resps =
        es.map (.entry id) ++ [.searchDone id 0 (some [])] ∧
      (handlePacket V (ldifSrv V W cfg g stats) o' (wMsg id (wSearch b scope 0 w attrs)) bound st').resps =
        es'.map (.entry id) ++ [.searchDone id 0 (some [])] := by
  obtain ⟨⟨_, _, e, hm⟩, -⟩ := reach_inv hW h
  cases e
  obtain ⟨⟨_, _, e, hm'⟩, -⟩ := reach_inv hW h'
  cases e
  exact ldif_search_alike b (pump_perm hW hm hm' hp (V.C.lower b)) o o' id scope w attrs bound cs hok

theorem bind_answer_same (o o' : Oracle) (id : Int) (bound dn pw : Str) (st st' : LdifSt)
    (h : ((if cfg.conf then confBind V cfg else ldifBind V cfg) dn pw st).1 = ((if cfg.conf then confBind V cfg else ldifBind V cfg) dn pw st').1) :
    (handlePacket V (ldifSrv V W cfg g stats) o (wMsg id (wBind dn pw)) bound st).resps =
        (handlePacket V (ldifSrv V W cfg g stats) o' (wMsg id (wBind dn pw)) bound st').resps ∧
      (handlePacket V (ldifSrv V W cfg g stats) o (wMsg id (wBind dn pw)) bound st).next =
        (handlePacket V (ldifSrv V W cfg g stats) o' (wMsg id (wBind dn pw)) bound st').next := by
  have hbody : ∀ st, bindBody (ldifSrv V W cfg g stats) (wBind dn pw) st =
      (match ((if cfg.conf then confBind V cfg else ldifBind V cfg) dn pw st).1 with
      | .ok (code, false) => (.ok code, st)
      | .ok (_, true) => (.ok rcOperationsError, st)
      | .err _ => (.ok rcOperationsError, st)
      | .panic => (.panic, st)
      | .hang => (.hang, st)) := by
    intro st
    have hst : ((if cfg.conf then confBind V cfg else ldifBind V cfg) dn pw st).2 = st := by
      split
      · exact confBind_st _ _ _
      · exact ldifBind_st _ _ _
    generalize hx : (if cfg.conf then confBind V cfg else ldifBind V cfg) dn pw st = x at hst
    obtain ⟨res, st'⟩ := x
    dsimp only at hst
    subst hst
    have h3 : authSimple = 0 := rfl
    simp only [bindBody, wBind, wReq, Packet.kids, berInt, Packet.int?, Packet.val, octet, Packet.str?, ctxStr, Packet.tag, ldifSrv,
      pick_single, Packet.data, hx, List.getElem?_cons_zero, List.getElem?_cons_succ, h3, ne_eq, not_true_eq_false, if_false,
      List.length_cons, List.length_nil, if_true, Nat.zero_add, Nat.reduceAdd]
    rcases res with ⟨code, b⟩ | e | _ | _
    · cases b <;> rfl
    all_goals rfl
  rw [wBind_packet, wBind_packet]
  unfold stepBind handleBind
  rw [hbody, hbody, ← h]
  generalize ((if cfg.conf then confBind V cfg else ldifBind V cfg) dn pw st).1 = res
  have hk : (wBind dn pw).kids[1]? = some (octet dn) := rfl
  have hs : (octet dn).str? = some dn := rfl
  rw [hk]
  dsimp only
  rw [hs]
  dsimp only
  generalize parseNormalize V.C dn = nm
  rcases res with ⟨code, b⟩ | e | _ | _
  · cases b
    · dsimp only
      by_cases hc : code = rcSuccess
      · rw [if_pos hc, if_pos hc]
        cases nm <;> exact ⟨rfl, rfl⟩
      · rw [if_neg hc, if_neg hc]
        exact ⟨rfl, rfl⟩
    · dsimp only
      split
      · cases nm <;> exact ⟨rfl, rfl⟩
      · exact ⟨rfl, rfl⟩
  · dsimp only
    split
    · cases nm <;> exact ⟨rfl, rfl⟩
    · exact ⟨rfl, rfl⟩
  · exact ⟨rfl, rfl⟩
  · exact ⟨rfl, rfl⟩

theorem treeGet_perm {C : CaseEnv} {idx : IdxAttrs} {recs recs' : List (Option Entry)} {m m' : LMem} (hm : treeFromLDIF C idx recs = some m)
    (hm' : treeFromLDIF C idx recs' = some m') (hp : (entriesIn recs).Perm (entriesIn recs')) (dn : Str) :
    (treeGet m.tree dn).map (·.pw) = (treeGet m'.tree dn).map (·.pw) := by
  have key : ∀ {recs m}, treeFromLDIF C idx recs = some m → ∀ w, (treeGet m.tree dn).map (·.pw) = some w ↔
      ∃ r ∈ entriesIn recs, C.lower r.dn = dn ∧ (buildEntry C 0 r).pw = w := by
    intro recs m hm w
    obtain ⟨t1, t2, -⟩ := (treeFromLDIF_spec C idx recs).2 m hm
    have hin : ∀ {r}, r ∈ entriesIn recs ↔ ∃ p ∈ numbered C 0 recs, p.2 = r := by
      intro r
      rw [show entriesIn recs = (numbered C 0 recs).map (·.2) from (numbered_snd C recs 0).symm, List.mem_map]
    have hb : ∀ p ∈ numbered C 0 recs, p.1.dn = C.lower p.2.dn ∧ p.1.pw = (buildEntry C 0 p.2).pw := by
      intro p hp
      obtain ⟨i, -, e⟩ := numbered_build C recs 0 p hp
      rw [e]
      exact ⟨rfl, rfl⟩
    rw [Option.map_eq_some_iff]
    constructor
    · rintro ⟨x, hx, rfl⟩
      obtain ⟨h1, h2⟩ := treeGet_some hx
      rw [t1] at h1
      obtain ⟨p, hp, rfl⟩ := List.mem_map.1 h1
      exact ⟨p.2, hin.2 ⟨p, hp, rfl⟩, (hb p hp).1 ▸ h2, (hb p hp).2.symm⟩
    · rintro ⟨r, hr, h1, h2⟩
      obtain ⟨p, hp, rfl⟩ := hin.1 hr
      refine ⟨p.1, ?_, (hb p hp).2.trans h2⟩
      rw [← h1, ← (hb p hp).1]
      refine treeGet_mem ?_ ?_
      · rw [t1, List.map_map]; exact t2
      · rw [t1]; exact List.mem_map.2 ⟨p, hp, rfl⟩
  apply Option.ext
  intro w
  rw [key hm, key hm']
  constructor
  · rintro ⟨r, hr, h⟩; exact ⟨r, hp.mem_iff.1 hr, h⟩
  · rintro ⟨r, hr, h⟩; exact ⟨r, hp.mem_iff.2 hr, h⟩

/-- C116 for the server with LDIF files: two servers that have loaded files with the same records in different order, and the same config users if there
are any, answer all binds alike. -/
theorem C116_ldif_bind (hW : W.Lawful) {recs older recs' older'} {st st' : LdifSt} (h : LdifReach V W cfg g stats (recs :: older) st)
    (h' : LdifReach V W cfg g stats (recs' :: older') st') (hp : (entriesIn recs).Perm (entriesIn recs')) (hconf : cfg.conf = true → st'.conf = st.conf)
    (o o' : Oracle) (id : Int) (bound dn pw : Str) :
    (handlePacket V (ldifSrv V W cfg g stats) o (wMsg id (wBind dn pw)) bound st).resps =
        (handlePacket V (ldifSrv V W cfg g stats) o' (wMsg id (wBind dn pw)) bound st').resps ∧
      (handlePacket V (ldifSrv V W cfg g stats) o (wMsg id (wBind dn pw)) bound st).next =
        (handlePacket V (ldifSrv V W cfg g stats) o' (wMsg id (wBind dn pw)) bound st').next := by
  obtain ⟨⟨_, _, e, hm⟩, -⟩ := reach_inv hW h
  cases e
  obtain ⟨⟨_, _, e, hm'⟩, -⟩ := reach_inv hW h'
  cases e
  have hval : ∀ x y : LEntry, x.pw = y.pw → ldifValidate V x pw = ldifValidate V y pw := by
    intro x y h
    unfold ldifValidate
    rw [h]
  have hb : ∀ dn, (ldifBind V cfg dn pw st).1 = (ldifBind V cfg dn pw st').1 := by
    intro dn
    have ht := treeGet_perm hm hm' hp (V.C.lower dn)
    unfold ldifBind
    dsimp only
    split
    · rfl
    · split
      · split <;> rfl
      · cases hx : treeGet st.main.tree (V.C.lower dn) with
        | none =>
          cases hy : treeGet st'.main.tree (V.C.lower dn) with
          | none => rfl
          | some y => rw [hx, hy] at ht; cases ht
        | some x =>
          cases hy : treeGet st'.main.tree (V.C.lower dn) with
          | none => rw [hx, hy] at ht; cases ht
          | some y =>
            rw [hx, hy] at ht
            have : x.pw = y.pw := by simpa using ht
            show ldifBindCode (ldifValidate V x pw) = ldifBindCode (ldifValidate V y pw)
            rw [hval x y this]
  refine bind_answer_same o o' id bound dn pw st st' ?_
  cases hc : cfg.conf with
  | false => simpa using hb dn
  | true =>
    simp only [if_true]
    unfold confBind
    dsimp only
    rw [hconf hc]
    split
    · exact hb _
    · split
      · split <;> rfl
      · exact hb _

/-- C116 for the server with LDIF files: whether files can be loaded does not depend on the order of their records. -/
theorem C116_ldif_loads (C : CaseEnv) (idx : IdxAttrs) (recs recs' : List (Option Entry)) (hp : (entriesIn recs).Perm (entriesIn recs')) :
    (treeFromLDIF C idx recs).isSome = (treeFromLDIF C idx recs').isSome := by
  rw [Bool.eq_iff_iff, Option.isSome_iff_exists, Option.isSome_iff_exists, (treeFromLDIF_spec C idx recs).1, (treeFromLDIF_spec C idx recs').1]
  exact (hp.map _).nodup_iff

end

theorem ldRecs_reversed : LdifReach ldEnv ldOrd ldCfg 8 false [ldRecs.reverse] (ldStart ldRecs.reverse) := .start _ _ _ _ _ _ (ldMemI_loads (by decide +kernel))

/-- hypotheses of C116: the example file, and the same file read backwards; and the answers to a search -/
example : let S := fun recs => (handlePacket ldEnv ldSrv toyOracle (wMsg 7 (wSearch b!"dc=lg" 2 0 (ctxStr 7 b!"cn") [b!"1.1"])) [] (ldStart recs)).resps
    (entriesIn ldRecs).Perm (entriesIn ldRecs.reverse) ∧ .searchDone 7 0 (some []) ∈ S ldRecs ∧
    S ldRecs = [.entry 7 ⟨b!"uid=ann,ou=people,dc=lg", []⟩, .entry 7 ⟨b!"uid=bob,ou=people,dc=lg", []⟩, .searchDone 7 0 (some [])] ∧
    S ldRecs.reverse = [.entry 7 ⟨b!"uid=bob,ou=people,dc=lg", []⟩, .entry 7 ⟨b!"uid=ann,ou=people,dc=lg", []⟩, .searchDone 7 0 (some [])] := by
  refine ⟨?_, by decide +kernel, by decide +kernel, by decide +kernel⟩
  exact ((List.reverse_perm ldRecs).symm).filterMap _

/-- and to binds, with the right password and with a wrong one -/
example : ∀ recs ∈ [ldRecs, ldRecs.reverse], (handlePacket ldEnv ldSrv toyOracle (wMsg 7 (wBind b!"uid=ann,ou=people,dc=lg" b!"pw")) [] (ldStart recs)).resps = [.result 7 1 0] ∧
    (handlePacket ldEnv ldSrv toyOracle (wMsg 7 (wBind b!"uid=ann,ou=people,dc=lg" b!"px")) [] (ldStart recs)).resps = [.result 7 1 49] := by decide +kernel

end Idm
