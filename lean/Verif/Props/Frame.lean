import Verif.Props.Shuffle
import Verif.Props.ShuffleLdif
import Verif.Props.Silent
/-!
# C121: a change shows in the entries it is about and nowhere else
-/
namespace Idm

section
variable {C : CaseEnv} {G : GobEnv} {validate : Str → Str → Res Bool} {base : DN}

theorem run_outside : ∀ (us : List Op) (d : Dir) (l : DN), (∀ u ∈ us, l ∉ u.about C) → (specRun C validate base d us).2.get l = d.get l
  | [], _, _, _ => rfl
  | u :: us, d, l, h => by
    simp only [specRun]
    rw [run_outside us _ l fun v hv => h v (List.mem_cons_of_mem _ hv)]
    exact (local_step (C := C) (validate := validate) (base := base) u).1 d l (h u List.mem_cons_self)

/-- All names between an entry and the length of the base are names of entries. -/
theorem above_has {db : Db} {ns : List INode} (R : Rel C G base db ns) {k : DN} (hk : base.length ≤ k.length) :
    ∀ (p : DN), (dirOf ns).has (p ++ k) = true → (dirOf ns).has k = true
  | [], h => h
  | r :: p, h => by
    obtain ⟨m, hm, e⟩ := Rel.has_iff.1 h
    obtain ⟨q, hq, hc, -⟩ := (R.forest m hm).2 (by rw [e]; simp; omega)
    obtain ⟨r', e'⟩ := isChild_iff.1 hc
    rw [e, List.cons_append, List.cons.injEq] at e'
    exact above_has R hk p (Rel.has_iff.2 ⟨q, hq, e'.2.symm⟩)

/-- A search without size limit that ends well. -/
theorem searchLoop_kept (fp : Packet) (r : SearchReq) (h0 : r.sizeLimit = (0 : Nat)) : ∀ (es : List Entry) (i : Nat) (sent : List Entry),
    searchLoop C fp r i es = (sent, .ok 0) → sent = (es.filter (keptEntry C fp r)).map (filterAttributes C r.attrs)
  | [], _, _, h => by
    simp only [searchLoop, Prod.mk.injEq] at h
    exact h.1.symm
  | e :: es, i, sent, h => by
    have ih := searchLoop_kept fp r h0 es
    simp only [searchLoop] at h
    cases ha : applyFilter C e fp with
    | err x => rw [ha] at h; simp at h
    | panic => rw [ha] at h; simp at h
    | hang => rw [ha] at h; simp at h
    | ok q =>
      obtain ⟨keep, code⟩ := q
      rw [ha] at h
      dsimp only at h
      by_cases hc : code ≠ rcSuccess
      · rw [if_pos hc] at h
        simp only [Prod.mk.injEq, Res.ok.injEq] at h
        exact absurd h.2 hc
      rw [if_neg hc] at h
      have hc : code = rcSuccess := by simpa using hc
      subst hc
      cases keep with
      | false =>
        simp only [Bool.not_false, if_true] at h
        rw [List.filter_cons_of_neg (by simp [keptEntry, ha])]
        exact ih i sent h
      | true =>
        simp only [Bool.not_true, Bool.false_eq_true, if_false] at h
        generalize hs : filterScope C r.baseDN (scopeNat r.scope) e = s at h
        obtain ⟨keep, code⟩ := s
        dsimp only at h
        by_cases hc : code ≠ rcSuccess
        · rw [if_pos hc] at h
          simp only [Prod.mk.injEq, Res.ok.injEq] at h
          exact absurd h.2 hc
        rw [if_neg hc] at h
        have hc : code = rcSuccess := by simpa using hc
        subst hc
        cases keep with
        | false =>
          simp only [Bool.not_false, if_true] at h
          rw [List.filter_cons_of_neg (by simp [keptEntry, ha, hs])]
          exact ih i sent h
        | true =>
          simp only [Bool.not_true, Bool.false_eq_true, if_false] at h
          rw [if_neg (by rw [h0]; simp)] at h
          generalize hx : searchLoop C fp r (i + 1) es = x at h
          obtain ⟨sent', res⟩ := x
          simp only [Prod.mk.injEq] at h
          obtain ⟨h1, h2⟩ := h
          rw [List.filter_cons_of_pos (by simp [keptEntry, ha, hs]), List.map_cons, ← h1, ih (i + 1) sent' (by rw [hx, h2])]

end

section
variable {V : Env} {G : GobEnv} {cfg : BoltCfg} {n : Nat} {stats : Bool} {base : DN}

/-- What a search that ends well sends. -/
theorem search_sent {o : Oracle} {id : Int} {bound b : Str} {scope : Nat} {w : Packet} {attrs : List Str} {db : Db} {cs : Option (List Control)}
    (h : .searchDone id 0 cs ∈ (handlePacket V (boltSrv V G cfg n stats) o (wMsg id (wSearch b scope 0 w attrs)) bound db).resps) :
    ∃ s fp, decompile w = some s ∧ compile s = some fp ∧ ∀ es err, boltSearch V.C G db b scope = .ok (es, err) → ∀ e,
      .entry id e ∈ (handlePacket V (boltSrv V G cfg n stats) o (wMsg id (wSearch b scope 0 w attrs)) bound db).resps ↔
        ∃ x ∈ es, keptEntry V.C fp ⟨b, scope, (0 : Nat), (0 : Nat), (0 : Nat), false, s, attrs, []⟩ x = true ∧ filterAttributes V.C attrs x = e := by
  rw [wSearch_step] at h ⊢
  cases hs : decompile w with
  | none => rw [hs] at h; simp at h
  | some s =>
    rw [hs] at h
    dsimp only at h ⊢
    cases hc : compile s with
    | none => rw [hc] at h; simp at h
    | some fp =>
      rw [hc] at h
      refine ⟨s, fp, rfl, hc, fun es err hes e => ?_⟩
      dsimp only at h ⊢
      rw [hes] at h ⊢
      dsimp only at h ⊢
      generalize hl : searchLoop V.C fp ⟨b, scope, (0 : Nat), (0 : Nat), (0 : Nat), false, s, attrs, []⟩ 0 es = x at h
      obtain ⟨sent, res⟩ := x
      cases res with
      | ok code =>
        have hcode : code = 0 := by
          simp [searchOut] at h
          exact h.1.symm
        subst hcode
        have := searchLoop_kept fp _ rfl es 0 sent hl
        simp only [searchOut, List.mem_append, List.mem_map, List.mem_singleton, Resp.entry.injEq, true_and, reduceCtorEq, or_false]
        rw [exists_eq_right, this]
        simp only [List.mem_map, List.mem_filter, and_assoc]
      | err e => simp [searchOut] at h
      | panic => simp [searchOut] at h
      | hang => simp [searchOut] at h

theorem sent_still (hC : V.C.Lawful) (hG : G.Lawful) {db db' : Db} {ns ns' : List INode} (R : Rel V.C G base db ns) (R' : Rel V.C G base db' ns')
    (htext : ∀ x ∈ dirOf ns, TextOf V.C x) (b : Str) (ht : TextOk V.C b) (scope : Nat) (w : Packet) (attrs : List Str) (o o' : Oracle) (id : Int)
    (bound : Str) (cs cs' : Option (List Control))
    (h1 : .searchDone id 0 cs ∈ (handlePacket V (boltSrv V G cfg n stats) o (wMsg id (wSearch b scope 0 w attrs)) bound db).resps)
    (h2 : .searchDone id 0 cs' ∈ (handlePacket V (boltSrv V G cfg n stats) o' (wMsg id (wSearch b scope 0 w attrs)) bound db').resps)
    (e : Entry) (name : DN) (hname : parseDN V.C e.dn = some name) (hsame : (dirOf ns).get (foldDN V.C name) = (dirOf ns').get (foldDN V.C name))
    (he : .entry id e ∈ (handlePacket V (boltSrv V G cfg n stats) o (wMsg id (wSearch b scope 0 w attrs)) bound db).resps) :
    .entry id e ∈ (handlePacket V (boltSrv V G cfg n stats) o' (wMsg id (wSearch b scope 0 w attrs)) bound db').resps := by
  obtain ⟨s, fp, e1, e2, e3⟩ := search_sent h1
  obtain ⟨s', fp', e1', e2', e3'⟩ := search_sent h2
  rw [e1] at e1'
  cases e1'
  rw [e2] at e2'
  cases e2'
  cases hp : parseDN V.C b with
  | none =>
    rw [e3 [] (some .other) (by simp [boltSearch, searchFuel, parseNormalize, hp])] at he
    simp at he
  | some k =>
    obtain ⟨s1, s2⟩ := serves_of_rel hC hG R b k hp (ht k hp) scope
    obtain ⟨s1', -⟩ := serves_of_rel hC hG R' b k hp (ht k hp) scope
    cases hh : (dirOf ns).has (foldDN V.C k) with
    | false =>
      rw [e3 _ _ (s2 hh)] at he
      simp at he
    | true =>
      obtain ⟨found, f1, -, f3⟩ := s1 hh
      rw [e3 _ _ f1] at he
      obtain ⟨x, hx, hk, rfl⟩ := he
      obtain ⟨nd, hnd, rfl⟩ := List.mem_map.1 hx
      obtain ⟨hd, hsc⟩ := (f3 nd).1 hnd
      rw [(C31_selected attrs nd.entry ⟨[], []⟩).1] at hname
      have hn : foldDN V.C name = nd.name := htext nd hd name hname
      rw [hn] at hsame
      have hd' : nd ∈ dirOf ns' := (mem_of_get (dirOf_nodup R') nd).2 (hsame ▸ (mem_of_get (dirOf_nodup R) nd).1 hd)
      have hlen : base.length ≤ (foldDN V.C k).length := by
        obtain ⟨m, hm, e⟩ := Rel.has_iff.1 hh
        rw [← e]
        exact (R.forest m hm).1
      have hh' : (dirOf ns').has (foldDN V.C k) = true := by
        have hin : (dirOf ns').has nd.name = true := List.any_eq_true.2 ⟨nd, hd', by simp⟩
        rcases hsc with ⟨-, h⟩ | ⟨-, r, h⟩ | ⟨-, p, h⟩
        · rwa [h] at hin
        · rw [h] at hin
          exact above_has R' hlen [r] hin
        · rw [h] at hin
          exact above_has R' hlen p hin
      obtain ⟨found', g1, -, g3⟩ := s1' hh'
      rw [e3' _ _ g1]
      exact ⟨nd.entry, List.mem_map.2 ⟨nd, (g3 nd).2 ⟨hd', hsc⟩, rfl⟩, hk, rfl⟩

/-- C121: whatever happened before and whatever the changes `us` are, refused or not: a search that ends with success before and after them sends the
same entries, but for those whose name one of the changes was about. No entry appears, disappears or looks different because of a change of another
one. The search may be made by anybody, with any base, scope, filter and list of attributes, without size limit. -/
theorem C121_search (hC : V.C.Lawful) (hG : G.Lawful) (hb : BaseOk V.C base) (ops us : List Op) (h : HistOk V.C (ops ++ us))
    (b : Str) (ht : TextOk V.C b) (scope : Nat) (w : Packet) (attrs : List Str) (o o' : Oracle) (id : Int) (bound : Str) (cs cs' : Option (List Control)) :
    let before := handlePacket V (boltSrv V G cfg n stats) o (wMsg id (wSearch b scope 0 w attrs)) bound (after V.C G (validatePw V.C V.K) base ops)
    let later := handlePacket V (boltSrv V G cfg n stats) o' (wMsg id (wSearch b scope 0 w attrs)) bound (after V.C G (validatePw V.C V.K) base (ops ++ us))
    .searchDone id 0 cs ∈ before.resps → .searchDone id 0 cs' ∈ later.resps →
    ∀ e name, parseDN V.C e.dn = some name → (∀ u ∈ us, foldDN V.C name ∉ u.about V.C) → (.entry id e ∈ before.resps ↔ .entry id e ∈ later.resps) := by
  intro before later h1 h2 e name hname hout
  have hlen := h.len
  rw [List.length_append] at hlen
  have h0 : HistOk V.C ops := ⟨fun o ho => h.ok o (List.mem_append_left _ ho), by omega⟩
  obtain ⟨n1, -, a1, R1, -⟩ := sim_run_empty (validate := validatePw V.C V.K) hC hG hb ops h0.ok h0.len
  obtain ⟨n2, -, a2, R2, -⟩ := sim_run_empty (validate := validatePw V.C V.K) hC hG hb (ops ++ us) h.ok h.len
  have hget : (dirOf n1).get (foldDN V.C name) = (dirOf n2).get (foldDN V.C name) := by
    rw [← a1, ← a2, specRun_append]
    exact (run_outside us _ _ hout).symm
  have t1 : ∀ x ∈ dirOf n1, TextOf V.C x := a1 ▸ dirAfter_text hC ops h0
  have t2 : ∀ x ∈ dirOf n2, TextOf V.C x := a2 ▸ dirAfter_text hC (ops ++ us) h
  exact ⟨sent_still hC hG R1 R2 t1 b ht scope w attrs o o' id bound cs cs' h1 h2 e name hname hget,
    sent_still hC hG R2 R1 t2 b ht scope w attrs o' o id bound cs' cs h2 h1 e name hname hget.symm⟩

/-- C121: and a bind is answered as before, unless one of the changes was about its name. -/
theorem C121_bind (hC : V.C.Lawful) (hG : G.Lawful) (hb : BaseOk V.C base) (hcfg : cfg.base = render base) (ops us : List Op)
    (h : HistOk V.C (ops ++ us)) (o o' : Oracle) (id : Int) (bound dn pw : Str) (ht : TextOk V.C dn)
    (hout : ∀ name, parseDN V.C dn = some name → ∀ u ∈ us, foldDN V.C name ∉ u.about V.C) :
    let before := handlePacket V (boltSrv V G cfg n stats) o (wMsg id (wBind dn pw)) bound (after V.C G (validatePw V.C V.K) base ops)
    let later := handlePacket V (boltSrv V G cfg n stats) o' (wMsg id (wBind dn pw)) bound (after V.C G (validatePw V.C V.K) base (ops ++ us))
    later.resps = before.resps ∧ later.next = before.next := by
  intro before later
  have hlen := h.len
  rw [List.length_append] at hlen
  have h0 : HistOk V.C ops := ⟨fun o ho => h.ok o (List.mem_append_left _ ho), by omega⟩
  have hget : ∀ name, parseDN V.C dn = some name → (dirAfter V.C (validatePw V.C V.K) base (ops ++ us)).get (foldDN V.C name) =
      (dirAfter V.C (validatePw V.C V.K) base ops).get (foldDN V.C name) := by
    intro name hn
    unfold dirAfter
    rw [specRun_append]
    exact run_outside us _ _ (hout name hn)
  obtain ⟨-, b1, b2⟩ := C22_bind_exact (n := n) (stats := stats) hC hG hb hcfg ops h0 o id bound dn pw ht
  obtain ⟨-, l1, l2⟩ := C22_bind_exact (n := n) (stats := stats) hC hG hb hcfg (ops ++ us) h o' id bound dn pw ht
  obtain ⟨c1, c2, c3⟩ := C117_codes (n := n) (stats := stats) hC hG hb hcfg ops h0 o id bound dn pw ht
  obtain ⟨d1, d2, d3⟩ := C117_codes (n := n) (stats := stats) hC hG hb hcfg (ops ++ us) h o' id bound dn pw ht
  cases hp : parseDN V.C dn with
  | none =>
    have hno : ∀ ops, ¬ MayBind V.C V.K cfg.anon base (dirAfter V.C (validatePw V.C V.K) base ops) dn pw ∨ dn = [] := by
      intro ops
      by_cases hd : dn = []
      · exact .inr hd
      · left
        rintro (⟨h, -⟩ | ⟨-, name, e, k, h, -⟩)
        · exact hd h
        · rw [hp] at h; cases h
    have hnil : dn ≠ [] := by
      rintro rfl
      have := parseDN_render hC [] (by simp [NameOk]) (by simp [EndOk])
      simp only [render, renderFrom, hp] at this
      cases this
    obtain ⟨_, -, -, e1⟩ := b2 ((hno ops).resolve_right hnil)
    obtain ⟨_, -, -, e2⟩ := l2 ((hno (ops ++ us)).resolve_right hnil)
    exact ⟨(d1 hp).trans (c1 hp).symm, e2.trans e1.symm⟩
  | some name =>
    have hm : MayBind V.C V.K cfg.anon base (dirAfter V.C (validatePw V.C V.K) base (ops ++ us)) dn pw ↔
        MayBind V.C V.K cfg.anon base (dirAfter V.C (validatePw V.C V.K) base ops) dn pw := by
      unfold MayBind
      simp only [hp, Option.some.injEq, exists_and_left, exists_eq_left', hget name hp]
    have hu : Untestable V.C V.K base (dirAfter V.C (validatePw V.C V.K) base (ops ++ us)) dn pw ↔
        Untestable V.C V.K base (dirAfter V.C (validatePw V.C V.K) base ops) dn pw := by
      unfold Untestable
      simp only [hp, Option.some.injEq, exists_and_left, exists_eq_left', hget name hp]
    by_cases hmay : MayBind V.C V.K cfg.anon base (dirAfter V.C (validatePw V.C V.K) base ops) dn pw
    · obtain ⟨n1, p1, r1, x1⟩ := b1 hmay
      obtain ⟨n2, p2, r2, x2⟩ := l1 (hm.2 hmay)
      rw [hp] at p1 p2
      cases p1
      cases p2
      exact ⟨r2.trans r1.symm, x2.trans x1.symm⟩
    · obtain ⟨_, -, -, e1⟩ := b2 hmay
      obtain ⟨_, -, -, e2⟩ := l2 fun h => hmay (hm.1 h)
      refine ⟨?_, e2.trans e1.symm⟩
      by_cases hun : Untestable V.C V.K base (dirAfter V.C (validatePw V.C V.K) base ops) dn pw
      · exact (d2 (hu.2 hun)).trans (c2 hun).symm
      · exact (d3 (by simp [hp]) (fun h => hmay (hm.1 h)) fun h => hun (hu.1 h)).trans (c3 (by simp [hp]) hmay hun).symm

end

/-- Changes of other entries than that of Ann: the administrator is deleted and another user is added, with a password. -/
def frMore : List Op := [.delete b!"uid=admin,dc=lg", .add ⟨b!"uid=cy,dc=lg", [⟨b!"uid", [b!"cy"]⟩, ⟨b!"userPassword", [b!"x"]⟩]⟩]

theorem fr_hist : HistOk asciiCase (toyOps ++ frMore) := by decide +kernel

/-- The answers before and after. -/
def frAnswer (ops : List Op) : List Resp := (handlePacket toyEnv (boltSrv toyEnv gobInstance toyCfg 8 false) toyOracle
  (wMsg 7 (wSearch b!"dc=lg" 2 0 (ctxStr 7 b!"uid") [b!"1.1"])) [] (after asciiCase gobInstance (validatePw asciiCase toyCrypto) toyBase ops)).resps

/-- The one of the administrator has gone, there is a new one, and that of Ann is as before. -/
example : frAnswer toyOps = [.entry 7 ⟨b!"uid=admin,dc=lg", []⟩, .entry 7 ⟨b!"uid=Ann,dc=lg", []⟩, .searchDone 7 0 (some [])] ∧
    frAnswer (toyOps ++ frMore) = [.entry 7 ⟨b!"uid=Ann,dc=lg", []⟩, .entry 7 ⟨b!"uid=cy,dc=lg", []⟩, .searchDone 7 0 (some [])] := by decide +kernel

/-- C121 applies to it -/
example := C121_search (V := toyEnv) (cfg := toyCfg) (n := 8) (stats := false) (base := toyBase) asciiCase_lawful gobInstance_lawful (by decide +kernel) toyOps frMore fr_hist
  b!"dc=lg" (by decide +kernel) 2 (ctxStr 7 b!"uid") [b!"1.1"] toyOracle toyOracle 7 [] (some []) (some []) (by decide +kernel) (by decide +kernel)
  ⟨b!"uid=Ann,dc=lg", []⟩ [[⟨b!"uid", b!"Ann"⟩], [⟨b!"dc", b!"lg"⟩]] (by decide +kernel) (by decide +kernel)

/-- and to a bind as Ann -/
example := C121_bind (V := toyEnv) (cfg := toyCfg) (n := 8) (stats := false) (base := toyBase) asciiCase_lawful gobInstance_lawful (by decide +kernel) (by decide +kernel) toyOps frMore
  fr_hist toyOracle toyOracle 7 [] b!"uid=ann,dc=LG" b!"pw" (by decide +kernel) (by decide +kernel)

end Idm
