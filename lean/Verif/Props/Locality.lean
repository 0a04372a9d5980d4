import Verif.Props.Frame
import Verif.Props.FrameLdif
/-!
# C123: what is outside the scope of a search has no influence on it
-/
namespace Idm

section
variable {V : Env} {G : GobEnv} {cfg : BoltCfg} {n : Nat} {stats : Bool} {base : DN}

/-- A search without size limit ends well exactly if every entry can be judged. -/
theorem searchLoop_ok_iff {C : CaseEnv} (fp : Packet) (r : SearchReq) (h0 : r.sizeLimit = (0 : Nat)) : ∀ (es : List Entry) (i : Nat),
    (searchLoop C fp r i es).2 = .ok 0 ↔ ∀ e ∈ es, Judgeable C fp r e
  | [], i => by simp [searchLoop, rcSuccess]
  | e :: es, i => by
    have ih := fun i => searchLoop_ok_iff (C := C) fp r h0 es i
    have hl : ¬ (r.sizeLimit > 0 ∧ (i : Int) ≥ r.sizeLimit) := by rw [h0]; simp
    simp only [List.forall_mem_cons, searchLoop]
    cases ha : applyFilter C e fp with
    | err x => simp [Judgeable, ha]
    | panic => simp [Judgeable, ha]
    | hang => simp [Judgeable, ha]
    | ok q =>
      obtain ⟨keep, code⟩ := q
      dsimp only
      by_cases hc : code = 0
      · subst hc
        rw [if_neg (by simp [rcSuccess])]
        cases keep with
        | false =>
          have : Judgeable C fp r e := ⟨false, ha, fun h => by cases h⟩
          simp only [Bool.not_false, if_true, ih, this, true_and]
        | true =>
          simp only [Bool.not_true, Bool.false_eq_true, if_false]
          generalize hs : filterScope C r.baseDN (scopeNat r.scope) e = s
          obtain ⟨keep, code⟩ := s
          dsimp only
          by_cases hc : code = 0
          · subst hc
            rw [if_neg (by simp [rcSuccess])]
            have : Judgeable C fp r e := ⟨true, ha, fun _ => ⟨keep, hs⟩⟩
            cases keep with
            | false => simp only [Bool.not_false, if_true, ih, this, true_and]
            | true => simp only [Bool.not_true, Bool.false_eq_true, if_false, hl, ih, this, true_and]
          · rw [if_pos (by simpa [rcSuccess] using hc)]
            have : ¬ Judgeable C fp r e := by
              rintro ⟨b, hb, hb2⟩
              rw [ha] at hb
              cases hb
              obtain ⟨k, hk⟩ := hb2 rfl
              rw [hs] at hk
              cases hk
              exact hc rfl
            simp [this, hc]
      · rw [if_pos (by simpa [rcSuccess] using hc)]
        have : ¬ Judgeable C fp r e := by
          rintro ⟨b, hb, -⟩
          rw [ha] at hb
          cases hb
          exact hc rfl
        simp [this, hc]

theorem search_same (hC : V.C.Lawful) (hG : G.Lawful) {db db' : Db} {ns ns' : List INode} (R : Rel V.C G base db ns) (R' : Rel V.C G base db' ns')
    (b : Str) (ht : TextOk V.C b) (scope : Nat) (w : Packet) (attrs : List Str) (o o' : Oracle) (id : Int) (bound : Str) (cs : Option (List Control))
    (hsame : ∀ k, parseDN V.C b = some k → ∀ l, l = foldDN V.C k ∨ InScope scope (foldDN V.C k) l → (dirOf ns).get l = (dirOf ns').get l)
    (h : .searchDone id 0 cs ∈ (handlePacket V (boltSrv V G cfg n stats) o (wMsg id (wSearch b scope 0 w attrs)) bound db).resps) :
    ∃ es es' : List Entry, es.Perm es' ∧
      (handlePacket V (boltSrv V G cfg n stats) o (wMsg id (wSearch b scope 0 w attrs)) bound db).resps = es.map (.entry id) ++ [.searchDone id 0 (some [])] ∧
      (handlePacket V (boltSrv V G cfg n stats) o' (wMsg id (wSearch b scope 0 w attrs)) bound db').resps = es'.map (.entry id) ++ [.searchDone id 0 (some [])] := by
  have hfound : ∃ es es' x x', boltSearch V.C G db b scope = .ok (es, x) ∧ boltSearch V.C G db' b scope = .ok (es', x') ∧ es.Perm es' := by
    cases hp : parseDN V.C b with
    | none => exact ⟨[], [], some .other, some .other, by simp [boltSearch, searchFuel, parseNormalize, hp],
        by simp [boltSearch, searchFuel, parseNormalize, hp], .refl _⟩
    | some k =>
      obtain ⟨s1, s2⟩ := serves_of_rel hC hG R b k hp (ht k hp) scope
      obtain ⟨s1', s2'⟩ := serves_of_rel hC hG R' b k hp (ht k hp) scope
      have hhas : (dirOf ns).has (foldDN V.C k) = (dirOf ns').has (foldDN V.C k) := by
        have := hsame k hp _ (.inl rfl)
        rw [has_get, has_get, this]
      cases hh : (dirOf ns).has (foldDN V.C k) with
      | false => exact ⟨_, _, _, _, s2 hh, s2' (hhas ▸ hh), .refl _⟩
      | true =>
        obtain ⟨found, f1, f2, f3⟩ := s1 hh
        obtain ⟨found', g1, g2, g3⟩ := s1' (hhas ▸ hh)
        refine ⟨_, _, _, _, f1, g1, List.Perm.map _ ?_⟩
        rw [List.perm_ext_iff_of_nodup (nodup_of_map f2) (nodup_of_map g2)]
        intro x
        rw [f3, g3]
        refine and_congr_left fun hx => ?_
        rw [mem_of_get (dirOf_nodup R), mem_of_get (dirOf_nodup R'), hsame k hp x.name (.inr hx)]
  obtain ⟨es, es', x, x', e1, e2, hperm⟩ := hfound
  rw [wSearch_step] at h ⊢
  rw [wSearch_step]
  cases hs : decompile w with
  | none => rw [hs] at h; simp at h
  | some s =>
    rw [hs] at h
    dsimp only at h ⊢
    cases hc : compile s with
    | none => rw [hc] at h; simp at h
    | some fp =>
      rw [hc] at h
      dsimp only at h ⊢
      rw [e1] at h ⊢
      rw [e2]
      dsimp only at h ⊢
      generalize hrq : (⟨b, scope, (0 : Nat), (0 : Nat), (0 : Nat), false, s, attrs, []⟩ : SearchReq) = rq at h ⊢
      have h0 : rq.sizeLimit = (0 : Nat) := by rw [← hrq]
      have hok : (searchLoop V.C fp rq 0 es).2 = .ok 0 := by
        generalize searchLoop V.C fp rq 0 es = y at h
        obtain ⟨sent, res⟩ := y
        cases res with
        | ok code =>
          simp [searchOut] at h
          rw [← h.1]
        | err e => simp [searchOut] at h
        | panic => simp [searchOut] at h
        | hang => simp [searchOut] at h
      have hok' : (searchLoop V.C fp rq 0 es').2 = .ok 0 := by
        rw [searchLoop_ok_iff fp rq h0] at hok ⊢
        exact fun e he => hok e (hperm.mem_iff.2 he)
      have key : ∀ l, (searchLoop V.C fp rq 0 l).2 = .ok 0 →
          searchLoop V.C fp rq 0 l = ((l.filter (keptEntry V.C fp rq)).map (filterAttributes V.C rq.attrs), .ok 0) := by
        intro l hl
        have : searchLoop V.C fp rq 0 l = ((searchLoop V.C fp rq 0 l).1, .ok 0) := by rw [← hl]
        rw [← searchLoop_kept fp rq h0 l 0 _ this]
        exact this
      rw [key es hok, key es' hok']
      exact ⟨_, _, (hperm.filter _).map _, rfl, rfl⟩

/-- C123: whatever happened before and whatever the changes `us` are, refused or not: if none of them is about the base of a search or a name in its
scope, then the search is answered as before. If it succeeds before or after, it succeeds both times, with the same entries, perhaps in another order.
The search may be made by anybody, with any filter and list of attributes, without size limit. -/
theorem C123_search (hC : V.C.Lawful) (hG : G.Lawful) (hb : BaseOk V.C base) (ops us : List Op) (h : HistOk V.C (ops ++ us))
    (b : Str) (ht : TextOk V.C b) (scope : Nat) (w : Packet) (attrs : List Str) (o o' : Oracle) (id : Int) (bound : Str) (cs : Option (List Control))
    (hout : ∀ name, parseDN V.C b = some name → ∀ u ∈ us, ∀ l ∈ u.about V.C, l ≠ foldDN V.C name ∧ ¬ InScope scope (foldDN V.C name) l) :
    let before := handlePacket V (boltSrv V G cfg n stats) o (wMsg id (wSearch b scope 0 w attrs)) bound (after V.C G (validatePw V.C V.K) base ops)
    let later := handlePacket V (boltSrv V G cfg n stats) o' (wMsg id (wSearch b scope 0 w attrs)) bound (after V.C G (validatePw V.C V.K) base (ops ++ us))
    .searchDone id 0 cs ∈ before.resps ∨ .searchDone id 0 cs ∈ later.resps →
    ∃ es es' : List Entry, es.Perm es' ∧ before.resps = es.map (.entry id) ++ [.searchDone id 0 (some [])] ∧
      later.resps = es'.map (.entry id) ++ [.searchDone id 0 (some [])] := by
  intro before later hd
  have hlen := h.len
  rw [List.length_append] at hlen
  have h0 : HistOk V.C ops := ⟨fun o ho => h.ok o (List.mem_append_left _ ho), by omega⟩
  obtain ⟨n1, -, a1, R1, -⟩ := sim_run_empty (validate := validatePw V.C V.K) hC hG hb ops h0.ok h0.len
  obtain ⟨n2, -, a2, R2, -⟩ := sim_run_empty (validate := validatePw V.C V.K) hC hG hb (ops ++ us) h.ok h.len
  have hget : ∀ k, parseDN V.C b = some k → ∀ l, l = foldDN V.C k ∨ InScope scope (foldDN V.C k) l → (dirOf n1).get l = (dirOf n2).get l := by
    intro k hk l hl
    rw [← a1, ← a2, specRun_append]
    refine (run_outside us _ _ fun u hu hm => ?_).symm
    obtain ⟨c1, c2⟩ := hout k hk u hu l hm
    exact hl.elim c1 c2
  rcases hd with hd | hd
  · exact search_same hC hG R1 R2 b ht scope w attrs o o' id bound cs hget hd
  · obtain ⟨es, es', e1, e2, e3⟩ := search_same hC hG R2 R1 b ht scope w attrs o' o id bound cs (fun k hk l hl => (hget k hk l hl).symm) hd
    exact ⟨es', es, e1.symm, e3, e2⟩

end

section
variable {V : Env} {W : WalkOrd} {cfg : LdifCfg} {g : Nat} {stats : Bool}

theorem pump_local {C : CaseEnv} (hW : W.Lawful) {idx : IdxAttrs} {recs recs' : List (Option Entry)} {m m' : LMem} (hm : treeFromLDIF C idx recs = some m)
    (hm' : treeFromLDIF C idx recs' = some m') (base : Str)
    (hp : ((entriesIn recs).filter fun r => hasSuffix (C.lower r.dn) base).Perm ((entriesIn recs').filter fun r => hasSuffix (C.lower r.dn) base))
    (fs : List IdxReq) (ht : ∀ f ∈ fs, TagOk f.kind f.tag) :
    ((pump C W m base fs).map (·.visible)).Perm ((pump C W m' base fs).map (·.visible)) := by
  have nd : ∀ {recs m}, treeFromLDIF C idx recs = some m → ((pump C W m base fs).map (·.visible)).Nodup := by
    intro recs m hm
    refine nodup_of_map (f := Entry.dn) ?_
    rw [List.map_map]
    exact (pump_spec hW hm base fs ht).1
  rw [List.perm_ext_iff_of_nodup (nd hm) (nd hm')]
  intro e
  rw [pump_visible hW hm base fs ht, pump_visible hW hm' base fs ht]
  have key : ∀ r, hasSuffix (C.lower r.dn) base = true → (r ∈ entriesIn recs ↔ r ∈ entriesIn recs') := by
    intro r hr
    have := hp.mem_iff (a := r)
    simpa [List.mem_filter, hr] using this
  constructor
  · rintro ⟨r, hr, h, ho⟩; exact ⟨r, (key r ho.1).1 hr, h, ho⟩
  · rintro ⟨r, hr, h, ho⟩; exact ⟨r, (key r ho.1).2 hr, h, ho⟩

/-- C123 for the server with LDIF files: two servers, or one before and after a reload, whose files have the same records with names that end in the base
of a search, answer it alike: if one succeeds so does the other, with the same entries, perhaps in another order. What the other records are and whether
the base itself has one does not matter. -/
theorem C123_ldif_search (hW : W.Lawful) {recs older recs' older'} {st st' : LdifSt} (h : LdifReach V W cfg g stats (recs :: older) st)
    (h' : LdifReach V W cfg g stats (recs' :: older') st') (b : Str)
    (hsame : ((entriesIn recs).filter fun r => hasSuffix (V.C.lower r.dn) (V.C.lower b)).Perm
      ((entriesIn recs').filter fun r => hasSuffix (V.C.lower r.dn) (V.C.lower b)))
    (o o' : Oracle) (id : Int) (scope : Nat) (w : Packet) (attrs : List Str) (bound : Str) (cs : Option (List Control)) :
    let before := handlePacket V (ldifSrv V W cfg g stats) o (wMsg id (wSearch b scope 0 w attrs)) bound st
    let later := handlePacket V (ldifSrv V W cfg g stats) o' (wMsg id (wSearch b scope 0 w attrs)) bound st'
    .searchDone id 0 cs ∈ before.resps ∨ .searchDone id 0 cs ∈ later.resps →
    ∃ es es' : List Entry, es.Perm es' ∧ before.resps = es.map (.entry id) ++ [.searchDone id 0 (some [])] ∧
      later.resps = es'.map (.entry id) ++ [.searchDone id 0 (some [])] := by
  intro before later hd
  obtain ⟨⟨_, _, q, hm⟩, -⟩ := reach_inv hW h
  cases q
  obtain ⟨⟨_, _, q, hm'⟩, -⟩ := reach_inv hW h'
  cases q
  have key := pump_local hW hm hm' (V.C.lower b) hsame
  rcases hd with hd | hd
  · exact ldif_search_alike b key o o' id scope w attrs bound cs hd
  · obtain ⟨es, es', e1, e2, e3⟩ := ldif_search_alike b (fun fs hf => (key fs hf).symm) o' o id scope w attrs bound cs hd
    exact ⟨es', es, e1.symm, e3, e2⟩

end

/-- A unit with a user. The changes `frMore` are outside of it. -/
def lcOps : List Op := toyOps ++ [.add ⟨b!"ou=p,dc=lg", [⟨b!"ou", [b!"p"]⟩]⟩, .add ⟨b!"uid=bo,ou=p,dc=lg", [⟨b!"uid", [b!"bo"]⟩]⟩]

theorem lc_hist : HistOk asciiCase (lcOps ++ frMore) := by decide +kernel

/-- The answers before and after. -/
def lcAnswer (ops : List Op) (b : Str) : List Resp := (handlePacket toyEnv (boltSrv toyEnv gobInstance toyCfg 8 false) toyOracle
  (wMsg 7 (wSearch b 2 0 (ctxStr 7 b!"uid") [b!"1.1"])) [] (after asciiCase gobInstance (validatePw asciiCase toyCrypto) toyBase ops)).resps

example : lcAnswer lcOps b!"OU=p,dc=lg" = [.entry 7 ⟨b!"uid=bo,ou=p,dc=lg", []⟩, .searchDone 7 0 (some [])] ∧
    lcAnswer (lcOps ++ frMore) b!"OU=p,dc=lg" = [.entry 7 ⟨b!"uid=bo,ou=p,dc=lg", []⟩, .searchDone 7 0 (some [])] ∧
    lcAnswer lcOps b!"dc=lg" ≠ lcAnswer (lcOps ++ frMore) b!"dc=lg" := by decide +kernel

instance (scope : Nat) (k n : DN) : Decidable (InScope scope k n) :=
  decidable_of_iff ((scope = 0 ∧ n = k) ∨ (scope = 1 ∧ n ≠ [] ∧ n.tail = k) ∨ (scope = 2 ∧ k <:+ n)) (by
    unfold InScope
    refine or_congr_right (or_congr (and_congr_right fun _ => ?_) (and_congr_right fun _ => ?_))
    · cases n with
      | nil => simp
      | cons r t => simp
    · exact ⟨fun ⟨p, h⟩ => ⟨p, h.symm⟩, fun ⟨p, h⟩ => ⟨p, h.symm⟩⟩)

/-- C123 applies to the search below `ou=p,dc=lg` -/
example := C123_search (V := toyEnv) (cfg := toyCfg) (n := 8) (stats := false) (base := toyBase) asciiCase_lawful gobInstance_lawful (by decide +kernel) lcOps frMore lc_hist
  b!"OU=p,dc=lg" (by decide +kernel) 2 (ctxStr 7 b!"uid") [b!"1.1"] toyOracle toyOracle 7 [] (some []) (by decide +kernel) (.inl (by decide +kernel))

/-- and to that for the entries one level below `dc=lg`, if users are added below `ou=p,dc=lg` -/
example := C123_search (V := toyEnv) (cfg := toyCfg) (n := 8) (stats := false) (base := toyBase) asciiCase_lawful gobInstance_lawful (by decide +kernel) lcOps
  [.add ⟨b!"uid=di,ou=p,dc=lg", [⟨b!"uid", [b!"di"]⟩]⟩, .delete b!"uid=bo,ou=p,dc=lg"] (by decide +kernel)
  b!"dc=lg" (by decide +kernel) 1 (ctxStr 7 b!"uid") [b!"1.1"] toyOracle toyOracle 7 [] (some []) (by decide +kernel) (.inr (by decide +kernel))

/-- C123 for the server with LDIF files: the file `ldRecs` and one without the record of the base and with another user outside `ou=people` -/
def lcRecs : List (Option Entry) := some ⟨b!"uid=cy,dc=lg", [⟨b!"cn", [b!"Cy"]⟩]⟩ :: ldRecs.tail

example := C123_ldif_search ldOrd_lawful ld_reach (show LdifReach ldEnv ldOrd ldCfg 8 false [lcRecs] (ldStart lcRecs) from .start _ _ _ _ _ _ (ldMemI_loads (by decide +kernel)))
  b!"ou=People,dc=lg" (by decide +kernel) toyOracle toyOracle 7 2 (ctxStr 7 b!"cn") [b!"cn"] [] (some []) (.inl (by decide +kernel))

end Idm
