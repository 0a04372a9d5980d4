import Verif.Props.Ldif
/-!
# C44-C47: binds, reload, loading and config users of the LDIF server
-/
namespace Idm

section
variable {V : Env} {W : WalkOrd} {cfg : LdifCfg} {g : Nat} {stats : Bool}

theorem validatePw_no_hang (C : CaseEnv) (K : CryptoEnv) (pw h : Str) : validatePw C K pw h ≠ .hang := by
  unfold validatePw
  split
  · simp
  · dsimp only
    repeat' split
    all_goals simp

/-- What the answer to a bind can be: success exactly if the password opens the entry. -/
theorem bindCode_spec (i : Nat) (r : Entry) (pw : Str) :
    (Opens V.C V.K r pw → ldifBindCode (ldifValidate V (buildEntry V.C i r) pw) = .ok (0, false)) ∧
    (¬ Opens V.C V.K r pw → ldifBindCode (ldifValidate V (buildEntry V.C i r) pw) = .ok (49, false) ∨
      ldifBindCode (ldifValidate V (buildEntry V.C i r) pw) = .panic) := by
  unfold ldifValidate Opens passwordOf buildEntry
  dsimp only
  cases (List.filter (fun a => decide (V.C.lower a.name = b!"userpassword")) r.attrs).getLast? with
  | none => simp [ldifBindCode]
  | some a =>
    cases hv : a.vals with
    | nil => simp [hv, ldifBindCode]
    | cons h hs =>
      simp only [Option.map_some, hv, Option.bind_some, List.head?_cons, Option.some.injEq, exists_eq_left']
      have := validatePw_no_hang V.C V.K pw h
      cases hx : validatePw V.C V.K pw h with
      | ok b => cases b <;> simp [ldifBindCode, rcSuccess, rcInvalidCredentials]
      | err e => simp [ldifBindCode, rcInvalidCredentials]
      | panic => simp [ldifBindCode]
      | hang => exact absurd hx this

/-- Looking up a name. -/
theorem treeGet_recs {C : CaseEnv} {idx : IdxAttrs} {recs : List (Option Entry)} {m : LMem} (hm : treeFromLDIF C idx recs = some m) (d : Str) :
    (treeGet m.tree d = none ∧ ¬ ∃ r ∈ entriesIn recs, C.lower r.dn = d) ∨
    ∃ i, ∃ r ∈ entriesIn recs, treeGet m.tree d = some (buildEntry C i r) ∧ C.lower r.dn = d ∧ ∀ r' ∈ entriesIn recs, C.lower r'.dn = d → r' = r := by
  obtain ⟨h1, h2, -⟩ := (treeFromLDIF_spec C idx recs).2 m hm
  have hent : entriesIn recs = (numbered C 0 recs).map (·.2) := (numbered_snd C recs 0).symm
  have hnd : ((entriesIn recs).map fun r => C.lower r.dn).Nodup := by rw [numbered_dn] at h2; exact h2
  cases hg : treeGet m.tree d with
  | none =>
    left
    refine ⟨rfl, ?_⟩
    rintro ⟨r, hr, rfl⟩
    rw [hent] at hr
    obtain ⟨p, hp, rfl⟩ := List.mem_map.1 hr
    obtain ⟨i, -, e⟩ := numbered_build C recs 0 p hp
    unfold treeGet at hg
    rw [List.find?_eq_none] at hg
    refine hg p.1 (by rw [h1]; exact List.mem_map.2 ⟨p, hp, rfl⟩) ?_
    simp [e, buildEntry]
  | some x =>
    right
    have hx := List.mem_of_find?_eq_some hg
    have hd := List.find?_some hg
    simp only [decide_eq_true_eq] at hd
    rw [h1] at hx
    obtain ⟨p, hp, rfl⟩ := List.mem_map.1 hx
    obtain ⟨i, -, e⟩ := numbered_build C recs 0 p hp
    have hmem : p.2 ∈ entriesIn recs := by rw [hent]; exact List.mem_map.2 ⟨p, hp, rfl⟩
    have hlow : C.lower p.2.dn = d := by rw [← hd, e]; rfl
    exact ⟨i, p.2, hmem, by rw [e], hlow, fun r' hr' e' => nodup_inj hnd r' hr' p.2 hmem (by rw [e', hlow])⟩

theorem ldifBind_spec {recs : List (Option Entry)} {st : LdifSt} (hm : treeFromLDIF V.C cfg.idx recs = some st.main) (dn pw : Str) :
    (LdifMayBind V.C V.K cfg recs dn pw → (ldifBind V cfg dn pw st).1 = .ok (0, false)) ∧
    (¬ LdifMayBind V.C V.K cfg recs dn pw → (∃ c, c ≠ 0 ∧ (ldifBind V cfg dn pw st).1 = .ok (c, false)) ∨ (ldifBind V cfg dn pw st).1 = .panic) := by
  have hiff : (if V.C.lower dn = [] then cfg.anon = true ∧ cfg.loopback = true else hasSuffix (V.C.lower dn) cfg.base = true) ↔
      ldifValidDN cfg (V.C.lower dn) = true := by
    unfold ldifValidDN
    split <;> simp
  unfold LdifMayBind
  rw [hiff]
  unfold ldifBind
  dsimp only
  by_cases hv : ldifValidDN cfg (V.C.lower dn) = true
  · rw [if_neg (by simp [hv])]
    simp only [hv, true_and]
    by_cases hp : pw = []
    · subst hp
      by_cases hd : V.C.lower dn = []
      · simp [hd, rcSuccess]
      · simp [hd, rcUnwillingToPerform]
    · rw [if_neg hp]
      simp only [hp, and_false, false_or, ne_eq, not_false_eq_true, true_and]
      rcases treeGet_recs hm (V.C.lower dn) with ⟨hg, hno⟩ | ⟨i, r, hr, hg, hl, hu⟩
      · rw [hg]
        refine ⟨fun ⟨r, hr, hl, _⟩ => absurd ⟨r, hr, hl⟩ hno, fun _ => Or.inl ⟨49, by decide, rfl⟩⟩
      · rw [hg]
        obtain ⟨k1, k2⟩ := bindCode_spec (V := V) i r pw
        constructor
        · rintro ⟨r', hr', hl', ho⟩
          rw [hu r' hr' hl'] at ho
          exact k1 ho
        · intro hno
          rcases k2 fun ho => hno ⟨r, hr, hl, ho⟩ with h | h
          · exact Or.inl ⟨49, by decide, h⟩
          · exact Or.inr h
  · rw [if_pos (by simpa using hv)]
    exact ⟨fun h => absurd h.1 hv, fun _ => Or.inl ⟨50, by decide, rfl⟩⟩

theorem confBind_spec (hC : V.C.Lawful) {recs confRecs : List (Option Entry)} {st : LdifSt} (hm : treeFromLDIF V.C cfg.idx recs = some st.main)
    (hc : treeFromLDIF V.C cfg.idx confRecs = some st.conf) (dn pw : Str) :
    (ConfMayBind V.C V.K cfg recs confRecs dn pw → (confBind V cfg dn pw st).1 = .ok (0, false)) ∧
    (¬ ConfMayBind V.C V.K cfg recs confRecs dn pw → (∃ c, c ≠ 0 ∧ (confBind V cfg dn pw st).1 = .ok (c, false)) ∨ (confBind V cfg dn pw st).1 = .panic) := by
  have hmain : LdifMayBind V.C V.K cfg recs (V.C.lower dn) pw ↔ LdifMayBind V.C V.K cfg recs dn pw := by
    unfold LdifMayBind
    rw [hC.lower_idem]
  unfold ConfMayBind confBind
  dsimp only
  by_cases hp : pw = []
  · rw [if_pos hp, if_neg (fun h => h.1 hp), ← hmain]
    exact ldifBind_spec hm _ _
  · rw [if_neg hp]
    rcases treeGet_recs hc (V.C.lower dn) with ⟨hg, hno⟩ | ⟨i, r, hr, hg, hl, hu⟩
    · rw [hg, if_neg (fun h => hno h.2), ← hmain]
      exact ldifBind_spec hm _ _
    · rw [hg, if_pos ⟨hp, r, hr, hl⟩]
      dsimp only
      by_cases hs : hasSuffix (V.C.lower dn) (V.C.lower cfg.optBase) = true
      · rw [if_neg (by simp [hs])]
        simp only [hs, true_and]
        obtain ⟨k1, k2⟩ := bindCode_spec (V := V) i r pw
        constructor
        · rintro ⟨r', hr', hl', ho⟩
          rw [hu r' hr' hl'] at ho
          exact k1 ho
        · intro hno
          rcases k2 fun ho => hno ⟨r, hr, hl, ho⟩ with h | h
          · exact Or.inl ⟨49, by decide, h⟩
          · exact Or.inr h
      · rw [if_pos (by simpa using hs)]
        exact ⟨fun h => absurd h.1 hs, fun _ => Or.inl ⟨49, by decide, rfl⟩⟩

/-- What the client is told about a bind and what becomes of the connection: success and the new identity, the end of the connection if the
name cannot be parsed, or another code and the old identity. -/
theorem bind_answer (o : Oracle) (id : Int) (bound dn pw : Str) (st : LdifSt) (P : Prop)
    (h1 : P → ((if cfg.conf then confBind V cfg else ldifBind V cfg) dn pw st).1 = .ok (0, false))
    (h2 : ¬ P → (∃ c, c ≠ 0 ∧ ((if cfg.conf then confBind V cfg else ldifBind V cfg) dn pw st).1 = .ok (c, false)) ∨
      ((if cfg.conf then confBind V cfg else ldifBind V cfg) dn pw st).1 = .panic) :
    let out := handlePacket V (ldifSrv V W cfg g stats) o (wMsg id (wBind dn pw)) bound st
    out.st = st ∧
    (P → ∀ name, parseNormalize V.C dn = some name → out.resps = [.result id 1 0] ∧ out.next = .go name) ∧
    (P → parseNormalize V.C dn = none → out.resps = [] ∧ out.next = .closed) ∧
    (¬ P → ∃ code, code ≠ 0 ∧ out.resps = [.result id 1 code] ∧ out.next = .go bound) := by
  intro out
  have hst : ((if cfg.conf then confBind V cfg else ldifBind V cfg) dn pw st).2 = st := by
    split
    · exact confBind_st _ _ _
    · exact ldifBind_st _ _ _
  generalize hx : (if cfg.conf then confBind V cfg else ldifBind V cfg) dn pw st = x at h1 h2 hst
  obtain ⟨res, st'⟩ := x
  dsimp only at h1 h2 hst
  subst hst
  have hbody : bindBody (ldifSrv V W cfg g stats) (wBind dn pw) st' = (match res with
      | .ok (code, false) => (.ok code, st')
      | .ok (_, true) => (.ok rcOperationsError, st')
      | .err _ => (.ok rcOperationsError, st')
      | .panic => (.panic, st')
      | .hang => (.hang, st')) := by
    have h3 : authSimple = 0 := rfl
    simp only [bindBody, wBind, wReq, Packet.kids, berInt, Packet.int?, Packet.val, octet, Packet.str?, ctxStr, Packet.tag, ldifSrv,
      pick_single, Packet.data, hx, List.getElem?_cons_zero, List.getElem?_cons_succ, h3, ne_eq, not_true_eq_false, if_false,
      List.length_cons, List.length_nil, if_true, Nat.zero_add, Nat.reduceAdd]
    rcases res with ⟨code, b⟩ | e | _ | _
    · cases b <;> rfl
    all_goals rfl
  have hout : out = stepBind V (ldifSrv V W cfg g stats) id bound (wBind dn pw) st' := wBind_packet V _ o id dn pw bound st'
  have hk : (wBind dn pw).kids[1]? = some (octet dn) := rfl
  have hs : (octet dn).str? = some dn := rfl
  rw [hout]
  unfold stepBind handleBind
  rw [hbody]
  by_cases hP : P
  · have := h1 hP
    subst this
    simp only [hk, hs, if_true, appBindResponse, rcSuccess]
    cases hn : parseNormalize V.C dn with
    | none => exact ⟨rfl, fun _ n h => (by cases h), fun _ _ => ⟨rfl, rfl⟩, fun h => absurd hP h⟩
    | some b => exact ⟨rfl, fun _ n h => (by cases h; exact ⟨rfl, rfl⟩), fun _ h => (by cases h), fun h => absurd hP h⟩
  · rcases h2 hP with ⟨c, hc, rfl⟩ | rfl
    · have hc' : ¬ c = rcSuccess := hc
      simp only [if_neg hc']
      exact ⟨by trivial, fun h => absurd h hP, fun h => absurd h hP, fun _ => ⟨c, hc, by trivial, by trivial⟩⟩
    · refine ⟨rfl, fun h => absurd h hP, fun h => absurd h hP, fun _ => ⟨rcOperationsError, by decide, rfl, rfl⟩⟩

/-! ## C44 -/

/-- C44: in any reachable state of a server without config file, a bind succeeds exactly if `LdifMayBind` holds for the data loaded last.
Otherwise it is refused and the connection keeps its identity. A bind that would succeed under a name that is not a DN ends the
connection. -/
theorem C44_bind_exact (hconf : cfg.conf = false) (hW : W.Lawful) {recs older} {st : LdifSt}
    (h : LdifReach V W cfg g stats (recs :: older) st) (o : Oracle) (id : Int) (bound dn pw : Str) :
    let out := handlePacket V (ldifSrv V W cfg g stats) o (wMsg id (wBind dn pw)) bound st
    out.st = st ∧
    (LdifMayBind V.C V.K cfg recs dn pw → ∀ name, parseNormalize V.C dn = some name → out.resps = [.result id 1 0] ∧ out.next = .go name) ∧
    (LdifMayBind V.C V.K cfg recs dn pw → parseNormalize V.C dn = none → out.resps = [] ∧ out.next = .closed) ∧
    (¬ LdifMayBind V.C V.K cfg recs dn pw → ∃ code, code ≠ 0 ∧ out.resps = [.result id 1 code] ∧ out.next = .go bound) := by
  obtain ⟨⟨recs', older', e, hm⟩, -⟩ := reach_inv hW h
  cases e
  have := ldifBind_spec (V := V) (cfg := cfg) hm dn pw
  exact bind_answer o id bound dn pw st _ (by simpa [hconf] using this.1) (by simpa [hconf] using this.2)

/-- C44 in particular: a bind as a name succeeds only with a password that is not empty, for a name that ends in the base DN. -/
theorem C44_named {C : CaseEnv} {K : CryptoEnv} {recs : List (Option Entry)} {dn pw : Str} (hd : C.lower dn ≠ []) :
    LdifMayBind C K cfg recs dn pw ↔ hasSuffix (C.lower dn) cfg.base = true ∧ pw ≠ [] ∧
      ∃ r ∈ entriesIn recs, C.lower r.dn = C.lower dn ∧ Opens C K r pw := by
  unfold LdifMayBind
  simp [hd]

/-- C44 in particular: anonymous binds succeed exactly if they are allowed and come from a loopback address. -/
theorem C44_anonymous {C : CaseEnv} (hC : C.Lawful) {K : CryptoEnv} {recs : List (Option Entry)} :
    LdifMayBind C K cfg recs [] [] ↔ cfg.anon = true ∧ cfg.loopback = true := by
  unfold LdifMayBind
  simp [hC.lower_nil]

/-- C44: a client that may not read gets no entries from any request, in any reachable state: anonymous clients without permission or from
elsewhere, and clients bound to a name that does not end in the base DN. -/
theorem C44_search_refused (hC : V.C.Lawful) (hW : W.Lawful) {versions} {st : LdifSt} (h : LdifReach V W cfg g stats versions st) (bound : Str)
    (hn : ¬ MayRead V.C cfg bound) (hne : V.C.lower bound = [] → bound = []) (o : Oracle) (p : Packet) :
    entriesOf (handlePacket V (ldifSrv V W cfg g stats) o p bound st).resps = [] := by
  rcases ldif_answer hW h o p bound with h | ⟨id, req, controls, r, fp, l, -, -, -, -, -, hv, -⟩
  · exact h
  · exfalso
    apply hn
    unfold ldifValidDN at hv
    unfold MayRead
    by_cases hb : V.C.lower bound = []
    · rw [if_pos hb] at hv
      exact Or.inl ⟨hne hb, by simpa using hv⟩
    · rw [if_neg hb] at hv
      exact Or.inr ⟨hb, hv⟩

/-- three binds and a search at a server without config file, with `Ann`'s password -/
example : let srv := ldifSrv ldEnv ldOrd { ldCfg with conf := false, loopback := false } 8 false
    let req := fun bound q => handlePacket ldEnv srv toyOracle (wMsg 7 q) bound (ldStart ldRecs)
    (req [] (wBind b!"UID=ann,ou=people,dc=lg" b!"pw")).resps = [.result 7 1 0] ∧
    (req [] (wBind b!"UID=ann,ou=people,dc=lg" b!"pw")).next = .go b!"uid=ann,ou=people,dc=lg" ∧
    (req [] (wBind b!"UID=ann,ou=people,dc=lg" b!"no")).resps = [.result 7 1 49] ∧
    (req [] (wBind [] [])).resps = [.result 7 1 50] ∧
    (req [] (wSearch b!"dc=lg" 2 0 (ctxStr 7 b!"cn") [])).resps = [.searchDone 7 50 (some [])] := by decide +kernel

/-- an entry that a password opens -/
example : Opens asciiCase toyCrypto ⟨b!"uid=Ann,ou=People,dc=lg", [⟨b!"userPassword", [b!"{ARGON2}$argon2id$pw"]⟩]⟩ b!"pw" :=
  ⟨b!"{ARGON2}$argon2id$pw", by decide +kernel, by decide +kernel⟩

/-! ## C47 -/

/-- C47: with a config file, a bind succeeds exactly if `ConfMayBind` holds: with a password, an entry of the config file goes before an
entry of the data of that name; all other names are looked up in the data. -/
theorem C47_bind_exact (hC : V.C.Lawful) (hconf : cfg.conf = true) (hW : W.Lawful) {recs older confRecs} {st : LdifSt}
    (h : LdifReach V W cfg g stats (recs :: older) st) (hc : treeFromLDIF V.C cfg.idx confRecs = some st.conf)
    (o : Oracle) (id : Int) (bound dn pw : Str) :
    let out := handlePacket V (ldifSrv V W cfg g stats) o (wMsg id (wBind dn pw)) bound st
    out.st = st ∧
    (ConfMayBind V.C V.K cfg recs confRecs dn pw → ∀ name, parseNormalize V.C dn = some name → out.resps = [.result id 1 0] ∧ out.next = .go name) ∧
    (ConfMayBind V.C V.K cfg recs confRecs dn pw → parseNormalize V.C dn = none → out.resps = [] ∧ out.next = .closed) ∧
    (¬ ConfMayBind V.C V.K cfg recs confRecs dn pw → ∃ code, code ≠ 0 ∧ out.resps = [.result id 1 code] ∧ out.next = .go bound) := by
  obtain ⟨⟨recs', older', e, hm⟩, -⟩ := reach_inv hW h
  cases e
  have := confBind_spec (V := V) (cfg := cfg) hC hm hc dn pw
  exact bind_answer o id bound dn pw st _ (by simpa [hconf] using this.1) (by simpa [hconf] using this.2)

theorem ldifSearch_conf (bound : Str) (r : SearchReq) (st : LdifSt) (m : LMem) : ldifSearch V W cfg bound r { st with conf := m } =
    ((ldifSearch V W cfg bound r st).1, { (ldifSearch V W cfg bound r st).2 with conf := m }) := by
  have hp : ∀ base fs paging, pageSource V W base fs paging { st with conf := m } =
      ((pageSource V W base fs paging st).1, (pageSource V W base fs paging st).2.1, { (pageSource V W base fs paging st).2.2 with conf := m }) := by
    intro base fs paging
    match paging with
    | none => rfl
    | some (n, []) => rfl
    | some (n, k :: ks) =>
      simp only [pageSource]
      cases st.pagings.find? (fun p => p.1 = k :: ks) with
      | none => rfl
      | some q =>
        dsimp only
        repeat' split
        all_goals first | rfl | simp_all
  unfold ldifSearch
  dsimp only
  split
  · rfl
  · cases indexFilter V.C r.filter with
    | err e => rfl
    | panic => rfl
    | hang => rfl
    | ok fs =>
      dsimp only
      split
      · rfl
      · rw [hp]
        rcases pageSource V W (V.C.lower r.baseDN) fs (pagingOf r) st with ⟨src, k, st'⟩
        cases src with
        | unknown => rfl
        | nil_ => dsimp only; cases compile r.filter <;> rfl
        | from_ l =>
          dsimp only
          cases compile r.filter with
          | none => rfl
          | some fp =>
            dsimp only
            cases searchPage V fp r ((pagingOf r).map (·.1)) 0 l with
            | err e => rfl
            | panic => rfl
            | hang => rfl
            | ok p =>
              have hst : (if (pagingOf r).isSome then
                  { ({ st' with conf := m } : LdifSt) with pagings := (if p.eof then [] else [(k, p.rest)]) ++ dropCookie k st'.pagings }
                  else { st' with conf := m }) =
                  { (if (pagingOf r).isSome then
                  { st' with pagings := (if p.eof then [] else [(k, p.rest)]) ++ dropCookie k st'.pagings } else st') with conf := m } := by
                split <;> rfl
              dsimp only
              rw [hst]
              split <;> rfl

/-- C47: the config file has no influence on searches: in any state, whatever the config file contains, a search gets the same answer. -/
theorem C47_search_ignores_conf (o : Oracle) (p : Packet) (bound : Str) (st : LdifSt) (m : LMem) (hp : ∃ id req, Message p id req ∧ req.tag = 3) :
    (handlePacket V (ldifSrv V W cfg g stats) o p bound { st with conf := m }).resps = (handlePacket V (ldifSrv V W cfg g stats) o p bound st).resps ∧
    (handlePacket V (ldifSrv V W cfg g stats) o p bound { st with conf := m }).next = (handlePacket V (ldifSrv V W cfg g stats) o p bound st).next := by
  obtain ⟨id, req, ⟨mp, more, hk, hid, hcls⟩, ht⟩ := hp
  have hid := int?_iff.2 hid
  have hpk : ∀ st, handlePacket V (ldifSrv V W cfg g stats) o p bound st = match decodeControls V ((more.head?.map Packet.kids).getD []) with
        | .panic => ⟨[], .crash, st⟩
        | .hang => ⟨[], .hang, st⟩
        | .err _ => ⟨[], .crash, st⟩
        | .ok controls => stepSearch V (ldifSrv V W cfg g stats) id bound req controls st := by
    intro st
    simp [handlePacket, hk, hid, hcls, ht, appAddRequest, appBindRequest, appCompareRequest, appDelRequest, appExtendedRequest, appModifyDNRequest,
      appModifyRequest, appSearchRequest]
    cases decodeControls V ((more.head?.map Packet.kids).getD []) <;> rfl
  rw [hpk, hpk]
  cases decodeControls V ((more.head?.map Packet.kids).getD []) with
  | err e => exact ⟨rfl, rfl⟩
  | panic => exact ⟨rfl, rfl⟩
  | hang => exact ⟨rfl, rfl⟩
  | ok controls =>
    dsimp only
    rw [ldif_stepSearch, ldif_stepSearch]
    cases parseSearchRequest req controls with
    | none => exact ⟨rfl, rfl⟩
    | some r =>
      dsimp only
      rw [ldifSearch_conf]
      rcases ldifSearch V W cfg bound r st with ⟨res, st'⟩
      cases res with
      | ok sr => unfold ldifOut; dsimp only; split <;> exact ⟨rfl, rfl⟩
      | _ => exact ⟨rfl, rfl⟩

/-- the password of the config file is the one that counts for `bob`, and the one of the data for `Ann`; the config entry is not found -/
example : (ldReq [] (wBind b!"uid=bob,ou=people,dc=lg" b!"conf")).resps = [.result 7 1 0] ∧
    (ldReq [] (wBind b!"uid=bob,ou=people,dc=lg" b!"secret")).resps = [.result 7 1 49] ∧
    (ldReq [] (wBind b!"uid=ann,ou=people,dc=lg" b!"pw")).resps = [.result 7 1 0] ∧
    (ldReq [] (wSearch b!"uid=bob,ou=people,dc=lg" 0 0 (ctxStr 7 b!"objectClass") [b!"uid"])).resps =
      [.entry 7 ⟨b!"uid=bob,ou=people,dc=lg", [⟨b!"uid", [b!"bob"]⟩]⟩, .searchDone 7 0 (some [])] := by decide +kernel

example : treeFromLDIF ldEnv.C ldCfg.idx ldConfRecs = some (ldStart ldRecs).conf := ldConfRecs_loads

end
end Idm
