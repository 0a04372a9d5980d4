import Verif.Props.LdifPaging
/-!
# C62: size limits on the LDIF server
-/
namespace Idm

section
variable {V : Env} {W : WalkOrd} {cfg : LdifCfg} {g : Nat} {stats : Bool}

/-- A search that succeeds is one the client may make. -/
theorem unpaged_valid {o : Oracle} {id : Int} {b : Str} {scope : Nat} {w : Packet} {attrs : List Str} {bound : Str} {st : LdifSt} {full : List Entry}
    (h : (handlePacket V (ldifSrv V W cfg g stats) o (wMsg id (wSearch b scope 0 w attrs)) bound st).resps =
      full.map (.entry id) ++ [.searchDone id 0 (some [])]) : ldifValidDN cfg (V.C.lower bound) = true := by
  refine Classical.byContradiction fun hv => ?_
  rw [wSearch_packet, ldif_stepSearch, wSearch_parse] at h
  cases hd : decompile w with
  | none =>
    rw [hd] at h
    have := congrArg List.getLast? h
    simp at this
  | some s =>
    rw [hd] at h
    have := congrArg List.getLast? h
    simp [ldifSearch, hv, ldifOut, rcInsufficientAccessRights] at this

/-- The loop with a size limit. -/
theorem searchPage_limited (V : Env) (fp : Packet) (r : SearchReq) (hl : r.sizeLimit > 0) : ∀ (l : List LEntry) (count : Nat), 
    (∀ x ∈ l, Fine V.C fp r x) → ∃ rest eof, searchPage V fp r none count l =
      .ok ⟨(sent V.C fp r l).take (max 1 (toU32 r.sizeLimit - count)), rest, eof, rcSuccess⟩
  | [], _, _ => ⟨[], true, by simp [searchPage, sent]⟩
  | x :: xs, count, h => by
    have ih := fun c => searchPage_limited V fp r hl xs c fun y hy => h y (by simp [hy])
    obtain ⟨b, hb, hk⟩ := h x (by simp)
    rw [searchPage, hb]
    cases b with
    | false =>
      obtain ⟨rest, eof, e⟩ := ih count
      exact ⟨rest, eof, by simp [e, sent, kept, hb]⟩
    | true =>
      obtain ⟨k, hk⟩ := hk rfl
      cases k with
      | false =>
        obtain ⟨rest, eof, e⟩ := ih count
        exact ⟨rest, eof, by simp [hk, e, sent, kept, hb]⟩
      | true =>
        have hs : sent V.C fp r (x :: xs) = filterAttributes V.C r.attrs x.visible :: sent V.C fp r xs := by simp [sent, kept, hb, hk]
        rw [hs]
        by_cases hc : count + 1 ≥ toU32 r.sizeLimit
        · refine ⟨xs, false, ?_⟩
          rw [show max 1 (toU32 r.sizeLimit - count) = 1 by omega]
          simp [hk, hl, hc]
        · obtain ⟨rest, eof, e⟩ := ih (count + 1)
          refine ⟨rest, eof, ?_⟩
          rw [show max 1 (toU32 r.sizeLimit - count) = max 1 (toU32 r.sizeLimit - (count + 1)) + 1 by omega]
          simp [hk, hc, e, Page.cons]

/-- C62, without the report of an exceeded limit: compare a search with size limit `m > 0` with the same search without limit (and without
paging), on any data. The entries are the first `m` of those returned without limit, and they are reported as a success. The limit is taken
modulo 2^32, and a multiple of 2^32 limits to one entry. -/
theorem C62_limit_partial {o : Oracle} {id : Int} {b : Str} {scope : Nat} {w : Packet} {attrs : List Str} {bound : Str} {st : LdifSt} {full : List Entry}
    (hfull : (handlePacket V (ldifSrv V W cfg g stats) o (wMsg id (wSearch b scope 0 w attrs)) bound st).resps =
      full.map (.entry id) ++ [.searchDone id 0 (some [])]) (m : Nat) (hm : 0 < m) (o' : Oracle) (id' : Int) :
    handlePacket V (ldifSrv V W cfg g stats) o' (wMsg id' (wSearch b scope m w attrs)) bound st =
      ⟨(full.take (max 1 (m % 2 ^ 32))).map (.entry id') ++ [.searchDone id' 0 (some [])], .go bound, st⟩ := by
  have hv := unpaged_valid hfull
  obtain ⟨s, fs, fp, hd, hi, hc, hb, hfine, rfl⟩ := unpaged_ok hfull
  rw [wSearch_packet, ldif_stepSearch, wSearch_parse, hd]
  dsimp only [Option.map_some]
  obtain ⟨rest, eof, e⟩ := searchPage_limited V fp ⟨b, scope, (0 : Nat), m, (0 : Nat), false, s, attrs, []⟩ (by show (m : Int) > 0; omega) _ 0 hfine
  have ht : toU32 (m : Int) = m % 2 ^ 32 := by unfold toU32; omega
  have hpg : pagingOf ⟨b, scope, (0 : Nat), m, (0 : Nat), false, s, attrs, []⟩ = none := rfl
  dsimp only at e
  rw [ht, Nat.sub_zero] at e
  unfold ldifSearch
  dsimp only
  rw [if_neg (by simp [hv]), hi]
  dsimp only
  rw [if_neg (by simp [hb]), hpg]
  simp only [pageSource, hc, Option.map_none, e]
  simp [ldifOut]
  rfl

/-- The loop does not look at the controls. -/
theorem searchPage_controls (V : Env) (fp : Packet) (r : SearchReq) (cs : List Control) (paging : Option Nat) : ∀ (l : List LEntry) (count : Nat),
    searchPage V fp { r with controls := cs } paging count l = searchPage V fp r paging count l
  | [], _ => rfl
  | x :: xs, count => by
    rw [searchPage, searchPage]
    simp only [searchPage_controls V fp r cs paging xs]

/-- The search looks at the controls for the paging control only. -/
theorem ldifSearch_controls (bound : Str) (r : SearchReq) (cs : List Control) (st : LdifSt) (h : pagingOf { r with controls := cs } = pagingOf r) :
    ldifSearch V W cfg bound { r with controls := cs } st = ldifSearch V W cfg bound r st := by
  unfold ldifSearch
  simp only [h, searchPage_controls]

/-- Controls that cannot be decoded are left out, the others are kept in order. -/
theorem decodeControls_append (V : Env) (ps qs : List Packet) (h : ∀ p ∈ ps, (∃ e, V.control p = .err e) ∨ ∃ c, V.control p = .ok c) :
    ∃ cs, decodeControls V (ps ++ qs) = (decodeControls V qs).bind (fun ds => .ok (cs ++ ds)) ∧ ∀ c ∈ cs, ∃ p ∈ ps, V.control p = .ok c := by
  induction ps with
  | nil => exact ⟨[], by rw [List.nil_append]; cases decodeControls V qs <;> rfl, by simp⟩
  | cons p ps ih =>
    obtain ⟨cs, e, hcs⟩ := ih fun q hq => h q (by simp [hq])
    rw [List.cons_append, decodeControls, e]
    rcases h p (by simp) with ⟨er, hp⟩ | ⟨c, hp⟩
    · rw [hp]
      exact ⟨cs, rfl, fun c hc => (hcs c hc).imp fun q hq => ⟨by simp [hq.1], hq.2⟩⟩
    · rw [hp]
      refine ⟨c :: cs, by cases decodeControls V qs <;> rfl, fun d hd => ?_⟩
      rcases List.mem_cons.1 hd with rfl | hd
      · exact ⟨p, by simp, hp⟩
      · exact (hcs d hd).imp fun q hq => ⟨by simp [hq.1], hq.2⟩

/-- C41: of several paging controls the first one counts; other controls, before it or after it, are ignored, as are controls that cannot be
decoded. -/
theorem C41_first_control {o : Oracle} {id : Int} {b : Str} {scope m : Nat} {w : Packet} {attrs : List Str} {bound : Str} {st : LdifSt}
    (before after : List Packet) (ctl : Packet) {n : Nat} {k : Str}
    (hb : ∀ p ∈ before, (∃ e, V.control p = .err e) ∨ ∃ t, V.control p = .ok (.other t)) (hc : V.control ctl = .ok (.paging n k))
    (ha : ∀ p ∈ after, (∃ e, V.control p = .err e) ∨ ∃ c, V.control p = .ok c) :
    handlePacket V (ldifSrv V W cfg g stats) o (wMsgC id (wSearch b scope m w attrs) (before ++ ctl :: after)) bound st =
      handlePacket V (ldifSrv V W cfg g stats) o (wMsgC id (wSearch b scope m w attrs) [ctl]) bound st := by
  obtain ⟨cs, e1, h1⟩ := decodeControls_append V before (ctl :: after) fun p hp => (hb p hp).imp (fun h => h) fun ⟨t, h⟩ => ⟨_, h⟩
  obtain ⟨ds, e2, -⟩ := decodeControls_append V after [] ha
  rw [List.append_nil] at e2
  have e3 : decodeControls V (ctl :: after) = .ok (.paging n k :: ds) := by
    rw [decodeControls, hc, e2]
    show Res.ok (.paging n k :: (ds ++ [])) = _
    rw [List.append_nil]
  have e4 : decodeControls V [ctl] = .ok [.paging n k] := by rw [decodeControls, hc]; rfl
  have hcs : ∀ f : Control → Option (Nat × Str), (∀ t, f (.other t) = none) → cs.filterMap f = [] := by
    intro f hf
    rw [List.filterMap_eq_nil_iff]
    intro c hcm
    obtain ⟨p, hp, hpc⟩ := h1 c hcm
    rcases hb p hp with ⟨er, h⟩ | ⟨t, h⟩
    · rw [h] at hpc; cases hpc
    · rw [h] at hpc; cases hpc; exact hf t
  rw [wSearchC_packet, wSearchC_packet, e1, e3, e4]
  show stepSearch V (ldifSrv V W cfg g stats) id bound (wSearch b scope m w attrs) (cs ++ .paging n k :: ds) st = stepSearch V _ id bound _ _ st
  rw [ldif_stepSearch, ldif_stepSearch, wSearch_parse, wSearch_parse]
  cases decompile w with
  | none => rfl
  | some s =>
    dsimp only [Option.map_some]
    refine congrArg _ ?_
    refine ldifSearch_controls (V := V) (W := W) (cfg := cfg) bound ⟨b, scope, (0 : Nat), m, (0 : Nat), false, s, attrs, [.paging n k]⟩ (cs ++ .paging n k :: ds) st ?_
    unfold pagingOf
    dsimp only
    rw [List.filterMap_append, hcs _ (fun _ => rfl)]
    rfl

/-- C62: pages that are not smaller than the size limit are no pages. Such a search is answered with the first `m` entries in one go: the
cookie, known or not, is ignored, none is handed out, and no search is kept open. -/
theorem C62_one_page {o : Oracle} {id : Int} {b : Str} {scope : Nat} {w : Packet} {attrs : List Str} {bound : Str} {st : LdifSt} {full : List Entry}
    (hfull : (handlePacket V (ldifSrv V W cfg g stats) o (wMsg id (wSearch b scope 0 w attrs)) bound st).resps =
      full.map (.entry id) ++ [.searchDone id 0 (some [])]) (m : Nat) (hm : 0 < m) (o' : Oracle) (id' : Int) {ctl : Packet} {n : Nat} {k : Str}
    (hctl : V.control ctl = .ok (.paging n k)) (hn : m % 2 ^ 32 ≤ n) :
    handlePacket V (ldifSrv V W cfg g stats) o' (wMsgC id' (wSearch b scope m w attrs) [ctl]) bound st =
      ⟨(full.take (max 1 (m % 2 ^ 32))).map (.entry id') ++ [.searchDone id' 0 (some [])], .go bound, st⟩ := by
  rw [← C62_limit_partial hfull m hm o' id', wSearchC_packet, wSearch_packet]
  rw [show decodeControls V [ctl] = .ok [.paging n k] by rw [decodeControls, hctl]; rfl]
  dsimp only
  rw [ldif_stepSearch, ldif_stepSearch, wSearch_parse, wSearch_parse]
  cases decompile w with
  | none => rfl
  | some s =>
    dsimp only [Option.map_some]
    refine congrArg _ ?_
    refine ldifSearch_controls (V := V) (W := W) (cfg := cfg) bound ⟨b, scope, (0 : Nat), m, (0 : Nat), false, s, attrs, []⟩ [.paging n k] st ?_
    have ht : toU32 (m : Int) = m % 2 ^ 32 := by unfold toU32; omega
    show (if (m : Int) > 0 ∧ n ≥ toU32 m then none else some (n, k)) = none
    rw [if_pos ⟨by omega, by rw [ht]; exact hn⟩]

/-- The loop of a page that is smaller than the limit does not get to the limit. -/
theorem searchPage_small (V : Env) (fp : Packet) (r : SearchReq) (m : Int) (n : Nat) (hn : n < toU32 m) : ∀ (l : List LEntry) (count : Nat),
    searchPage V fp { r with sizeLimit := m } (some n) count l = searchPage V fp { r with sizeLimit := 0 } (some n) count l
  | [], _ => rfl
  | x :: xs, count => by
    rw [searchPage, searchPage]
    simp only [searchPage_small V fp r m n hn xs]
    by_cases h : count + 1 ≥ n
    · simp [h]
    · have : ¬ count + 1 ≥ toU32 m := by omega
      simp [h, this]

/-- C41, C62: pages that are smaller than the size limit are pages as without size limit. (So the limit does not limit a paged search: all
pages together are all of the result, see `C41_pages_partial`.) -/
theorem C62_paged {o : Oracle} {id : Int} {b : Str} {scope : Nat} {w : Packet} {attrs : List Str} {bound : Str} {st : LdifSt} (m : Nat)
    {ctl : Packet} {n : Nat} {k : Str} (hctl : V.control ctl = .ok (.paging n k)) (hn : n < m % 2 ^ 32) :
    handlePacket V (ldifSrv V W cfg g stats) o (wMsgC id (wSearch b scope m w attrs) [ctl]) bound st =
      handlePacket V (ldifSrv V W cfg g stats) o (wMsgC id (wSearch b scope 0 w attrs) [ctl]) bound st := by
  rw [wSearchC_packet, wSearchC_packet]
  rw [show decodeControls V [ctl] = .ok [.paging n k] by rw [decodeControls, hctl]; rfl]
  dsimp only
  rw [ldif_stepSearch, ldif_stepSearch, wSearch_parse, wSearch_parse]
  cases decompile w with
  | none => rfl
  | some s =>
    dsimp only [Option.map_some]
    refine congrArg _ ?_
    have ht : toU32 (m : Int) = m % 2 ^ 32 := by unfold toU32; omega
    have hp : pagingOf ⟨b, scope, (0 : Nat), m, (0 : Nat), false, s, attrs, [.paging n k]⟩ = some (n, k) := by
      show (if (m : Int) > 0 ∧ n ≥ toU32 m then none else some (n, k)) = _
      rw [if_neg (by rw [ht]; omega)]
    have hp0 : pagingOf ⟨b, scope, (0 : Nat), (0 : Nat), (0 : Nat), false, s, attrs, [.paging n k]⟩ = some (n, k) := rfl
    have hs := fun fp l => searchPage_small V fp ⟨b, scope, (0 : Nat), (0 : Nat), (0 : Nat), false, s, attrs, [.paging n k]⟩ m n (by rw [ht]; exact hn) l 0
    unfold ldifSearch
    rw [hp, hp0]
    simp only [Option.map_some]
    dsimp only at hs
    simp only [hs]
    rfl

end

/-! ## Example and counterexample -/

/-- A limit of one entry. -/
example (o : Oracle) (id : Int) : handlePacket ldEnv (ldifSrvAt ldEnv ldOrd ldCfg 8 false true) o (wMsg id (wSearch b!"ou=People,dc=lg" 2 1 (ctxStr 7 b!"cn") [b!"cn"])) []
    (ldLong none false) = ⟨(ldFull.take 1).map (.entry id) ++ [.searchDone id 0 (some [])], .go [], ldLong none false⟩ :=
  C62_limit_partial ldLong_full 1 (by decide) o id

/-- A page of one entry and a limit of one entry, with a cookie that nobody knows. -/
example (o : Oracle) (id : Int) : handlePacket ldEnv (ldifSrvAt ldEnv ldOrd ldCfg 8 false true) o
    (wMsgC id (wSearch b!"ou=People,dc=lg" 2 1 (ctxStr 7 b!"cn") [b!"cn"]) [ldCtl 1 b!"nobody"]) [] (ldLong none false) =
      ⟨(ldFull.take 1).map (.entry id) ++ [.searchDone id 0 (some [])], .go [], ldLong none false⟩ :=
  C62_one_page ldLong_full 1 (by decide) o id (n := 1) (k := b!"nobody") (by decide +kernel) (by decide)

/-- A page of one entry and a limit of two, with a second paging control. -/
example (o : Oracle) (id : Int) : handlePacket ldEnv (ldifSrvAt ldEnv ldOrd ldCfg 8 false true) o
    (wMsgC id (wSearch b!"ou=People,dc=lg" 2 2 (ctxStr 7 b!"cn") [b!"cn"]) ([] ++ ldCtl 1 [] :: [ldCtl 3 b!"nobody"])) [] (ldLong none false) =
      handlePacket ldEnv (ldifSrvAt ldEnv ldOrd ldCfg 8 false true) o
        (wMsgC id (wSearch b!"ou=People,dc=lg" 2 0 (ctxStr 7 b!"cn") [b!"cn"]) [ldCtl 1 []]) [] (ldLong none false) :=
  (C41_first_control [] [ldCtl 3 b!"nobody"] (ldCtl 1 []) (n := 1) (k := []) nofun (by decide +kernel) (fun p hp => by
    rw [List.mem_singleton.1 hp]; exact Or.inr ⟨.paging 3 b!"nobody", by decide +kernel⟩)).trans (C62_paged 2 (n := 1) (k := []) (by decide +kernel) (by decide))

/-- C62 fails: there are two entries, the limit is one, and the result is success (0) instead of sizeLimitExceeded (4). -/
theorem C62_exceeded_fails : entriesOf (handlePacket ldEnv (ldifSrvAt ldEnv ldOrd ldCfg 8 false true) toyOracle (wMsg 7 ldSearchCn) [] (ldLong none false)).resps = ldFull ∧
    (handlePacket ldEnv (ldifSrvAt ldEnv ldOrd ldCfg 8 false true) toyOracle (wMsg 7 (wSearch b!"ou=People,dc=lg" 2 1 (ctxStr 7 b!"cn") [b!"cn"])) []
      (ldLong none false)).resps = (ldFull.take 1).map (.entry 7) ++ [.searchDone 7 0 (some [])] := by decide +kernel

/-- C62 fails: a limit of 2^32 entries limits to one. -/
theorem C62_wrap_fails : (handlePacket ldEnv (ldifSrvAt ldEnv ldOrd ldCfg 8 false true) toyOracle
    (wMsg 7 (wSearch b!"ou=People,dc=lg" 2 4294967296 (ctxStr 7 b!"cn") [b!"cn"])) [] (ldLong none false)).resps =
      (ldFull.take 1).map (.entry 7) ++ [.searchDone 7 0 (some [])] ∧ ldFull.length = 2 := by decide +kernel

end Idm
