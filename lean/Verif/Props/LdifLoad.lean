import Verif.Props.LdifBind
/-!
# C45, C46: loading and reloading LDIF data
-/
namespace Idm

section
variable {V : Env} {W : WalkOrd} {cfg : LdifCfg} {g : Nat} {stats : Bool}

/-! ## C45 -/

theorem openLdif_some {norm : Str} {recs : Option (List (Option Entry))} {m : LMem} (h : openLdif V cfg norm recs = some m) :
    ∃ rs, recs = some rs ∧ treeFromLDIF V.C cfg.idx rs = some m := by
  unfold openLdif at h
  split at h
  · cases h
  · cases recs with
    | none => cases h
    | some rs => exact ⟨rs, rfl, h⟩

/-- C45: a reload that fails leaves the data in service: at most the config users have changed, and without a config file nothing. -/
theorem C45_failed_keeps {confRecs recs : Option (List (Option Entry))} {st st' : LdifSt} (h : reloadLdif V cfg confRecs recs st = (true, st')) :
    (∃ m, st' = { st with conf := m }) ∧ (cfg.conf = false → st' = st) := by
  have hmain : ∀ st0 st1, reloadMain V cfg recs st0 = (true, st1) → st1 = st0 := by
    intro st0 st1 h
    unfold reloadMain at h
    split at h <;> cases h
    rfl
  unfold reloadLdif at h
  split at h
  · rename_i hc
    refine ⟨?_, fun h0 => by rw [h0] at hc; cases hc⟩
    split at h
    · cases h; exact ⟨st.conf, rfl⟩
    · rename_i m _
      exact ⟨m, hmain _ _ h⟩
  · have := hmain _ _ h
    exact ⟨⟨st.conf, by rw [this]⟩, fun _ => this⟩

/-- C45: after a reload that fails, every search gets the answer it would have got without. -/
theorem C45_failed_same_answers {confRecs recs : Option (List (Option Entry))} {st st' : LdifSt} (h : reloadLdif V cfg confRecs recs st = (true, st'))
    (o : Oracle) (p : Packet) (bound : Str) (hp : ∃ id req, Message p id req ∧ req.tag = 3) :
    (handlePacket V (ldifSrv V W cfg g stats) o p bound st').resps = (handlePacket V (ldifSrv V W cfg g stats) o p bound st).resps := by
  obtain ⟨⟨m, rfl⟩, -⟩ := C45_failed_keeps h
  exact (C47_search_ignores_conf o p bound st m hp).1

/-- C45: a reload that succeeds puts the new data in service, all of it. Paged searches that have begun go on. -/
theorem C45_succeeds_replaces {confRecs recs : Option (List (Option Entry))} {st st' : LdifSt} (h : reloadLdif V cfg confRecs recs st = (false, st')) :
    st'.pagings = st.pagings ∧ (∃ rs, recs = some rs ∧ treeFromLDIF V.C cfg.idx rs = some st'.main) ∧
    (cfg.conf = true → ∃ rs, confRecs = some rs ∧ treeFromLDIF V.C cfg.idx rs = some st'.conf) ∧ (cfg.conf = false → st'.conf = st.conf) := by
  have hmain : ∀ st0 st1, reloadMain V cfg recs st0 = (false, st1) →
      ∃ m, st1 = { st0 with main := m } ∧ ∃ rs, recs = some rs ∧ treeFromLDIF V.C cfg.idx rs = some m := by
    intro st0 st1 h
    unfold reloadMain at h
    split at h
    · cases h
    · rename_i m hm
      cases h
      exact ⟨m, rfl, openLdif_some hm⟩
  unfold reloadLdif at h
  split at h
  · rename_i hc
    split at h
    · cases h
    · rename_i m hm
      obtain ⟨m', rfl, h'⟩ := hmain _ _ h
      exact ⟨rfl, h', fun _ => openLdif_some hm, fun h0 => by rw [h0] at hc; cases hc⟩
  · rename_i hc
    obtain ⟨m', rfl, h'⟩ := hmain _ _ h
    exact ⟨rfl, h', fun h0 => absurd h0 hc, fun _ => rfl⟩

/-- C45: a server that has started can be reloaded again whenever the files can be read and contain no two entries of the same name; the
hypothesis holds if it has started (`newLdifCfg` and the same test at start). -/
theorem C45_reload_succeeds_iff (hb : V.C.eqFold cfg.optBase cfg.base = true) (hconf : cfg.conf = false)
    (confRecs recs : Option (List (Option Entry))) (st : LdifSt) :
    (reloadLdif V cfg confRecs recs st).1 = false ↔ ∃ rs, recs = some rs ∧ ((entriesIn rs).map fun r => V.C.lower r.dn).Nodup := by
  unfold reloadLdif reloadMain openLdif
  simp only [hconf, hb, Bool.false_eq_true, if_false, Bool.not_true]
  cases recs with
  | none => simp
  | some rs =>
    have := (treeFromLDIF_spec V.C cfg.idx rs).1
    simp only [Option.bind_some]
    cases hm : treeFromLDIF V.C cfg.idx rs with
    | none =>
      rw [hm] at this
      simp only [reduceCtorEq, exists_false, false_iff] at this
      simpa [entriesIn] using this
    | some m =>
      rw [hm] at this
      have := this.1 ⟨m, rfl⟩
      simpa [entriesIn] using this

/-- C45: the states after reloads, failed or not, are among those the theorems about reachable states speak of. -/
theorem C45_reload_reachable {versions} {st st' : LdifSt} (h : LdifReach V W cfg g stats versions st)
    {confRecs recs : Option (List (Option Entry))} {failed : Bool} (hr : reloadLdif V cfg confRecs recs st = (failed, st')) :
    LdifReach V W cfg g stats (if failed then versions else recs.toList ++ versions) st' := by
  cases failed with
  | true =>
    obtain ⟨⟨m, rfl⟩, -⟩ := C45_failed_keeps hr
    exact .conf _ _ _ h
  | false =>
    obtain ⟨-, ⟨rs, rfl, hm⟩, -⟩ := C45_succeeds_replaces hr
    have e : st' = { ({ st with conf := st'.conf } : LdifSt) with main := st'.main } := by
      unfold reloadLdif reloadMain at hr
      repeat' split at hr
      all_goals cases hr
      all_goals rfl
    rw [e]
    exact .reload _ _ rs _ (.conf _ _ _ h) hm

/-- The entry is part of what clients may see of the entry `r` of the file. -/
def PartOf (C : CaseEnv) (e r : Entry) : Prop := e.dn = (publicView C r).dn ∧ ∀ a ∈ e.attrs, a ∈ (publicView C r).attrs

theorem fromVersion_part {versions} {l : List LEntry} (hl : FromVersion V.C cfg versions l) : ∃ v ∈ versions, ∀ attrs, ∀ x ∈ l, ∃ r ∈ entriesIn v,
    PartOf V.C (filterAttributes V.C attrs x.visible) r := by
  obtain ⟨-, -, v, hv, m, hm, htree⟩ := hl
  refine ⟨v, hv, fun attrs x hx => ?_⟩
  have hx := htree x hx
  rw [((treeFromLDIF_spec V.C cfg.idx v).2 m hm).1] at hx
  obtain ⟨q, hq, rfl⟩ := List.mem_map.1 hx
  obtain ⟨i, -, e⟩ := numbered_build V.C v 0 q hq
  have hent : q.2 ∈ entriesIn v := by
    rw [show entriesIn v = (numbered V.C 0 v).map (·.2) from (numbered_snd V.C v 0).symm]
    exact List.mem_map.2 ⟨q, hq, rfl⟩
  refine ⟨q.2, hent, ?_, fun a ha => ?_⟩
  · rw [(C31_selected attrs q.1.visible ⟨[], []⟩).1, e]; rfl
  · have ha := ((C31_selected attrs q.1.visible a).2.1 ha).1
    rw [e] at ha
    exact ha

/-- C45: all entries of a response come from one version of the data, whatever the packet and whatever happened before. -/
theorem C45_one_version (hW : W.Lawful) {versions} {st : LdifSt} (h : LdifReach V W cfg g stats versions st) (o : Oracle) (p : Packet) (bound : Str) :
    ∃ v ∈ versions, ∀ e ∈ entriesOf (handlePacket V (ldifSrv V W cfg g stats) o p bound st).resps, ∃ r ∈ entriesIn v, PartOf V.C e r := by
  rcases ldif_answer hW h o p bound with h' | ⟨id, req, controls, r, fp, l, -, -, -, hl, -, -, -, he⟩
  · obtain ⟨⟨recs, older, rfl, -⟩, -⟩ := reach_inv hW h
    exact ⟨recs, by simp, by rw [h']; simp⟩
  · obtain ⟨v, hv, k⟩ := fromVersion_part hl
    refine ⟨v, hv, fun e hm => ?_⟩
    rw [he] at hm
    obtain ⟨x, hx, rfl⟩ := List.mem_map.1 hm
    exact k r.attrs x (List.mem_filter.1 hx).1

theorem ldifSearch_unpaged (bound : Str) (r : SearchReq) (hr : r.controls = []) (st : LdifSt) :
    (ldifSearch V W cfg bound r { st with pagings := [] }).1 = (ldifSearch V W cfg bound r st).1 := by
  have hp : pagingOf r = none := by simp [pagingOf, hr]
  unfold ldifSearch
  dsimp only
  rw [hp]
  simp only [pageSource, Option.isSome_none, Bool.false_eq_true, if_false]
  split
  · rfl
  · cases indexFilter V.C r.filter with
    | ok fs =>
      dsimp only
      split
      · rfl
      · cases compile r.filter with
        | none => rfl
        | some fp =>
          dsimp only
          split
          all_goals first
            | rfl
            | skip
          split <;> rfl
    | _ => rfl

theorem parseSearchRequest_controls {req : Packet} {cs : List Control} {r : SearchReq} (h : parseSearchRequest req cs = some r) : r.controls = cs := by
  unfold parseSearchRequest at h
  split at h
  · simp only [Option.bind_eq_bind, Option.bind_eq_some_iff] at h
    obtain ⟨_, -, _, -, _, -, _, -, _, -, h⟩ := h
    split at h
    all_goals
      simp only [Option.bind_eq_some_iff] at h
      obtain ⟨_, -, _, -, _, -, h⟩ := h
      cases h
      rfl
  · cases h

theorem ldif_unpaged (o : Oracle) (p : Packet) (bound : Str) (st : LdifSt) (hp : p.kids.length ≤ 2) :
    entriesOf (handlePacket V (ldifSrv V W cfg g stats) o p bound { st with pagings := [] }).resps =
      entriesOf (handlePacket V (ldifSrv V W cfg g stats) o p bound st).resps := by
  by_cases hs : ∃ id req, Message p id req ∧ req.tag = 3
  · obtain ⟨id, req, ⟨mp, more, hk, hid, hcls⟩, ht⟩ := hs
    have hmore : more = [] := by
      rw [hk] at hp
      cases more with
      | nil => rfl
      | cons x xs => simp at hp
    subst hmore
    have hid := int?_iff.2 hid
    have hpk : ∀ st, handlePacket V (ldifSrv V W cfg g stats) o p bound st = stepSearch V (ldifSrv V W cfg g stats) id bound req [] st := by
      intro st
      simp [handlePacket, hk, hid, hcls, ht, decodeControls, appAddRequest, appBindRequest, appCompareRequest, appDelRequest, appExtendedRequest,
        appModifyDNRequest, appModifyRequest, appSearchRequest]
    rw [hpk, hpk, ldif_stepSearch, ldif_stepSearch]
    cases hr : parseSearchRequest req [] with
    | none => rfl
    | some r =>
      have hc := parseSearchRequest_controls hr
      have := ldifSearch_unpaged (V := V) (W := W) (cfg := cfg) bound r hc st
      have key : ∀ x y : Res SearchRes × LdifSt, x.1 = y.1 → entriesOf (ldifOut id bound x).resps = entriesOf (ldifOut id bound y).resps := by
        rintro ⟨res, s1⟩ ⟨res', s2⟩ h
        cases h
        cases res with
        | ok sr => unfold ldifOut; dsimp only; split <;> rfl
        | _ => rfl
      exact key _ _ this
  · have : ∀ st, entriesOf (handlePacket V (ldifSrv V W cfg g stats) o p bound st).resps = [] := by
      intro st
      rcases ldif_packet_cases (V := V) (W := W) (cfg := cfg) (g := g) (stats := stats) o p bound st with ⟨id, req, controls, r, h1, h2, -⟩ | ⟨-, h⟩
      · exact absurd ⟨id, req, h1, h2⟩ hs
      · exact h
    rw [this, this]

/-- C45: a search without controls sees the data loaded last and nothing else. -/
theorem C45_current_version (hW : W.Lawful) {recs older} {st : LdifSt} (h : LdifReach V W cfg g stats (recs :: older) st) (o : Oracle) (p : Packet)
    (hp : p.kids.length ≤ 2) (bound : Str) :
    ∀ e ∈ entriesOf (handlePacket V (ldifSrv V W cfg g stats) o p bound st).resps, ∃ r ∈ entriesIn recs, PartOf V.C e r := by
  rw [← ldif_unpaged o p bound st hp]
  obtain ⟨⟨recs', older', e, hm⟩, -⟩ := reach_inv hW h
  cases e
  rcases ldif_answer_of (V := V) (cfg := cfg) (g := g) (stats := stats) hW (recs := recs) (older := []) (st := { st with pagings := [] }) rfl hm (by simp) o p bound
    with h' | ⟨id, req, controls, r, fp, l, -, -, -, hl, -, -, -, he⟩
  · rw [h']; simp
  · obtain ⟨v, hv, k⟩ := fromVersion_part hl
    simp only [List.mem_singleton] at hv
    subst hv
    intro e hm
    rw [he] at hm
    obtain ⟨x, hx, rfl⟩ := List.mem_map.1 hm
    exact k r.attrs x (List.mem_filter.1 hx).1

/-- The data without `bob`, whose name `Ann` has taken. -/
def ldNew : List (Option Entry) := [some ⟨b!"dc=lg", [⟨b!"objectClass", [b!"domain"]⟩]⟩, some ⟨b!"uid=ann,dc=lg", [⟨b!"cn", [b!"Bob"]⟩]⟩]

/-- a reload between two pages: the old version goes on, a new search sees the new one; a reload of data with a duplicate fails -/
example : let page1 := ldPage (ldStart ldRecs) b!"dc=lg" (ctxStr 7 b!"cn") 1 []
    let st := (reloadLdif ldEnv ldCfg (some ldConfRecs) (some ldNew) page1.st).2
    (entriesOf page1.resps).map (·.dn) = [b!"uid=ann,ou=people,dc=lg"] ∧
    (reloadLdif ldEnv ldCfg (some ldConfRecs) (some ldNew) page1.st).1 = false ∧
    (entriesOf (ldPage st b!"dc=lg" (ctxStr 7 b!"cn") 1 [0]).resps).map (·.dn) = [b!"uid=bob,ou=people,dc=lg"] ∧
    (entriesOf (ldPage st b!"dc=lg" (ctxStr 7 b!"cn") 1 []).resps).map (·.dn) = [b!"uid=ann,dc=lg"] ∧
    (reloadLdif ldEnv ldCfg (some ldConfRecs) (some (ldRecs ++ [some ⟨b!"UID=BOB,ou=people,dc=lg", []⟩])) page1.st).1 = true ∧
    (reloadLdif ldEnv { ldCfg with conf := false } none (some (ldRecs ++ [some ⟨b!"UID=BOB,ou=people,dc=lg", []⟩])) page1.st).1 = true := by
  decide +kernel

/-- C45 fails with a config file: a reload that reports failure has already replaced the config users, and a bind that was refused before is
accepted. -/
theorem C45_middleware_fails : ∃ (confRecs recs : Option (List (Option Entry))) (p : Packet),
    let r := reloadLdif ldEnv ldCfg confRecs recs (ldStart ldRecs)
    r.1 = true ∧ (handlePacket ldEnv ldSrv toyOracle p [] (ldStart ldRecs)).resps = [.result 7 1 49] ∧
    (handlePacket ldEnv ldSrv toyOracle p [] r.2).resps = [.result 7 1 0] :=
  ⟨some [some ⟨b!"uid=bob,ou=people,dc=lg", [⟨b!"userPassword", [b!"new"]⟩]⟩], none,
    wMsg 7 (wBind b!"uid=bob,ou=people,dc=lg" b!"new"), by decide +kernel⟩

/-! ## C46 -/

/-- C46: loading fails exactly if two entries have names that are equal in lower case. -/
theorem C46_duplicates_rejected (C : CaseEnv) (idx : IdxAttrs) (recs : List (Option Entry)) :
    treeFromLDIF C idx recs = none ↔ ¬ ((entriesIn recs).map fun r => C.lower r.dn).Nodup := by
  have := (treeFromLDIF_spec C idx recs).1
  rw [show entriesIn recs = recs.filterMap id from rfl, ← this]
  cases treeFromLDIF C idx recs <;> simp

/-- C46 for names written plainly: loading fails if two entries have the same name, in the sense of comparing types and values up to case. -/
theorem C46_same_name_rejected {C : CaseEnv} (hC : C.Lawful) (idx : IdxAttrs) (as bs cs : List (Option Entry)) (r r' : Entry) {ns ns' : List AVA}
    (hr : PlainDN C r.dn ns) (hr' : PlainDN C r'.dn ns') (hag : NamesAgree C ns ns')
    (hs : ∃ n n', parseDN C r.dn = some n ∧ parseDN C r'.dn = some n' ∧ SameDn C n n') :
    treeFromLDIF C idx (as ++ some r :: bs ++ some r' :: cs) = none := by
  obtain ⟨n, n', h1, h2, h3⟩ := hs
  rw [parse_plain hC hr] at h1
  rw [parse_plain hC hr'] at h2
  cases h1
  cases h2
  rw [sameDn_plain hC hr.2 hr'.2 hag.values] at h3
  have e : C.lower r.dn = C.lower r'.dn := by
    rw [(lower_plain hC hr).1, (lower_plain hC hr').1, h3]
  rw [C46_duplicates_rejected]
  simp only [entriesIn, List.filterMap_append, List.filterMap_cons, id, List.map_append, List.map_cons, List.append_assoc, List.cons_append]
  intro h
  rw [List.nodup_append] at h
  have := (List.nodup_cons.1 h.2.1).1
  simp [e] at this

/-- C46 fails for names with blanks: the two texts name the same entry, and both are loaded. -/
theorem C46_spacing_fails : ∃ (r r' : Entry) (n n' : DN), parseDN asciiCase r.dn = some n ∧ parseDN asciiCase r'.dn = some n' ∧
    dnEqFold asciiCase n n' = true ∧ (treeFromLDIF asciiCase defaultIdx [some r, some r']).isSome = true :=
  ⟨⟨b!"uid=ann,dc=lg", []⟩, ⟨b!"uid=ann, dc=lg", []⟩, _, _, rfl, rfl, by decide +kernel, by decide +kernel⟩

example : treeFromLDIF asciiCase defaultIdx [some ⟨b!"uid=ann,dc=lg", []⟩, none, some ⟨b!"UID=Ann,DC=LG", []⟩] = none :=
  C46_same_name_rejected asciiCase_lawful _ [] [none] [] _ _ (ns := [⟨b!"uid", b!"ann"⟩, ⟨b!"dc", b!"lg"⟩]) (ns' := [⟨b!"UID", b!"Ann"⟩, ⟨b!"DC", b!"LG"⟩])
    (by decide +kernel) (by decide +kernel) (by decide +kernel) ⟨_, _, rfl, rfl, (dnEqFold_iff _ _).1 (by decide +kernel)⟩

end
end Idm
