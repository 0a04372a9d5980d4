import Verif.Props.Session
import Verif.Props.Options
/-!
# C126: a connection ends when the client ends it
-/
namespace Idm

section
variable {σ : Type} {V : Env}

theorem reply_kept (id : Int) (tag : Nat) (bound : Str) (x : Res Nat × σ) : (reply id tag bound x).next ≠ .closed := by
  obtain ⟨r, st⟩ := x
  cases r <;> simp [reply]

theorem stepExtended_kept (srv : Srv σ) (o : Oracle) (id : Int) (bound : Str) (req : Packet) (st : σ) : (stepExtended V srv o id bound req st).next ≠ .closed := by
  unfold stepExtended
  obtain ⟨r, st'⟩ := handleExtended V srv o bound req st
  cases r with
  | ok x => cases x <;> simp
  | err e => simp
  | panic => simp
  | hang => simp

/-- Binds are accepted under names only. -/
def BindsNames (V : Env) (srv : Srv σ) : Prop := ∀ dn pw st f, pick srv.bindFns dn = some f → (f dn pw st).1 = .ok (0, false) → parseNormalize V.C dn ≠ none

theorem handleBind_ok {srv : Srv σ} {req : Packet} {st st' : σ} (h : handleBind srv req st = (.ok 0, st')) :
    ∃ d dn, req.kids[1]? = some d ∧ d.str? = some dn ∧ ∃ f pw, pick srv.bindFns dn = some f ∧ (f dn pw st).1 = .ok (0, false) := by
  unfold handleBind at h
  have hb : bindBody srv req st = (.ok 0, st') := by
    generalize bindBody srv req st = y at h
    obtain ⟨r, s⟩ := y
    cases r with
    | panic => simp [rcOperationsError] at h
    | ok c => exact h
    | err e => exact h
    | hang => exact h
  unfold bindBody at hb
  cases h0 : req.kids[0]? with
  | none => rw [h0] at hb; simp at hb
  | some v =>
    rw [h0] at hb
    dsimp only at hb
    cases hv : v.int? with
    | none => rw [hv] at hb; simp [rcProtocolError] at hb
    | some ver =>
      rw [hv] at hb
      dsimp only at hb
      by_cases h3 : ver ≠ 3
      · rw [if_pos h3] at hb; simp [rcInappropriateAuthentication] at hb
      rw [if_neg h3] at hb
      cases h1 : req.kids[1]? with
      | none => rw [h1] at hb; simp at hb
      | some d =>
        rw [h1] at hb
        dsimp only at hb
        cases hd : d.str? with
        | none => rw [hd] at hb; simp [rcProtocolError] at hb
        | some dn =>
          rw [hd] at hb
          dsimp only at hb
          refine ⟨d, dn, rfl, hd, ?_⟩
          cases h2 : req.kids[2]? with
          | none => rw [h2] at hb; simp at hb
          | some auth =>
            rw [h2] at hb
            dsimp only at hb
            by_cases ha : auth.tag = authSimple
            · rw [if_pos ha] at hb
              by_cases hl : req.kids.length = 3
              · rw [if_pos hl] at hb
                cases hp : pick srv.bindFns dn with
                | none => rw [hp] at hb; simp at hb
                | some f =>
                  rw [hp] at hb
                  dsimp only at hb
                  refine ⟨f, auth.data, rfl, ?_⟩
                  generalize f dn auth.data st = y at hb
                  obtain ⟨r, s⟩ := y
                  cases r with
                  | ok c =>
                    obtain ⟨c, e⟩ := c
                    cases e with
                    | false => simp at hb; rw [hb.1]
                    | true => simp [rcOperationsError] at hb
                  | err e => simp [rcOperationsError] at hb
                  | panic => simp at hb
                  | hang => simp at hb
              · rw [if_neg hl] at hb; simp [rcInappropriateAuthentication] at hb
            · rw [if_neg ha] at hb; simp [rcInappropriateAuthentication] at hb

theorem stepBind_named (srv : Srv σ) (id : Int) (bound : Str) (req : Packet) (st : σ)
    (hn : ∀ d dn, req.kids[1]? = some d → d.str? = some dn → (∃ f pw, pick srv.bindFns dn = some f ∧ (f dn pw st).1 = .ok (0, false)) →
      parseNormalize V.C dn ≠ none) : (stepBind V srv id bound req st).next ≠ .closed := by
  have key := @handleBind_ok σ srv req st
  unfold stepBind
  generalize handleBind srv req st = y at key
  obtain ⟨r, st'⟩ := y
  cases r with
  | ok code =>
    dsimp only
    by_cases hc : code = rcSuccess
    · subst hc
      rw [if_pos rfl]
      obtain ⟨d, dn, h1, h2, h3⟩ := key rfl
      rw [h1]
      dsimp only
      rw [h2]
      dsimp only
      cases hp : parseNormalize V.C dn with
      | none => exact absurd hp (hn d dn h1 h2 h3)
      | some b => simp
    · rw [if_neg hc]; simp
  | err e => simp
  | panic => simp
  | hang => simp

theorem stepBind_kept {srv : Srv σ} (hs : BindsNames V srv) (id : Int) (bound : Str) (req : Packet) (st : σ) :
    (stepBind V srv id bound req st).next ≠ .closed := by
  exact stepBind_named srv id bound req st fun d dn _ _ ⟨f, pw, h1, h2⟩ => hs dn pw st f h1 h2

/-- Searches that fail do so with a code other than success. -/
def FailsWithCode (srv : Srv σ) : Prop := ∀ base f bound r st sr, pick srv.searchFns base = some f → (f bound r st).1 = .ok sr → sr.err = true → sr.code ≠ 0

theorem stepSearch_kept {srv : Srv σ} (hs : FailsWithCode srv) (id : Int) (bound : Str) (req : Packet) (cs : List Control) (st : σ) :
    (stepSearch V srv id bound req cs st).next = .closed ↔ ∃ code ctl, code ≠ 0 ∧ .searchDone id code ctl ∈ (stepSearch V srv id bound req cs st).resps := by
  have key : ∀ out, (handleSearch V srv bound req cs st).1.2 = .ok out → (out.failed = true ↔ out.code ≠ 0) := by
    intro out h
    unfold handleSearch at h
    cases hp : parseSearchRequest req cs with
    | none => rw [hp] at h; cases h; simp [rcOperationsError]
    | some r =>
      rw [hp] at h
      dsimp only at h
      generalize (if srv.enforce then compile r.filter else some (.mk .universal false 0 .nil [] [])) = q at h
      cases q with
      | none => cases h; simp [rcOperationsError]
      | some fp =>
        dsimp only at h
        cases hf : pick srv.searchFns r.baseDN with
        | none => rw [hf] at h; cases h
        | some f =>
          rw [hf] at h
          dsimp only at h
          have hs' := hs r.baseDN f bound r st
          generalize f bound r st = y at h hs'
          obtain ⟨res, st'⟩ := y
          cases res with
          | err e => cases h
          | panic => cases h
          | hang => cases h
          | ok sr =>
            dsimp only at h
            have hsr := hs' sr hf rfl
            by_cases he : sr.err = true
            · rw [if_pos he] at h
              cases h
              simp [hsr he]
            · rw [if_neg he] at h
              by_cases hen : srv.enforce = true
              · rw [if_pos hen] at h
                generalize searchLoop V.C fp r 0 sr.entries = z at h
                obtain ⟨sent, res⟩ := z
                cases res with
                | ok code => cases h; exact decide_eq_true_iff
                | err e => cases h
                | panic => cases h
                | hang => cases h
              · rw [if_neg hen] at h
                cases h
                simp [rcSuccess]
  unfold stepSearch
  generalize handleSearch V srv bound req cs st = y at key
  obtain ⟨⟨sent, r⟩, st'⟩ := y
  cases r with
  | ok out =>
    have := key out rfl
    dsimp only
    by_cases hf : out.failed = true
    · rw [if_pos hf]
      have hc := this.1 hf
      exact ⟨fun _ => ⟨out.code, out.controls, hc, by simp⟩, fun _ => rfl⟩
    · rw [if_neg hf]
      have hc : out.code = 0 := Classical.byContradiction fun h => hf (this.2 h)
      constructor
      · intro h; cases h
      · rintro ⟨code, ctl, h1, h2⟩
        simp at h2
        exact absurd (h2.1.trans hc) h1
  | err e => simp
  | panic => simp
  | hang => simp

theorem kept_cases {srv : Srv σ} (hs : FailsWithCode srv) (o : Oracle) (p : Packet) (id : Int) (req : Packet) (hm : Message p id req)
    (bound : Str) (st : σ) (hb : req.tag = 0 → (stepBind V srv id bound req st).next ≠ .closed) :
    (req.tag ∈ [0, 6, 8, 10, 12, 23] → (handlePacket V srv o p bound st).next ≠ .closed) ∧
    (req.tag = 3 → ((handlePacket V srv o p bound st).next = .closed ↔
      ∃ code ctl, code ≠ 0 ∧ .searchDone id code ctl ∈ (handlePacket V srv o p bound st).resps)) ∧
    (req.tag ∉ [0, 3, 6, 8, 10, 12, 23] → (∃ r, decodeControls V ((p.kids[2]?.map Packet.kids).getD []) = .ok r) → (handlePacket V srv o p bound st).next = .closed) := by
  obtain ⟨m, more, h1, h2, h3⟩ := hm
  have hi : m.int? = some id := int?_iff.2 h2
  have hmore : p.kids[2]? = more.head? := by rw [h1]; cases more <;> rfl
  rw [hmore]
  unfold handlePacket
  rw [h1]
  dsimp only
  rw [hi]
  dsimp only
  rw [if_neg (by simp [h3])]
  cases hc : decodeControls V ((more.head?.map Packet.kids).getD []) with
  | err e => simp
  | panic => simp
  | hang => simp
  | ok cs =>
    dsimp only
    simp only [appAddRequest, appBindRequest, appCompareRequest, appDelRequest, appExtendedRequest, appModifyDNRequest, appModifyRequest, appSearchRequest]
    refine ⟨fun ht => ?_, fun ht => ?_, fun ht _ => ?_⟩
    · simp only [List.mem_cons, List.not_mem_nil, or_false] at ht
      rcases ht with ht | ht | ht | ht | ht | ht <;> simp only [ht, Nat.reduceEqDiff, if_true, if_false]
      · exact hb ht
      · exact reply_kept _ _ _ _
      · split
        · simp
        · exact reply_kept _ _ _ _
      · exact reply_kept _ _ _ _
      · exact reply_kept _ _ _ _
      · exact stepExtended_kept _ _ _ _ _ _
    · simp only [ht, Nat.reduceEqDiff, if_true, if_false]
      exact stepSearch_kept hs ..
    · simp only [List.mem_cons, List.not_mem_nil, or_false, not_or] at ht
      obtain ⟨t0, t3, t6, t8, t10, t12, t23⟩ := ht
      simp only [t0, t3, t6, t8, t10, t12, t23, if_false]
      split <;> rfl

end

section
variable {V : Env} {G : GobEnv} {cfg : BoltCfg} {n : Nat} {stats : Bool}

theorem bolt_bindsNames (hC : V.C.Lawful) : BindsNames V (boltSrv V G cfg n stats) := by
  intro dn pw st f hf h hn
  simp only [boltSrv, pick_single, Option.some.injEq] at hf
  subst hf
  unfold boltBind at h
  split at h
  · simp [rcInvalidCredentials] at h
  split at h
  · rename_i hd
    rw [hd.1] at hn
    have := parseDN_render hC [] (by simp [NameOk]) (by simp [EndOk])
    simp only [render, renderFrom] at this
    simp [parseNormalize, this] at hn
  rw [hn] at h
  simp [rcInvalidDNSyntax] at h

theorem bolt_failsWithCode : FailsWithCode (boltSrv V G cfg n stats) := by
  intro base f bound r st sr hf h he
  simp only [boltSrv, pick_single, Option.some.injEq] at hf
  subst hf
  unfold boltSearchFn at h
  split at h
  · cases h; cases he
  · cases h; cases he
  · cases h
  · cases h

/-- C126, what holds on the database server, for every message: binds, writes and extended requests, refused or not, malformed or not, never end the
connection; a search ends it exactly if it is answered with another code than success; and all other requests end it (if their controls can be read).
Missing: searches that fail, abandon requests and compare requests should leave it open. -/
theorem C126_kept_partial (hC : V.C.Lawful) (o : Oracle) (p : Packet) (id : Int) (req : Packet) (hm : Message p id req) (bound : Str) (db : Db) :
    let out := handlePacket V (boltSrv V G cfg n stats) o p bound db
    (req.tag ∈ [0, 6, 8, 10, 12, 23] → out.next ≠ .closed) ∧
    (req.tag = 3 → (out.next = .closed ↔ ∃ code ctl, code ≠ 0 ∧ .searchDone id code ctl ∈ out.resps)) ∧
    (req.tag ∉ [0, 3, 6, 8, 10, 12, 23] → (∃ r, decodeControls V ((p.kids[2]?.map Packet.kids).getD []) = .ok r) → out.next = .closed) :=
  kept_cases bolt_failsWithCode o p id req hm bound db fun _ => stepBind_kept (bolt_bindsNames hC) _ _ _ _

end

section
variable {V : Env} {W : WalkOrd} {cfg : LdifCfg} {g : Nat} {stats : Bool}

theorem ldif_failsWithCode : FailsWithCode (ldifSrv V W cfg g stats) := by
  intro base f bound r st sr hf h he
  simp only [ldifSrv, pick_single, Option.some.injEq] at hf
  subst hf
  unfold ldifSearch at h
  dsimp only at h
  repeat' split at h
  all_goals first
    | (cases h; simp [rcInsufficientAccessRights, rcUnwillingToPerform, rcOperationsError]; done)
    | (cases h; assumption)
    | (cases h; cases he)
    | cases h

/-- C126, what holds on the server with LDIF files: the same, if the name given in a bind is one. -/
theorem C126_ldif_kept_partial (o : Oracle) (p : Packet) (id : Int) (req : Packet) (hm : Message p id req) (bound : Str) (st : LdifSt)
    (hb : req.tag = 0 → ∀ d dn, req.kids[1]? = some d → d.val = .str dn → parseDN V.C dn ≠ none) :
    let out := handlePacket V (ldifSrv V W cfg g stats) o p bound st
    (req.tag ∈ [0, 6, 8, 10, 12, 23] → out.next ≠ .closed) ∧
    (req.tag = 3 → (out.next = .closed ↔ ∃ code ctl, code ≠ 0 ∧ .searchDone id code ctl ∈ out.resps)) ∧
    (req.tag ∉ [0, 3, 6, 8, 10, 12, 23] → (∃ r, decodeControls V ((p.kids[2]?.map Packet.kids).getD []) = .ok r) → out.next = .closed) :=
  kept_cases ldif_failsWithCode o p id req hm bound st fun h0 => stepBind_named _ _ _ _ _ fun d dn h1 h2 _ h3 => by
    refine hb h0 d dn h1 (str?_iff.1 h2) ?_
    simpa [parseNormalize] using h3

end

/-- A server with LDIF files that loaded a record whose name is none. -/
def keptRecs : List (Option Entry) := [some ⟨b!"ann,dc=lg", [⟨b!"userPassword", [b!"pw"]⟩]⟩]

/-- C126 fails: an abandon request ends the connection, though RFC 4511 (4.11) says that it is not answered and otherwise has no effect on it. -/
theorem C126_abandon_fails : (handlePacket toyEnv opSrv toyOracle (wMsg 7 (.mk .application false 16 (.int 5) [5] [])) [] opDb).next = .closed := by decide +kernel

/-- C126 fails: so do compare requests and searches that find more than the size limit allows. -/
theorem C126_compare_fails : (handlePacket toyEnv opSrv toyOracle (wMsg 7 (wReq 14 [])) [] opDb).next = .closed ∧
    (handlePacket toyEnv opSrv toyOracle (wMsg 7 (wSearch b!"dc=lg" 2 1 (ctxStr 7 b!"uid") [])) [] opDb).next = .closed := by decide +kernel

/-- C126 fails on the server with LDIF files: a bind with the right password under a name of a record that is no DN is not answered, and ends the
connection. -/
theorem C126_bind_fails : LdifReach ldEnv ldOrd ldCfg 8 false [keptRecs] (ldStart keptRecs) ∧
    (handlePacket ldEnv ldSrv toyOracle (wMsg 7 (wBind b!"ann,dc=lg" b!"pw")) [] (ldStart keptRecs)).resps = [] ∧
    (handlePacket ldEnv ldSrv toyOracle (wMsg 7 (wBind b!"ann,dc=lg" b!"pw")) [] (ldStart keptRecs)).next = .closed :=
  ⟨.start _ _ _ _ _ _ (ldMemI_loads (by decide +kernel)), by decide +kernel, by decide +kernel⟩

/-- C126 applies to a bind, a search that fails and an unbind request -/
example := fun req ht => C126_kept_partial (V := toyEnv) (G := gobInstance) (cfg := toyCfg) (n := 8) (stats := false) asciiCase_lawful toyOracle (wMsg 7 req) 7 req
  ⟨berInt 7, [], rfl, rfl, ht⟩ [] opDb

example : (wBind b!"uid=ann,dc=lg" b!"wrong").cls = .application ∧ (wBind b!"uid=ann,dc=lg" b!"wrong").tag = 0 ∧
    (handlePacket toyEnv opSrv toyOracle (wMsg 7 (wBind b!"uid=ann,dc=lg" b!"wrong")) [] opDb).next = .go [] ∧
    (handlePacket toyEnv opSrv toyOracle (wMsg 7 (.mk .application false 2 .nil [] [])) [] opDb).next = .closed := by decide +kernel

example := C126_ldif_kept_partial (V := ldEnv) (W := ldOrd) (cfg := ldCfg) (g := 8) (stats := false) toyOracle (wMsg 7 (wBind b!"uid=ann,ou=people,dc=lg" b!"pw")) 7
  (wBind b!"uid=ann,ou=people,dc=lg" b!"pw") ⟨berInt 7, [], rfl, rfl, rfl⟩ [] (ldStart ldRecs)
  (by intro _ d dn h1 h2; cases h1; cases h2; decide +kernel)

end Idm
