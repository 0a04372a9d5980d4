import Verif.Proofs.LdifBlind
import Verif.Spec.LdifToy
import Verif.Props.BoltBind
import Verif.Props.BoltWrite
import Verif.Props.BoltPw
/-!
# C37, C40, C43: what the LDIF server reveals and refuses
-/
namespace Idm

section
variable {V : Env} {W : WalkOrd} {cfg : LdifCfg} {g : Nat} {stats : Bool}

/-! ## C40 -/

/-- C40: no entry occurs twice in a response, whatever the packet and whatever happened before. -/
theorem C40_no_duplicates (hW : W.Lawful) {versions} {st : LdifSt} (h : LdifReach V W cfg g stats versions st) (o : Oracle) (p : Packet)
    (bound : Str) : ((entriesOf (handlePacket V (ldifSrv V W cfg g stats) o p bound st).resps).map (·.dn)).Nodup := by
  rcases ldif_answer hW h o p bound with h | ⟨id, req, controls, r, fp, l, -, -, -, hl, -, -, -, he⟩
  · rw [h]; simp
  · rw [he, List.map_map]
    have e : ((fun e : Entry => e.dn) ∘ fun x : LEntry => filterAttributes V.C r.attrs x.visible) = fun x => x.dn := by
      funext x
      exact (C31_selected r.attrs x.visible ⟨[], []⟩).1
    rw [e]
    exact hl.1.sublist (List.filter_sublist.map _)

/-- an answer with two entries that are both found twice in the indexes -/
example : (ldReq [] (wSearch b!"dc=lg" 2 0 (.mk .context true 1 .nil [] [ctxStr 7 b!"cn", ctxStr 7 b!"CN"]) [b!"1.1"])).resps =
    [.entry 7 ⟨b!"uid=ann,ou=people,dc=lg", []⟩, .entry 7 ⟨b!"uid=bob,ou=people,dc=lg", []⟩, .searchDone 7 0 (some [])] := by decide +kernel

/-! ## C37 -/

/-- C37, first half: no attribute userPassword (in any case) is sent, whatever the packet and whatever happened before. -/
theorem C37_never_sent (hW : W.Lawful) {versions} {st : LdifSt} (h : LdifReach V W cfg g stats versions st) (o : Oracle) (p : Packet)
    (bound : Str) : ∀ e ∈ entriesOf (handlePacket V (ldifSrv V W cfg g stats) o p bound st).resps, ∀ a ∈ e.attrs, V.C.lower a.name ≠ b!"userpassword" := by
  rcases ldif_answer hW h o p bound with h | ⟨id, req, controls, r, fp, l, -, -, -, hl, -, -, -, he⟩
  · rw [h]; simp
  · rw [he]
    intro e hm a ha
    obtain ⟨x, hx, rfl⟩ := List.mem_map.1 hm
    obtain ⟨-, -, v, -, m, hm, htree⟩ := hl
    have hx := htree x (List.mem_filter.1 hx).1
    rw [((treeFromLDIF_spec V.C cfg.idx v).2 m hm).1] at hx
    obtain ⟨q, hq, rfl⟩ := List.mem_map.1 hx
    obtain ⟨i, -, e⟩ := numbered_build V.C v 0 q hq
    have ha := ((C31_selected r.attrs q.1.visible a).2.1 ha).1
    rw [e] at ha
    simpa using (List.mem_filter.1 ha).2

/-- C37, second half: passwords have no influence. Take two servers that run side by side on data files that differ in passwords only.
Every request other than a bind gets the same answer from both. So no filter, size limit or paged search tests a password. The hypothesis
says that no index is configured for userPassword. -/
theorem C37_blind (hidx : ∀ k, indexed V.C cfg.idx b!"userpassword" k = false) {st st' : LdifSt} (h : LdifTwins V W cfg g stats st st')
    (o : Oracle) (p : Packet) (bound : Str) (hp : ∀ id req, Message p id req → req.tag ≠ 0) :
    (handlePacket V (ldifSrv V W cfg g stats) o p bound st).resps = (handlePacket V (ldifSrv V W cfg g stats) o p bound st').resps ∧
    (handlePacket V (ldifSrv V W cfg g stats) o p bound st).next = (handlePacket V (ldifSrv V W cfg g stats) o p bound st').next := by
  have h1 := handlePacket_blind (V := V) (W := W) (cfg := cfg) (g := g) (stats := stats) o p bound st hp
  have h2 := handlePacket_blind (V := V) (W := W) (cfg := cfg) (g := g) (stats := stats) o p bound st' hp
  rw [twins_blind hidx h] at h1
  rw [h1] at h2
  exact ⟨by have := congrArg Out.resps h2; exact this, by have := congrArg Out.next h2; exact this⟩

/-- the default configuration has no index for userPassword -/
theorem C37_default_idx : ∀ k, indexed asciiCase defaultIdx b!"userpassword" k = false := by
  intro k
  cases k <;> decide +kernel

/-- The data with other passwords. -/
def ldOther : List (Option Entry) := ldRecs.map (Option.map fun r => { r with attrs := r.attrs.map fun a =>
  if a.name = b!"userPassword" then ⟨b!"USERPASSWORD", [b!"other", b!"x"]⟩ else a })

/-- two such servers, and a search by a password that is right on one of them: both answer with nobody -/
example : SameButPasswords asciiCase ldRecs ldOther ∧ ldRecs ≠ ldOther ∧ (treeFromLDIF asciiCase defaultIdx ldOther).isSome = true ∧
    (ldReq [] (wSearch b!"dc=lg" 2 0 (.mk .context true 3 .nil [] [octet b!"userPassword", octet b!"secret"]) [])).resps =
      [.searchDone 7 0 (some [])] := by decide +kernel

/-- C37 fails if an index for userPassword is configured: the answer to a search depends on a password. -/
theorem C37_indexed_fails : ∃ (idx : IdxAttrs) (recs recs' : List (Option Entry)) (m m' : LMem) (p : Packet),
    SameButPasswords asciiCase recs recs' ∧ treeFromLDIF asciiCase idx recs = some m ∧ treeFromLDIF asciiCase idx recs' = some m' ∧
    let srv := ldifSrv ldEnv ldOrd { ldCfg with idx := idx } 8 false
    (handlePacket ldEnv srv toyOracle p [] { ldStart ldRecs with main := m }).resps ≠
      (handlePacket ldEnv srv toyOracle p [] { ldStart ldRecs with main := m' }).resps := by
  let idx : IdxAttrs := (b!"userPassword", [.eq]) :: defaultIdx
  refine ⟨idx, ldRecs, ldOther, _, _, wMsg 7 (wSearch b!"dc=lg" 2 0 (.mk .context true 1 .nil []
    [.mk .context true 3 .nil [] [octet b!"objectClass", octet b!"person"], .mk .context true 3 .nil [] [octet b!"userPassword", octet b!"secret"]]) []),
    by decide +kernel, ldMemI_loads (by decide +kernel), ldMemI_loads (by decide +kernel), ?_⟩
  decide +kernel

/-! ## C43 -/

/-- C43: no packet whatever changes the data the server answers from, nor the config users. -/
theorem C43_data_unchanged (o : Oracle) (p : Packet) (bound : Str) (st : LdifSt) :
    (handlePacket V (ldifSrv V W cfg g stats) o p bound st).st.main = st.main ∧
    (handlePacket V (ldifSrv V W cfg g stats) o p bound st).st.conf = st.conf := by
  rcases ldif_packet_cases (V := V) (W := W) (cfg := cfg) (g := g) (stats := stats) o p bound st with ⟨id, req, controls, r, -, -, -, h⟩ | ⟨h, -⟩
  · have := ldifSearch_lists (V := V) (W := W) (cfg := cfg) (fun _ => True) (by simp) bound r st (by simp) (by simp)
    rw [h, ldifOut_st]
    exact ⟨this.2.1, this.2.2.1⟩
  · rw [h]
    exact ⟨rfl, rfl⟩

/-- C43: well-formed write requests of all kinds are answered with unwillingToPerform (53), or with insufficientAccessRights (50) if the
client is anonymous, and change nothing. (With metrics on, add requests hang, see C52.) -/
theorem C43_writes_refused (w : Write) (hst : stats = false ∨ w.respTag ≠ 9) (hn : ∀ s ∈ w.names, ∃ name, parseDN V.C s = some name)
    (hk : w.kindsOk) (o : Oracle) (id : Int) (bound : Str) (st : LdifSt) :
    handlePacket V (ldifSrv V W cfg g stats) o (wMsg id w.packet) bound st =
      ⟨[.result id w.respTag (if bound = [] then 50 else 53)], .go bound, st⟩ := by
  rw [write_packet V _ w hst]
  by_cases hne : bound = []
  · subst hne
    cases w <;> simp [handleAdd, handleDelete, handleModify, handleModifyDN, reply, rcInsufficientAccessRights]
  · cases w with
    | add dn as =>
      obtain ⟨nm, h⟩ := hn dn (by simp [Write.names])
      simp only [handleAdd, if_neg hne, Write.packet, parseAdd_wire V.C dn as h, ldifSrv, callFn_refuse, reply]
    | delete dn =>
      obtain ⟨nm, h⟩ := hn dn (by simp [Write.names])
      simp only [handleDelete, if_neg hne, Write.packet, parseDelete_wire V.C dn h, ldifSrv, callFn_refuse, reply]
    | modify dn cs =>
      obtain ⟨nm, h⟩ := hn dn (by simp [Write.names])
      simp only [handleModify, if_neg hne, Write.packet, parseModify_wire V.C dn cs h hk, ldifSrv, callFn_refuse, reply]
    | rename dn rdn del =>
      obtain ⟨nm, h⟩ := hn dn (by simp [Write.names])
      obtain ⟨nm', h'⟩ := hn rdn (by simp [Write.names])
      simp only [handleModifyDN, if_neg hne, Write.packet, parseModifyDN_wire V.C dn rdn del h h', ldifSrv, callFn_refuse, reply]

/-- C43: a request to change a password, of whomever and for whomever, is answered with unwillingToPerform (53) and changes nothing. (The handler
is asked after the new password has been generated, if need be, and hashed; that this works is assumed.) -/
theorem C43_password_refused (o : Oracle) {draw : Nat → Nat} (hrnd : ∀ i, o.rnd i = some (draw i) ∧ draw i < 74)
    (hhash : ∀ pw, ∃ h, V.K.argonCreate pw o.salt = some h) {body : Str} {user old new : Option Str} (hb : PwBody V body user old new)
    (id : Int) (bound : Str) (st : LdifSt) :
    handlePacket V (ldifSrv V W cfg g stats) o (wMsg id (wPwModify body)) bound st =
      ⟨[.extended id 53 b!"1.3.6.1.4.1.4203.1.11.1" none], .go bound, st⟩ := by
  have h53 : handlePwModify V (ldifSrv V W cfg g stats) o bound (some (ctxStr 1 body)) st = (.err (.ldap 53 true), st) := by
    unfold handlePwModify
    by_cases hne : bound = []
    · rw [if_pos hne]; rfl
    · rw [if_neg hne, parsePwModify_body hb]
      dsimp only
      obtain ⟨pw, hpw⟩ : ∃ pw, (if new.getD [] = [] then generatePw o.rnd 0 (ldifSrv V W cfg g stats).genPwLen else .ok (new.getD [])) = .ok pw := by
        split
        · obtain ⟨pw, h, -⟩ := C24_generated_total o.rnd 0 (ldifSrv V W cfg g stats).genPwLen draw hrnd
          exact ⟨pw, h⟩
        · exact ⟨_, rfl⟩
      obtain ⟨h, hh⟩ := hhash pw
      have hk : hashPw V.K o.salt pw b!"{ARGON2}" = .ok (b!"{ARGON2}" ++ h) := by
        unfold hashPw
        rw [if_neg (by decide), if_pos rfl, hh]
      rw [hpw]
      dsimp only
      rw [hk]
      simp only [ldifSrv, pick_single, ldifRefuse, pwExopAnswer]
      rfl
  rw [wPwModify_packet]
  simp only [stepExtended, handleExtended, wPwModify_parse, if_true, h53]
  rfl

example : let o : Oracle := ⟨fun i => some (i % 74), []⟩
    (∀ i : Nat, o.rnd i = some (i % 74) ∧ i % 74 < 74) ∧ (∀ pw, ∃ h, ldEnv.K.argonCreate pw o.salt = some h) ∧
    PwBody ldEnv ([48, 5, 130, 3] ++ b!"new") none none (some b!"new") :=
  ⟨fun _ => ⟨rfl, Nat.mod_lt _ (by decide)⟩, fun _ => ⟨_, rfl⟩, _, rfl, rfl⟩

/-- four write requests, answered -/
example : (ldReq b!"uid=ann,ou=people,dc=lg" (wDelete b!"uid=bob,ou=people,dc=lg")).resps = [.result 7 11 53] ∧
    (ldReq [] (wModify ⟨b!"uid=bob,ou=people,dc=lg", [⟨2, b!"cn", [b!"x"]⟩]⟩)).resps = [.result 7 7 50] ∧
    (ldReq b!"uid=ann,ou=people,dc=lg" (wAdd ⟨b!"uid=x,dc=lg", []⟩)).resps = [.result 7 9 53] ∧
    (ldReq b!"uid=ann,ou=people,dc=lg" (wPwModify ([48, 5, 130, 3] ++ b!"new"))).resps = [.extended 7 53 b!"1.3.6.1.4.1.4203.1.11.1" none] := by
  decide +kernel

/-- Not the error with code success. -/
def NoZero {α : Type} (r : Res α) : Prop := ∀ b, r ≠ .err (.ldap 0 b)

theorem NoZero.bind {α β : Type} {r : Res α} {f : α → Res β} (h : NoZero r) (hf : ∀ a, NoZero (f a)) : NoZero (r >>= f) := by
  cases r with
  | ok a => exact hf a
  | err e => intro b h'; exact h b (by simpa using h')
  | panic => intro b h'; cases h'
  | hang => intro b h'; cases h'

theorem strVals_nz : ∀ ps : List Packet, NoZero (strVals ps)
  | [] => by simp [strVals, NoZero]
  | p :: ps => by
    rw [strVals]
    split
    · simp [NoZero, ldapErr, rcProtocolError, rcDecodingError]
    · exact NoZero.bind (strVals_nz ps) fun _ => by simp [NoZero]

theorem parseAttribute_nz (p : Packet) (part : Bool) : NoZero (parseAttribute p part) := by
  unfold parseAttribute
  repeat' split
  all_goals first
    | (simp [NoZero, ldapErr, rcProtocolError, rcDecodingError]; done)
    | (refine NoZero.bind ?_ fun _ => by simp [NoZero]
       unfold parseAttributeValues
       split
       · simp [NoZero, ldapErr, rcProtocolError, rcDecodingError]
       · exact strVals_nz _)
    | skip

theorem parseAttrs_nz : ∀ ps : List Packet, NoZero (parseAttrs ps)
  | [] => by simp [parseAttrs, NoZero]
  | p :: ps => by
    rw [parseAttrs]
    exact NoZero.bind (parseAttribute_nz p false) fun _ => NoZero.bind (parseAttrs_nz ps) fun _ => by simp [NoZero]

theorem parseAdd_nz (C : CaseEnv) (req : Packet) : NoZero (parseAddRequest C req) := by
  unfold parseAddRequest
  repeat' split
  all_goals first
    | (simp [NoZero, ldapErr, rcProtocolError]; done)
    | (refine NoZero.bind ?_ fun _ => by simp [NoZero]
       unfold parseAttributeList
       split
       · simp [NoZero, ldapErr, rcProtocolError]
       · exact parseAttrs_nz _)

theorem parseDelete_nz (C : CaseEnv) (req : Packet) : NoZero (parseDeleteRequest C req) := by
  unfold parseDeleteRequest
  repeat' split
  all_goals simp [NoZero, ldapErr, rcProtocolError]

theorem parseMods_nz : ∀ ps : List Packet, NoZero (parseMods ps)
  | [] => by simp [parseMods, NoZero]
  | p :: ps => by
    rw [parseMods]
    repeat' split
    all_goals first
      | (simp [NoZero, ldapErr, rcDecodingError]; done)
      | exact NoZero.bind (parseAttribute_nz _ _) fun _ => NoZero.bind (parseMods_nz ps) fun _ => by simp [NoZero]

theorem parseModify_nz (C : CaseEnv) (req : Packet) : NoZero (parseModifyRequest C req) := by
  unfold parseModifyRequest
  repeat' split
  all_goals first
    | (simp [NoZero, ldapErr, rcProtocolError]; done)
    | (refine NoZero.bind ?_ fun _ => by simp [NoZero]
       unfold parseModList
       split
       · simp [NoZero, ldapErr, rcProtocolError]
       · exact parseMods_nz _)

theorem parseModifyDN_nz (C : CaseEnv) (req : Packet) : NoZero (parseModifyDNRequest C req) := by
  unfold parseModifyDNRequest
  repeat' split
  all_goals simp [NoZero, ldapErr, rcProtocolError, rcUnwillingToPerform]

theorem pwKids_nz : ∀ (ps : List Packet) (r : PwModReq), NoZero (pwKids r ps)
  | [], r => by simp [pwKids, NoZero]
  | p :: ps, r => by
    rw [pwKids]
    repeat' split
    all_goals first
      | (simp [NoZero, ldapErr, rcDecodingError]; done)
      | exact pwKids_nz ps _

theorem parsePw_nz (body : Option Packet) : NoZero (parsePwModify V body) := by
  unfold parsePwModify
  repeat' split
  all_goals first
    | (simp [NoZero, ldapErr, rcDecodingError]; done)
    | exact pwKids_nz _ _

theorem parseFailed_nz {ρ : Type} {x : Res ρ} (h : NoZero x) (st : LdifSt) : (parseFailed x st).1 ≠ .ok 0 := by
  unfold parseFailed
  split
  · simp [rcOperationsError]
  · rename_i c b
    intro h'
    simp only [Res.ok.injEq] at h'
    subst h'
    exact h b rfl
  all_goals simp [rcOperationsError]

theorem refusedAdd (bound : Str) (req : Packet) (st : LdifSt) : (handleAdd V (ldifSrv V W cfg g stats) bound req st).1 ≠ .ok 0 := by
  unfold handleAdd
  have h := parseAdd_nz V.C req
  split
  · simp [rcInsufficientAccessRights]
  · split
    · simp [ldifSrv, callFn_refuse]
    · exact parseFailed_nz h st

theorem refusedDelete (bound : Str) (req : Packet) (st : LdifSt) : (handleDelete V (ldifSrv V W cfg g stats) bound req st).1 ≠ .ok 0 := by
  unfold handleDelete
  have h := parseDelete_nz V.C req
  split
  · simp [rcInsufficientAccessRights]
  · split
    · simp [ldifSrv, callFn_refuse]
    · exact parseFailed_nz h st

theorem refusedModify (bound : Str) (req : Packet) (st : LdifSt) : (handleModify V (ldifSrv V W cfg g stats) bound req st).1 ≠ .ok 0 := by
  unfold handleModify
  have h := parseModify_nz V.C req
  split
  · simp [rcInsufficientAccessRights]
  · split
    · simp [ldifSrv, callFn_refuse]
    · exact parseFailed_nz h st

theorem refusedModifyDN (bound : Str) (req : Packet) (st : LdifSt) : (handleModifyDN V (ldifSrv V W cfg g stats) bound req st).1 ≠ .ok 0 := by
  unfold handleModifyDN
  have h := parseModifyDN_nz V.C req
  split
  · simp [rcInsufficientAccessRights]
  · split
    · simp [ldifSrv, callFn_refuse]
    · exact parseFailed_nz h st

theorem ldif_pw_nz (o : Oracle) (bound : Str) (body : Option Packet) (st : LdifSt) : NoZero (handlePwModify V (ldifSrv V W cfg g stats) o bound body st).1 := by
  unfold handlePwModify
  by_cases hb : bound = []
  · simp [hb, NoZero, ldapErr, rcUnwillingToPerform]
  rw [if_neg hb]
  have hz := parsePw_nz (V := V) body
  cases hp : parsePwModify V body with
  | err e => rw [hp] at hz; exact fun b h => hz b (by simpa using h)
  | panic => simp [NoZero]
  | hang => simp [NoZero]
  | ok r =>
    dsimp only
    generalize (if r.newPassword = [] then generatePw o.rnd 0 (ldifSrv V W cfg g stats).genPwLen else .ok r.newPassword) = x
    cases x with
    | err e => simp [NoZero, ldapErr, rcOperationsError]
    | panic => simp [NoZero]
    | hang => simp [NoZero]
    | ok pw =>
      dsimp only
      cases hashPw V.K o.salt pw b!"{ARGON2}" with
      | err e => simp [NoZero, ldapErr, rcOperationsError]
      | panic => simp [NoZero]
      | hang => simp [NoZero]
      | ok h => simp [ldifSrv, pick_single, ldifRefuse, pwExopAnswer, rcUnwillingToPerform, rcSuccess, NoZero]

/-- C43: whatever the packet, the only response with code success is that to a bind (tag 1) or the end of a search (tag 5). -/
theorem C43_no_write_succeeds (o : Oracle) (p : Packet) (bound : Str) (st : LdifSt) :
    ∀ r ∈ (handlePacket V (ldifSrv V W cfg g stats) o p bound st).resps, r.code? = some 0 → r.tag = 1 ∨ r.tag = 5 := by
  have h := handlePacket_cases V (ldifSrv V W cfg g stats) o p bound st
  generalize handlePacket V (ldifSrv V W cfg g stats) o p bound st = out at h
  have hr : ∀ (id : Int) (tag : Nat) (x : Res Nat × LdifSt), x.1 ≠ .ok 0 → ∀ r ∈ (reply id tag bound x).resps, r.code? = some 0 → r.tag = 1 ∨ r.tag = 5 := by
    intro id tag x hx r hr hc
    rcases reply_cases id tag bound x with ⟨c, e, h⟩ | ⟨e, -⟩ | ⟨e, -⟩ <;> rw [e] at hr <;> simp at hr
    subst hr
    simp only [Resp.code?, Option.some.injEq] at hc
    subst hc
    rcases h with h | ⟨e, -, h⟩
    · exact absurd h hx
    · cases h
  cases h with
  | closed => simp
  | crash => simp
  | hang => simp
  | addHang => simp
  | add id req => exact hr _ _ _ (refusedAdd bound req st)
  | delete id req => exact hr _ _ _ (refusedDelete bound req st)
  | modify id req => exact hr _ _ _ (refusedModify bound req st)
  | modifyDN id req => exact hr _ _ _ (refusedModifyDN bound req st)
  | compare => simp [Resp.code?, rcOperationsError]
  | bind id req =>
    rcases stepBind_cases V (ldifSrv V W cfg g stats) id bound req st with ⟨c, e, -⟩ | ⟨d, dn, b, e, -⟩ | e | e | ⟨e, -⟩ <;> rw [e] <;>
      simp [Resp.tag]
  | extended id req =>
    rcases stepExtended_cases V (ldifSrv V W cfg g stats) o id bound req st with ⟨e, -⟩ | ⟨c, oid, gen, e, h⟩ | ⟨e, -⟩ | ⟨e, -⟩ <;> rw [e]
    · simp [Resp.code?, rcOperationsError]
    · simp only [List.mem_singleton, forall_eq, Resp.code?, Option.some.injEq]
      rintro rfl
      exfalso
      unfold handleExtended at h
      cases hp : parseExtendedRequest req with
      | err e => simp [hp] at h
      | panic => simp [hp] at h
      | hang => simp [hp] at h
      | ok x =>
        obtain ⟨oid', body⟩ := x
        simp only [hp] at h
        split at h
        · have h1 := (ldif_pw (V := V) (W := W) (cfg := cfg) (g := g) (stats := stats) o bound body st).2
          have h2 := ldif_pw_nz (V := V) (W := W) (cfg := cfg) (g := g) (stats := stats) o bound body st
          rcases hw : handlePwModify V (ldifSrv V W cfg g stats) o bound body st with ⟨r, st'⟩
          rw [hw] at h h1 h2
          cases r with
          | ok gen => exact h1 gen rfl
          | panic => simp at h
          | hang => simp at h
          | err e =>
            cases e <;> simp [rcOther] at h
            rename_i c b
            cases b
            · simp at h
            · simp only [Res.ok.injEq, ExtAnswer.done.injEq] at h
              rw [h.1] at h2
              exact h2 true rfl
        · simp at h
    · simp
    · simp
  | search id req controls =>
    rw [ldif_stepSearch]
    cases parseSearchRequest req controls with
    | none => simp [Resp.tag]
    | some r =>
      intro x hx hc
      right
      unfold ldifOut at hx
      revert hx
      dsimp only
      split
      · split
        · simp only [List.mem_singleton]; rintro rfl; rfl
        · simp only [List.mem_append, List.mem_map, List.mem_singleton]
          rintro (⟨e, -, rfl⟩ | rfl)
          · simp [Resp.code?] at hc
          · rfl
      · simp
      · simp

end
end Idm
