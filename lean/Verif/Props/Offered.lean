import Verif.Spec.Offered
import Verif.Props.Kept
/-!
# C127: what is not offered is refused
-/
namespace Idm

section
variable {σ : Type} {V : Env}

theorem parseMods_other (cs cs' : List Change) (c : Change) (h1 : 2 < c.op) (h2 : c.op < 128) :
    parseMods ((cs ++ c :: cs').map wChange) = ldapErr rcDecodingError := by
  have hb : ∀ n, n < 256 → (UInt8.ofNat n).toNat = n := fun n hn => by simp [Nat.mod_eq_of_lt hn]
  induction cs with
  | nil =>
    simp only [List.nil_append, List.map_cons, parseMods, wChange, wSeq, Packet.kids, List.getElem?_cons_zero, wEnum, Packet.data]
    rw [hb c.op (by omega), if_pos]
    simp only [opAdd, opReplace, opDelete]
    omega
  | cons d ds ih =>
    simp only [List.cons_append, List.map_cons, parseMods]
    rw [show (wChange d).kids[0]? = some (wEnum d.op) from rfl]
    dsimp only
    rw [show (wEnum d.op).data[0]? = some (UInt8.ofNat d.op) from rfl]
    dsimp only
    split
    · rfl
    · rw [show (wChange d).kids[1]? = some (wAttr ⟨d.typ, d.vals⟩) from rfl]
      dsimp only
      rw [parseAttribute_wAttr, ih]
      rfl

theorem reply_failed {ρ : Type} (id : Int) (tag : Nat) (bound : Str) (code : Nat) (e : Bool) (st : σ) :
    reply id tag bound (parseFailed (ρ := ρ) (.err (.ldap code e)) st) = ⟨[.result id tag code], .go bound, st⟩ := rfl

/-- The code with which a request for something that is not offered is answered. -/
theorem refusal (srv : Srv σ) (o : Oracle) (p : Packet) (id : Int) (req : Packet) (tag rfc : Nat) (h : NotOffered req tag rfc) (hm : Message p id req)
    (hc : ∃ cs, decodeControls V ((p.kids[2]?.map Packet.kids).getD []) = .ok cs) (bound : Str) (st : σ) :
    ∃ code, code ≠ 0 ∧ handlePacket V srv o p bound st = ⟨[.result id tag code], .go bound, st⟩ ∧
      (tag = 1 → code = 48) ∧ (tag = 24 → code = 1) ∧
      (tag = 13 → bound ≠ [] → (∀ i ∈ [0, 1], ∀ s, (req.kids[i]?.map Packet.val) = some (.str s) → parseDN V.C s ≠ none) → code = 53) := by
  obtain ⟨m, more, h1, h2, h3⟩ := hm
  have hi : m.int? = some id := int?_iff.2 h2
  have hmore : p.kids[2]? = more.head? := by rw [h1]; cases more <;> rfl
  rw [hmore] at hc
  obtain ⟨cs, hc⟩ := hc
  unfold handlePacket
  rw [h1]
  dsimp only
  rw [hi]
  dsimp only
  rw [if_neg (by simp [h3]), hc]
  simp only [appAddRequest, appBindRequest, appCompareRequest, appDelRequest, appExtendedRequest, appModifyDNRequest, appModifyRequest, appSearchRequest]
  clear hc h1 hmore
  cases h with
  | version v more hv =>
    refine ⟨48, by decide, ?_, fun _ => rfl, by simp, by simp⟩
    simp [wReq, Packet.tag, stepBind, handleBind, bindBody, Packet.kids, berInt, Packet.int?, Packet.val, hv, rcInappropriateAuthentication, rcSuccess, appBindResponse]
  | method dn auth ha =>
    refine ⟨48, by decide, ?_, fun _ => rfl, by simp, by simp⟩
    have hb : bindBody srv (wReq 0 [berInt 3, octet dn, auth]) st = (.ok 48, st) := by
      show (if auth.tag = authSimple then _ else _) = _
      exact if_neg ha
    have ht : (wReq 0 [berInt 3, octet dn, auth]).tag = 0 := rfl
    simp only [ht, Nat.reduceEqDiff, if_true, if_false]
    unfold stepBind handleBind
    rw [hb]
    rfl
  | extended oid value ho =>
    refine ⟨1, by decide, ?_, by simp, fun _ => rfl, by simp⟩
    have hp : ∃ b, parseExtendedRequest (wReq 23 (ctxStr 0 oid :: (value.map (ctxStr 1)).toList)) = .ok (oid, b) := by
      cases value with
      | none => exact ⟨_, rfl⟩
      | some v => exact ⟨_, rfl⟩
    obtain ⟨b, hp⟩ := hp
    have ht : (wReq 23 (ctxStr 0 oid :: (value.map (ctxStr 1)).toList)).tag = 23 := rfl
    simp only [ht, Nat.reduceEqDiff, if_true, if_false]
    unfold stepExtended handleExtended
    rw [hp]
    dsimp only
    rw [if_neg (show ¬ oid = pwmodOID from ho)]
    rfl
  | move dn rdn del sup =>
    have ht : (wReq 12 [octet dn, octet rdn, wBool del, sup]).tag = 12 := rfl
    simp only [ht, Nat.reduceEqDiff, if_true, if_false]
    unfold handleModifyDN
    by_cases hb : bound = []
    · rw [if_pos hb]
      exact ⟨50, by decide, rfl, by simp, by simp, fun _ h => absurd hb h⟩
    rw [if_neg hb]
    cases hd : parseDN V.C dn with
    | none =>
      have : parseModifyDNRequest V.C (wReq 12 [octet dn, octet rdn, wBool del, sup]) = ldapErr rcProtocolError := by
        simp [parseModifyDNRequest, wReq, Packet.kids, octet, Packet.str?, Packet.val, hd]
      rw [this]
      exact ⟨2, by decide, rfl, by simp, by simp, fun _ _ h => absurd hd (h 0 (by simp) dn rfl)⟩
    | some n =>
      cases hr : parseDN V.C rdn with
      | none =>
        have : parseModifyDNRequest V.C (wReq 12 [octet dn, octet rdn, wBool del, sup]) = ldapErr rcProtocolError := by
          simp [parseModifyDNRequest, wReq, Packet.kids, octet, Packet.str?, Packet.val, hd, hr]
        rw [this]
        exact ⟨2, by decide, rfl, by simp, by simp, fun _ _ h => absurd hr (h 1 (by simp) rdn rfl)⟩
      | some m =>
        have : parseModifyDNRequest V.C (wReq 12 [octet dn, octet rdn, wBool del, sup]) = ldapErr rcUnwillingToPerform := by
          simp [parseModifyDNRequest, wReq, Packet.kids, octet, Packet.str?, Packet.val, hd, hr, wBool, Packet.bool?]
        rw [this]
        exact ⟨53, by decide, rfl, by simp, by simp, fun _ _ _ => rfl⟩
  | change dn ds ds' c hl hu =>
    have ht : (wModify ⟨dn, ds ++ c :: ds'⟩).tag = 6 := rfl
    simp only [ht, Nat.reduceEqDiff, if_true, if_false]
    unfold handleModify
    by_cases hb : bound = []
    · rw [if_pos hb]
      exact ⟨50, by decide, rfl, by simp, by simp, by simp⟩
    rw [if_neg hb]
    cases hd : parseDN V.C dn with
    | none =>
      have : parseModifyRequest V.C (wModify ⟨dn, ds ++ c :: ds'⟩) = ldapErr rcProtocolError := by
        simp [parseModifyRequest, wModify, wReq, Packet.kids, octet, Packet.str?, Packet.val, hd]
      rw [this]
      exact ⟨2, by decide, rfl, by simp, by simp, by simp⟩
    | some n =>
      have : parseModifyRequest V.C (wModify ⟨dn, ds ++ c :: ds'⟩) = ldapErr rcDecodingError := by
        have hm := parseMods_other ds ds' c hl hu
        show (match parseDN V.C dn with
          | none => ldapErr rcProtocolError
          | some _ => (do
            let ml ← parseMods ((ds ++ c :: ds').map wChange)
            .ok (⟨dn, ml⟩ : ModifyReq))) = _
        rw [hd, hm]
        rfl
      rw [this]
      exact ⟨84, by decide, rfl, by simp, by simp, by simp⟩

/-- C127, what holds on every server, whatever is registered: a request for something that is not offered is answered once, with a response of the
right kind and a code that says that it failed; the data and the identity of the client stay as they are, and the connection goes on. The code is the
one RFC 4511 prescribes for a move that a bound client asks for in terms of names. Missing: it should be so for the others. -/
theorem C127_refused_partial (srv : Srv σ) (o : Oracle) (p : Packet) (id : Int) (req : Packet) (tag rfc : Nat) (h : NotOffered req tag rfc)
    (hm : Message p id req) (hc : ∃ cs, decodeControls V ((p.kids[2]?.map Packet.kids).getD []) = .ok cs) (bound : Str) (st : σ) :
    let out := handlePacket V srv o p bound st
    ∃ code, code ≠ 0 ∧ out.resps = [.result id tag code] ∧ out.next = .go bound ∧ out.st = st ∧
      (tag = 13 → bound ≠ [] → (∀ i ∈ [0, 1], ∀ s, (req.kids[i]?.map Packet.val) = some (.str s) → parseDN V.C s ≠ none) → code = rfc) := by
  obtain ⟨code, h1, h2, _, _, h5⟩ := refusal srv o p id req tag rfc h hm hc bound st
  refine ⟨code, h1, by rw [h2], by rw [h2], by rw [h2], fun ht hb hn => ?_⟩
  rw [h5 ht hb hn]
  cases h with
  | move => rfl
  | _ => cases ht

/-- C127 fails, always: another version of the protocol and another bind method are refused with inappropriateAuthentication (48) instead of
protocolError (2) and authMethodNotSupported (7), another extended operation with operationsError (1) instead of protocolError (2). -/
theorem C127_code_fails (srv : Srv σ) (o : Oracle) (p : Packet) (id : Int) (req : Packet) (tag rfc : Nat) (h : NotOffered req tag rfc)
    (hm : Message p id req) (hc : ∃ cs, decodeControls V ((p.kids[2]?.map Packet.kids).getD []) = .ok cs) (bound : Str) (st : σ) (ht : tag = 1 ∨ tag = 24) :
    .result id tag rfc ∉ (handlePacket V srv o p bound st).resps := by
  obtain ⟨code, _, h2, h3, h4, _⟩ := refusal srv o p id req tag rfc h hm hc bound st
  rw [h2]
  simp only [List.mem_singleton, Resp.result.injEq, true_and]
  cases h with
  | version => rw [h3 rfl]; decide
  | method => rw [h3 rfl]; decide
  | extended => rw [h4 rfl]; decide
  | move => simp at ht
  | change => simp at ht

end

/-- C127 fails for an increment, too: it is answered with 84, which is no result code of RFC 4511. -/
theorem C127_change_fails : NotOffered (wModify ⟨b!"uid=ann,dc=lg", [⟨3, b!"uidNumber", [b!"1"]⟩]⟩) 7 2 ∧
    (handlePacket toyEnv opSrv toyOracle (wMsg 7 (wModify ⟨b!"uid=ann,dc=lg", [⟨3, b!"uidNumber", [b!"1"]⟩]⟩)) b!"cn=admin,dc=lg" opDb).resps =
      [.result 7 7 84] :=
  ⟨.change _ [] [] _ (by decide) (by decide), by decide +kernel⟩

/-- C127 applies to a SASL bind, to StartTLS and to a move -/
example := fun req tag rfc h ht => C127_refused_partial (V := toyEnv) opSrv toyOracle (wMsg 7 req) 7 req tag rfc h ⟨berInt 7, [], rfl, rfl, ht⟩ ⟨_, rfl⟩ [] opDb

example : NotOffered (wReq 0 [berInt 3, octet [], .mk .context true 3 .nil [] [octet b!"EXTERNAL"]]) 1 7 := .method _ _ (by decide)

example : NotOffered (wReq 23 [ctxStr 0 b!"1.3.6.1.4.1.1466.20037"]) 24 2 := .extended _ none (by decide)

example : NotOffered (wReq 12 [octet b!"uid=ann,dc=lg", octet b!"uid=ann", wBool true, ctxStr 0 b!"ou=a,dc=lg"]) 13 53 := .move _ _ _ _

example : (handlePacket toyEnv opSrv toyOracle (wMsg 7 (wReq 12 [octet b!"uid=ann,dc=lg", octet b!"uid=ann", wBool true, ctxStr 0 b!"ou=a,dc=lg"]))
    b!"cn=admin,dc=lg" opDb).resps = [.result 7 13 53] := by decide +kernel

end Idm
