import Verif.Props.BoltFind
import Verif.Spec.Write
/-!
# C60: write requests reach the store as they were sent
-/
namespace Idm
open Dir

theorem strVals_octet (vs : List Str) : strVals (vs.map octet) = .ok vs := by
  induction vs with
  | nil => rfl
  | cons v vs ih =>
    have h : (octet v).str? = some v := rfl
    simp [strVals, h, ih]

theorem parseAttribute_wAttr (a : Attr) (part : Bool) : parseAttribute (wAttr a) part = .ok a := by
  have h1 : (wAttr a).kids = [octet a.name, wSet (a.vals.map octet)] := rfl
  have h2 : (octet a.name).str? = some a.name := rfl
  have h3 : parseAttributeValues (wSet (a.vals.map octet)) = .ok a.vals := by
    simp [parseAttributeValues, wSet, Packet.cls, Packet.cons, Packet.tag, tagSet, Packet.kids, strVals_octet]
  have h4 : (octet a.name).cls = .universal ∧ (octet a.name).cons = false ∧ (octet a.name).tag = tagOctetString := ⟨rfl, rfl, rfl⟩
  simp [parseAttribute, h1, h2, h3, h4]

theorem parseAttrs_wire (as : List Attr) : parseAttrs (as.map wAttr) = .ok as := by
  induction as with
  | nil => rfl
  | cons a as ih => simp [parseAttrs, parseAttribute_wAttr, ih]

theorem parseAdd_wire (C : CaseEnv) (dn : Str) (as : List Attr) {name : DN} (h : parseDN C dn = some name) :
    parseAddRequest C (wAdd ⟨dn, as⟩) = .ok ⟨dn, as⟩ := by
  have h1 : (wAdd ⟨dn, as⟩).kids = [octet dn, wSeq (as.map wAttr)] := rfl
  have h2 : (octet dn).str? = some dn := rfl
  have h3 : parseAttributeList (wSeq (as.map wAttr)) = .ok as := by
    simp [parseAttributeList, wSeq, Packet.cls, Packet.cons, Packet.tag, tagSequence, Packet.kids, parseAttrs_wire]
  simp [parseAddRequest, h1, h2, h, h3]

theorem parseMods_wire (cs : List Change) (h : ∀ c ∈ cs, c.op ≤ 2) : parseMods (cs.map wChange) = .ok cs := by
  induction cs with
  | nil => rfl
  | cons c cs ih =>
    have hc : c.op ≤ 2 := h c (by simp)
    have h1 : (wChange c).kids = [wEnum c.op, wAttr ⟨c.typ, c.vals⟩] := rfl
    have h2 : (wEnum c.op).data = [UInt8.ofNat c.op] := rfl
    have h3 : (UInt8.ofNat c.op).toNat = c.op := by simp; omega
    have h4 : ¬ (c.op ≠ opAdd ∧ c.op ≠ opReplace ∧ c.op ≠ opDelete) := by
      simp only [opAdd, opReplace, opDelete]; omega
    rw [List.map_cons, parseMods]
    simp only [h1, h2, List.getElem?_cons_zero, List.getElem?_cons_succ, h3, if_neg h4, parseAttribute_wAttr, Res.ok_bind,
      ih fun c hc => h c (by simp [hc])]

theorem parseModify_wire (C : CaseEnv) (dn : Str) (cs : List Change) {name : DN} (h : parseDN C dn = some name) (hk : ∀ c ∈ cs, c.op ≤ 2) :
    parseModifyRequest C (wModify ⟨dn, cs⟩) = .ok ⟨dn, cs⟩ := by
  have h1 : (wModify ⟨dn, cs⟩).kids = [octet dn, wSeq (cs.map wChange)] := rfl
  have h2 : (octet dn).str? = some dn := rfl
  have h3 : parseModList (wSeq (cs.map wChange)) = .ok cs := by
    simp [parseModList, wSeq, Packet.cls, Packet.cons, Packet.tag, tagSequence, Packet.kids, parseMods_wire cs hk]
  simp [parseModifyRequest, h1, h2, h, h3]

theorem parseModifyDN_wire (C : CaseEnv) (dn rdn : Str) (del : Bool) {n m : DN} (h : parseDN C dn = some n) (hm : parseDN C rdn = some m) :
    parseModifyDNRequest C (wModifyDN ⟨dn, rdn, del⟩) = .ok ⟨dn, rdn, del⟩ := by
  have h1 : (wModifyDN ⟨dn, rdn, del⟩).kids = [octet dn, octet rdn, wBool del] := rfl
  have h2 : (octet dn).str? = some dn := rfl
  have h3 : (octet rdn).str? = some rdn := rfl
  have h4 : (wBool del).bool? = some del := rfl
  simp [parseModifyDNRequest, h1, h2, h3, h4, h, hm]

theorem parseDelete_wire (C : CaseEnv) (dn : Str) {n : DN} (h : parseDN C dn = some n) : parseDeleteRequest C (wDelete dn) = .ok dn := by
  have h1 : (wDelete dn).kids = [] := rfl
  have h2 : (wDelete dn).data = dn := rfl
  simp [parseDeleteRequest, h1, h2, h]

section
variable {σ : Type} (V : Env) (srv : Srv σ) (w : Write) (hs : srv.stats = false ∨ w.respTag ≠ 9) (o : Oracle) (id : Int) (bound : Str) (st : σ)

include hs in
theorem write_packet : handlePacket V srv o (wMsg id w.packet) bound st = reply id w.respTag bound
    (match w with
      | .add _ _ => handleAdd V srv bound w.packet st
      | .delete _ => handleDelete V srv bound w.packet st
      | .modify _ _ => handleModify V srv bound w.packet st
      | .rename _ _ _ => handleModifyDN V srv bound w.packet st) := by
  cases w <;>
  simp [handlePacket, wMsg, wSeq, Packet.kids, berInt, Packet.int?, Packet.val, Write.packet, wAdd, wDelete, wModify, wModifyDN, wReq,
    Packet.cls, decodeControls, Packet.tag, appAddRequest, appBindRequest, appCompareRequest, appDelRequest, appExtendedRequest,
    appModifyDNRequest, appModifyRequest, Write.respTag, appAddResponse, appDelResponse, appModifyResponse, appModifyDNResponse]
  rw [hs.resolve_right (fun h => h rfl)]
  nofun
end

section
variable {V : Env} {G : GobEnv} {cfg : BoltCfg} {n : Nat} {stats : Bool} {base : DN}

/-- C60: a write request of the administrator (any database) performs exactly the operation it encodes: the database becomes what the
store makes of it, and the response, under the request's message id, tells the store's result. With metrics this is so for all requests but
adds, see `C60_metrics_fails`. -/
theorem C60_admin_performs (w : Write) (hst : stats = false ∨ w.respTag ≠ 9) (hn : ∀ s ∈ w.names, ∃ name, parseDN V.C s = some name) (hk : w.kindsOk) (hadm : cfg.admin ≠ [])
    (o : Oracle) (id : Int) (db : Db) :
    handlePacket V (boltSrv V G cfg n stats) o (wMsg id w.packet) cfg.admin db =
      writeAnswer id w cfg.admin (boltStep V.C G (validatePw V.C V.K) cfg.store db w.op) := by
  have hw : writeAllowed cfg cfg.admin = true := by simp [writeAllowed, hadm]
  rw [write_packet V _ w hst]
  cases w with
  | add dn as =>
    obtain ⟨nm, h⟩ := hn dn (by simp [Write.names])
    simp only [handleAdd, hadm, if_false, Write.packet, parseAdd_wire V.C dn as h, callFn, boltSrv, pick_single, boltAdd, hw,
      Bool.not_true, Bool.false_eq_true, Write.op, boltStep]
    generalize entryPut _ _ _ _ _ = x
    obtain ⟨r, db'⟩ := x
    cases r with
    | err e => cases e <;> rfl
    | _ => rfl
  | delete dn =>
    obtain ⟨nm, h⟩ := hn dn (by simp [Write.names])
    simp only [handleDelete, hadm, if_false, Write.packet, parseDelete_wire V.C dn h, callFn, boltSrv, pick_single, boltDelete, hw,
      Bool.not_true, Bool.false_eq_true, Write.op, boltStep]
    generalize entryDelete _ _ _ = x
    obtain ⟨r, db'⟩ := x
    cases r with
    | err e => cases e <;> rfl
    | _ => rfl
  | modify dn cs =>
    obtain ⟨nm, h⟩ := hn dn (by simp [Write.names])
    simp only [handleModify, hadm, if_false, Write.packet, parseModify_wire V.C dn cs h hk, callFn, boltSrv, pick_single, boltModify, hw,
      Bool.not_true, Bool.false_eq_true, Write.op, boltStep]
    generalize entryModify _ _ _ _ _ = x
    obtain ⟨r, db'⟩ := x
    cases r with
    | err e => cases e <;> rfl
    | _ => rfl
  | rename dn rdn del =>
    obtain ⟨nm, h⟩ := hn dn (by simp [Write.names])
    obtain ⟨nm', h'⟩ := hn rdn (by simp [Write.names])
    simp only [handleModifyDN, hadm, if_false, Write.packet, parseModifyDN_wire V.C dn rdn del h h', callFn, boltSrv, pick_single,
      boltModifyDN, hw, Bool.not_true, Bool.false_eq_true, Write.op, boltStep]
    generalize entryModifyDN _ _ _ _ = x
    obtain ⟨r, db'⟩ := x
    cases r with
    | err e => cases e <;> rfl
    | _ => rfl

/-- C60: the same request of any other bound client is answered insufficientAccessRights (50) and performs nothing. -/
theorem C60_others_refused (w : Write) (hst : stats = false ∨ w.respTag ≠ 9) (hn : ∀ s ∈ w.names, ∃ name, parseDN V.C s = some name) (hk : w.kindsOk) (bound : Str)
    (hb : bound ≠ cfg.admin) (o : Oracle) (id : Int) (db : Db) :
    handlePacket V (boltSrv V G cfg n stats) o (wMsg id w.packet) bound db = ⟨[.result id w.respTag 50], .go bound, db⟩ := by
  have hw : writeAllowed cfg bound = false := by
    simp only [writeAllowed, Bool.and_eq_false_iff, decide_eq_false_iff_not]; exact Or.inr fun e => hb e.symm
  rw [write_packet V _ w hst]
  by_cases hne : bound = []
  · subst hne
    cases w <;> simp [handleAdd, handleDelete, handleModify, handleModifyDN, reply, rcInsufficientAccessRights]
  · cases w with
    | add dn as =>
      obtain ⟨nm, h⟩ := hn dn (by simp [Write.names])
      simp [handleAdd, hne, Write.packet, parseAdd_wire V.C dn as h, callFn, boltSrv, boltAdd, hw, codeOf, reply, rcInsufficientAccessRights]
    | delete dn =>
      obtain ⟨nm, h⟩ := hn dn (by simp [Write.names])
      simp [handleDelete, hne, Write.packet, parseDelete_wire V.C dn h, callFn, boltSrv, boltDelete, hw, codeOf, reply,
        rcInsufficientAccessRights]
    | modify dn cs =>
      obtain ⟨nm, h⟩ := hn dn (by simp [Write.names])
      simp [handleModify, hne, Write.packet, parseModify_wire V.C dn cs h hk, callFn, boltSrv, boltModify, hw, codeOf, reply,
        rcInsufficientAccessRights]
    | rename dn rdn del =>
      obtain ⟨nm, h⟩ := hn dn (by simp [Write.names])
      obtain ⟨nm', h'⟩ := hn rdn (by simp [Write.names])
      simp [handleModifyDN, hne, Write.packet, parseModifyDN_wire V.C dn rdn del h h', callFn, boltSrv, boltModifyDN, hw, codeOf, reply,
        rcInsufficientAccessRights]

/-- C60: a write request with a text that is not a name is answered protocolError (2) to any bound client and performs nothing. -/
theorem C60_bad_name_refused (w : Write) (hst : stats = false ∨ w.respTag ≠ 9) (hn : ∃ s ∈ w.names, parseDN V.C s = none) (bound : Str) (hne : bound ≠ [])
    (o : Oracle) (id : Int) (db : Db) :
    handlePacket V (boltSrv V G cfg n stats) o (wMsg id w.packet) bound db = ⟨[.result id w.respTag 2], .go bound, db⟩ := by
  rw [write_packet V _ w hst]
  obtain ⟨s, hs, hp⟩ := hn
  have oc : ∀ s, (octet s).str? = some s := fun _ => rfl
  cases w with
  | add dn as =>
    simp only [Write.names, List.mem_singleton] at hs
    subst hs
    have h1 : (wAdd ⟨s, as⟩).kids = [octet s, wSeq (as.map wAttr)] := rfl
    simp [handleAdd, hne, Write.packet, parseAddRequest, h1, oc, hp, parseFailed, reply, rcProtocolError]
  | delete dn =>
    simp only [Write.names, List.mem_singleton] at hs
    subst hs
    have h1 : (wDelete s).kids = [] := rfl
    have h2 : (wDelete s).data = s := rfl
    simp [handleDelete, hne, Write.packet, parseDeleteRequest, h1, h2, hp, parseFailed, reply, rcProtocolError]
  | modify dn cs =>
    simp only [Write.names, List.mem_singleton] at hs
    subst hs
    have h1 : (wModify ⟨s, cs⟩).kids = [octet s, wSeq (cs.map wChange)] := rfl
    simp [handleModify, hne, Write.packet, parseModifyRequest, h1, oc, hp, parseFailed, reply, rcProtocolError]
  | rename dn rdn del =>
    have h1 : (wModifyDN ⟨dn, rdn, del⟩).kids = [octet dn, octet rdn, wBool del] := rfl
    simp only [Write.names, List.mem_cons, List.not_mem_nil, or_false] at hs
    cases hd : parseDN V.C dn with
    | none => simp [handleModifyDN, hne, Write.packet, parseModifyDNRequest, h1, oc, hd, parseFailed, reply, rcProtocolError]
    | some nm =>
      have : s = rdn := by
        rcases hs with h | h
        · subst h; rw [hd] at hp; cases hp
        · exact h
      subst this
      simp [handleModifyDN, hne, Write.packet, parseModifyDNRequest, h1, oc, hd, hp, parseFailed, reply, rcProtocolError]

/-- C60 fails for adds if metrics are enabled: no add, of whomever, is ever answered or performed. -/
theorem C60_metrics_fails (dn : Str) (attrs : List Attr) (bound : Str) (o : Oracle) (id : Int) (db : Db) :
    handlePacket V (boltSrv V G cfg n true) o (wMsg id (Write.add dn attrs).packet) bound db = ⟨[], .hang, db⟩ := by
  rfl

/-- C60 for the directory: after any history, a write request of the administrator has the result and the effect on the directory that the
abstract directory has (see `specStep`). (Missing: adds if metrics are enabled, see `C60_metrics_fails`; and as in C04.) -/
theorem C60_admin_directory_partial (hC : V.C.Lawful) (hG : G.Lawful) (hb : BaseOk V.C base) (hcfg : cfg.store = render base)
    (ops : List Op) (w : Write) (hst : stats = false ∨ w.respTag ≠ 9) (h : HistOk V.C (ops ++ [w.op]))
    (hn : ∀ s ∈ w.names, ∃ name, parseDN V.C s = some name) (hk : w.kindsOk) (hadm : cfg.admin ≠ []) (o : Oracle) (id : Int) :
    ∃ db', handlePacket V (boltSrv V G cfg n stats) o (wMsg id w.packet) cfg.admin (after V.C G (validatePw V.C V.K) base ops) =
        writeAnswer id w cfg.admin ((specStep V.C (validatePw V.C V.K) base (dirAfter V.C (validatePw V.C V.K) base ops) w.op).1, db') ∧
      Serves V.C G db' (specStep V.C (validatePw V.C V.K) base (dirAfter V.C (validatePw V.C V.K) base ops) w.op).2 := by
  obtain ⟨ns, -, h2, R, hs⟩ := sim_run_empty (validate := validatePw V.C V.K) hC hG hb ops (fun op ho => h.ok op (by simp [ho]))
    (by have := h.len; simp at this; omega)
  have hlen := h.len
  simp only [List.length_append, List.length_cons, List.length_nil] at hlen
  have S := sim_step hC hG hb (validatePw V.C V.K) R (by omega) w.op (h.ok _ (by simp))
  rw [C60_admin_performs w hst hn hk hadm, hcfg]
  obtain ⟨ns', k1, k2, k3⟩ := S
  refine ⟨(boltStep V.C G (validatePw V.C V.K) (render base) (after V.C G (validatePw V.C V.K) base ops) w.op).2, ?_, ?_⟩
  · rw [dirAfter, h2, ← k1]
  · rw [dirAfter, h2, k2]
    exact serves_of_rel hC hG k3.1

/-- C35 for requests: a write request with proper names is handled by the handler chosen for its DN (its code is the answer, its effect
the only one), and refused with unwillingToPerform (53) if there is none. -/
theorem C35_write_goes_to_chosen {σ : Type} (srv : Srv σ) (w : Write) (hs : srv.stats = false ∨ w.respTag ≠ 9)
    (hn : ∀ s ∈ w.names, ∃ name, parseDN V.C s = some name) (hk : w.kindsOk) (bound : Str) (hb : bound ≠ []) (o : Oracle) (id : Int) (st : σ) :
    handlePacket V srv o (wMsg id w.packet) bound st = reply id w.respTag bound
      (match w with
      | .add dn as => (match pick srv.addFns dn with
        | none => (.ok 53, st)
        | some f => let (r, st') := f bound ⟨dn, as⟩ st; (codeOf r, st'))
      | .delete dn => (match pick srv.deleteFns dn with
        | none => (.ok 53, st)
        | some f => let (r, st') := f bound dn st; (codeOf r, st'))
      | .modify dn cs => (match pick srv.modifyFns dn with
        | none => (.ok 53, st)
        | some f => let (r, st') := f bound ⟨dn, cs⟩ st; (codeOf r, st'))
      | .rename dn rdn del => (match pick srv.modifyDNFns dn with
        | none => (.ok 53, st)
        | some f => let (r, st') := f bound ⟨dn, rdn, del⟩ st; (codeOf r, st'))) := by
  rw [write_packet V _ w hs]
  cases w with
  | add dn as =>
    obtain ⟨nm, h⟩ := hn dn (by simp [Write.names])
    simp only [handleAdd, hb, if_false, Write.packet, parseAdd_wire V.C dn as h, callFn]
    cases pick srv.addFns dn <;> rfl
  | delete dn =>
    obtain ⟨nm, h⟩ := hn dn (by simp [Write.names])
    simp only [handleDelete, hb, if_false, Write.packet, parseDelete_wire V.C dn h, callFn]
    cases pick srv.deleteFns dn <;> rfl
  | modify dn cs =>
    obtain ⟨nm, h⟩ := hn dn (by simp [Write.names])
    simp only [handleModify, hb, if_false, Write.packet, parseModify_wire V.C dn cs h hk, callFn]
    cases pick srv.modifyFns dn <;> rfl
  | rename dn rdn del =>
    obtain ⟨nm, h⟩ := hn dn (by simp [Write.names])
    obtain ⟨nm', h'⟩ := hn rdn (by simp [Write.names])
    simp only [handleModifyDN, hb, if_false, Write.packet, parseModifyDN_wire V.C dn rdn del h h', callFn]
    cases pick srv.modifyDNFns dn <;> rfl

end

/-! ## Concrete cases -/

/-- hypotheses, and requests that do something -/
example : let w : Write := .modify b!"UID=ann,dc=lg" [⟨2, b!"mail", [b!"new@lg"]⟩, ⟨0, b!"cn", [b!"A", b!"B"]⟩]
    HistOk asciiCase (toyOps ++ [w.op]) ∧ (∀ c ∈ [(⟨2, b!"mail", [b!"new@lg"]⟩ : Change), ⟨0, b!"cn", [b!"A", b!"B"]⟩], c.op ≤ 2) ∧
    (∀ s ∈ w.names, (parseDN asciiCase s).isSome) ∧ (toyReq toyCfg.admin w.packet).resps = [.result 7 7 0] ∧
    (specStep asciiCase (validatePw asciiCase toyCrypto) toyBase (dirAfter asciiCase (validatePw asciiCase toyCrypto) toyBase toyOps) w.op).1
      = .ok () := by decide +kernel
example : (toyReq toyCfg.admin (Write.add b!"uid=ANN,dc=lg" [⟨b!"uid", [b!"x"]⟩]).packet).resps = [.result 7 9 68] ∧
    (toyReq toyCfg.admin (Write.modify b!"uid=ann,dc=lg" [⟨1, b!"uid", []⟩]).packet).resps = [.result 7 7 67] ∧
    (toyReq toyCfg.admin (Write.delete b!"dc=lg").packet).resps = [.result 7 11 53] ∧
    (toyReq toyCfg.admin (Write.delete b!"dc").packet).resps = [.result 7 11 2] ∧
    (toyReq b!"uid=ann,dc=lg" (Write.delete b!"uid=ann,dc=lg").packet).resps = [.result 7 11 50] ∧
    (toyReq toyCfg.admin (Write.rename b!"uid=ann,dc=lg" b!"uid=bob" true).packet).resps = [.result 7 13 0] := by decide +kernel

/-- with metrics -/
example : (handlePacket toyEnv (boltSrv toyEnv gobInstance toyCfg 8 true) toyOracle (wMsg 7 (Write.delete b!"uid=ann,dc=lg").packet) toyCfg.admin
    toyDb).resps = [.result 7 11 0] ∧ (Write.delete b!"uid=ann,dc=lg").respTag ≠ 9 := by decide +kernel

end Idm
