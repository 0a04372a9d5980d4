import Verif.Spec.Ber
import Verif.Spec.FilterText
import Verif.Spec.Ldif
import Verif.Spec.Write
/-!
# LDAP messages as values to be encoded (RFC 4511 section 4)

The requests of `Spec/Wire` as `Tlv`s, to be encoded by any client, and what a client reads in the responses.
-/
namespace Idm

/-- An `int64`. -/
def Int64 (i : Int) : Prop := -(2 ^ 63) ≤ i ∧ i < 2 ^ 63

/-- INTEGER in two's complement with as few bytes as possible, OCTET STRING, BOOLEAN, ENUMERATED (one byte), SEQUENCE, SET; a
context-specific string, a constructed request. -/
def tInt (i : Int) : Tlv := .prim .universal 2 (intBytes i)
def tOct (s : Str) : Tlv := .prim .universal 4 s
def tBool (b : Bool) : Tlv := .prim .universal 1 [if b then 255 else 0]
def tEnum (i : Nat) : Tlv := .prim .universal 10 [UInt8.ofNat i]
def tSeq (ks : List Tlv) : Tlv := .con .universal 16 ks
def tSet (ks : List Tlv) : Tlv := .con .universal 17 ks
def tCtx (tag : Nat) (s : Str) : Tlv := .prim .context tag s
def tReq (tag : Nat) (ks : List Tlv) : Tlv := .con .application tag ks

/-- `LDAPMessage` without and with controls. -/
def tMsg (id : Int) (req : Tlv) : Tlv := tSeq [tInt id, req]
def tMsgC (id : Int) (req : Tlv) (controls : List Tlv) : Tlv := tSeq [tInt id, req, .con .context 0 controls]

/-- The requests. -/
def tAttr (a : Attr) : Tlv := tSeq [tOct a.name, tSet (a.vals.map tOct)]
def tAdd (r : AddReq) : Tlv := tReq 8 [tOct r.dn, tSeq (r.attrs.map tAttr)]
def tDelete (dn : Str) : Tlv := .prim .application 10 dn
def tChange (c : Change) : Tlv := tSeq [tEnum c.op, tAttr ⟨c.typ, c.vals⟩]
def tModify (r : ModifyReq) : Tlv := tReq 6 [tOct r.dn, tSeq (r.changes.map tChange)]
def tModifyDN (r : ModifyDNReq) : Tlv := tReq 12 [tOct r.dn, tOct r.newRDN, tBool r.deleteOldRDN]
def tBind (dn pw : Str) : Tlv := tReq 0 [tInt 3, tOct dn, tCtx 0 pw]
def tSearch (base : Str) (scope sizeLimit : Nat) (filter : Tlv) (attrs : List Str) : Tlv :=
  tReq 3 [tOct base, tEnum scope, tEnum 0, tInt sizeLimit, tInt 0, tBool false, filter, tSeq (attrs.map tOct)]
def tPwModify (body : Str) : Tlv := tReq 23 [tCtx 0 b!"1.3.6.1.4.1.4203.1.11.1", tCtx 1 body]

mutual
/-- `Filter`. -/
def tFilter : Filter → Tlv
  | .and fs => .con .context 0 (tFilters fs)
  | .or fs => .con .context 1 (tFilters fs)
  | .not f => .con .context 2 [tFilter f]
  | .eq a v => .con .context 3 [tOct a, tOct v]
  | .sub a i m f => .con .context 4 [tOct a, tSeq ((components i m f).map fun c => tCtx c.1 c.2)]
  | .present a => tCtx 7 a
  | .cmp t a v => .con .context t [tOct a, tOct v]
  | .ext r a v d => .con .context 9 ((extParts r a v d).map fun c => tCtx c.1 c.2)
def tFilters : List Filter → List Tlv
  | [] => []
  | f :: fs => tFilter f :: tFilters fs
end

/-- `PasswdModifyRequestValue` of RFC 3062: the parts that are present. -/
def tPwBody (user old new : Option Str) : Tlv :=
  tSeq (user.toList.map (tCtx 0) ++ old.toList.map (tCtx 1) ++ new.toList.map (tCtx 2))

/-- The paging control of RFC 2696 with the encoding `v` of its value; the criticality may be left out. -/
def tPaging (critical : Option Bool) (v : Str) : Tlv := tSeq ([tOct b!"1.2.840.113556.1.4.319"] ++ critical.toList.map tBool ++ [tOct v])

/-- A control of RFC 4511 section 4.1.11. -/
def tControlOf (oid : Str) (critical : Option Bool) (value : Option Str) : Tlv :=
  tSeq ([tOct oid] ++ critical.toList.map tBool ++ value.toList.map tOct)

/-- `realSearchControlValue` of RFC 2696. -/
def tPagingValue (size : Nat) (cookie : Str) : Tlv := tSeq [tInt size, tOct cookie]

mutual
/-- `cmp` encodes greater or equal, less or equal, approximate match. -/
def RfcFilter : Filter → Prop
  | .and fs => RfcFilters fs
  | .or fs => RfcFilters fs
  | .not f => RfcFilter f
  | .cmp t _ _ => t = 5 ∨ t = 6 ∨ t = 8
  | _ => True
def RfcFilters : List Filter → Prop
  | [] => True
  | f :: fs => RfcFilter f ∧ RfcFilters fs
end

/-- A request of a client. -/
inductive Request where
  | bind (dn pw : Str)
  | write (w : Write)
  | search (base : Str) (scope sizeLimit : Nat) (filter : Filter) (attrs : List Str)
  | password (body : Str)

namespace Request

/-- The request as a value to be encoded. -/
def tlv : Request → Tlv
  | bind dn pw => tBind dn pw
  | write (.add dn as) => tAdd ⟨dn, as⟩
  | write (.delete dn) => tDelete dn
  | write (.modify dn cs) => tModify ⟨dn, cs⟩
  | write (.rename dn rdn del) => tModifyDN ⟨dn, rdn, del⟩
  | search base scope size f attrs => tSearch base scope size (tFilter f) attrs
  | password body => tPwModify body

/-- The packet is the one of the request that the theorems about the server speak of. -/
def IsPacket : Request → Packet → Prop
  | bind dn pw, p => p = wBind dn pw
  | write w, p => p = w.packet
  | search base scope size f attrs, p => ∃ w, Wire f w ∧ p = wSearch base scope size w attrs
  | password body, p => p = wPwModify body

/-- The numbers in the request have one byte (ENUMERATED) or eight (INTEGER). -/
def Fits : Request → Prop
  | write (.modify _ cs) => ∀ c ∈ cs, c.op < 128
  | search _ scope size f _ => scope < 128 ∧ size < 2 ^ 63 ∧ RfcFilter f
  | _ => True

end Request

/-- A random source for each packet. -/
def withOracles : (Nat → Oracle) → List Packet → List (Packet × Oracle)
  | _, [] => []
  | oracle, p :: ps => (p, oracle 0) :: withOracles (fun i => oracle (i + 1)) ps

/-- The client closes the connection, if it is still open. -/
def hangUp {σ : Type} (srv : Srv σ) (o : ConnOut σ) : ConnOut σ := match o.next with
  | .go b => ⟨o.log, .closed, srv.close b o.st⟩
  | _ => o

/-! ## Responses -/

/-- `LDAPResult`: the code, an empty matched DN, any message. -/
def IsResult (code : Nat) (ks : List Tlv) : Prop := ∃ c m, ks = [.prim .universal 10 c, tOct [], tOct m] ∧ sint c = code

/-- A control of a response. -/
def IsControl : Control → Tlv → Prop
  | .paging size cookie, t => ∃ v, BerOf (tPagingValue size cookie) v ∧ t = tPaging none v
  | .other oid, t => t = tSeq [tOct oid]

def AreControls : List Control → List Tlv → Prop
  | [], ts => ts = []
  | c :: cs, ts => ∃ t ts', ts = t :: ts' ∧ IsControl c t ∧ AreControls cs ts'

/-- The message is the response, according to RFC 4511 (sections 4.1.9, 4.2.2, 4.5.2, 4.12), RFC 3062 and RFC 2696: what a client finds in
the message is what the response says. -/
def IsReply (t : Tlv) : Resp → Prop
  | .result id tag code => ∃ i ks, t = tSeq [.prim .universal 2 i, tReq tag ks] ∧ sint i = id ∧ IsResult code ks
  | .entry id e => ∃ i, t = tSeq [.prim .universal 2 i, tReq 4 [tOct e.dn, tSeq (e.attrs.map tAttr)]] ∧ sint i = id
  | .searchDone id code none => ∃ i ks, t = tSeq [.prim .universal 2 i, tReq 5 ks] ∧ sint i = id ∧ IsResult code ks
  | .searchDone id code (some cs) => ∃ i ks ts, t = tSeq [.prim .universal 2 i, tReq 5 ks, .con .context 0 ts] ∧ sint i = id ∧
      IsResult code ks ∧ AreControls cs ts
  | .extended id code oid none => ∃ i ks, t = tSeq [.prim .universal 2 i, tReq 24 (ks ++ [tCtx 10 oid])] ∧ sint i = id ∧ IsResult code ks
  | .extended id code oid (some pw) => ∃ i ks v, t = tSeq [.prim .universal 2 i, tReq 24 (ks ++ [tCtx 10 oid, tCtx 11 v])] ∧ sint i = id ∧
      IsResult code ks ∧ BerOf (tSeq [tCtx 0 pw]) v

/-- The messages are the responses, one by one. -/
def AreReplies : List Tlv → List Resp → Prop
  | [], [] => True
  | t :: ts, r :: rs => IsReply t r ∧ AreReplies ts rs
  | _, _ => False

/-- The result codes in use: those of RFC 4511 section 4.1.9 for success (0), operationsError, protocolError, sizeLimitExceeded, invalidDNSyntax,
inappropriateAuthentication, invalidCredentials, insufficientAccessRights, unwillingToPerform, notAllowedOnRDN, entryAlreadyExists and other;
and 84, which RFC 4511 does not define (a code of the client library, decodingError). -/
def ReplyCode (code : Nat) : Prop := code ∈ [0, 1, 2, 4, 34, 48, 49, 50, 53, 67, 68, 80, 84]

instance (code : Nat) : Decidable (ReplyCode code) := by unfold ReplyCode; infer_instance

/-- A response as the server makes them: the message ID is an `int64`; the type of a result is that of a response (or that of a compare
request, 14); page sizes are a `uint32`. -/
def Sendable : Resp → Prop
  | .result id tag code => Int64 id ∧ ReplyCode code ∧ (tag = 1 ∨ tag = 7 ∨ tag = 9 ∨ tag = 11 ∨ tag = 13 ∨ tag = 14 ∨ tag = 24)
  | .entry id _ => Int64 id
  | .searchDone id code cs => Int64 id ∧ ReplyCode code ∧ ∀ l, cs = some l → ∀ n k, .paging n k ∈ l → n < 2 ^ 32
  | .extended id code _ _ => Int64 id ∧ ReplyCode code

end Idm
