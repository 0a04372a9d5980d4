import Verif.Model.Server
/-!
# What clients send: LDAP messages as packet trees (RFC 4511 section 4)

These are the trees `ber.ReadPacket` makes of correctly encoded requests (C77). The data of a constructed packet are the encodings of its parts.
-/
namespace Idm

/-- SEQUENCE, SET, BOOLEAN, ENUMERATED (one byte). -/
def wSeq (kids : List Packet) : Packet := .mk .universal true 16 .nil (kids.flatMap berBytes) kids
def wSet (kids : List Packet) : Packet := .mk .universal true 17 .nil (kids.flatMap berBytes) kids
def wBool (b : Bool) : Packet := .mk .universal false 1 (.bool b) [if b then 255 else 0] []
def wEnum (i : Nat) : Packet := .mk .universal false 10 (.int i) [UInt8.ofNat i] []

/-- `LDAPMessage` without controls. -/
def wMsg (id : Int) (req : Packet) : Packet := wSeq [berInt id, req]

/-- A constructed request. -/
def wReq (tag : Nat) (kids : List Packet) : Packet := .mk .application true tag .nil (kids.flatMap berBytes) kids

/-- `Attribute`. -/
def wAttr (a : Attr) : Packet := wSeq [octet a.name, wSet (a.vals.map octet)]

/-- `AddRequest`. -/
def wAdd (r : AddReq) : Packet := wReq 8 [octet r.dn, wSeq (r.attrs.map wAttr)]

/-- `DelRequest`: a primitive that contains the name. -/
def wDelete (dn : Str) : Packet := .mk .application false 10 .nil dn []

/-- One change of a `ModifyRequest`. -/
def wChange (c : Change) : Packet := wSeq [wEnum c.op, wAttr ⟨c.typ, c.vals⟩]

/-- `ModifyRequest`. -/
def wModify (r : ModifyReq) : Packet := wReq 6 [octet r.dn, wSeq (r.changes.map wChange)]

/-- `ModifyDNRequest` without new superior. -/
def wModifyDN (r : ModifyDNReq) : Packet := wReq 12 [octet r.dn, octet r.newRDN, wBool r.deleteOldRDN]

/-- `BindRequest` with simple authentication. -/
def wBind (dn pw : Str) : Packet := wReq 0 [berInt 3, octet dn, ctxStr 0 pw]

/-- `SearchRequest`: `filter` is the packet of the filter. -/
def wSearch (base : Str) (scope sizeLimit : Nat) (filter : Packet) (attrs : List Str) : Packet :=
  wReq 3 [octet base, wEnum scope, wEnum 0, berInt sizeLimit, berInt 0, wBool false, filter, wSeq (attrs.map octet)]

/-- Password modify (RFC 3062): the request value is the encoding `body` of a sequence. -/
def wPwModify (body : Str) : Packet := wReq 23 [ctxStr 0 b!"1.3.6.1.4.1.4203.1.11.1", ctxStr 1 body]

end Idm
