import Verif.Spec.Wire
/-!
# Specification vocabulary for what the servers do not offer
-/
namespace Idm

/-- A request for something that is not offered: the request, the tag of the response it calls for, and the result code RFC 4511 prescribes.

* another version of the protocol (4.2: protocolError)
* another bind method than a simple one, such as SASL (4.2, A.2: authMethodNotSupported)
* another extended operation than password modify, such as StartTLS or "Who am I?" (4.12: protocolError)
* moving an entry to another parent (4.9 leaves it to the server, which says unwillingToPerform)
* another kind of change than add, delete and replace, such as increment (A.2: protocolError) -/
inductive NotOffered : Packet → Nat → Nat → Prop where
  | version (v : Int) (more : List Packet) : v ≠ 3 → NotOffered (wReq 0 (berInt v :: more)) 1 2
  | method (dn : Str) (auth : Packet) : auth.tag ≠ 0 → NotOffered (wReq 0 [berInt 3, octet dn, auth]) 1 7
  | extended (oid : Str) (value : Option Str) : oid ≠ b!"1.3.6.1.4.1.4203.1.11.1" →
    NotOffered (wReq 23 (ctxStr 0 oid :: (value.map (ctxStr 1)).toList)) 24 2
  | move (dn rdn : Str) (del : Bool) (sup : Packet) : NotOffered (wReq 12 [octet dn, octet rdn, wBool del, sup]) 13 53
  | change (dn : Str) (cs cs' : List Change) (c : Change) : 2 < c.op → c.op < 128 → NotOffered (wModify ⟨dn, cs ++ c :: cs'⟩) 7 2

end Idm
