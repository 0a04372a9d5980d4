import Verif.Model.Server
/-!
# Specification vocabulary for connections: requests, responses, identity
-/
namespace Idm

/-- The packet is an LDAP message with this id and request (RFC 4511 section 4.1.1). -/
def Message (p : Packet) (id : Int) (req : Packet) : Prop :=
  ∃ m more, p.kids = m :: req :: more ∧ m.val = .int id ∧ req.cls = .application

/-- The message id of a response. -/
def Resp.id : Resp → Int
  | .result i _ _ => i
  | .entry i _ => i
  | .searchDone i _ _ => i
  | .extended i _ _ _ => i

/-- The result code of a final response. -/
def Resp.code? : Resp → Option Nat
  | .result _ _ c => some c
  | .entry _ _ => none
  | .searchDone _ c _ => some c
  | .extended _ c _ _ => some c

/-- The response ends the answer to a request: everything but a search result entry. -/
def Resp.final : Resp → Bool
  | .entry _ _ => false
  | _ => true

/-- The application tag of a response. -/
def Resp.tag : Resp → Nat
  | .result _ t _ => t
  | .entry _ _ => 4
  | .searchDone _ _ _ => 5
  | .extended _ _ _ _ => 24

/-- RFC 4511: the response type of each request type: bind 0/1, search 3/5, modify 6/7, add 8/9, delete 10/11, rename 12/13,
extended 23/24. -/
def responseTags : List (Nat × Nat) := [(0, 1), (3, 5), (6, 7), (8, 9), (10, 11), (12, 13), (23, 24)]

/-- The packet is a bind request with this (unparsed) name. -/
def BindName (p : Packet) (dn : Str) : Prop :=
  ∃ id req d, Message p id req ∧ req.tag = 0 ∧ req.kids[1]? = some d ∧ d.val = .str dn

/-- A bind was answered with success: there is a bind response (tag 1) with code 0. -/
def BindOk (rs : List Resp) : Prop := ∃ r ∈ rs, r.tag = 1 ∧ r.code? = some 0

end Idm
