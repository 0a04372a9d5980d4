import Verif.Spec.Ldif
/-!
# Specification vocabulary for numbers and options of requests
-/
namespace Idm

/-- The response with another message number. -/
def Resp.numbered (id : Int) : Resp → Resp
  | .result _ tag code => .result id tag code
  | .entry _ e => .entry id e
  | .searchDone _ code cs => .searchDone id code cs
  | .extended _ code oid pw => .extended id code oid pw

/-- Two messages that differ at most in their numbers and in what comes after the controls. -/
def SameButNumber (p p' : Packet) : Prop :=
  ∃ m m' i i' req more more', p.kids = m :: req :: more ∧ p'.kids = m' :: req :: more' ∧ m.int? = some i ∧ m'.int? = some i' ∧ more.head? = more'.head?

/-- Two sessions, message by message. -/
inductive SameSession : List (Packet × Oracle) → List (Packet × Oracle) → Prop where
  | nil : SameSession [] []
  | cons {p p' : Packet} {ps ps' : List (Packet × Oracle)} (o : Oracle) : p' = p ∨ SameButNumber p p' → SameSession ps ps' →
    SameSession ((p, o) :: ps) ((p', o) :: ps')

/-- `SearchRequest` with all its parts: `deref` says what to do with aliases, `time` is the time limit and `types` asks for types without values. -/
def wSearchO (base : Str) (scope deref sizeLimit : Nat) (time : Int) (types : Bool) (filter : Packet) (attrs : List Str) : Packet :=
  wReq 3 [octet base, wEnum scope, wEnum deref, berInt sizeLimit, berInt time, wBool types, filter, wSeq (attrs.map octet)]

/-- The controls are left out or are not about paging. -/
def NotPaging (V : Env) (controls : List Packet) : Prop := ∀ p ∈ controls, (∃ oid, V.control p = .ok (.other oid)) ∨ ∃ e, V.control p = .err e

/-- `Control`, marked as critical. -/
def wCritical (oid : Str) : Packet := wSeq [octet oid, wBool true]

end Idm
