import Verif.Spec.Write
import Verif.Spec.Session
/-!
# Well-formed requests (RFC 4511 sections 4.2, 4.6 to 4.9, RFC 3062 section 2)

Which packet trees are a request, and which one. RFC 4511 is stricter in these points: a name is an OCTET STRING (here: anything whose value
is a string), the kind of a change is an ENUMERATED of one byte (here: its first byte counts), a change has two parts (here: more may follow),
a simple password has a context-specific tag (here: the class is not looked at), and no part of a password change is given twice (here:
the last one counts).
-/
namespace Idm

/-- The two lists correspond element by element. -/
def Each {α β : Type} (R : α → β → Prop) : List α → List β → Prop
  | [], [] => True
  | a :: as, b :: bs => R a b ∧ Each R as bs
  | _, _ => False

/-- `AttributeDescription`: an OCTET STRING. -/
def IsDescription (p : Packet) (s : Str) : Prop := p.cls = .universal ∧ p.cons = false ∧ p.tag = 4 ∧ p.val = .str s

/-- A SET of strings. -/
def IsValues (p : Packet) (vs : List Str) : Prop := p.cls = .universal ∧ p.cons = true ∧ p.tag = 17 ∧ Each (fun k v => k.val = .str v) p.kids vs

/-- A SEQUENCE of such things. -/
def IsSeqOf {α : Type} (R : Packet → α → Prop) (p : Packet) (xs : List α) : Prop :=
  p.cls = .universal ∧ p.cons = true ∧ p.tag = 16 ∧ Each R p.kids xs

/-- `Attribute`: description and values. -/
def IsAttribute (p : Packet) (a : Attr) : Prop := ∃ t v, p.kids = [t, v] ∧ IsDescription t a.name ∧ IsValues v a.vals

/-- `change`: the values may be missing. -/
def IsChange (p : Packet) (c : Change) : Prop := ∃ o a more b, p.kids = o :: a :: more ∧ o.data.head? = some b ∧ b.toNat = c.op ∧ c.op ≤ 2 ∧
  (IsAttribute a ⟨c.typ, c.vals⟩ ∨ c.vals = [] ∧ ∃ t, a.kids = [t] ∧ IsDescription t c.typ)

/-- The packet is the write request. -/
def IsWrite (req : Packet) : Write → Prop
  | .add dn as => req.tag = 8 ∧ ∃ d l, req.kids = [d, l] ∧ d.val = .str dn ∧ IsSeqOf IsAttribute l as
  | .delete dn => req.tag = 10 ∧ req.kids = [] ∧ req.data = dn
  | .modify dn cs => req.tag = 6 ∧ ∃ d l, req.kids = [d, l] ∧ d.val = .str dn ∧ IsSeqOf IsChange l cs
  | .rename dn rdn del => req.tag = 12 ∧ ∃ d n b, req.kids = [d, n, b] ∧ d.val = .str dn ∧ n.val = .str rdn ∧ b.val = .bool del

/-- The names in the request are names. -/
def NamesParse (C : CaseEnv) (w : Write) : Prop := ∀ s ∈ w.names, parseDN C s ≠ none

/-- The packet is a simple bind of LDAP version 3. -/
def IsBind (req : Packet) (dn pw : Str) : Prop :=
  ∃ v d a, req.kids = [v, d, a] ∧ v.val = .int 3 ∧ d.val = .str dn ∧ a.tag = 0 ∧ a.data = pw

/-- The part of a password change with a tag: the last one, empty if there is none. -/
def pwPart (tag : Nat) (ks : List Packet) : Str := (((ks.filter fun k => k.tag = tag).getLast?).map Packet.data).getD []

/-- The packet is an extended request with the OID of the password change and the value, if any. -/
def IsPwExop (req : Packet) (value : Option Str) : Prop :=
  (∃ o, req.kids = [o] ∧ o.cls = .context ∧ o.tag = 0 ∧ o.data = b!"1.3.6.1.4.1.4203.1.11.1" ∧ value = none) ∨
  (∃ o b, req.kids = [o, b] ∧ o.cls = .context ∧ o.tag = 0 ∧ o.data = b!"1.3.6.1.4.1.4203.1.11.1" ∧ b.cls = .context ∧ b.tag = 1 ∧
    value = some b.data)

/-- The decoded value has at most three parts, all with tags 0 to 2: user, old and new password. -/
def IsPwValue (inner : Packet) (user old new : Str) : Prop :=
  inner.kids.length ≤ 3 ∧ (∀ k ∈ inner.kids, k.cls = .context ∧ k.tag ≤ 2) ∧
    user = pwPart 0 inner.kids ∧ old = pwPart 1 inner.kids ∧ new = pwPart 2 inner.kids

mutual
/-- The packet is taken for a filter. RFC 4511 section 4.5.1 is stricter: the tags go up to 9, the numbers of parts are exact, and their types
are looked at; whether the parts make a filter that can be applied is found out later (C59, C27). -/
def TakenFilter : Packet → Prop
  | .mk _ _ tag _ _ kids =>
    ((tag = 0 ∨ tag = 1) → TakenFilters kids) ∧
    (tag = 2 → TakenFirst kids) ∧
    ((tag = 3 ∨ tag = 4 ∨ tag = 5 ∨ tag = 6 ∨ tag = 8) → 2 ≤ kids.length) ∧
    (tag = 9 → ∀ k ∈ kids, k.tag = 4 → ∃ b, k.val = .bool b)
def TakenFilters : List Packet → Prop
  | [] => True
  | p :: ps => TakenFilter p ∧ TakenFilters ps
def TakenFirst : List Packet → Prop
  | [] => False
  | p :: _ => TakenFilter p
end

/-- `SearchRequest` with all its parts. -/
def wSearchAll (base : Str) (scope deref size time : Int) (types : Bool) (filter : Packet) (attrs : List Str) : Packet :=
  let int (i : Int) : Packet := .mk .universal false 2 (.int i) [] []
  wReq 3 [octet base, int scope, int deref, int size, int time, wBool types, filter, wSeq (attrs.map octet)]

/-- The packet is a search request: eight parts with values of these types. RFC 4511 is stricter: scope and dereferencing are ENUMERATED with three
and four values, the limits are not negative, and `typesOnly` is there (here: a part without value counts as false). -/
def IsSearch (req : Packet) (base : Str) (scope deref size time : Int) (types : Bool) (filter : Packet) (attrs : List Str) : Prop :=
  ∃ b s d z t y a, req.kids = [b, s, d, z, t, y, filter, a] ∧ b.val = .str base ∧ s.val = .int scope ∧ d.val = .int deref ∧ z.val = .int size ∧
    t.val = .int time ∧ (y.val = .bool types ∨ y.val = .nil ∧ types = false) ∧ TakenFilter filter ∧ Each (fun k v => k.val = .str v) a.kids attrs

/-- What the value asks for; a missing value, and one that is not BER at all, for nothing in particular. -/
def PwAsks (V : Env) (value : Option Str) (user old new : Str) : Prop :=
  match value.bind V.berDecode with
  | none => user = [] ∧ old = [] ∧ new = []
  | some inner => IsPwValue inner user old new

end Idm
