import Verif.Spec.Filter
/-!
# Specification: filters on the wire

`ber.ReadPacket` gives context-tagged strings no value, only data; `Wire` therefore speaks of data only.
-/
namespace Idm

mutual
/-- The packet, as read from the wire, is an encoding of the filter (RFC 4511 section 4.5.1). -/
def Wire : Filter → Packet → Prop
  | .and fs, p => p.tag = 0 ∧ WireAll fs p.kids
  | .or fs, p => p.tag = 1 ∧ WireAll fs p.kids
  | .not f, p => p.tag = 2 ∧ ∃ q, p.kids = [q] ∧ Wire f q
  | .eq a v, p => p.tag = 3 ∧ ∃ x y, p.kids = [x, y] ∧ x.data = a ∧ y.data = v
  | .sub a i m f, p => p.tag = 4 ∧ ∃ x s, p.kids = [x, s] ∧ x.data = a ∧
      s.kids.map (fun q => (q.tag, q.data)) = components i m f
  | .present a, p => p.tag = 7 ∧ p.data = a
  | .cmp t a v, p => (t = 5 ∨ t = 6 ∨ t = 8) ∧ p.tag = t ∧ ∃ x y, p.kids = [x, y] ∧ x.data = a ∧ y.data = v
  | .ext r a v d, p => p.tag = 9 ∧ p.kids.map (fun q => (q.tag, q.val, q.data)) = (extParts r a v d).map fun c => (c.1, .nil, c.2)
def WireAll : List Filter → List Packet → Prop
  | [], ps => ps = []
  | f :: fs, ps => ∃ q qs, ps = q :: qs ∧ Wire f q ∧ WireAll fs qs
end

/-- An attribute description without characters that mean something in filter texts. RFC 4512 attribute descriptions (letters, digits,
`-`, `.` and `;`) are of this kind. -/
def AttrText (a : Str) : Prop := ∀ c ∈ a, c < 128 ∧ c ∉ b!"()&|!:=<>~"

instance (a : Str) : Decidable (AttrText a) := by unfold AttrText; infer_instance

mutual
/-- Ordinary attribute descriptions; the strings of a substring filter are not empty (RFC 4511 requires both). In an extensible match
`dnAttributes` is not set (see `C59_dn_attributes_fails`) and the matching rule is not called `dn`, which the text form of RFC 4515 cannot tell
from that flag. -/
def FilterOk : Filter → Prop
  | .and fs => FilterOkAll fs
  | .or fs => FilterOkAll fs
  | .not f => FilterOk f
  | .eq a _ => AttrText a
  | .sub a i m f => AttrText a ∧ components i m f ≠ [] ∧ ∀ c ∈ components i m f, c.2 ≠ []
  | .present a => AttrText a
  | .cmp _ a _ => AttrText a
  | .ext r a _ d => (∀ x, r = some x → x ≠ [] ∧ AttrText x ∧ x ≠ b!"dn") ∧ (∀ x, a = some x → x ≠ [] ∧ AttrText x) ∧ d = false
def FilterOkAll : List Filter → Prop
  | [] => True
  | f :: fs => FilterOk f ∧ FilterOkAll fs
end

end Idm
