import Verif.Model.Fold
import Verif.Model.Ber
import Verif.Model.Entry
/-!
# Specification of search filters (RFC 4511 section 4.5.1.7)

An abstract syntax of filters, what it means for an entry to satisfy one, and which packets encode one.
-/
namespace Idm

/-- Filters. idm does not support the last two kinds: `cmp tag a v` is greaterOrEqual (5), lessOrEqual (6) or approxMatch (8), `ext` is
extensibleMatch. -/
inductive Filter where
  | and (fs : List Filter)
  | or (fs : List Filter)
  | not (f : Filter)
  | eq (attr val : Str)
  | sub (attr : Str) (initial : Option Str) (any : List Str) (final : Option Str)
  | present (attr : Str)
  | cmp (tag : Nat) (attr val : Str)
  | ext (rule attr : Option Str) (val : Str) (dnAttributes : Bool)

/-- The text `v` can be cut into pieces of which the strings `ms` are some, in this order, and `final` is the end. -/
def MatchMid (final : Option Str) : List Str → Str → Prop
  | [], v => ∃ x, v = x ++ final.getD []
  | m :: ms, v => ∃ x y, v = x ++ m ++ y ∧ MatchMid final ms y

/-- Substring assertion on a value. -/
def MatchSub (initial : Option Str) (any : List Str) (final : Option Str) (v : Str) : Prop :=
  ∃ y, v = initial.getD [] ++ y ∧ MatchMid final any y

mutual
/-- The entry satisfies the filter. Attribute names and values are compared ignoring case; `u` is the meaning of the unsupported
filters. -/
def Sat (C : CaseEnv) (u : Filter → Entry → Prop) (e : Entry) : Filter → Prop
  | .and fs => SatAll C u e fs
  | .or fs => SatAny C u e fs
  | .not f => ¬ Sat C u e f
  | .eq a v => ∃ x ∈ e.attrs, C.eqFold x.name a = true ∧ ∃ w ∈ x.vals, C.eqFold w v = true
  | .sub a i m f => ∃ x ∈ e.attrs, C.eqFold x.name a = true ∧
      ∃ w ∈ x.vals, MatchSub (i.map C.fold) (m.map C.fold) (f.map C.fold) (C.fold w)
  | .present a => ∃ x ∈ e.attrs, C.eqFold x.name a = true
  | .cmp t a v => u (.cmp t a v) e
  | .ext r a v d => u (.ext r a v d) e
/-- All of the filters. -/
def SatAll (C : CaseEnv) (u : Filter → Entry → Prop) (e : Entry) : List Filter → Prop
  | [] => True
  | f :: fs => Sat C u e f ∧ SatAll C u e fs
/-- One of the filters. -/
def SatAny (C : CaseEnv) (u : Filter → Entry → Prop) (e : Entry) : List Filter → Prop
  | [] => False
  | f :: fs => Sat C u e f ∨ SatAny C u e fs
end

/-- The substring components with their tags: initial 0, any 1, final 2. -/
def components (i : Option Str) (m : List Str) (f : Option Str) : List (Nat × Str) :=
  i.toList.map ((0, ·)) ++ m.map ((1, ·)) ++ f.toList.map ((2, ·))

/-- The parts of an extensible match with their tags: matching rule 1, type 2, value 3, dnAttributes 4 (left out if false). -/
def extParts (r a : Option Str) (v : Str) (d : Bool) : List (Nat × Str) :=
  r.toList.map ((1, ·)) ++ a.toList.map ((2, ·)) ++ [(3, v)] ++ (if d then [(4, [255])] else [])

mutual
/-- The packet is an encoding of the filter, as RFC 4511 (and go-ldap's `CompileFilter`) writes it. -/
def Encodes : Filter → Packet → Prop
  | .and fs, p => p.tag = 0 ∧ EncodesAll fs p.kids
  | .or fs, p => p.tag = 1 ∧ EncodesAll fs p.kids
  | .not f, p => p.tag = 2 ∧ ∃ q, p.kids = [q] ∧ Encodes f q
  | .eq a v, p => p.tag = 3 ∧ ∃ x y, p.kids = [x, y] ∧ x.val = .str a ∧ y.val = .str v
  | .sub a i m f, p => p.tag = 4 ∧ ∃ x s, p.kids = [x, s] ∧ x.val = .str a ∧
      s.kids.map (fun q => (q.tag, q.data)) = components i m f
  | .present a, p => p.tag = 7 ∧ p.data = a
  | .cmp t a v, p => (t = 5 ∨ t = 6 ∨ t = 8) ∧ p.tag = t ∧ ∃ x y, p.kids = [x, y] ∧ x.val = .str a ∧ y.val = .str v
  | .ext r a v d, p => p.tag = 9 ∧ p.kids.map (fun q => (q.tag, q.data)) = extParts r a v d
def EncodesAll : List Filter → List Packet → Prop
  | [], ps => ps = []
  | f :: fs, ps => ∃ q qs, ps = q :: qs ∧ Encodes f q ∧ EncodesAll fs qs
end

mutual
/-- No filter of an unsupported kind occurs. -/
def Supported : Filter → Prop
  | .and fs => SupportedAll fs
  | .or fs => SupportedAll fs
  | .not f => Supported f
  | .cmp .. => False
  | .ext .. => False
  | _ => True
def SupportedAll : List Filter → Prop
  | [] => True
  | f :: fs => Supported f ∧ SupportedAll fs
end

mutual
/-- Every substring filter has exactly one component (`a*`, `*a*` or `*a`). -/
def OneComponent : Filter → Prop
  | .and fs => OneComponentAll fs
  | .or fs => OneComponentAll fs
  | .not f => OneComponent f
  | .sub _ i m f => (components i m f).length = 1
  | _ => True
def OneComponentAll : List Filter → Prop
  | [] => True
  | f :: fs => OneComponent f ∧ OneComponentAll fs
end

mutual
/-- Every substring filter has a component. -/
def HasComponents : Filter → Prop
  | .and fs => HasComponentsAll fs
  | .or fs => HasComponentsAll fs
  | .not f => HasComponents f
  | .sub _ i m f => components i m f ≠ []
  | _ => True
def HasComponentsAll : List Filter → Prop
  | [] => True
  | f :: fs => HasComponents f ∧ HasComponentsAll fs
end

mutual
/-- The filter with all components but the first left out of every substring filter: `(a=x*y*z)` becomes `(a=x*)`, `(a=*x*y)` becomes
`(a=*x*)`. -/
def firstOnly : Filter → Filter
  | .and fs => .and (firstOnlyAll fs)
  | .or fs => .or (firstOnlyAll fs)
  | .not f => .not (firstOnly f)
  | .sub a (some i) _ _ => .sub a (some i) [] none
  | .sub a none (m :: _) _ => .sub a none [m] none
  | .sub a none [] f => .sub a none [] f
  | .eq a v => .eq a v
  | .present a => .present a
  | .cmp t a v => .cmp t a v
  | .ext r a v d => .ext r a v d
def firstOnlyAll : List Filter → List Filter
  | [] => []
  | f :: fs => firstOnly f :: firstOnlyAll fs
end

mutual
/-- Negation does not occur; every substring filter has a component. -/
def Positive : Filter → Prop
  | .and fs => PositiveAll fs
  | .or fs => PositiveAll fs
  | .not _ => False
  | .sub _ i m f => components i m f ≠ []
  | _ => True
def PositiveAll : List Filter → Prop
  | [] => True
  | f :: fs => Positive f ∧ PositiveAll fs
end

end Idm
