import Verif.Model.Ber
import Verif.Model.Entry
/-!
# Filter, scope and attribute selection in the front end, `/repo/pkg/ldapserver/filter.go`
-/
namespace Idm

/-! go-ldap's filter tags (`FilterMap`) and substring tags. -/
def filterAnd : Nat := 0
def filterOr : Nat := 1
def filterNot : Nat := 2
def filterEq : Nat := 3
def filterSub : Nat := 4
def filterPresent : Nat := 7
def subInitial : Nat := 0
def subAny : Nat := 1
def subFinal : Nat := 2

/-- The comparison of one value in the "Substrings" case, filter.go:116-132. -/
def subTest (tag : Nat) (v value : Str) : Bool :=
  if tag = subInitial then hasPrefix v value
  else if tag = subAny then contains v value
  else if tag = subFinal then hasSuffix v value
  else false

/-- The "Equality Match" case, filter.go:53-67. -/
def applyEq (C : CaseEnv) (e : Entry) (kids : List Packet) : Res (Bool × Nat) :=
  match kids with
  | [a, v] => do
    let attr ← a.mustStr
    let value ← v.mustStr
    .ok (e.attrs.any fun x => C.eqFold x.name attr && x.vals.any (C.eqFold · value), rcSuccess)
  | _ => .ok (false, rcOperationsError)

/-- The "Substrings" case, filter.go:106-134. Only the first component is looked at; none at all is an index out of range. -/
def applySub (C : CaseEnv) (e : Entry) (kids : List Packet) : Res (Bool × Nat) :=
  match kids with
  | [a, s] => do
    let attr ← a.mustStr
    match s.kids with
    | [] => .panic
    | c :: _ =>
      .ok (e.attrs.any fun x => C.eqFold x.name attr && x.vals.any fun v => subTest c.tag (C.fold v) (C.fold c.data), rcSuccess)
  | _ => .ok (false, rcOperationsError)

mutual
/-- `ServerApplyFilter`, filter.go:48-147. The last four cases of the Go switch name strings that are not in `FilterMap`; those
filters take the default case, which has the same effect. -/
def applyFilter (C : CaseEnv) (e : Entry) : Packet → Res (Bool × Nat)
  | .mk _ _ tag _ data kids =>
    if tag = filterEq then applyEq C e kids
    else if tag = filterPresent then .ok (e.attrs.any fun x => C.eqFold x.name data, rcSuccess)
    else if tag = filterAnd then applyAnd C e kids
    else if tag = filterOr then applyOr C e kids false
    else if tag = filterNot then applyNot C e kids
    else if tag = filterSub then applySub C e kids
    else .ok (false, rcOperationsError)

/-- The loop of the "And" case, filter.go:74-84. -/
def applyAnd (C : CaseEnv) (e : Entry) : List Packet → Res (Bool × Nat)
  | [] => .ok (true, rcSuccess)
  | p :: ps => do
    let (ok, code) ← applyFilter C e p
    if code ≠ rcSuccess then .ok (false, code)
    else if !ok then .ok (false, rcSuccess)
    else applyAnd C e ps

/-- The loop of the "Or" case, filter.go:85-97. All children are evaluated. -/
def applyOr (C : CaseEnv) (e : Entry) : List Packet → Bool → Res (Bool × Nat)
  | [], any => .ok (any, rcSuccess)
  | p :: ps, any => do
    let (ok, code) ← applyFilter C e p
    if code ≠ rcSuccess then .ok (false, code)
    else applyOr C e ps (any || ok)

/-- The "Not" case, filter.go:98-105. -/
def applyNot (C : CaseEnv) (e : Entry) : List Packet → Res (Bool × Nat)
  | [p] => do
    let (ok, code) ← applyFilter C e p
    if code ≠ rcSuccess then .ok (false, code) else .ok (!ok, rcSuccess)
  | _ => .ok (false, rcOperationsError)
end

/-- What follows the first comma (`strings.Join(parts[1:], ",")`); `none` if there is no comma. -/
def afterComma : Str → Option Str
  | [] => none
  | c :: cs => if c = chComma then some cs else afterComma cs

/-- `ServerFilterScope`, filter.go:149-181. Scopes other than 0, 1 and 2 match no case of the switch. -/
def filterScope (C : CaseEnv) (baseDN : Str) (scope : Nat) (e : Entry) : Bool × Nat :=
  match parseDN C baseDN with
  | none => (false, rcOperationsError)
  | some base =>
    match parseDN C e.dn with
    | none => (false, rcOperationsError)
    | some dn =>
      if scope = 0 then
        if dnEqFold C dn base then (true, rcSuccess) else (false, rcSuccess)
      else if scope = 1 then
        if (afterComma e.dn).isNone && !dnEqFold C dn base then (false, rcSuccess)
        else
          match parseDN C ((afterComma e.dn).getD []) with
          | none => (false, rcOperationsError)
          | some sub => if dnEqFold C sub base then (true, rcSuccess) else (false, rcSuccess)
      else (true, rcSuccess)

/-- `filterAttributes`, search.go:159-173: one copy of an attribute per requested name that matches it. -/
def selectAttrs (C : CaseEnv) (requested : List Str) (attrs : List Attr) : List Attr :=
  attrs.flatMap fun a => (requested.filter fun r => r = b!"*" || C.eqFold a.name r).map fun _ => a

/-- `ServerFilterAttributes`, filter.go:183-193. -/
def filterAttributes (C : CaseEnv) (requested : List Str) (e : Entry) : Entry :=
  if requested.length > 1 || (requested.length = 1 && requested.head? ≠ some []) then ⟨e.dn, selectAttrs C requested e.attrs⟩ else e

end Idm
