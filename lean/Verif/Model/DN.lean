import Verif.Model.Fold
/-!
# Distinguished names

* go-ldap v3 `dn.go`: `ParseDN`, `decodeString`, `stripLeadingAndTrailingSpaces`, `DN.EqualFold` (dependency, modelled at byte
  level from its source as known; it is not in `/repo`)
* `/repo/pkg/ldapdn/ldapdn.go`
-/
namespace Idm

/-- go-ldap `AttributeTypeAndValue`. -/
structure AVA where
  typ : Str
  val : Str
  deriving DecidableEq, Repr

/-- go-ldap `RelativeDN` (`Attributes`). -/
abbrev RDN := List AVA

/-- go-ldap `DN` (`RDNs`), most specific RDN first. -/
abbrev DN := List RDN

/-! ## go-ldap: decoding of one type or value -/

def chBackslash : UInt8 := 92
def chSpace : UInt8 := 32
def chEq : UInt8 := 61
def chComma : UInt8 := 44
def chPlus : UInt8 := 43
def chSemi : UInt8 := 59
def chHash : UInt8 := 35

/-- Characters that `\` may escape literally in go-ldap's `decodeString`: space `"` `#` `+` `,` `;` `<` `=` `>` `\`. -/
def isEscapable (c : UInt8) : Bool := (b!" \"#+,;<=>\\").contains c

/-- Value of a hexadecimal digit (encoding/hex accepts both cases). -/
def hexVal (c : UInt8) : Option UInt8 :=
  if 48 ≤ c ∧ c ≤ 57 then some (c - 48)
  else if 97 ≤ c ∧ c ≤ 102 then some (c - 87)
  else if 65 ≤ c ∧ c ≤ 70 then some (c - 55)
  else none

/-- The loop of go-ldap `decodeString`: resolve `\c` and `\XX`. The Go loop runs over runes; on the output of `utf8Fix` this is
the same as running over bytes, since all characters compared are ASCII. -/
def decodeBytes : Str → Option Str
  | [] => some []
  | c :: rest =>
    if c ≠ chBackslash then (decodeBytes rest).map (c :: ·)
    else
      match rest with
      | [] => none
      | d :: rest' =>
        if isEscapable d then (decodeBytes rest').map (d :: ·)
        else
          match rest' with
          | [] => none
          | e :: rest'' =>
            match hexVal d, hexVal e with
            | some x, some y => (decodeBytes rest'').map ((x * 16 + y) :: ·)
            | _, _ => none

/-- go-ldap `stripLeadingAndTrailingSpaces`: trim blanks, but give a trailing one back if it was escaped. -/
def stripSpaces (s : Str) : Str :=
  let t := trimBy (· == chSpace) s
  if t.getLast? = some chBackslash ∧ s.getLast? = some chSpace then t ++ [chSpace] else t

/-- go-ldap `decodeString`. -/
def decodeString (C : CaseEnv) (s : Str) : Option Str := decodeBytes (C.utf8Fix (stripSpaces s))

/-- go-ldap `AttributeTypeAndValue.setValue`. -/
def decodeValue (C : CaseEnv) (s : Str) : Option Str :=
  match s with
  | c :: rest => if c = chHash then C.berHex rest else decodeString C s
  | [] => decodeString C s

/-! ## go-ldap: ParseDN -/

/-- The variables of the loop in `ParseDN`; `cur` is `str[startPos:i]`. -/
structure ScanSt where
  dn : DN := []
  rdn : RDN := []
  typ : Str := []
  cur : Str := []
  esc : Bool := false
  deriving DecidableEq, Repr

/-- Result of `ParseDN`: the DN; or an error, together with the DN pointer that is returned beside the error (`none` for nil).
EntryPut (ldbbolt.go:183) ignores the error and uses the pointer. -/
inductive ParseRes where
  | ok (dn : DN)
  | fail (partialDN : Option DN)
  deriving DecidableEq, Repr

/-- One iteration of the loop of `ParseDN`. -/
def scanStep (C : CaseEnv) (st : ScanSt) (c : UInt8) : Except (Option DN) ScanSt :=
  if st.esc then .ok { st with esc := false, cur := st.cur ++ [c] }
  else if c = chBackslash then .ok { st with esc := true, cur := st.cur ++ [c] }
  else if c = chEq ∧ st.typ = [] then
    match decodeString C st.cur with
    | none => .error none
    | some t => .ok { st with typ := t, cur := [] }
  else if c = chComma ∨ c = chPlus ∨ c = chSemi then
    if st.typ = [] then .error (some st.dn)
    else
      match decodeValue C st.cur with
      | none => .error none
      | some v =>
        let rdn := st.rdn ++ [⟨st.typ, v⟩]
        if c = chPlus then .ok { st with rdn := rdn, typ := [], cur := [] }
        else .ok { st with dn := st.dn ++ [rdn], rdn := [], typ := [], cur := [] }
  else .ok { st with cur := st.cur ++ [c] }

/-- The loop of `ParseDN`. -/
def scan (C : CaseEnv) : ScanSt → Str → Except (Option DN) ScanSt
  | st, [] => .ok st
  | st, c :: cs =>
    match scanStep C st c with
    | .error e => .error e
    | .ok st' => scan C st' cs

/-- What `ParseDN` does after the loop. -/
def scanEnd (C : CaseEnv) (st : ScanSt) : ParseRes :=
  if st.typ = [] then .fail (some st.dn)
  else
    match decodeValue C st.cur with
    | none => .fail (some st.dn)
    | some v => .ok (st.dn ++ [st.rdn ++ [⟨st.typ, v⟩]])

/-- Combine the outcome of the loop with what follows it. -/
def scanFinish (C : CaseEnv) : Except (Option DN) ScanSt → ParseRes
  | .error p => .fail p
  | .ok st => scanEnd C st

/-- go-ldap `ParseDN` with both results. -/
def parseDNRes (C : CaseEnv) (s : Str) : ParseRes :=
  let t := C.trimSpace s
  if t = [] then .ok [] else scanFinish C (scan C {} t)

/-- go-ldap `ParseDN`, as used wherever the error is checked. -/
def parseDN (C : CaseEnv) (s : Str) : Option DN :=
  match parseDNRes C s with
  | .ok dn => some dn
  | .fail _ => none

/-! ## go-ldap: DN.EqualFold -/

/-- go-ldap `AttributeTypeAndValue.EqualFold`. -/
def AVA.eqFold (C : CaseEnv) (a b : AVA) : Bool := C.eqFold a.typ b.typ && C.eqFold a.val b.val

/-- go-ldap `RelativeDN.EqualFold`: same number of attributes and each contained in the other. -/
def rdnEqFold (C : CaseEnv) (r s : RDN) : Bool :=
  r.length == s.length && r.all (fun a => s.any (a.eqFold C ·)) && s.all (fun a => r.any (a.eqFold C ·))

/-- go-ldap `DN.EqualFold`. -/
def dnEqFold (C : CaseEnv) : DN → DN → Bool
  | [], [] => true
  | r :: rs, s :: ss => rdnEqFold C r s && dnEqFold C rs ss
  | _, _ => false

/-! ## /repo/pkg/ldapdn/ldapdn.go -/

/-- Lower-case hexadecimal digit, as written by `hex.EncodeToString`. -/
def hexDigit (n : UInt8) : UInt8 := if n < 10 then 48 + n else 87 + n

/-- Body of the loop of `encodeRDNValue`, ldapdn.go:50-80; `first`: `i == 0`, `last`: `i == len-1`. -/
def escByte (first last : Bool) (c : UInt8) : Str :=
  if (first ∧ c = chSpace) ∨ c = chHash then [chBackslash, c]
  else if last ∧ c = chSpace then [chBackslash, c]
  else if (b!"\"+,;<>\\").contains c then [chBackslash, c]
  else if c < 32 ∨ c > 126 then [chBackslash, hexDigit (c / 16), hexDigit (c % 16)]
  else [c]

/-- The loop of `encodeRDNValue`, ldapdn.go:50-80. -/
def encodeLoop (first : Bool) : Str → Str
  | [] => []
  | c :: cs => escByte first cs.isEmpty c ++ encodeLoop false cs

/-- `encodeRDNValue`, ldapdn.go:37-83. -/
def encodeRDNValue (v : Str) : Str := encodeLoop true v

/-- The inner loop of `Normalize`, ldapdn.go:21-29; `sep` is what precedes the first attribute of the RDN. -/
def renderRDN (sep : Str) : RDN → Str
  | [] => []
  | a :: as => sep ++ a.typ ++ [chEq] ++ encodeRDNValue a.val ++ renderRDN [chPlus] as

/-- The outer loop of `Normalize`, ldapdn.go:18-30, without the case folding; `sep` is empty for the first RDN. -/
def renderFrom (sep : Str) : DN → Str
  | [] => []
  | r :: rs => renderRDN sep r ++ renderFrom [chComma] rs

def render (dn : DN) : Str := renderFrom [] dn

/-- Case folding of all types and values (`caseFold.String` in ldapdn.go:28). -/
def foldDN (C : CaseEnv) (dn : DN) : DN := dn.map (·.map fun a => ⟨C.fold a.typ, C.fold a.val⟩)

/-- `Normalize`, ldapdn.go:15-32. -/
def normalize (C : CaseEnv) (dn : DN) : Str := render (foldDN C dn)

/-- `ParseNormalize`, ldapdn.go:88-94 (`none` for an error). -/
def parseNormalize (C : CaseEnv) (s : Str) : Option Str := (parseDN C s).map (normalize C)

end Idm
