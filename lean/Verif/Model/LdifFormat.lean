import Verif.Model.NewUsers
/-!
# The text of LDIF files

github.com/go-ldap/ldif (the dependency pinned in /repo/go.mod:16): `Unmarshal`, which /repo/server/handler/ldif/ldif.go:131-139 and
/repo/cmd/idmd/boltdb/load/load.go:59-63 call, `AllEntries` (load.go:65), and `ToLDIF` followed by `Marshal`, which
/repo/cmd/idmd/boltdb/export/export.go:62-72 calls; and `base64.StdEncoding` of the Go standard library, which it uses. The source of the
library is not in the sandbox: what it does is modelled from its documentation, from RFC 2849 and from memory, and where that leaves
something open it is a parameter (`LdifLib`), about which the theorems assume no more than `LdifLib.Lawful`.
-/
namespace Idm

/-! ## Base64 -/

/-- The character of a digit in base64 (Go standard library, encoding/base64, `StdEncoding`). -/
def b64char (n : Nat) : UInt8 :=
  if n < 26 then UInt8.ofNat (65 + n)
  else if n < 52 then UInt8.ofNat (97 + (n - 26))
  else if n < 62 then UInt8.ofNat (48 + (n - 52))
  else if n = 62 then 43 else 47

/-- The digit a character stands for in base64. -/
def b64digit (c : UInt8) : Option Nat :=
  if 65 ≤ c && c ≤ 90 then some (c.toNat - 65)
  else if 97 ≤ c && c ≤ 122 then some (c.toNat - 97 + 26)
  else if 48 ≤ c && c ≤ 57 then some (c.toNat - 48 + 52)
  else if c = 43 then some 62
  else if c = 47 then some 63
  else none

/-- `base64.StdEncoding.EncodeToString`. -/
def b64enc : Str → Str
  | [] => []
  | [a] => [b64char (a.toNat / 4), b64char (a.toNat % 4 * 16), 61, 61]
  | [a, b] => [b64char (a.toNat / 4), b64char (a.toNat % 4 * 16 + b.toNat / 16), b64char (b.toNat % 16 * 4), 61]
  | a :: b :: c :: r =>
    b64char (a.toNat / 4) :: b64char (a.toNat % 4 * 16 + b.toNat / 16) :: b64char (b.toNat % 16 * 4 + c.toNat / 64) ::
      b64char (c.toNat % 64) :: b64enc r

/-- The loop of `base64.StdEncoding.DecodeString`, for a text without line breaks: groups of four characters, the last one with one or two
`=` at its end. Bits that are left over are ignored. -/
def b64groups : Str → Option Str
  | [] => some []
  | c1 :: c2 :: c3 :: c4 :: r =>
    match b64digit c1, b64digit c2 with
    | some x1, some x2 =>
      if c3 = 61 then if c4 = 61 ∧ r = [] then some [UInt8.ofNat (x1 * 4 + x2 / 16)] else none
      else match b64digit c3 with
        | none => none
        | some x3 =>
          if c4 = 61 then
            if r = [] then some [UInt8.ofNat (x1 * 4 + x2 / 16), UInt8.ofNat (x2 % 16 * 16 + x3 / 4)] else none
          else match b64digit c4 with
            | none => none
            | some x4 => (b64groups r).map fun s =>
              UInt8.ofNat (x1 * 4 + x2 / 16) :: UInt8.ofNat (x2 % 16 * 16 + x3 / 4) :: UInt8.ofNat (x3 % 4 * 64 + x4) :: s
    | _, _ => none
  | _ => none

/-- `base64.StdEncoding.DecodeString`: line breaks are ignored. -/
def b64dec (s : Str) : Option Str := b64groups (s.filter fun c => !(c == 10 || c == 13))

/-! ## The library -/

/-- What is left open about go-ldap/ldif. -/
structure LdifLib where
  /-- the longest line written -/
  width : Nat
  /-- whether a value is written in base64 -/
  needs64 : Str → Bool
  /-- whether the same is asked for the names of entries, which are written as they are otherwise -/
  dn64 : Bool
  /-- whether an attribute type is accepted in a file -/
  valid : Str → Bool
  /-- what a value `:< url` stands for; `none` is an error -/
  url : Str → Option Str
  /-- what a line that ends with the colon stands for; the argument is the type -/
  noValue : Str → Option Str
  /-- the result for the records of a file that has change records or controls -/
  changes : List (List Str) → Option (List (Option Entry))
  /-- whether `AllEntries` passes over nil records (it crashes otherwise) -/
  skipNil : Bool

/-- An attribute type in the sense of RFC 2849: a letter followed by letters, digits, hyphens and semicolons, or numbers with dots between
them. -/
def ldifType (t : Str) : Bool :=
  (match t with
    | [] => false
    | c :: r => ((65 ≤ c && c ≤ 90) || (97 ≤ c && c ≤ 122)) &&
        r.all (fun c => (65 ≤ c && c ≤ 90) || (97 ≤ c && c ≤ 122) || (48 ≤ c && c ≤ 57) || c = 45 || c = 59)) ||
  (splitOn 46 t).all (fun n => n ≠ [] && n.all (fun c => 48 ≤ c && c ≤ 57))

/-- What is assumed of go-ldap/ldif: there is room for at least one byte in a continued line; values with bytes that are not printable are
written in base64; the attribute types of RFC 2849 are accepted. -/
structure LdifLib.Lawful (L : LdifLib) : Prop where
  width : 2 ≤ L.width
  needs64 : ∀ v, (∃ c ∈ v, c < 32 ∨ 126 < c) → L.needs64 v = true
  valid : ∀ t, ldifType t = true → L.valid t = true

/-! ### Reading -/

/-- `strings.TrimRight(s, "\r\n")`. -/
def trimEOL (s : Str) : Str := (s.reverse.dropWhile fun c => c == 13 || c == 10).reverse

/-- The loop of `Unmarshal` over the lines of the file, up to the parsing of the records: the lines of each record, with continued lines
put together. `comment` says that the last line that was not a continuation was a comment, `lines` are the complete lines of the current
record and `line` is the one that may be continued. The end of the file ends a record like an empty line does. -/
def ldifRecords (comment : Bool) (lines : List Str) (line : Str) : List Str → List (List Str)
  | [] => if line = [] then [] else [lines ++ [line]]
  | [] :: rest =>
    if line = [] ∧ lines = [] then ldifRecords comment [] [] rest
    else (lines ++ [line]) :: ldifRecords comment [] [] rest
  | (c :: cs) :: rest =>
    if c = 35 then ldifRecords true lines line rest
    else if c = 32 then ldifRecords comment lines (if comment then line else line ++ cs) rest
    else ldifRecords false (if line = [] then lines else lines ++ [line]) (c :: cs) rest

section
variable (L : LdifLib)

/-- `parseLine`: the type and the value of a line. -/
def ldifLine (l : Str) : Option (Str × Str) :=
  let t := l.takeWhile (· != 58)
  match l.dropWhile (· != 58) with
  | [] => none
  | [_] => (L.noValue t).map fun v => (t, v)
  | _ :: c :: r =>
    if !L.valid t then none
    else if c = 58 then (b64dec (r.dropWhile (· == 32))).map fun v => (t, v)
    else if c = 60 then (L.url (r.dropWhile (· == 32))).map fun v => (t, v)
    else some (t, (c :: r).dropWhile (· == 32))

/-- `m[k] = append(m[k], v)` for a Go map, as a list sorted by key (see `mapSet`). -/
def mapAppend (k v : Str) : List Attr → List Attr
  | [] => [⟨k, [v]⟩]
  | a :: as =>
    if a.name = k then ⟨k, a.vals ++ [v]⟩ :: as
    else if strLe k a.name then ⟨k, [v]⟩ :: a :: as
    else a :: mapAppend k v as

/-- `parseAttrs`, with the map of the types read so far; `NewEntry` sorts the types. -/
def ldifAttrs : List Attr → List Str → Option (List Attr)
  | m, [] => some m
  | m, l :: ls => match ldifLine L l with
    | none => none
    | some (t, v) => ldifAttrs (mapAppend t v m) ls

/-- `parseEntry` for a record without controls and change type: the first line names the entry, and there are more. -/
def ldifEntry (ls : List Str) : Option Entry :=
  match ls with
  | [] => none
  | dn :: rest =>
    if !hasPrefix dn b!"dn:" then none
    else match ldifLine L dn with
      | none => none
      | some (_, v) => if rest = [] then none else (ldifAttrs L [] rest).map fun as => ⟨v, as⟩

/-- `parseEntry` for the first record of a file, which may begin with the version, or be nothing but the version: a nil record. -/
def ldifFirst (ls : List Str) : Option (Option Entry) :=
  match ls with
  | [] => none
  | l :: rest =>
    if hasPrefix l b!"version:" then
      if parseInt64 ((l.drop 8).dropWhile (· == 32)) ≠ some 1 then none
      else if rest = [] then some none else (ldifEntry L rest).map some
    else (ldifEntry L ls).map some

/-- All of a list, or an error. -/
def optAll {α : Type} : List (Option α) → Option (List α)
  | [] => some []
  | none :: _ => none
  | some a :: as => (optAll as).map (a :: ·)

/-- A line of a change record. -/
def ldifChange (l : Str) : Bool := hasPrefix l b!"control:" || hasPrefix l b!"changetype:"

/-- `Unmarshal`: the records of the file, some of them nil; `none` is an error. -/
def ldifUnmarshal (text : Str) : Option (List (Option Entry)) :=
  let rs := ldifRecords false [] [] ((splitOn 10 text).map trimEOL)
  if rs.any (·.any ldifChange) then L.changes rs
  else match rs with
    | [] => some []
    | r :: rs => (ldifFirst L r).bind fun e => (optAll (rs.map (ldifEntry L))).map fun es => e :: es.map some

/-- `Unmarshal` followed by `AllEntries`. -/
def ldifRead (text : Str) : Res (List Entry) :=
  match ldifUnmarshal L text with
  | none => .err .other
  | some rs => if rs.contains none && !L.skipNil then .panic else .ok (rs.filterMap id)

/-- `parseLDIFFile`, /repo/server/handler/ldif/ldif.go:25-44. `content` is what reading the file gives, `none` if it cannot be opened.
The library reads the file itself if there is no template engine, and passes errors on. -/
def parseLDIFFile (engine : Option (List (Str × Str) → UInt64 → Str → Option Str)) (vars : List (Str × Str)) (start : UInt64)
    (content : Option FileRead) : Option (List (Option Entry)) :=
  (content.bind (fileText engine vars start)).bind (ldifUnmarshal L)

/-- `parseLDIFDirectory`, /repo/server/handler/ldif/ldif.go:48-93; an error in one of the files makes the load fail
(/repo/server/handler/ldif/handler.go:106-115). -/
def parseLDIFDirectory (engine : Option (List (Str × Str) → UInt64 → Str → Option Str)) (vars : List (Str × Str)) (start : UInt64)
    (read : Str → Option FileRead) (names : List Str) : Option (List (Option Entry)) :=
  (directoryText engine vars start read names).bind (ldifUnmarshal L)

/-! ### Writing -/

/-- The loop of `foldLine` for what does not fit on the first line; the first argument only bounds the number of lines. -/
def foldRest : Nat → Str → Str
  | 0, s => 32 :: s
  | n + 1, s => if s.length ≤ L.width - 1 then 32 :: s else 32 :: s.take (L.width - 1) ++ 10 :: foldRest n (s.drop (L.width - 1))

/-- `foldLine`. -/
def foldLine (l : Str) : Str := if l.length ≤ L.width then l else l.take L.width ++ 10 :: foldRest L l.length (l.drop L.width)

/-- A type and a value as a line, the value in base64 or as it is. -/
def writeLine (b64 : Bool) (t v : Str) : Str :=
  foldLine L (if b64 then t ++ b!":: " ++ b64enc v else t ++ b!": " ++ v) ++ [10]

/-- The values of an entry, each with its type. -/
def entryLines (e : Entry) : List (Str × Str) := e.attrs.flatMap fun a => a.vals.map fun v => (a.name, v)

/-- The part of `Marshal` that writes an entry. -/
def writeEntry (e : Entry) : Str :=
  writeLine L (L.dn64 && L.needs64 e.dn) b!"dn" e.dn ++ (entryLines e).flatMap (fun tv => writeLine L (L.needs64 tv.2) tv.1 tv.2) ++ [10]

/-- `ToLDIF` followed by `Marshal`. -/
def ldifWrite (es : List Entry) : Str := es.flatMap (writeEntry L)

end
end Idm
