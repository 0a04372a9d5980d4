import Verif.Model.Template
import Verif.Model.Space
import Verif.Model.Password

/-!
# `idmd gen newusers` and `idmd gen passwd`: cmd/idmd/gen
-/
namespace Idm

def fieldSep : UInt8 := 58
def chAt : UInt8 := 64
def chDot : UInt8 := 46
def chMinus : UInt8 := 45

/-- `type entry`; newusers.go:126-137. -/
structure PwEntry where
  line : Nat
  name : Str
  passwd : Str
  uid : Str
  gid : Str
  gecos : Str
  dir : Str
  shell : Str
  deriving DecidableEq, Repr

/-- One turn of the loop of `parsePasswdFile`; newusers.go:146-179. `strong` says whether a password reaches the strength
asked for. `none` is a line that is skipped. Fewer than five fields
are an error; the indexing of the sixth and seventh field panics when there are five or six. -/
def parsePwLine (strong : Str → Bool) (count : Nat) (raw : Str) : Res (Option PwEntry) :=
  let line := trimSpace raw
  if line = [] ∨ isComment line = true then .ok none
  else
    match splitOn fieldSep line with
    | name :: passwd :: uid :: gid :: gecos :: dir :: shell :: _ =>
      if passwd ≠ [] ∧ strong passwd = false then .err .other
      else .ok (some ⟨count, name, passwd, uid, gid, gecos, dir, shell⟩)
    | _ :: _ :: _ :: _ :: _ :: _ => .panic
    | _ => .err .other

/-- `parsePasswdFile`; newusers.go:139-184, on the lines the scanner hands out. `count` is the number of lines before. -/
def parsePwLines (strong : Str → Bool) : Nat → List Str → Res (List PwEntry)
  | _, [] => .ok []
  | count, l :: ls => do
    let e ← parsePwLine strong (count + 1) l
    let es ← parsePwLines strong (count + 1) ls
    .ok (e.toList ++ es)

def parsePasswdFile (strong : Str → Bool) (text : Str) : Res (List PwEntry) :=
  parsePwLines strong 0 (scanLines text)

/-- The value of a run of decimal digits. -/
def digitsVal (s : Str) : Nat := s.foldl (fun n c => n * 10 + (c.toNat - 48)) 0

def isDigitByte (c : UInt8) : Bool := 48 ≤ c && c ≤ 57

/-- `strconv.ParseInt(s, 10, 64)`. -/
def parseInt64 (s : Str) : Option Int :=
  let neg := hasPrefix s b!"-"
  let digits := if hasPrefix s b!"-" || hasPrefix s b!"+" then s.drop 1 else s
  if digits = [] ∨ digits.all isDigitByte = false then none
  else
    let n := digitsVal digits
    if neg then (if n ≤ 2 ^ 63 then some (-(n : Int)) else none)
    else if n < 2 ^ 63 then some (n : Int) else none

/-- `n++` on an `int64`. -/
def inc64 (n : Int) : Int := if n = 2 ^ 63 - 1 then -(2 ^ 63) else n + 1

/-- The numbers given for one entry: `none` for an empty field; output_ldif.go:38-57. -/
def entryNumbers (e : PwEntry) : Option (Option Int × Option Int) := do
  let u ← if e.uid = [] then some none else (parseInt64 e.uid).map some
  let g ← if e.gid = [] then some none else (parseInt64 e.gid).map some
  some (u, g)

/-- `if n > autoIncrement { autoIncrement = n }`. -/
def raiseTo (auto : Int) : Option Int → Int
  | some n => if n > auto then n else auto
  | none => auto

/-- The first loop of `outputLDIF`; output_ldif.go:35-60: the numbers of all entries, and the largest of them if above
1000. An entry whose numbers cannot be read is an error. -/
def preprocess : Int → List PwEntry → Option (List (Option Int × Option Int) × Int)
  | auto, [] => some ([], auto)
  | auto, e :: es => do
    let d ← entryNumbers e
    let (ds, last) ← preprocess (raiseTo (raiseTo auto d.1) d.2) es
    some (d :: ds, last)

/-- What is printed for one user; `DefaultLDIFUserTemplate`, newusers.go:35-59. Lines that the template leaves out are
`none`. -/
structure UserRec where
  line : Nat
  name : Str
  uidNumber : Int
  gidNumber : Option Int
  userPassword : Option Str
  mails : List Str
  cn : Str
  givenName : Option Str
  sn : Option Str
  deriving DecidableEq, Repr

def isAlnumByte (c : UInt8) : Bool := isDigitByte c || (65 ≤ c && c ≤ 90) || (97 ≤ c && c ≤ 122)

/-- The characters of `emailRegex` before the `@`; utils.go:12. -/
def isMailLocal (c : UInt8) : Bool := isAlnumByte c || b!".!#$%&'*+/=?^_`{|}~-".contains c

/-- One label of the domain in `emailRegex`; utils.go:12. -/
def isMailLabel (l : Str) : Bool :=
  !l.isEmpty && l.length ≤ 63 && l.all (fun c => isAlnumByte c || c == chMinus) &&
    l.head?.all isAlnumByte && l.getLast?.all isAlnumByte

/-- `isValidEmail`; utils.go:14-19. The test of the length never holds. -/
def isValidEmail (s : Str) : Bool :=
  match splitOn chAt s with
  | [l, d] => !l.isEmpty && l.all isMailLocal && (splitOn chDot d).all isMailLabel
  | _ => false

/-- The mail addresses found in the comment field; output_ldif.go:98-105. -/
def gecosMail (mailDomain : Str) (v : Str) : Str :=
  if mailDomain ≠ [] ∧ hasSuffix v (chAt :: mailDomain) = true then
    v.take (v.length - (mailDomain.length + 1)) ++ b!"@{{.MailDomain}}"
  else v

/-- A value `with` takes for true. -/
def nonEmpty (s : Str) : Option Str := if s = [] then none else some s

/-- Given and last name: the full name cut at its first space; output_ldif.go:90-94. -/
def nameParts (cn : Str) : Option (Str × Str) :=
  if cn.contains 32 then some (cn.takeWhile (· ≠ 32), (cn.dropWhile (· ≠ 32)).drop 1) else none

/-- `with .detail.uidNumber` takes 0 for false. -/
def nonZero (n : Int) : Option Int := if n = 0 then none else some n

/-- The password of the record: the hash of the one given, or the name; output_ldif.go:73-82. -/
def newPassword (hash : Str → Option Str) (e : PwEntry) : Option Str :=
  if e.passwd ≠ [] then hash e.passwd else some e.name

/-- One turn of the second loop of `outputLDIF`; output_ldif.go:68-126. `auto` is the number used last and `tpl` the counter
of the template function `AutoIncrement`, which starts at 1000. `hash` is `ldappassword.Hash`. -/
def genUser (hash : Str → Option Str) (mailDomain : Str) (auto : Int) (tpl : UInt64) (e : PwEntry)
    (d : Option Int × Option Int) : Option (UserRec × Int × UInt64) := do
  let pw ← newPassword hash e
  let parts := splitOn 44 e.gecos
  let cn := if e.gecos ≠ [] then parts.headD [] else e.name
  let mails := if e.gecos ≠ [] then ((parts.drop 1).filter isValidEmail).map (gecosMail mailDomain) else []
  let names := if e.gecos ≠ [] then nameParts cn else none
  let auto' := if e.uid = [] ∨ e.gid = [] then inc64 auto else auto
  let u := d.1.getD auto'
  let g := d.2.getD auto'
  let tpl' := if u = 0 then tpl + 1 else tpl
  some (⟨e.line, e.name, if u = 0 then tpl'.toNat else u, nonZero g, nonEmpty pw, mails, cn,
    names.bind fun n => nonEmpty n.1, names.bind fun n => nonEmpty n.2⟩, auto', tpl')

/-- The second loop: the users printed, and whether it ends without an error. -/
def genUsers (hash : Str → Option Str) (mailDomain : Str) :
    Int → UInt64 → List (PwEntry × (Option Int × Option Int)) → List UserRec × Bool
  | _, _, [] => ([], true)
  | auto, tpl, (e, d) :: rest =>
    match genUser hash mailDomain auto tpl e d with
    | none => ([], false)
    | some (r, auto', tpl') =>
      (r :: (genUsers hash mailDomain auto' tpl' rest).1, (genUsers hash mailDomain auto' tpl' rest).2)

/-- `outputLDIF`; output_ldif.go:20-129: an error before anything is printed, or the users printed and whether all were. -/
def outputLDIF (strong : Str → Bool) (hash : Str → Option Str) (mailDomain : Str) (text : Str) :
    Res (List UserRec × Bool) :=
  match parsePasswdFile strong text with
  | .ok es =>
    match preprocess 1000 es with
    | none => .err .other
    | some (ds, auto) => .ok (genUsers hash mailDomain auto 1000 (es.zip ds))
  | .err e => .err e
  | .panic => .panic
  | .hang => .hang

/-- `%d` and the template's printing of an integer: decimal digits, at most 20. -/
def natTextGo : Nat → Nat → Str
  | 0, _ => []
  | fuel + 1, n => if n < 10 then [UInt8.ofNat (48 + n)] else natTextGo fuel (n / 10) ++ [UInt8.ofNat (48 + n % 10)]

def natText (n : Nat) : Str := natTextGo 20 n

def intText (n : Int) : Str := if n < 0 then chMinus :: natText n.natAbs else natText n.natAbs

/-- `DefaultLDIFBaseDN`; newusers.go:31. -/
def newUsersBase : Str := b!"ou=Users,ou={{.Company}},{{.BaseDN}}"

/-- `with`: the part of the template is left out when there is no value. -/
def withText (v : Option Str) (f : Str → Str) : Str := match v with
  | none => []
  | some v => f v

/-- `DefaultLDIFUserTemplate`, newusers.go:35-59, executed for one user. A `<<-` swallows the line feed before it. -/
def userTemplate (r : UserRec) : Str :=
  b!"dn: uid=" ++ r.name ++ b!"," ++ newUsersBase ++ b!"\nobjectClass: posixAccount\nobjectClass: top\nobjectClass: inetOrgPerson\nuid: " ++ r.name ++
  b!"\nuidNumber: " ++ intText r.uidNumber ++
  withText (r.gidNumber.map intText) (fun v => b!"\ngidNumber: " ++ v) ++
  withText r.userPassword (fun v => b!"\nuserPassword: " ++ v) ++
  b!"\nmail: " ++ r.name ++ b!"@{{.MailDomain}}" ++
  r.mails.flatMap (fun v => b!"\nmailAlternateAddress: " ++ v) ++
  b!"\ncn: " ++ r.cn ++
  withText r.givenName (fun v => b!"\ngivenName: " ++ v) ++
  withText r.sn (fun v => b!"\nsn: " ++ v) ++
  b!"\n"

/-- What is printed for one user; output_ldif.go:121-125. -/
def printUser (r : UserRec) : Str :=
  b!"# " ++ natText r.line ++ b!": " ++ trimSpace r.name ++ b!"\n" ++ userTemplate r ++ b!"\n"

/-- All that is printed. -/
def printUsers (rs : List UserRec) : Str := rs.flatMap printUser

/-! ## `idmd gen passwd` -/

/-- The rest of a verb after the percent sign, `fmt.Fprintf` without operands: flags, width and precision are skipped, `%%`
is a percent sign, every other verb is reported as missing its operand. Verbs with `*` and `[` and verbs that are not ASCII
are not modelled faithfully. -/
def printfVerb : Str → Str × Str
  | [] => (b!"%!(NOVERB)", [])
  | c :: cs =>
    if b!"+-# 0123456789.".contains c then printfVerb cs
    else if c = 37 then ([37], cs)
    else (b!"%!" ++ [c] ++ b!"(MISSING)", cs)

/-- `fmt.Fprintf(w, format)`. -/
def printfGo : Nat → Str → Str
  | 0, _ => []
  | _ + 1, [] => []
  | fuel + 1, c :: cs =>
    if c = 37 then (printfVerb cs).1 ++ printfGo fuel (printfVerb cs).2 else c :: printfGo fuel cs

def printf (format : Str) : Str := printfGo format.length format

/-- `passwd`; cmd/idmd/gen/passwd/passwd.go, from the check for an empty secret on. What is printed is the hash used as a
format; the line feed is left out. -/
def passwdTool (K : CryptoEnv) (strong : Str → Bool) (salt secret alg : Str) : Res Str :=
  if trimSpace secret = [] then .err .other
  else if strong secret = false then .err .other
  else
    match hashPw K salt secret alg with
    | .ok h => .ok (printf h)
    | .err e => .err e
    | .panic => .panic
    | .hang => .hang

end Idm
