import Verif.Model.Startup
import Verif.Model.NewUsers
/-!
# The part of the Go template language that LDIF templates use

text/template is not part of /repo. Modelled is the part of the language that docs/example-template.ldif and scripts/*.ldif.in use: variables of
the data, the functions of server/handler/ldif/template.go, local variables, and the block `with .`. A template with anything else is outside
of the model (`none`).
-/
namespace Idm

/-- An action of a template. -/
inductive Action where
  /-- `{{.Name}}` -/
  | field (n : Str)
  /-- `{{AutoIncrement}}`, `{{AutoIncrement 500}}` -/
  | auto (arg : Option UInt64)
  /-- `{{WithCompany "v"}}`, `{{WithBaseDN "v"}}`, `{{WithMailDomain "v"}}`; the name of the variable that is set -/
  | assign (n v : Str)
  /-- `{{$n := "v"}}` -/
  | declare (n v : Str)
  /-- `{{$n}}` -/
  | local_ (n : Str)
  /-- `{{with .}}` -/
  | block
  /-- `{{end}}` -/
  | close
  /-- `{{"v" | formatAsBase64}}` -/
  | base64 (v : Str)
  /-- `{{"v" | formatAsFileBase64}}` -/
  | file (v : Str)
  deriving DecidableEq, Repr

/-- What template functions need of the outside: `formatAsFileBase64` and `base64.StdEncoding`. -/
structure TplEnv where
  file : Str → Option Str
  encode : Str → Str

/-- The state of a template that is executed: the data (the map of template.go:23-47, as a list of assignments), the counter of
`AutoIncrement`, and the local variables, the last one first, with the number of them at the beginning of each open block (text/template keeps
them on a stack in the same way). -/
structure TplSt where
  vars : List (Str × Str)
  counter : UInt64
  locals : List (Str × Str)
  marks : List Nat

/-- A name of a variable: letters and digits, a letter first. -/
def tplName (n : Str) : Bool := match n with
  | [] => false
  | c :: _ => !isDigitByte c && n.all isAlnumByte

/-- The bytes of a string literal: printable ASCII but for quotes, backslashes and closing braces. -/
def litByte (c : UInt8) : Bool := 32 ≤ c && c ≤ 126 && c != 34 && c != 92 && c != 125

/-- A string literal at the beginning of the text, and what follows. -/
def parseLit : Str → Option (Str × Str)
  | 34 :: t => match t.dropWhile litByte with
    | 34 :: r => some (t.takeWhile litByte, r)
    | _ => none
  | _ => none

/-- A number without leading zeros that fits into a `uint64`. -/
def parseCount (t : Str) : Option UInt64 :=
  if t ≠ [] ∧ t.all isDigitByte = true ∧ (t.head? = some 48 → t = [48]) ∧ digitsVal t < 2 ^ 64 then some (UInt64.ofNat (digitsVal t)) else none

/-- The functions with one argument that set a variable; template.go:57-68. -/
def setters : List (Str × Str) := [(b!"WithCompany ", b!"Company"), (b!"WithBaseDN ", b!"BaseDN"), (b!"WithMailDomain ", b!"MailDomain")]

/-- What is written between the braces. -/
def parseAction (b : Str) : Option Action :=
  match b with
  | 46 :: n => if tplName n then some (.field n) else none
  | 36 :: t =>
    let n := t.takeWhile isAlnumByte
    let r := t.dropWhile isAlnumByte
    if tplName n then
      if r = [] then some (.local_ n)
      else if hasPrefix r b!" := " then
        match parseLit (r.drop 4) with
        | some (v, []) => some (.declare n v)
        | _ => none
      else none
    else none
  | 34 :: _ =>
    match parseLit b with
    | some (v, r) => if r = b!" | formatAsBase64" then some (.base64 v) else if r = b!" | formatAsFileBase64" then some (.file v) else none
    | none => none
  | _ =>
    if b = b!"end" then some .close
    else if b = b!"with ." then some .block
    else if b = b!"AutoIncrement" then some (.auto none)
    else if hasPrefix b b!"AutoIncrement " then (parseCount (b.drop 14)).map fun k => .auto (some k)
    else match setters.find? fun p => hasPrefix b p.1 with
      | some p => match parseLit (b.drop p.1.length) with
        | some (v, []) => some (.assign p.2 v)
        | _ => none
      | none => none

/-- What an action does and prints; `none` if the template fails. A variable of the data that is missing is printed as `<no value>`. The
functions: template.go:55-122. `with .` is entered, as the data are never empty (template.go:24-33). -/
def TplSt.exec (S : TplEnv) (st : TplSt) : Action → Option (TplSt × Str)
  | .field n => some (st, (varValue st.vars n).getD b!"<no value>")
  | .auto arg =>
    let k := autoIncrement st.counter arg.toList
    some ({ st with counter := k }, natText k.toNat)
  | .assign n v => some ({ st with vars := withVar n v st.vars }, [])
  | .declare n v => some ({ st with locals := (n, v) :: st.locals }, [])
  | .local_ n => match st.locals.find? fun p => p.1 = n with
    | some p => some (st, p.2)
    | none => none
  | .block => some ({ st with marks := st.locals.length :: st.marks }, [])
  | .close => match st.marks with
    | m :: ms => some ({ st with locals := st.locals.drop (st.locals.length - m), marks := ms }, [])
    | [] => none
  | .base64 v => some (st, S.encode v)
  | .file v => (S.file v).map fun out => (st, out)

/-- The text before the first occurrence of two equal bytes, and the text after it. -/
def cutPair (c : UInt8) : Str → Option (Str × Str)
  | a :: b :: t => if a = c ∧ b = c then some ([], t) else (cutPair c (b :: t)).map fun p => (a :: p.1, p.2)
  | _ => none

/-- Blanks, tabs and line ends, which ` -}}` removes behind it. -/
def tplSpace (c : UInt8) : Bool := c == 32 || c == 9 || c == 13 || c == 10

/-- Executing a template: what it becomes, or that it fails; `none` for a template outside of the model. (A template that is not well formed fails
before anything is executed; here it fails when the place is reached.) The first argument bounds the number of actions. -/
def tplGo (S : TplEnv) : Nat → TplSt → Str → Option (Option Str)
  | 0, _, _ => none
  | f + 1, st, text =>
    match cutPair 123 text with
    | none => if st.marks = [] then some (some text) else some none
    | some (s, t) =>
      match cutPair 125 t with
      | none => none
      | some (b, r) =>
        let trim := hasSuffix b b!" -"
        match parseAction (if trim then b.take (b.length - 2) else b) with
        | none => none
        | some a =>
          match st.exec S a with
          | none => some none
          | some (st', v) => (tplGo S f st' (if trim then r.dropWhile tplSpace else r)).map fun o => o.map (s ++ v ++ ·)

/-- `tpl.Execute`; server/handler/ldif/ldif.go:113-122. -/
def tplRun (S : TplEnv) (vars : List (Str × Str)) (start : UInt64) (text : Str) : Option (Option Str) :=
  tplGo S (text.length + 1) ⟨vars, start, [], []⟩ text

/-- The template functions of a server that may include files below `dir`; template.go:77-122. -/
def Host.tplEnv (H : Host) (encode : Str → Str) (dir : Str) : TplEnv where
  file := formatAsFile encode (fun p => (H.read p).bind fun f => if f.broken then none else some f.data) H.cwd dir
  encode := encode

end Idm
