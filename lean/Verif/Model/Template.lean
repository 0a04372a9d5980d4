import Verif.Model.Entry

/-!
# LDIF templates: server/handler/ldif/template.go and parseLDIFTemplate of ldif.go

Paths are those of a Unix system and are treated as text: symbolic links are not followed.
-/
namespace Idm

def chSlash : UInt8 := 47

/-- `strings.Split(s, sep)` for a separator of one byte. -/
def splitOn (sep : UInt8) : Str → List Str
  | [] => [[]]
  | c :: cs =>
    if c = sep then [] :: splitOn sep cs
    else match splitOn sep cs with
      | [] => [[c]]
      | p :: ps => (c :: p) :: ps

/-- `strings.Join(parts, sep)` for a separator of one byte. -/
def joinWith (sep : UInt8) : List Str → Str
  | [] => []
  | [p] => p
  | p :: q :: ps => p ++ sep :: joinWith sep (q :: ps)

/-! ## path/filepath (Go standard library), Unix -/

/-- The loop of `filepath.Clean` over the components, with the components kept so far, last first: empty ones and `.` are
dropped, `..` removes the component before it, is dropped at the root and kept at the start of a relative path. -/
def cleanLoop (rooted : Bool) : List Str → List Str → List Str
  | acc, [] => acc.reverse
  | acc, p :: ps =>
    if p = [] ∨ p = b!"." then cleanLoop rooted acc ps
    else if p = b!".." then
      match acc with
      | q :: qs => if q = b!".." then cleanLoop rooted (p :: acc) ps else cleanLoop rooted qs ps
      | [] => if rooted then cleanLoop rooted [] ps else cleanLoop rooted [p] ps
    else cleanLoop rooted (p :: acc) ps

/-- `filepath.IsAbs`. -/
def isAbsPath (p : Str) : Bool := hasPrefix p [chSlash]

/-- `filepath.Clean`. -/
def cleanPath (p : Str) : Str :=
  let parts := cleanLoop (isAbsPath p) [] (splitOn chSlash p)
  if isAbsPath p then chSlash :: joinWith chSlash parts
  else if parts = [] then b!"." else joinWith chSlash parts

/-- `filepath.Join` of two elements: empty ones are left out. -/
def joinPath (a b : Str) : Str :=
  if a = [] then (if b = [] then [] else cleanPath b)
  else if b = [] then cleanPath a
  else cleanPath (a ++ chSlash :: b)

/-- `filepath.Abs` in the working directory `cwd`; that `os.Getwd` may fail is not modelled. -/
def absPath (cwd p : Str) : Str := if isAbsPath p then cleanPath p else joinPath cwd p

/-- `filepath.Dir`: what comes before the last slash, cleaned. -/
def dirPath (p : Str) : Str := cleanPath ((p.reverse.dropWhile (· != chSlash)).reverse)

/-- `strings.TrimRight(s, "/")`. -/
def trimSlashes (s : Str) : Str := (s.reverse.dropWhile (· == chSlash)).reverse

/-! ## The template functions -/

/-- The path `formatAsFileBase64` opens for the argument `fn`; template.go:81-96. `base` is `options.templateBasePath`. -/
def includePath (cwd base fn : Str) : Option Str :=
  if base = [] then none
  else
    let fn := cleanPath fn
    let fn := if isAbsPath fn then fn else joinPath base fn
    let fn := absPath cwd fn
    if hasPrefix fn (trimSlashes base ++ [chSlash]) then some fn else none

/-- `formatAsFileSizeLimit`; template.go:21. -/
def fileSizeLimit : Nat := 1024 * 1024

/-- `formatAsFileBase64`; template.go:80-117. `files` is the content of the files that can be opened and `encode` is
`base64.StdEncoding`. The limited reader hands out at most one byte more than the limit. -/
def formatAsFile (encode : Str → Str) (files : Str → Option Str) (cwd base fn : Str) : Option Str := do
  let p ← includePath cwd base fn
  let data ← files p
  let read := data.take (fileSizeLimit + 1)
  if read.length > fileSizeLimit then none else some (encode read)

/-- One call of the template function `AutoIncrement`; template.go:69-76. The counter is a `uint64`; only the first
argument counts. -/
def autoIncrement (n : UInt64) (values : List UInt64) : UInt64 :=
  match values with
  | v :: _ => v
  | [] => n + 1

/-- What a sequence of calls of `AutoIncrement` returns when the counter stands at `n`. -/
def autoCalls : UInt64 → List (List UInt64) → List UInt64
  | _, [] => []
  | n, c :: cs => autoIncrement n c :: autoCalls (autoIncrement n c) cs

/-- The counter before the first call; template.go:49-52. `AutoIncrementMin` of a type other than `uint64` panics and is
not modelled. -/
def autoStart (autoIncrementMin : Option UInt64) : UInt64 := autoIncrementMin.getD 1000

/-! ## Reading a template: server/handler/ldif/ldif.go:97-129 -/

/-- `dropCR` of `bufio.ScanLines`. -/
def dropCR (l : Str) : Str := if l.getLast? = some 13 then l.dropLast else l

/-- The text cut at its line feeds; what follows the last one counts when it is not empty. -/
def rawLines (text : Str) : List Str :=
  let parts := splitOn 10 text
  if parts.getLast? = some [] then parts.dropLast else parts

/-- `bufio.MaxScanTokenSize`. -/
def maxToken : Nat := 64 * 1024

/-- What a `bufio.Scanner` with `ScanLines` hands out before `Scan` returns false: it stops for good at the first line
that does not fit into its buffer. The error it then keeps is looked at neither at ldif.go:98-108 nor at
newusers.go:140-183. -/
def scanLines (text : Str) : List Str := ((rawLines text).takeWhile fun l => l.length < maxToken).map dropCR

/-- `t != "" && t[0] == '#'`; ldif.go:103. -/
def isComment (l : Str) : Bool := hasPrefix l b!"#"

/-- The text given to the template engine; ldif.go:98-108, 113. -/
def templateText (text : Str) : Str := joinWith 10 ((scanLines text).filter (!isComment ·))

/-- The variables of a template, in the order of the assignments; template.go:24-47. The last assignment counts. `opts` are BaseDN,
DefaultCompany and DefaultMailDomain of the options, `extra` is `TemplateExtraVars` (a Go map, so no name occurs twice); the values of the
variables are strings here. `defBase` and `defMail` are the constants of idm.go. -/
def templateVars (defBase defMail : Str) (optBase optCompany optMail : Str) (extra : List (Str × Str)) : List (Str × Str) :=
  [(b!"Company", b!"Default"), (b!"BaseDN", defBase), (b!"MailDomain", defMail)] ++
    (if optBase ≠ [] then [(b!"BaseDN", optBase)] else []) ++
    (if optCompany ≠ [] then [(b!"Company", optCompany)] else []) ++
    (if optMail ≠ [] then [(b!"MailDomain", optMail)] else []) ++ extra

/-- The value of a variable after the assignments. -/
def varValue (vars : List (Str × Str)) (n : Str) : Option Str := ((vars.filter fun p => p.1 = n).getLast?).map (·.2)

/-- One of the template functions `WithCompany`, `WithBaseDN`, `WithMailDomain`; template.go:57-68: the new assignments. They print nothing. -/
def withVar (n value : Str) (vars : List (Str × Str)) : List (Str × Str) := vars ++ [(n, value)]

/-- What reading a file gives that could be opened: the bytes handed out, and whether reading broke off with an error instead of coming to
the end of the file (as it always does for a directory). -/
structure FileRead where
  data : Str
  broken : Bool
  deriving DecidableEq, Repr

/-- A file that is read to its end. -/
abbrev FileRead.whole (text : Str) : FileRead := ⟨text, false⟩

/-- What a file contributes: with the template engine (`engine`, the Go template language, applied to the text with the variables and the
counter of the file, which are new for each file, ldif.go:110-113), or its text as it is; ldif.go:66-81. That reading broke off is
an error only without the template engine: the scanner at ldif.go:98-108 keeps it to itself and hands out what came before. -/
def fileText (engine : Option (List (Str × Str) → UInt64 → Str → Option Str)) (vars : List (Str × Str)) (start : UInt64) (f : FileRead) :
    Option Str :=
  match engine with
  | none => if f.broken then none else some f.data
  | some run => run vars start (templateText f.data)

/-- Insertion into a list of names sorted byte by byte. -/
def insertName (n : Str) : List Str → List Str
  | [] => [n]
  | m :: ms => if strLe n m then n :: m :: ms else m :: insertName n ms

/-- `sort.Slice` of the names; ldif.go:53-55. -/
def sortNames : List Str → List Str
  | [] => []
  | n :: ns => insertName n (sortNames ns)

/-- The file names `filepath.Glob(dir + "/*.ldif")` finds, sorted; ldif.go:49-55. `names` are the names in the directory. That the path of
the directory may itself contain pattern characters is not modelled. -/
def ldifNames (names : List Str) : List Str := sortNames (names.filter (hasSuffix · b!".ldif"))

/-- The loop over the files, each followed by two line feeds; ldif.go:59-91. A file that cannot be read or whose template fails makes the
whole load fail (handler.go:105-114). -/
def catFiles (text : Str → Option Str) : List Str → Option Str
  | [] => some []
  | n :: ns => do
    let a ← text n
    let b ← catFiles text ns
    some (a ++ [10, 10] ++ b)

/-- `parseLDIFDirectory`; ldif.go:48-93, up to the parsing. `read` is what opening and reading a file gives. -/
def directoryText (engine : Option (List (Str × Str) → UInt64 → Str → Option Str)) (vars : List (Str × Str)) (start : UInt64)
    (read : Str → Option FileRead) (names : List Str) : Option Str :=
  catFiles (fun n => (read n).bind (fileText engine vars start)) (ldifNames names)

end Idm
