import Verif.Model.Template

/-!
# What template inclusion, numbering and comments mean
-/
namespace Idm

/-- A name of a file or directory: not empty, no slash, and none of the two names with a special meaning. -/
def IsFileName (q : Str) : Prop := q ≠ [] ∧ chSlash ∉ q ∧ q ≠ b!"." ∧ q ≠ b!".."

/-- The path reached from `dir` by descending through the given names. -/
def descend (dir : Str) (names : List Str) : Str := names.foldl (fun d q => d ++ chSlash :: q) dir

/-- `p` is a path inside the directory `base`: after dropping slashes at the end of `base`, it is reached by descending
through one or more names. The root directory contains itself as well. -/
def InsideDir (base p : Str) : Prop :=
  ∃ (d : Str) (k : Nat) (names : List Str),
    base = d ++ List.replicate k chSlash ∧ d.getLast? ≠ some chSlash ∧ (∀ q ∈ names, IsFileName q) ∧
    ((names ≠ [] ∧ p = descend d names) ∨ (d = [] ∧ p = [chSlash]))

/-- A line that continues the line before it (RFC 2849). -/
def isContinuation (l : Str) : Bool := hasPrefix l b!" "

/-- Put a line to the logical lines before it, the last of which comes first. -/
def addLogical (acc : List Str) (l : Str) : List Str :=
  match acc with
  | [] => [l]
  | prev :: older => if isContinuation l then (prev ++ l.drop 1) :: older else l :: prev :: older

/-- The logical lines of an LDIF text (RFC 2849): a line that begins with a space continues the line before it. -/
def logicalLines (ls : List Str) : List Str := (ls.foldl addLogical []).reverse

/-- The records of an LDIF text (RFC 2849), given its lines: lines that are not empty, up to the next empty line. `cur` is the record begun. -/
def recordsFrom (cur : List Str) : List Str → List (List Str)
  | [] => if cur = [] then [] else [cur]
  | l :: ls =>
    if l = [] then (if cur = [] then recordsFrom [] ls else cur :: recordsFrom [] ls)
    else recordsFrom (cur ++ [l]) ls

/-- The records of an LDIF text. -/
def records (text : Str) : List (List Str) := recordsFrom [] ((splitOn 10 text).map dropCR)

/-- No comment is continued. -/
def PlainComments : List Str → Prop
  | a :: b :: ls => (isComment a = true → isContinuation b = false) ∧ PlainComments (b :: ls)
  | _ => True

instance decPlainComments : (ls : List Str) → Decidable (PlainComments ls)
  | [] => .isTrue trivial
  | [_] => .isTrue trivial
  | _ :: b :: ls => @instDecidableAnd _ _ _ (decPlainComments (b :: ls))

end Idm
