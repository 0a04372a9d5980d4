import Verif.Model.LdifFormat
import Verif.Spec.Order
/-!
# LDIF content files (RFC 2849)

`LdifSays text rs`: the text is an LDIF file and its records are `rs`. The grammar is that of content files (no change records), without
values given by URLs and without empty values that follow the colon directly. It is wider than RFC 2849 in that text that is not ASCII need
not be in base64, and values that begin with `:` or `<` only need a space in front.
-/
namespace Idm

/-! ## Base64 (RFC 4648, section 4) -/

/-- The alphabet. -/
def b64alphabet : Str := b!"ABCDEFGHIJKLMNOPQRSTUVWXYZabcdefghijklmnopqrstuvwxyz0123456789+/"

/-- The bits of a byte, the highest one first. -/
def byteBits (c : UInt8) : List Bool := [7, 6, 5, 4, 3, 2, 1, 0].map fun i => c.toNat.testBit i

/-- The number with the given bits. -/
def bitsNat (l : List Bool) : Nat := l.foldl (fun n b => 2 * n + b.toNat) 0

/-- Every six bits are a character; zeros are added to the last ones. -/
def bitChars : List Bool → Str
  | b1 :: b2 :: b3 :: b4 :: b5 :: b6 :: r => b64alphabet[bitsNat [b1, b2, b3, b4, b5, b6]]! :: bitChars r
  | [] => []
  | l => [b64alphabet[bitsNat (l ++ List.replicate (6 - l.length) false)]!]

/-- The text in base64: `=` is added up to a multiple of four characters. -/
def base64 (s : Str) : Str :=
  let t := bitChars (s.flatMap byteBits)
  t ++ List.replicate ((4 - t.length % 4) % 4) 61

/-- The text has the form of base64: letters of the alphabet, up to two `=` behind them, a multiple of four in all. -/
def Base64Form (s : Str) : Prop :=
  ∃ (body : Str) (k : Nat), s = body ++ List.replicate k 61 ∧ (∀ c ∈ body, c ∈ b64alphabet) ∧ k ≤ 2 ∧ s.length % 4 = 0

/-! ## Lines -/

/-- The text consists of these lines, each ended by LF or by CR LF; after the last one this may be missing. -/
inductive HasLines : List Str → Str → Prop where
  | none : HasLines [] []
  | last (l : Str) : l ≠ [] → 10 ∉ l → 13 ∉ l → HasLines [l] l
  | lf (l : Str) (ls : List Str) (text : Str) : 10 ∉ l → 13 ∉ l → HasLines ls text → HasLines (l :: ls) (l ++ 10 :: text)
  | crlf (l : Str) (ls : List Str) (text : Str) : 10 ∉ l → 13 ∉ l → HasLines ls text → HasLines (l :: ls) (l ++ 13 :: 10 :: text)

/-- `logical` is written on these lines: all but the first begin with a space, which does not count. -/
def Folded (logical : Str) (lines : List Str) : Prop :=
  ∃ (first : Str) (pieces : List Str), lines = first :: pieces.map (32 :: ·) ∧ logical = first ++ pieces.flatten ∧
    first ≠ [] ∧ first.head? ≠ some 32 ∧ first.head? ≠ some 35

/-- The lines between two empty lines: the logical lines of a record, with comments, which may be folded as well. -/
inductive RecordLines : List Str → List Str → Prop where
  | done : RecordLines [] []
  | line (l : Str) (lines : List Str) (ls rest : List Str) : Folded l lines → RecordLines ls rest → RecordLines (l :: ls) (lines ++ rest)
  | comment (c : Str) (pieces : List Str) (ls rest : List Str) :
      RecordLines ls rest → RecordLines ls ((35 :: c) :: pieces.map (32 :: ·) ++ rest)

/-- The records of a file, given its lines: they are separated by one or more empty lines; there may be more empty lines and comments. -/
inductive FileLines : List (List Str) → List Str → Prop where
  | done : FileLines [] []
  | empty (rs : List (List Str)) (rest : List Str) : FileLines rs rest → FileLines rs ([] :: rest)
  | comments (lines : List Str) (rs : List (List Str)) (rest : List Str) :
      RecordLines [] lines → FileLines rs rest → FileLines rs (lines ++ [] :: rest)
  | record (ls lines : List Str) (rs : List (List Str)) (rest : List Str) :
      ls ≠ [] → RecordLines ls lines → FileLines rs rest → FileLines (ls :: rs) (lines ++ [] :: rest)
  | last (ls lines : List Str) : ls ≠ [] → RecordLines ls lines → FileLines [ls] lines
  | lastComments (lines : List Str) : RecordLines [] lines → FileLines [] lines

/-! ## Records -/

/-- The line gives the value `v` for the type `t`: after a colon and any number of spaces as it is, unless it begins with a space, or there
is no space and it is empty or begins with `:` or `<`; or after two colons and any number of spaces in base64. -/
inductive LineSays : Str → Str → Str → Prop where
  | plain (t v : Str) (n : Nat) : v.head? ≠ some 32 → (n = 0 → v ≠ [] ∧ v.head? ≠ some 58 ∧ v.head? ≠ some 60) →
      LineSays t v (t ++ 58 :: List.replicate n 32 ++ v)
  | base64 (t v : Str) (n : Nat) : LineSays t v (t ++ 58 :: 58 :: List.replicate n 32 ++ base64 v)

/-- A record: the name of an entry, and values with their types. -/
structure LdifRecord where
  dn : Str
  values : List (Str × Str)
  deriving DecidableEq, Repr

/-- The lists have the same length and are related element by element. -/
inductive Matched {α β : Type} (R : α → β → Prop) : List α → List β → Prop where
  | nil : Matched R [] []
  | cons (a : α) (b : β) (as : List α) (bs : List β) : R a b → Matched R as bs → Matched R (a :: as) (b :: bs)

/-- The logical lines are those of the record: the name first, then at least one value; the words for change records do not occur as
types. -/
inductive RecordSays : LdifRecord → List Str → Prop where
  | mk (r : LdifRecord) (dnLine : Str) (ls : List Str) : LineSays b!"dn" r.dn dnLine → r.values ≠ [] →
      Matched (fun tv l => LineSays tv.1 tv.2 l ∧ ldifType tv.1 = true ∧ tv.1 ≠ b!"control" ∧ tv.1 ≠ b!"changetype") r.values ls →
      RecordSays r (dnLine :: ls)

/-- The records, given as logical lines: those of `rs`; the version may come first, as a record of its own or not. -/
inductive RecordsSay : List LdifRecord → List (List Str) → Prop where
  | plain (rs : List LdifRecord) (ls : List (List Str)) : Matched RecordSays rs ls → RecordsSay rs ls
  | version (rs : List LdifRecord) (ls : List (List Str)) (n : Nat) : Matched RecordSays rs ls →
      RecordsSay rs ([b!"version:" ++ List.replicate n 32 ++ b!"1"] :: ls)
  | versionLine (rs : List LdifRecord) (r : List Str) (ls : List (List Str)) (n : Nat) : Matched RecordSays rs (r :: ls) →
      RecordsSay rs (((b!"version:" ++ List.replicate n 32 ++ b!"1") :: r) :: ls)

/-- The text is an LDIF file with these records. -/
def LdifSays (text : Str) (rs : List LdifRecord) : Prop :=
  ∃ lines recs, HasLines lines text ∧ FileLines recs lines ∧ RecordsSay rs recs

/-- The text is an LDIF file without a version and with these records. -/
def LdifBody (text : Str) (rs : List LdifRecord) : Prop :=
  ∃ lines recs, HasLines lines text ∧ FileLines recs lines ∧ Matched RecordSays rs recs

/-- No comment is continued, and no line that begins with a space follows an empty line or is the first: every such line comes directly
after one that is neither empty nor a comment. `may` says whether the first line may begin with a space. -/
def NoStray (may : Bool) : List Str → Prop
  | [] => True
  | [] :: ls => NoStray false ls
  | (c :: _) :: ls => if c = 35 then NoStray false ls else (c = 32 → may = true) ∧ NoStray true ls

instance decNoStray : (may : Bool) → (ls : List Str) → Decidable (NoStray may ls)
  | _, [] => .isTrue trivial
  | _, [] :: ls => decNoStray false ls
  | may, (c :: _) :: ls =>
    if h : c = 35 then
      have := decNoStray false ls
      decidable_of_iff (NoStray false ls) (by rw [NoStray, if_pos h])
    else
      have := decNoStray true ls
      decidable_of_iff ((c = 32 → may = true) ∧ NoStray true ls) (by rw [NoStray, if_neg h])

/-- A record that is not one: it does not begin with the name of an entry, or has nothing else, or has a line without a colon, or a value
after two colons that does not have the form of base64. -/
inductive Faulty : List Str → Prop where
  | noName (l : Str) (ls : List Str) : hasPrefix l b!"dn:" = false → Faulty (l :: ls)
  | onlyName (l : Str) : Faulty [l]
  | noColon (l : Str) (ls : List Str) : l ∈ ls → 58 ∉ l → Faulty ls
  | notBase64 (t x : Str) (ls : List Str) (n : Nat) : t ++ b!"::" ++ List.replicate n 32 ++ x ∈ ls → 58 ∉ t → x.head? ≠ some 32 → 10 ∉ x → 13 ∉ x →
      ¬ Base64Form x → Faulty ls

/-- The template engine leaves a text without actions as it is. -/
def PlainEngine (run : List (Str × Str) → UInt64 → Str → Option Str) : Prop :=
  ∀ vars start text, contains text b!"{{" = false → run vars start text = some text

/-- A file that needs no template engine: it has no actions, its lines are below 64 KiB and no comment is continued. -/
def PlainTemplate (text : Str) : Prop :=
  ∃ lines, HasLines lines text ∧ (∀ l ∈ lines, l.length + 1 < 65536) ∧ NoStray false lines ∧ contains text b!"{{" = false

/-- The lines of a text that are read: all of them, or those before the first one of 64 KiB or more; the rest is lost without an error. -/
def LinesRead (lines : List Str) (text : Str) : Prop :=
  ∃ lost, HasLines (lines ++ lost) text ∧ (∀ l ∈ lines, l.length + 1 < 65536) ∧ (lost = [] ∨ ∃ l ls, lost = l :: ls ∧ 65536 ≤ l.length)

/-- What the server makes of the text of a file before it reads it as LDIF: what follows from the first line of 64 KiB or more on is lost, the lines
that begin with `#` are dropped, and the template engine is run on the rest, with the given variables and the counter at 1000. -/
def Becomes (run : List (Str × Str) → UInt64 → Str → Option Str) (vars : List (Str × Str)) (text out : Str) : Prop :=
  ∃ lines, LinesRead lines text ∧
    run vars 1000 (List.intercalate [10] (lines.filter fun l => l.head? ≠ some 35)) = some out

/-- The template engine fails. -/
def NotATemplate (run : List (Str × Str) → UInt64 → Str → Option Str) (vars : List (Str × Str)) (text : Str) : Prop :=
  ∃ lines, LinesRead lines text ∧
    run vars 1000 (List.intercalate [10] (lines.filter fun l => l.head? ≠ some 35)) = none

/-! ## Entries -/

/-- All values under an attribute type, in order. -/
def typeValues (t : Str) (as : List Attr) : List Str := as.flatMap fun a => if a.name = t then a.vals else []

/-- The entry has the name and, under each attribute type, exactly the values of the record in their order; no type occurs twice, and none
without values; the types are in the order of their bytes. -/
def EntrySays (r : LdifRecord) (e : Entry) : Prop :=
  e.dn = r.dn ∧ (∀ t, typeValues t e.attrs = (r.values.filter fun tv => tv.1 = t).map (·.2)) ∧
    (e.attrs.map (·.name)).Nodup ∧ (∀ a ∈ e.attrs, a.vals ≠ []) ∧ (e.attrs.map (·.name)).Pairwise ByteLe

/-- The record of an entry: its values in the order of its attributes. -/
def recordOf (e : Entry) : LdifRecord := ⟨e.dn, e.attrs.flatMap fun a => a.vals.map fun v => (a.name, v)⟩

/-- A value that can be written: it does not begin with a space, unless it is written in base64 because of some other byte. -/
def ValueOk (v : Str) : Prop := v.head? ≠ some 32 ∨ ∃ c ∈ v, c < 32 ∨ 126 < c

instance (v : Str) : Decidable (ValueOk v) := by unfold ValueOk; infer_instance

/-- LDIF can express the entry: there is no line break in its name and no space in front of it, there is at least one value, the attribute
types that have values are those of RFC 2849, and the values can be written. -/
def Writable (e : Entry) : Prop :=
  (10 ∉ e.dn ∧ 13 ∉ e.dn ∧ e.dn.head? ≠ some 32) ∧ (∃ a ∈ e.attrs, a.vals ≠ []) ∧
    ∀ a ∈ e.attrs, ∀ v ∈ a.vals, ldifType a.name = true ∧ a.name ≠ b!"control" ∧ a.name ≠ b!"changetype" ∧ ValueOk v

instance (e : Entry) : Decidable (Writable e) := by unfold Writable; infer_instance

/-! ## An instance of `LdifLib` -/

/-- The library as it is meant to be used here: lines of at most 76 bytes, base64 exactly for values with bytes that are not printable, no
values from URLs, no change records. For the examples. -/
def goLdif : LdifLib where
  width := 76
  needs64 v := v.any fun c => c < 32 || 126 < c
  dn64 := false
  valid := ldifType
  url _ := none
  noValue _ := none
  changes _ := none
  skipNil := false

theorem goLdif_lawful : goLdif.Lawful where
  width := by decide
  needs64 := by
    rintro v ⟨c, hc, h⟩
    simp only [goLdif, List.any_eq_true]
    exact ⟨c, hc, by simpa using h⟩
  valid _ h := h

end Idm
