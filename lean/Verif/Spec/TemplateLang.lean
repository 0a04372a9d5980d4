import Verif.Model.TemplateLang
import Verif.Spec.Launch
import Verif.Spec.Login
/-!
# What the actions of a template mean
-/
namespace Idm

/-! ## How templates are written -/

/-- A name of a variable: letters and digits, a letter first. -/
def IsName (n : Str) : Prop :=
  (∃ c r, n = c :: r ∧ ¬ (48 ≤ c ∧ c ≤ 57)) ∧ ∀ c ∈ n, (48 ≤ c ∧ c ≤ 57) ∨ (65 ≤ c ∧ c ≤ 90) ∨ (97 ≤ c ∧ c ≤ 122)

/-- A text that can be written between quotes as it is: printable ASCII without quotes, backslashes and closing braces. -/
def IsLiteral (v : Str) : Prop := ∀ c ∈ v, 32 ≤ c ∧ c ≤ 126 ∧ c ∉ b!"\"\\}"

/-- How an action is written, without the braces. -/
inductive Written : Action → Str → Prop where
  | field (n : Str) : IsName n → Written (.field n) (b!"." ++ n)
  | auto : Written (.auto none) b!"AutoIncrement"
  | autoFrom (k : UInt64) : Written (.auto (some k)) (b!"AutoIncrement " ++ natText k.toNat)
  | company (v : Str) : IsLiteral v → Written (.assign b!"Company" v) (b!"WithCompany \"" ++ v ++ b!"\"")
  | baseDN (v : Str) : IsLiteral v → Written (.assign b!"BaseDN" v) (b!"WithBaseDN \"" ++ v ++ b!"\"")
  | mailDomain (v : Str) : IsLiteral v → Written (.assign b!"MailDomain" v) (b!"WithMailDomain \"" ++ v ++ b!"\"")
  | declare (n v : Str) : IsName n → IsLiteral v → Written (.declare n v) (b!"$" ++ n ++ b!" := \"" ++ v ++ b!"\"")
  | local_ (n : Str) : IsName n → Written (.local_ n) (b!"$" ++ n)
  | block : Written .block b!"with ."
  | close : Written .close b!"end"
  | base64 (v : Str) : IsLiteral v → Written (.base64 v) (b!"\"" ++ v ++ b!"\" | formatAsBase64")
  | file (v : Str) : IsLiteral v → Written (.file v) (b!"\"" ++ v ++ b!"\" | formatAsFileBase64")

/-- The space that may be removed behind an action. -/
def IsSpace (w : Str) : Prop := ∀ c ∈ w, c ∈ b!" \t\r\n"

/-- The template consists of these actions, each with the text in front of it, and the text at the end. After ` -}}` the space up to the next
text or action does not count. -/
inductive Consists : List (Str × Action) → Str → Str → Prop where
  | done (s : Str) : contains s b!"{{" = false → Consists [] s s
  | action (s a : Str) (act : Action) (ps : List (Str × Action)) (tail rest : Str) : contains s b!"{{" = false → s.getLast? ≠ some 123 →
      Written act a → Consists ps tail rest → Consists ((s, act) :: ps) tail (s ++ b!"{{" ++ a ++ b!"}}" ++ rest)
  | trimmed (s a w : Str) (act : Action) (ps : List (Str × Action)) (tail rest : Str) : contains s b!"{{" = false → s.getLast? ≠ some 123 →
      Written act a → IsSpace w → (∀ c, rest.head? = some c → c ∉ b!" \t\r\n") → Consists ps tail rest →
      Consists ((s, act) :: ps) tail (s ++ b!"{{" ++ a ++ b!" -}}" ++ w ++ rest)

/-! ## What they stand for -/

/-- The variables and the counter, and the local variables that can be seen: in the innermost block, in the one around it, and so on. -/
structure TplState where
  var : Str → Option Str
  count : UInt64
  seen : Str → Option Str
  around : List (Str → Option Str)

/-- One more value. -/
def put (f : Str → Option Str) (n v : Str) : Str → Option Str := fun k => if k = n then some v else f k

/-- What an action does and prints. `file` is the content of the files that may be included, in base64. -/
inductive Does (file : Str → Option Str) : TplState → Action → TplState → Str → Prop where
  | field (st : TplState) (n v : Str) : st.var n = some v → Does file st (.field n) st v
  | missing (st : TplState) (n : Str) : st.var n = none → Does file st (.field n) st b!"<no value>"
  | next (st : TplState) : Does file st (.auto none) { st with count := st.count + 1 } (natText (st.count + 1).toNat)
  | set (st : TplState) (k : UInt64) : Does file st (.auto (some k)) { st with count := k } (natText k.toNat)
  | assign (st : TplState) (n v : Str) : Does file st (.assign n v) { st with var := put st.var n v } []
  | declare (st : TplState) (n v : Str) : Does file st (.declare n v) { st with seen := put st.seen n v } []
  | local_ (st : TplState) (n v : Str) : st.seen n = some v → Does file st (.local_ n) st v
  | block (st : TplState) : Does file st .block { st with around := st.seen :: st.around } []
  | close (st : TplState) (s : Str → Option Str) (r : List (Str → Option Str)) : st.around = s :: r → Does file st .close { st with seen := s, around := r } []
  | base64 (st : TplState) (v : Str) : Does file st (.base64 v) st (base64 v)
  | file (st : TplState) (v out : Str) : file v = some out → Does file st (.file v) st out

/-- An action that makes the template fail: a local variable that is not there, an end without a block, a file that may not or cannot be
included. -/
inductive Fails (file : Str → Option Str) : TplState → Action → Prop where
  | local_ (st : TplState) (n : Str) : st.seen n = none → Fails file st (.local_ n)
  | close (st : TplState) : st.around = [] → Fails file st .close
  | file (st : TplState) (v : Str) : file v = none → Fails file st (.file v)

/-- What the template stands for: `some` text, or `none` if it fails. At the end every block has to be closed. -/
inductive Yields (file : Str → Option Str) : TplState → List (Str × Action) → Str → Option Str → Prop where
  | done (st : TplState) (tail : Str) : st.around = [] → Yields file st [] tail (some tail)
  | unclosed (st : TplState) (tail : Str) : st.around ≠ [] → Yields file st [] tail none
  | next (st st' : TplState) (s v : Str) (a : Action) (ps : List (Str × Action)) (tail : Str) (out : Option Str) : Does file st a st' v →
      Yields file st' ps tail out → Yields file st ((s, a) :: ps) tail (out.map fun o => s ++ v ++ o)
  | fails (st : TplState) (s : Str) (a : Action) (ps : List (Str × Action)) (tail : Str) : Fails file st a → Yields file st ((s, a) :: ps) tail none

/-- At the beginning: the variables, the counter, no local variables. -/
def tplStart (var : Str → Option Str) (start : UInt64) : TplState := ⟨var, start, fun _ => none, []⟩

/-- The template engine leaves a text without actions as it is, and does what the model of the language does, where that says anything. -/
def GoEngine (H : Host) : Prop :=
  (∀ dir, PlainEngine (H.engine dir)) ∧
  ∀ dir vars start text r, vars ≠ [] → tplRun (H.tplEnv base64 dir) vars start text = some r → H.engine dir vars start text = r

end Idm
