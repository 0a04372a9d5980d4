import Verif.Spec.BoltServer
import Verif.Spec.FilterText
/-!
# What can crash the server with the BoltDB store
-/
namespace Idm

/-- The filter contains a substring filter without any string to look for, possibly below and, or and not. -/
inductive EmptySub : Packet → Prop
  | here {p a s : Packet} : p.tag = 4 → p.kids = [a, s] → s.kids = [] → EmptySub p
  | under {p k : Packet} : p.tag = 0 ∨ p.tag = 1 ∨ p.tag = 2 → k ∈ p.kids → EmptySub k → EmptySub p

/-- A change of a modify request that lacks the operation or the attribute. -/
def BadChange (c : Packet) : Prop := c.kids.length < 2 ∨ ∃ o, c.kids[0]? = some o ∧ o.data = []

/-- The password modify request has a field (0 user, 1 old password, 2 new password) with this value. -/
def PwField (V : Env) (req : Packet) (tag : Nat) (s : Str) : Prop :=
  ∃ b inner k, b ∈ req.kids ∧ V.berDecode b.data = some inner ∧ k ∈ inner.kids ∧ k.tag = tag ∧ k.data = s

/-- The text means the root DN (it is empty but for white space). -/
def IsRoot (C : CaseEnv) (s : Str) : Prop := parseDN C s = some []

/-- The causes of a crash: what a packet `p` of a client bound as `bound` contains. -/
inductive CrashCause (V : Env) (admin : Str) (d : Dir) (p : Packet) (bound : Str) : Prop
  /-- go-ldap's `DecodeControl` panics on a control of the message. -/
  | control (m req c : Packet) (more : List Packet) (q : Packet) :
      p.kids = m :: req :: c :: more → q ∈ c.kids → V.control q = .panic → CrashCause V admin d p bound
  /-- A bound client sends a modify request with an incomplete change. -/
  | change (id : Int) (req l c : Packet) :
      Message p id req → req.tag = 6 → bound ≠ [] → req.kids[1]? = some l → c ∈ l.kids → BadChange c → CrashCause V admin d p bound
  /-- The administrator adds or renames the root DN, or renames to it. -/
  | root (id : Int) (req x : Packet) (s : Str) :
      Message p id req → req.tag = 8 ∨ req.tag = 12 → bound = admin → bound ≠ [] → x ∈ req.kids → x.val = .str s → IsRoot V.C s →
      CrashCause V admin d p bound
  /-- The administrator deletes the root DN. -/
  | deleteRoot (id : Int) (req : Packet) :
      Message p id req → req.tag = 10 → bound = admin → bound ≠ [] → IsRoot V.C req.data → CrashCause V admin d p bound
  /-- Any client searches with a filter that, written as text and read again, contains an empty substring filter. -/
  | substring (id : Int) (req f fp : Packet) (text : Str) :
      Message p id req → req.tag = 3 → req.kids[6]? = some f → decompile f = some text → compile text = some fp → EmptySub fp →
      CrashCause V admin d p bound
  /-- A bound client who is not the administrator wants to change the password of another entry. -/
  | notOwner (id : Int) (req : Packet) (user n : Str) :
      Message p id req → req.tag = 23 → bound ≠ [] → bound ≠ admin → user = bound ∨ PwField V req 0 user →
      parseNormalize V.C user = some n → n ≠ bound → CrashCause V admin d p bound
  /-- A bound client gives an old password, and the stored value is one that `Validate` panics on. -/
  | oldPassword (id : Int) (req : Packet) (old : Str) (n : Node) :
      Message p id req → req.tag = 23 → bound ≠ [] → PwField V req 1 old → old ≠ [] → n ∈ d →
      validatePw V.C V.K old (getVal V.C n.entry.attrs sUserPassword) = .panic → CrashCause V admin d p bound

end Idm
