import Verif.Spec.LdifParallel
import Verif.Spec.Crash
/-!
# What can crash or block the server with LDIF files
-/
namespace Idm

/-- The causes of a crash: what a packet `p` of a client bound as `bound` contains. -/
inductive LdifCrash (V : Env) (p : Packet) (bound : Str) : Prop
  /-- go-ldap's `DecodeControl` panics on a control of the message. -/
  | control (q : Packet) : q ∈ controlsOf p → V.control q = .panic → LdifCrash V p bound
  /-- A bound client sends a modify request with an incomplete change. -/
  | change (id : Int) (req l c : Packet) :
      Message p id req → req.tag = 6 → bound ≠ [] → req.kids[1]? = some l → c ∈ l.kids → BadChange c → LdifCrash V p bound
  /-- Any client searches with a filter that, written as text and read again, contains an empty substring filter. -/
  | substring (id : Int) (req f fp : Packet) (text : Str) :
      Message p id req → req.tag = 3 → req.kids[6]? = some f → decompile f = some text → compile text = some fp → EmptySub fp →
      LdifCrash V p bound

/-- The causes for a connection to block for ever. -/
inductive LdifBlock (V : Env) (stats : Bool) (p : Packet) : Prop
  /-- go-ldap's `DecodeControl` does not return on a control of the message. -/
  | control (q : Packet) : q ∈ controlsOf p → V.control q = .hang → LdifBlock V stats p
  /-- An add request, with the statistics turned on. -/
  | add (id : Int) (req : Packet) : stats = true → Message p id req → req.tag = 8 → LdifBlock V stats p
  /-- A search that presents a cookie and asks for a page of no entries: the way to abandon a paged search. -/
  | abandon (id : Int) (req q : Packet) (k : Str) :
      Message p id req → req.tag = 3 → q ∈ controlsOf p → V.control q = .ok (.paging 0 k) → k ≠ [] → LdifBlock V stats p

/-- The server can go on, without any further packet, reload or time-out, until it has answered the request; in between it may only make a
cookie for it. -/
def LAnswerable {ι : Type} (V : Env) (W : WalkOrd) (cfg : LdifCfg) (genPwLen : Nat) (stats : Bool) (loop : Nat → Bool) (s : LPar ι) (id : ι) : Prop :=
  ∃ s' rs l, LParSteps V W cfg genPwLen stats loop s s' ∧ s'.trace = s.trace ++ (l ++ [.io (.answer id rs)]) ∧ (l = [] ∨ ∃ k, l = [.cookie id k])

end Idm
