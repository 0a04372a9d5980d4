import Verif.Model.LdifParallel
import Verif.Spec.Parallel
import Verif.Spec.LdifPaging
/-!
# Specification: overlapping requests to the LDIF server
-/
namespace Idm

section
variable {ι : Type}

/-- The requests and responses among what was seen. -/
def ios (tr : List (LSeen ι)) : List (Seen ι) := tr.filterMap fun e =>
  match e with
  | .io x => some x
  | _ => none

/-- The data of the LDIF files that is in force after what was seen: that of the last successful reload, or `m` if there was none. -/
def mainAt (m : LMem) : List (LSeen ι) → LMem
  | [] => m
  | .main m' :: t => mainAt m' t
  | _ :: t => mainAt m t

/-- The data of the config file that is in force after what was seen. -/
def confAt (m : LMem) : List (LSeen ι) → LMem
  | [] => m
  | .conf m' :: t => confAt m' t
  | _ :: t => confAt m t

/-- The message carries a paging control. -/
def Paged (V : Env) (p : Packet) : Prop := ∃ c ∈ controlsOf p, ∃ n k, V.control c = .ok (.paging n k)

/-- The message is a search (tag 3). -/
def AsksSearch (p : Packet) : Prop := ∃ id req, Message p id req ∧ req.tag = 3

/-- The request a goroutine is working on. -/
def LStage.job : LStage ι → Option (Job ι)
  | .ready _ => none
  | .begun j => some j
  | .bindMain j _ _ => some j
  | .starting j _ _ _ _ => some j
  | .dropping j _ _ => some j
  | .receiving j _ _ _ _ => some j
  | .stuck j => some j
  | .returned j _ => some j
  | .over => none

/-- The entries that a channel has handed over to a request. -/
def Chan.got [DecidableEq ι] (x : Chan ι) (id : ι) : List LEntry := (x.out.filter fun p => p.1 = id).map (·.2)

/-- The cookies made, with the requests they were made for. -/
def cookiesIn (tr : List (LSeen ι)) : List (ι × Str) := tr.filterMap fun e =>
  match e with
  | .cookie id k => some (id, k)
  | _ => none

/-- The answer contains a paging control with this cookie. -/
def GivesCookie (rs : List Resp) (key : Str) : Prop := ∃ id code cs, .searchDone id code (some cs) ∈ rs ∧ .paging 0 key ∈ cs

/-- The answer is a page of the paged search with this cookie: the answer contains the cookie, or it contains the empty cookie, which says that
there are no more pages, and the request presents the cookie and no other. -/
def PageOf (V : Env) (p : Packet) (rs : List Resp) (key : Str) : Prop :=
  GivesCookie rs key ∨ (GivesCookie rs [] ∧ Presents V p key ∧ ∀ k, Presents V p k → k = key)

/-- Somebody has asked for a page of size 0 with this cookie, which is how a client abandons a paged search (RFC 2696). -/
def Abandoned (V : Env) (tr : List (LSeen ι)) (key : Str) : Prop :=
  ∃ id cn p o, .io (.arrive id (.packet cn p o)) ∈ tr ∧ ∃ q ∈ controlsOf p, V.control q = .ok (.paging 0 key)

/-- The answer to a search is a result with this code. -/
def EndsWith (rs : List Resp) (code : Nat) : Prop := ∃ mid cs, .searchDone mid code cs ∈ rs

/-- `owners` says for each of the first entries of `l` which request got it: the entries that `id` got. -/
def share {α : Type} [DecidableEq ι] (owners : List ι) (l : List α) (id : ι) : List α := ((owners.zip l).filter fun p => p.1 = id).map (·.2)

/-- Some number of steps. -/
inductive LParSteps (V : Env) (W : WalkOrd) (cfg : LdifCfg) (genPwLen : Nat) (stats : Bool) (loop : Nat → Bool) : LPar ι → LPar ι → Prop
  | refl (s) : LParSteps V W cfg genPwLen stats loop s s
  | step (s s' s'') : LParStep V W cfg genPwLen stats loop s s' → LParSteps V W cfg genPwLen stats loop s' s'' →
      LParSteps V W cfg genPwLen stats loop s s''

end
end Idm
