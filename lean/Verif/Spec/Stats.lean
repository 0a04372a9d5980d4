import Verif.Model.Stats
/-!
# Specification: what the statistics should say
-/
namespace Idm

section
variable {τ : Type} [DecidableEq τ]

/-- The counts that were begun, in order. -/
def begins : List (SEvent τ) → List (τ × Counted)
  | [] => []
  | .begin t e :: tr => (t, e) :: begins tr
  | _ :: tr => begins tr

/-- The counts that were finished, in order. -/
def finishes : List (SEvent τ) → List (τ × Counted)
  | [] => []
  | .finish t e :: tr => (t, e) :: finishes tr
  | _ :: tr => finishes tr

/-- The connections that are open after a list of events. -/
def openAfter (log : List (τ × Counted)) : List τ :=
  log.foldl (fun l x => if x.2 = .conn then x.1 :: l else if x.2 = .close then l.erase x.1 else l) []

/-- The number of events of a kind. -/
def howMany (e : Counted) (log : List (τ × Counted)) : Nat := log.countP fun x => x.2 = e

/-- The largest number of connections that were open at the same time. -/
def maxOpen (log : List (τ × Counted)) : Nat :=
  ((List.range (log.length + 1)).map fun i => (openAfter (log.take i)).length).foldl Nat.max 0

/-- The counters after a list of events. -/
def tally (log : List (τ × Counted)) : Counters
  | .conns => howMany .conn log
  | .cur => (openAfter log).length
  | .max => maxOpen log
  | .adds => howMany .add log
  | .binds => howMany .bind log
  | .deletes => howMany .delete log
  | .modifyDNs => howMany .modifyDN log
  | .modifies => howMany .modify log
  | .unbinds => howMany .unbind log
  | .searches => howMany .search log

end
end Idm
