import Verif.Model.Paging
/-!
# Specification vocabulary: paged searches one request after the other
-/
namespace Idm

section
variable {α κ ρ : Type} (eat : κ → α → κ ⊕ ρ) (fin : κ → ρ)

/-- A page made from a list of entries: the page, what is left of the list, and whether the end was seen. -/
def runPage (k : κ) : List α → ρ × List α × Bool
  | [] => (fin k, [], true)
  | x :: xs => match eat k x with
    | .inl k' => runPage k' xs
    | .inr r => (r, xs, false)

/-- What a request is answered: a page (`last`: with the empty cookie), an error, or nothing at all. -/
inductive PAns (ρ : Type) where
  | page (r : ρ) (last : Bool)
  | refused
  | hangs
  deriving DecidableEq, Repr

/-- One request to a search of which `rest` is left (`none`: the search is unknown), as in `pageSource` and `ldifSearch`. `inTime`: the request
still finds the cookie although nothing is left. -/
def seqStep (rest : Option (List α)) (q : Option κ) (inTime : Bool) : PAns ρ × Option (List α) :=
  match rest with
  | none => (.refused, none)
  | some l =>
    if l.isEmpty && !inTime then (.refused, none)
    else match q with
      | none => (.hangs, none)
      | some k => (.page (runPage eat fin k l).1 (runPage eat fin k l).2.2, if (runPage eat fin k l).2.2 then none else some (runPage eat fin k l).2.1)

/-- Requests one after the other. -/
def seqRun : Option (List α) → List (Option κ × Bool) → List (PAns ρ) × Option (List α)
  | rest, [] => ([], rest)
  | rest, (q, t) :: qs =>
    let o := seqStep eat fin rest q t
    let r := seqRun o.2 qs
    (o.1 :: r.1, r.2)

/-- No handler is at work. -/
def Settled (s : PSearch α κ ρ) : Prop := ∀ c ∈ s.cons, (∀ k, c ≠ .waiting k) ∧ c ≠ .abandoning

/-- The schedules in which the client waits for the answer to a request before the cookie is presented again. -/
inductive SReach (l : List α) : PSearch α κ ρ → Prop
  | start (k : κ) : SReach l (PSearch.start l k)
  | step (s s' : PSearch α κ ρ) : SReach l s → PStep eat fin s s' → (s.cons.length < s'.cons.length → Settled s) → SReach l s'

/-- Any number of steps. -/
inductive PSteps : PSearch α κ ρ → PSearch α κ ρ → Prop
  | refl (s) : PSteps s s
  | step (s s' s'') : PSteps s s' → PStep eat fin s' s'' → PSteps s s''

/-- The handler waits for an entry. -/
def Waits (s : PSearch α κ ρ) (i : Nat) : Prop := ∃ k, s.cons[i]? = some (.waiting k)

/-- An infinite execution: one step after the other, with pauses, in which goroutines that can go on do so at some time. While a handler waits
and the producer has not ended, one of them makes a step at some time, which means that an entry is handed over or the producer comes nearer to
its end (`C42_progress` shows that such a step is possible); and a handler that waits when the channel is closed sees this at some time. -/
structure Fair (run : Nat → PSearch α κ ρ) : Prop where
  step : ∀ t, run (t + 1) = run t ∨ PStep eat fin (run t) (run (t + 1))
  producer : ∀ t i, Waits (run t) i → (run t).phase ≠ .ended →
    ∃ t', t ≤ t' ∧ ((run t').out.length < (run (t' + 1)).out.length ∨ (run t').phase ≠ (run (t' + 1)).phase)
  closed : ∀ t i, Waits (run t) i → (run t).phase = .ended → ∃ t', t ≤ t' ∧ ¬ Waits (run t') i

/-- The handler that has given this answer. -/
def PAns.con : PAns ρ → Con κ ρ
  | .page r l => .answered r l
  | .refused => .refused
  | .hangs => .stuck

/-- The entries handed to the handler with number `i`. -/
def PSearch.got (s : PSearch α κ ρ) (i : Nat) : List α := (s.out.filter fun p => p.1 = i).map (·.2)

/-- A handler after some entries. -/
def eatAll (k : κ) : List α → Con κ ρ
  | [] => .waiting k
  | x :: xs => match eat k x with
    | .inl k' => eatAll k' xs
    | .inr r => .answered r false

end
end Idm
