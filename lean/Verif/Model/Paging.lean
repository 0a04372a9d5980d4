import Verif.Model.Ldif
/-!
# One paged search of the LDIF handler, goroutine by goroutine

The producer goroutine (`searchEntriesPump`) and any number of request handlers (`Search`) that present the cookie of the search, with the
unbuffered channel between them and the entry of the cookie in `activeSearchPagings`. Requests with other cookies touch other channels and
other keys of that concurrent map. The model is generic in how a request handler deals with an entry it receives: `eat` either goes on or
ends the page, `fin` is the page when the channel is closed. Model/Ldif.lean instantiates this by `searchPage`.
-/
namespace Idm

section
variable {α κ ρ : Type}

/-- Where a producer is, handler.go:410-485: in its loop, about to remove its cookie (413), about to close the channel (414), ended. -/
inductive PPhase where
  | offering
  | removing
  | closing
  | ended
  deriving DecidableEq, Repr

/-- Where a request handler is, handler.go:272-407: in the receive loop; about to remove the cookie of a search to abandon (296); receiving from
the nil channel after that; it has returned a page (`last`: with the empty cookie); it has returned an error because the cookie is unknown. -/
inductive Con (κ ρ : Type) where
  | waiting (k : κ)
  | abandoning
  | stuck
  | answered (r : ρ) (last : Bool)
  | refused
  deriving DecidableEq, Repr

/-- A paged search: what the producer has not handed over yet, its phase, whether the cookie is registered, and the request handlers in the
order of their look-ups. History, which nothing depends on: all entries there were to hand over; those handed over, with the number of the
handler; what the handlers were asked (`none`: to abandon); whether the producer gave up. -/
structure PSearch (α κ ρ : Type) where
  todo : List α
  phase : PPhase
  reg : Bool
  cons : List (Con κ ρ)
  all : List α
  out : List (Nat × α)
  asks : List (Option κ)
  gaveUp : Bool

/-- The first request, handler.go:276-281 and 302-305: the cookie is registered and the producer started. -/
def PSearch.start (l : List α) (k : κ) : PSearch α κ ρ := ⟨l, .offering, true, [.waiting k], l, [], [some k], false⟩

variable (eat : κ → α → κ ⊕ ρ) (fin : κ → ρ)

/-- What a handler does with an entry. -/
def Con.receive (k : κ) (x : α) : Con κ ρ :=
  match eat k x with
  | .inl k' => .waiting k'
  | .inr r => .answered r false

/-- The steps. -/
inductive PStep : PSearch α κ ρ → PSearch α κ ρ → Prop
  /-- A request presents the cookie with a page size and finds it, 283-290. -/
  | ask (s) (k : κ) : s.reg = true → PStep s { s with cons := s.cons ++ [.waiting k], asks := s.asks ++ [some k] }
  /-- It does not find it, 284-286. -/
  | askLate (s) (k : κ) : s.reg = false → PStep s { s with cons := s.cons ++ [.refused], asks := s.asks ++ [some k] }
  /-- A request presents the cookie with page size 0 and finds it, 291-294. -/
  | abandon (s) : s.reg = true → PStep s { s with cons := s.cons ++ [.abandoning], asks := s.asks ++ [none] }
  /-- It does not find it. -/
  | abandonLate (s) : s.reg = false → PStep s { s with cons := s.cons ++ [.refused], asks := s.asks ++ [none] }
  /-- It removes the cookie, 296. -/
  | drop (s) (i : Nat) : s.cons[i]? = some .abandoning → PStep s { s with reg := false, cons := s.cons.set i .stuck }
  /-- An entry passes through the channel, 331 and 423. -/
  | hand (s) (i : Nat) (k : κ) (x : α) (xs : List α) : s.cons[i]? = some (.waiting k) → s.phase = .offering → s.todo = x :: xs →
      PStep s { s with todo := xs, cons := s.cons.set i (Con.receive eat k x), out := s.out ++ [(i, x)] }
  /-- The producer has handed over everything. -/
  | finish (s) : s.phase = .offering → s.todo = [] → PStep s { s with phase := .removing }
  /-- Nobody has taken the entry for a minute, or the server shuts down, 424-437. -/
  | giveUp (s) : s.phase = .offering → s.todo ≠ [] → PStep s { s with phase := .removing, gaveUp := true }
  /-- The producer removes its cookie, 413. -/
  | remove (s) : s.phase = .removing → PStep s { s with phase := .closing, reg := false }
  /-- The producer closes the channel, 414. -/
  | close (s) : s.phase = .closing → PStep s { s with phase := .ended }
  /-- A handler sees that the channel is closed, 331-335. -/
  | eof (s) (i : Nat) (k : κ) : s.cons[i]? = some (.waiting k) → s.phase = .ended → PStep s { s with cons := s.cons.set i (.answered (fin k) true) }

/-- The states of a search of the entries `l`, under all schedules. -/
inductive PReach (l : List α) : PSearch α κ ρ → Prop
  | start (k : κ) : PReach l (PSearch.start l k)
  | step (s s' : PSearch α κ ρ) : PReach l s → PStep eat fin s s' → PReach l s'

end

/-! ## The request handlers of the LDIF server -/

/-- What a request handler in its receive loop knows, handler.go:316-322: the compiled filter, the request, the page size, and the entries
taken so far. -/
structure LdifCon where
  fp : Packet
  r : SearchReq
  paging : Option Nat
  taken : List Entry

/-- One turn of the loop of `Search`, handler.go:337-391, for an entry that was received: go on with more entries, or return them with a result
code (the entries are dropped when the code is not success, 345, 358). -/
def ldifEat (V : Env) (k : LdifCon) (x : LEntry) : LdifCon ⊕ Res (List Entry × Nat) :=
  match applyFilter V.C x.visible k.fp with
  | .err e => .inr (.err e)
  | .panic => .inr .panic
  | .hang => .inr .hang
  | .ok (keep, code) =>
    if code ≠ rcSuccess then .inr (.ok ([], code))
    else if !keep then .inl k
    else
      let (keep, code) := filterScope V.C k.r.baseDN (scopeNat k.r.scope) x.visible
      if code ≠ rcSuccess then .inr (.ok ([], code))
      else if !keep then .inl k
      else
        let taken := k.taken ++ [filterAttributes V.C k.r.attrs x.visible]
        if k.paging.any (fun n => taken.length ≥ n) then .inr (.ok (taken, rcSuccess))
        else if k.r.sizeLimit > 0 ∧ taken.length ≥ toU32 k.r.sizeLimit then .inr (.ok (taken, rcSuccess))
        else .inl { k with taken := taken }

/-- The closed channel, handler.go:331-335 and 394-407. -/
def ldifFin (k : LdifCon) : Res (List Entry × Nat) := .ok (k.taken, rcSuccess)

end Idm
