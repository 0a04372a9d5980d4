import Verif.Proofs.Serial
import Verif.Props.Bolt
/-!
# C09 crashes, C36 concurrency

Every reachable process state is covered: any number of goroutines (`τ`), any interleaving of their transactions statement by statement.
-/
namespace Idm

section
variable {τ ι : Type} [DecidableEq τ] {C : CaseEnv} {G : GobEnv} {validate : Str → Str → Res Bool} {base : Str}

/-- Only store requests are made. -/
def OnlyStoreRequests (C : CaseEnv) (G : GobEnv) (validate : Str → Str → Res Bool) (base : Str) (fuel : Nat)
    (s : Proc τ ι Reply) : Prop :=
  ∀ id c, Event.invoke id c ∈ s.trace → ∃ req, c = callReq C G validate base fuel req

/-- C36: at every point of every concurrent execution there is a sequential execution of store calls (each alone, from begin to end) that
leaves the version now on disk, contains every answered request with the answer it got and no request twice, and orders a request
answered before another one arrived before it. -/
theorem C36_serialisable (db : Db) (fuel : Nat) (s : Proc τ ι Reply) (h : Reach db s)
    (hreq : OnlyStoreRequests C G validate base fuel s) :
    ∃ log : List (Done ι Reply), Serialises db s log ∧
      ∀ e ∈ log, ∃ req, Event.invoke e.id (callReq C G validate base fuel req) ∈ s.trace ∧
        ∀ d, e.call.exec d = storeExec C G validate base fuel req d := by
  obtain ⟨log, I⟩ := inv_reach h
  refine ⟨log, I.ser, fun e he => ?_⟩
  have h1 := I.ser.requested e he
  obtain ⟨req, hr⟩ := hreq _ _ h1
  exact ⟨req, by rw [← hr]; exact h1, fun d => by rw [hr]; exact callReq_exec d fuel req⟩

/-- C09: whenever the process dies, what is on disk is the result of a sequential execution of whole calls, among them all that
were answered. -/
theorem C09_crash_keeps_answered (db : Db) (fuel : Nat) (s : Proc τ ι Reply) (h : Reach db s)
    (hreq : OnlyStoreRequests C G validate base fuel s) :
    ∃ log : List (ι × StoreReq), s.disk = log.foldl (fun d r => (storeExec C G validate base fuel r.2 d).2) db ∧
      (log.map (·.1)).Nodup ∧
      (∀ r ∈ log, Event.invoke r.1 (callReq C G validate base fuel r.2) ∈ s.trace) ∧
      ∀ id r, Event.respond id r ∈ s.trace → ∃ e ∈ log, e.1 = id := by
  obtain ⟨log, S, hl⟩ := C36_serialisable db fuel s h hreq
  have main : ∀ (log : List (Done ι Reply)) (db : Db), Explains db log s.disk →
      (∀ e ∈ log, ∃ req, Event.invoke e.id (callReq C G validate base fuel req) ∈ s.trace ∧
        ∀ d, e.call.exec d = storeExec C G validate base fuel req d) →
      ∃ l : List (ι × StoreReq), s.disk = l.foldl (fun d r => (storeExec C G validate base fuel r.2 d).2) db ∧
        l.map (·.1) = log.map (·.id) ∧ ∀ r ∈ l, Event.invoke r.1 (callReq C G validate base fuel r.2) ∈ s.trace := by
    intro log
    induction log with
    | nil => intro db hE _; exact ⟨[], hE, rfl, by simp⟩
    | cons e log ih =>
      intro db hE hh
      obtain ⟨req, h1, h2⟩ := hh e List.mem_cons_self
      obtain ⟨l, g1, g2, g3⟩ := ih _ hE.2 fun e' he' => hh e' (List.mem_cons_of_mem _ he')
      refine ⟨(e.id, req) :: l, ?_, by simp [g2], ?_⟩
      · rw [g1, List.foldl_cons, h2]
      · intro r hr
        rcases List.mem_cons.1 hr with rfl | hr
        · exact h1
        · exact g3 r hr
  obtain ⟨l, g1, g2, g3⟩ := main log db S.explains hl
  refine ⟨l, g1, by rw [g2]; exact S.once, g3, fun id r hr => ?_⟩
  obtain ⟨e, he, e1, -⟩ := S.answered id r hr
  have : id ∈ l.map (·.1) := by rw [g2]; exact List.mem_map.2 ⟨e, he, e1⟩
  obtain ⟨x, hx, ex⟩ := List.mem_map.1 this
  exact ⟨x, hx, ex⟩

/-- C09: each step of the process leaves the version on disk as it is or replaces it by the result of one whole call that was requested:
no mixture ever reaches the disk. -/
theorem C09_before_or_after (db : Db) (fuel : Nat) (s s' : Proc τ ι Reply) (h : Reach db s)
    (hreq : OnlyStoreRequests C G validate base fuel s) (hs : Step s s') :
    s'.disk = s.disk ∨
    ∃ id req, Event.invoke id (callReq C G validate base fuel req) ∈ s.trace ∧
      s'.disk = (storeExec C G validate base fuel req s.disk).2 := by
  obtain ⟨log, I⟩ := inv_reach h
  cases hs with
  | commit t id a d ht =>
    right
    have hT := I.thr t
    rw [ht] at hT
    obtain ⟨-, -, p₀, h3, h4⟩ := hT
    obtain ⟨req, hr⟩ := hreq _ _ h3
    refine ⟨id, req, by rw [← hr]; exact h3, ?_⟩
    rw [← callReq_exec, ← hr]
    simp only [Call.exec, update, ← h4, Prog.run]
  | _ => exact .inl rfl

end

/-! ## A concrete interleaving

Two clients; client `false` adds the base entry while client `true` searches for it. The search begins before the commit and ends after
it; the answers are "not found" and success. -/

section
abbrev exAdd : StoreReq := .op (.add ⟨b!"dc=lg", []⟩)
abbrev exFind : StoreReq := .search b!"dc=lg" 0
abbrev exCall (r : StoreReq) : Call Reply := callReq asciiCase gobInstance exValidate b!"dc=lg" 5 r

/-- Run a thread's transaction as far as possible (used to build the example). -/
def runN {ρ : Type} : Nat → Prog ρ × Db → Prog ρ × Db
  | 0, x => x
  | n + 1, (.get b k c, db) => runN n (c (db.tbl b k), db)
  | n + 1, (.put b k v c, db) => if k = [] ∨ k.length > maxKeySize then runN n (.fail .other, db) else runN n (c, db.set b k (some v))
  | n + 1, (.del b k c, db) => runN n (c, db.set b k none)
  | n + 1, (.nextSeq c, db) => runN n (c ((db.seq + 1) % 2 ^ 64), { db with seq := (db.seq + 1) % 2 ^ 64 })
  | _, x => x

theorem reach_runN_write {τ ι ρ : Type} [DecidableEq τ] {db : Db} (t : τ) (id : ι) : ∀ (n : Nat) (s : Proc τ ι ρ) (p : Prog ρ) (d : Db),
    Reach db s → s.threads t = .writing id p d →
    Reach db { s with threads := setThread s.threads t (.writing id (runN n (p, d)).1 (runN n (p, d)).2) } := by
  intro n
  induction n with
  | zero =>
    intro s p d h ht
    have : setThread s.threads t (.writing id p d) = s.threads := by
      funext u; by_cases hu : u = t
      · subst hu; rw [setThread_self, ht]
      · rw [setThread_ne _ hu]
    simp only [runN]; rw [this]; exact h
  | succ n ih =>
    intro s p d h ht
    have key : ∀ q : Prog ρ × Db, Instr (p, d) q → runN (n + 1) (p, d) = runN n q →
        Reach db { s with threads := setThread s.threads t (.writing id (runN (n + 1) (p, d)).1 (runN (n + 1) (p, d)).2) } := by
      intro q hi hr
      have h1 := Reach.step _ _ h (Step.stepWrite s t id p d q ht hi)
      have h2 := ih _ q.1 q.2 h1 (by simp [setThread_self])
      have : ∀ x, setThread (setThread s.threads t (.writing id q.1 q.2)) t x = setThread s.threads t x := by
        intro x; funext u; by_cases hu : u = t <;> simp [setThread, hu]
      simp only [this] at h2
      rw [hr]; exact h2
    have same : runN (n + 1) (p, d) = (p, d) →
        Reach db { s with threads := setThread s.threads t (.writing id (runN (n + 1) (p, d)).1 (runN (n + 1) (p, d)).2) } := by
      intro hr
      rw [hr]
      have : setThread s.threads t (.writing id p d) = s.threads := by
        funext u; by_cases hu : u = t
        · subst hu; rw [setThread_self, ht]
        · rw [setThread_ne _ hu]
      simp only [this]; exact h
    cases p with
    | ret a => exact same rfl
    | fail e => exact same rfl
    | panic => exact same rfl
    | hang => exact same rfl
    | get b k c => exact key _ (.get b k c d) rfl
    | put b k v c =>
      by_cases hk : k = [] ∨ k.length > maxKeySize
      · exact key _ (.putErr b k v c d hk) (by simp only [runN, if_pos hk])
      · exact key _ (.put b k v c d hk) (by simp only [runN, if_neg hk])
    | del b k c => exact key _ (.del b k c d) rfl
    | nextSeq c => exact key _ (.seq c d) rfl

/-- The hypotheses of C09 and C36 are met by an execution in which a search overlaps a successful add: the search is answered
"not found" although it ends after the commit. -/
example : ∃ s : Proc Bool Nat Reply, Reach Db.empty s ∧ OnlyStoreRequests asciiCase gobInstance exValidate b!"dc=lg" 5 s ∧
    Event.respond 0 (.ok .unit) ∈ s.trace ∧ Event.respond 1 (.ok (.entries [] (some .other))) ∈ s.trace := by
  -- the transaction bodies
  obtain ⟨pa, hpa⟩ : ∃ p, exCall exAdd = .write p := ⟨_, rfl⟩
  obtain ⟨pf, hpf⟩ : ∃ p, exCall exFind = .read p := ⟨_, rfl⟩
  have ha : ∃ d, runN 10 (pa, Db.empty) = (.ret .unit, d) := by
    have : (exCall exAdd).exec Db.empty = (update pa Db.empty) := by rw [hpa]; rfl
    cases hpa
    exact ⟨_, rfl⟩
  obtain ⟨da, hda⟩ := ha
  have h0 : Reach (τ := Bool) (ι := Nat) (ρ := Reply) Db.empty (Proc.start Db.empty) := .start
  have h1 := Reach.step _ _ h0 (Step.invoke _ false 0 (exCall exAdd) rfl (by simp [Proc.start]))
  have h2 := Reach.step _ _ h1 (Step.invoke _ true 1 (exCall exFind) rfl (by simp [Proc.start]))
  have h3 := Reach.step _ _ h2 (Step.beginRead _ true 1 pf (by simp [setThread, hpf]))
  have h4 := Reach.step _ _ h3 (Step.beginWrite _ false 0 pa (by simp [setThread, hpa]) rfl)
  have h5 := reach_runN_write false 0 10 _ pa Db.empty h4 (by simp [setThread, Proc.start])
  rw [hda] at h5
  have h6 := Reach.step _ _ h5 (Step.commit _ false 0 .unit da (by simp [setThread]))
  have h7 := Reach.step _ _ h6 (Step.respond _ false 0 (.ok .unit) (by simp [setThread]))
  obtain ⟨b, k, c, hc⟩ : ∃ b k c, pf = .get b k c := by cases hpf; exact ⟨_, _, _, rfl⟩
  have hout : (c ((Db.empty).tbl b k)).outcome = some (.ok (.entries [] (some .other))) := by cases hpf; cases hc; rfl
  have h8 := Reach.step _ _ h7 (Step.stepRead _ true 1 pf Db.empty _ (by simp [setThread, Proc.start]) (by rw [hc]; exact .get b k c Db.empty))
  have h9 := Reach.step _ _ h8 (Step.endRead _ true 1 _ _ _ (by simp [setThread]; rfl) hout)
  have h10 := Reach.step _ _ h9 (Step.respond _ true 1 _ (by simp [setThread]; rfl))
  refine ⟨_, h10, ?_, ?_, ?_⟩
  · intro id c hc
    simp [Proc.start] at hc
    rcases hc with ⟨rfl, rfl⟩ | ⟨rfl, rfl⟩
    · exact ⟨exAdd, rfl⟩
    · exact ⟨exFind, rfl⟩
  · simp [Proc.start]
  · simp [Proc.start]

end

end Idm
