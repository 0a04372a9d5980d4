import Verif.Props.Stats
/-!
# C96: what is reported as metrics

A collector asks for a copy of the counters and sends six numbers made of it (`collect`). In the traces of Model/Stats this is the event
`copied before c`: the collector began when `before` had been observed and got `c`.
-/
namespace Idm

section
variable {τ : Type} [DecidableEq τ]

theorem float64_small {n : Nat} (h : n < 2 ^ 53) : float64 n = n := by unfold float64; rw [if_pos h]

theorem openAfter_length : ∀ log : List (τ × Counted), (openAfter log).length ≤ log.length := by
  intro log
  unfold openAfter
  have : ∀ (log : List (τ × Counted)) (l : List τ), (log.foldl (fun l x => if x.2 = .conn then x.1 :: l else
      if x.2 = .close then l.erase x.1 else l) l).length ≤ l.length + log.length := by
    intro log
    induction log with
    | nil => intro l; simp
    | cons x log ih =>
      intro l
      rw [List.foldl_cons]
      refine Nat.le_trans (ih _) ?_
      rw [List.length_cons]
      split
      · rw [List.length_cons]; omega
      · split
        · have := (List.erase_sublist (a := x.1) (l := l)).length_le
          omega
        · omega
  simpa using this log []

theorem copy_fields {s : SState τ} (h : SSteps SState.start s) (hlen : s.trace.length + 1 < 2 ^ 53)
    (a b before : List (SEvent τ)) (c : Counters) (he : s.trace = a ++ .copied before c :: b) :
    ∃ log : List (τ × Counted), c = published (tally log) ∧ log.length + 1 < 2 ^ 53 ∧ Follows before log ∧
      ∀ x, log.count x ≤ (begins a).count x := by
  obtain ⟨_, I⟩ := inv_steps h (by omega)
  obtain ⟨log, h1, -, h3, h4⟩ := I.tr a b before c he
  refine ⟨log, h1, ?_, h3, h4⟩
  have l1 := length_of_count h4
  have l2 := begins_length a
  have l3 : a.length ≤ s.trace.length := by rw [he]; simp
  omega

/-- C96: whatever the clients do and however their requests and the collectors interleave, the numbers of one collection are those of one
list of events, which has every count that was finished when the collection began and none that was not begun when it ended: the
connections accepted, those of them not closed, the binds, unbinds and searches. (Missing: connections_max, which is always 0, see
`C96_max_fails`; from 2^53 events on the numbers are rounded.) -/
theorem C96_collected_partial (s : SState τ) (h : SSteps SState.start s) (hlen : s.trace.length + 1 < 2 ^ 53)
    (a b before : List (SEvent τ)) (c : Counters) (he : s.trace = a ++ .copied before c :: b) :
    ∃ log : List (τ × Counted), (∀ x, (finishes before).count x ≤ log.count x) ∧ (∀ x, log.count x ≤ (begins a).count x) ∧
      collect c = [(b!"kidm_ldapserver_connections_total", .counter, howMany .conn log),
        (b!"kidm_ldapserver_connections_current", .gauge, (openAfter log).length),
        (b!"kidm_ldapserver_connections_max", .counter, 0),
        (b!"kidm_ldapserver_binds_total", .counter, howMany .bind log),
        (b!"kidm_ldapserver_unbinds_total", .counter, howMany .unbind log),
        (b!"kidm_ldapserver_searches_total", .counter, howMany .search log)] := by
  obtain ⟨log, rfl, hl, h3, h4⟩ := copy_fields h hlen a b before c he
  refine ⟨log, h3.1, h4, ?_⟩
  have hh : ∀ e, howMany e log < 2 ^ 53 := fun e => Nat.lt_of_le_of_lt List.countP_le_length (by omega)
  have ho := openAfter_length log
  simp only [collect, published, tally, if_true, reduceCtorEq, if_false, float64_small (hh _), float64_small (Nat.lt_of_le_of_lt ho (by omega : log.length < 2 ^ 53)),
    float64_small (by decide : 0 < 2 ^ 53)]
  rfl

/-- C96: counters never go down: what a collection reports as a counter is not less than what any collection reported that ended before it
began. -/
theorem C96_never_down (s : SState τ) (h : SSteps SState.start s) (hlen : s.trace.length + 1 < 2 ^ 53)
    (a b before before' : List (SEvent τ)) (c c' : Counters) (he : s.trace = a ++ .copied before c :: b) (hb : .copied before' c' ∈ before)
    (name : Str) (v v' : Nat) (h1 : (name, .counter, v') ∈ collect c') (h2 : (name, .counter, v) ∈ collect c) : v' ≤ v := by
  obtain ⟨log, rfl, hl, h3, h4⟩ := copy_fields h hlen a b before c he
  obtain ⟨l, hpre, rfl⟩ := h3.2 before' c' hb
  have hh : ∀ e, howMany e log < 2 ^ 53 := fun e => Nat.lt_of_le_of_lt List.countP_le_length (by omega)
  have hle : ∀ e, howMany e l ≤ howMany e log := fun e => hpre.sublist.countP_le
  have key : ∀ e, float64 (howMany e l) ≤ float64 (howMany e log) := fun e => by
    rw [float64_small (hh e), float64_small (Nat.lt_of_le_of_lt (hle e) (hh e))]
    exact hle e
  simp only [collect, List.mem_cons, List.not_mem_nil, or_false, Prod.mk.injEq, published, tally, if_true, reduceCtorEq, if_false, false_and,
    and_false, true_and, false_or] at h1 h2
  rcases h1 with ⟨n1, rfl⟩ | ⟨n1, rfl⟩ | ⟨n1, rfl⟩ | ⟨n1, rfl⟩ | ⟨n1, rfl⟩ <;>
    rcases h2 with ⟨n2, rfl⟩ | ⟨n2, rfl⟩ | ⟨n2, rfl⟩ | ⟨n2, rfl⟩ | ⟨n2, rfl⟩ <;>
    first
      | exact key _
      | exact Nat.le_refl _
      | exact absurd (n1.symm.trans n2) (by decide +kernel)

/-- The collections in a trace. -/
def collections : List (SEvent τ) → Nat
  | [] => 0
  | .copied _ _ :: tr => collections tr + 1
  | _ :: tr => collections tr

theorem collections_snoc (tr : List (SEvent τ)) (e : SEvent τ) :
    collections (tr ++ [e]) = collections tr + match e with | .copied _ _ => 1 | _ => 0 := by
  induction tr with
  | nil => cases e <;> rfl
  | cons x tr ih =>
    cases x <;> simp only [List.cons_append, collections, ih] <;> omega

/-- C96: after an add request that got the mutex, no collection that had not its copy already ever ends. -/
theorem C96_add_blocks (s : SState τ) (h : SSteps SState.start s) (t : τ) (p : SProg) (ht : s.threads t = .counting .add p)
    (hw : s.writer = some t) (hno : ∀ u b c, s.threads u ≠ .copying b (.ret (some c)))
    (s' : SState τ) (h' : SSteps s s') (hlen : s'.trace.length + 1 < 2 ^ 64) : collections s'.trace = collections s.trace := by
  have main : collections s'.trace = collections s.trace ∧ ∀ u b c, s'.threads u ≠ .copying b (.ret (some c)) := by
    induction h' with
    | refl => exact ⟨rfl, hno⟩
    | step s1 s2 g1 g2 ih =>
      have hl := (trace_mono g2).length_le
      obtain ⟨e1, n1⟩ := ih (by omega)
      obtain ⟨log, I⟩ := inv_steps (h.trans g1) (by omega)
      have w1 := (C52_add_blocks s h t p ht hw s1 g1 (by omega)).1
      have hre := (I.held t w1).1
      have other : ∀ (u : τ) (x : SThread τ), (∀ b c, x ≠ .copying b (.ret (some c))) →
          ∀ v b c, (s1.at u x).threads v ≠ .copying b (.ret (some c)) := by
        intro u x hx v b c
        simp only [SState.at]
        by_cases hv : v = u
        · rw [if_pos hv]; exact hx b c
        · rw [if_neg hv]; exact n1 v b c
      cases g2 with
      | accept u hu => exact ⟨by simp only [SState.obs, SState.at, collections_snoc]; exact e1, other u _ (by simp)⟩
      | request u e hu => exact ⟨by simp only [SState.obs, SState.at, collections_snoc]; exact e1, other u _ (by simp)⟩
      | close u hu => exact ⟨by simp only [SState.obs, SState.at, collections_snoc]; exact e1, other u _ (by simp)⟩
      | finish u e r hu =>
        refine ⟨by simp only [SState.obs, SState.at, collections_snoc]; exact e1, other u _ ?_⟩
        intro b c
        split <;> simp
      | copy u hu =>
        refine ⟨e1, other u _ ?_⟩
        intro b c hx
        obtain ⟨k, hk, -⟩ := clone_shape
        rw [hk] at hx
        cases hx
      | copied u b c hu => exact absurd hu (n1 u b c)
      | count u e q q' m w r hu ha => exact ⟨e1, other u _ (by simp)⟩
      | read u b q q' m w r hu ha =>
        refine ⟨e1, other u _ ?_⟩
        have hcp := (I.cp u b q hu).2
        obtain ⟨k, hk, -⟩ := clone_shape
        rw [hk, hre] at hcp
        generalize hx : (q, s1.mem, s1.writer, s1.readers) = x at ha
        generalize hy : (q', m, w, r) = y at ha
        cases ha <;> simp only [Prod.mk.injEq] at hx hy <;> obtain ⟨hx1, hx2, hx3, hx4⟩ := hx <;> obtain ⟨hy1, hy2, hy3, hy4⟩ := hy <;>
          subst hx1 <;> simp_all
  exact main.1

end

/-! ## Concrete executions -/

/-- Two connections are open; a collector reports a largest number of 0 connections. -/
theorem C96_max_fails : ∃ s : SState Nat, SSteps SState.start s ∧ ∃ a b before c, s.trace = a ++ .copied before c :: b ∧
    (b!"kidm_ldapserver_connections_current", .gauge, 2) ∈ collect c ∧ (b!"kidm_ldapserver_connections_max", .counter, 0) ∈ collect c := by
  refine ⟨exStats, sRun_steps _ _, exStats.trace.take 6, exStats.trace.drop 7, _, _, rfl, ?_⟩
  decide +kernel

/-- Two collections with a search in between. -/
def exCollect : SState Nat := sRun exStats ([.ask 0 .search] ++ List.replicate 5 (.go 0) ++ [.copy 2] ++ List.replicate 12 (.go 2))

/-- the hypotheses of `C96_collected_partial` and `C96_never_down`, and what is reported -/
example : SSteps SState.start exCollect ∧ exCollect.trace.length + 1 < 2 ^ 53 ∧ ∃ before c before' c', exCollect.trace.drop 9 = [.copied before c] ∧
    before.drop 6 = [.copied before' c', .begin 0 .search, .finish 0 .search] ∧
    (b!"kidm_ldapserver_searches_total", .counter, 2) ∈ collect c ∧ (b!"kidm_ldapserver_searches_total", .counter, 1) ∈ collect c' := by
  refine ⟨(sRun_steps _ _).trans (sRun_steps _ _), by decide +kernel, _, _, _, _, rfl, rfl, by decide +kernel, by decide +kernel⟩

/-- the hypotheses of `C96_add_blocks`: an add request has begun to count, then a collector comes -/
example : let s := sRun .start ([.accept 0] ++ List.replicate 12 (.go 0) ++ [.ask 0 .add, .go 0])
    SSteps SState.start s ∧ (∃ p, s.threads 0 = .counting .add p) ∧ s.writer = some 0 ∧ s.threads 1 = .fresh := by
  exact ⟨sRun_steps _ _, ⟨_, rfl⟩, rfl, rfl⟩

end Idm
