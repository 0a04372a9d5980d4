import Verif.Model.Serve

/-!
# C57, C58, C69, C70, C71: reloads, listeners and shutdown, under all schedules
-/
namespace Idm

theorem SrvRuns.append {n : Nat} {s t u : SrvRun} {a b : List SrvEv} (h1 : SrvRuns n s a t) (h2 : SrvRuns n t b u) :
    SrvRuns n s (a ++ b) u := by
  induction h1 with
  | nil => exact h2
  | cons hs _ ih => exact .cons hs (ih h2)

theorem SrvRuns.split {n : Nat} {s u : SrvRun} {a b : List SrvEv} (h : SrvRuns n s (a ++ b) u) :
    ∃ t, SrvRuns n s a t ∧ SrvRuns n t b u := by
  induction a generalizing s with
  | nil => exact ⟨s, .nil s, h⟩
  | cons e a ih =>
    cases h with
    | cons hs hr =>
      obtain ⟨t, h1, h2⟩ := ih hr
      exact ⟨t, .cons hs h1, h2⟩

theorem SrvRuns.single {n : Nat} {s t : SrvRun} {e : SrvEv} (h : SrvStep n s e t) : SrvRuns n s [e] t :=
  .cons h (.nil t)

@[simp] theorem setLn_same (s : SrvRun) (i : Nat) (l : Listener) : (s.setLn i l).lns i = l := by simp [SrvRun.setLn]

theorem setLn_lns (s : SrvRun) (i j : Nat) (l : Listener) :
    (s.setLn i l).lns j = if j = i then l else s.lns j := rfl

/-! ## C57: reload signals -/

theorem trigger_kept {n : Nat} {s t : SrvRun} {tr : List SrvEv} (h : SrvRuns n s tr t) (hs : s.trigger = true) :
    .reloadStart ∈ tr ∨ t.trigger = true := by
  induction h with
  | nil => exact Or.inr hs
  | @cons s e s' es t hst _ ih =>
    have : e = .reloadStart ∨ s'.trigger = true := by
      cases hst <;> first | exact Or.inl rfl | exact Or.inr hs | exact Or.inr rfl
    rcases this with rfl | h
    · exact Or.inl (by simp)
    · rcases ih h with h | h
      · exact Or.inl (by simp [h])
      · exact Or.inr h

/-- C57. Under every schedule, after the server has taken in a reload signal, a reload has started later than that or
one is still due. -/
theorem C57_not_lost (n : Nat) (s : SrvRun) (before after : List SrvEv)
    (h : SrvRuns n srvStart (before ++ .took .hup :: after) s) : .reloadStart ∈ after ∨ s.trigger = true := by
  obtain ⟨t, _, h2⟩ := h.split
  cases h2 with
  | cons hst hr =>
    refine trigger_kept hr ?_
    cases hst
    rfl

theorem reload_gone {n : Nat} {s t : SrvRun} {tr : List SrvEv} (h : SrvRuns n s tr t)
    (hs : s.reload = .gone → s.cancelled = true) : t.reload = .gone → t.cancelled = true := by
  induction h with
  | nil => exact hs
  | @cons s e s' es t hst _ ih =>
    refine ih ?_
    cases hst <;> first | exact hs | (intro _; assumption) | (intro _; rfl) | (intro h; cases h)

/-- C57. A reload that is due can start, at the latest when the one that runs has ended, until the server is shut down. -/
theorem C57_due_starts (n : Nat) (s : SrvRun) (tr : List SrvEv) (h : SrvRuns n srvStart tr s) (ht : s.trigger = true)
    (hc : s.cancelled = false) :
    (s.reload = .idle ∧ ∃ s', SrvStep n s .reloadStart s') ∨
    (s.reload = .reloading ∧ ∃ s' s'', SrvStep n s .reloadEnd s' ∧ SrvStep n s' .reloadStart s'') := by
  have hg := reload_gone h (fun h => by cases h)
  cases hr : s.reload with
  | idle => exact Or.inl ⟨rfl, _, .startReload s hr ht⟩
  | reloading =>
    exact Or.inr ⟨rfl, _, _, .endReload s hr, .startReload _ rfl ht⟩
  | gone =>
    rw [hg hr] at hc
    cases hc

theorem reload_count {n : Nat} {s t : SrvRun} {tr : List SrvEv} (h : SrvRuns n s tr t) :
    tr.count .reloadStart + (if t.trigger then 1 else 0) ≤ tr.count (.took .hup) + (if s.trigger then 1 else 0) := by
  induction h with
  | nil => simp
  | @cons s e s' es t hst _ ih =>
    rw [List.count_cons, List.count_cons]
    cases hst with
    | takeHup => simp at ih ⊢; omega
    | startReload _ ht => simp [ht] at ih ⊢; omega
    | _ => exact ih

/-- C57. The server starts no reload that was not asked for: the reloads started are no more than the signals taken. -/
theorem C57_no_more (n : Nat) (s : SrvRun) (tr : List SrvEv) (h : SrvRuns n srvStart tr s) :
    tr.count .reloadStart ≤ tr.count (.took .hup) := by
  have := reload_count h
  simp only [srvStart, Bool.false_eq_true, if_false] at this
  omega

/-- A run with a reload, a second signal while it runs, and a second reload. -/
example : ∃ s, SrvRuns 1 srvStart
      [.catching, .sent .hup, .took .hup, .reloadStart, .sent .hup, .took .hup, .reloadEnd, .reloadStart] s ∧ s.trigger = false :=
  ⟨_, .cons (.catching _ rfl) (.cons (.send _ .hup (by simp)) (.cons (.takeHup _ rfl rfl) (.cons (.startReload _ rfl rfl)
    (.cons (.send _ .hup (by simp)) (.cons (.takeHup _ rfl rfl) (.cons (.endReload _ rfl) (.cons (.startReload _ rfl rfl) (.nil _)))))))), rfl⟩

/-! ## C70: termination signals -/

theorem not_stopped {n : Nat} {s t : SrvRun} {tr : List SrvEv} (h : SrvRuns n s tr t)
    (hm : s.main = .starting ∨ s.main = .waiting) (hs : s.sig ≠ some .term) (he : s.errs = 0) (hb : ∀ sg, .sentEarly sg ∉ tr)
    (ht : .sent .term ∉ tr) (hl : ∀ i, .listenError i ∉ tr) :
    (t.main = .starting ∨ t.main = .waiting) ∧ t.sig ≠ some .term ∧ t.errs = 0 := by
  induction h with
  | nil => exact ⟨hm, hs, he⟩
  | @cons s e s' es t hst _ ih =>
    have hes : .sent .term ∉ es := fun h => ht (by simp [h])
    have hel : ∀ i, .listenError i ∉ es := fun i h => hl i (by simp [h])
    have heb : ∀ sg, .sentEarly sg ∉ es := fun sg h => hb sg (by simp [h])
    have : (s'.main = .starting ∨ s'.main = .waiting) ∧ s'.sig ≠ some .term ∧ s'.errs = 0 := by
      cases hst with
      | catching => exact ⟨Or.inr rfl, hs, he⟩
      | sendEarly sg => exact absurd (by simp) (hb sg)
      | send sg =>
        refine ⟨hm, ?_, he⟩
        cases sg with
        | hup => cases h : s.sig with
          | none => simp
          | some x => simpa [h] using hs
        | term => exact absurd (by simp) ht
      | takeHup _ h => exact ⟨hm, by simp, he⟩
      | takeTerm _ h => exact absurd h hs
      | takeErr _ h => rw [he] at h; omega
      | listenFail i => exact absurd (by simp) (hl i)
      | finish h => rw [h] at hm; rcases hm with hm | hm <;> cases hm
      | giveUp _ h => rw [h] at hm; rcases hm with hm | hm <;> cases hm
      | _ => exact ⟨hm, hs, he⟩
    exact ih this.1 this.2.1 this.2.2 heb hes hel

/-- C70. The server ends only after a termination signal was sent, or a listener could not be opened, or a signal was sent before it catches
them. -/
theorem C70_only_on_signal (n : Nat) (s : SrvRun) (tr : List SrvEv) (h : SrvRuns n srvStart tr s) (hb : ∀ sg, .sentEarly sg ∉ tr)
    (ht : .sent .term ∉ tr) (hl : ∀ i, .listenError i ∉ tr) : s.main = .starting ∨ s.main = .waiting :=
  (not_stopped h (Or.inl rfl) (by simp [srvStart]) rfl hb ht hl).1

/-- C70 is false while the server starts: a reload signal that is sent after the server has said that it is ready, and while it already
listens, can still come before it catches signals. It ends the process at once. -/
theorem C70_early_fails (sg : Signal) : ∃ s, SrvRuns 1 srvStart [.listening 0, .ready, .sentEarly sg] s ∧ s.main = .exited ∧
    ∀ tr t, SrvRuns 1 s tr t → t.main = .exited ∧ .reloadStart ∉ tr ∧ ∀ c, .handled 0 c ∉ tr := by
  refine ⟨_, .cons (.listen srvStart 0 (by omega) rfl) (.cons (.ready _ (by simp [SrvRun.setLn, srvStart]) rfl)
    (.cons (.sendEarly _ sg rfl) (.nil _))), rfl, ?_⟩
  intro tr t h
  have key : ∀ {s t : SrvRun} {tr : List SrvEv}, SrvRuns 1 s tr t → s.main = .exited → s.reload = .gone → (s.lns 0).acc = .gone →
      t.main = .exited ∧ .reloadStart ∉ tr ∧ ∀ c, .handled 0 c ∉ tr := by
    intro s t tr h
    induction h with
    | nil => exact fun h _ _ => ⟨h, by simp, by simp⟩
    | @cons s e s' es t hst _ ih =>
      intro h1 h2 h3
      have : (s'.main = .exited ∧ s'.reload = .gone ∧ (s'.lns 0).acc = .gone) ∧ e ≠ .reloadStart ∧ ∀ c, e ≠ .handled 0 c := by
        cases hst with
        | catching h => rw [h1] at h; cases h
        | sendEarly sg h => rw [h1] at h; cases h
        | send sg h => exact ⟨⟨h1, h2, h3⟩, by simp, by simp⟩
        | takeHup h => rw [h1] at h; cases h
        | takeTerm h => rw [h1] at h; cases h
        | takeErr h => rw [h1] at h; cases h
        | ready h => exact absurd h1 h
        | listen i hi h => obtain rfl : i = 0 := by omega
                           rw [h3] at h; cases h
        | listenFail i hi h => obtain rfl : i = 0 := by omega
                               rw [h3] at h; cases h
        | startReload h => rw [h2] at h; cases h
        | endReload h => rw [h2] at h; cases h
        | stopReload h => rw [h2] at h; cases h
        | closeQuit => exact ⟨⟨h1, h2, h3⟩, by simp, by simp⟩
        | accept i c hi h => obtain rfl : i = 0 := by omega
                             rw [h3] at h; cases h
        | acceptFail i hi h => obtain rfl : i = 0 := by omega
                               rw [h3] at h; cases h
        | acceptEnd i hi h => obtain rfl : i = 0 := by omega
                              rw [h3] at h; cases h
        | hand i c hi _ h => obtain rfl : i = 0 := by omega
                             rw [h3] at h; cases h
        | stopLoop i hi => obtain rfl : i = 0 := by omega
                           exact ⟨⟨h1, h2, h3⟩, by simp, by simp⟩
        | finish h => rw [h1] at h; cases h
        | giveUp sg h => rw [h1] at h; cases h
      obtain ⟨a, b, c⟩ := ih this.1.1 this.1.2.1 this.1.2.2
      refine ⟨a, ?_, ?_⟩
      · simp only [List.mem_cons, not_or]
        exact ⟨fun h => this.2.1 h.symm, b⟩
      · intro d
        simp only [List.mem_cons, not_or]
        exact ⟨fun h => this.2.2 d h.symm, c d⟩
  exact key h rfl rfl rfl

/-- Once it catches signals it always will. -/
theorem never_early {n : Nat} {s t : SrvRun} {tr : List SrvEv} (h : SrvRuns n s tr t) (hm : s.main ≠ .starting) :
    t.main ≠ .starting ∧ ∀ sg, .sentEarly sg ∉ tr := by
  induction h with
  | nil => exact ⟨hm, by simp⟩
  | @cons s e s' es t hst _ ih =>
    have : s'.main ≠ .starting ∧ ∀ sg, e ≠ .sentEarly sg := by
      cases hst with
      | sendEarly sg h => exact absurd h hm
      | catching h => exact absurd h hm
      | takeTerm => exact ⟨by simp, by simp⟩
      | takeErr => exact ⟨by simp, by simp⟩
      | finish => exact ⟨by simp, by simp⟩
      | giveUp => exact ⟨by simp, by simp⟩
      | _ => exact ⟨hm, by simp⟩
    obtain ⟨h1, h2⟩ := ih this.1
    refine ⟨h1, fun sg => ?_⟩
    simp only [List.mem_cons, not_or]
    exact ⟨fun h => this.2 sg h.symm, h2 sg⟩

theorem term_waits {n : Nat} {s t : SrvRun} {tr : List SrvEv} (h : SrvRuns n s tr t) (h1 : s.sig = some .term)
    (h2 : s.main = .waiting) : .took .term ∈ tr ∨ .tookError ∈ tr ∨ (t.sig = some .term ∧ t.main = .waiting) := by
  induction h with
  | nil => exact Or.inr (Or.inr ⟨h1, h2⟩)
  | @cons s e s' es t hst _ ih =>
    have : e = .took .term ∨ e = .tookError ∨ (s'.sig = some .term ∧ s'.main = .waiting) := by
      cases hst with
      | catching h => rw [h2] at h; cases h
      | sendEarly sg h => rw [h2] at h; cases h
      | send sg => exact Or.inr (Or.inr ⟨by simp [h1], h2⟩)
      | takeHup _ h => rw [h1] at h; cases h
      | takeTerm _ h => exact Or.inl rfl
      | takeErr _ h => exact Or.inr (Or.inl rfl)
      | finish h => rw [h2] at h; cases h
      | giveUp _ h => rw [h2] at h; cases h
      | _ => exact Or.inr (Or.inr ⟨h1, h2⟩)
    rcases this with rfl | rfl | ⟨h3, h4⟩
    · exact Or.inl (by simp)
    · exact Or.inr (Or.inl (by simp))
    · rcases ih h3 h4 with h | h | h
      · exact Or.inl (by simp [h])
      · exact Or.inr (Or.inl (by simp [h]))
      · exact Or.inr (Or.inr h)

/-- C70. A termination signal that arrives while no signal waits to be taken is taken, whatever happens next, unless the
server shuts down anyway because a listener could not be opened. -/
theorem C70_taken_partial (n : Nat) (s t : SrvRun) (tr : List SrvEv) (hm : s.main = .waiting) (hs : s.sig = none)
    (h : SrvRuns n s (.sent .term :: tr) t) :
    .took .term ∈ tr ∨ .tookError ∈ tr ∨ (t.sig = some .term ∧ t.main = .waiting ∧ ∃ t', SrvStep n t (.took .term) t') := by
  cases h with
  | cons hst hr =>
    have hst' : ∀ {s1 : SrvRun}, SrvStep n s (.sent .term) s1 → s1.sig = some .term ∧ s1.main = .waiting := by
      intro s1 h
      cases h
      exact ⟨by simp [hs], hm⟩
    rcases term_waits hr (hst' hst).1 (hst' hst).2 with h | h | ⟨h1, h2⟩
    · exact Or.inl h
    · exact Or.inr (Or.inl h)
    · exact Or.inr (Or.inr ⟨h1, h2, _, .takeTerm t h2 h1⟩)

/-- C70 is false when the termination signal arrives while a reload signal waits to be taken: it is dropped, and the server
goes on until another one is sent. -/
theorem C70_dropped_fails (n : Nat) : ∃ s, SrvRuns n srvStart [.catching, .sent .hup, .sent .term, .took .hup] s ∧
    ∀ tr t, SrvRuns n s tr t → .sent .term ∉ tr → (∀ i, .listenError i ∉ tr) → t.main = .waiting := by
  refine ⟨_, .cons (.catching _ rfl) (.cons (.send _ .hup (by simp)) (.cons (.send _ .term (by simp)) (.cons (.takeHup _ rfl rfl) (.nil _)))), ?_⟩
  intro tr t h ht hl
  have hb := never_early h (by simp)
  rcases (not_stopped h (Or.inr rfl) (by simp) rfl hb.2 ht hl).1 with h1 | h1
  · exact absurd h1 hb.1
  · exact h1

example : ∃ s, SrvRuns 2 srvStart [.catching, .sent .term, .took .term] s ∧ s.main = .stopping :=
  ⟨_, .cons (.catching _ rfl) (.cons (.send _ .term (by simp)) (.cons (.takeTerm _ rfl rfl) (.nil _))), rfl⟩

/-! ## C58: new connections after the termination signal -/

theorem loop_ended {n : Nat} {s t : SrvRun} {tr : List SrvEv} (i : Nat) (h : SrvRuns n s tr t)
    (hs : (s.lns i).loop = false) (hst : (s.lns i).acc ≠ .starting) :
    (∀ c, .handled i c ∉ tr) ∧ (t.lns i).loop = false ∧ (t.lns i).acc ≠ .starting := by
  induction h with
  | nil => exact ⟨by simp, hs, hst⟩
  | @cons s e s' es t hstep _ ih =>
    have : (∀ c, e ≠ .handled i c) ∧ (s'.lns i).loop = false ∧ (s'.lns i).acc ≠ .starting := by
      cases hstep with
      | sendEarly => exact ⟨by simp, rfl, by simp⟩
      | listen j hj ha =>
        have hne : i ≠ j := by rintro rfl; exact hst ha
        refine ⟨by simp, ?_⟩
        rw [setLn_lns, if_neg hne]
        exact ⟨hs, hst⟩
      | listenFail j hj ha =>
        have hne : i ≠ j := by rintro rfl; exact hst ha
        refine ⟨by simp, ?_⟩
        show ((s.setLn j _).lns i).loop = false ∧ ((s.setLn j _).lns i).acc ≠ .starting
        rw [setLn_lns, if_neg hne]
        exact ⟨hs, hst⟩
      | accept j c hj ha =>
        refine ⟨by simp, ?_⟩
        rw [setLn_lns]
        split
        · next he => subst he; exact ⟨hs, by simp⟩
        · exact ⟨hs, hst⟩
      | acceptFail j hj ha =>
        refine ⟨by simp, ?_⟩
        rw [setLn_lns]
        split
        · next he => subst he; exact ⟨hs, by simp⟩
        · exact ⟨hs, hst⟩
      | acceptEnd j hj ha =>
        refine ⟨by simp, ?_⟩
        rw [setLn_lns]
        split
        · next he => subst he; exact ⟨hs, by simp⟩
        · exact ⟨hs, hst⟩
      | hand j c hj hl ha =>
        have hne : j ≠ i := by
          rintro rfl
          rw [hs] at hl
          cases hl
        refine ⟨?_, ?_⟩
        · intro c' he
          simp only [SrvEv.handled.injEq] at he
          exact hne he.1
        · rw [setLn_lns, if_neg (fun e => hne e.symm)]
          exact ⟨hs, hst⟩
      | stopLoop j hj hl =>
        refine ⟨by simp, ?_⟩
        rw [setLn_lns]
        split
        · next he => subst he; exact ⟨rfl, hst⟩
        · exact ⟨hs, hst⟩
      | _ => exact ⟨by simp, hs, hst⟩
    obtain ⟨h1, h2⟩ := ih this.2.1 this.2.2
    refine ⟨fun c hm => ?_, h2⟩
    rcases List.mem_cons.1 hm with hm | hm
    · exact this.1 c hm.symm
    · exact h1 c hm

/-- A listener that is not yet open has no loop. -/
theorem starting_idle {n : Nat} {s t : SrvRun} {tr : List SrvEv} (i : Nat) (h : SrvRuns n s tr t)
    (hs : (s.lns i).acc = .starting → (s.lns i).loop = false) : (t.lns i).acc = .starting → (t.lns i).loop = false := by
  induction h with
  | nil => exact hs
  | @cons s e s' es t hst _ ih =>
    refine ih ?_
    cases hst with
    | sendEarly => exact fun _ => rfl
    | listenFail j hj ha =>
      show ((s.setLn j _).lns i).acc = .starting → ((s.setLn j _).lns i).loop = false
      rw [setLn_lns]
      split
      · intro h; cases h
      · exact hs
    | listen j hj ha =>
      rw [setLn_lns]
      split
      · intro h; cases h
      · exact hs
    | accept j c hj ha =>
      rw [setLn_lns]
      split
      · intro h; cases h
      · exact hs
    | acceptFail j hj ha =>
      rw [setLn_lns]
      split
      · intro h; cases h
      · exact hs
    | acceptEnd j hj ha =>
      rw [setLn_lns]
      split
      · intro h; cases h
      · exact hs
    | hand j c hj hl ha =>
      rw [setLn_lns]
      split
      · intro h; cases h
      · exact hs
    | stopLoop j hj hl =>
      rw [setLn_lns]
      split
      · exact fun _ => rfl
      · exact hs
    | _ => exact hs

/-- C58. Once a listener has been closed no new connection is served on it, under every schedule. Missing: the time between
the termination signal and the closing of the listener, see `C58_still_served_fails`. -/
theorem C58_closed_partial (n i : Nat) (s : SrvRun) (before after : List SrvEv)
    (h : SrvRuns n srvStart (before ++ .closed i :: after) s) : ∀ c, .handled i c ∉ after := by
  obtain ⟨t, h1, h2⟩ := h.split
  have hi := starting_idle i h1 (fun _ => rfl)
  cases h2 with
  | cons hst hr =>
    refine (loop_ended i hr ?_ ?_).1
    · cases hst
      rw [setLn_same]
    · cases hst with
      | stopLoop _ _ hl =>
        rw [setLn_same]
        intro h
        rw [hi h] at hl
        cases hl

/-- The number of connections served in a run. -/
def servedCount : List SrvEv → Nat
  | [] => 0
  | .handled _ _ :: es => servedCount es + 1
  | _ :: es => servedCount es

theorem serve_many : ∀ (k : Nat) (s : SrvRun), s.lns 0 = ⟨true, true, .accepting⟩ →
    ∃ tr t, SrvRuns 1 s tr t ∧ servedCount tr = k := by
  intro k
  induction k with
  | zero => intro s _; exact ⟨[], s, .nil s, rfl⟩
  | succ k ih =>
    intro s hs
    have s1 := SrvStep.accept (n := 1) s 0 7 (by omega) (by rw [hs]) (by rw [hs])
    generalize hu : s.setLn 0 { s.lns 0 with acc := .offering 7 } = u at s1
    have hu0 : u.lns 0 = ⟨true, true, .offering 7⟩ := by rw [← hu, setLn_same, hs]
    have s2 := SrvStep.hand (n := 1) u 0 7 (by omega) (by rw [hu0]) (by rw [hu0])
    generalize hv : u.setLn 0 { u.lns 0 with acc := .accepting } = v at s2
    have hv0 : v.lns 0 = ⟨true, true, .accepting⟩ := by rw [← hv, setLn_same, hu0]
    obtain ⟨tr, t, h1, h2⟩ := ih v hv0
    exact ⟨_, t, .cons s1 (.cons s2 h1), by simp [servedCount, h2]⟩

/-- C58 is false: the loop of a listener may take any number of new connections after the termination signal was taken
and the channel meant to stop it was closed. -/
theorem C58_still_served_fails (k : Nat) : ∃ (s t : SrvRun) (tr : List SrvEv),
    SrvRuns 1 srvStart [.listening 0, .catching, .sent .term, .took .term, .other] s ∧ s.quit = true ∧ SrvRuns 1 s tr t ∧ servedCount tr = k := by
  have h0 : ∃ s, SrvRuns 1 srvStart [.listening 0, .catching, .sent .term, .took .term, .other] s ∧ s.quit = true ∧
      s.lns 0 = ⟨true, true, .accepting⟩ :=
    ⟨_, .cons (.listen srvStart 0 (by omega) rfl) (.cons (.catching _ rfl) (.cons (.send _ .term (by simp)) (.cons (.takeTerm _ rfl rfl)
      (.cons (.closeQuit _ (by simp) (by simp) rfl) (.nil _))))), rfl, rfl⟩
  obtain ⟨s, h0, hq, hl⟩ := h0
  obtain ⟨tr, t, h1, h2⟩ := serve_many k s hl
  exact ⟨s, t, tr, h0, hq, h1, h2⟩

theorem stranded {n : Nat} {s t : SrvRun} {tr : List SrvEv} (i c : Nat) (h : SrvRuns n s tr t)
    (hm : s.main ≠ .starting) (hs : (s.lns i).loop = false) (hc : (s.lns i).acc = .offering c) : (t.lns i).acc = .offering c := by
  induction h with
  | nil => exact hc
  | @cons s e s' es t hst hr ih =>
    have hl := (loop_ended i (SrvRuns.single hst) hs (by rw [hc]; simp)).2.1
    refine ih (never_early (SrvRuns.single hst) hm).1 hl ?_
    cases hst with
    | sendEarly sg h => exact absurd h hm
    | listen j hj ha =>
      have hne : i ≠ j := by rintro rfl; rw [hc] at ha; cases ha
      rw [setLn_lns, if_neg hne]
      exact hc
    | listenFail j hj ha =>
      have hne : i ≠ j := by rintro rfl; rw [hc] at ha; cases ha
      show ((s.setLn j _).lns i).acc = .offering c
      rw [setLn_lns, if_neg hne]
      exact hc
    | accept j c' hj ha =>
      have hne : i ≠ j := by rintro rfl; rw [hc] at ha; cases ha
      rw [setLn_lns, if_neg hne]
      exact hc
    | acceptFail j hj ha =>
      have hne : i ≠ j := by rintro rfl; rw [hc] at ha; cases ha
      rw [setLn_lns, if_neg hne]
      exact hc
    | acceptEnd j hj ha =>
      have hne : i ≠ j := by rintro rfl; rw [hc] at ha; cases ha
      rw [setLn_lns, if_neg hne]
      exact hc
    | hand j c' hj hl' ha =>
      have hne : i ≠ j := by rintro rfl; rw [hs] at hl'; cases hl'
      rw [setLn_lns, if_neg hne]
      exact hc
    | stopLoop j hj hl' =>
      have hne : i ≠ j := by rintro rfl; rw [hs] at hl'; cases hl'
      rw [setLn_lns, if_neg hne]
      exact hc
    | _ => exact hc

/-- C58. A connection accepted but not yet taken when the listener is closed is neither served nor closed, for as long as
the process lives. -/
theorem C58_stranded_fails (n : Nat) (hn : 0 < n) : ∃ s tr, SrvRuns n srvStart tr s ∧
    ∀ tr' t, SrvRuns n s tr' t → (t.lns 0).acc = .offering 5 ∧ .handled 0 5 ∉ tr' := by
  refine ⟨_, _, .cons (.listen srvStart 0 hn rfl) <| .cons (.accept _ 0 5 hn rfl rfl) <| .cons (.catching _ rfl) (.cons (.send _ .term (by simp [SrvRun.setLn]))
    (.cons (.takeTerm _ rfl rfl) (.cons (.closeQuit _ (by simp) (by simp) rfl) (.cons (.stopLoop _ 0 hn rfl rfl) (.nil _))))), ?_⟩
  intro tr' t h
  exact ⟨stranded 0 5 h (by simp [SrvRun.setLn]) (by rw [setLn_same]) (by rw [setLn_same]; rfl), (loop_ended 0 h (by rw [setLn_same]) (by rw [setLn_same]; exact (fun h => by cases h))).1 5⟩

/-- A run in which a listener is closed. -/
example : ∃ s, SrvRuns 1 srvStart [.listening 0, .other, .handled 0 3, .catching, .sent .term, .took .term, .other, .closed 0] s :=
  ⟨_, .cons (.listen _ 0 (by omega) rfl) <| .cons (.accept _ 0 3 (by omega) rfl rfl) (.cons (.hand _ 0 3 (by omega) rfl rfl) <| .cons (.catching _ rfl) (.cons
    (.send _ .term (by simp [SrvRun.setLn])) (.cons (.takeTerm _ rfl rfl) (.cons (.closeQuit _ (by simp) (by simp) rfl) (.cons (.stopLoop _ 0 (by omega) rfl rfl) (.nil _))))))⟩

/-! ## C69: failing to accept a connection -/

theorem accept_gone {n : Nat} {s t : SrvRun} {tr : List SrvEv} (i : Nat) (h : SrvRuns n s tr t)
    (hs : (s.lns i).acc = .gone) : (∀ c, .handled i c ∉ tr) ∧ (t.lns i).acc = .gone := by
  induction h with
  | nil => exact ⟨by simp, hs⟩
  | @cons s e s' es t hst _ ih =>
    have : (∀ c, e ≠ .handled i c) ∧ (s'.lns i).acc = .gone := by
      cases hst with
      | sendEarly => exact ⟨by simp, rfl⟩
      | listen j hj ha =>
        have hne : i ≠ j := by rintro rfl; rw [hs] at ha; cases ha
        exact ⟨by simp, by rw [setLn_lns, if_neg hne]; exact hs⟩
      | listenFail j hj ha =>
        have hne : i ≠ j := by rintro rfl; rw [hs] at ha; cases ha
        refine ⟨by simp, ?_⟩
        show ((s.setLn j _).lns i).acc = .gone
        rw [setLn_lns, if_neg hne]
        exact hs
      | accept j c hj ha =>
        have hne : i ≠ j := by rintro rfl; rw [hs] at ha; cases ha
        exact ⟨by simp, by rw [setLn_lns, if_neg hne]; exact hs⟩
      | acceptFail j hj ha =>
        have hne : i ≠ j := by rintro rfl; rw [hs] at ha; cases ha
        exact ⟨by simp, by rw [setLn_lns, if_neg hne]; exact hs⟩
      | acceptEnd j hj ha =>
        have hne : i ≠ j := by rintro rfl; rw [hs] at ha; cases ha
        exact ⟨by simp, by rw [setLn_lns, if_neg hne]; exact hs⟩
      | hand j c hj hl ha =>
        have hne : i ≠ j := by rintro rfl; rw [hs] at ha; cases ha
        refine ⟨?_, by rw [setLn_lns, if_neg hne]; exact hs⟩
        intro c' he
        simp only [SrvEv.handled.injEq] at he
        exact hne he.1.symm
      | stopLoop j hj hl =>
        refine ⟨by simp, ?_⟩
        rw [setLn_lns]
        split
        · next he => subst he; exact hs
        · exact hs
      | _ => exact ⟨by simp, hs⟩
    obtain ⟨h1, h2⟩ := ih this.2
    refine ⟨fun c hm => ?_, h2⟩
    rcases List.mem_cons.1 hm with hm | hm
    · exact this.1 c hm.symm
    · exact h1 c hm

/-- C69 is false: after one error of `Accept`, for instance because too many files are open at that moment, the listener
serves no new connection ever again; the server neither stops nor reports it to its caller. -/
theorem C69_dead_listener_fails (n i : Nat) (s : SrvRun) (before after : List SrvEv)
    (h : SrvRuns n srvStart (before ++ .acceptError i :: after) s) : ∀ c, .handled i c ∉ after := by
  obtain ⟨t, _, h2⟩ := h.split
  cases h2 with
  | cons hst hr =>
    refine (accept_gone i hr ?_).1
    cases hst
    rw [setLn_same]

example : ∃ s, SrvRuns 1 srvStart [.listening 0, .catching, .acceptError 0] s ∧ s.main = .waiting ∧ (s.lns 0).loop = true :=
  ⟨_, .cons (.listen _ 0 (by omega) rfl) <| .cons (.catching _ rfl) <| .cons (.acceptFail _ 0 (by omega) rfl rfl) (.nil _), rfl, rfl⟩

/-- While the server has not been told to stop a listener that has been opened is open. -/
def Up (l : Listener) : Prop := l.loop = true ∧ l.sock = true ∧ l.acc ≠ .starting

theorem listener_up {n : Nat} {s t : SrvRun} {tr : List SrvEv} (i : Nat) (h : SrvRuns n s tr t)
    (hs : (s.main = .starting ∨ s.main = .waiting → s.quit = false) ∧ (s.quit = false → Up (s.lns i))) :
    (t.main = .starting ∨ t.main = .waiting → t.quit = false) ∧ (t.quit = false → Up (t.lns i)) := by
  induction h with
  | nil => exact hs
  | @cons s e s' es t hst _ ih =>
    refine ih ?_
    cases hst with
    | catching hm => exact ⟨fun _ => hs.1 (Or.inl hm), hs.2⟩
    | sendEarly => exact ⟨(fun h => by rcases h with h | h <;> cases h), (fun h => by cases h)⟩
    | takeHup => exact hs
    | takeTerm hm => exact ⟨(fun h => by rcases h with h | h <;> cases h), hs.2⟩
    | takeErr hm => exact ⟨(fun h => by rcases h with h | h <;> cases h), hs.2⟩
    | closeQuit h1 h2 => exact ⟨(fun h => (h.elim h1 h2).elim), (fun h => by cases h)⟩
    | listen j hj ha =>
      refine ⟨hs.1, fun hq => ?_⟩
      rw [setLn_lns]
      split
      · exact ⟨rfl, rfl, by simp⟩
      · exact hs.2 hq
    | listenFail j hj ha =>
      refine ⟨hs.1, fun hq => ?_⟩
      show Up ((s.setLn j _).lns i)
      have hu := hs.2 hq
      have hne : i ≠ j := by rintro rfl; exact hu.2.2 ha
      rw [setLn_lns, if_neg hne]
      exact hu
    | accept j c hj ha =>
      refine ⟨hs.1, fun hq => ?_⟩
      rw [setLn_lns]
      split
      · next he => subst he; exact ⟨(hs.2 hq).1, (hs.2 hq).2.1, by simp⟩
      · exact hs.2 hq
    | acceptFail j hj ha =>
      refine ⟨hs.1, fun hq => ?_⟩
      rw [setLn_lns]
      split
      · next he => subst he; exact ⟨(hs.2 hq).1, (hs.2 hq).2.1, by simp⟩
      · exact hs.2 hq
    | acceptEnd j hj ha =>
      refine ⟨hs.1, fun hq => ?_⟩
      rw [setLn_lns]
      split
      · next he => subst he; exact ⟨(hs.2 hq).1, (hs.2 hq).2.1, by simp⟩
      · exact hs.2 hq
    | hand j c hj hl ha =>
      refine ⟨hs.1, fun hq => ?_⟩
      rw [setLn_lns]
      split
      · next he => subst he; exact ⟨(hs.2 hq).1, (hs.2 hq).2.1, by simp⟩
      · exact hs.2 hq
    | stopLoop j hj hl hq =>
      refine ⟨hs.1, fun hq' => ?_⟩
      have hq' : s.quit = false := hq'
      rw [hq] at hq'
      cases hq'
    | finish hm => exact ⟨(fun h => by rcases h with h | h <;> cases h), hs.2⟩
    | giveUp _ hm => exact ⟨(fun h => by rcases h with h | h <;> cases h), hs.2⟩
    | _ => exact hs

theorem quit_waiting {n : Nat} {s t : SrvRun} {tr : List SrvEv} (h : SrvRuns n s tr t)
    (hs : s.main = .starting ∨ s.main = .waiting → s.quit = false) : t.main = .starting ∨ t.main = .waiting → t.quit = false := by
  induction h with
  | nil => exact hs
  | @cons s e s' es t hst _ ih =>
    refine ih ?_
    cases hst with
    | catching hm => exact fun _ => hs (Or.inl hm)
    | sendEarly => exact fun h => by rcases h with h | h <;> cases h
    | takeTerm hm => exact fun h => by rcases h with h | h <;> cases h
    | takeErr hm => exact fun h => by rcases h with h | h <;> cases h
    | closeQuit h1 h2 => exact fun h => (h.elim h1 h2).elim
    | finish hm => exact fun h => by rcases h with h | h <;> cases h
    | giveUp _ hm => exact fun h => by rcases h with h | h <;> cases h
    | _ => exact hs

theorem accept_alive {n : Nat} {s t : SrvRun} {tr : List SrvEv} (i : Nat) (h : SrvRuns n s tr t)
    (hn : .acceptError i ∉ tr) (hs : (s.lns i).acc = .gone → (s.lns i).sock = false) :
    (t.lns i).acc = .gone → (t.lns i).sock = false := by
  induction h with
  | nil => exact hs
  | @cons s e s' es t hst _ ih =>
    refine ih (fun h => hn (by simp [h])) ?_
    cases hst with
    | sendEarly => exact fun _ => rfl
    | listen j hj ha =>
      rw [setLn_lns]
      split
      · intro h; cases h
      · exact hs
    | listenFail j hj ha =>
      show ((s.setLn j _).lns i).acc = .gone → ((s.setLn j _).lns i).sock = false
      rw [setLn_lns]
      split
      · intro _; rfl
      · exact hs
    | accept j c hj ha =>
      rw [setLn_lns]
      split
      · intro h; cases h
      · exact hs
    | acceptFail j hj ha =>
      have hne : i ≠ j := by rintro rfl; exact hn (by simp)
      rw [setLn_lns, if_neg hne]
      exact hs
    | acceptEnd j hj ha hsock =>
      rw [setLn_lns]
      split
      · next he => subst he; intro _; exact hsock
      · exact hs
    | hand j c hj hl ha =>
      rw [setLn_lns]
      split
      · intro h; cases h
      · exact hs
    | stopLoop j hj hl hq =>
      rw [setLn_lns]
      split
      · intro _; rfl
      · exact hs
    | _ => exact hs

/-- C69. As long as `Accept` has not failed on a listener and the server does not shut down, a listener that has been opened can serve a
new connection, in every state that can be reached. -/
theorem C69_serves_partial (n i c : Nat) (hi : i < n) (s : SrvRun) (before after : List SrvEv)
    (h : SrvRuns n srvStart (before ++ .listening i :: after) s)
    (hm : s.main = .starting ∨ s.main = .waiting) (hn : .acceptError i ∉ before ++ .listening i :: after) :
    ∃ tr' t, SrvRuns n s tr' t ∧ .handled i c ∈ tr' ∧ ∀ e ∈ tr', e = .other ∨ ∃ c', e = .handled i c' := by
  have ha := accept_alive i h hn (fun h => by cases h)
  obtain ⟨t0, h1, h2⟩ := h.split
  have hq := quit_waiting h1 (fun _ => rfl)
  have ho : Up (s.lns i) := by
    cases h2 with
    | cons hst hr =>
      cases hst
      have := listener_up i hr ⟨hq, fun _ => by rw [setLn_same]; exact ⟨rfl, rfl, by simp⟩⟩
      exact this.2 (this.1 hm)
  obtain ⟨hl, hsock, hns⟩ := ho
  have key : ∀ s : SrvRun, (s.lns i).loop = true → (s.lns i).sock = true → (s.lns i).acc = .accepting →
      ∃ t, SrvRuns n s [.other, .handled i c] t := by
    intro s h1 h2 h3
    exact ⟨_, .cons (.accept s i c hi h3 h2) (.cons (.hand _ i c hi (by rw [setLn_same]; exact h1) (by rw [setLn_same]))
      (.nil _))⟩
  cases hacc : (s.lns i).acc with
  | starting => exact absurd hacc hns
  | accepting =>
    obtain ⟨t, ht⟩ := key s hl hsock hacc
    exact ⟨_, t, ht, by simp, by simp⟩
  | offering c' =>
    obtain ⟨t, ht⟩ := key (s.setLn i { s.lns i with acc := .accepting }) (by rw [setLn_same]; exact hl)
      (by rw [setLn_same]; exact hsock) (by rw [setLn_same])
    exact ⟨_, t, .cons (.hand s i c' hi hl hacc) ht, by simp, by simp⟩
  | gone =>
    have := ha hacc
    rw [hsock] at this
    cases this

/-! ## C71: the server returns -/

theorem quit_listeners (n : Nat) : ∀ (k : Nat) (s : SrvRun), k ≤ n → s.quit = true →
    (∀ i, k ≤ i → i < n → (s.lns i).loop = false ∧ (s.lns i).acc ≠ .starting) →
    ∃ tr t, SrvRuns n s tr t ∧ (∀ e ∈ tr, ∃ i, e = .closed i ∨ e = .listening i) ∧
      (∀ i, i < n → (t.lns i).loop = false ∧ (t.lns i).acc ≠ .starting) ∧
      t.main = s.main ∧ t.reload = s.reload ∧ t.failed = s.failed := by
  intro k
  induction k with
  | zero => intro s _ _ hl; exact ⟨[], s, .nil s, by simp, fun i hi => hl i (by omega) hi, rfl, rfl, rfl⟩
  | succ k ih =>
    intro s hk hq hl
    -- the loop of a listener that is open ends
    have stop : ∀ u : SrvRun, u.quit = true → (∀ i, k + 1 ≤ i → i < n → (u.lns i).loop = false ∧ (u.lns i).acc ≠ .starting) →
        (u.lns k).loop = true → (u.lns k).acc ≠ .starting →
        ∃ tr t, SrvRuns n u tr t ∧ (∀ e ∈ tr, ∃ i, e = .closed i ∨ e = .listening i) ∧
          (∀ i, i < n → (t.lns i).loop = false ∧ (t.lns i).acc ≠ .starting) ∧
          t.main = u.main ∧ t.reload = u.reload ∧ t.failed = u.failed := by
      intro u hq hl hb ha
      obtain ⟨tr, t, h1, h2, h3, h4, h5⟩ := ih (u.setLn k { u.lns k with loop := false, sock := false }) (by omega) hq
        (fun i h1 h2 => by
          rw [setLn_lns]
          split
          · exact ⟨rfl, ha⟩
          · exact hl i (by omega) h2)
      refine ⟨_, t, .cons (.stopLoop u k (by omega) hb hq) h1, fun e he => ?_, h3, h4, h5⟩
      rcases List.mem_cons.1 he with rfl | he
      · exact ⟨k, Or.inl rfl⟩
      · exact h2 e he
    by_cases hst : (s.lns k).acc = .starting
    · obtain ⟨tr, t, h1, h2, h3, h4, h5⟩ := stop (s.setLn k ⟨true, true, .accepting⟩) hq
        (fun i h1 h2 => by
          rw [setLn_lns, if_neg (by omega)]
          exact hl i h1 h2) (by rw [setLn_same]) (by rw [setLn_same]; simp)
      refine ⟨_, t, .cons (.listen s k (by omega) hst) h1, fun e he => ?_, h3, h4, h5⟩
      rcases List.mem_cons.1 he with rfl | he
      · exact ⟨k, Or.inr rfl⟩
      · exact h2 e he
    · cases hb : (s.lns k).loop with
      | false =>
        refine ih s (by omega) hq fun i h1 h2 => ?_
        by_cases he : i = k
        · subst he; exact ⟨hb, hst⟩
        · exact hl i (by omega) h2
      | true => exact stop s hq hl hb hst

theorem stopping_cancelled {n : Nat} {s t : SrvRun} {tr : List SrvEv} (h : SrvRuns n s tr t)
    (hs : s.main = .stopping ∨ s.main = .exited → s.cancelled = true) : t.main = .stopping ∨ t.main = .exited → t.cancelled = true := by
  induction h with
  | nil => exact hs
  | @cons s e s' es t hst _ ih =>
    refine ih ?_
    cases hst with
    | catching => exact fun h => by rcases h with h | h <;> cases h
    | sendEarly => exact fun _ => rfl
    | takeTerm => exact fun _ => rfl
    | takeErr => exact fun _ => rfl
    | finish hm => intro _; exact hs (Or.inl hm)
    | giveUp _ hm => intro _; exact hs (Or.inl hm)
    | _ => exact hs

/-- C71. Once the server shuts down it can return without any further signal or connection, whatever it was doing. -/
theorem C71_returns (n : Nat) (s : SrvRun) (tr : List SrvEv) (h : SrvRuns n srvStart tr s) (hm : s.main = .stopping) :
    ∃ tr' t, SrvRuns n s (tr' ++ [.returned s.failed]) t ∧ t.main = .exited ∧
      ∀ e ∈ tr', e = .other ∨ e = .reloadEnd ∨ ∃ i, e = .closed i ∨ e = .listening i := by
  have hc := stopping_cancelled h (fun h => by rcases h with h | h <;> cases h) (Or.inl hm)
  -- close Quit
  obtain ⟨tr1, s1, r1, e1, q1, m1, c1, f1⟩ : ∃ tr1 s1, SrvRuns n s tr1 s1 ∧ (∀ e ∈ tr1, e = .other) ∧ s1.quit = true ∧
      s1.main = .stopping ∧ s1.cancelled = true ∧ s1.failed = s.failed := by
    cases hq : s.quit with
    | true => exact ⟨[], s, .nil s, by simp, hq, hm, hc, rfl⟩
    | false => exact ⟨_, _, .single (.closeQuit s (by rw [hm]; simp) (by rw [hm]; simp) hq), by simp, rfl, hm, hc, rfl⟩
  -- end the reload goroutine
  obtain ⟨tr2, s2, r2, e2, q2, m2, g2, f2⟩ : ∃ tr2 s2, SrvRuns n s1 tr2 s2 ∧ (∀ e ∈ tr2, e = .other ∨ e = .reloadEnd) ∧
      s2.quit = true ∧ s2.main = .stopping ∧ s2.reload = .gone ∧ s2.failed = s1.failed := by
    cases hr : s1.reload with
    | idle => exact ⟨_, _, .single (.stopReload s1 hr c1), by simp, q1, m1, rfl, rfl⟩
    | reloading =>
      exact ⟨_, _, .cons (.endReload s1 hr) (.single (.stopReload _ rfl c1)), by simp, q1, m1, rfl, rfl⟩
    | gone => exact ⟨[], s1, .nil s1, by simp, q1, m1, hr, rfl⟩
  -- end the listeners
  obtain ⟨tr3, s3, r3, e3, l3, m3, g3, f3⟩ := quit_listeners n n s2 (Nat.le_refl _) q2 (fun i h1 h2 => by omega)
  have fin := SrvStep.finish (n := n) s3 (by rw [m3]; exact m2) (by rw [g3]; exact g2) l3
  rw [f3, f2, f1] at fin
  refine ⟨tr1 ++ (tr2 ++ tr3), _, by
    rw [List.append_assoc, List.append_assoc]; exact r1.append (r2.append (r3.append (.single fin))), rfl, fun e he => ?_⟩
  simp only [List.mem_append] at he
  rcases he with he | he | he
  · exact Or.inl (e1 e he)
  · rcases e2 e he with h | h
    · exact Or.inl h
    · exact Or.inr (Or.inl h)
  · exact Or.inr (Or.inr (e3 e he))

/-- C71. A second signal makes it return at once. -/
theorem C71_second_signal (n : Nat) (s : SrvRun) (sg : Signal) (hm : s.main = .stopping) (hs : s.sig = some sg) :
    ∃ t, SrvStep n s (.returned s.failed) t ∧ t.main = .exited := ⟨_, .giveUp s sg hm hs, rfl⟩

/-- C71. It returns normally only after all listeners have been closed and no reload runs. -/
theorem C71_clean (n : Nat) (s t : SrvRun) (b : Bool) (h : SrvStep n s (.returned b) t) (hs : s.sig = none) :
    s.reload = .gone ∧ ∀ i, i < n → (s.lns i).loop = false := by
  cases h with
  | finish _ h1 h2 => exact ⟨h1, fun i hi => (h2 i hi).1⟩
  | giveUp _ _ h => rw [hs] at h; cases h

example : ∃ s, SrvRuns 1 srvStart [.catching, .sent .term, .took .term] s ∧ s.main = .stopping :=
  ⟨_, .cons (.catching _ rfl) (.cons (.send _ .term (by simp)) (.cons (.takeTerm _ rfl rfl) (.nil _))), rfl⟩

/-! ## C83: listeners that cannot be opened -/

theorem error_waits {n : Nat} {s t : SrvRun} {tr : List SrvEv} (h : SrvRuns n s tr t) (h1 : s.main = .starting ∨ s.main = .waiting → 0 < s.errs) :
    t.main = .starting ∨ t.main = .waiting → 0 < t.errs := by
  induction h with
  | nil => exact h1
  | @cons s e s' es t hst _ ih =>
    refine ih ?_
    cases hst with
    | catching hm => exact fun _ => h1 (Or.inl hm)
    | sendEarly => exact fun h => by rcases h with h | h <;> cases h
    | takeTerm => exact fun h => by rcases h with h | h <;> cases h
    | takeErr => exact fun h => by rcases h with h | h <;> cases h
    | finish => exact fun h => by rcases h with h | h <;> cases h
    | giveUp => exact fun h => by rcases h with h | h <;> cases h
    | listenFail => exact fun _ => Nat.succ_pos _
    | _ => exact h1

/-- C83. After a listener could not be opened the server does not go on without it: it shuts down, or takes the error next without waiting for
anything. -/
theorem C83_not_ignored (n i : Nat) (s : SrvRun) (before after : List SrvEv)
    (h : SrvRuns n srvStart (before ++ .listenError i :: after) s) :
    s.main = .stopping ∨ s.main = .exited ∨ ∃ tr s', SrvRuns n s (tr ++ [.tookError]) s' ∧ s'.main = .stopping ∧ ∀ e ∈ tr, e = .catching := by
  obtain ⟨t, _, h2⟩ := h.split
  cases h2 with
  | cons hst hr =>
    have he := error_waits hr (fun _ => by cases hst; exact Nat.succ_pos _)
    cases hm : s.main with
    | starting => exact Or.inr (Or.inr ⟨[.catching], _, .cons (.catching s hm) (.single (.takeErr _ rfl (he (Or.inl hm)))), rfl, by simp⟩)
    | waiting => exact Or.inr (Or.inr ⟨[], _, .single (.takeErr s hm (he (Or.inr hm))), rfl, by simp⟩)
    | stopping => exact Or.inl rfl
    | exited => exact Or.inr (Or.inl rfl)

theorem failed_iff {n : Nat} {s t : SrvRun} {tr : List SrvEv} (h : SrvRuns n s tr t) :
    t.failed = true ↔ s.failed = true ∨ .tookError ∈ tr := by
  induction h with
  | nil => simp
  | @cons s e s' es t hst _ ih =>
    rw [ih]
    have : s'.failed = true ↔ s.failed = true ∨ e = .tookError := by
      cases hst <;> simp [SrvRun.setLn]
    rw [this]
    simp only [List.mem_cons, eq_comm]
    constructor
    · rintro ((h | h) | h)
      · exact Or.inl h
      · exact Or.inr (Or.inl h)
      · exact Or.inr (Or.inr h)
    · rintro (h | h | h)
      · exact Or.inl (Or.inl h)
      · exact Or.inl (Or.inr h)
      · exact Or.inr h

theorem error_origin {n : Nat} {s t : SrvRun} {tr : List SrvEv} (h : SrvRuns n s tr t) (hs : s.errs = 0) (hl : ∀ i, .listenError i ∉ tr) :
    t.errs = 0 ∧ .tookError ∉ tr := by
  induction h with
  | nil => exact ⟨hs, by simp⟩
  | @cons s e s' es t hst _ ih =>
    have : s'.errs = 0 ∧ e ≠ .tookError := by
      cases hst with
      | takeErr _ h => omega
      | listenFail i => exact absurd (by simp) (hl i)
      | _ => exact ⟨hs, by simp⟩
    obtain ⟨h1, h2⟩ := ih this.1 (fun i h => hl i (by simp [h]))
    exact ⟨h1, by simp only [List.mem_cons, not_or]; exact ⟨fun h => this.2 h.symm, h2⟩⟩

/-- C83. The server reports an error exactly if it shut down because of one; then a listener could not be opened. -/
theorem C83_reported (n : Nat) (s : SrvRun) (before after : List SrvEv) (b : Bool)
    (h : SrvRuns n srvStart (before ++ .returned b :: after) s) :
    (b = true ↔ .tookError ∈ before) ∧ (b = true → ∃ i, .listenError i ∈ before) := by
  obtain ⟨t, h1, h2⟩ := h.split
  have hf : b = t.failed := by
    cases h2 with
    | cons hst _ => cases hst <;> rfl
  have hi := failed_iff h1
  have : srvStart.failed = false := rfl
  simp only [this, Bool.false_eq_true, false_or] at hi
  rw [hf]
  refine ⟨hi, fun hb => Classical.byContradiction fun hno => ?_⟩
  exact (error_origin h1 rfl (fun i hm => hno ⟨i, hm⟩)).2 (hi.1 hb)

/-- C83. Without a termination signal it returns only with an error. -/
theorem C83_error_exit (n : Nat) (s : SrvRun) (before after : List SrvEv) (b : Bool)
    (h : SrvRuns n srvStart (before ++ .returned b :: after) s) (ht : .sent .term ∉ before) : b = true := by
  obtain ⟨t, h1, h2⟩ := h.split
  have hf : b = t.failed ∧ t.main = .stopping := by
    cases h2 with
    | cons hst _ => cases hst <;> exact ⟨rfl, by assumption⟩
  rw [hf.1]
  have key : ∀ {s t : SrvRun} {tr : List SrvEv}, SrvRuns n s tr t → (s.main = .stopping → s.failed = true) → s.sig ≠ some .term →
      .sent .term ∉ tr → (t.main = .stopping → t.failed = true) := by
    intro s t tr h
    induction h with
    | nil => exact fun h _ _ => h
    | @cons s e s' es t hst _ ih =>
      intro h1 h2 h3
      have : (s'.main = .stopping → s'.failed = true) ∧ s'.sig ≠ some .term := by
        cases hst with
        | catching => exact ⟨(fun h => by cases h), h2⟩
        | sendEarly => exact ⟨(fun h => by cases h), h2⟩
        | send sg =>
          refine ⟨h1, ?_⟩
          cases sg with
          | hup => cases h : s.sig with
            | none => simp
            | some x => simpa [h] using h2
          | term => exact absurd (by simp) h3
        | takeHup => exact ⟨h1, by simp⟩
        | takeTerm _ h => exact absurd h h2
        | takeErr => exact ⟨fun _ => rfl, h2⟩
        | finish hm => exact ⟨(fun h => by cases h), h2⟩
        | giveUp _ hm => exact ⟨(fun h => by cases h), by simp⟩
        | _ => exact ⟨h1, h2⟩
      exact ih this.1 this.2 (fun h => h3 (by simp [h]))
  exact key h1 (fun h => by cases h) (by simp [srvStart]) ht hf.2

/-- C83. What the process ends with: code 1 if it shut down because a listener could not be opened, else, after a termination signal, code 0. -/
theorem C83_exit_code (n : Nat) (s : SrvRun) (before after : List SrvEv) (b : Bool)
    (h : SrvRuns n srvStart (before ++ .returned b :: after) s) :
    (.tookError ∈ before → exitCode b = 1) ∧ (.tookError ∉ before → exitCode b = 0 ∧ .sent .term ∈ before) := by
  refine ⟨fun hm => ?_, fun hm => ?_⟩
  · rw [(C83_reported n s before after b h).1.2 hm]; rfl
  · have hb : b = false := by simpa using fun h' => hm ((C83_reported n s before after b h).1.1 h')
    refine ⟨by rw [hb]; rfl, Classical.byContradiction fun hno => ?_⟩
    rw [C83_error_exit n s before after b h hno] at hb
    cases hb

/-- A run that ends because the address is in use. -/
example : ∃ s, SrvRuns 1 srvStart ([.listenError 0, .catching, .tookError, .other, .other] ++ [.returned true]) s :=
  ⟨_, .cons (.listenFail _ 0 (by omega) rfl) <| .cons (.catching _ rfl) <| .cons (.takeErr _ rfl (by decide)) <| .cons (.closeQuit _ (by simp) (by simp) rfl) <|
    .cons (.stopReload _ rfl rfl) <| .single (.finish _ rfl rfl (fun i hi => by
      have : i = 0 := by omega
      subst this
      exact ⟨rfl, by simp [SrvRun.setLn]⟩))⟩

/-- C84 is false: the server says that it is ready (to systemd) before its listeners are open, and even if they never will be. -/
theorem C84_ready_fails : ∃ s, SrvRuns 2 srvStart [.ready, .catching, .listenError 0, .listenError 1] s ∧ s.main = .waiting :=
  ⟨_, .cons (.ready _ (by simp [srvStart]) rfl) <| .cons (.catching _ rfl) <| .cons (.listenFail _ 0 (by omega) rfl) <| .single (.listenFail _ 1 (by omega) rfl), rfl⟩

theorem ready_kept {n : Nat} {s t : SrvRun} {tr : List SrvEv} (h : SrvRuns n s tr t) :
    tr.count .ready + (if s.ready then 1 else 0) = if t.ready then 1 else 0 := by
  induction h with
  | nil => simp
  | @cons s e s' es t hst _ ih =>
    rw [List.count_cons]
    cases hst with
    | ready _ hr => simp [hr] at ih ⊢; omega
    | _ => exact ih

/-- C84. It says so at most once, and as long as it has not, it can. -/
theorem C84_once_partial (n : Nat) (s : SrvRun) (tr : List SrvEv) (h : SrvRuns n srvStart tr s) :
    tr.count .ready ≤ 1 ∧ (.ready ∈ tr ∨ s.main = .exited ∨ ∃ s', SrvStep n s .ready s') := by
  have hk := ready_kept h
  have h0 : srvStart.ready = false := rfl
  rw [h0] at hk
  simp only [Bool.false_eq_true, if_false, Nat.add_zero] at hk
  refine ⟨by rw [hk]; split <;> omega, ?_⟩
  cases hr : s.ready with
  | true =>
    rw [hr] at hk
    exact Or.inl (List.count_pos_iff.1 (by rw [hk]; simp))
  | false =>
    by_cases hm : s.main = .exited
    · exact Or.inr (Or.inl hm)
    · exact Or.inr (Or.inr ⟨_, .ready s hm hr⟩)

end Idm
