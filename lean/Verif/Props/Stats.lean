import Verif.Proofs.Stats
/-!
# Properties C51, C52: the statistics
-/
namespace Idm

section
variable {τ : Type} [DecidableEq τ]

/-! ## C51 -/

/-- C51: whatever the interleaving of the accesses of all connections, every copy of the counters is the tally (except for the maximum)
of one list of events; the list has every event whose count was finished when the copy was asked for, and only events whose count was
begun when the copy was returned. (Missing for the full property: the maximum, see `C51_max_fails`. Fewer than 2^64 - 1 events.) -/
theorem C51_copy_partial (s : SState τ) (h : SSteps SState.start s) (hlen : s.trace.length + 1 < 2 ^ 64)
    (a b before : List (SEvent τ)) (c : Counters) (he : s.trace = a ++ .copied before c :: b) :
    ∃ log : List (τ × Counted), (∀ f, f ≠ .max → c f = tally log f) ∧
      (∀ x, (finishes before).count x ≤ log.count x) ∧ (∀ x, log.count x ≤ (begins a).count x) ∧
      (openAfter log).length + howMany .close log = howMany .conn log := by
  obtain ⟨_, I⟩ := inv_steps h hlen
  obtain ⟨log, h1, h2, h3, h4⟩ := I.tr a b before c he
  refine ⟨log, fun f hf => ?_, h3.1, h4, h2⟩
  rw [h1, published, if_neg hf]

/-- C51 in numbers: each counter lies between the number of counts of its kind that were finished when the copy was asked for and the
number of those begun when it was returned. -/
theorem C51_between_partial (s : SState τ) (h : SSteps SState.start s) (hlen : s.trace.length + 1 < 2 ^ 64)
    (a b before : List (SEvent τ)) (c : Counters) (he : s.trace = a ++ .copied before c :: b) :
    (∀ f e, (f, e) ∈ [(Fld.conns, Counted.conn), (.adds, .add), (.binds, .bind), (.deletes, .delete), (.modifyDNs, .modifyDN),
        (.modifies, .modify), (.unbinds, .unbind), (.searches, .search)] →
      howMany e (finishes before) ≤ c f ∧ c f ≤ howMany e (begins a)) ∧
    c .cur + howMany .close (finishes before) ≤ howMany .conn (begins a) ∧
    howMany .conn (finishes before) ≤ c .cur + howMany .close (begins a) := by
  obtain ⟨log, h1, h2, h3, h4⟩ := C51_copy_partial s h hlen a b before c he
  have lo : ∀ e, howMany e (finishes before) ≤ howMany e log := fun e => countP_of_count _ h2
  have hi : ∀ e, howMany e log ≤ howMany e (begins a) := fun e => countP_of_count _ h3
  refine ⟨?_, ?_, ?_⟩
  · intro f e hfe
    simp only [List.mem_cons, List.not_mem_nil, or_false, Prod.mk.injEq] at hfe
    rcases hfe with ⟨rfl, rfl⟩ | ⟨rfl, rfl⟩ | ⟨rfl, rfl⟩ | ⟨rfl, rfl⟩ | ⟨rfl, rfl⟩ | ⟨rfl, rfl⟩ | ⟨rfl, rfl⟩ | ⟨rfl, rfl⟩ <;>
      (rw [h1 _ (by simp)]; exact ⟨lo _, hi _⟩)
  · rw [h1 .cur (by simp)]
    have h5 := lo .close
    have h6 := hi .conn
    simp only [tally]
    omega
  · rw [h1 .cur (by simp)]
    have h5 := lo .conn
    have h6 := hi .close
    simp only [tally]
    omega

/-- C51 when nothing is being counted: if every count begun before the copy was returned had been finished when it was asked for, the
counters are exactly the numbers of events, and the current connections those accepted less those closed. -/
theorem C51_exact_partial (s : SState τ) (h : SSteps SState.start s) (hlen : s.trace.length + 1 < 2 ^ 64)
    (a b before : List (SEvent τ)) (c : Counters) (he : s.trace = a ++ .copied before c :: b)
    (hq : ∀ x, (begins a).count x ≤ (finishes before).count x) :
    c .conns = howMany .conn (begins a) ∧ c .cur + howMany .close (begins a) = howMany .conn (begins a) ∧
      c .binds = howMany .bind (begins a) ∧ c .unbinds = howMany .unbind (begins a) ∧ c .searches = howMany .search (begins a) ∧
      c .deletes = howMany .delete (begins a) ∧ c .modifies = howMany .modify (begins a) ∧ c .modifyDNs = howMany .modifyDN (begins a) ∧
      c .adds = howMany .add (begins a) := by
  obtain ⟨h1, h2, h3⟩ := C51_between_partial s h hlen a b before c he
  have hi : ∀ e, howMany e (begins a) ≤ howMany e (finishes before) := fun e => countP_of_count _ hq
  have key : ∀ f e, (f, e) ∈ [(Fld.conns, Counted.conn), (.adds, .add), (.binds, .bind), (.deletes, .delete), (.modifyDNs, .modifyDN),
        (.modifies, .modify), (.unbinds, .unbind), (.searches, .search)] → c f = howMany e (begins a) := by
    intro f e hfe
    have := h1 f e hfe
    have := hi e
    omega
  have h4 := hi .close
  have h5 := hi .conn
  refine ⟨key _ _ (by simp), by omega, key _ _ (by simp), key _ _ (by simp), key _ _ (by simp), key _ _ (by simp), key _ _ (by simp),
    key _ _ (by simp), key _ _ (by simp)⟩

/-- The counter for the largest number of connections is kept correctly, whenever no count is under way, though no copy shows it. -/
theorem C51_max_kept (s : SState τ) (h : SSteps SState.start s) (hlen : s.trace.length + 1 < 2 ^ 64)
    (hq : s.writer = none) : ∃ log : List (τ × Counted), s.mem .max = maxOpen log ∧
      (∀ x, (finishes s.trace).count x ≤ log.count x) ∧ ∀ x, log.count x ≤ (begins s.trace).count x := by
  obtain ⟨log, I⟩ := inv_steps h hlen
  exact ⟨log, by rw [I.free hq]; rfl, fun x => (I.count_le x).2, fun x => (I.count_le x).1⟩

/-- Every copy says that the largest number of connections was 0. -/
theorem C51_max_zero (s : SState τ) (h : SSteps SState.start s) (hlen : s.trace.length + 1 < 2 ^ 64)
    (a b before : List (SEvent τ)) (c : Counters) (he : s.trace = a ++ .copied before c :: b) : c .max = 0 := by
  obtain ⟨_, I⟩ := inv_steps h hlen
  obtain ⟨log, h1, -⟩ := I.tr a b before c he
  rw [h1]; rfl

/-! ## C52 -/

theorem SSteps.trans {s s' s'' : SState τ} (h : SSteps s s') (h' : SSteps s' s'') : SSteps s s'' := by
  induction h' with
  | refl => exact h
  | step _ _ _ h2 ih => exact .step _ _ _ ih h2

theorem SSteps.one {s s' : SState τ} (h : SStep s s') : SSteps s s' := .step _ _ _ (.refl _) h

theorem at_at (s : SState τ) (t : τ) (x y : SThread τ) : (s.at t x).at t y = s.at t y := by
  simp only [SState.at]
  congr 1
  funext u
  split <;> rfl

/-- The holder of the mutex can finish its count. -/
theorem run_body {t : τ} {e : Counted} (he : e ≠ .add) : ∀ (p : SProg) (s : SState τ), s.threads t = .counting e p → Body e p →
    s.writer = some t → ∃ m, SSteps s { s.at t (.counting e (.ret none)) with mem := m, writer := none } := by
  intro p
  induction p with
  | get f k ih =>
    intro s h hb hw
    obtain ⟨m, h2⟩ := ih (s.mem f) ({ s.at t (.counting e (k (s.mem f))) with mem := s.mem, writer := s.writer, readers := s.readers })
      (by simp [SState.at]) (hb _) hw
    refine ⟨m, .trans (.one (.count s t e _ _ _ _ _ h (.get f k _ _ _))) ?_⟩
    simp only [SState.at] at h2 ⊢
    refine cast ?_ h2
    congr 2
    funext u
    split <;> rfl
  | set f v k ih =>
    intro s h hb hw
    obtain ⟨m, h2⟩ := ih ({ s.at t (.counting e k) with mem := s.mem.set f v, writer := s.writer, readers := s.readers })
      (by simp [SState.at]) hb hw
    refine ⟨m, .trans (.one (.count s t e _ _ _ _ _ h (.set f v k _ _ _))) ?_⟩
    simp only [SState.at] at h2 ⊢
    refine cast ?_ h2
    congr 2
    funext u
    split <;> rfl
  | unlock k ih =>
    intro s h hb hw
    obtain ⟨rfl, -⟩ := hb
    exact ⟨s.mem, .one (.count s t e _ _ _ _ _ h (.unlock _ _ _ _))⟩
  | lock k ih => intro s h hb hw; exact absurd hb he
  | _ => intro s h hb hw; exact absurd hb (by simp [Body])

/-- A reader can finish its copy. -/
theorem run_rbody {t : τ} {b : List (SEvent τ)} : ∀ (p : SProg) (s : SState τ), s.threads t = .copying b p → RBody p →
    ∃ c, SSteps s { s.at t (.copying b (.ret (some c))) with readers := s.readers.erase t } := by
  intro p
  induction p with
  | get f k ih =>
    intro s h hb
    obtain ⟨c, h2⟩ := ih (s.mem f) ({ s.at t (.copying b (k (s.mem f))) with mem := s.mem, writer := s.writer, readers := s.readers })
      (by simp [SState.at]) (hb _)
    refine ⟨c, .trans (.one (.read s t b _ _ _ _ _ h (.get f k _ _ _))) ?_⟩
    simp only [SState.at] at h2 ⊢
    refine cast ?_ h2
    congr 2
    funext u
    split <;> rfl
  | runlock k ih =>
    intro s h hb
    obtain ⟨c, rfl⟩ := hb
    exact ⟨c, .one (.read s t b _ _ _ _ _ h (.runlock _ _ _ _))⟩
  | _ => intro s h hb; exact absurd hb (by simp [RBody])

/-- All readers can finish. -/
theorem drain : ∀ (n : Nat) (s : SState τ) (log : List (τ × Counted)), StatInv s log → s.readers.length = n → s.trace.length + 1 < 2 ^ 64 →
    ∃ s' log', SSteps s s' ∧ StatInv s' log' ∧ s'.readers = [] ∧ s'.trace = s.trace ∧ s'.writer = s.writer ∧
      ∀ t e p, s.threads t = .counting e p → s'.threads t = .counting e p := by
  intro n
  induction n with
  | zero => intro s log I h _; exact ⟨s, log, .refl _, I, List.length_eq_zero_iff.1 h, rfl, rfl, fun _ _ _ h => h⟩
  | succ n ih =>
    intro s log I h hlen
    match hr : s.readers, h with
    | t :: r, h =>
      obtain ⟨b, p, h1, h2, -⟩ := I.rd t (by rw [hr]; exact List.mem_cons_self)
      obtain ⟨c, h3⟩ := run_rbody p s h1 h2
      have hinv : ∀ s' : SState τ, SSteps s s' → s'.trace = s.trace → ∃ log', StatInv s' log' := by
        intro s' h4
        induction h4 with
        | refl => intro _; exact ⟨log, I⟩
        | step s1 s2 g1 g2 ih =>
          intro ht
          have m1 := trace_mono g2
          have m0 : ∀ {x y : SState τ}, SSteps x y → x.trace <+: y.trace := by
            intro x y h
            induction h with
            | refl => exact List.prefix_refl _
            | step _ _ _ h2 ih => exact ih.trans (trace_mono h2)
          have e1 : s1.trace = s.trace := by
            have a1 := (m0 g1).length_le
            have a2 := m1.length_le
            rw [ht] at a2
            exact ((m0 g1).eq_of_length (by omega)).symm
          obtain ⟨l1, I1⟩ := ih e1
          obtain ⟨l2, I2, -⟩ := stat_step I1 g2 (by rw [ht]; exact hlen)
          exact ⟨l2, I2⟩
      obtain ⟨log1, I1⟩ := hinv _ h3 rfl
      obtain ⟨s', log', g1, g2, g3, g4, g5, g6⟩ := ih _ log1 I1 (by simp [SState.at, hr] at h ⊢; exact h) hlen
      refine ⟨s', log', h3.trans g1, g2, g3, g4, g5, fun u e q hu => g6 u e q ?_⟩
      simp only [SState.at]
      rw [if_neg (by rintro rfl; rw [h1] at hu; cases hu)]
      exact hu

/-- C52: as long as no add request was counted, whatever the other goroutines have done so far, every count that was begun can finish,
without any further request arriving. (Missing for the full property: add requests, see `C52_add_blocks` and `C52_adds_fails`.) -/
theorem C52_count_finishes_partial (s : SState τ) (h : SSteps SState.start s) (hlen : s.trace.length + 1 < 2 ^ 64)
    (hadd : ∀ t, (t, Counted.add) ∉ begins s.trace) (t : τ) (e : Counted) (p : SProg) (ht : s.threads t = .counting e p) :
    ∃ s', SSteps s s' ∧ s'.trace = s.trace ++ [.finish t e] := by
  obtain ⟨log, I⟩ := inv_steps h hlen
  have hna : ∀ u e' p', s.threads u = .counting e' p' → e' ≠ .add := by
    rintro u e' p' hu rfl
    have := I.cntB u .add
    rw [hu, List.count_eq_zero.2 (hadd u)] at this
    simp [pendB] at this
  -- a thread that has counted finishes
  have fin : ∀ s' : SState τ, SSteps s s' → s'.trace = s.trace → s'.threads t = .counting e (.ret none) →
      ∃ s', SSteps s s' ∧ s'.trace = s.trace ++ [.finish t e] := by
    intro s' g1 g2 g3
    refine ⟨_, g1.trans (.one (.finish s' t e none g3)), ?_⟩
    simp only [SState.obs, SState.at]
    rw [g2]
  -- a thread that waits, with the mutex free
  have wait : ∀ (s' : SState τ) (log' : List (τ × Counted)), SSteps s s' → s'.trace = s.trace → StatInv s' log' → s'.writer = none →
      s'.threads t = .counting e p → ∃ s', SSteps s s' ∧ s'.trace = s.trace ++ [.finish t e] := by
    intro s' log' g1 g2 g3 g4 g5
    obtain ⟨s1, log1, k1, k2, k3, k4, k5, k6⟩ := drain _ s' log' g3 rfl (by rw [g2]; exact hlen)
    have k7 := k6 t e p g5
    rcases g3.out t e p g5 (by simp [g4]) with rfl | rfl
    · obtain ⟨k, e1, hb⟩ := prog_shape e
      rw [e1] at k7
      have hstep := SStep.count s1 t e _ k s1.mem (some t) [] k7 (by rw [k3, k5, g4]; exact .lock k _)
      obtain ⟨m, h2⟩ := run_body (t := t) (hna t e _ ht) k
        { s1.at t (.counting e k) with mem := s1.mem, writer := some t, readers := [] } (by simp [SState.at]) hb rfl
      refine fin _ (g1.trans (k1.trans ((SSteps.one hstep).trans h2))) ?_ (by simp [SState.at])
      simp only [SState.at]
      rw [k4, g2]
    · exact fin s' g1 g2 g5
  cases hw : s.writer with
  | none => exact wait s log (.refl _) rfl I hw ht
  | some u =>
    obtain ⟨hr, e', q, h1, h2, -⟩ := I.held u hw
    obtain ⟨m, h3⟩ := run_body (hna u e' q h1) q s h1 h2 hw
    by_cases hu : t = u
    · subst hu
      rw [ht] at h1
      cases h1
      exact fin _ h3 rfl (by simp [SState.at])
    · -- the invariant after the other count
      have hinv : ∀ s' : SState τ, SSteps s s' → s'.trace = s.trace → ∃ log', StatInv s' log' := by
        intro s' h4 e1
        exact inv_steps (h.trans h4) (by rw [e1]; exact hlen)
      obtain ⟨log', I'⟩ := hinv _ h3 rfl
      exact wait _ log' h3 rfl I' rfl (by simpa [SState.at, hu] using ht)

/-- C52 is false for add requests: an add that has begun its count and got the mutex keeps it for ever. In every later state the mutex is
still held, and no count finishes that was not through already; so every connection that counts anything hangs, too. -/
theorem C52_add_blocks (s : SState τ) (h : SSteps SState.start s) (t : τ) (p : SProg) (ht : s.threads t = .counting .add p)
    (hw : s.writer = some t) (s' : SState τ) (h' : SSteps s s') (hlen : s'.trace.length + 1 < 2 ^ 64) :
    s'.writer = some t ∧
    ∀ u e, s.threads u ≠ .counting e (.ret none) → (finishes s'.trace).count (u, e) = (finishes s.trace).count (u, e) := by
  have m0 : ∀ {x y : SState τ}, SSteps x y → x.trace <+: y.trace := by
    intro x y h
    induction h with
    | refl => exact List.prefix_refl _
    | step _ _ _ h2 ih => exact ih.trans (trace_mono h2)
  obtain ⟨log, I⟩ := inv_steps h (by have := (m0 h').length_le; omega)
  have main : StatInv s' log ∧ s'.writer = some t ∧ ∃ p', s'.threads t = .counting .add p' := by
    induction h' with
    | refl => exact ⟨I, hw, p, ht⟩
    | step s1 s2 g1 g2 ih =>
      have hl := (trace_mono g2).length_le
      obtain ⟨I1, w1, p1, t1⟩ := ih (by omega)
      have hb : Body .add p1 := by
        obtain ⟨-, e, q, k1, k2, -⟩ := I1.held t w1
        rw [t1] at k1
        cases k1
        exact k2
      have hI : StatInv s2 log := by
        obtain ⟨log', J, rfl | ⟨u, e, q, -, hu, hq, hne⟩⟩ := stat_step I1 g2 hlen
        · exact J
        · rw [w1] at hu
          cases hu
          rw [t1] at hq
          cases hq
          exact absurd rfl hne
      refine ⟨hI, ?_⟩
      have other : ∀ (u : τ) (x : SThread τ), u ≠ t → (s1.at u x).threads t = s1.threads t := by
        intro u x hu
        simp only [SState.at]
        rw [if_neg (Ne.symm hu)]
      have neq : ∀ (u : τ), (∀ p', s1.threads u ≠ .counting .add p') → u ≠ t := by
        rintro u hu rfl
        exact hu _ t1
      cases g2 with
      | accept u hu => exact ⟨w1, p1, (other u _ (neq u (by simp [hu]))).trans t1⟩
      | request u e hu => exact ⟨w1, p1, (other u _ (neq u (by simp [hu]))).trans t1⟩
      | close u hu => exact ⟨w1, p1, (other u _ (neq u (by simp [hu]))).trans t1⟩
      | copy u hu => exact ⟨w1, p1, (other u _ (neq u (by simp [hu]))).trans t1⟩
      | copied u b c hu => exact ⟨w1, p1, (other u _ (neq u (by simp [hu]))).trans t1⟩
      | finish u e r hu =>
        refine ⟨w1, p1, (other u _ ?_).trans t1⟩
        rintro rfl
        rw [t1] at hu
        cases hu
        exact hb
      | count u e q q' m w r hu ha =>
        by_cases hut : u = t
        · subst hut
          rw [t1] at hu
          cases hu
          refine ⟨?_, q', by simp [SState.at]⟩
          generalize hx : (p1, s1.mem, s1.writer, s1.readers) = x at ha
          generalize hy : (q', m, w, r) = y at ha
          cases ha <;> simp only [Prod.mk.injEq] at hx hy <;> obtain ⟨hx1, hx2, hx3, hx4⟩ := hx <;> obtain ⟨hy1, hy2, hy3, hy4⟩ := hy <;>
            subst hx1 <;> simp_all [Body]
        · refine ⟨?_, p1, (other u _ hut).trans t1⟩
          have hout := I1.out u e q hu (by rw [w1]; intro h; exact hut (Option.some.inj h).symm)
          obtain ⟨k, e1, -⟩ := prog_shape e
          rw [e1] at hout
          generalize hx : (q, s1.mem, s1.writer, s1.readers) = x at ha
          generalize hy : (q', m, w, r) = y at ha
          cases ha <;> simp only [Prod.mk.injEq] at hx hy <;> obtain ⟨hx1, hx2, hx3, hx4⟩ := hx <;> obtain ⟨hy1, hy2, hy3, hy4⟩ := hy <;>
            subst hx1 <;> simp_all
      | read u b q q' m w r hu ha =>
        have hut := neq u (by simp [hu])
        refine ⟨?_, p1, (other u _ hut).trans t1⟩
        have hre := (I1.held t w1).1
        have hcp := (I1.cp u b q hu).2
        obtain ⟨k, e1, -⟩ := clone_shape
        rw [e1, hre] at hcp
        generalize hx : (q, s1.mem, s1.writer, s1.readers) = x at ha
        generalize hy : (q', m, w, r) = y at ha
        cases ha <;> simp only [Prod.mk.injEq] at hx hy <;> obtain ⟨hx1, hx2, hx3, hx4⟩ := hx <;> obtain ⟨hy1, hy2, hy3, hy4⟩ := hy <;>
          subst hx1 <;> simp_all
  refine ⟨main.2.1, fun u e hu => ?_⟩
  have h1 := I.cntL u e
  have h2 := main.1.cntL u e
  have h3 : pendL (s.threads u) e = 0 := by
    unfold pendL
    split
    · rename_i e' q hq
      rw [if_neg]
      rintro ⟨rfl, hr⟩
      have hut : s.writer ≠ some u := by
        rw [hw]
        intro hx
        cases hx
        rw [ht] at hq
        cases hq
        obtain ⟨-, e, q, k1, k2, -⟩ := I.held t hw
        rw [ht] at k1
        cases k1
        cases p with
        | ret r => exact k2
        | _ => cases hr
      rcases I.out u e' q hq hut with h | h
      · rw [h, prog_notRet] at hr; cases hr
      · exact hu (h ▸ hq)
    · rfl
  have h4 : (finishes s.trace).count (u, e) ≤ (finishes s'.trace).count (u, e) := by
    obtain ⟨x, hx⟩ := m0 h'
    rw [← hx, finishes_append, List.count_append]
    omega
  omega

theorem steps_noadd {s : SState τ} (h : SSteps SState.start s) (hlen : s.trace.length + 1 < 2 ^ 64) :
    ∃ log, StatInv s log ∧ ∀ t, (t, Counted.add) ∉ log := by
  induction h with
  | refl => exact ⟨[], inv_start, by simp⟩
  | step s s' h1 h2 ih =>
    have := (trace_mono h2).length_le
    obtain ⟨log, I, hn⟩ := ih (by omega)
    obtain ⟨log', J, rfl | ⟨u, e, q, rfl, -, -, hne⟩⟩ := stat_step I h2 hlen
    · exact ⟨_, J, hn⟩
    · refine ⟨_, J, fun t ht => ?_⟩
      rcases List.mem_append.1 ht with ht | ht
      · exact hn t ht
      · simp at ht
        exact hne ht.2.symm

/-- With metrics enabled no add request ever gets past the count. -/
theorem C52_add_never (s : SState τ) (h : SSteps SState.start s) (hlen : s.trace.length + 1 < 2 ^ 64) (t : τ) :
    (t, Counted.add) ∉ finishes s.trace := by
  obtain ⟨log, I, hn⟩ := steps_noadd h hlen
  intro hx
  have h1 := (I.count_le (t, .add)).2
  rw [List.count_eq_zero.2 (hn t)] at h1
  exact absurd (List.count_pos_iff.2 hx) (by omega)

end

/-! ## Concrete executions -/

/-- The next access of a program, if it can be made. -/
def nextAccess (t : Nat) (p : SProg) (m : Counters) (w : Option Nat) (r : List Nat) : Option (SProg × Counters × Option Nat × List Nat) :=
  match p with
  | .get f k => some (k (m f), m, w, r)
  | .set f v k => some (k, m.set f v, w, r)
  | .lock k => if w = none ∧ r = [] then some (k, m, some t, []) else none
  | .unlock k => some (k, m, none, r)
  | .rlock k => if w = none then some (k, m, none, t :: r) else none
  | .runlock k => some (k, m, w, r.erase t)
  | .ret _ => none

/-- Choices of a scheduler: a new count, a copy, or the next step of a thread. -/
inductive SAct where
  | accept (t : Nat)
  | ask (t : Nat) (e : Counted)
  | close (t : Nat)
  | copy (t : Nat)
  | go (t : Nat)

/-- Execute a choice. -/
def sAct (s : SState Nat) : SAct → Option (SState Nat)
  | .accept t => match s.threads t with
    | .fresh => some ((s.at t (.counting .conn Counted.conn.prog)).obs (.begin t .conn))
    | _ => none
  | .ask t e => match s.threads t with
    | .opened => if e ≠ .conn ∧ e ≠ .close then some ((s.at t (.counting e e.prog)).obs (.begin t e)) else none
    | _ => none
  | .close t => match s.threads t with
    | .opened => some ((s.at t (.counting .close Counted.close.prog)).obs (.begin t .close))
    | _ => none
  | .copy t => match s.threads t with
    | .fresh => some (s.at t (.copying s.trace cloneStats))
    | _ => none
  | .go t => match s.threads t with
    | .counting e (.ret _) => some ((s.at t (if e = .close then .gone else .opened)).obs (.finish t e))
    | .copying b (.ret (some c)) => some ((s.at t .fresh).obs (.copied b c))
    | .counting e p => (nextAccess t p s.mem s.writer s.readers).map fun x =>
        { s.at t (.counting e x.1) with mem := x.2.1, writer := x.2.2.1, readers := x.2.2.2 }
    | .copying b p => (nextAccess t p s.mem s.writer s.readers).map fun x =>
        { s.at t (.copying b x.1) with mem := x.2.1, writer := x.2.2.1, readers := x.2.2.2 }
    | _ => none

theorem nextAccess_sound {t : Nat} {p : SProg} {m : Counters} {w : Option Nat} {r : List Nat} {y : SProg × Counters × Option Nat × List Nat}
    (h : nextAccess t p m w r = some y) : Access t (p, m, w, r) y := by
  cases p <;> simp only [nextAccess, Option.some.injEq, reduceCtorEq] at h
  · subst h; exact .get ..
  · subst h; exact .set ..
  · split at h
    · rename_i hc; obtain ⟨rfl, rfl⟩ := hc; cases h; exact .lock ..
    · cases h
  · subst h; exact .unlock ..
  · split at h
    · rename_i hc; subst hc; cases h; exact .rlock ..
    · cases h
  · subst h; exact .runlock ..

theorem sAct_sound {s s' : SState Nat} {a : SAct} (h : sAct s a = some s') : SStep s s' := by
  cases a with
  | accept t =>
    simp only [sAct] at h
    split at h
    · cases h; exact .accept s t ‹_›
    · cases h
  | ask t e =>
    simp only [sAct] at h
    split at h
    · split at h
      · rename_i hc; cases h; exact .request s t e ‹_› hc.1 hc.2
      · cases h
    · cases h
  | close t =>
    simp only [sAct] at h
    split at h
    · cases h; exact .close s t ‹_›
    · cases h
  | copy t =>
    simp only [sAct] at h
    split at h
    · cases h; exact .copy s t ‹_›
    · cases h
  | go t =>
    simp only [sAct] at h
    split at h
    · cases h; exact .finish s t _ _ ‹_›
    · cases h; exact .copied s t _ _ ‹_›
    · obtain ⟨x, hx, rfl⟩ := Option.map_eq_some_iff.1 h
      exact .count s t _ _ _ _ _ _ ‹_› (nextAccess_sound hx)
    · obtain ⟨x, hx, rfl⟩ := Option.map_eq_some_iff.1 h
      exact .read s t _ _ _ _ _ _ ‹_› (nextAccess_sound hx)
    · cases h

/-- Execute choices one after the other; impossible ones are skipped. -/
def sRun (s : SState Nat) : List SAct → SState Nat
  | [] => s
  | a :: as => match sAct s a with
    | some s' => sRun s' as
    | none => sRun s as

theorem sRun_steps (as : List SAct) (s : SState Nat) : SSteps s (sRun s as) := by
  induction as generalizing s with
  | nil => exact .refl _
  | cons a as ih =>
    rw [sRun]
    split
    · exact (SSteps.one (sAct_sound ‹_›)).trans (ih _)
    · exact ih _

/-- Two connections are accepted at the same time, with alternating accesses; the second asks for a search; then the counters are copied. -/
def exActs : List SAct :=
  [.accept 0, .accept 1, .go 0, .go 0] ++ List.replicate 10 (.go 0) ++ List.replicate 12 (.go 1) ++ [.ask 1 .search] ++
    List.replicate 5 (.go 1) ++ [.copy 2] ++ List.replicate 12 (.go 2)

def exStats : SState Nat := sRun .start exActs

/-- C51 fails for the largest number of connections: two connections are open, the copy says 2 current connections and a maximum of 0. -/
theorem C51_max_fails : ∃ s : SState Nat, SSteps SState.start s ∧ ∃ a b before c, s.trace = a ++ .copied before c :: b ∧
    maxOpen (finishes before) = 2 ∧ c .cur = 2 ∧ c .max = 0 := by
  refine ⟨exStats, sRun_steps _ _, exStats.trace.take 6, exStats.trace.drop 7, _, _, rfl, ?_⟩
  decide +kernel

/-- C52 fails: after one connection has sent an add request, the mutex is held for ever (`C52_add_blocks`); another client that connects
hangs in its first count. -/
theorem C52_adds_fails : ∃ (s : SState Nat) (p : SProg), SSteps SState.start s ∧ s.threads 0 = .counting .add p ∧ s.writer = some 0 ∧
    s.threads 1 = .counting .conn Counted.conn.prog ∧
    ∀ s', SSteps s s' → s'.trace.length + 1 < 2 ^ 64 → (1, Counted.conn) ∉ finishes s'.trace ∧ (0, Counted.add) ∉ finishes s'.trace := by
  have hs := sRun_steps ([.accept 0] ++ List.replicate 12 (.go 0) ++ [.ask 0 .add, .go 0, .accept 1]) .start
  refine ⟨_, _, hs, rfl, rfl, rfl, fun s' h' hlen => ?_⟩
  obtain ⟨-, h1⟩ := C52_add_blocks _ hs 0 _ rfl rfl s' h' hlen
  have h2 := h1 1 .conn (by intro h; cases h)
  have h3 := h1 0 .add (by intro h; cases h)
  refine ⟨List.count_eq_zero.1 (h2.trans ?_), List.count_eq_zero.1 (h3.trans ?_)⟩ <;> decide +kernel

-- a run that meets the hypotheses of the theorems on C51: a copy after all counts are finished
example : ∃ a b before c, exStats.trace = a ++ .copied before c :: b ∧ exStats.trace.length + 1 < 2 ^ 64 ∧
    begins a = [(0, .conn), (1, .conn), (1, .search)] ∧ finishes before = [(0, .conn), (1, .conn), (1, .search)] ∧
    c .conns = 2 ∧ c .searches = 1 := by
  refine ⟨exStats.trace.take 6, exStats.trace.drop 7, _, _, rfl, ?_⟩
  decide +kernel

-- C52_count_finishes: connection 1 waits for the mutex that connection 0 holds
example : ∃ s : SState Nat, SSteps SState.start s ∧ (∀ t, (t, Counted.add) ∉ begins s.trace) ∧
    s.threads 1 = .counting .conn Counted.conn.prog ∧ s.writer = some 0 :=
  ⟨_, sRun_steps [.accept 0, .go 0, .go 0, .accept 1] .start, by
    intro t
    show (t, Counted.add) ∉ [(0, Counted.conn), (1, Counted.conn)]
    simp, rfl, rfl⟩

end Idm
