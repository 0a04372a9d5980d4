import Verif.Spec.Stats
/-!
# The invariant of the statistics
-/
namespace Idm

section
variable {τ : Type} [DecidableEq τ]

/-! ## Lists -/

theorem countP_of_count {α : Type} [BEq α] [LawfulBEq α] (p : α → Bool) : ∀ {l₁ l₂ : List α}, (∀ x, l₁.count x ≤ l₂.count x) →
    l₁.countP p ≤ l₂.countP p
  | [], _, _ => by simp
  | a :: l₁, l₂, h => by
    have ha : a ∈ l₂ := by
      have := h a
      rw [List.count_cons_self] at this
      exact List.count_pos_iff.1 (by omega)
    have hp := List.perm_cons_erase ha
    rw [hp.countP_eq p, List.countP_cons, List.countP_cons]
    have : l₁.countP p ≤ (l₂.erase a).countP p := by
      refine countP_of_count p fun x => ?_
      have h1 := h x
      rw [hp.count_eq x, List.count_cons, List.count_cons] at h1
      omega
    omega

theorem begins_append (a b : List (SEvent τ)) : begins (a ++ b) = begins a ++ begins b := by
  induction a with
  | nil => rfl
  | cons x a ih => cases x <;> simp [begins, ih]

theorem finishes_append (a b : List (SEvent τ)) : finishes (a ++ b) = finishes a ++ finishes b := by
  induction a with
  | nil => rfl
  | cons x a ih => cases x <;> simp [finishes, ih]

theorem openAfter_snoc (log : List (τ × Counted)) (x : τ × Counted) :
    openAfter (log ++ [x]) = if x.2 = .conn then x.1 :: openAfter log else if x.2 = .close then (openAfter log).erase x.1 else openAfter log := by
  simp [openAfter, List.foldl_append]

theorem howMany_snoc (e : Counted) (log : List (τ × Counted)) (x : τ × Counted) :
    howMany e (log ++ [x]) = howMany e log + if x.2 = e then 1 else 0 := by
  simp [howMany, List.countP_append, List.countP_cons]

theorem maxOpen_snoc (log : List (τ × Counted)) (x : τ × Counted) :
    maxOpen (log ++ [x]) = Nat.max (maxOpen log) (openAfter (log ++ [x])).length := by
  unfold maxOpen
  rw [List.length_append, List.length_singleton, List.range_succ, List.map_append, List.foldl_append]
  have h1 : (List.range (log.length + 1)).map (fun i => (openAfter ((log ++ [x]).take i)).length) =
      (List.range (log.length + 1)).map fun i => (openAfter (log.take i)).length := by
    refine List.map_congr_left fun i hi => ?_
    rw [List.mem_range] at hi
    rw [List.take_append_of_le_length (by omega)]
  rw [h1]
  simp only [List.map_cons, List.map_nil, List.foldl_cons, List.foldl_nil]
  rw [List.take_of_length_le (by simp)]

theorem le_maxOpen (log : List (τ × Counted)) : (openAfter log).length ≤ maxOpen log := by
  unfold maxOpen
  rw [List.range_succ, List.map_append, List.foldl_append]
  simp only [List.map_cons, List.map_nil, List.foldl_cons, List.foldl_nil]
  rw [List.take_length]
  exact Nat.le_max_right _ _

/-! ## Programs -/

/-- The rest of a counting method while it holds the mutex. -/
def Body (e : Counted) : SProg → Prop
  | .get _ k => ∀ x, Body e (k x)
  | .set _ _ k => Body e k
  | .unlock k => k = .ret none ∧ e ≠ .add
  | .lock _ => e = .add
  | _ => False

/-- The rest of `Clone` while it holds the mutex. -/
def RBody : SProg → Prop
  | .get _ k => ∀ x, RBody (k x)
  | .runlock k => ∃ c, k = .ret (some c)
  | _ => False

/-- The counters in the end if nobody interferes. -/
def finalMem : SProg → Counters → Counters
  | .ret _, m => m
  | .get f k, m => finalMem (k (m f)) m
  | .set f v k, m => finalMem k (m.set f v)
  | .lock k, m => finalMem k m
  | .unlock k, m => finalMem k m
  | .rlock k, m => finalMem k m
  | .runlock k, m => finalMem k m

/-- The result if nobody interferes. -/
def finalRes : SProg → Counters → Option Counters
  | .ret r, _ => r
  | .get f k, m => finalRes (k (m f)) m
  | .set f v k, m => finalRes k (m.set f v)
  | .lock k, m => finalRes k m
  | .unlock k, m => finalRes k m
  | .rlock k, m => finalRes k m
  | .runlock k, m => finalRes k m

theorem prog_shape (e : Counted) : ∃ k, e.prog = .lock k ∧ Body e k := by
  cases e with
  | conn =>
    refine ⟨_, rfl, ?_⟩
    intro x y c m
    by_cases h : c > m
    · simp only [if_pos h]; intro x; exact ⟨rfl, by simp⟩
    · simp only [if_neg h]; exact ⟨rfl, by simp⟩
  | add => exact ⟨_, rfl, fun _ => rfl⟩
  | _ => exact ⟨_, rfl, fun _ => ⟨rfl, by simp⟩⟩

theorem clone_shape : ∃ k, cloneStats = .rlock k ∧ RBody k := by
  refine ⟨_, rfl, ?_⟩
  intro a b c d e f g h i
  exact ⟨_, rfl⟩

/-- The copy made of the counters. -/
def published (m : Counters) : Counters := fun f => if f = .max then 0 else m f

theorem clone_res (m : Counters) : finalRes cloneStats m = some (published m) := by
  simp only [cloneStats, finalRes]
  congr 1
  funext f
  cases f <;> rfl

/-- Counting an event that may happen now gives the counters of the longer list of events. -/
theorem prog_final (log : List (τ × Counted)) (t : τ) (e : Counted) (hlen : log.length + 1 < 2 ^ 64)
    (hclose : e = .close → t ∈ openAfter log) : finalMem e.prog (tally log) = tally (log ++ [(t, e)]) := by
  have hh : ∀ e, howMany e log ≤ log.length := fun e => List.countP_le_length
  have ho : ∀ log : List (τ × Counted), (openAfter log).length ≤ log.length := by
    intro log
    unfold openAfter
    have : ∀ (log : List (τ × Counted)) (l : List τ), (log.foldl (fun l x => if x.2 = .conn then x.1 :: l else
        if x.2 = .close then l.erase x.1 else l) l).length ≤ l.length + log.length := by
      intro log
      induction log with
      | nil => intro l; simp
      | cons x log ih =>
        intro l
        rw [List.foldl_cons]
        refine Nat.le_trans (ih _) ?_
        rw [List.length_cons]
        split
        · rw [List.length_cons]; omega
        · split
          · have := (List.erase_sublist (a := x.1) (l := l)).length_le
            omega
          · omega
    simpa using this log []
  have ho1 := ho log
  have hm : maxOpen (log ++ [(t, e)]) = _ := maxOpen_snoc log (t, e)
  have hl := le_maxOpen log
  funext f
  cases e with
  | conn =>
    have h1 := hh .conn
    have hmod1 : (howMany .conn log + 1) % 2 ^ 64 = howMany .conn log + 1 := Nat.mod_eq_of_lt (by omega)
    have hmod2 : ((openAfter log).length + 1) % 2 ^ 64 = (openAfter log).length + 1 := Nat.mod_eq_of_lt (by omega)
    rw [openAfter_snoc] at hm
    simp only [if_true, List.length_cons] at hm
    simp only [Counted.prog, countConns, incr, finalMem, Counters.set, if_true, reduceCtorEq, if_false]
    have hmod2' : (tally log .cur + 1) % 2 ^ 64 = (openAfter log).length + 1 := hmod2
    rw [hmod2']
    have hmx : tally log .max = maxOpen log := rfl
    rw [hmx]
    have hmm : maxOpen (log ++ [(t, .conn)]) = if (openAfter log).length + 1 > maxOpen log then (openAfter log).length + 1 else maxOpen log := by
      rw [hm]
      simp only [Nat.max_def]
      split <;> split <;> omega
    by_cases hc : (openAfter log).length + 1 > maxOpen log
    · rw [if_pos hc] at hmm ⊢
      simp only [finalMem, Counters.set, if_true, reduceCtorEq, if_false]
      cases f <;> simp only [tally, howMany_snoc, openAfter_snoc, if_true, reduceCtorEq, if_false, Nat.add_zero, hmm, List.length_cons]
      · exact hmod1
    · rw [if_neg hc] at hmm ⊢
      simp only [finalMem, Counters.set, if_true, reduceCtorEq, if_false]
      cases f <;> simp only [tally, howMany_snoc, openAfter_snoc, if_true, reduceCtorEq, if_false, Nat.add_zero, hmm, List.length_cons]
      · exact hmod1
  | close =>
    have hin := hclose rfl
    have hpos := List.length_pos_of_mem hin
    rw [openAfter_snoc] at hm
    simp only [if_true, reduceCtorEq, if_false, List.length_erase_of_mem hin] at hm
    have hm' : maxOpen (log ++ [(t, .close)]) = maxOpen log := by
      rw [hm]; simp only [Nat.max_def]; split <;> omega
    simp only [Counted.prog, countConnsClose, finalMem, Counters.set]
    have hmod : ((openAfter log).length + (2 ^ 64 - 1)) % 2 ^ 64 = (openAfter log).length - 1 := by omega
    cases f <;> simp only [tally, howMany_snoc, openAfter_snoc, if_true, reduceCtorEq, if_false, Nat.add_zero, hm',
      List.length_erase_of_mem hin, hmod]
  | _ =>
    rw [openAfter_snoc] at hm
    simp only [reduceCtorEq, if_false] at hm
    rw [show Nat.max (maxOpen log) (openAfter log).length = maxOpen log from Nat.max_eq_left hl] at hm
    simp only [Counted.prog, countOne, countAdds, incr, finalMem, Counters.set]
    cases f <;> simp only [tally, howMany_snoc, openAfter_snoc, if_true, reduceCtorEq, if_false, Nat.add_zero, hm]
    exact Nat.mod_eq_of_lt (Nat.lt_of_le_of_lt (Nat.add_le_add_right (hh _) 1) hlen)

/-! ## The invariant -/

def SProg.isRet : SProg → Bool
  | .ret _ => true
  | _ => false

/-- Begun but not finished. -/
def pendB : SThread τ → Counted → Nat
  | .counting e' _, e => if e' = e then 1 else 0
  | _, _ => 0

/-- Counted but not finished. -/
def pendL : SThread τ → Counted → Nat
  | .counting e' p, e => if e' = e ∧ p.isRet = true then 1 else 0
  | _, _ => 0

/-- The connection is open. -/
def isOpen : SThread τ → Prop
  | .opened => True
  | .counting e p => if p.isRet = true then e ≠ .close else e ≠ .conn
  | _ => False

/-- Closed connections were open. -/
def Sensible (log : List (τ × Counted)) : Prop := (openAfter log).length + howMany .close log = howMany .conn log

/-- The list of events has all counts that were finished and continues those of all copies that were returned. -/
def Follows (b : List (SEvent τ)) (log : List (τ × Counted)) : Prop :=
  (∀ x, (finishes b).count x ≤ log.count x) ∧ ∀ bef c, .copied bef c ∈ b → ∃ l, l <+: log ∧ c = published (tally l)

/-- A copy that was asked for after `before` and returned after `a`. -/
def GoodCopy (before a : List (SEvent τ)) (c : Counters) : Prop :=
  ∃ log : List (τ × Counted), c = published (tally log) ∧ Sensible log ∧ Follows before log ∧
    ∀ x, log.count x ≤ (begins a).count x

structure StatInv (s : SState τ) (log : List (τ × Counted)) : Prop where
  cntB : ∀ t e, (begins s.trace).count (t, e) = (finishes s.trace).count (t, e) + pendB (s.threads t) e
  cntL : ∀ t e, log.count (t, e) = (finishes s.trace).count (t, e) + pendL (s.threads t) e
  opn : ∀ t, t ∈ openAfter log ↔ isOpen (s.threads t)
  nodup : (openAfter log).Nodup
  sens : Sensible log
  free : s.writer = none → s.mem = tally log
  held : ∀ t, s.writer = some t → s.readers = [] ∧
    ∃ e p, s.threads t = .counting e p ∧ Body e p ∧ finalMem p s.mem = tally (log ++ [(t, e)])
  out : ∀ t e p, s.threads t = .counting e p → s.writer ≠ some t → p = e.prog ∨ p = .ret none
  rnodup : s.readers.Nodup
  rd : ∀ t ∈ s.readers, ∃ b p, s.threads t = .copying b p ∧ RBody p ∧ finalRes p s.mem = some (published (tally log))
  cp : ∀ t b p, s.threads t = .copying b p → b <+: s.trace ∧
    (t ∈ s.readers ∨ p = cloneStats ∨ ∃ c log0, p = .ret (some c) ∧ log0 <+: log ∧ c = published (tally log0) ∧ Sensible log0 ∧
      Follows b log0)
  tr : ∀ a b bef c, s.trace = a ++ .copied bef c :: b → GoodCopy bef a c
  all : ∀ bef c, .copied bef c ∈ s.trace → ∃ l, l <+: log ∧ c = published (tally l)

theorem StatInv.count_le {s : SState τ} {log : List (τ × Counted)} (h : StatInv s log) (x : τ × Counted) :
    log.count x ≤ (begins s.trace).count x ∧ (finishes s.trace).count x ≤ log.count x := by
  obtain ⟨t, e⟩ := x
  rw [h.cntB, h.cntL]
  have : pendL (s.threads t) e ≤ pendB (s.threads t) e := by
    unfold pendL pendB
    split
    · split
      · rename_i h; rw [if_pos h.1]; exact Nat.le_refl _
      · exact Nat.zero_le _
    · exact Nat.le_refl _
  omega

theorem length_of_count {α : Type} [BEq α] [LawfulBEq α] {l₁ l₂ : List α} (h : ∀ x, l₁.count x ≤ l₂.count x) : l₁.length ≤ l₂.length := by
  have := countP_of_count (fun _ => true) h
  simpa using this

theorem begins_length : ∀ tr : List (SEvent τ), (begins tr).length ≤ tr.length
  | [] => Nat.le_refl _
  | x :: tr => by
    have := begins_length tr
    cases x <;> simp [begins] <;> omega

theorem StatInv.log_length {s : SState τ} {log : List (τ × Counted)} (h : StatInv s log) : log.length ≤ s.trace.length :=
  Nat.le_trans (length_of_count fun x => (h.count_le x).1) (begins_length _)

theorem prefix_snoc {α : Type} {a b t : List α} {x y : α} (h : t ++ [y] = a ++ x :: b) :
    (b = [] ∧ t = a ∧ y = x) ∨ ∃ b', t = a ++ x :: b' := by
  rcases List.eq_nil_or_concat b with rfl | ⟨b', z, rfl⟩
  · left
    have := List.append_inj' h rfl
    simp at this
    exact ⟨rfl, this.1, this.2⟩
  · right
    rw [List.concat_eq_append, ← List.cons_append, ← List.append_assoc] at h
    exact ⟨b', (List.append_inj' h rfl).1⟩

/-- The invariant for a longer trace, if the new event is no copy. -/
theorem tr_snoc {tr : List (SEvent τ)} {y : SEvent τ} (hy : ∀ b c, y ≠ .copied b c)
    (h : ∀ a b bef c, tr = a ++ .copied bef c :: b → GoodCopy bef a c) :
    ∀ a b bef c, tr ++ [y] = a ++ .copied bef c :: b → GoodCopy bef a c := by
  intro a b bef c e
  rcases prefix_snoc e with ⟨-, -, e⟩ | ⟨b', e⟩
  · exact absurd e (hy _ _)
  · exact h a b' bef c e

theorem lock_notRet (k : SProg) : (SProg.lock k).isRet = false := rfl

theorem prog_notRet (e : Counted) : e.prog.isRet = false := by
  obtain ⟨k, h, -⟩ := prog_shape e
  rw [h]; rfl

theorem inv_begin {s : SState τ} {log : List (τ × Counted)} (I : StatInv s log) {t : τ} {e : Counted}
    (h : (s.threads t = .fresh ∧ e = .conn) ∨ (s.threads t = .opened ∧ e ≠ .conn)) :
    StatInv ((s.at t (.counting e e.prog)).obs (.begin t e)) log := by
  have hnb : ∀ e', pendB (s.threads t) e' = 0 := by rcases h with h | h <;> simp [h.1, pendB]
  have hnl : ∀ e', pendL (s.threads t) e' = 0 := by rcases h with h | h <;> simp [h.1, pendL]
  have hnc : ∀ e' p, s.threads t ≠ .counting e' p := by rcases h with h | h <;> simp [h.1]
  have hnp : ∀ e' p, s.threads t ≠ .copying e' p := by rcases h with h | h <;> simp [h.1]
  have hnw : s.writer ≠ some t := fun hw => by
    obtain ⟨_, e', p, h1, _⟩ := I.held t hw
    exact hnc _ _ h1
  constructor
  · intro u e'
    simp only [SState.obs, SState.at, begins_append, finishes_append, begins, finishes, List.append_nil, List.count_append]
    by_cases hu : u = t
    · subst hu
      have := I.cntB u e'
      rw [hnb] at this
      simp only [if_true, pendB]
      rw [this, List.count_singleton]
      simp
    · simp only [if_neg hu]
      rw [I.cntB u e', List.count_singleton]
      have : ((t, e) == (u, e')) = false := by simp; intro h; exact absurd h.symm hu
      simp [this]
  · intro u e'
    simp only [SState.obs, SState.at, finishes_append, finishes, List.append_nil]
    by_cases hu : u = t
    · subst hu
      have := I.cntL u e'
      rw [hnl] at this
      simp only [if_true, pendL, prog_notRet]
      simpa using this
    · simp only [if_neg hu]
      exact I.cntL u e'
  · intro u
    simp only [SState.obs, SState.at]
    by_cases hu : u = t
    · subst hu
      rw [I.opn]
      simp only [if_true, isOpen, prog_notRet]
      rcases h with h | h <;> simp [h.1, h.2, isOpen]
    · simp only [if_neg hu]; exact I.opn u
  · exact I.nodup
  · exact I.sens
  · exact I.free
  · intro u hw
    obtain ⟨h1, e', p, h2, h3⟩ := I.held u hw
    refine ⟨h1, e', p, ?_, h3⟩
    simp only [SState.obs, SState.at]
    rw [if_neg (by rintro rfl; exact hnc _ _ h2)]
    exact h2
  · intro u e' p hu hw
    simp only [SState.obs, SState.at] at hu hw
    by_cases h' : u = t
    · rw [if_pos h'] at hu
      cases hu
      exact .inl rfl
    · rw [if_neg h'] at hu
      exact I.out u e' p hu hw
  · exact I.rnodup
  · intro u hu
    obtain ⟨b, p, h1, h2⟩ := I.rd u hu
    refine ⟨b, p, ?_, h2⟩
    simp only [SState.obs, SState.at]
    rw [if_neg (by rintro rfl; exact hnp _ _ h1)]
    exact h1
  · intro u b p hu
    simp only [SState.obs, SState.at] at hu ⊢
    by_cases h' : u = t
    · rw [if_pos h'] at hu
      cases hu
    · rw [if_neg h'] at hu
      obtain ⟨h1, h2⟩ := I.cp u b p hu
      exact ⟨h1.trans (List.prefix_append _ _), h2⟩
  · exact tr_snoc (by simp) I.tr
  · intro bef c hm
    simp only [SState.obs, List.mem_append, List.mem_singleton, reduceCtorEq, or_false] at hm
    exact I.all bef c hm

theorem inv_finish {s : SState τ} {log : List (τ × Counted)} (I : StatInv s log) {t : τ} {e : Counted} {r : Option Counters}
    (h : s.threads t = .counting e (.ret r)) :
    StatInv ((s.at t (if e = .close then .gone else .opened)).obs (.finish t e)) log := by
  have hnw : s.writer ≠ some t := fun hw => by
    obtain ⟨_, e', p, h1, h2, _⟩ := I.held t hw
    rw [h] at h1
    cases h1
    exact h2
  have hnp : ∀ e' p, s.threads t ≠ .copying e' p := by simp [h]
  have hnew : ∀ x : SThread τ, x = (if e = .close then .gone else .opened) → (∀ e', pendB x e' = 0) ∧ (∀ e', pendL x e' = 0) ∧
      (∀ e' p, x ≠ .counting e' p) ∧ (∀ b p, x ≠ .copying b p) ∧ (isOpen x ↔ e ≠ .close) := by
    rintro x rfl
    by_cases he : e = .close
    · simp [he, pendB, pendL, isOpen]
    · simp [he, pendB, pendL, isOpen]
  generalize (if e = .close then SThread.gone else .opened : SThread τ) = x at hnew
  obtain ⟨n1, n2, n3, n4, n5⟩ := hnew x rfl
  constructor
  · intro u e'
    simp only [SState.obs, SState.at, begins_append, finishes_append, begins, finishes, List.append_nil, List.count_append]
    have := I.cntB u e'
    by_cases hu : u = t
    · subst hu
      rw [h] at this
      simp only [if_true, n1]
      rw [this, List.count_singleton]
      simp [pendB]
    · simp only [if_neg hu]
      rw [this, List.count_singleton]
      have : ((t, e) == (u, e')) = false := by simp; intro h; exact absurd h.symm hu
      simp [this]
  · intro u e'
    simp only [SState.obs, SState.at, finishes_append, finishes, List.count_append]
    have := I.cntL u e'
    by_cases hu : u = t
    · subst hu
      rw [h] at this
      simp only [if_true, n2]
      rw [this, List.count_singleton]
      simp [pendL, SProg.isRet]
    · simp only [if_neg hu]
      rw [this, List.count_singleton]
      have : ((t, e) == (u, e')) = false := by simp; intro h; exact absurd h.symm hu
      simp [this]
  · intro u
    simp only [SState.obs, SState.at]
    by_cases hu : u = t
    · subst hu
      rw [I.opn, h]
      rw [if_pos rfl, n5]
      simp [isOpen, SProg.isRet]
    · simp only [if_neg hu]; exact I.opn u
  · exact I.nodup
  · exact I.sens
  · exact I.free
  · intro u hw
    obtain ⟨h1, e', p, h2, h3⟩ := I.held u hw
    refine ⟨h1, e', p, ?_, h3⟩
    simp only [SState.obs, SState.at]
    rw [if_neg (by rintro rfl; exact hnw hw)]
    exact h2
  · intro u e' p hu hw
    simp only [SState.obs, SState.at] at hu hw
    by_cases h' : u = t
    · rw [if_pos h'] at hu
      exact absurd hu (n3 _ _)
    · rw [if_neg h'] at hu
      exact I.out u e' p hu hw
  · exact I.rnodup
  · intro u hu
    obtain ⟨b, p, h1, h2⟩ := I.rd u hu
    refine ⟨b, p, ?_, h2⟩
    simp only [SState.obs, SState.at]
    rw [if_neg (by rintro rfl; exact hnp _ _ h1)]
    exact h1
  · intro u b p hu
    simp only [SState.obs, SState.at] at hu ⊢
    by_cases h' : u = t
    · rw [if_pos h'] at hu
      exact absurd hu (n4 _ _)
    · rw [if_neg h'] at hu
      obtain ⟨h1, h2⟩ := I.cp u b p hu
      exact ⟨h1.trans (List.prefix_append _ _), h2⟩
  · exact tr_snoc (by simp) I.tr
  · intro bef c hm
    simp only [SState.obs, List.mem_append, List.mem_singleton, reduceCtorEq, or_false] at hm
    exact I.all bef c hm

/-- Changing only a thread that is neither counting nor open, to another such. -/
theorem inv_thread {s : SState τ} {log : List (τ × Counted)} (I : StatInv s log) {t : τ} {x : SThread τ}
    (h : s.threads t = .fresh ∨ ∃ b p, s.threads t = .copying b p) (hx : x = .fresh ∨ ∃ b p, x = .copying b p)
    (hr : t ∉ s.readers)
    (hcp : ∀ b p, x = .copying b p → b <+: s.trace ∧ (p = cloneStats ∨ ∃ c log0, p = .ret (some c) ∧ log0 <+: log ∧
      c = published (tally log0) ∧ Sensible log0 ∧ Follows b log0)) :
    StatInv (s.at t x) log := by
  have hnb : ∀ e', pendB (s.threads t) e' = 0 := by rcases h with h | ⟨b, p, h⟩ <;> simp [h, pendB]
  have hnl : ∀ e', pendL (s.threads t) e' = 0 := by rcases h with h | ⟨b, p, h⟩ <;> simp [h, pendL]
  have hnc : ∀ e' p, s.threads t ≠ .counting e' p := by rcases h with h | ⟨b, p, h⟩ <;> simp [h]
  have hno : ¬ isOpen (s.threads t) := by rcases h with h | ⟨b, p, h⟩ <;> simp [h, isOpen]
  have xnb : ∀ e', pendB x e' = 0 := by rcases hx with h | ⟨b, p, h⟩ <;> simp [h, pendB]
  have xnl : ∀ e', pendL x e' = 0 := by rcases hx with h | ⟨b, p, h⟩ <;> simp [h, pendL]
  have xnc : ∀ e' p, x ≠ .counting e' p := by rcases hx with h | ⟨b, p, h⟩ <;> simp [h]
  have xno : ¬ isOpen x := by rcases hx with h | ⟨b, p, h⟩ <;> simp [h, isOpen]
  constructor
  · intro u e'
    have := I.cntB u e'
    simp only [SState.at]
    by_cases hu : u = t
    · subst hu; rw [hnb] at this; simpa [xnb] using this
    · simpa [hu] using this
  · intro u e'
    have := I.cntL u e'
    simp only [SState.at]
    by_cases hu : u = t
    · subst hu; rw [hnl] at this; simpa [xnl] using this
    · simpa [hu] using this
  · intro u
    simp only [SState.at]
    rw [I.opn]
    by_cases hu : u = t
    · subst hu; simp [hno, xno]
    · simp [hu]
  · exact I.nodup
  · exact I.sens
  · exact I.free
  · intro u hw
    obtain ⟨h1, e', p, h2, h3⟩ := I.held u hw
    refine ⟨h1, e', p, ?_, h3⟩
    simp only [SState.at]
    rw [if_neg (by rintro rfl; exact hnc _ _ h2)]
    exact h2
  · intro u e' p hu hw
    simp only [SState.at] at hu hw
    by_cases h' : u = t
    · rw [if_pos h'] at hu
      exact absurd hu (xnc _ _)
    · rw [if_neg h'] at hu
      exact I.out u e' p hu hw
  · exact I.rnodup
  · intro u hu
    obtain ⟨b, p, h1, h2⟩ := I.rd u hu
    refine ⟨b, p, ?_, h2⟩
    simp only [SState.at]
    rw [if_neg (by rintro rfl; exact hr hu)]
    exact h1
  · intro u b p hu
    simp only [SState.at] at hu ⊢
    by_cases h' : u = t
    · rw [if_pos h'] at hu
      obtain ⟨h1, h2⟩ := hcp b p hu
      exact ⟨h1, .inr h2⟩
    · rw [if_neg h'] at hu
      exact I.cp u b p hu
  · exact I.tr
  · exact I.all

theorem inv_copied {s : SState τ} {log : List (τ × Counted)} (I : StatInv s log) {t : τ} {b : List (SEvent τ)} {c : Counters}
    (h : s.threads t = .copying b (.ret (some c))) : StatInv ((s.at t .fresh).obs (.copied b c)) log := by
  have hr : t ∉ s.readers := fun hr => by
    obtain ⟨b', p, h1, h2, -⟩ := I.rd t hr
    rw [h] at h1
    cases h1
    exact h2
  obtain ⟨hb, hgood⟩ := I.cp t b _ h
  have J := inv_thread I (t := t) (x := .fresh) (.inr ⟨_, _, h⟩) (.inl rfl) hr (by simp)
  have hg : GoodCopy b s.trace c := by
    rcases hgood with h1 | h1 | ⟨c', log0, h1, h2, h3, h4, h5⟩
    · exact absurd h1 hr
    · obtain ⟨k, h2, -⟩ := clone_shape
      rw [h2] at h1; cases h1
    · cases h1
      exact ⟨log0, h3, h4, h5, fun x => Nat.le_trans (h2.sublist.count_le x) (I.count_le x).1⟩
  constructor
  · intro u e
    simpa [SState.obs, begins_append, finishes_append, begins, finishes] using J.cntB u e
  · intro u e
    simpa [SState.obs, begins_append, finishes_append, begins, finishes] using J.cntL u e
  · exact J.opn
  · exact J.nodup
  · exact J.sens
  · exact J.free
  · exact J.held
  · exact J.out
  · exact J.rnodup
  · exact J.rd
  · intro u b' p hu
    obtain ⟨h1, h2⟩ := J.cp u b' p hu
    exact ⟨h1.trans (List.prefix_append _ _), h2⟩
  · intro a b' bef c' e
    simp only [SState.obs] at e
    rcases prefix_snoc e with ⟨-, e1, e2⟩ | ⟨b'', e⟩
    · cases e2
      rw [← e1]; exact hg
    · exact I.tr a b'' bef c' e
  · intro bef c' hm
    simp only [SState.obs, List.mem_append, List.mem_singleton, SEvent.copied.injEq] at hm
    rcases hm with hm | ⟨-, rfl⟩
    · exact I.all bef c' hm
    · rcases hgood with h1 | h1 | ⟨c', log0, h1, h2, h3, -⟩
      · exact absurd h1 hr
      · obtain ⟨k, h2, -⟩ := clone_shape
        rw [h2] at h1; cases h1
      · cases h1
        exact ⟨log0, h2, h3⟩

/-- Changing the rest of a count that has not reached its end, by an access of the holder of the mutex. -/
theorem inv_inner {s : SState τ} {log : List (τ × Counted)} (I : StatInv s log) {t : τ} {e : Counted} {p p' : SProg} {m : Counters}
    (h : s.threads t = .counting e p) (hw : s.writer = some t) (hp : p'.isRet = false) (hb : Body e p')
    (hf : finalMem p' m = finalMem p s.mem) : StatInv { s.at t (.counting e p') with mem := m } log := by
  obtain ⟨hr, e0, p0, h1, h2, h3⟩ := I.held t hw
  rw [h] at h1
  cases h1
  have hpr : p.isRet = false := by
    cases p with
    | ret r => exact absurd h2 (by simp [Body])
    | _ => rfl
  constructor
  · intro u e'
    have := I.cntB u e'
    simp only [SState.at]
    by_cases hu : u = t
    · subst hu; rw [h] at this; simpa [pendB] using this
    · simpa [hu] using this
  · intro u e'
    have := I.cntL u e'
    simp only [SState.at]
    by_cases hu : u = t
    · subst hu; rw [h] at this; simpa [pendL, hp, hpr] using this
    · simpa [hu] using this
  · intro u
    simp only [SState.at]
    rw [I.opn]
    by_cases hu : u = t
    · subst hu; rw [h]; simp [isOpen, hp, hpr]
    · simp [hu]
  · exact I.nodup
  · exact I.sens
  · intro hn
    simp only [SState.at, hw] at hn
    cases hn
  · intro u hu
    simp only [SState.at, hw] at hu
    cases hu
    refine ⟨hr, e, p', by simp [SState.at], hb, ?_⟩
    dsimp only
    rw [hf]; exact h3
  · intro u e' q hu hw'
    simp only [SState.at] at hu hw'
    by_cases h' : u = t
    · subst h'
      exact absurd hw hw'
    · rw [if_neg h'] at hu
      exact I.out u e' q hu hw'
  · exact I.rnodup
  · intro u hu
    simp only [SState.at, hr] at hu
    cases hu
  · intro u b q hu
    simp only [SState.at] at hu ⊢
    by_cases h' : u = t
    · rw [if_pos h'] at hu
      cases hu
    · rw [if_neg h'] at hu
      exact I.cp u b q hu
  · exact I.tr
  · exact I.all

theorem inv_lock {s : SState τ} {log : List (τ × Counted)} (I : StatInv s log) {t : τ} {e : Counted} {k : SProg}
    (h : s.threads t = .counting e (.lock k)) (hw : s.writer = none) (hr : s.readers = []) (hlen : s.trace.length + 1 < 2 ^ 64) :
    StatInv { s.at t (.counting e k) with writer := some t } log := by
  obtain ⟨k', e1, hb⟩ := prog_shape e
  have hk : Counted.prog e = .lock k := by
    rcases I.out t e _ h (by simp [hw]) with h1 | h1
    · exact h1.symm
    · cases h1
  rw [hk] at e1
  cases e1
  have hkr : k.isRet = false := by
    cases k with
    | ret r => exact absurd hb (by simp [Body])
    | _ => rfl
  have hl := I.log_length
  have hclose : e = .close → t ∈ openAfter log := by
    rintro rfl
    rw [I.opn, h]
    simp [isOpen, SProg.isRet]
  have hfin := prog_final log t e (by omega) hclose
  rw [hk] at hfin
  constructor
  · intro u e'
    have := I.cntB u e'
    simp only [SState.at]
    by_cases hu : u = t
    · subst hu; rw [h] at this; simpa [pendB] using this
    · simpa [hu] using this
  · intro u e'
    have := I.cntL u e'
    simp only [SState.at]
    by_cases hu : u = t
    · subst hu; rw [h] at this; simpa [pendL, hkr, lock_notRet] using this
    · simpa [hu] using this
  · intro u
    simp only [SState.at]
    rw [I.opn]
    by_cases hu : u = t
    · subst hu; rw [h]; simp [isOpen, hkr, lock_notRet]
    · simp [hu]
  · exact I.nodup
  · exact I.sens
  · intro hn; cases hn
  · intro u hu
    cases hu
    refine ⟨hr, e, k, by simp [SState.at], hb, ?_⟩
    simp only [SState.at]
    rw [I.free hw]
    exact hfin
  · intro u e' q hu hw'
    simp only [SState.at] at hu hw'
    by_cases h' : u = t
    · subst h'
      exact absurd rfl hw'
    · rw [if_neg h'] at hu
      exact I.out u e' q hu (by simp [hw])
  · exact I.rnodup
  · intro u hu
    simp only [SState.at, hr] at hu
    cases hu
  · intro u b q hu
    simp only [SState.at] at hu ⊢
    by_cases h' : u = t
    · rw [if_pos h'] at hu
      cases hu
    · rw [if_neg h'] at hu
      exact I.cp u b q hu
  · exact I.tr
  · exact I.all

theorem inv_unlock {s : SState τ} {log : List (τ × Counted)} (I : StatInv s log) {t : τ} {e : Counted} {k : SProg}
    (h : s.threads t = .counting e (.unlock k)) : StatInv { s.at t (.counting e k) with writer := none } (log ++ [(t, e)]) := by
  have hw : s.writer = some t := Decidable.byContradiction fun hw => by
    obtain ⟨k', e1, -⟩ := prog_shape e
    rcases I.out t e _ h hw with h1 | h1
    · rw [e1] at h1; cases h1
    · cases h1
  obtain ⟨hr, e0, p0, h1, h2, h3⟩ := I.held t hw
  rw [h] at h1
  cases h1
  have hk : k = .ret none := h2.1
  subst hk
  have hin : t ∈ openAfter log ↔ e ≠ .conn := by rw [I.opn, h]; simp [isOpen, SProg.isRet]
  constructor
  · intro u e'
    have := I.cntB u e'
    simp only [SState.at]
    by_cases hu : u = t
    · subst hu; rw [h] at this; simpa [pendB] using this
    · simpa [hu] using this
  · intro u e'
    have := I.cntL u e'
    simp only [SState.at]
    rw [List.count_append, List.count_singleton]
    by_cases hu : u = t
    · subst hu
      rw [h] at this
      simp [pendL, SProg.isRet] at this ⊢
      rw [this]
    · have hne : ((t, e) == (u, e')) = false := by simp; intro h; exact absurd h.symm hu
      simpa [hu, hne] using this
  · intro u
    simp only [SState.at]
    rw [openAfter_snoc]
    dsimp only
    by_cases hu : u = t
    · subst hu
      simp only [if_true, isOpen, SProg.isRet]
      by_cases hc : e = .conn
      · subst hc; simp
      · by_cases hd : e = .close
        · subst hd
          simp only [reduceCtorEq, if_false, if_true, ne_eq, not_true, iff_false]
          exact fun hx => (I.nodup.mem_erase_iff.1 hx).1 rfl
        · rw [if_neg hc, if_neg hd]
          simp [hd, hin, hc]
    · rw [if_neg hu, ← I.opn u]
      by_cases hc : e = .conn
      · subst hc; simp [hu]
      · rw [if_neg hc]
        split
        · exact ⟨fun hx => (I.nodup.mem_erase_iff.1 hx).2, fun hx => I.nodup.mem_erase_iff.2 ⟨hu, hx⟩⟩
        · exact Iff.rfl
  · rw [openAfter_snoc]
    dsimp only
    by_cases hc : e = .conn
    · rw [if_pos hc, List.nodup_cons]
      exact ⟨fun hx => hin.1 hx hc, I.nodup⟩
    · rw [if_neg hc]
      split
      · exact I.nodup.erase _
      · exact I.nodup
  · have hs := I.sens
    unfold Sensible at hs ⊢
    rw [openAfter_snoc, howMany_snoc, howMany_snoc]
    dsimp only
    by_cases hc : e = .conn
    · subst hc; simp; omega
    · by_cases hd : e = .close
      · subst hd
        have hi := hin.2 (by simp)
        have := List.length_pos_of_mem hi
        simp only [reduceCtorEq, if_false, if_true, List.length_erase_of_mem hi]
        omega
      · simp only [if_neg hc, if_neg hd]; omega
  · intro _
    simp only [SState.at]
    rw [← h3]; rfl
  · intro u hu
    cases hu
  · intro u e' q hu _
    simp only [SState.at] at hu
    by_cases h' : u = t
    · rw [if_pos h'] at hu
      cases hu
      exact .inr rfl
    · rw [if_neg h'] at hu
      exact I.out u e' q hu (by rw [hw]; intro hx; exact h' (Option.some.inj hx).symm)
  · exact I.rnodup
  · intro u hu
    simp only [SState.at, hr] at hu
    cases hu
  · intro u b q hu
    simp only [SState.at] at hu ⊢
    by_cases h' : u = t
    · rw [if_pos h'] at hu
      cases hu
    · rw [if_neg h'] at hu
      obtain ⟨g1, g2⟩ := I.cp u b q hu
      refine ⟨g1, ?_⟩
      rcases g2 with g2 | g2 | ⟨c, log0, g2, g3, g4⟩
      · exact .inl g2
      · exact .inr (.inl g2)
      · exact .inr (.inr ⟨c, log0, g2, g3.trans (List.prefix_append _ _), g4⟩)
  · exact I.tr
  · intro bef c hm
    obtain ⟨l, h1, h2⟩ := I.all bef c hm
    exact ⟨l, h1.trans (List.prefix_append _ _), h2⟩

theorem inv_reader {s : SState τ} {log : List (τ × Counted)} (I : StatInv s log) {t : τ} {b : List (SEvent τ)} {p p' : SProg} {r : List τ}
    (h : s.threads t = .copying b p) (hw : s.writer = none) (hr : ∀ u, u ≠ t → u ∈ r → u ∈ s.readers) (hr' : ∀ u, u ≠ t → u ∈ s.readers → u ∈ r)
    (hrn : r.Nodup) (ht : t ∈ r → RBody p' ∧ finalRes p' s.mem = some (published (tally log)))
    (hc : t ∈ r ∨ p' = cloneStats ∨ ∃ c log0, p' = .ret (some c) ∧ log0 <+: log ∧ c = published (tally log0) ∧ Sensible log0 ∧
      Follows b log0) : StatInv { s.at t (.copying b p') with readers := r } log := by
  constructor
  · intro u e'
    have := I.cntB u e'
    simp only [SState.at]
    by_cases hu : u = t
    · subst hu; rw [h] at this; simpa [pendB] using this
    · simpa [hu] using this
  · intro u e'
    have := I.cntL u e'
    simp only [SState.at]
    by_cases hu : u = t
    · subst hu; rw [h] at this; simpa [pendL] using this
    · simpa [hu] using this
  · intro u
    simp only [SState.at]
    rw [I.opn]
    by_cases hu : u = t
    · subst hu; rw [h]; simp [isOpen]
    · simp [hu]
  · exact I.nodup
  · exact I.sens
  · exact I.free
  · intro u hu
    simp only [SState.at, hw] at hu
    cases hu
  · intro u e' q hu hw'
    simp only [SState.at] at hu hw'
    by_cases h' : u = t
    · rw [if_pos h'] at hu
      cases hu
    · rw [if_neg h'] at hu
      exact I.out u e' q hu hw'
  · exact hrn
  · intro u hu
    by_cases h' : u = t
    · subst h'
      exact ⟨b, p', by simp [SState.at], ht hu⟩
    · obtain ⟨b', q, h1, h2⟩ := I.rd u (hr u h' hu)
      exact ⟨b', q, by simpa [SState.at, h'] using h1, h2⟩
  · intro u b' q hu
    simp only [SState.at] at hu ⊢
    by_cases h' : u = t
    · subst h'
      rw [if_pos rfl] at hu
      cases hu
      exact ⟨(I.cp u b p h).1, hc⟩
    · rw [if_neg h'] at hu
      obtain ⟨g1, g2⟩ := I.cp u b' q hu
      refine ⟨g1, ?_⟩
      rcases g2 with g2 | g2
      · exact .inl (hr' u h' g2)
      · exact .inr g2
  · exact I.tr
  · exact I.all

theorem stat_step {s s' : SState τ} {log : List (τ × Counted)} (I : StatInv s log) (h : SStep s s') (hlen : s'.trace.length + 1 < 2 ^ 64) :
    ∃ log', StatInv s' log' ∧ (log' = log ∨ ∃ t e p, log' = log ++ [(t, e)] ∧ s.writer = some t ∧ s.threads t = .counting e p ∧ e ≠ .add) := by
  cases h with
  | accept t h => exact ⟨log, inv_begin I (.inl ⟨h, rfl⟩), .inl rfl⟩
  | request t e h he hc => exact ⟨log, inv_begin I (.inr ⟨h, he⟩), .inl rfl⟩
  | close t h => exact ⟨log, inv_begin I (.inr ⟨h, by simp⟩), .inl rfl⟩
  | finish t e r h => exact ⟨log, inv_finish I h, .inl rfl⟩
  | copy t h =>
    refine ⟨log, inv_thread I (.inl h) (.inr ⟨_, _, rfl⟩) ?_ ?_, .inl rfl⟩
    · intro hr
      obtain ⟨b, p, h1, -⟩ := I.rd t hr
      rw [h] at h1; cases h1
    · intro b p e
      cases e
      exact ⟨List.prefix_refl _, .inl rfl⟩
  | copied t b c h => exact ⟨log, inv_copied I h, .inl rfl⟩
  | count t e p p' m w r h ha =>
    -- who does more than `lock` holds the mutex
    have hhold : (∀ k, p ≠ .lock k) → p.isRet = false → s.writer = some t := by
      intro h1 h2
      refine Decidable.byContradiction fun hw => ?_
      obtain ⟨k, e1, -⟩ := prog_shape e
      rcases I.out t e p h hw with h3 | h3
      · exact h1 k (h3.trans e1)
      · rw [h3] at h2; cases h2
    have hbody : (∀ k, p ≠ .lock k) → p.isRet = false → Body e p := by
      intro h1 h2
      obtain ⟨-, e0, p0, g1, g2, -⟩ := I.held t (hhold h1 h2)
      rw [h] at g1
      cases g1
      exact g2
    have hnr : ∀ q : SProg, Body e q → q.isRet = false := by
      intro q hq
      cases q with
      | ret r => exact absurd hq (by simp [Body])
      | _ => rfl
    generalize hx : (p, s.mem, s.writer, s.readers) = x at ha
    generalize hy : (p', m, w, r) = y at ha
    cases ha with
    | get f k m0 w0 r0 =>
      cases hx; cases hy
      have hb := hbody (by simp) rfl
      exact ⟨log, inv_inner I h (hhold (by simp) rfl) (hnr _ (hb _)) (hb _) rfl, .inl rfl⟩
    | set f v k m0 w0 r0 =>
      cases hx; cases hy
      have hb := hbody (by simp) rfl
      exact ⟨log, inv_inner I h (hhold (by simp) rfl) (hnr _ hb) hb rfl, .inl rfl⟩
    | lock k m0 =>
      simp only [Prod.mk.injEq] at hx hy
      obtain ⟨rfl, hm, hw, hr⟩ := hx
      obtain ⟨rfl, rfl, rfl, rfl⟩ := hy
      refine ⟨log, ?_, .inl rfl⟩
      have := inv_lock I h hw hr hlen
      simp only [SState.at] at this ⊢
      rw [hr] at this
      rw [← hm]
      exact this
    | unlock k m0 w0 r0 =>
      cases hx; cases hy
      refine ⟨_, inv_unlock I h, .inr ⟨t, e, _, rfl, hhold (by simp) rfl, h, (hbody (by simp) rfl).2⟩⟩
    | rlock k m0 r0 =>
      simp only [Prod.mk.injEq] at hx
      obtain ⟨rfl, -⟩ := hx
      exact absurd (hbody (by simp) rfl) (by simp [Body])
    | runlock k m0 w0 r0 =>
      simp only [Prod.mk.injEq] at hx
      obtain ⟨rfl, -⟩ := hx
      exact absurd (hbody (by simp) rfl) (by simp [Body])
  | read t b p p' m w r h ha =>
    have hhold : (∀ k, p ≠ .rlock k) → p.isRet = false → t ∈ s.readers := by
      intro h1 h2
      rcases (I.cp t b p h).2 with h3 | h3 | ⟨c, _, h3, -⟩
      · exact h3
      · obtain ⟨k, e1, -⟩ := clone_shape
        exact absurd (h3.trans e1) (h1 k)
      · rw [h3] at h2; cases h2
    have hbody : t ∈ s.readers → s.writer = none ∧ RBody p ∧ finalRes p s.mem = some (published (tally log)) := by
      intro hr
      obtain ⟨b', p0, g1, g2, g3⟩ := I.rd t hr
      rw [h] at g1
      cases g1
      refine ⟨?_, g2, g3⟩
      cases hw : s.writer with
      | none => rfl
      | some u => rw [(I.held u hw).1] at hr; cases hr
    generalize hx : (p, s.mem, s.writer, s.readers) = x at ha
    generalize hy : (p', m, w, r) = y at ha
    cases ha with
    | get f k m0 w0 r0 =>
      cases hx; cases hy
      have hr := hhold (by simp) rfl
      obtain ⟨hw, h2, h3⟩ := hbody hr
      exact ⟨log, inv_reader I h hw (fun _ _ h => h) (fun _ _ h => h) I.rnodup (fun _ => ⟨h2 _, h3⟩) (.inl hr), .inl rfl⟩
    | set f v k m0 w0 r0 =>
      simp only [Prod.mk.injEq] at hx
      obtain ⟨rfl, -⟩ := hx
      exact absurd (hbody (hhold (by simp) rfl)).2.1 (by simp [RBody])
    | lock k m0 =>
      simp only [Prod.mk.injEq] at hx
      obtain ⟨rfl, -⟩ := hx
      exact absurd (hbody (hhold (by simp) rfl)).2.1 (by simp [RBody])
    | unlock k m0 w0 r0 =>
      simp only [Prod.mk.injEq] at hx
      obtain ⟨rfl, -⟩ := hx
      exact absurd (hbody (hhold (by simp) rfl)).2.1 (by simp [RBody])
    | rlock k m0 r0 =>
      simp only [Prod.mk.injEq] at hx hy
      obtain ⟨rfl, hm, hw, hr⟩ := hx
      obtain ⟨rfl, rfl, rfl, rfl⟩ := hy
      have hnr : t ∉ s.readers := fun hr => absurd (hbody hr).2.1 (by simp [RBody])
      obtain ⟨k', e1, hk⟩ := clone_shape
      have hk' : cloneStats = .rlock p' := by
        rcases (I.cp t b _ h).2 with h3 | h3 | ⟨c, _, h3, -⟩
        · exact absurd h3 hnr
        · exact h3.symm
        · cases h3
      rw [hk'] at e1
      cases e1
      have hres := clone_res s.mem
      rw [hk', I.free hw] at hres
      refine ⟨log, ?_, .inl rfl⟩
      subst hr
      have := inv_reader (r := t :: s.readers) (p' := p') I h hw (fun u hu hx => (List.mem_cons.1 hx).resolve_left hu)
        (fun u _ hx => List.mem_cons_of_mem _ hx) (List.nodup_cons.2 ⟨hnr, I.rnodup⟩)
        (fun _ => ⟨hk, by rw [I.free hw]; exact hres⟩) (.inl List.mem_cons_self)
      simp only [SState.at] at this ⊢
      rw [hw] at this
      rw [← hm]
      exact this
    | runlock k m0 w0 r0 =>
      cases hx; cases hy
      have hr := hhold (by simp) rfl
      obtain ⟨hw, ⟨c, hc⟩, h3⟩ := hbody hr
      subst hc
      refine ⟨log, inv_reader I h hw (fun u _ hx => List.mem_of_mem_erase hx) (fun u hu hx => I.rnodup.mem_erase_iff.2 ⟨hu, hx⟩)
        (I.rnodup.erase _) (fun hx => absurd rfl (I.rnodup.mem_erase_iff.1 hx).1) (.inr (.inr ⟨c, log, rfl, List.prefix_refl _,
          Option.some.inj h3, I.sens, fun x => ?_, fun bef c hm => I.all bef c ((I.cp t b _ h).1.subset hm)⟩)), .inl rfl⟩
      obtain ⟨t', ht'⟩ := (I.cp t b _ h).1
      have h4 := (I.count_le x).2
      rw [← ht', finishes_append, List.count_append] at h4
      omega

theorem inv_start : StatInv (SState.start : SState τ) [] where
  cntB t e := rfl
  cntL t e := rfl
  opn t := by simp [openAfter, SState.start, isOpen]
  nodup := List.nodup_nil
  sens := rfl
  free _ := by funext f; cases f <;> rfl
  held t h := by cases h
  out t e p h := by cases h
  rnodup := List.nodup_nil
  rd t h := by cases h
  cp t b p h := by cases h
  tr a b bef c h := by simp [SState.start] at h
  all bef c h := by simp [SState.start] at h

theorem trace_mono {s s' : SState τ} (h : SStep s s') : s.trace <+: s'.trace := by
  cases h <;> first
    | exact List.prefix_refl _
    | exact List.prefix_append _ _

theorem inv_steps {s : SState τ} (h : SSteps SState.start s) (hlen : s.trace.length + 1 < 2 ^ 64) : ∃ log, StatInv s log := by
  generalize hx : (SState.start : SState τ) = x at h
  induction h with
  | refl => subst hx; exact ⟨[], inv_start⟩
  | step s s' h1 h2 ih =>
    have := (trace_mono h2).length_le
    obtain ⟨log, I⟩ := ih (by omega)
    obtain ⟨log', J, -⟩ := stat_step I h2 hlen
    exact ⟨log', J⟩

end
end Idm
