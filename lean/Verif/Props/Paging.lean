import Verif.Spec.Paging
/-!
# C41, C42: paged searches under all schedules
-/
namespace Idm

section
variable {α κ ρ : Type} {eat : κ → α → κ ⊕ ρ} {fin : κ → ρ}

theorem seqRun_append (rest : Option (List α)) (qs qs' : List (Option κ × Bool)) : seqRun eat fin rest (qs ++ qs') =
    ((seqRun eat fin rest qs).1 ++ (seqRun eat fin (seqRun eat fin rest qs).2 qs').1, (seqRun eat fin (seqRun eat fin rest qs).2 qs').2) := by
  induction qs generalizing rest with
  | nil => rfl
  | cons q qs ih =>
    obtain ⟨q, t⟩ := q
    simp only [List.cons_append, seqRun, ih]

theorem seqRun_snoc {rest : Option (List α)} {qs : List (Option κ × Bool)} {as : List (PAns ρ)} {f : Option (List α)}
    (h : seqRun eat fin rest qs = (as, f)) (q : Option κ) (t : Bool) :
    seqRun eat fin rest (qs ++ [(q, t)]) = (as ++ [(seqStep eat fin f q t).1], (seqStep eat fin f q t).2) := by
  rw [seqRun_append, h]
  rfl

/-- What may still be handed over: nothing, once the producer has left its loop. -/
def Adm (s : PSearch α κ ρ) (t : List α) : Prop := s.phase ≠ .offering → t = []

/-- The answers so far are those of the sequential search, whatever will still be handed over. -/
structure SInv (s : PSearch α κ ρ) (qs : List (Option κ × Bool)) (as : List (PAns ρ)) (f : List α → Option (List α)) : Prop where
  run : ∀ t, Adm s t → seqRun eat fin (some (s.out.map (·.2) ++ t)) qs = (as, f t)
  reg : s.phase = .closing ∨ s.phase = .ended → s.reg = false
  pend : (s.asks = qs.map (·.1) ∧ s.cons = as.map PAns.con ∧ ∀ t, Adm s t → (s.reg = true → f t = some t) ∧ (s.reg = false → f t = none ∨ f t = some [])) ∨
    (∃ k k', s.asks = qs.map (·.1) ++ [some k] ∧ s.cons = as.map PAns.con ++ [.waiting k'] ∧ (s.phase = .offering → s.reg = true) ∧
      ∀ t, Adm s t → ∃ l, f t = some l ∧ runPage eat fin k l = runPage eat fin k' t) ∨
    (s.asks = qs.map (·.1) ++ [none] ∧ s.cons = as.map PAns.con ++ [.abandoning] ∧ ∀ t, Adm s t → ∃ l, f t = some l)

theorem con_settled (as : List (PAns ρ)) : ∀ c ∈ as.map (PAns.con (κ := κ)), (∀ k, c ≠ .waiting k) ∧ c ≠ .abandoning := by
  intro c hc
  obtain ⟨a, -, rfl⟩ := List.mem_map.1 hc
  cases a <;> simp [PAns.con]

/-- A handler at work is the last one. -/
theorem pending_last {as : List (PAns ρ)} {c d : Con κ ρ} {i : Nat} (h : (as.map PAns.con ++ [c])[i]? = some d) (hd : (∃ k, d = .waiting k) ∨ d = .abandoning) :
    i = as.length ∧ d = c := by
  by_cases hi : i < as.length
  · have hm : d ∈ as.map (PAns.con (κ := κ)) := by
      rw [List.getElem?_append_left (by simpa using hi)] at h
      exact List.mem_of_getElem? h
    obtain ⟨h1, h2⟩ := con_settled as d hm
    rcases hd with ⟨k, rfl⟩ | rfl
    · exact absurd rfl (h1 k)
    · exact absurd rfl h2
  · rw [List.getElem?_append_right (by simpa using hi)] at h
    simp only [List.length_map] at h
    have : i - as.length = 0 := by
      cases hz : i - as.length with
      | zero => rfl
      | succ n => rw [hz] at h; simp at h
    rw [this] at h
    simp at h
    exact ⟨by omega, h.symm⟩

theorem pending_none {as : List (PAns ρ)} {d : Con κ ρ} {i : Nat} (h : (as.map PAns.con)[i]? = some d) (hd : (∃ k, d = .waiting k) ∨ d = .abandoning) : False := by
  obtain ⟨h1, h2⟩ := con_settled as d (List.mem_of_getElem? h)
  rcases hd with ⟨k, rfl⟩ | rfl
  · exact h1 k rfl
  · exact h2 rfl

theorem set_last (as : List (PAns ρ)) (c d : Con κ ρ) : (as.map PAns.con ++ [c]).set as.length d = as.map PAns.con ++ [d] := by
  rw [List.set_append_right _ _ (by simp)]
  simp

theorem settled_pend {s : PSearch α κ ρ} {qs as f} (h : SInv (eat := eat) (fin := fin) s qs as f) (hs : Settled s) :
    s.asks = qs.map (·.1) ∧ s.cons = as.map PAns.con ∧ ∀ t, Adm s t → (s.reg = true → f t = some t) ∧ (s.reg = false → f t = none ∨ f t = some []) := by
  rcases h.pend with h | ⟨k, k', -, h, -⟩ | ⟨-, h, -⟩
  · exact h
  · exact absurd rfl ((hs (.waiting k') (by rw [h]; simp)).1 k')
  · exact absurd rfl (hs .abandoning (by rw [h]; simp)).2

theorem sinv {l : List α} {s : PSearch α κ ρ} (h : SReach eat fin l s) : ∃ qs as f, SInv (eat := eat) (fin := fin) s qs as f := by
  induction h with
  | start k =>
    refine ⟨[], [], fun t => some t, fun t _ => rfl, by simp [PSearch.start], Or.inr (Or.inl ⟨k, k, rfl, rfl, fun _ => rfl, fun t _ => ⟨t, rfl, rfl⟩⟩)⟩
  | step s s' _ hstep hseq ih =>
    obtain ⟨qs, as, f, hi⟩ := ih
    cases hstep with
    | ask k hr =>
      obtain ⟨h1, h2, h3⟩ := settled_pend hi (hseq (by simp))
      exact ⟨qs, as, f, hi.run, hi.reg, Or.inr (Or.inl ⟨k, k, by simp [h1], by simp [h2], fun _ => hr, fun t ht => ⟨t, (h3 t ht).1 hr, rfl⟩⟩)⟩
    | abandon hr =>
      obtain ⟨h1, h2, h3⟩ := settled_pend hi (hseq (by simp))
      exact ⟨qs, as, f, hi.run, hi.reg, Or.inr (Or.inr ⟨by simp [h1], by simp [h2], fun t ht => ⟨t, (h3 t ht).1 hr⟩⟩)⟩
    | askLate k hr =>
      obtain ⟨h1, h2, h3⟩ := settled_pend hi (hseq (by simp))
      refine ⟨qs ++ [(some k, false)], as ++ [.refused], fun _ => none, fun t ht => ?_, hi.reg, Or.inl ⟨by simp [h1], by simp [h2, PAns.con], fun _ _ => by simp [hr]⟩⟩
      rw [seqRun_snoc (hi.run t ht)]
      rcases (h3 t ht).2 hr with e | e <;> simp [e, seqStep]
    | abandonLate hr =>
      obtain ⟨h1, h2, h3⟩ := settled_pend hi (hseq (by simp))
      refine ⟨qs ++ [(none, false)], as ++ [.refused], fun _ => none, fun t ht => ?_, hi.reg, Or.inl ⟨by simp [h1], by simp [h2, PAns.con], fun _ _ => by simp [hr]⟩⟩
      rw [seqRun_snoc (hi.run t ht)]
      rcases (h3 t ht).2 hr with e | e <;> simp [e, seqStep]
    | drop i hc =>
      rcases hi.pend with ⟨-, h, -⟩ | ⟨k, k', -, h, -⟩ | ⟨h1, h2, h3⟩
      · rw [h] at hc; exact (pending_none hc (Or.inr rfl)).elim
      · rw [h] at hc; have := (pending_last hc (Or.inr rfl)).2; cases this
      · rw [h2] at hc
        obtain ⟨rfl, -⟩ := pending_last hc (Or.inr rfl)
        refine ⟨qs ++ [(none, true)], as ++ [.hangs], fun _ => none, fun t ht => ?_, fun _ => rfl,
          Or.inl ⟨by simp [h1], by simp [h2, PAns.con, set_last], fun _ _ => by simp⟩⟩
        rw [seqRun_snoc (hi.run t ht)]
        obtain ⟨l, e⟩ := h3 t ht
        simp [e, seqStep]
    | hand i k x xs hc ho ht =>
      rcases hi.pend with ⟨-, h, -⟩ | ⟨k0, k', h1, h2, h3, h4⟩ | ⟨-, h, -⟩
      · rw [h] at hc; exact (pending_none hc (Or.inl ⟨k, rfl⟩)).elim
      · rw [h2] at hc
        obtain ⟨rfl, e⟩ := pending_last hc (Or.inl ⟨k, rfl⟩)
        cases e
        have hadm : ∀ t, Adm s t := fun t hn => absurd ho hn
        have hrun : ∀ t, seqRun eat fin (some ((s.out ++ [(as.length, x)]).map (·.2) ++ t)) qs = (as, f (x :: t)) := by
          intro t
          rw [List.map_append, List.append_assoc]
          exact hi.run _ (hadm _)
        have heat : ∀ t, runPage eat fin k (x :: t) = match eat k x with | .inl k' => runPage eat fin k' t | .inr r => (r, t, false) := fun t => rfl
        cases he : eat k x with
        | inl k'' =>
          refine ⟨qs, as, fun t => f (x :: t), fun t _ => hrun t, hi.reg, Or.inr (Or.inl ⟨k0, k'', h1, ?_, h3, fun t _ => ?_⟩)⟩
          · simp [h2, set_last, Con.receive, he]
          · obtain ⟨l, e1, e2⟩ := h4 (x :: t) (hadm _)
            exact ⟨l, e1, by rw [e2, heat, he]⟩
        | inr r =>
          refine ⟨qs ++ [(some k0, true)], as ++ [.page r false], fun t => some t, fun t _ => ?_, hi.reg, Or.inl ⟨by simp [h1], ?_, fun t _ => ?_⟩⟩
          · rw [seqRun_snoc (hrun t)]
            obtain ⟨l, e1, e2⟩ := h4 (x :: t) (hadm _)
            rw [heat, he] at e2
            simp [e1, seqStep, e2]
          · simp [h2, set_last, Con.receive, he, PAns.con]
          · have : s.reg = true := h3 ho
            simp [this]
      · rw [h] at hc; have := (pending_last hc (Or.inl ⟨k, rfl⟩)).2; cases this
    | finish ho ht =>
      have hadm : ∀ t, Adm { s with phase := .removing } t → Adm s t := fun t h => fun _ => h (by simp)
      refine ⟨qs, as, f, fun t ht => hi.run t (hadm t ht), by simp, ?_⟩
      rcases hi.pend with ⟨h1, h2, h3⟩ | ⟨k0, k', h1, h2, h3, h4⟩ | ⟨h1, h2, h3⟩
      · exact Or.inl ⟨h1, h2, fun t ht => h3 t (hadm t ht)⟩
      · exact Or.inr (Or.inl ⟨k0, k', h1, h2, by simp, fun t ht => h4 t (hadm t ht)⟩)
      · exact Or.inr (Or.inr ⟨h1, h2, fun t ht => h3 t (hadm t ht)⟩)
    | giveUp ho ht =>
      have hadm : ∀ t, Adm { s with phase := .removing, gaveUp := true } t → Adm s t := fun t h => fun _ => h (by simp)
      refine ⟨qs, as, f, fun t ht => hi.run t (hadm t ht), by simp, ?_⟩
      rcases hi.pend with ⟨h1, h2, h3⟩ | ⟨k0, k', h1, h2, h3, h4⟩ | ⟨h1, h2, h3⟩
      · exact Or.inl ⟨h1, h2, fun t ht => h3 t (hadm t ht)⟩
      · exact Or.inr (Or.inl ⟨k0, k', h1, h2, by simp, fun t ht => h4 t (hadm t ht)⟩)
      · exact Or.inr (Or.inr ⟨h1, h2, fun t ht => h3 t (hadm t ht)⟩)
    | remove ho =>
      have hadm : ∀ t, Adm { s with phase := .closing, reg := false } t → t = [] ∧ Adm s t := fun t h => ⟨h (by simp), fun _ => h (by simp)⟩
      refine ⟨qs, as, f, fun t ht => hi.run t (hadm t ht).2, by simp, ?_⟩
      rcases hi.pend with ⟨h1, h2, h3⟩ | ⟨k0, k', h1, h2, h3, h4⟩ | ⟨h1, h2, h3⟩
      · refine Or.inl ⟨h1, h2, fun t ht => ⟨by simp, fun _ => ?_⟩⟩
        obtain ⟨e, ha⟩ := hadm t ht
        cases hr : s.reg with
        | true => exact Or.inr (e ▸ (h3 t ha).1 hr)
        | false => exact (h3 t ha).2 hr
      · exact Or.inr (Or.inl ⟨k0, k', h1, h2, by simp, fun t ht => h4 t (hadm t ht).2⟩)
      · exact Or.inr (Or.inr ⟨h1, h2, fun t ht => h3 t (hadm t ht).2⟩)
    | close ho =>
      have hadm : ∀ t, Adm { s with phase := .ended } t → Adm s t := fun t h => fun _ => h (by simp)
      refine ⟨qs, as, f, fun t ht => hi.run t (hadm t ht), fun _ => hi.reg (Or.inl ho), ?_⟩
      rcases hi.pend with ⟨h1, h2, h3⟩ | ⟨k0, k', h1, h2, h3, h4⟩ | ⟨h1, h2, h3⟩
      · exact Or.inl ⟨h1, h2, fun t ht => h3 t (hadm t ht)⟩
      · exact Or.inr (Or.inl ⟨k0, k', h1, h2, by simp, fun t ht => h4 t (hadm t ht)⟩)
      · exact Or.inr (Or.inr ⟨h1, h2, fun t ht => h3 t (hadm t ht)⟩)
    | eof i k hc ho =>
      rcases hi.pend with ⟨-, h, -⟩ | ⟨k0, k', h1, h2, h3, h4⟩ | ⟨-, h, -⟩
      · rw [h] at hc; exact (pending_none hc (Or.inl ⟨k, rfl⟩)).elim
      · rw [h2] at hc
        obtain ⟨rfl, e⟩ := pending_last hc (Or.inl ⟨k, rfl⟩)
        cases e
        refine ⟨qs ++ [(some k0, true)], as ++ [.page (fin k) true], fun _ => none, fun t ht => ?_, hi.reg, Or.inl ⟨by simp [h1], ?_, fun t _ => ?_⟩⟩
        · have hta : Adm s t := ht
          rw [seqRun_snoc (hi.run t hta)]
          obtain ⟨l, e1, e2⟩ := h4 t hta
          rw [hta (by rw [ho]; simp)] at e2
          simp [e1, seqStep, e2, runPage]
        · simp [h2, set_last, PAns.con]
        · simp [hi.reg (Or.inr ho)]
      · rw [h] at hc; have := (pending_last hc (Or.inl ⟨k, rfl⟩)).2; cases this

theorem SReach.reach {l : List α} {s : PSearch α κ ρ} (h : SReach eat fin l s) : PReach eat fin l s := by
  induction h with
  | start k => exact .start k
  | step s s' _ hs _ ih => exact .step s s' ih hs

/-- C41: no entry is lost or handed over twice or out of order, under any schedule of the producer and any number of requests: what has been
handed over, followed by what has not, is the whole result. A producer that has not given up leaves its loop when everything is handed over. -/
theorem C41_handed_over {l : List α} {s : PSearch α κ ρ} (h : PReach eat fin l s) :
    s.out.map (·.2) ++ s.todo = l ∧ (s.gaveUp = false → s.phase ≠ .offering → s.todo = []) := by
  induction h with
  | start k => simp [PSearch.start]
  | step s s' _ hs ih =>
    cases hs with
    | ask k hr => exact ih
    | askLate k hr => exact ih
    | abandon hr => exact ih
    | abandonLate hr => exact ih
    | drop i hc => exact ih
    | hand i k x xs hc ho ht =>
      rw [ht] at ih
      refine ⟨by simpa using ih.1, fun _ hn => absurd ho hn⟩
    | finish ho ht => exact ⟨ih.1, fun _ _ => ht⟩
    | giveUp ho ht => exact ⟨ih.1, by simp⟩
    | remove ho => exact ⟨ih.1, fun hg _ => ih.2 hg (by rw [ho]; simp)⟩
    | close ho => exact ⟨ih.1, fun hg _ => ih.2 hg (by rw [ho]; simp)⟩
    | eof i k hc ho => exact ih

theorem zip_fst_snd {β γ : Type} (qs : List (β × γ)) : (qs.map (·.1)).zip (qs.map (·.2)) = qs := by
  induction qs with
  | nil => rfl
  | cons q qs ih => simp [ih]

/-- C41: whatever the schedule, the answers to a client that waits for each of them are those of the sequential search in Model/Ldif.lean (`cut`
and `inTime` there are the parameters `n` and `ts` here): the pages are made one after the other from the first `n` entries of the result, or
from the whole result; the latter if the producer did not give up. -/
theorem C41_schedules {l : List α} {s : PSearch α κ ρ} (h : SReach eat fin l s) (hs : Settled s) :
    ∃ (n : Option Nat) (ts : List Bool), ts.length = s.asks.length ∧ (s.gaveUp = false → n = none) ∧
      s.cons = ((seqRun eat fin (some (match n with | none => l | some n => l.take n)) (s.asks.zip ts)).1).map PAns.con := by
  obtain ⟨qs, as, f, hi⟩ := sinv h
  obtain ⟨h1, h2, h3⟩ := settled_pend hi hs
  obtain ⟨h4, h5⟩ := C41_handed_over h.reach
  by_cases hw : s.phase = .offering ∨ s.gaveUp = false
  · refine ⟨none, qs.map (·.2), by simp [h1], fun _ => rfl, ?_⟩
    have hadm : Adm s s.todo := fun hn => h5 (hw.resolve_left hn) hn
    rw [h1, zip_fst_snd, h2]
    dsimp only
    rw [← h4, hi.run _ hadm]
  · have hn : s.phase ≠ .offering := fun e => hw (Or.inl e)
    refine ⟨some s.out.length, qs.map (·.2), by simp [h1], fun e => absurd (Or.inr e) hw, ?_⟩
    have := hi.run [] (fun _ => rfl)
    rw [List.append_nil] at this
    rw [h1, zip_fst_snd, h2]
    dsimp only
    rw [show l.take s.out.length = s.out.map (·.2) by rw [← h4, List.take_left' (by simp)], this]

/-! ## C42 -/

/-- How much there is left to do for a search. -/
def PSearch.work (s : PSearch α κ ρ) : Nat :=
  s.todo.length + match s.phase with | .offering => 3 | .removing => 2 | .closing => 1 | .ended => 0

/-- C42: a handler that waits for an entry is not stuck: the producer or this handler can make a step. -/
theorem C42_progress (s : PSearch α κ ρ) (i : Nat) (k : κ) (hc : s.cons[i]? = some (.waiting k)) :
    ∃ s', PStep eat fin s s' ∧ (s'.work < s.work ∨ ∃ r, s'.cons[i]? = some (.answered r true)) := by
  cases hp : s.phase with
  | offering =>
    cases ht : s.todo with
    | nil => exact ⟨_, .finish s hp ht, Or.inl (by simp [PSearch.work, hp])⟩
    | cons x xs => exact ⟨_, .hand s i k x xs hc hp ht, Or.inl (by simp [PSearch.work, hp, ht])⟩
  | removing => exact ⟨_, .remove s hp, Or.inl (by simp [PSearch.work, hp])⟩
  | closing => exact ⟨_, .close s hp, Or.inl (by simp [PSearch.work, hp])⟩
  | ended =>
    refine ⟨_, .eof s i k hc hp, Or.inr ⟨fin k, ?_⟩⟩
    have hlt : i < s.cons.length := by
      rcases Nat.lt_or_ge i s.cons.length with h | h
      · exact h
      · rw [List.getElem?_eq_none h] at hc; cases hc
    simp [hlt]

/-- C42: the work never grows, whatever step is made; so a handler waits for finitely many steps of the producer only. A step that does not
reduce the work is one of a request (presenting the cookie, removing it, or being answered because the channel is closed). -/
theorem C42_bounded {s s' : PSearch α κ ρ} (h : PStep eat fin s s') : s'.work ≤ s.work ∧ (s'.work = s.work → s'.phase = s.phase ∧ s'.out = s.out) := by
  cases h with
  | ask k hr => exact ⟨Nat.le_refl _, fun _ => ⟨rfl, rfl⟩⟩
  | askLate k hr => exact ⟨Nat.le_refl _, fun _ => ⟨rfl, rfl⟩⟩
  | abandon hr => exact ⟨Nat.le_refl _, fun _ => ⟨rfl, rfl⟩⟩
  | abandonLate hr => exact ⟨Nat.le_refl _, fun _ => ⟨rfl, rfl⟩⟩
  | drop i hc => exact ⟨Nat.le_refl _, fun _ => ⟨rfl, rfl⟩⟩
  | hand i k x xs hc ho ht => simp [PSearch.work, ht]
  | finish ho ht => simp [PSearch.work, ho]
  | giveUp ho ht => simp [PSearch.work, ho]
  | remove ho => simp [PSearch.work, ho]
  | close ho => simp [PSearch.work, ho]
  | eof i k hc ho => exact ⟨Nat.le_refl _, fun _ => ⟨rfl, rfl⟩⟩

/-- C42: answers do not change any more. -/
theorem C42_final {s s' : PSearch α κ ρ} (h : PStep eat fin s s') (i : Nat) (c : Con κ ρ) (hc : s.cons[i]? = some c)
    (hs : (∀ k, c ≠ .waiting k) ∧ c ≠ .abandoning) : s'.cons[i]? = some c := by
  have hlt : i < s.cons.length := by
    rcases Nat.lt_or_ge i s.cons.length with h | h
    · exact h
    · rw [List.getElem?_eq_none h] at hc; cases hc
  have hset : ∀ j d e, s.cons[j]? = some d → ((∃ k, d = .waiting k) ∨ d = .abandoning) → (s.cons.set j e)[i]? = some c := by
    intro j d e hd hpd
    have hij : j ≠ i := by
      rintro rfl
      rw [hc] at hd
      cases hd
      rcases hpd with ⟨k, h⟩ | h
      · exact hs.1 k h
      · exact hs.2 h
    rw [List.getElem?_set_ne hij, hc]
  cases h with
  | ask k hr => exact (List.getElem?_append_left hlt).trans hc
  | askLate k hr => exact (List.getElem?_append_left hlt).trans hc
  | abandon hr => exact (List.getElem?_append_left hlt).trans hc
  | abandonLate hr => exact (List.getElem?_append_left hlt).trans hc
  | drop j hd => exact hset j _ _ hd (Or.inr rfl)
  | hand j k x xs hd ho ht => exact hset j _ _ hd (Or.inl ⟨k, rfl⟩)
  | finish ho ht => exact hc
  | giveUp ho ht => exact hc
  | remove ho => exact hc
  | close ho => exact hc
  | eof j k hd ho => exact hset j _ _ hd (Or.inl ⟨k, rfl⟩)

/-- C42 fails, under every schedule: a request to abandon the search that has removed the cookie waits for ever: no continuation of the
execution, however long, answers it. -/
theorem C42_abandon_forever_fails {s s' : PSearch α κ ρ} (i : Nat) (hc : s.cons[i]? = some .stuck) (h : PSteps eat fin s s') : s'.cons[i]? = some .stuck := by
  induction h with
  | refl => exact hc
  | step s' s'' _ hs ih => exact C42_final hs i _ (ih) (by simp)

theorem waits_step {s s' : PSearch α κ ρ} (h : PStep eat fin s s') (i : Nat) (hw : Waits s i) : Waits s' i ∨ ∃ r b, s'.cons[i]? = some (.answered r b) := by
  obtain ⟨k, hc⟩ := hw
  have hlt : i < s.cons.length := by
    rcases Nat.lt_or_ge i s.cons.length with h | h
    · exact h
    · rw [List.getElem?_eq_none h] at hc; cases hc
  have happ : ∀ c, (s.cons ++ [c])[i]? = some (.waiting k) := fun c => (List.getElem?_append_left hlt).trans hc
  cases h with
  | ask k' hr => exact Or.inl ⟨k, happ _⟩
  | askLate k' hr => exact Or.inl ⟨k, happ _⟩
  | abandon hr => exact Or.inl ⟨k, happ _⟩
  | abandonLate hr => exact Or.inl ⟨k, happ _⟩
  | drop j hd =>
    have : j ≠ i := by rintro rfl; rw [hc] at hd; cases hd
    exact Or.inl ⟨k, (List.getElem?_set_ne this).trans hc⟩
  | hand j k' x xs hd ho ht =>
    by_cases hij : j = i
    · subst hij
      dsimp only
      rw [List.getElem?_set_self hlt]
      unfold Waits Con.receive
      dsimp only
      rw [List.getElem?_set_self hlt]
      cases eat k' x with
      | inl k'' => exact Or.inl ⟨k'', rfl⟩
      | inr r => exact Or.inr ⟨r, false, rfl⟩
    · exact Or.inl ⟨k, (List.getElem?_set_ne hij).trans hc⟩
  | finish ho ht => exact Or.inl ⟨k, hc⟩
  | giveUp ho ht => exact Or.inl ⟨k, hc⟩
  | remove ho => exact Or.inl ⟨k, hc⟩
  | close ho => exact Or.inl ⟨k, hc⟩
  | eof j k' hd ho =>
    by_cases hij : j = i
    · subst hij
      exact Or.inr ⟨_, true, List.getElem?_set_self hlt⟩
    · exact Or.inl ⟨k, (List.getElem?_set_ne hij).trans hc⟩

theorem fair_until {run : Nat → PSearch α κ ρ} (hf : Fair eat fin run) (i : Nat) (t : Nat) (hw : Waits (run t) i) :
    ∀ d, Waits (run (t + d)) i ∨ ∃ t', t ≤ t' ∧ ∃ r b, (run t').cons[i]? = some (.answered r b)
  | 0 => Or.inl hw
  | d + 1 => by
    rcases fair_until hf i t hw d with h | h
    · rcases hf.step (t + d) with e | hs
      · exact Or.inl (by rw [← Nat.add_assoc, e]; exact h)
      · rcases waits_step hs i h with h | h
        · exact Or.inl h
        · exact Or.inr ⟨t + d + 1, by omega, h⟩
    · exact Or.inr h

theorem fair_work {run : Nat → PSearch α κ ρ} (hf : Fair eat fin run) (t : Nat) : ∀ d, (run (t + d)).work ≤ (run t).work
  | 0 => Nat.le_refl _
  | d + 1 => by
    refine Nat.le_trans ?_ (fair_work hf t d)
    rcases hf.step (t + d) with e | hs
    · rw [← Nat.add_assoc, e]; exact Nat.le_refl _
    · exact (C42_bounded hs).1

/-- C42: whatever the schedule and however many requests present the cookie, a request that found it is answered by a page. -/
theorem C42_answered {run : Nat → PSearch α κ ρ} (hf : Fair eat fin run) (i : Nat) : ∀ (m t : Nat), (run t).work ≤ m → Waits (run t) i →
    ∃ t', t ≤ t' ∧ ∃ r b, (run t').cons[i]? = some (.answered r b) := by
  have ended : ∀ t, Waits (run t) i → (run t).phase = .ended → ∃ t', t ≤ t' ∧ ∃ r b, (run t').cons[i]? = some (.answered r b) := by
    intro t hw he
    obtain ⟨t', h1, h2⟩ := hf.closed t i hw he
    obtain ⟨d, rfl⟩ := Nat.exists_eq_add_of_le h1
    exact (fair_until hf i t hw d).resolve_left h2
  intro m
  induction m with
  | zero =>
    intro t hm hw
    refine ended t hw ?_
    unfold PSearch.work at hm
    cases hp : (run t).phase <;> simp [hp] at hm ⊢
  | succ m ih =>
    intro t hm hw
    by_cases he : (run t).phase = .ended
    · exact ended t hw he
    · obtain ⟨t', h1, h2⟩ := hf.producer t i hw he
      obtain ⟨d, rfl⟩ := Nat.exists_eq_add_of_le h1
      have hlt : (run (t + d + 1)).work < (run (t + d)).work := by
        rcases hf.step (t + d) with e | hs
        · rw [e] at h2
          rcases h2 with h | h
          · exact absurd h (Nat.lt_irrefl _)
          · exact absurd rfl h
        · obtain ⟨g1, g2⟩ := C42_bounded hs
          refine Nat.lt_of_le_of_ne g1 fun e => ?_
          obtain ⟨e1, e2⟩ := g2 e
          rcases h2 with h | h
          · rw [e2] at h; exact absurd h (Nat.lt_irrefl _)
          · exact h e1.symm
      have hle := fair_work hf t d
      rcases fair_until hf i t hw (d + 1) with h | ⟨t', h1, h⟩
      · obtain ⟨t', h3, h4⟩ := ih (t + d + 1) (by omega) h
        exact ⟨t', by omega, h4⟩
      · exact ⟨t', h1, h⟩

/-- C41: what a handler has made of its entries: it is waiting, or has returned a page, exactly as these entries in this order make it; the
end of the channel completes the page; refused and abandoning requests get nothing. -/
theorem C41_page_contents {l : List α} {s : PSearch α κ ρ} (h : PReach eat fin l s) : s.asks.length = s.cons.length ∧ (∀ p ∈ s.out, p.1 < s.cons.length) ∧
    ∀ i c, s.cons[i]? = some c → (∃ k, s.asks[i]? = some (some k) ∧ (c = eatAll eat k (s.got i) ∨
        ∃ k', eatAll eat k (s.got i) = Con.waiting (ρ := ρ) k' ∧ c = .answered (fin k') true)) ∨
      ((c = .refused ∨ c = .abandoning ∨ c = .stuck) ∧ s.got i = []) := by
  have snoc : ∀ (k : κ) (l : List α) (k' : κ) (x : α), eatAll (ρ := ρ) eat k l = .waiting k' → eatAll eat k (l ++ [x]) = Con.receive eat k' x := by
    intro k l
    induction l generalizing k with
    | nil =>
      intro k' x h
      cases h
      rw [List.nil_append, eatAll, Con.receive]
      cases eat k x <;> rfl
    | cons y ys ih =>
      intro k' x h
      rw [eatAll] at h
      rw [List.cons_append, eatAll]
      cases he : eat k y with
      | inl k'' => rw [he] at h; exact ih k'' k' x h
      | inr r => rw [he] at h; cases h
  induction h with
  | start k =>
    refine ⟨rfl, by simp [PSearch.start], fun i c hc => ?_⟩
    cases i with
    | zero => simp [PSearch.start] at hc; exact Or.inl ⟨k, rfl, Or.inl (by rw [← hc]; rfl)⟩
    | succ i => simp [PSearch.start] at hc
  | step s s' _ hs ih =>
    obtain ⟨ih1, ih2, ih3⟩ := ih
    have gotEmpty : s.got s.cons.length = [] := by
      unfold PSearch.got
      rw [List.filter_eq_nil_iff.2, List.map_nil]
      intro p hp
      have := ih2 p hp
      simp; omega
    have app : ∀ (d : Con κ ρ) (q : Option κ), ((∃ k, q = some k ∧ d = .waiting k) ∨ d = .refused ∨ d = .abandoning) →
        (s.asks ++ [q]).length = (s.cons ++ [d]).length ∧ (∀ p ∈ s.out, p.1 < (s.cons ++ [d]).length) ∧
        ∀ i c, (s.cons ++ [d])[i]? = some c → (∃ k, (s.asks ++ [q])[i]? = some (some k) ∧ (c = eatAll eat k (s.got i) ∨
          ∃ k', eatAll eat k (s.got i) = Con.waiting (ρ := ρ) k' ∧ c = .answered (fin k') true)) ∨
        ((c = .refused ∨ c = .abandoning ∨ c = .stuck) ∧ s.got i = []) := by
      intro d q hd
      refine ⟨by simp [ih1], fun p hp => by have := ih2 p hp; simp; omega, fun i c hc => ?_⟩
      by_cases hi : i < s.cons.length
      · rw [List.getElem?_append_left hi] at hc
        rcases ih3 i c hc with ⟨k, h1, h2⟩ | h
        · exact Or.inl ⟨k, by rw [List.getElem?_append_left (by omega)]; exact h1, h2⟩
        · exact Or.inr h
      · have hlen : i < (s.cons ++ [d]).length := by
          rcases Nat.lt_or_ge i (s.cons ++ [d]).length with h | h
          · exact h
          · rw [List.getElem?_eq_none h] at hc; cases hc
        have : i = s.cons.length := by simp at hlen; omega
        subst this
        simp at hc
        subst hc
        rcases hd with ⟨k, rfl, rfl⟩ | hd
        · exact Or.inl ⟨k, by simp [← ih1], Or.inl (by rw [gotEmpty]; rfl)⟩
        · exact Or.inr ⟨by rcases hd with h | h <;> simp [h], gotEmpty⟩
    cases hs with
    | ask k hr => exact app _ _ (Or.inl ⟨k, rfl, rfl⟩)
    | askLate k hr => exact app _ _ (Or.inr (Or.inl rfl))
    | abandon hr => exact app _ _ (Or.inr (Or.inr rfl))
    | abandonLate hr => exact app _ _ (Or.inr (Or.inl rfl))
    | drop j hd =>
      refine ⟨by simp [ih1], fun p hp => by simpa using ih2 p hp, fun i c hc => ?_⟩
      by_cases hij : j = i
      · subst hij
        rcases ih3 j _ hd with ⟨k, -, h | ⟨k', -, h⟩⟩ | ⟨-, h⟩
        · exfalso
          have : ∀ (l : List α) (k : κ), eatAll (ρ := ρ) eat k l ≠ .abandoning := by
            intro l
            induction l with
            | nil => intro k h; cases h
            | cons y ys ih => intro k h; rw [eatAll] at h; cases he : eat k y <;> rw [he] at h; exact ih _ h; cases h
          exact this _ _ h.symm
        · cases h
        · refine Or.inr ⟨?_, h⟩
          have hlt : j < s.cons.length := by
            rcases Nat.lt_or_ge j s.cons.length with h | h
            · exact h
            · rw [List.getElem?_eq_none h] at hd; cases hd
          dsimp only at hc
          rw [List.getElem?_set_self hlt] at hc
          cases hc
          simp
      · exact ih3 i c ((List.getElem?_set_ne hij).symm.trans hc)
    | hand j k x xs hd ho ht =>
      have hlt : j < s.cons.length := by
        rcases Nat.lt_or_ge j s.cons.length with h | h
        · exact h
        · rw [List.getElem?_eq_none h] at hd; cases hd
      refine ⟨by simp [ih1], fun p hp => ?_, fun i c hc => ?_⟩
      · rcases List.mem_append.1 hp with h | h
        · simpa using ih2 p h
        · simp at h; simp [h, hlt]
      · by_cases hij : j = i
        · subst hij
          have hgot : PSearch.got { s with todo := xs, cons := s.cons.set j (Con.receive eat k x), out := s.out ++ [(j, x)] } j = s.got j ++ [x] := by
            simp [PSearch.got]
          rw [hgot]
          dsimp only at hc ⊢
          rw [List.getElem?_set_self hlt] at hc
          cases hc
          rcases ih3 j _ hd with ⟨k0, h1, h | ⟨k', -, h⟩⟩ | ⟨h, -⟩
          · exact Or.inl ⟨k0, h1, Or.inl (snoc _ _ _ _ h.symm).symm⟩
          · cases h
          · simp at h
        · have hgot : PSearch.got { s with todo := xs, cons := s.cons.set j (Con.receive eat k x), out := s.out ++ [(j, x)] } i = s.got i := by
            simp [PSearch.got, hij]
          rw [hgot]
          exact ih3 i c ((List.getElem?_set_ne hij).symm.trans hc)
    | finish ho ht => exact ⟨ih1, ih2, ih3⟩
    | giveUp ho ht => exact ⟨ih1, ih2, ih3⟩
    | remove ho => exact ⟨ih1, ih2, ih3⟩
    | close ho => exact ⟨ih1, ih2, ih3⟩
    | eof j k hd ho =>
      have hlt : j < s.cons.length := by
        rcases Nat.lt_or_ge j s.cons.length with h | h
        · exact h
        · rw [List.getElem?_eq_none h] at hd; cases hd
      refine ⟨by simp [ih1], fun p hp => by simpa using ih2 p hp, fun i c hc => ?_⟩
      by_cases hij : j = i
      · subst hij
        dsimp only at hc
        rw [List.getElem?_set_self hlt] at hc
        cases hc
        rcases ih3 j _ hd with ⟨k0, h1, h | ⟨k', -, h⟩⟩ | ⟨h, -⟩
        · exact Or.inl ⟨k0, h1, Or.inr ⟨k, h.symm, rfl⟩⟩
        · cases h
        · simp at h
      · exact ih3 i c ((List.getElem?_set_ne hij).symm.trans hc)

end

/-! ## The handlers of the LDIF server -/

/-- The page of the machine is the page of the sequential model: `searchPage` is what a request handler makes of the entries it receives. -/
theorem ldif_runPage (V : Env) (fp : Packet) (r : SearchReq) (paging : Option Nat) (l : List LEntry) (acc : List Entry) :
    (∀ p, searchPage V fp r paging acc.length l = .ok p →
      runPage (ldifEat V) ldifFin ⟨fp, r, paging, acc⟩ l = (.ok (if p.code = rcSuccess then acc ++ p.entries else [], p.code), p.rest, p.eof)) ∧
    (∀ x, searchPage V fp r paging acc.length l = x → (∀ p, x ≠ .ok p) → ∀ y, (runPage (ldifEat V) ldifFin ⟨fp, r, paging, acc⟩ l).1 ≠ .ok y) := by
  induction l generalizing acc with
  | nil =>
    refine ⟨fun p h => ?_, fun x h hx => ?_⟩
    · rw [searchPage] at h
      cases h
      simp [runPage, ldifFin]
    · rw [searchPage] at h
      exact absurd h.symm (hx _)
  | cons x xs ih =>
    rw [searchPage, runPage, ldifEat]
    dsimp only
    generalize applyFilter V.C x.visible fp = af
    match af with
    | .err e => exact ⟨(fun p h => by cases h), (fun _ _ _ y h => by cases h)⟩
    | .panic => exact ⟨(fun p h => by cases h), (fun _ _ _ y h => by cases h)⟩
    | .hang => exact ⟨(fun p h => by cases h), (fun _ _ _ y h => by cases h)⟩
    | .ok (keep, code) =>
      dsimp only
      by_cases hc : code ≠ rcSuccess
      · rw [if_pos hc, if_pos hc]
        refine ⟨fun p h => ?_, fun y h hy => absurd h.symm (hy _)⟩
        cases h
        simp [hc]
      rw [if_neg hc, if_neg hc]
      cases keep with
      | false => simpa using ih acc
      | true =>
        simp only [Bool.not_true, Bool.false_eq_true, if_false]
        generalize filterScope V.C r.baseDN (scopeNat r.scope) x.visible = fs
        obtain ⟨keep2, code2⟩ := fs
        dsimp only
        by_cases hc2 : code2 ≠ rcSuccess
        · rw [if_pos hc2, if_pos hc2]
          refine ⟨fun p h => ?_, fun y h hy => absurd h.symm (hy _)⟩
          cases h
          simp [hc2]
        rw [if_neg hc2, if_neg hc2]
        cases keep2 with
        | false => simpa using ih acc
        | true =>
          simp only [Bool.not_true, Bool.false_eq_true, if_false]
          have hlen : (acc ++ [filterAttributes V.C r.attrs x.visible]).length = acc.length + 1 := by simp
          rw [hlen]
          by_cases hp : paging.any (fun n => acc.length + 1 ≥ n)
          · rw [if_pos hp, if_pos hp]
            refine ⟨fun p h => ?_, fun y h hy => absurd h.symm (hy _)⟩
            cases h
            simp
          rw [if_neg hp, if_neg hp]
          by_cases hl : r.sizeLimit > 0 ∧ acc.length + 1 ≥ toU32 r.sizeLimit
          · rw [if_pos hl, if_pos hl]
            refine ⟨fun p h => ?_, fun y h hy => absurd h.symm (hy _)⟩
            cases h
            simp
          rw [if_neg hl, if_neg hl]
          obtain ⟨ih1, ih2⟩ := ih (acc ++ [filterAttributes V.C r.attrs x.visible])
          rw [hlen] at ih1 ih2
          dsimp only
          generalize hsp : searchPage V fp r paging (acc.length + 1) xs = sp at ih1 ih2
          refine ⟨fun p h => ?_, fun y h hy z hz => ?_⟩
          · match sp, h with
            | .ok q, h =>
              cases h
              rw [ih1 q rfl]
              simp only [Page.cons, List.append_assoc, List.singleton_append]
              rfl
          · match sp, h with
            | .ok q, h => exact hy _ h.symm
            | .err e, h => exact ih2 _ rfl (fun p hp => by cases hp) z hz
            | .panic, h => exact ih2 _ rfl (fun p hp => by cases hp) z hz
            | .hang, h => exact ih2 _ rfl (fun p hp => by cases hp) z hz

/-- C41: under every schedule, the requests to the LDIF server with one cookie, made one after the other, are answered like the model of
Model/Ldif.lean answers them: page after page of `searchPage`, from the result or from a beginning of it if the producer gave up. Where
`searchPage` panics, the handler panics. -/
theorem C41_ldif_schedules (V : Env) {l : List LEntry} {s : PSearch LEntry LdifCon (Res (List Entry × Nat))} (h : SReach (ldifEat V) ldifFin l s) (hs : Settled s) :
    ∃ (n : Option Nat) (ts : List Bool), ts.length = s.asks.length ∧ (s.gaveUp = false → n = none) ∧
      s.cons = ((seqRun (ldifEat V) ldifFin (some (cutTo n l)) (s.asks.zip ts)).1).map PAns.con ∧
      ∀ (fp : Packet) (r : SearchReq) (paging : Option Nat) (l' : List LEntry) (p : Page), searchPage V fp r paging 0 l' = .ok p →
        runPage (ldifEat V) ldifFin ⟨fp, r, paging, []⟩ l' = (.ok (if p.code = rcSuccess then p.entries else [], p.code), p.rest, p.eof) := by
  obtain ⟨n, ts, h1, h2, h3⟩ := C41_schedules h hs
  exact ⟨n, ts, h1, h2, h3, fun fp r paging l' p hp => (ldif_runPage V fp r paging l' []).1 p hp⟩

/-! ## A concrete search -/

/-- Pages of `k.1` numbers. -/
def tEat (k : Nat × List Nat) (x : Nat) : Nat × List Nat ⊕ List Nat := if k.2.length + 1 ≥ k.1 then .inr (k.2 ++ [x]) else .inl (k.1, k.2 ++ [x])

/-- A search of three numbers. Two requests compete for its second page. -/
def tRun : Nat → PSearch Nat (Nat × List Nat) (List Nat)
  | 0 => PSearch.start [1, 2, 3] (1, [])
  | 1 => ⟨[2, 3], .offering, true, [.answered [1] false], [1, 2, 3], [(0, 1)], [some (1, [])], false⟩
  | 2 => ⟨[2, 3], .offering, true, [.answered [1] false, .waiting (5, [])], [1, 2, 3], [(0, 1)], [some (1, []), some (5, [])], false⟩
  | 3 => ⟨[2, 3], .offering, true, [.answered [1] false, .waiting (5, []), .waiting (1, [])], [1, 2, 3], [(0, 1)], [some (1, []), some (5, []), some (1, [])], false⟩
  | 4 => ⟨[3], .offering, true, [.answered [1] false, .waiting (5, []), .answered [2] false], [1, 2, 3], [(0, 1), (2, 2)], [some (1, []), some (5, []), some (1, [])], false⟩
  | 5 => ⟨[], .offering, true, [.answered [1] false, .waiting (5, [3]), .answered [2] false], [1, 2, 3], [(0, 1), (2, 2), (1, 3)], [some (1, []), some (5, []), some (1, [])], false⟩
  | 6 => ⟨[], .removing, true, [.answered [1] false, .waiting (5, [3]), .answered [2] false], [1, 2, 3], [(0, 1), (2, 2), (1, 3)], [some (1, []), some (5, []), some (1, [])], false⟩
  | 7 => ⟨[], .closing, false, [.answered [1] false, .waiting (5, [3]), .answered [2] false], [1, 2, 3], [(0, 1), (2, 2), (1, 3)], [some (1, []), some (5, []), some (1, [])], false⟩
  | 8 => ⟨[], .ended, false, [.answered [1] false, .waiting (5, [3]), .answered [2] false], [1, 2, 3], [(0, 1), (2, 2), (1, 3)], [some (1, []), some (5, []), some (1, [])], false⟩
  | _ => ⟨[], .ended, false, [.answered [1] false, .answered [3] true, .answered [2] false], [1, 2, 3], [(0, 1), (2, 2), (1, 3)], [some (1, []), some (5, []), some (1, [])], false⟩

theorem tRun_step : ∀ t, tRun (t + 1) = tRun t ∨ PStep tEat (·.2) (tRun t) (tRun (t + 1))
  | 0 => Or.inr (.hand (tRun 0) 0 (1, []) 1 [2, 3] rfl rfl rfl)
  | 1 => Or.inr (.ask (tRun 1) (5, []) rfl)
  | 2 => Or.inr (.ask (tRun 2) (1, []) rfl)
  | 3 => Or.inr (.hand (tRun 3) 2 (1, []) 2 [3] rfl rfl rfl)
  | 4 => Or.inr (.hand (tRun 4) 1 (5, []) 3 [] rfl rfl rfl)
  | 5 => Or.inr (.finish (tRun 5) rfl rfl)
  | 6 => Or.inr (.remove (tRun 6) rfl)
  | 7 => Or.inr (.close (tRun 7) rfl)
  | 8 => Or.inr (.eof (tRun 8) 1 (5, [3]) rfl rfl)
  | _ + 9 => Or.inl rfl

theorem tRun_reach : ∀ t, PReach tEat (·.2) [1, 2, 3] (tRun t)
  | 0 => .start _
  | t + 1 => by
    rcases tRun_step t with e | h
    · rw [e]; exact tRun_reach t
    · exact .step _ _ (tRun_reach t) h

theorem tRun_settled (t : Nat) (i : Nat) : ¬ Waits (tRun (t + 9)) i := by
  rintro ⟨k, h⟩
  match i, h with
  | 0, h => cases h
  | 1, h => cases h
  | 2, h => cases h
  | _ + 3, h => cases h

theorem tRun_fair : Fair tEat (·.2) tRun where
  step := tRun_step
  producer := fun t i hw he => by
    match t, hw, he with
    | 0, _, _ => exact ⟨0, by omega, Or.inl (by decide)⟩
    | 1, _, _ => exact ⟨3, by omega, Or.inl (by decide)⟩
    | 2, _, _ => exact ⟨3, by omega, Or.inl (by decide)⟩
    | 3, _, _ => exact ⟨3, by omega, Or.inl (by decide)⟩
    | 4, _, _ => exact ⟨4, by omega, Or.inl (by decide)⟩
    | 5, _, _ => exact ⟨5, by omega, Or.inr (by decide)⟩
    | 6, _, _ => exact ⟨6, by omega, Or.inr (by decide)⟩
    | 7, _, _ => exact ⟨7, by omega, Or.inr (by decide)⟩
    | 8, _, he => exact absurd rfl he
    | _ + 9, _, he => exact absurd rfl he
  closed := fun t i _ _ => ⟨t + 9, by omega, tRun_settled t i⟩

/-- Two requests that wait at the same time are both answered, each entry goes to one of them, and no entry is lost. -/
example : (∃ t', 3 ≤ t' ∧ ∃ r b, (tRun t').cons[1]? = some (.answered r b)) ∧ (tRun 9).out.map (·.2) ++ (tRun 9).todo = [1, 2, 3] ∧
    (tRun 9).cons = [.answered [1] false, .answered [3] true, .answered [2] false] :=
  ⟨C42_answered tRun_fair 1 _ 3 (Nat.le_refl _) ⟨(5, []), rfl⟩, (C41_handed_over (tRun_reach 9)).1, rfl⟩

/-- The entries of the second request in `tRun`. -/
example : (tRun 8).got 1 = [3] ∧ eatAll (ρ := List Nat) tEat (5, []) [3] = .waiting (5, [3]) ∧ (tRun 8).got 2 = [2] ∧
    eatAll (ρ := List Nat) tEat (1, []) [2] = .answered [2] false := by decide

/-- A client that waits for its answers. -/
def toySeqPaging : PSearch Nat (Nat × List Nat) (List Nat) :=
  ⟨[], .ended, false, [.answered [1, 2] false, .answered [3] true, .refused], [1, 2, 3], [(0, 1), (0, 2), (1, 3)], [some (2, []), some (2, []), some (2, [])], false⟩

theorem toySeqPaging_reach : SReach tEat (·.2) [1, 2, 3] toySeqPaging := by
  refine .step _ _ (.step _ _ (.step _ _ (.step _ _ (.step _ _ (.step _ _ (.step _ _ (.step _ _ (.step _ _ (.start (2, []))
    (.hand _ 0 _ 1 _ rfl rfl rfl) ?_) (.hand _ 0 _ 2 _ rfl rfl rfl) ?_) (.ask _ (2, []) rfl) ?_) (.hand _ 1 _ 3 _ rfl rfl rfl) ?_)
    (.finish _ rfl rfl) ?_) (.remove _ rfl) ?_) (.close _ rfl) ?_) (.eof _ 1 _ rfl rfl) ?_) (.askLate _ (2, []) rfl) ?_
  all_goals first | (intro h; exact absurd h (by decide)) | (intro _ c hc; simp [PSearch.start, Con.receive, tEat] at hc; rcases hc with rfl | rfl <;> simp) |
    (intro _ c hc; simp [PSearch.start, Con.receive, tEat] at hc; subst hc; simp)

example : ∃ (n : Option Nat) (ts : List Bool), ts.length = 3 ∧ (false = false → n = none) ∧
    toySeqPaging.cons = ((seqRun tEat (·.2) (some (match n with | none => [1, 2, 3] | some n => [1, 2, 3].take n)) (toySeqPaging.asks.zip ts)).1).map PAns.con :=
  C41_schedules toySeqPaging_reach (by intro c hc; simp [toySeqPaging] at hc; rcases hc with rfl | rfl | rfl <;> simp)

/-- The answers of the sequential search. -/
example : (seqRun tEat (·.2) (some [1, 2, 3]) [(some (2, []), true), (some (2, []), true), (some (2, []), true)]).1 =
    [.page [1, 2] false, .page [3] true, .refused] := by decide

/-- A request to abandon a search, after the first page: it gets stuck. -/
example : PReach tEat (·.2) [1, 2, 3] ⟨[2, 3], .offering, false, [.answered [1] false, .stuck], [1, 2, 3], [(0, 1)], [some (1, []), none], false⟩ :=
  .step _ _ (.step _ _ (tRun_reach 1) (.abandon (tRun 1) rfl)) (.drop _ 1 rfl)

end Idm
