import Verif.Spec.Serial
import Verif.Proofs.Ids
/-! The transaction machine is serialisable. -/
namespace Idm
variable {τ ι ρ : Type}

theorem Explains.append {db db' : Db} {log : List (Done ι ρ)} (h : Explains db log db') (e : Done ι ρ)
    (hr : e.res = (e.call.exec db').1) : Explains db (log ++ [e]) (e.call.exec db').2 := by
  induction log generalizing db with
  | nil => cases h; exact ⟨hr, rfl⟩
  | cons x log ih => exact ⟨h.1, ih h.2⟩

theorem Before.mono {log : List (Done ι ρ)} {a b : ι} (h : Before log a b) (e : Done ι ρ) : Before (log ++ [e]) a b := by
  obtain ⟨l₁, ea, l₂, eb, l₃, rfl, ha, hb⟩ := h
  exact ⟨l₁, ea, l₂, eb, l₃ ++ [e], by simp, ha, hb⟩

theorem Before.last {log : List (Done ι ρ)} {a : ι} (e : Done ι ρ) (h : ∃ x ∈ log, x.id = a) : Before (log ++ [e]) a e.id := by
  obtain ⟨x, hx, rfl⟩ := h
  obtain ⟨l₁, l₂, rfl⟩ := List.append_of_mem hx
  exact ⟨l₁, x, l₂, e, [], by simp, rfl, rfl⟩

theorem Instr.run {p q : Prog ρ × Db} (h : Instr p q) : q.1.run q.2 = p.1.run p.2 := by
  cases h with
  | get => rfl
  | put b k v c db h => simp only [Prog.run, if_neg h]
  | putErr b k v c db h => simp only [Prog.run, if_pos h]
  | del => rfl
  | seq => rfl

theorem view_congr {p q : Prog ρ} {d d' : Db} (h : p.run d = q.run d') : view p d = view q d' := by simp only [view, h]

theorem update_congr {p q : Prog ρ} {d d' : Db} (h : p.run d = q.run d') : (update p d).1 = (update q d').1 := by
  simp only [update, h]; split <;> rfl

/-- The request a thread works on. -/
def Thread.id? : Thread ι ρ → Option ι
  | .idle => none
  | .invoked id _ => some id
  | .reading id _ _ => some id
  | .writing id _ _ => some id
  | .returned id _ => some id

/-- What the threads' local states mean. -/
def ThreadOk (s : Proc τ ι ρ) (log : List (Done ι ρ)) (t : τ) : Thread ι ρ → Prop
  | .idle => True
  | .invoked id c => Event.invoke id c ∈ s.trace ∧ ∀ e ∈ log, e.id ≠ id
  | .reading id p d => ∃ e ∈ log, e.id = id ∧ e.res = view p d
  | .writing id p d => s.lock = some t ∧ (∀ e ∈ log, e.id ≠ id) ∧
      ∃ p₀, Event.invoke id (.write p₀) ∈ s.trace ∧ p.run d = p₀.run s.disk
  | .returned id r => ∃ e ∈ log, e.id = id ∧ e.res = r

structure Inv (db : Db) (s : Proc τ ι ρ) (log : List (Done ι ρ)) : Prop where
  ser : Serialises db s log
  thr : ∀ t, ThreadOk s log t (s.threads t)
  active : ∀ t id, (s.threads t).id? = some id → ∃ c, Event.invoke id c ∈ s.trace
  uniq : ∀ t u id, (s.threads t).id? = some id → (s.threads u).id? = some id → t = u

section
variable [DecidableEq τ]

theorem setThread_self (f : τ → Thread ι ρ) (t : τ) (x : Thread ι ρ) : setThread f t x t = x := by simp [setThread]

theorem setThread_ne (f : τ → Thread ι ρ) {t u : τ} (h : u ≠ t) (x : Thread ι ρ) : setThread f t x u = f u := by simp [setThread, h]

/-- A step that leaves trace and log alone and keeps the request of the stepping thread. -/
theorem Inv.local {db : Db} {s : Proc τ ι ρ} {log : List (Done ι ρ)} (I : Inv db s log) {t : τ} {x : Thread ι ρ} {lock : Option τ}
    (hid : x.id? = (s.threads t).id?)
    (hx : ThreadOk { s with lock := lock, threads := setThread s.threads t x } log t x)
    (hl : ∀ u, u ≠ t → ∀ id p d, s.threads u = .writing id p d → lock = some u) :
    Inv db { s with lock := lock, threads := setThread s.threads t x } log where
  ser := ⟨I.ser.1, I.ser.2, I.ser.3, I.ser.4, I.ser.5⟩
  thr u := by
    by_cases h : u = t
    · subst h; simp only [setThread_self]; exact hx
    · simp only [setThread_ne _ h]
      have := I.thr u
      cases e : s.threads u with
      | idle => trivial
      | invoked id c => rw [e] at this; exact this
      | reading id p d => rw [e] at this; exact this
      | writing id p d => rw [e] at this; exact ⟨hl u h id p d e, this.2⟩
      | returned id r => rw [e] at this; exact this
  active u id h := by
    by_cases hu : u = t
    · subst hu; simp only [setThread_self, hid] at h; exact I.active u id h
    · simp only [setThread_ne _ hu] at h; exact I.active u id h
  uniq u v id hu hv := by
    have key : ∀ w, (setThread s.threads t x w).id? = (s.threads w).id? := by
      intro w
      by_cases hw : w = t
      · subst hw; rw [setThread_self, hid]
      · rw [setThread_ne _ hw]
    simp only [key] at hu hv
    exact I.uniq u v id hu hv

/-- A step at which the call of the stepping thread takes effect. -/
theorem Inv.effect {db : Db} {s : Proc τ ι ρ} {log : List (Done ι ρ)} (I : Inv db s log) {t : τ} {x : Thread ι ρ} {lock : Option τ}
    {disk : Db} {id : ι} {c : Call ρ} (hid : (s.threads t).id? = some id) (hid' : x.id? = some id)
    (hinv : Event.invoke id c ∈ s.trace) (hnew : ∀ e ∈ log, e.id ≠ id)
    (hdisk : disk = (c.exec s.disk).2)
    (hx : ThreadOk { s with disk := disk, lock := lock, threads := setThread s.threads t x }
      (log ++ [⟨id, c, (c.exec s.disk).1⟩]) t x)
    (hl : ∀ u, u ≠ t → ∀ id p d, s.threads u = .writing id p d → lock = some u ∧ disk = s.disk) :
    Inv db { s with disk := disk, lock := lock, threads := setThread s.threads t x } (log ++ [⟨id, c, (c.exec s.disk).1⟩]) where
  ser := by
    refine ⟨?_, ?_, ?_, ?_, ?_⟩
    · show Explains db _ disk
      rw [hdisk]; exact I.ser.1.append ⟨id, c, _⟩ rfl
    · rw [List.map_append, List.nodup_append]
      refine ⟨I.ser.2, by simp, ?_⟩
      intro a ha b hb
      obtain ⟨e, he, rfl⟩ := List.mem_map.1 ha
      simp at hb
      rw [hb]
      exact hnew e he
    · intro e he
      rcases List.mem_append.1 he with he | he
      · exact I.ser.3 e he
      · simp at he; subst he; exact hinv
    · intro i r h
      obtain ⟨e, he, h'⟩ := I.ser.4 i r h
      exact ⟨e, List.mem_append.2 (.inl he), h'⟩
    · intro t₁ b c' t₂ ht a r ha hb
      obtain ⟨e, he, eb⟩ := hb
      rcases List.mem_append.1 he with he | he
      · exact (I.ser.5 t₁ b c' t₂ ht a r ha ⟨e, he, eb⟩).mono _
      · simp at he
        subst he
        simp only at eb
        subst eb
        have : Event.respond a r ∈ s.trace := by
          have ht' : s.trace = _ := ht
          rw [ht']; exact List.mem_append.2 (.inl ha)
        obtain ⟨y, hy, ey, -⟩ := I.ser.4 a r this
        exact Before.last ⟨id, c, _⟩ ⟨y, hy, ey⟩
  thr u := by
    by_cases h : u = t
    · subst h; simp only [setThread_self]; exact hx
    · simp only [setThread_ne _ h]
      have := I.thr u
      have hne : ∀ id', (s.threads u).id? = some id' → id ≠ id' := fun id' h' e => h (I.uniq u t id' h' (by rw [hid, e]))
      have hold : ∀ id', id ≠ id' → (∀ e ∈ log, e.id ≠ id') → ∀ e ∈ log ++ [(⟨id, c, (c.exec s.disk).1⟩ : Done ι ρ)], e.id ≠ id' := by
        intro id' hn ha e he
        rcases List.mem_append.1 he with he | he
        · exact ha e he
        · simp at he; subst he; exact hn
      cases e : s.threads u with
      | idle => trivial
      | invoked id' c' =>
        rw [e] at this
        exact ⟨this.1, hold id' (hne id' (by rw [e]; rfl)) this.2⟩
      | reading id' p d =>
        rw [e] at this
        obtain ⟨y, hy, h'⟩ := this
        exact ⟨y, List.mem_append.2 (.inl hy), h'⟩
      | writing id' p d =>
        rw [e] at this
        obtain ⟨h1, h2, p₀, h3, h4⟩ := this
        obtain ⟨l1, l2⟩ := hl u h id' p d e
        exact ⟨l1, hold id' (hne id' (by rw [e]; rfl)) h2, p₀, h3, by rw [h4, l2]⟩
      | returned id' r =>
        rw [e] at this
        obtain ⟨y, hy, h'⟩ := this
        exact ⟨y, List.mem_append.2 (.inl hy), h'⟩
  active u id' h := by
    by_cases hu : u = t
    · subst hu; simp only [setThread_self, hid'] at h; exact I.active u id' (by rw [hid]; exact h)
    · simp only [setThread_ne _ hu] at h; exact I.active u id' h
  uniq u v id' hu hv := by
    have key : ∀ w, (setThread s.threads t x w).id? = (s.threads w).id? := by
      intro w
      by_cases hw : w = t
      · subst hw; rw [setThread_self, hid', hid]
      · rw [setThread_ne _ hw]
    simp only [key] at hu hv
    exact I.uniq u v id' hu hv

theorem inv_step {db : Db} {s s' : Proc τ ι ρ} {log : List (Done ι ρ)} (I : Inv db s log) (hs : Step s s') :
    ∃ log', Inv db s' log' := by
  -- the writer lock is held by at most one thread
  have lockOf : ∀ u id p d, s.threads u = .writing id p d → s.lock = some u := by
    intro u id p d e
    have := I.thr u
    rw [e] at this
    exact this.1
  cases hs with
  | invoke t id c h hnew =>
    refine ⟨log, ?_, ?_, ?_, ?_⟩
    · refine ⟨I.ser.1, I.ser.2, fun e he => List.mem_append.2 (.inl (I.ser.3 e he)), ?_, ?_⟩
      · intro i r hr
        rcases List.mem_append.1 hr with hr | hr
        · exact I.ser.4 i r hr
        · simp at hr
      · intro t₁ b c' t₂ ht a r ha hb
        have ht : s.trace ++ [Event.invoke id c] = t₁ ++ Event.invoke b c' :: t₂ := ht
        rcases List.eq_nil_or_concat t₂ with rfl | ⟨t₃, z, rfl⟩
        · have := List.append_inj' (t₁ := [Event.invoke id c]) ht rfl
          obtain ⟨e, he, eb⟩ := hb
          have h1 := I.ser.3 e he
          obtain ⟨-, h2⟩ := this
          simp at h2
          rw [eb, ← h2.1] at h1
          exact absurd h1 (hnew _)
        · have : s.trace ++ [Event.invoke id c] = (t₁ ++ Event.invoke b c' :: t₃) ++ [z] := by rw [ht]; simp
          have := List.append_inj' this rfl
          exact I.ser.5 t₁ b c' t₃ this.1 a r ha hb
    · intro u
      by_cases hu : u = t
      · subst hu
        simp only [setThread_self]
        refine ⟨by simp, fun e he eid => ?_⟩
        exact hnew e.call (by rw [← eid]; exact I.ser.3 e he)
      · simp only [setThread_ne _ hu]
        have := I.thr u
        cases e : s.threads u with
        | idle => trivial
        | invoked id' c' => rw [e] at this; exact ⟨List.mem_append.2 (.inl this.1), this.2⟩
        | reading id' p d => rw [e] at this; exact this
        | writing id' p d =>
          rw [e] at this
          obtain ⟨h1, h2, p₀, h3, h4⟩ := this
          exact ⟨h1, h2, p₀, List.mem_append.2 (.inl h3), h4⟩
        | returned id' r => rw [e] at this; exact this
    · intro u id' h'
      by_cases hu : u = t
      · subst hu
        simp only [setThread_self, Thread.id?, Option.some.injEq] at h'
        subst h'
        exact ⟨c, by simp⟩
      · simp only [setThread_ne _ hu] at h'
        obtain ⟨c', hc'⟩ := I.active u id' h'
        exact ⟨c', List.mem_append.2 (.inl hc')⟩
    · intro u v id' hu hv
      by_cases h1 : u = t
      · by_cases h2 : v = t
        · rw [h1, h2]
        · subst h1
          simp only [setThread_self, Thread.id?, Option.some.injEq] at hu
          simp only [setThread_ne _ h2] at hv
          obtain ⟨c', hc'⟩ := I.active v id' hv
          rw [← hu] at hc'
          exact absurd hc' (hnew c')
      · by_cases h2 : v = t
        · subst h2
          simp only [setThread_self, Thread.id?, Option.some.injEq] at hv
          simp only [setThread_ne _ h1] at hu
          obtain ⟨c', hc'⟩ := I.active u id' hu
          rw [← hv] at hc'
          exact absurd hc' (hnew c')
        · simp only [setThread_ne _ h1] at hu
          simp only [setThread_ne _ h2] at hv
          exact I.uniq u v id' hu hv
  | direct t id r h =>
    have ht := I.thr t
    rw [h] at ht
    refine ⟨_, I.effect (x := .returned id r) (lock := s.lock) (disk := s.disk) (id := id) (c := .direct r) (by rw [h]; rfl) rfl ht.1
      ht.2 rfl ⟨⟨id, .direct r, r⟩, by simp [Call.exec], rfl, rfl⟩ ?_⟩
    intro u _ id' p d e
    exact ⟨lockOf u id' p d e, rfl⟩
  | beginRead t id p h =>
    have ht := I.thr t
    rw [h] at ht
    refine ⟨_, I.effect (x := .reading id p s.disk) (lock := s.lock) (disk := s.disk) (id := id) (c := .read p) (by rw [h]; rfl) rfl ht.1
      ht.2 rfl ⟨⟨id, .read p, view p s.disk⟩, by simp [Call.exec], rfl, rfl⟩ ?_⟩
    intro u _ id' p d e
    exact ⟨lockOf u id' p d e, rfl⟩
  | beginWrite t id p h hl =>
    have ht := I.thr t
    rw [h] at ht
    refine ⟨log, I.local (x := .writing id p s.disk) (lock := some t) (by rw [h]; rfl) ⟨rfl, ht.2, p, ht.1, rfl⟩ ?_⟩
    intro u hu id' p d e
    rw [lockOf u id' p d e] at hl
    simp at hl
  | stepRead t id p d q h hi =>
    have ht := I.thr t
    rw [h] at ht
    obtain ⟨e, he, h1, h2⟩ := ht
    refine ⟨log, I.local (x := .reading id q.1 q.2) (lock := s.lock) (by rw [h]; rfl) ⟨e, he, h1, ?_⟩ ?_⟩
    · rw [h2]; exact (view_congr hi.run).symm
    · intro u _ id' p d e; exact lockOf u id' p d e
  | stepWrite t id p d q h hi =>
    have ht := I.thr t
    rw [h] at ht
    obtain ⟨h1, h2, p₀, h3, h4⟩ := ht
    refine ⟨log, I.local (x := .writing id q.1 q.2) (lock := s.lock) (by rw [h]; rfl) ⟨h1, h2, p₀, h3, ?_⟩ ?_⟩
    · rw [hi.run]; exact h4
    · intro u _ id' p d e; exact lockOf u id' p d e
  | endRead t id p d r h ho =>
    have ht := I.thr t
    rw [h] at ht
    obtain ⟨e, he, h1, h2⟩ := ht
    refine ⟨log, I.local (x := .returned id r) (lock := s.lock) (by rw [h]; rfl) ⟨e, he, h1, ?_⟩ ?_⟩
    · rw [h2]
      cases p <;> simp_all [Prog.outcome, view, Prog.run]
    · intro u _ id' p d e; exact lockOf u id' p d e
  | commit t id a d h =>
    have ht := I.thr t
    rw [h] at ht
    obtain ⟨h1, h2, p₀, h3, h4⟩ := ht
    have hu : update p₀ s.disk = (.ok a, d) := by simp only [update, ← h4, Prog.run]
    refine ⟨_, I.effect (x := .returned id (.ok a)) (lock := none) (disk := d) (id := id) (c := .write p₀) (by rw [h]; rfl) rfl h3 h2
      (by simp [Call.exec, hu]) ⟨⟨id, .write p₀, ((Call.write p₀).exec s.disk).1⟩, by simp, rfl, by simp [Call.exec, hu]⟩ ?_⟩
    intro u hu id' p d e
    have := lockOf u id' p d e
    rw [h1] at this
    simp at this
    exact absurd this.symm hu
  | rollback t id p d r h ho hr =>
    have ht := I.thr t
    rw [h] at ht
    obtain ⟨h1, h2, p₀, h3, h4⟩ := ht
    have hu : update p₀ s.disk = (r, s.disk) := by
      simp only [update, ← h4]
      cases p with
      | ret a => simp only [Prog.outcome, Option.some.injEq] at ho; exact absurd ho.symm (hr a)
      | fail e => simp only [Prog.outcome, Option.some.injEq] at ho; subst ho; simp only [Prog.run]
      | panic => simp only [Prog.outcome, Option.some.injEq] at ho; subst ho; simp only [Prog.run]
      | hang => simp [Prog.outcome] at ho
      | get => simp [Prog.outcome] at ho
      | put => simp [Prog.outcome] at ho
      | del => simp [Prog.outcome] at ho
      | nextSeq => simp [Prog.outcome] at ho
    refine ⟨_, I.effect (x := .returned id r) (lock := none) (disk := s.disk) (id := id) (c := .write p₀) (by rw [h]; rfl) rfl h3 h2
      (by simp [Call.exec, hu]) ⟨⟨id, .write p₀, ((Call.write p₀).exec s.disk).1⟩, by simp, rfl, by simp [Call.exec, hu]⟩ ?_⟩
    intro u hu id' p d e
    have := lockOf u id' p d e
    rw [h1] at this
    simp at this
    exact absurd this.symm hu
  | respond t id r h =>
    have ht := I.thr t
    rw [h] at ht
    refine ⟨log, ?_, ?_, ?_, ?_⟩
    · refine ⟨I.ser.1, I.ser.2, fun e he => List.mem_append.2 (.inl (I.ser.3 e he)), ?_, ?_⟩
      · intro i r' hr
        rcases List.mem_append.1 hr with hr | hr
        · exact I.ser.4 i r' hr
        · simp at hr
          obtain ⟨rfl, rfl⟩ := hr
          exact ht
      · intro t₁ b c' t₂ ht' a r' ha hb
        have ht' : s.trace ++ [Event.respond id r] = t₁ ++ Event.invoke b c' :: t₂ := ht'
        rcases List.eq_nil_or_concat t₂ with rfl | ⟨t₃, z, rfl⟩
        · have := List.append_inj' (t₁ := [Event.respond id r]) ht' rfl
          simp at this
        · have : s.trace ++ [Event.respond id r] = (t₁ ++ Event.invoke b c' :: t₃) ++ [z] := by rw [ht']; simp
          have := List.append_inj' this rfl
          exact I.ser.5 t₁ b c' t₃ this.1 a r' ha hb
    · intro u
      by_cases hu : u = t
      · subst hu; simp only [setThread_self]; trivial
      · simp only [setThread_ne _ hu]
        have := I.thr u
        cases e : s.threads u with
        | idle => trivial
        | invoked id' c' => rw [e] at this; exact ⟨List.mem_append.2 (.inl this.1), this.2⟩
        | reading id' p d => rw [e] at this; exact this
        | writing id' p d =>
          rw [e] at this
          obtain ⟨h1, h2, p₀, h3, h4⟩ := this
          exact ⟨h1, h2, p₀, List.mem_append.2 (.inl h3), h4⟩
        | returned id' r => rw [e] at this; exact this
    · intro u id' h'
      by_cases hu : u = t
      · subst hu; simp [setThread_self, Thread.id?] at h'
      · simp only [setThread_ne _ hu] at h'
        obtain ⟨c', hc'⟩ := I.active u id' h'
        exact ⟨c', List.mem_append.2 (.inl hc')⟩
    · intro u v id' hu hv
      by_cases h1 : u = t
      · subst h1; simp [setThread_self, Thread.id?] at hu
      · by_cases h2 : v = t
        · subst h2; simp [setThread_self, Thread.id?] at hv
        · simp only [setThread_ne _ h1] at hu
          simp only [setThread_ne _ h2] at hv
          exact I.uniq u v id' hu hv

theorem inv_reach {db : Db} {s : Proc τ ι ρ} (h : Reach db s) : ∃ log, Inv db s log := by
  induction h with
  | start =>
    refine ⟨[], ⟨rfl, by simp, by simp, by simp [Proc.start], by simp [Proc.start]⟩, fun _ => trivial, ?_, ?_⟩
    · intro t id h; simp [Proc.start, Thread.id?] at h
    · intro t u id h; simp [Proc.start, Thread.id?] at h
  | step s s' _ hs ih =>
    obtain ⟨log, I⟩ := ih
    exact inv_step I hs

end

/-! ## Calls and histories -/

variable {C : CaseEnv} {G : GobEnv} {validate : Str → Str → Res Bool} {base : Str}

/-- The calls are the store functions. -/
theorem callOp_exec (db : Db) (o : Op) : (callOp C G validate base o).exec db = boltStep C G validate base db o := by
  cases o with
  | add e =>
    simp only [callOp, callAdd, boltStep, entryPut]
    cases entryPutDN C e.dn with
    | none => rfl
    | some dn =>
      cases dn with
      | nil => rfl
      | cons r rest => simp only; split <;> rfl
  | delete dn =>
    simp only [callOp, callDelete, boltStep, entryDelete]
    cases parseDN C dn with
    | none => rfl
    | some dn => cases dn <;> rfl
  | modify dn cs =>
    simp only [callOp, callModify, boltStep, entryModify]
    cases parseNormalize C dn <;> rfl
  | rename req =>
    simp only [callOp, callRename, boltStep, entryModifyDN]
    cases parseDN C req.dn with
    | none => rfl
    | some old =>
      cases parseDN C req.newRDN with
      | none => rfl
      | some new =>
        cases new with
        | nil => rfl
        | cons n q => cases old <;> rfl
  | password req =>
    simp only [callOp, callPassword, boltStep, updatePassword]
    cases parseNormalize C req.userIdentity <;> rfl

theorem callSearch_exec (db : Db) (fuel : Nat) (b : Str) (scope : Nat) :
    (callSearch C G fuel b scope).exec db = (searchFuel C G fuel db b scope, db) := by
  unfold callSearch searchFuel
  cases parseNormalize C b <;> rfl

theorem Call.map_exec {α β : Type} (f : α → β) (c : Call α) (db : Db) :
    (c.map f).exec db = ((c.exec db).1 >>= fun a => .ok (f a), (c.exec db).2) := by
  have hb : ∀ p : Prog α, (p.bind fun a => .ret (f a)).run db = (p.run db >>= fun r => .ok (f r.1, r.2)) := by
    intro p
    have := Prog.run_bind p (fun a => Prog.ret (f a)) db
    exact this
  cases c with
  | direct r => rfl
  | read p =>
    simp only [Call.map, Call.exec, view, hb]
    cases p.run db with
    | ok r => rfl
    | err e => rfl
    | panic => rfl
    | hang => rfl
  | write p =>
    simp only [Call.map, Call.exec, update, hb]
    cases p.run db with
    | ok r => rfl
    | err e => rfl
    | panic => rfl
    | hang => rfl

theorem callReq_exec (db : Db) (fuel : Nat) (req : StoreReq) :
    (callReq C G validate base fuel req).exec db = storeExec C G validate base fuel req db := by
  cases req with
  | op o => simp only [callReq, storeExec, Call.map_exec, callOp_exec]
  | search b scope => simp only [callReq, storeExec, Call.map_exec, callSearch_exec]

end Idm
