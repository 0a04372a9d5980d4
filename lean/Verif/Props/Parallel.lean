import Verif.Proofs.Progress
import Verif.Props.Crash
/-!
# C36, C09, C34, C19 for overlapping requests; C74: no deadlock

Any number of connections, any packets, any interleaving of the goroutines that serve them, statement by statement.
-/
namespace Idm
open Dir

section
variable {ι : Type} {V : Env} {G : GobEnv} {cfg : BoltCfg} {n : Nat} {stats : Bool}

/-- C36: at every point of every execution the packets that have had an effect can be put one after the other such that a server that
treats one packet at a time sends the same responses, has the same database and knows the same identity on every connection. A packet
answered before another one arrived comes before it. -/
theorem C36_packets (db : Db) (s : Par ι) (h : ParReach V G cfg n stats db s) :
    ∃ order, OneByOne V (boltSrv V G cfg n stats) db s order := by
  obtain ⟨order, I⟩ := par_reach h
  refine ⟨order, I.disk, I.answers, fun id rs hm => ?_, fun _ c b hc => ?_, I.once, I.arrived, I.realTime⟩
  · obtain ⟨all, h | ⟨c, p, o, k, b, h1, -, h2, h3, h4⟩, hp⟩ := I.cuts id rs hm
    · obtain ⟨i, e, h1, h2⟩ := h
      exact .inl ⟨i, e, all, h1, h2, hp⟩
    · exact .inr ⟨c, p, o, k, b, h1, h2, h3 ▸ hp, h4⟩
  have := I.stages c
  rw [hc] at this
  exact this

/-- C09, C34: whenever the process ends, by a crash of its own or from outside, what is on disk is the result of store calls executed
one after the other that all succeeded, each made by a permitted client and answered with success when its turn came. -/
theorem C34_overlapping (db : Db) (s : Par ι) (h : ParReach V G cfg n stats db s) :
    ∃ (order : List (ι × Ev)) (ops : List Op), OneByOne V (boltSrv V G cfg n stats) db s order ∧
      s.disk = (boltRun V.C G (validatePw V.C V.K) cfg.store db ops).2 ∧
      (∀ r ∈ (boltRun V.C G (validatePw V.C V.K) cfg.store db ops).1, r = .ok ()) ∧
      ∀ op ∈ ops, Called V (boltSrv V G cfg n stats) db (order.map (·.2)) cfg.admin op := by
  obtain ⟨order, O⟩ := C36_packets db s h
  obtain ⟨ops, h1, h2, -, h3⟩ := C34_database_is_a_history (V := V) (G := G) (cfg := cfg) (n := n) (stats := stats) db (order.map (·.2))
  exact ⟨order, ops, O, by rw [← O.disk, h1], h2, h3⟩

/-- C09: a step of a goroutine leaves the database as it is, or it replaces it by what the packet of that goroutine, treated alone, makes
of it. -/
theorem C09_packet_steps (db : Db) (s s' : Par ι) (h : ParReach V G cfg n stats db s) (hs : ParStep V G cfg n stats s s') :
    s'.disk = s.disk ∨ ∃ c j, (s.conns c).job = some j ∧
      s'.disk = (handlePacket V (boltSrv V G cfg n stats) j.o j.p j.b s.disk).st := by
  cases hs with
  | commit c j a d hd hc =>
    refine .inr ⟨c, j, by rw [hc]; rfl, ?_⟩
    obtain ⟨order, I⟩ := par_reach h
    have := I.stages c
    rw [hc] at this
    obtain ⟨-, -, p₀, h3, h4⟩ := this
    rw [packet_alone, h3]
    dsimp only [Work.exec, update]
    rw [← h4]
    rfl
  | _ => exact .inl rfl

/-! ## Identity -/

theorem LastBind.arrive {C : CaseEnv} {c : Nat} {tr : List (Seen ι)} {b : Str} (h : LastBind C c tr b) (id : ι) (e : Ev)
    (hn : ∀ rs, Seen.answer id rs ∉ tr) : LastBind C c (tr ++ [.arrive id e]) b := by
  rcases h with ⟨h1, h2⟩ | ⟨t₁, i, rs, t₂, p, o, dn, h1, h2, h3, h4, h5, h6⟩
  · refine .inl ⟨h1, fun i p o rs ha hr => ?_⟩
    have hr : Seen.answer i rs ∈ tr := by simpa using hr
    rcases List.mem_append.1 ha with ha | ha
    · exact h2 i p o rs ha hr
    · simp only [List.mem_singleton, Seen.arrive.injEq] at ha
      exact absurd (ha.1 ▸ hr) (hn rs)
  · refine .inr ⟨t₁, i, rs, t₂ ++ [.arrive id e], p, o, dn, by rw [h1]; simp, h2, h3, h4, h5, fun i' p' o' rs' ha hr => ?_⟩
    have hr : Seen.answer i' rs' ∈ t₂ := by simpa using hr
    rcases List.mem_append.1 ha with ha | ha
    · exact h6 i' p' o' rs' ha hr
    · simp only [List.mem_singleton, Seen.arrive.injEq] at ha
      refine absurd ?_ (hn rs')
      rw [h1, ← ha.1]
      simp [hr]

theorem LastBind.answer {C : CaseEnv} {c : Nat} {tr : List (Seen ι)} {b : Str} (h : LastBind C c tr b) (id : ι) (rs : List Resp)
    (hn : ∀ p o, Seen.arrive id (.packet c p o) ∈ tr → ¬ BindOk rs) : LastBind C c (tr ++ [.answer id rs]) b := by
  rcases h with ⟨h1, h2⟩ | ⟨t₁, i, rs₀, t₂, p, o, dn, h1, h2, h3, h4, h5, h6⟩
  · refine .inl ⟨h1, fun i p o rs' ha hr => ?_⟩
    have ha : Seen.arrive i (.packet c p o) ∈ tr := by simpa using ha
    rcases List.mem_append.1 hr with hr | hr
    · exact h2 i p o rs' ha hr
    · simp only [List.mem_singleton, Seen.answer.injEq] at hr
      rw [hr.2]
      exact hn p o (hr.1 ▸ ha)
  · refine .inr ⟨t₁, i, rs₀, t₂ ++ [.answer id rs], p, o, dn, by rw [h1]; simp, h2, h3, h4, h5, fun i' p' o' rs' ha hr => ?_⟩
    have ha : Seen.arrive i' (.packet c p' o') ∈ tr := by simpa using ha
    rcases List.mem_append.1 hr with hr | hr
    · exact h6 i' p' o' rs' ha hr
    · simp only [List.mem_singleton, Seen.answer.injEq] at hr
      rw [hr.2]
      exact hn p' o' (hr.1 ▸ ha)

theorem LastBind.bind {C : CaseEnv} {c : Nat} {tr : List (Seen ι)} {b : Str} {id : ι} {rs : List Resp} {p : Packet} {o : Oracle} {dn : Str}
    (ha : Seen.arrive id (.packet c p o) ∈ tr) (hr : BindOk rs) (hn : BindName p dn) (hp : parseNormalize C dn = some b) :
    LastBind C c (tr ++ [.answer id rs]) b :=
  .inr ⟨tr, id, rs, [], p, o, dn, rfl, ha, hr, hn, hp, by simp⟩

theorem LastBind.cut {C : CaseEnv} {c : Nat} {tr : List (Seen ι)} {b : Str} (h : LastBind C c tr b) (id : ι) (rs : List Resp) :
    LastBind C c (tr ++ [.cut id rs]) b := by
  rcases h with ⟨h1, h2⟩ | ⟨t₁, i, rs₀, t₂, p, o, dn, h1, h2, h3, h4, h5, h6⟩
  · exact .inl ⟨h1, fun i p o rs' ha hr => h2 i p o rs' (by simpa using ha) (by simpa using hr)⟩
  · exact .inr ⟨t₁, i, rs₀, t₂ ++ [.cut id rs], p, o, dn, by rw [h1]; simp, h2, h3, h4, h5, fun i' p' o' rs' ha hr =>
      h6 i' p' o' rs' (by simpa using ha) (by simpa using hr)⟩

/-- What holds of the goroutines and what was seen. -/
structure IdInv (V : Env) (s : Par ι) : Prop where
  job : ∀ c j, (s.conns c).job = some j → Seen.arrive j.id (.packet c j.p j.o) ∈ s.trace
  answered : ∀ id rs, Seen.answer id rs ∈ s.trace → ∃ e, Seen.arrive id e ∈ s.trace
  single : ∀ id e e', Seen.arrive id e ∈ s.trace → Seen.arrive id e' ∈ s.trace → e = e'
  identity : ∀ c b, (s.conns c).identity = some b → LastBind V.C c s.trace b

/-- A step of one goroutine that is not seen. -/
theorem IdInv.same {s : Par ι} (I : IdInv V s) {s' : Par ι} {c : Nat} {x : Stage ι} (hc : s'.conns = setStage s.conns c x)
    (ht : s'.trace = s.trace) (hj : ∀ j, x.job = some j → (s.conns c).job = some j)
    (hi : ∀ b, x.identity = some b → (s.conns c).identity = some b) : IdInv V s' where
  job := by
    intro u j h
    rw [ht]
    rw [hc] at h
    by_cases hu : u = c
    · subst hu; rw [setStage_self] at h; exact I.job u j (hj j h)
    · rw [setStage_ne _ hu] at h; exact I.job u j h
  answered := by rw [ht]; exact I.answered
  single := by rw [ht]; exact I.single
  identity := by
    intro u b h
    rw [ht]
    rw [hc] at h
    by_cases hu : u = c
    · subst hu; rw [setStage_self] at h; exact I.identity u b (hi b h)
    · rw [setStage_ne _ hu] at h; exact I.identity u b h

/-- A packet or the end of a connection arrives. -/
theorem IdInv.arrive {s : Par ι} (I : IdInv V s) {s' : Par ι} {c : Nat} {x : Stage ι} {id : ι} {e : Ev} (hc : s'.conns = setStage s.conns c x)
    (ht : s'.trace = s.trace ++ [.arrive id e]) (hnew : ∀ e, Seen.arrive id e ∉ s.trace)
    (hj : ∀ j, x.job = some j → j.id = id ∧ e = .packet c j.p j.o)
    (hi : ∀ b, x.identity = some b → (s.conns c).identity = some b) : IdInv V s' := by
  have hna : ∀ rs, Seen.answer id rs ∉ s.trace := by
    intro rs h
    obtain ⟨e, he⟩ := I.answered id rs h
    exact hnew e he
  refine ⟨?_, ?_, ?_, ?_⟩
  · intro u j h
    rw [ht]
    rw [hc] at h
    by_cases hu : u = c
    · subst hu
      rw [setStage_self] at h
      obtain ⟨h1, h2⟩ := hj j h
      simp [h1, h2]
    · rw [setStage_ne _ hu] at h
      exact List.mem_append_left _ (I.job u j h)
  · intro i rs h
    rw [ht] at h ⊢
    have h : Seen.answer i rs ∈ s.trace := by simpa using h
    obtain ⟨e', he⟩ := I.answered i rs h
    exact ⟨e', List.mem_append_left _ he⟩
  · intro i e₁ e₂ h1 h2
    rw [ht] at h1 h2
    simp only [List.mem_append, List.mem_singleton, Seen.arrive.injEq] at h1 h2
    rcases h1 with h1 | ⟨rfl, rfl⟩ <;> rcases h2 with h2 | ⟨h3, h4⟩
    · exact I.single i _ _ h1 h2
    · exact absurd (h3 ▸ h1) (hnew _)
    · exact absurd h2 (hnew _)
    · exact h4.symm
  · intro u b h
    rw [ht]
    rw [hc] at h
    refine LastBind.arrive ?_ id e hna
    by_cases hu : u = c
    · subst hu; rw [setStage_self] at h; exact I.identity u b (hi b h)
    · rw [setStage_ne _ hu] at h; exact I.identity u b h

/-- Responses are sent. -/
theorem IdInv.answer {s : Par ι} (I : IdInv V s) {s' : Par ι} {c : Nat} {x : Stage ι} {id : ι} {e : Ev} {rs : List Resp}
    (hc : s'.conns = setStage s.conns c x) (ht : s'.trace = s.trace ++ [.answer id rs]) (he : Seen.arrive id e ∈ s.trace)
    (hone : e.on = c) (hj : x.job = none)
    (hi : ∀ b, x.identity = some b → LastBind V.C c (s.trace ++ [.answer id rs]) b) : IdInv V s' := by
  refine ⟨?_, ?_, ?_, ?_⟩
  · intro u j h
    rw [ht]
    rw [hc] at h
    by_cases hu : u = c
    · subst hu; rw [setStage_self, hj] at h; cases h
    · rw [setStage_ne _ hu] at h
      exact List.mem_append_left _ (I.job u j h)
  · intro i rs' h
    rw [ht] at h ⊢
    rcases List.mem_append.1 h with h | h
    · obtain ⟨e', he⟩ := I.answered i rs' h
      exact ⟨e', List.mem_append_left _ he⟩
    · simp only [List.mem_singleton, Seen.answer.injEq] at h
      exact ⟨e, by rw [h.1]; exact List.mem_append_left _ he⟩
  · intro i e₁ e₂ h1 h2
    rw [ht] at h1 h2
    exact I.single i e₁ e₂ (by simpa using h1) (by simpa using h2)
  · intro u b h
    rw [ht]
    rw [hc] at h
    by_cases hu : u = c
    · subst hu; rw [setStage_self] at h; exact hi b h
    · rw [setStage_ne _ hu] at h
      refine (I.identity u b h).answer id rs fun p o hp => ?_
      have := I.single _ _ _ he hp
      rw [this] at hone
      exact absurd hone hu

/-- An answer ends early. -/
theorem IdInv.cut {s : Par ι} (I : IdInv V s) (id : ι) (rs : List Resp) : IdInv V { s with trace := s.trace ++ [.cut id rs] } where
  job := fun c j h => List.mem_append_left _ (I.job c j h)
  answered := fun i rs' h => by
    obtain ⟨e, he⟩ := I.answered i rs' (by simpa using h)
    exact ⟨e, List.mem_append_left _ he⟩
  single := fun i e e' h h' => I.single i e e' (by simpa using h) (by simpa using h')
  identity := fun c b h => (I.identity c b h).cut id rs

theorem id_inv {db : Db} {s : Par ι} (h : ParReach V G cfg n stats db s) : IdInv V s := by
  induction h with
  | start => exact ⟨fun _ _ h => by (cases h), by simp [Par.start], by simp [Par.start], fun c b h => by cases h; exact .inl ⟨rfl, by simp [Par.start]⟩⟩
  | step s s' _ hs I =>
    cases hs with
    | arrive c b id o p hd hc hnew =>
      refine I.arrive (c := c) rfl rfl hnew ?_ ?_
      · intro j hj; cases hj; exact ⟨rfl, rfl⟩
      · intro b' hb; cases hb; rw [hc]; rfl
    | eof c b id hd hc hnew =>
      have I1 : IdInv V { s with conns := setStage s.conns c .over, trace := s.trace ++ [.arrive id (.eof c)] } :=
        I.arrive (c := c) rfl rfl hnew (fun j hj => by cases hj) (fun b hb => by cases hb)
      refine I1.answer (c := c) (x := .over) (id := id) (e := .eof c) (rs := []) ?_ (by simp) (by simp) rfl rfl (fun b hb => by cases hb)
      funext u
      by_cases hu : u = c
      · subst hu; simp [setStage]
      · simp [setStage, hu]
    | direct c j r hd hc hw => exact I.same (c := c) rfl rfl (fun _ h => by rw [hc]; exact h) (fun _ h => by rw [hc]; exact h)
    | beginRead c j p hd hc hw => exact I.same (c := c) rfl rfl (fun _ h => by rw [hc]; exact h) (fun _ h => by rw [hc]; exact h)
    | beginWrite c j p hd hc hw hl => exact I.same (c := c) rfl rfl (fun _ h => by rw [hc]; exact h) (fun _ h => by rw [hc]; exact h)
    | stepRead c j p d q hd hc hi => exact I.same (c := c) rfl rfl (fun _ h => by rw [hc]; exact h) (fun _ h => by rw [hc]; exact h)
    | stepWrite c j p d q hd hc hi => exact I.same (c := c) rfl rfl (fun _ h => by rw [hc]; exact h) (fun _ h => by rw [hc]; exact h)
    | endRead c j p d r hd hc ho => exact I.same (c := c) rfl rfl (fun _ h => by rw [hc]; exact h) (fun _ h => by rw [hc]; exact h)
    | commit c j a d hd hc => exact I.same (c := c) rfl rfl (fun _ h => by rw [hc]; exact h) (fun _ h => by rw [hc]; exact h)
    | rollback c j p d r hd hc ho hr => exact I.same (c := c) rfl rfl (fun _ h => by rw [hc]; exact h) (fun _ h => by rw [hc]; exact h)
    | lost c j r k hd hc hk => exact (I.cut _ _).same (c := c) (x := .over) rfl rfl (fun _ h => by cases h) (fun _ h => by cases h)
    | block c j r hd hc hn => exact (I.cut _ _).same (c := c) (x := .over) rfl rfl (fun _ h => by cases h) (fun _ h => by cases h)
    | crash c j r hd hc hn => have I' := I.cut j.id (packetEnd V cfg n stats j.o j.p j.b r).1; exact ⟨I'.job, I'.answered, I'.single, I'.identity⟩
    | goOn c j r b' hd hc hn =>
      have ha := I.job c j (by rw [hc]; rfl)
      refine I.answer (c := c) rfl rfl ha rfl rfl fun b hb => ?_
      cases hb
      rcases step_identity (V := V) (srv := recordSrv V cfg r n stats) j.o j.p j.b b' none hn with ⟨k1, dn, k2, k3⟩ | ⟨k1, rfl⟩
      · exact .bind ha k1 k2 k3
      · exact (I.identity c j.b (by rw [hc]; rfl)).answer _ _ fun _ _ _ => k1
    | close c j r hd hc hn =>
      have ha := I.job c j (by rw [hc]; rfl)
      exact I.answer (c := c) rfl rfl ha rfl rfl fun b hb => by cases hb

/-- C21 with overlapping requests: the identity of a connection is the normalised name of the last bind on it that was answered with
success, or nobody; what other connections do at the same time has no influence. -/
theorem C21_overlapping (db : Db) (s : Par ι) (h : ParReach V G cfg n stats db s) (c : Nat) (b : Str)
    (hb : (s.conns c).identity = some b) : LastBind V.C c s.trace b :=
  (id_inv h).identity c b hb

/-- C19, C20 with overlapping requests: when the database changes, some connection is working on a request for that change; the client
is permitted to make it as the user whose bind on that connection was the last one answered with success. -/
theorem C19_overlapping (db : Db) (s s' : Par ι) (h : ParReach V G cfg n stats db s) (hs : ParStep V G cfg n stats s s')
    (hne : s'.disk ≠ s.disk) :
    ∃ c j bound op id req, (s.conns c).job = some j ∧ Message j.p id req ∧ req.tag = op.tag ∧
      LastBind V.C c s.trace bound ∧ Permitted V.C cfg.admin bound op ∧
      boltStep V.C G (validatePw V.C V.K) cfg.store s.disk op = (.ok (), s'.disk) := by
  rcases C09_packet_steps db s s' h hs with h1 | ⟨c, j, h1, h2⟩
  · exact absurd h1 hne
  rcases bolt_packet (V := V) (G := G) (cfg := cfg) (n := n) (stats := stats) j.o j.p j.b s.disk with h3 | ⟨op, id, req, h3, h4, h5, h6, -⟩
  · exact absurd (h2.trans h3) hne
  · have hb : (s.conns c).identity = some j.b := by
      cases hx : s.conns c <;> rw [hx] at h1 <;> cases h1 <;> rfl
    exact ⟨c, j, j.b, op, id, req, h1, h4, h5, C21_overlapping db s h c j.b hb, h3, by rw [h2]; exact h6⟩

/-! ## C74 -/

/-- C74: on a database that any history of store calls has left, in every state that any number of clients with any packets and any
interleaving can bring about (short of 2^64 entries), a request that was read can still be answered, without waiting for another
client; the exceptions are requests that crash the server or block their connection when they are alone. So goroutines never wait for
one another for ever: no deadlock, and the writer lock is always given back. (Without metrics: with them the first add request makes all
connections wait, see `C52_adds_fails`.) -/
theorem C74_no_deadlock (ops : List Op) (s : Par ι)
    (h : ParReach V G cfg n false (boltRun V.C G (validatePw V.C V.K) cfg.store Db.empty ops).2 s)
    (hlen : ops.length + s.trace.length < 2 ^ 64) (hd : s.down = false) (c : Nat) (j : Job ι) (hc : (s.conns c).job = some j) :
    Answerable V G cfg n false (boltRun V.C G (validatePw V.C V.K) cfg.store Db.empty ops).2 s j := by
  have hr := Links.run V.C G (validatePw V.C V.K) cfg.store ops Db.empty Links.empty (by simp [Db.empty]; omega)
  refine answerable hr.1 h ?_ hd hc
  have : (Db.empty).seq = 0 := rfl
  have := hr.2
  omega

/-- C74: the requests that are not answered are those that C27 lists: if clients send no packet of these kinds, every request can be
answered. -/
theorem C74_answered (ops : List Op) (s : Par ι)
    (h : ParReach V G cfg n false (boltRun V.C G (validatePw V.C V.K) cfg.store Db.empty ops).2 s)
    (hlen : ops.length + s.trace.length < 2 ^ 64) (hd : s.down = false) (c : Nat) (j : Job ι) (hc : (s.conns c).job = some j)
    (hcalm : ∀ db, (handlePacket V (boltSrv V G cfg n false) j.o j.p j.b db).next ≠ .crash ∧
      (handlePacket V (boltSrv V G cfg n false) j.o j.p j.b db).next ≠ .hang) :
    ∃ s' rs, ParSteps V G cfg n false s s' ∧ s'.trace = s.trace ++ [.answer j.id rs] := by
  rcases C74_no_deadlock ops s h hlen hd c j hc with h | ⟨s₁, -, h1 | h1⟩
  · exact h
  · exact absurd h1 (hcalm _).1
  · exact absurd h1 (hcalm _).2

/-! ## Examples -/

/-- Whether a packet leads to a read or a write transaction. -/
def Work.kind : Work → Nat
  | .direct _ => 0
  | .read _ => 1
  | .write _ => 2

/-- A reading request goes through: from the begin of its transaction to the answer. -/
theorem read_through {db : Db} {s : Par ι} (h : ParReach V G cfg n stats db s) (hd : s.down = false) {c : Nat} {j : Job ι} {p : Db → Prog Reply}
    (hw : packetWork V G cfg n stats j.o j.p j.b = .read p) {d : Db} (hc : s.conns c = .reading j (p d) d) {b' : Str}
    (hr : ((packetWork V G cfg n stats j.o j.p j.b).exec d).1 ≠ .hang)
    (hn : (packetEnd V cfg n stats j.o j.p j.b ((packetWork V G cfg n stats j.o j.p j.b).exec d).1).2 = .go b') :
    ParReach V G cfg n stats db { s with
      conns := setStage s.conns c (.ready b')
      trace := s.trace ++ [.answer j.id (packetEnd V cfg n stats j.o j.p j.b ((packetWork V G cfg n stats j.o j.p j.b).exec d).1).1] } := by
  rw [hw] at hr hn ⊢
  dsimp only [Work.exec] at hr hn ⊢
  have hrun : (p d).run d ≠ .hang := by
    intro hh; apply hr; simp only [view, hh]
  have h1 := h.steps (drive_read (V := V) (G := G) (cfg := cfg) (genPwLen := n) (stats := stats) (p d) s d hd hc hrun)
  have h2 := ParReach.step _ _ h1 (.goOn _ c j _ b' hd (setStage_self _ _ _) hn)
  simpa [setStage_set] using h2

theorem write_through {db : Db} {s : Par ι} (h : ParReach V G cfg n stats db s) (hd : s.down = false) {c : Nat} {j : Job ι} {p : Prog Reply}
    (hw : packetWork V G cfg n stats j.o j.p j.b = .write p) (hc : s.conns c = .writing j p s.disk) {b' : Str}
    (hn : (packetEnd V cfg n stats j.o j.p j.b ((packetWork V G cfg n stats j.o j.p j.b).exec s.disk).1).2 = .go b') :
    ParReach V G cfg n stats db { s with
      disk := ((packetWork V G cfg n stats j.o j.p j.b).exec s.disk).2
      lock := none
      conns := setStage s.conns c (.ready b')
      trace := s.trace ++ [.answer j.id (packetEnd V cfg n stats j.o j.p j.b ((packetWork V G cfg n stats j.o j.p j.b).exec s.disk).1).1] } := by
  have hrun : p.run s.disk ≠ .hang := packet_write_ends hw _
  have hv : ((packetWork V G cfg n stats j.o j.p j.b).exec s.disk).1 = view p s.disk := by
    rw [hw]; simp only [Work.exec, update, view]
    cases p.run s.disk <;> rfl
  have hl : ((packetWork V G cfg n stats j.o j.p j.b).exec s.disk).2 = diskAfter p s.disk s.disk := by
    rw [hw]; simp only [Work.exec, update, diskAfter]
    cases p.run s.disk <;> rfl
  rw [hv] at hn ⊢
  rw [hl]
  have h1 := h.steps (drive_write (V := V) (G := G) (cfg := cfg) (genPwLen := n) (stats := stats) p s s.disk hd hc hrun)
  have h2 := ParReach.step _ _ h1 (.goOn _ c j _ b' hd (setStage_self _ _ _) hn)
  simpa [setStage_set] using h2

end

/-- Requests for the example: a bind as administrator and a delete on one connection, a search on another one. -/
def parBind : Job Nat := ⟨0, toyOracle, wMsg 1 (wBind b!"uid=admin,dc=lg" b!"secret"), []⟩
def parDelete : Job Nat := ⟨1, toyOracle, wMsg 2 (wDelete b!"uid=ann,dc=lg"), b!"uid=admin,dc=lg"⟩
def parSearch : Job Nat := ⟨2, toyOracle, wMsg 3 (wSearch b!"dc=lg" 2 0 (ctxStr 7 b!"mail") [b!"mail"]), []⟩

def parWork (j : Job Nat) : Work := packetWork toyEnv gobInstance toyCfg 8 false j.o j.p j.b

theorem par_read {j : Job Nat} (h : (parWork j).kind = 1) : ∃ p, packetWork toyEnv gobInstance toyCfg 8 false j.o j.p j.b = .read p := by
  unfold parWork at h
  cases hw : packetWork toyEnv gobInstance toyCfg 8 false j.o j.p j.b <;> rw [hw] at h <;> first | exact ⟨_, rfl⟩ | cases h

theorem par_write {j : Job Nat} (h : (parWork j).kind = 2) : ∃ p, packetWork toyEnv gobInstance toyCfg 8 false j.o j.p j.b = .write p := by
  unfold parWork at h
  cases hw : packetWork toyEnv gobInstance toyCfg 8 false j.o j.p j.b <;> rw [hw] at h <;> first | exact ⟨_, rfl⟩ | cases h

/-- Non-vacuity of the theorems above: the delete of an entry overlaps a search. The search began first and is answered last, with the
deleted entry. -/
theorem par_example : ∃ s : Par Nat, ParReach toyEnv gobInstance toyCfg 8 false toyDb s ∧ s.down = false ∧
    s.disk.tbl .dn2id b!"uid=ann,dc=lg" = none ∧
    s.trace = [.arrive 0 (.packet 0 parBind.p parBind.o), .answer 0 [.result 1 1 0],
      .arrive 1 (.packet 0 parDelete.p parDelete.o), .arrive 2 (.packet 1 parSearch.p parSearch.o), .answer 1 [.result 2 11 0],
      .answer 2 [.entry 3 ⟨b!"uid=Ann,dc=lg", [⟨b!"mail", [b!"a@lg"]⟩]⟩, .searchDone 3 0 (some [])]] := by
  obtain ⟨pb, hpb⟩ := par_read (j := parBind) (by decide +kernel)
  obtain ⟨pd, hpd⟩ := par_write (j := parDelete) (by decide +kernel)
  obtain ⟨ps, hps⟩ := par_read (j := parSearch) (by decide +kernel)
  have h0 : ParReach (ι := Nat) toyEnv gobInstance toyCfg 8 false toyDb (Par.start toyDb) := .start
  have h1 := ParReach.step _ _ h0 (.arrive _ 0 [] 0 parBind.o parBind.p rfl rfl (by simp [Par.start]))
  have h2 := ParReach.step _ _ h1 (.beginRead _ 0 parBind pb rfl rfl hpb)
  have h3 := read_through (c := 0) (d := toyDb) h2 rfl hpb rfl (b' := b!"uid=admin,dc=lg") (by decide +kernel) (by decide +kernel)
  have h4 := ParReach.step _ _ h3 (.arrive _ 0 b!"uid=admin,dc=lg" 1 parDelete.o parDelete.p rfl rfl (by simp [Par.start]))
  have h5 := ParReach.step _ _ h4 (.arrive _ 1 [] 2 parSearch.o parSearch.p rfl (by simp [setStage, Par.start]) (by simp [Par.start]))
  have h6 := ParReach.step _ _ h5 (.beginRead _ 1 parSearch ps rfl rfl hps)
  have h7 := ParReach.step _ _ h6 (.beginWrite _ 0 parDelete pd rfl (by simp [setStage]; rfl) hpd rfl)
  have h8 := write_through (c := 0) h7 rfl hpd rfl (b' := b!"uid=admin,dc=lg")
    (by
      show (packetEnd toyEnv toyCfg 8 false parDelete.o parDelete.p parDelete.b ((parWork parDelete).exec toyDb).1).2 = _
      decide +kernel)
  have h9 := read_through (c := 1) h8 rfl hps (d := toyDb) (by simp [setStage, Par.start]) (b' := []) (by decide +kernel) (by decide +kernel)
  refine ⟨_, h9, rfl, ?_, ?_⟩
  · show ((parWork parDelete).exec toyDb).2.tbl .dn2id b!"uid=ann,dc=lg" = none
    decide +kernel
  have e1 : (packetEnd toyEnv toyCfg 8 false parBind.o parBind.p parBind.b ((parWork parBind).exec toyDb).1).1 = [.result 1 1 0] := by decide +kernel
  have e2 : (packetEnd toyEnv toyCfg 8 false parDelete.o parDelete.p parDelete.b ((parWork parDelete).exec toyDb).1).1 = [.result 2 11 0] := by
    decide +kernel
  have e3 : (packetEnd toyEnv toyCfg 8 false parSearch.o parSearch.p parSearch.b ((parWork parSearch).exec toyDb).1).1 =
      [.entry 3 ⟨b!"uid=Ann,dc=lg", [⟨b!"mail", [b!"a@lg"]⟩]⟩, .searchDone 3 0 (some [])] := by decide +kernel
  unfold parWork at e1 e2 e3
  simp only [Par.start, e1, e2, e3]
  rfl

/-- Non-vacuity of C74: in the middle of this, the delete holds the lock and the search is pending. -/
example : ∃ (s : Par Nat) (j : Job Nat), ParReach toyEnv gobInstance toyCfg 8 false toyDb s ∧ s.down = false ∧
    toyOps.length + s.trace.length < 2 ^ 64 ∧ s.lock = some 0 ∧ (s.conns 1).job = some j := by
  obtain ⟨pb, hpb⟩ := par_read (j := parBind) (by decide +kernel)
  obtain ⟨pd, hpd⟩ := par_write (j := parDelete) (by decide +kernel)
  have h0 : ParReach (ι := Nat) toyEnv gobInstance toyCfg 8 false toyDb (Par.start toyDb) := .start
  have h1 := ParReach.step _ _ h0 (.arrive _ 0 [] 0 parBind.o parBind.p rfl rfl (by simp [Par.start]))
  have h2 := ParReach.step _ _ h1 (.beginRead _ 0 parBind pb rfl rfl hpb)
  have h3 := read_through (c := 0) (d := toyDb) h2 rfl hpb rfl (b' := b!"uid=admin,dc=lg") (by decide +kernel) (by decide +kernel)
  have h4 := ParReach.step _ _ h3 (.arrive _ 0 b!"uid=admin,dc=lg" 1 parDelete.o parDelete.p rfl rfl (by simp [Par.start]))
  have h5 := ParReach.step _ _ h4 (.arrive _ 1 [] 2 parSearch.o parSearch.p rfl (by simp [setStage, Par.start]) (by simp [Par.start]))
  have h6 := ParReach.step _ _ h5 (.beginWrite _ 0 parDelete pd rfl (by simp [setStage]; rfl) hpd rfl)
  exact ⟨_, parSearch, h6, rfl, by simp [Par.start, toyOps], rfl, rfl⟩

end Idm
