import Verif.Props.Parallel
import Verif.Props.LdifParallel
/-!
# C102: a client that vanishes while it is answered

A write to the connection fails (the client has closed it, or the network is down). The client has received the first responses of its answer
and nothing more; what it asked for is done all the same, or not at all.
-/
namespace Idm

/-! ## Each request is answered at most once -/

/-- The request whose answer ends here. -/
def Seen.ended {ι : Type} : Seen ι → Option ι
  | .arrive _ _ => none
  | .answer id _ => some id
  | .cut id _ => some id

/-- The same in what is seen of an LDIF server. -/
def LSeen.ended {ι : Type} : LSeen ι → Option ι
  | .io e => e.ended
  | .main _ => none
  | .conf _ => none
  | .cookie _ _ => none
  | .gaveUp _ => none

/-- The request a goroutine is working on, as a number. -/
def LStage.busy {ι : Type} : LStage ι → Option ι
  | .ready _ => none
  | .begun j => some j.id
  | .bindMain j _ _ => some j.id
  | .starting j _ _ _ _ => some j.id
  | .dropping j _ _ => some j.id
  | .receiving j _ _ _ _ => some j.id
  | .stuck j => some j.id
  | .returned j _ => some j.id
  | .over => none

/-- What holds of the requests being worked on (`busy`), those ended and those that have arrived. -/
structure OneInv {ι : Type} (busy : Nat → Option ι) (ends : List ι) (arr : ι → Prop) (down : Bool) : Prop where
  nodup : ends.Nodup
  arrived : ∀ id, id ∈ ends → arr id
  working : ∀ c id, busy c = some id → arr id
  open_ : down = false → ∀ c id, busy c = some id → id ∉ ends
  one : ∀ c c' id, busy c = some id → busy c' = some id → c = c'

namespace OneInv
variable {ι : Type} {busy busy' : Nat → Option ι} {ends : List ι} {arr arr' : ι → Prop}

theorem same (I : OneInv busy ends arr false) (hb : ∀ c, busy' c = busy c) (ha : ∀ id, arr id → arr' id) : OneInv busy' ends arr' false := by
  obtain rfl : busy' = busy := funext hb
  exact ⟨I.nodup, fun id h => ha _ (I.arrived id h), fun c id h => ha _ (I.working c id h), I.open_, I.one⟩

theorem begin (I : OneInv busy ends arr false) {c : Nat} {id : ι} (hn : ¬ arr id) (hc : busy' c = some id) (ho : ∀ u, u ≠ c → busy' u = busy u)
    (ha : ∀ id, arr id → arr' id) (hid : arr' id) : OneInv busy' ends arr' false := by
  have key : ∀ u x, busy' u = some x → (u = c ∧ x = id) ∨ (u ≠ c ∧ busy u = some x) := by
    intro u x h
    by_cases hu : u = c
    · subst hu; rw [hc] at h; exact .inl ⟨rfl, (Option.some.inj h).symm⟩
    · rw [ho u hu] at h; exact .inr ⟨hu, h⟩
  refine ⟨I.nodup, fun x h => ha _ (I.arrived x h), ?_, ?_, ?_⟩
  · intro u x h
    rcases key u x h with ⟨_, rfl⟩ | ⟨_, h⟩
    · exact hid
    · exact ha _ (I.working _ _ h)
  · intro _ u x h
    rcases key u x h with ⟨_, rfl⟩ | ⟨_, h⟩
    · exact fun hm => hn (I.arrived _ hm)
    · exact I.open_ rfl _ _ h
  · intro u u' x h h'
    rcases key u x h with ⟨rfl, rfl⟩ | ⟨_, h⟩ <;> rcases key u' _ h' with ⟨rfl, h2⟩ | ⟨_, h'⟩
    · rfl
    · exact absurd (I.working _ _ h') hn
    · subst h2; exact absurd (I.working _ _ h) hn
    · exact I.one _ _ _ h h'

theorem stop (I : OneInv busy ends arr false) {c : Nat} {id : ι} (hc : busy c = some id) (hc' : busy' c = none) (ho : ∀ u, u ≠ c → busy' u = busy u)
    (ha : ∀ id, arr id → arr' id) : OneInv busy' (ends ++ [id]) arr' false := by
  have key : ∀ u x, busy' u = some x → u ≠ c ∧ busy u = some x := by
    intro u x h
    by_cases hu : u = c
    · subst hu; rw [hc'] at h; cases h
    · rw [ho u hu] at h; exact ⟨hu, h⟩
  refine ⟨?_, ?_, ?_, ?_, ?_⟩
  · exact List.nodup_append.2 ⟨I.nodup, by simp, fun a h b hb => by rw [List.mem_singleton.1 hb]; rintro rfl; exact I.open_ rfl _ _ hc h⟩
  · intro x h
    rcases List.mem_append.1 h with h | h
    · exact ha _ (I.arrived _ h)
    · rw [List.mem_singleton.1 h]; exact ha _ (I.working _ _ hc)
  · intro u x h; exact ha _ (I.working _ _ (key u x h).2)
  · intro _ u x h hm
    rcases List.mem_append.1 hm with hm | hm
    · exact I.open_ rfl _ _ (key u x h).2 hm
    · rw [List.mem_singleton.1 hm] at h
      exact (key u _ h).1 (I.one _ _ _ (key u _ h).2 hc)
  · intro u u' x h h'; exact I.one _ _ _ (key u x h).2 (key u' x h').2

theorem pass (I : OneInv busy ends arr false) {id : ι} (hn : ¬ arr id) (ho : ∀ u x, busy' u = some x → busy u = some x)
    (ha : ∀ id, arr id → arr' id) (hid : arr' id) : OneInv busy' (ends ++ [id]) arr' false := by
  refine ⟨?_, ?_, ?_, ?_, ?_⟩
  · exact List.nodup_append.2 ⟨I.nodup, by simp, fun a h b hb => by rw [List.mem_singleton.1 hb]; rintro rfl; exact hn (I.arrived _ h)⟩
  · intro x h
    rcases List.mem_append.1 h with h | h
    · exact ha _ (I.arrived _ h)
    · rw [List.mem_singleton.1 h]; exact hid
  · intro u x h; exact ha _ (I.working _ _ (ho u x h))
  · intro _ u x h hm
    rcases List.mem_append.1 hm with hm | hm
    · exact I.open_ rfl _ _ (ho u x h) hm
    · rw [List.mem_singleton.1 hm] at h
      exact hn (I.working _ _ (ho u _ h))
  · intro u u' x h h'; exact I.one _ _ _ (ho u x h) (ho u' x h')

theorem fall (I : OneInv busy ends arr false) {c : Nat} {id : ι} (hc : busy c = some id) (ha : ∀ id, arr id → arr' id) :
    OneInv busy (ends ++ [id]) arr' true := by
  refine ⟨?_, ?_, ?_, nofun, I.one⟩
  · exact List.nodup_append.2 ⟨I.nodup, by simp, fun a h b hb => by rw [List.mem_singleton.1 hb]; rintro rfl; exact I.open_ rfl _ _ hc h⟩
  · intro x h
    rcases List.mem_append.1 h with h | h
    · exact ha _ (I.arrived _ h)
    · rw [List.mem_singleton.1 h]; exact ha _ (I.working _ _ hc)
  · intro u x h; exact ha _ (I.working _ _ h)

end OneInv

section
variable {ι : Type} {V : Env} {G : GobEnv} {cfg : BoltCfg} {n : Nat} {stats : Bool}

theorem one_inv {db : Db} {s : Par ι} (h : ParReach V G cfg n stats db s) :
    OneInv (fun c => (s.conns c).job.map (·.id)) (s.trace.filterMap Seen.ended) (fun id => ∃ e, Seen.arrive id e ∈ s.trace) s.down := by
  induction h with
  | start => exact ⟨by simp [Par.start], by simp [Par.start], by simp [Par.start, Stage.job], by simp [Par.start], by simp [Par.start, Stage.job]⟩
  | step s s' _ hs I =>
    have arr : ∀ (l : List (Seen ι)) id, (∃ e, Seen.arrive id e ∈ s.trace) → ∃ e, Seen.arrive id e ∈ s.trace ++ l :=
      fun l id ⟨e, h⟩ => ⟨e, List.mem_append.2 (.inl h)⟩
    have quiet : ∀ {c : Nat} {x : Stage ι}, x.job = (s.conns c).job → ∀ u, ((setStage s.conns c x u).job.map (·.id)) = (s.conns u).job.map (·.id) := by
      intro c x hx u
      by_cases hu : u = c
      · subst hu; rw [setStage_self, hx]
      · rw [setStage_ne _ hu]
    have others : ∀ {c : Nat} {x : Stage ι}, ∀ u, u ≠ c → ((setStage s.conns c x u).job.map (·.id)) = (s.conns u).job.map (·.id) := by
      intro c x u hu; rw [setStage_ne _ hu]
    cases hs with
    | arrive c b id o p hd hc hnew =>
      rw [hd] at I
      dsimp only
      rw [hd, List.filterMap_append, show [Seen.arrive id (Ev.packet c p o)].filterMap Seen.ended = [] from rfl, List.append_nil]
      exact I.begin (c := c) (id := id) (fun ⟨e, h⟩ => hnew e h) (by rw [setStage_self]; rfl) others (arr _) ⟨_, List.mem_append.2 (.inr List.mem_cons_self)⟩
    | eof c b id hd hc hnew =>
      rw [hd] at I
      dsimp only
      rw [hd, List.filterMap_append, show [Seen.arrive id (Ev.eof c), Seen.answer id []].filterMap Seen.ended = [id] from rfl]
      refine I.pass (fun ⟨e, h⟩ => hnew e h) ?_ (arr _) ⟨_, List.mem_append.2 (.inr List.mem_cons_self)⟩
      intro u x h
      by_cases hu : u = c
      · subst hu; rw [setStage_self] at h; cases h
      · rwa [others u hu] at h
    | goOn c j r b' hd hc hn =>
      rw [hd] at I
      dsimp only
      rw [hd, List.filterMap_append, show List.filterMap Seen.ended [Seen.answer j.id _] = [j.id] from rfl]
      exact I.stop (c := c) (by rw [hc]; rfl) (by rw [setStage_self]; rfl) others (arr _)
    | close c j r hd hc hn =>
      rw [hd] at I
      dsimp only
      rw [hd, List.filterMap_append, show List.filterMap Seen.ended [Seen.answer j.id _] = [j.id] from rfl]
      exact I.stop (c := c) (by rw [hc]; rfl) (by rw [setStage_self]; rfl) others (arr _)
    | lost c j r k hd hc hn =>
      rw [hd] at I
      dsimp only
      rw [hd, List.filterMap_append, show List.filterMap Seen.ended [Seen.cut j.id _] = [j.id] from rfl]
      exact I.stop (c := c) (by rw [hc]; rfl) (by rw [setStage_self]; rfl) others (arr _)
    | block c j r hd hc hn =>
      rw [hd] at I
      dsimp only
      rw [hd, List.filterMap_append, show List.filterMap Seen.ended [Seen.cut j.id _] = [j.id] from rfl]
      exact I.stop (c := c) (by rw [hc]; rfl) (by rw [setStage_self]; rfl) others (arr _)
    | crash c j r hd hc hn =>
      rw [hd] at I
      dsimp only
      rw [List.filterMap_append, show List.filterMap Seen.ended [Seen.cut j.id _] = [j.id] from rfl]
      exact I.fall (c := c) (by rw [hc]; rfl) (arr _)
    | direct c j _ hd hc | beginRead c j _ hd hc | beginWrite c j _ hd hc | stepRead c j _ _ _ hd hc | stepWrite c j _ _ _ hd hc | endRead c j _ _ _ hd hc | commit c j _ _ hd hc
    | rollback c j _ _ _ hd hc =>
      rw [hd] at I
      dsimp only
      rw [hd]
      exact I.same (quiet (by rw [hc]; rfl)) fun _ h => h

end

section
variable {ι : Type} {V : Env} {W : WalkOrd} {cfg : LdifCfg} {g : Nat} {stats : Bool} {loop : Nat → Bool} {m c : LMem}

theorem one_inv_ldif {s : LPar ι} (h : LParReach V W cfg g stats loop m c s) :
    OneInv (fun c => (s.conns c).busy) (s.trace.filterMap LSeen.ended) (fun id => ∃ e, LSeen.io (.arrive id e) ∈ s.trace) s.down := by
  induction h with
  | start => exact ⟨by simp [LPar.start], by simp [LPar.start], by simp [LPar.start, LStage.busy], by simp [LPar.start], by simp [LPar.start, LStage.busy]⟩
  | step s s' _ hs I =>
    have arr : ∀ (l : List (LSeen ι)) id, (∃ e, LSeen.io (.arrive id e) ∈ s.trace) → ∃ e, LSeen.io (.arrive id e) ∈ s.trace ++ l :=
      fun l id ⟨e, h⟩ => ⟨e, List.mem_append.2 (.inl h)⟩
    have quiet : ∀ {c : Nat} {x : LStage ι}, x.busy = (s.conns c).busy → ∀ u, (setLStage s.conns c x u).busy = (s.conns u).busy := by
      intro c x hx u
      by_cases hu : u = c
      · subst hu; rw [setLStage_self, hx]
      · rw [setLStage_ne _ hu]
    have others : ∀ {c : Nat} {x : LStage ι}, ∀ u, u ≠ c → (setLStage s.conns c x u).busy = (s.conns u).busy := by
      intro c x u hu; rw [setLStage_ne _ hu]
    have loop1 : ∀ (j : Job ι) r k ch, (enterLoop j r k ch).busy = some j.id := by
      intro j r k ch; unfold enterLoop; split <;> rfl
    have nil1 : ∀ (j : Job ι) r, (enterNil j r).busy = some j.id := by
      intro j r; unfold enterNil; split <;> rfl
    have take1 : ∀ (j : Job ι) r k ch con x, (takeEntry V j r k ch con x).busy = some j.id := by
      intro j r k ch con x; unfold takeEntry; split <;> rfl
    cases hs with
    | arrive c b id o p hd hc hnew =>
      rw [hd] at I
      dsimp only
      rw [hd, List.filterMap_append, show [LSeen.io (Seen.arrive id (Ev.packet c p o))].filterMap LSeen.ended = [] from rfl, List.append_nil]
      exact I.begin (c := c) (id := id) (fun ⟨e, h⟩ => hnew e h) (by rw [setLStage_self]; rfl) others (arr _) ⟨_, List.mem_append.2 (.inr List.mem_cons_self)⟩
    | eof c b id hd hc hnew =>
      rw [hd] at I
      dsimp only
      rw [hd, List.filterMap_append, show [LSeen.io (Seen.arrive id (Ev.eof c)), LSeen.io (Seen.answer id [])].filterMap LSeen.ended = [id] from rfl]
      refine I.pass (fun ⟨e, h⟩ => hnew e h) ?_ (arr _) ⟨_, List.mem_append.2 (.inr List.mem_cons_self)⟩
      intro u x h
      by_cases hu : u = c
      · subst hu; rw [setLStage_self] at h; cases h
      · rwa [others u hu] at h
    | goOn c j r b' hd hc hn =>
      rw [hd] at I
      dsimp only
      rw [hd, List.filterMap_append, show List.filterMap LSeen.ended [LSeen.io (Seen.answer j.id _)] = [j.id] from rfl]
      exact I.stop (c := c) (by rw [hc]; rfl) (by rw [setLStage_self]; rfl) others (arr _)
    | hangUp c j r hd hc hn =>
      rw [hd] at I
      dsimp only
      rw [hd, List.filterMap_append, show List.filterMap LSeen.ended [LSeen.io (Seen.answer j.id _)] = [j.id] from rfl]
      exact I.stop (c := c) (by rw [hc]; rfl) (by rw [setLStage_self]; rfl) others (arr _)
    | lost c j r k hd hc hn =>
      rw [hd] at I
      dsimp only
      rw [hd, List.filterMap_append, show List.filterMap LSeen.ended [LSeen.io (Seen.cut j.id _)] = [j.id] from rfl]
      exact I.stop (c := c) (by rw [hc]; rfl) (by rw [setLStage_self]; rfl) others (arr _)
    | block c j r hd hc hn =>
      rw [hd] at I
      dsimp only
      rw [hd, List.filterMap_append, show List.filterMap LSeen.ended [LSeen.io (Seen.cut j.id _)] = [j.id] from rfl]
      exact I.stop (c := c) (by rw [hc]; rfl) (by rw [setLStage_self]; rfl) others (arr _)
    | crash c j r hd hc hn =>
      rw [hd] at I
      dsimp only
      rw [List.filterMap_append, show List.filterMap LSeen.ended [LSeen.io (Seen.cut j.id _)] = [j.id] from rfl]
      exact I.fall (c := c) (by rw [hc]; rfl) (arr _)
    | finish _ _ hd | remove _ _ hd | close _ _ hd | reloadFail _ hd =>
      rw [hd] at I
      dsimp only
      rw [hd]
      exact I.same (fun _ => rfl) fun _ h => h
    | giveUp _ _ hd | reloadConf _ _ hd | reloadMain _ _ hd =>
      rw [hd] at I
      dsimp only
      rw [hd, List.filterMap_append, show ∀ x, List.filterMap LSeen.ended [x] = (match LSeen.ended x with | some y => [y] | none => []) from fun x => by
        cases h : LSeen.ended x <;> simp [h]]
      dsimp only [LSeen.ended]
      rw [List.append_nil]
      exact I.same (fun _ => rfl) (arr _)
    | searchFirst c j _ _ _ _ k hd hc =>
      rw [hd] at I
      dsimp only
      rw [hd, List.filterMap_append, show List.filterMap LSeen.ended [LSeen.cookie j.id k] = [] from rfl, List.append_nil]
      exact I.same (quiet (by rw [hc]; rfl)) (arr _)
    | bindConf c j dn pw hd hc =>
      rw [hd] at I
      dsimp only
      rw [hd]
      exact I.same (quiet (by rw [hc]; split <;> rfl)) fun _ h => h
    | direct c j hd hc | bindPlain c j _ _ hd hc | bindMain c j _ _ hd hc | searchRefused c j _ _ _ hd hc | searchPlain c j _ _ _ hd hc
    | searchUnknown c j _ _ _ _ _ hd hc | searchNext c j _ _ _ _ _ _ hd hc | searchAbandon c j _ _ _ _ _ hd hc | drop c j _ _ hd hc
    | begin c j _ _ _ _ _ hd hc | hand c j _ _ _ _ _ _ _ hd hc | closed c j _ _ _ _ _ hd hc =>
      rw [hd] at I
      dsimp only
      rw [hd]
      exact I.same (quiet (by rw [hc]; first | rfl | exact loop1 _ _ _ _ | exact nil1 _ _ | exact take1 _ _ _ _ _ _)) fun _ h => h

/-- C102: each request to the LDIF server is answered at most once, whether completely or not. -/
theorem C102_ldif_one_answer {s : LPar ι} (h : LParReach V W cfg g stats loop m c s) : (s.trace.filterMap LSeen.ended).Nodup :=
  (one_inv_ldif h).nodup

end

/-! ## The LDIF server -/

section
variable {σ : Type} {V : Env} {srv : Srv σ}

/-- A server without `EnforceLDAP` has sent nothing when a packet crashes or blocks it. -/
theorem silent_end (he : srv.enforce = false) (o : Oracle) (p : Packet) (b : Str) (st : σ)
    (hn : (handlePacket V srv o p b st).next = .hang ∨ (handlePacket V srv o p b st).next = .crash) : (handlePacket V srv o p b st).resps = [] := by
  have h := handlePacket_cases V srv o p b st
  have hreply : ∀ id tag x, (reply (σ := σ) id tag b x).next = .hang ∨ (reply (σ := σ) id tag b x).next = .crash → (reply (σ := σ) id tag b x).resps = [] := by
    intro id tag x h
    obtain ⟨r, st⟩ := x
    cases r <;> first | rfl | (rcases h with h | h <;> cases h)
  generalize handlePacket V srv o p b st = out at h hn ⊢
  cases h with
  | closed => rfl
  | crash => rfl
  | hang => rfl
  | addHang => rfl
  | add id req => exact hreply _ _ _ hn
  | delete id req => exact hreply _ _ _ hn
  | modifyDN id req => exact hreply _ _ _ hn
  | modify id req => exact hreply _ _ _ hn
  | compare id req => rcases hn with h | h <;> cases h
  | bind id req =>
    unfold stepBind at hn ⊢
    repeat' split
    all_goals first | rfl | skip
    all_goals simp_all
  | extended id req =>
    unfold stepExtended at hn ⊢
    repeat' split
    all_goals first | rfl | skip
    all_goals simp_all
  | search id req controls =>
    have hb : ∀ before x st', handleSearch V srv b req controls st = ((before, x), st') → before = [] := by
      intro before x st' h
      unfold handleSearch at h
      rw [he] at h
      simp only [Bool.false_eq_true, if_false] at h
      repeat' split at h
      all_goals first | (cases h; rfl) | skip
    unfold stepSearch at hn ⊢
    split
    · rename_i before st' h; rw [hb _ _ _ h]; rfl
    · rename_i before st' h; rw [hb _ _ _ h]; rfl
    · rename_i before e st' h; rw [hb _ _ _ h]; rfl
    · rename_i x y st' h
      rw [h] at hn
      dsimp only at hn
      split at hn <;> (rcases hn with h | h <;> cases h)
end

section
variable {ι : Type} {V : Env} {W : WalkOrd} {cfg : LdifCfg} {g : Nat} {stats : Bool} {loop : Nat → Bool} {m c : LMem}

/-- Only a returned request is cut. -/
theorem LParStep.cutOnly {s s' : LPar ι} (h : LParStep V W cfg g stats loop s s') :
    (∃ l, s'.trace = s.trace ++ l ∧ ∀ id rs, LSeen.io (.cut id rs) ∉ l) ∨
    ∃ cn j rep rs, s.down = false ∧ s.conns cn = .returned j rep ∧ s'.trace = s.trace ++ [.io (.cut j.id rs)] ∧
      rs <+: (ldifEnd V g stats j.o j.p j.b rep).1 := by
  cases h with
  | lost cn j rep k hd hc hk => exact .inr ⟨cn, j, rep, _, hd, hc, rfl, List.take_prefix _ _⟩
  | block cn j rep hd hc hn => exact .inr ⟨cn, j, rep, _, hd, hc, rfl, List.prefix_refl _⟩
  | crash cn j rep hd hc hn => exact .inr ⟨cn, j, rep, _, hd, hc, rfl, List.prefix_refl _⟩
  | _ => first | exact .inl ⟨[], (List.append_nil _).symm, nofun⟩ | exact .inl ⟨_, rfl, by simp⟩

/-- C102 for the LDIF server: whenever an answer ends early, nothing was sent, or the responses sent are the first ones of an answer which the
server could have given instead at that moment, everything else being the same. So all that C85, C86 and C87 say of answers holds of the
part of an answer that arrived. -/
theorem C102_ldif_cut {s : LPar ι} (h : LParReach V W cfg g stats loop m c s) {t₁ t₂ : List (LSeen ι)} {id : ι} {rs : List Resp}
    (ht : s.trace = t₁ ++ .io (.cut id rs) :: t₂) :
    rs = [] ∨ ∃ s' all, LParReach V W cfg g stats loop m c s' ∧ s'.trace = t₁ ++ [.io (.answer id all)] ∧ rs <+: all := by
  induction h generalizing t₂ with
  | start => exact absurd ht (by simp [LPar.start])
  | step s s' hr hs ih =>
    have old : ∀ l, s'.trace = s.trace ++ l → LSeen.io (.cut id rs) ∉ l → ∃ t₂, s.trace = t₁ ++ .io (.cut id rs) :: t₂ := by
      intro l hl hn
      rw [ht] at hl
      rcases List.append_eq_append_iff.1 hl with ⟨a, h1, h2⟩ | ⟨a, h1, h2⟩
      · cases a with
        | nil =>
          rw [List.nil_append] at h2
          exact absurd (h2 ▸ List.mem_cons_self) hn
        | cons x a =>
          rw [List.cons_append] at h2
          injection h2 with h2 h3
          subst h2
          exact ⟨a, h1⟩
      · exact absurd (by rw [h2]; simp) hn
    rcases hs.cutOnly with ⟨l, h1, h2⟩ | ⟨cn, j, rep, rs', hd, hc, h1, h2⟩
    · obtain ⟨t, h3⟩ := old l h1 (h2 id rs)
      exact ih h3
    · by_cases hm : ∃ t₂, s.trace = t₁ ++ .io (.cut id rs) :: t₂
      · obtain ⟨t, h3⟩ := hm
        exact ih h3
      have he : LSeen.io (.cut id rs) ∈ [LSeen.io (Seen.cut j.id rs')] := Classical.byContradiction fun hn => hm (old _ h1 hn)
      rw [List.mem_singleton] at he
      injection he with he
      injection he with he1 he2
      subst he1
      subst he2
      have ht1 : t₁ = s.trace := by
        rw [ht] at h1
        rcases List.append_eq_append_iff.1 h1 with ⟨a, h3, h4⟩ | ⟨a, h3, h4⟩
        · cases a with
          | nil => simpa using h3.symm
          | cons x a =>
            rw [List.cons_append] at h4
            injection h4 with h4 h5
            subst h4
            exact absurd ⟨a, h3⟩ hm
        · cases a with
          | nil => simpa using h3
          | cons x a =>
            rw [List.cons_append] at h4
            injection h4 with h4 h5
            simp at h5
      subst ht1
      have hend := silent_end (V := V) (srv := recordLdif rep g stats) rfl j.o j.p j.b none
      cases hn : (ldifEnd V g stats j.o j.p j.b rep).2 with
      | go b' => exact .inr ⟨_, _, .step _ _ hr (.goOn s cn j rep b' hd hc hn), rfl, h2⟩
      | closed => exact .inr ⟨_, _, .step _ _ hr (.hangUp s cn j rep hd hc hn), rfl, h2⟩
      | hang =>
        have : (ldifEnd V g stats j.o j.p j.b rep).1 = [] := hend (.inl hn)
        rw [this] at h2
        exact .inl (List.prefix_nil.1 h2)
      | crash =>
        have : (ldifEnd V g stats j.o j.p j.b rep).1 = [] := hend (.inr hn)
        rw [this] at h2
        exact .inl (List.prefix_nil.1 h2)
end

/-! ## The database server -/

section
variable {ι : Type} {V : Env} {G : GobEnv} {cfg : BoltCfg} {n : Nat} {stats : Bool}

/-- C102 for the database server: a request whose answer ended early took its turn like any other request, among all requests that were
carried out one after the other with the same answers and the same database as in this execution, and the client has got the first
responses of the answer it got there; or it is a request that crashes the server or blocks its connection. So whether the client is still
there has no influence on what becomes of its request, on the database and on the answers to other clients. -/
theorem C102_db_cut (db : Db) (s : Par ι) (h : ParReach V G cfg n stats db s) {id : ι} {rs : List Resp} (hc : Seen.cut id rs ∈ s.trace) :
    ∃ order, OneByOne V (boltSrv V G cfg n stats) db s order ∧
      ((∃ (i : Nat) (e : Ev) (all : List Resp), order[i]? = some (id, e) ∧
        ((World.init db).run V (boltSrv V G cfg n stats) (order.map (·.2))).2[i]? = some (e, all) ∧ rs <+: all) ∨
      ∃ c p o k b, Seen.arrive id (.packet c p o) ∈ s.trace ∧
        let w := ((World.init db).run V (boltSrv V G cfg n stats) ((order.take k).map (·.2))).1
        w.conn c = some b ∧ rs <+: (handlePacket V (boltSrv V G cfg n stats) o p b w.st).resps ∧
        ((handlePacket V (boltSrv V G cfg n stats) o p b w.st).next = .crash ∨
          (handlePacket V (boltSrv V G cfg n stats) o p b w.st).next = .hang)) := by
  obtain ⟨order, O⟩ := C36_packets db s h
  exact ⟨order, O, O.cuts id rs hc⟩

/-- C102: each request is answered at most once, whether completely or not. -/
theorem C102_one_answer (db : Db) (s : Par ι) (h : ParReach V G cfg n stats db s) : (s.trace.filterMap Seen.ended).Nodup :=
  (one_inv h).nodup

end

section
variable {ι : Type} {V : Env} {G : GobEnv} {cfg : BoltCfg} {n : Nat} {stats : Bool}

/-- A request that changes the database is carried out without being disturbed, and the client is gone when the responses are sent. -/
theorem write_lost {db : Db} {s : Par ι} (h : ParReach V G cfg n stats db s) (hd : s.down = false) {c : Nat} {j : Job ι} {p : Prog Reply}
    (hw : packetWork V G cfg n stats j.o j.p j.b = .write p) (hc : s.conns c = .writing j p s.disk)
    (hn : 0 < (packetEnd V cfg n stats j.o j.p j.b ((packetWork V G cfg n stats j.o j.p j.b).exec s.disk).1).1.length) :
    ParReach V G cfg n stats db { s with
      disk := ((packetWork V G cfg n stats j.o j.p j.b).exec s.disk).2
      lock := none
      conns := setStage s.conns c .over
      trace := s.trace ++ [.cut j.id []] } := by
  have hrun : p.run s.disk ≠ .hang := packet_write_ends hw _
  have hv : ((packetWork V G cfg n stats j.o j.p j.b).exec s.disk).1 = view p s.disk := by
    rw [hw]; simp only [Work.exec, update, view]
    cases p.run s.disk <;> rfl
  have hl : ((packetWork V G cfg n stats j.o j.p j.b).exec s.disk).2 = diskAfter p s.disk s.disk := by
    rw [hw]; simp only [Work.exec, update, diskAfter]
    cases p.run s.disk <;> rfl
  rw [hv] at hn
  rw [hl]
  have h1 := h.steps (drive_write (V := V) (G := G) (cfg := cfg) (genPwLen := n) (stats := stats) p s s.disk hd hc hrun)
  have h2 := ParReach.step _ _ h1 (.lost _ c j _ 0 hd (setStage_self _ _ _) hn)
  simpa [setStage_set] using h2

end

/-- Non-vacuity: the administrator deletes an entry and is gone when the result is sent. The entry is gone, too. -/
theorem cut_example : ∃ s : Par Nat, ParReach toyEnv gobInstance toyCfg 8 false toyDb s ∧ s.down = false ∧ s.lock = none ∧
    s.disk = ((parWork parDelete).exec toyDb).2 ∧
    s.trace = [.arrive 0 (.packet 0 parBind.p parBind.o), .answer 0 [.result 1 1 0],
      .arrive 1 (.packet 0 parDelete.p parDelete.o), .cut 1 []] := by
  obtain ⟨pb, hpb⟩ := par_read (j := parBind) (by decide +kernel)
  obtain ⟨pd, hpd⟩ := par_write (j := parDelete) (by decide +kernel)
  have h0 : ParReach (ι := Nat) toyEnv gobInstance toyCfg 8 false toyDb (Par.start toyDb) := .start
  have h1 := ParReach.step _ _ h0 (.arrive _ 0 [] 0 parBind.o parBind.p rfl rfl (by simp [Par.start]))
  have h2 := ParReach.step _ _ h1 (.beginRead _ 0 parBind pb rfl rfl hpb)
  have h3 := read_through (c := 0) (d := toyDb) h2 rfl hpb rfl (b' := b!"uid=admin,dc=lg") (by decide +kernel) (by decide +kernel)
  have h4 := ParReach.step _ _ h3 (.arrive _ 0 b!"uid=admin,dc=lg" 1 parDelete.o parDelete.p rfl rfl (by simp [Par.start]))
  have h5 := ParReach.step _ _ h4 (.beginWrite _ 0 parDelete pd rfl rfl hpd rfl)
  have h6 := write_lost (c := 0) (j := parDelete) h5 rfl hpd rfl
    (show 0 < (packetEnd toyEnv toyCfg 8 false parDelete.o parDelete.p parDelete.b ((parWork parDelete).exec toyDb).1).1.length by decide +kernel)
  refine ⟨_, h6, rfl, rfl, rfl, ?_⟩
  have e1 : (packetEnd toyEnv toyCfg 8 false parBind.o parBind.p parBind.b ((parWork parBind).exec toyDb).1).1 = [.result 1 1 0] := by decide +kernel
  unfold parWork at e1
  simp only [Par.start, e1]
  rfl

example : toyDb.tbl .dn2id b!"uid=ann,dc=lg" ≠ none ∧ ((parWork parDelete).exec toyDb).2.tbl .dn2id b!"uid=ann,dc=lg" = none := by decide +kernel

/-- The number of the request that connection 0 is about to answer, and the responses. -/
def aboutToSay (s : LPar Nat) : Option (Nat × List Resp) :=
  match s.conns 0 with
  | .returned j rep => some (j.id, (ldifEnd ldEnv 8 false j.o j.p j.b rep).1)
  | _ => none

/-- Non-vacuity: the client asks for the first page, and is gone after the first of the two responses. -/
example : ∃ (s : LPar Nat) (t₁ : List (LSeen Nat)), LParReach ldEnv ldOrd ldCfg 8 false (fun _ => true) (ldMem ldRecs) (ldMem []) s ∧
    s.trace = t₁ ++ [.io (.cut 1 [.entry 9 ⟨b!"uid=ann,ou=people,dc=lg", [⟨b!"cn", [b!"Ann Berg"]⟩]⟩])] := by
  have h := ldLeads_reach ldRecs [] (ldUsedUp.take 4)
  have hd : (ldLeads ldRecs [] (ldUsedUp.take 4)).down = false := by decide +kernel
  have hs : aboutToSay (ldLeads ldRecs [] (ldUsedUp.take 4)) = some (1,
    [.entry 9 ⟨b!"uid=ann,ou=people,dc=lg", [⟨b!"cn", [b!"Ann Berg"]⟩]⟩, .searchDone 9 0 (some [.paging 0 b!"abcdefghijk"])]) := by decide +kernel
  generalize ldLeads ldRecs [] (ldUsedUp.take 4) = s at h hd hs
  unfold aboutToSay at hs
  split at hs
  · rename_i j rep hc
    injection hs with hs
    injection hs with h1 h2
    have h3 := LParReach.step _ _ h (.lost s 0 j rep 1 hd hc (by rw [h2]; decide))
    rw [h1, h2] at h3
    exact ⟨_, _, h3, rfl⟩
  · cases hs

end Idm
