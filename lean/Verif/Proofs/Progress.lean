import Verif.Proofs.Parallel
import Verif.Proofs.Links
import Verif.Proofs.Crash
import Verif.Props.BoltAccess
/-!
# Overlapping requests do not block each other
-/
namespace Idm

/-! ## Transaction bodies end -/

/-- The body ends on every database. -/
def Ends {α : Type} (p : Prog α) : Prop := ∀ db, p.run db ≠ .hang

namespace Ends
variable {α β : Type}

theorem ret (a : α) : Ends (.ret a) := fun _ h => by cases h
theorem fail (e : Err) : Ends (.fail e : Prog α) := fun _ h => by cases h
theorem panic : Ends (.panic : Prog α) := fun _ h => by cases h

theorem bind {p : Prog α} {f : α → Prog β} (hp : Ends p) (hf : ∀ a, Ends (f a)) : Ends (p >>= f) := by
  intro db h
  rw [Prog.run_bind] at h
  cases hr : p.run db with
  | ok r => rw [hr] at h; exact hf r.1 r.2 h
  | err e => rw [hr] at h; cases h
  | panic => rw [hr] at h; cases h
  | hang => exact hp db hr

theorem get! (b : Bkt) (k : Str) : Ends (Prog.get! b k) := fun _ h => by cases h
theorem put! (b : Bkt) (k v : Str) : Ends (Prog.put! b k v) := by
  intro db h
  simp only [Prog.put!, Prog.run] at h
  split at h <;> cases h
theorem del! (b : Bkt) (k : Str) : Ends (Prog.del! b k) := fun _ h => by cases h
theorem nextSeq! : Ends Prog.nextSeq! := fun _ h => by cases h
theorem lift {r : Res α} (h : r ≠ .hang) : Ends (Prog.lift r) := by
  intro db h'
  cases r with
  | hang => exact h rfl
  | _ => cases h'

theorem decodeId (v : Str) : Idm.decodeId v ≠ .hang := by
  unfold Idm.decodeId
  split <;> exact fun h => by cases h

theorem getIDByDN (n : Str) : Ends (Idm.getIDByDN n) := by
  unfold Idm.getIDByDN
  refine bind (get! _ _) fun v => ?_
  cases v with
  | none => exact ret _
  | some v => exact lift (decodeId v)

theorem getEntryByID (G : GobEnv) (id : Nat) : Ends (Idm.getEntryByID G id) := by
  unfold Idm.getEntryByID
  refine bind (get! _ _) fun v => ?_
  split
  · exact fail _
  · exact ret _

theorem getEntryByDN (G : GobEnv) (n : Str) : Ends (Idm.getEntryByDN G n) := by
  unfold Idm.getEntryByDN
  refine bind (getIDByDN _) fun id => ?_
  split
  · exact fail _
  · exact bind (getEntryByID G id) fun e => ret _

theorem applyChange (C : CaseEnv) (rdn : RDN) (old attrs : List Attr) (c : Change) : Idm.applyChange C rdn old attrs c ≠ .hang := by
  unfold Idm.applyChange
  split
  · exact fun h => by cases h
  · split
    · split <;> exact fun h => by cases h
    · split
      · split <;> exact fun h => by cases h
      · exact fun h => by cases h

theorem applyChanges (C : CaseEnv) (rdn : RDN) (old : List Attr) : ∀ (cs : List Change) (attrs : List Attr), Idm.applyChanges C rdn old attrs cs ≠ .hang := by
  intro cs
  induction cs with
  | nil => intro attrs h; cases h
  | cons c cs ih =>
    intro attrs h
    unfold Idm.applyChanges at h
    cases hr : Idm.applyChange C rdn old attrs c with
    | ok a => rw [hr] at h; exact ih a h
    | err e => rw [hr] at h; cases h
    | panic => rw [hr] at h; cases h
    | hang => exact applyChange C rdn old attrs c hr

theorem applyModify (C : CaseEnv) (e : Entry) (dn : Str) (cs : List Change) : Idm.applyModify C e dn cs ≠ .hang := by
  unfold Idm.applyModify
  split
  · exact fun h => by cases h
  · exact fun h => by cases h
  · rename_i rdn rest _
    split
    · exact fun h => by cases h
    · split
      · intro h
        cases hr : Idm.applyChanges C rdn e.attrs e.attrs cs with
        | hang => exact applyChanges C rdn e.attrs cs e.attrs hr
        | ok a => rw [hr] at h; cases h
        | err e => rw [hr] at h; cases h
        | panic => rw [hr] at h; cases h
      · exact fun h => by cases h

theorem modifyWithTxn (C : CaseEnv) (G : GobEnv) (id : Nat) (e : Entry) (dn : Str) (cs : List Change) : Ends (entryModifyWithTxn C G id e dn cs) := by
  unfold entryModifyWithTxn
  exact bind (lift (applyModify C e dn cs)) fun e' => put! _ _ _

theorem putBody (G : GobEnv) (base n parent : Str) (e : Entry) : Ends (entryPutBody G base n parent e) := by
  unfold entryPutBody
  refine bind (getIDByDN _) fun id => ?_
  split
  · exact fail _
  · refine bind nextSeq! fun id => ?_
    refine bind (put! _ _ _) fun _ => ?_
    dsimp only
    split
    · refine bind ?_ fun _ => put! _ _ _
      unfold addID2Children
      refine bind (getIDByDN _) fun id => ?_
      split
      · exact fail _
      · exact bind (get! _ _) fun _ => put! _ _ _
    · exact put! _ _ _

theorem deleteBody (n parent : Str) : Ends (entryDeleteBody n parent) := by
  unfold entryDeleteBody
  refine bind (getIDByDN _) fun id => ?_
  split
  · exact fail _
  · refine bind (get! _ _) fun _ => ?_
    split
    · exact fail _
    · refine bind (getIDByDN _) fun id => ?_
      split
      · exact fail _
      · refine bind (get! _ _) fun _ => ?_
        refine bind (put! _ _ _) fun _ => ?_
        refine bind (del! _ _) fun _ => ?_
        exact del! _ _

theorem renameBody (C : CaseEnv) (G : GobEnv) (a b : Str) (cs : List Change) : Ends (entryModifyDNBody C G a b cs) := by
  unfold entryModifyDNBody
  refine bind (getIDByDN _) fun id => ?_
  split
  · exact fail _
  · refine bind (getEntryByDN _ _) fun x => ?_
    refine bind ?_ fun ids => ?_
    · unfold getChildrenIDs
      exact bind (get! _ _) fun _ => ret _
    · split
      · exact fail _
      · refine bind (modifyWithTxn _ _ _ _ _ _) fun _ => ?_
        refine bind (put! _ _ _) fun _ => ?_
        exact del! _ _

theorem passwordBody (C : CaseEnv) (G : GobEnv) {validate : Str → Str → Res Bool} (hv : ∀ a b, validate a b ≠ .hang) (n : Str) (r : PwModReq) :
    Ends (updatePasswordBody C G validate n r) := by
  unfold updatePasswordBody
  refine bind (getEntryByDN _ _) fun x => ?_
  have tail : ∀ u : Unit, Ends (match Idm.applyModify C x.1 r.userIdentity [⟨opReplace, sUserPassword, [r.newPassword]⟩] with
      | .ok e' => Prog.put! .id2entry (idToBytes x.2) (G.enc e')
      | .err _ => .fail (.ldap rcOperationsError true)
      | .panic => .panic
      | .hang => .hang) := by
    intro _
    split
    · exact put! _ _ _
    · exact fail _
    · exact panic
    · rename_i h; exact absurd h (applyModify _ _ _ _)
  dsimp only
  split
  · split
    · exact bind (ret _) tail
    · exact bind (fail _) tail
    · exact bind (fail _) tail
    · exact bind panic tail
    · rename_i h; exact absurd h (hv _ _)
  · exact tail ()

theorem callOp (C : CaseEnv) (G : GobEnv) {validate : Str → Str → Res Bool} (hv : ∀ a b, validate a b ≠ .hang) (base : Str) (o : Op)
    {p : Prog Unit} (h : Idm.callOp C G validate base o = .write p) : Ends p := by
  cases o with
  | add e =>
    simp only [Idm.callOp, callAdd] at h
    split at h
    · cases h
    · cases h
    · split at h
      · cases h
      · cases h; exact putBody _ _ _ _ _
  | delete dn =>
    simp only [Idm.callOp, callDelete] at h
    split at h
    · cases h
    · cases h
    · cases h; exact deleteBody _ _
  | modify dn cs =>
    simp only [Idm.callOp, callModify] at h
    split at h
    · cases h
    · cases h
      exact bind (getEntryByDN _ _) fun x => modifyWithTxn _ _ _ _ _ _
  | rename r =>
    simp only [Idm.callOp, callRename] at h
    split at h
    · cases h
    · split at h
      · cases h
      · cases h
      · split at h
        · cases h
        · cases h; exact renameBody _ _ _ _ _
  | password r =>
    simp only [Idm.callOp, callPassword] at h
    split at h
    · cases h
    · cases h; exact passwordBody C G hv _ r

end Ends

section
variable {V : Env} {G : GobEnv} {cfg : BoltCfg} {genPwLen : Nat} {stats : Bool} {ι : Type}

theorem packet_write_ends {o : Oracle} {p : Packet} {b : Str} {p₀ : Prog Reply}
    (h : packetWork V G cfg genPwLen stats o p b = .write p₀) : Ends p₀ := by
  unfold packetWork workOf at h
  split at h
  · cases h
  · rename_i op _
    cases hc : callOp V.C G (validatePw V.C V.K) cfg.store op with
    | direct r => rw [hc] at h; cases h
    | read p => rw [hc] at h; cases h
    | write p =>
      rw [hc] at h
      cases h
      exact Ends.bind (Ends.callOp V.C G (fun a b => validatePw_not_hang V.K a b) cfg.store op hc) fun _ => Ends.ret _
  · split at h <;> cases h

theorem packet_read_ends {o : Oracle} {p : Packet} {b : Str} {p₀ : Db → Prog Reply} {db : Db} (L : Links db)
    (h : packetWork V G cfg genPwLen stats o p b = .read p₀) : (p₀ db).run db ≠ .hang := by
  unfold packetWork workOf at h
  split at h
  · cases h
  · rename_i op _
    cases hc : callOp V.C G (validatePw V.C V.K) cfg.store op with
    | direct r => rw [hc] at h; cases h
    | write p => rw [hc] at h; cases h
    | read p => cases op <;> simp only [callOp, callAdd, callDelete, callModify, callRename, callPassword] at hc <;> (repeat' split at hc) <;> cases hc
  · rename_i base scope _
    split at h
    · cases h
    · rename_i n hn
      cases h
      obtain ⟨a, ha⟩ := L.search V.C G base scope
      have := ha (db.seq + 1) (by omega)
      unfold searchFuel at this
      rw [hn] at this
      dsimp only at this
      intro hh
      have hb := Prog.run_bind (searchBody G (db.seq + 1) n scope) (fun r => Prog.ret (Reply.entries r.1 r.2)) db
      have hb : ((searchBody G (db.seq + 1) n scope).bind fun r => .ret (Reply.entries r.1 r.2)).run db =
        ((searchBody G (db.seq + 1) n scope).run db >>= fun r => .ok (.entries r.1.1 r.1.2, r.2)) := hb
      rw [hb] at hh
      unfold view at this
      cases hr : (searchBody G (db.seq + 1) n scope).run db with
      | ok r => rw [hr] at hh; cases hh
      | err e => rw [hr] at hh; cases hh
      | panic => rw [hr] at hh; cases hh
      | hang => rw [hr] at this; cases this


/-! ## Where results come from -/

theorem ParSteps.trans {a b c : Par ι} (h : ParSteps V G cfg genPwLen stats a b) (h' : ParSteps V G cfg genPwLen stats b c) :
    ParSteps V G cfg genPwLen stats a c := by
  induction h with
  | refl => exact h'
  | step s s' s'' hs _ ih => exact .step s s' c hs (ih h')

theorem ParSteps.one {a b : Par ι} (h : ParStep V G cfg genPwLen stats a b) : ParSteps V G cfg genPwLen stats a b := .step _ _ _ h (.refl _)

theorem ParReach.steps {db : Db} {a b : Par ι} (h : ParReach V G cfg genPwLen stats db a) (h' : ParSteps V G cfg genPwLen stats a b) :
    ParReach V G cfg genPwLen stats db b := by
  induction h' with
  | refl => exact h
  | step s s' s'' hs _ ih => exact ih (.step s s' h hs)

/-- The version of the database a transaction or its result comes from. -/
def StageFrom (V : Env) (G : GobEnv) (cfg : BoltCfg) (genPwLen : Nat) (stats : Bool) (db : Db) (n : Nat) : Stage ι → Prop
  | .reading j p d => ∃ (s₁ : Par ι) (p₀ : Db → Prog Reply), ParReach V G cfg genPwLen stats db s₁ ∧ s₁.trace.length ≤ n ∧
      packetWork V G cfg genPwLen stats j.o j.p j.b = .read p₀ ∧ p.run d = (p₀ s₁.disk).run s₁.disk
  | .returned j r => ∃ s₁ : Par ι, ParReach V G cfg genPwLen stats db s₁ ∧ s₁.trace.length ≤ n ∧
      ((packetWork V G cfg genPwLen stats j.o j.p j.b).exec s₁.disk).1 = r
  | _ => True

theorem StageFrom.mono {db : Db} {n m : Nat} (h : n ≤ m) {x : Stage ι} (hx : StageFrom V G cfg genPwLen stats db n x) :
    StageFrom V G cfg genPwLen stats db m x := by
  cases x with
  | reading j p d => obtain ⟨s₁, p₀, h1, h2, h3⟩ := hx; exact ⟨s₁, p₀, h1, Nat.le_trans h2 h, h3⟩
  | returned j r => obtain ⟨s₁, h1, h2, h3⟩ := hx; exact ⟨s₁, h1, Nat.le_trans h2 h, h3⟩
  | _ => trivial

theorem stageFrom_set {db : Db} {n m : Nat} (h : n ≤ m) {f : Nat → Stage ι} (hf : ∀ u, StageFrom V G cfg genPwLen stats db n (f u))
    {c : Nat} {x : Stage ι} (hx : StageFrom V G cfg genPwLen stats db m x) : ∀ u, StageFrom V G cfg genPwLen stats db m (setStage f c x u) := by
  intro u
  by_cases hu : u = c
  · subst hu; rw [setStage_self]; exact hx
  · rw [setStage_ne _ hu]; exact (hf u).mono h

theorem outcome_view {α : Type} {p : Prog α} {d : Db} {r : Res α} (ho : p.outcome = some r) : view p d = r := by
  cases p <;> simp only [Prog.outcome, Option.some.injEq, reduceCtorEq] at ho <;> subst ho <;> rfl

theorem update_fst {α : Type} (p : Prog α) (d : Db) : (update p d).1 = view p d := by
  unfold update view
  cases p.run d with
  | ok r => rfl
  | _ => rfl

theorem stages_from {db : Db} {s : Par ι} (h : ParReach V G cfg genPwLen stats db s) : ∀ c, StageFrom V G cfg genPwLen stats db s.trace.length (s.conns c) := by
  induction h with
  | start => intro c; trivial
  | step s s' hr hs ih =>
    obtain ⟨order, I⟩ := par_reach hr
    have w : ∀ c j p d, s.conns c = .writing j p d → ∃ p₀, packetWork V G cfg genPwLen stats j.o j.p j.b = .write p₀ ∧ view p d = view p₀ s.disk := by
      intro c j p d e
      have := I.stages c
      rw [e] at this
      obtain ⟨-, -, p₀, h3, h4⟩ := this
      exact ⟨p₀, h3, view_congr h4⟩
    cases hs with
    | arrive c b id o p hd h hnew => exact stageFrom_set (by simp) ih trivial
    | eof c b id hd h hnew => exact stageFrom_set (by simp) ih trivial
    | direct c j r hd h hw => exact stageFrom_set (Nat.le_refl _) ih ⟨s, hr, Nat.le_refl _, by rw [hw]; rfl⟩
    | beginRead c j p hd h hw => exact stageFrom_set (Nat.le_refl _) ih ⟨s, p, hr, Nat.le_refl _, hw, rfl⟩
    | beginWrite c j p hd h hw hl => exact stageFrom_set (Nat.le_refl _) ih trivial
    | stepRead c j p d q hd h hi =>
      have := ih c
      rw [h] at this
      obtain ⟨s₁, p₀, h1, h2, h3, h4⟩ := this
      exact stageFrom_set (Nat.le_refl _) ih ⟨s₁, p₀, h1, h2, h3, by rw [← h4]; exact hi.run⟩
    | stepWrite c j p d q hd h hi => exact stageFrom_set (Nat.le_refl _) ih trivial
    | endRead c j p d r hd h ho =>
      have := ih c
      rw [h] at this
      obtain ⟨s₁, p₀, h1, h2, h3, h4⟩ := this
      refine stageFrom_set (Nat.le_refl _) ih ⟨s₁, h1, h2, ?_⟩
      rw [h3, ← outcome_view (d := d) ho]
      exact (view_congr h4).symm
    | commit c j a d hd h =>
      obtain ⟨p₀, h3, h4⟩ := w c j _ d h
      refine stageFrom_set (Nat.le_refl _) ih ⟨s, hr, Nat.le_refl _, ?_⟩
      rw [h3]
      show (update p₀ s.disk).1 = _
      rw [update_fst, ← h4]
      rfl
    | rollback c j p d r hd h ho hr' =>
      obtain ⟨p₀, h3, h4⟩ := w c j _ d h
      refine stageFrom_set (Nat.le_refl _) ih ⟨s, hr, Nat.le_refl _, ?_⟩
      rw [h3]
      show (update p₀ s.disk).1 = _
      rw [update_fst, ← h4]
      exact outcome_view ho
    | goOn c j r b' hd h hn => exact stageFrom_set (by simp) ih trivial
    | close c j r hd h hn => exact stageFrom_set (by simp) ih trivial
    | lost c j r k hd h hk => exact stageFrom_set (by simp) ih trivial
    | block c j r hd h hn => exact stageFrom_set (by simp) ih trivial
    | crash c j r hd h hn => exact fun u => (ih u).mono (by simp)

theorem lock_held {db : Db} {s : Par ι} (h : ParReach V G cfg genPwLen stats db s) : ∀ u, s.lock = some u → ∃ j p d, s.conns u = .writing j p d := by
  induction h with
  | start => intro u h; cases h
  | step s s' hr hs ih =>
    -- the stepping goroutine is not the one that holds the lock, or keeps it
    have other : ∀ (c : Nat) (x : Stage ι), (∀ j p d, s.conns c ≠ .writing j p d) → ∀ u, s.lock = some u →
        ∃ j p d, setStage s.conns c x u = .writing j p d := by
      intro c x hc u hu
      obtain ⟨j, p, d, e⟩ := ih u hu
      have : u ≠ c := by rintro rfl; exact hc j p d e
      exact ⟨j, p, d, by rw [setStage_ne _ this]; exact e⟩
    cases hs with
    | arrive c b id o p hd h hnew => exact other c _ (by rw [h]; exact fun _ _ _ h => by cases h)
    | eof c b id hd h hnew => exact other c _ (by rw [h]; exact fun _ _ _ h => by cases h)
    | direct c j r hd h hw => exact other c _ (by rw [h]; exact fun _ _ _ h => by cases h)
    | beginRead c j p hd h hw => exact other c _ (by rw [h]; exact fun _ _ _ h => by cases h)
    | beginWrite c j p hd h hw hl =>
      intro u hu
      cases hu
      exact ⟨j, p, s.disk, setStage_self _ _ _⟩
    | stepRead c j p d q hd h hi => exact other c _ (by rw [h]; exact fun _ _ _ h => by cases h)
    | stepWrite c j p d q hd h hi =>
      intro u hu
      by_cases huc : u = c
      · subst huc; exact ⟨j, q.1, q.2, setStage_self _ _ _⟩
      · obtain ⟨j', p', d', e⟩ := ih u hu
        exact ⟨j', p', d', by simp only [setStage_ne _ huc]; exact e⟩
    | endRead c j p d r hd h ho => exact other c _ (by rw [h]; exact fun _ _ _ h => by cases h)
    | commit c j a d hd h => intro u hu; cases hu
    | rollback c j p d r hd h ho hr' => intro u hu; cases hu
    | goOn c j r b' hd h hn => exact other c _ (by rw [h]; exact fun _ _ _ h => by cases h)
    | close c j r hd h hn => exact other c _ (by rw [h]; exact fun _ _ _ h => by cases h)
    | lost c j r k hd h hk => exact other c _ (by rw [h]; exact fun _ _ _ h => by cases h)
    | block c j r hd h hn => exact other c _ (by rw [h]; exact fun _ _ _ h => by cases h)
    | crash c j r hd h hn => exact ih

/-! ## All versions are sound -/

theorem nodup_length_le {α : Type} : ∀ (l m : List α), l.Nodup → (∀ x ∈ l, x ∈ m) → l.length ≤ m.length := by
  intro l
  induction l with
  | nil => intro m _ _; simp
  | cons a l ih =>
    intro m hn hs
    obtain ⟨m₁, m₂, rfl⟩ := List.append_of_mem (hs a List.mem_cons_self)
    rw [List.nodup_cons] at hn
    have := ih (m₁ ++ m₂) hn.2 fun x hx => by
      have h1 := hs x (List.mem_cons_of_mem _ hx)
      have h2 : x ≠ a := by rintro rfl; exact hn.1 hx
      simp only [List.mem_append, List.mem_cons] at h1 ⊢
      rcases h1 with h | h | h
      · exact .inl h
      · exact absurd h h2
      · exact .inr h
    simp at this ⊢
    omega

/-- The request that arrived. -/
def Seen.arrival : Seen ι → Option ι
  | .arrive id _ => some id
  | .answer _ _ => none
  | .cut _ _ => none

theorem ParInv.length {db : Db} {s : Par ι} {order : List (ι × Ev)} (I : ParInv V G cfg genPwLen stats db s order) :
    order.length ≤ s.trace.length := by
  have h1 := nodup_length_le (order.map (·.1)) (s.trace.filterMap Seen.arrival) I.once fun x hx => by
    obtain ⟨y, hy, rfl⟩ := List.mem_map.1 hx
    exact List.mem_filterMap.2 ⟨_, I.arrived y.1 y.2 hy, rfl⟩
  have h2 := List.length_filterMap_le Seen.arrival s.trace
  simp at h1
  omega

theorem disk_links {db : Db} {s : Par ι} (L : Links db) (h : ParReach V G cfg genPwLen stats db s) (hlen : db.seq + s.trace.length < 2 ^ 64) :
    Links s.disk := by
  obtain ⟨order, I⟩ := par_reach h
  obtain ⟨ops, h1, -, h3, -⟩ := C34_database_is_a_history (V := V) (G := G) (cfg := cfg) (n := genPwLen) (stats := stats) db (order.map (·.2))
  have hl := I.length
  rw [← I.disk, h1]
  simp at h3
  exact (Links.run V.C G (validatePw V.C V.K) cfg.store ops db L (by omega)).1

/-! ## Running a goroutine to the end -/

theorem setStage_set (f : Nat → Stage ι) (c : Nat) (x y : Stage ι) : setStage (setStage f c x) c y = setStage f c y := by
  funext u
  simp only [setStage]
  split <;> rfl

theorem drive_read {c : Nat} {j : Job ι} : ∀ (p : Prog Reply) (s : Par ι) (d : Db), s.down = false → s.conns c = .reading j p d →
    p.run d ≠ .hang → ParSteps V G cfg genPwLen stats s { s with conns := setStage s.conns c (.returned j (view p d)) } := by
  intro p
  induction p with
  | ret a => intro s d hd h _; exact .one (.endRead s c j _ d _ hd h rfl)
  | fail e => intro s d hd h _; exact .one (.endRead s c j _ d _ hd h rfl)
  | panic => intro s d hd h _; exact .one (.endRead s c j _ d _ hd h rfl)
  | hang => intro s d hd h hr; exact absurd rfl hr
  | get b k f ih =>
    intro s d hd h hr
    have h1 := ParStep.stepRead (V := V) (G := G) (cfg := cfg) (genPwLen := genPwLen) (stats := stats) s c j _ d _ hd h (.get b k f d)
    have h2 := ih (d.tbl b k) { s with conns := setStage s.conns c (.reading j (f (d.tbl b k)) d) } d hd (setStage_self _ _ _) hr
    simp only [setStage_set] at h2
    exact .step _ _ _ h1 h2
  | put b k v f ih =>
    intro s d hd h hr
    by_cases hk : k = [] ∨ k.length > maxKeySize
    · have h1 := ParStep.stepRead (V := V) (G := G) (cfg := cfg) (genPwLen := genPwLen) (stats := stats) s c j _ d _ hd h (.putErr b k v f d hk)
      have h2 := ParStep.endRead (V := V) (G := G) (cfg := cfg) (genPwLen := genPwLen) (stats := stats)
        { s with conns := setStage s.conns c (.reading j (.fail .other) d) } c j _ d _ hd (setStage_self _ _ _) rfl
      simp only [setStage_set] at h2
      refine .step _ _ _ h1 ?_
      have hv : view (.put b k v f) d = .err .other := by simp only [view, Prog.run, if_pos hk]
      rw [hv]
      exact .one h2
    · have h1 := ParStep.stepRead (V := V) (G := G) (cfg := cfg) (genPwLen := genPwLen) (stats := stats) s c j _ d _ hd h (.put b k v f d hk)
      have hrun : (Prog.put b k v f).run d = f.run (d.set b k (some v)) := by simp only [Prog.run, if_neg hk]
      have h2 := ih { s with conns := setStage s.conns c (.reading j f (d.set b k (some v))) } (d.set b k (some v)) hd (setStage_self _ _ _)
        (by rw [← hrun]; exact hr)
      simp only [setStage_set] at h2
      rw [← view_congr hrun] at h2
      exact .step _ _ _ h1 h2
  | del b k f ih =>
    intro s d hd h hr
    have h1 := ParStep.stepRead (V := V) (G := G) (cfg := cfg) (genPwLen := genPwLen) (stats := stats) s c j _ d _ hd h (.del b k f d)
    have h2 := ih { s with conns := setStage s.conns c (.reading j f (d.set b k none)) } (d.set b k none) hd (setStage_self _ _ _) hr
    simp only [setStage_set] at h2
    exact .step _ _ _ h1 h2
  | nextSeq f ih =>
    intro s d hd h hr
    have h1 := ParStep.stepRead (V := V) (G := G) (cfg := cfg) (genPwLen := genPwLen) (stats := stats) s c j _ d _ hd h (.seq f d)
    have h2 := ih ((d.seq + 1) % 2 ^ 64) { s with conns := setStage s.conns c (.reading j (f ((d.seq + 1) % 2 ^ 64)) { d with seq := (d.seq + 1) % 2 ^ 64 }) }
      { d with seq := (d.seq + 1) % 2 ^ 64 } hd (setStage_self _ _ _) hr
    simp only [setStage_set] at h2
    exact .step _ _ _ h1 h2

/-- What a transaction on the copy `d` of the version `old` leaves on disk. -/
def diskAfter (p : Prog Reply) (d old : Db) : Db := match p.run d with
  | .ok (_, d') => d'
  | _ => old

theorem drive_write {c : Nat} {j : Job ι} : ∀ (p : Prog Reply) (s : Par ι) (d : Db), s.down = false → s.conns c = .writing j p d →
    p.run d ≠ .hang → ParSteps V G cfg genPwLen stats s
      { s with disk := diskAfter p d s.disk, lock := none, conns := setStage s.conns c (.returned j (view p d)) } := by
  intro p
  induction p with
  | ret a => intro s d hd h _; exact .one (.commit s c j a d hd h)
  | fail e => intro s d hd h _; exact .one (.rollback s c j _ d _ hd h rfl fun _ h => by cases h)
  | panic => intro s d hd h _; exact .one (.rollback s c j _ d _ hd h rfl fun _ h => by cases h)
  | hang => intro s d hd h hr; exact absurd rfl hr
  | get b k f ih =>
    intro s d hd h hr
    have h1 := ParStep.stepWrite (V := V) (G := G) (cfg := cfg) (genPwLen := genPwLen) (stats := stats) s c j _ d _ hd h (.get b k f d)
    have h2 := ih (d.tbl b k) { s with conns := setStage s.conns c (.writing j (f (d.tbl b k)) d) } d hd (setStage_self _ _ _) hr
    simp only [setStage_set] at h2
    exact .step _ _ _ h1 h2
  | put b k v f ih =>
    intro s d hd h hr
    by_cases hk : k = [] ∨ k.length > maxKeySize
    · have h1 := ParStep.stepWrite (V := V) (G := G) (cfg := cfg) (genPwLen := genPwLen) (stats := stats) s c j _ d _ hd h (.putErr b k v f d hk)
      have h2 := ParStep.rollback (V := V) (G := G) (cfg := cfg) (genPwLen := genPwLen) (stats := stats)
        { s with conns := setStage s.conns c (.writing j (.fail .other) d) } c j _ d _ hd (setStage_self _ _ _) rfl fun _ h => by cases h
      simp only [setStage_set] at h2
      refine .step _ _ _ h1 ?_
      have hrun : (Prog.put b k v f).run d = .err .other := by simp only [Prog.run, if_pos hk]
      have hv : view (.put b k v f) d = .err .other := by simp only [view, hrun]
      have hl : diskAfter (.put b k v f) d s.disk = s.disk := by simp only [diskAfter, hrun]
      rw [hv, hl]
      exact .one h2
    · have h1 := ParStep.stepWrite (V := V) (G := G) (cfg := cfg) (genPwLen := genPwLen) (stats := stats) s c j _ d _ hd h (.put b k v f d hk)
      have hrun : (Prog.put b k v f).run d = f.run (d.set b k (some v)) := by simp only [Prog.run, if_neg hk]
      have h2 := ih { s with conns := setStage s.conns c (.writing j f (d.set b k (some v))) } (d.set b k (some v)) hd (setStage_self _ _ _)
        (by rw [← hrun]; exact hr)
      simp only [setStage_set] at h2
      have hl : diskAfter (.put b k v f) d s.disk = diskAfter f (d.set b k (some v)) s.disk := by simp only [diskAfter, hrun]
      rw [← view_congr hrun, ← hl] at h2
      exact .step _ _ _ h1 h2
  | del b k f ih =>
    intro s d hd h hr
    have h1 := ParStep.stepWrite (V := V) (G := G) (cfg := cfg) (genPwLen := genPwLen) (stats := stats) s c j _ d _ hd h (.del b k f d)
    have h2 := ih { s with conns := setStage s.conns c (.writing j f (d.set b k none)) } (d.set b k none) hd (setStage_self _ _ _) hr
    simp only [setStage_set] at h2
    exact .step _ _ _ h1 h2
  | nextSeq f ih =>
    intro s d hd h hr
    have h1 := ParStep.stepWrite (V := V) (G := G) (cfg := cfg) (genPwLen := genPwLen) (stats := stats) s c j _ d _ hd h (.seq f d)
    have h2 := ih ((d.seq + 1) % 2 ^ 64) { s with conns := setStage s.conns c (.writing j (f ((d.seq + 1) % 2 ^ 64)) { d with seq := (d.seq + 1) % 2 ^ 64 }) }
      { d with seq := (d.seq + 1) % 2 ^ 64 } hd (setStage_self _ _ _) hr
    simp only [setStage_set] at h2
    exact .step _ _ _ h1 h2

theorem Answerable.after {db : Db} {s s' : Par ι} {j : Job ι} (h : Answerable V G cfg genPwLen stats db s' j)
    (hs : ParSteps V G cfg genPwLen stats s s') (ht : s'.trace = s.trace) : Answerable V G cfg genPwLen stats db s j := by
  rcases h with ⟨s'', rs, h1, h2⟩ | h
  · exact .inl ⟨s'', rs, hs.trans h1, by rw [h2, ht]⟩
  · exact .inr h

theorem returned_answerable {db : Db} {s : Par ι} (h : ParReach V G cfg genPwLen stats db s) (hd : s.down = false) {c : Nat} {j : Job ι} {r : Res Reply}
    (hc : s.conns c = .returned j r) : Answerable V G cfg genPwLen stats db s j := by
  have hf := stages_from h c
  rw [hc] at hf
  obtain ⟨s₁, h1, -, h3⟩ := hf
  have halone := packet_alone (V := V) (G := G) (cfg := cfg) (genPwLen := genPwLen) (stats := stats) j.o j.p j.b s₁.disk
  rw [h3] at halone
  cases hn : (packetEnd V cfg genPwLen stats j.o j.p j.b r).2 with
  | go b' => exact .inl ⟨_, _, .one (.goOn s c j r b' hd hc hn), rfl⟩
  | closed => exact .inl ⟨_, _, .one (.close s c j r hd hc hn), rfl⟩
  | hang => exact .inr ⟨s₁, h1, .inr (by rw [halone]; exact hn)⟩
  | crash => exact .inr ⟨s₁, h1, .inl (by rw [halone]; exact hn)⟩

theorem reading_answerable {db : Db} {s : Par ι} (L : Links db) (h : ParReach V G cfg genPwLen stats db s) (hlen : db.seq + s.trace.length < 2 ^ 64)
    (hd : s.down = false) {c : Nat} {j : Job ι} {p : Prog Reply} {d : Db} (hc : s.conns c = .reading j p d) :
    Answerable V G cfg genPwLen stats db s j := by
  have hf := stages_from h c
  rw [hc] at hf
  obtain ⟨s₁, p₀, h1, h2, h3, h4⟩ := hf
  have hr : p.run d ≠ .hang := by
    rw [h4]
    exact packet_read_ends (disk_links L h1 (by omega)) h3
  have hs := drive_read (V := V) (G := G) (cfg := cfg) (genPwLen := genPwLen) (stats := stats) p s d hd hc hr
  exact (returned_answerable (h.steps hs) hd (setStage_self _ _ _)).after hs rfl

theorem writing_answerable {db : Db} {s : Par ι} (h : ParReach V G cfg genPwLen stats db s)
    (hd : s.down = false) {c : Nat} {j : Job ι} {p : Prog Reply} {d : Db} (hc : s.conns c = .writing j p d) :
    Answerable V G cfg genPwLen stats db s j ∧ p.run d ≠ .hang := by
  obtain ⟨order, I⟩ := par_reach h
  have := I.stages c
  rw [hc] at this
  obtain ⟨-, -, p₀, h3, h4⟩ := this
  have hr : p.run d ≠ .hang := by
    rw [h4]
    exact packet_write_ends h3 _
  have hs := drive_write (V := V) (G := G) (cfg := cfg) (genPwLen := genPwLen) (stats := stats) p s d hd hc hr
  exact ⟨(returned_answerable (h.steps hs) hd (setStage_self _ _ _)).after hs rfl, hr⟩

theorem answerable {db : Db} {s : Par ι} (L : Links db) (h : ParReach V G cfg genPwLen stats db s) (hlen : db.seq + s.trace.length < 2 ^ 64)
    (hd : s.down = false) {c : Nat} {j : Job ι} (hc : (s.conns c).job = some j) : Answerable V G cfg genPwLen stats db s j := by
  cases hst : s.conns c with
  | ready b => rw [hst] at hc; cases hc
  | over => rw [hst] at hc; cases hc
  | reading j' p d => rw [hst] at hc; cases hc; exact reading_answerable L h hlen hd hst
  | writing j' p d => rw [hst] at hc; cases hc; exact (writing_answerable h hd hst).1
  | returned j' r => rw [hst] at hc; cases hc; exact returned_answerable h hd hst
  | begun j' =>
    rw [hst] at hc
    cases hc
    cases hw : packetWork V G cfg genPwLen stats j.o j.p j.b with
    | direct r =>
      have hs := ParSteps.one (.direct s c j r hd hst hw)
      exact (returned_answerable (h.steps hs) hd (setStage_self _ _ _)).after hs rfl
    | read p =>
      have hs := ParSteps.one (.beginRead s c j p hd hst hw)
      exact (reading_answerable L (h.steps hs) hlen hd (setStage_self _ _ _)).after hs rfl
    | write p =>
      cases hl : s.lock with
      | none =>
        have hs := ParSteps.one (.beginWrite s c j p hd hst hw hl)
        exact (writing_answerable (h.steps hs) hd (setStage_self _ _ _)).1.after hs rfl
      | some u =>
        obtain ⟨j', p', d', hu⟩ := lock_held h u hl
        have hne : c ≠ u := by rintro rfl; rw [hst] at hu; cases hu
        have hr := (writing_answerable h hd hu).2
        have hs := drive_write (V := V) (G := G) (cfg := cfg) (genPwLen := genPwLen) (stats := stats) p' s d' hd hu hr
        have hs' := ParSteps.one (ParStep.beginWrite (V := V) (G := G) (cfg := cfg) (genPwLen := genPwLen) (stats := stats)
          { s with disk := diskAfter p' d' s.disk, lock := none, conns := setStage s.conns u (.returned j' (view p' d')) }
          c j p hd (by rw [← hst]; exact setStage_ne _ hne _) hw rfl)
        exact ((writing_answerable ((h.steps hs).steps hs') hd (setStage_self _ _ _)).1.after hs' rfl).after hs rfl

end
end Idm
