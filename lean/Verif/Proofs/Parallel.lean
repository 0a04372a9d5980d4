import Verif.Spec.Parallel
import Verif.Proofs.Serial
import Verif.Proofs.World
import Verif.Proofs.BoltServer
/-!
# Overlapping requests: every packet makes at most one store call
-/
namespace Idm

/-- The work done alone. -/
def Work.exec : Work → Db → Res Reply × Db
  | .direct r, db => (r, db)
  | .read p, db => (view (p db) db, db)
  | .write p, db => update p db

section
variable {V : Env} {G : GobEnv} {cfg : BoltCfg} {genPwLen : Nat} {stats : Bool}

/-- The store call alone. -/
def callExec (V : Env) (G : GobEnv) (cfg : BoltCfg) (q : Option StoreReq) (db : Db) : Res Reply × Db :=
  (workOf V.C G (validatePw V.C V.K) cfg.store q).exec db

theorem callExec_none (db : Db) : callExec V G cfg none db = (.ok .unit, db) := rfl

theorem callExec_op (o : Op) (db : Db) : callExec V G cfg (some (.op o)) db =
    ((boltStep V.C G (validatePw V.C V.K) cfg.store db o).1 >>= fun _ => .ok .unit, (boltStep V.C G (validatePw V.C V.K) cfg.store db o).2) := by
  have h : ∀ c : Call Reply, (Work.ofCall c).exec db = c.exec db := by intro c; cases c <;> rfl
  unfold callExec workOf
  rw [h, Call.map_exec, callOp_exec]

theorem callExec_search (b : Str) (scope : Nat) (db : Db) : callExec V G cfg (some (.search b scope)) db =
    (boltSearch V.C G db b scope >>= fun r => .ok (.entries r.1 r.2), db) := by
  unfold callExec workOf boltSearch searchFuel
  dsimp only
  cases parseNormalize V.C b with
  | none => rfl
  | some n =>
    dsimp only [Work.exec]
    have := Prog.run_bind (searchBody G (db.seq + 1) n scope) (fun r => Prog.ret (Reply.entries r.1 r.2)) db
    have hb : ((searchBody G (db.seq + 1) n scope).bind fun r => .ret (Reply.entries r.1 r.2)).run db =
      ((searchBody G (db.seq + 1) n scope).run db >>= fun r => .ok (.entries r.1.1 r.1.2, r.2)) := this
    simp only [view, hb]
    cases (searchBody G (db.seq + 1) n scope).run db <;> rfl

theorem repUnit_unit (x : Res Unit) : repUnit (x >>= fun _ => .ok .unit) = x := by cases x <;> rfl

theorem repEntries_entries (x : Res (List Entry × Option Err)) : repEntries (x >>= fun r => .ok (.entries r.1 r.2)) = x := by cases x <;> rfl

/-- `f` makes one call at most, and `g` is `f` with the call noted. -/
def Splits {α : Type} (V : Env) (G : GobEnv) (cfg : BoltCfg) (f : Db → α × Db) (g : Res Reply → Option StoreReq → α × Option StoreReq) : Prop :=
  ∃ q, (∀ rep, (g rep none).2 = q) ∧ ∀ db, f db = ((g (callExec V G cfg q db).1 none).1, (callExec V G cfg q db).2)

theorem Splits.pure {α : Type} (x : α) : Splits V G cfg (fun db => (x, db)) (fun _ s => (x, s)) :=
  ⟨none, fun _ => rfl, fun _ => rfl⟩

theorem Splits.map {α β : Type} {f : Db → α × Db} {g : Res Reply → Option StoreReq → α × Option StoreReq} (h : Splits V G cfg f g) (k : α → β) :
    Splits V G cfg (fun db => (k (f db).1, (f db).2)) (fun r s => (k (g r s).1, (g r s).2)) := by
  obtain ⟨q, h1, h2⟩ := h
  exact ⟨q, h1, fun db => by show (k (f db).1, (f db).2) = _; rw [h2 db]⟩

theorem Splits.congr {α : Type} {f f' : Db → α × Db} {g g' : Res Reply → Option StoreReq → α × Option StoreReq} (h : Splits V G cfg f g)
    (hf : ∀ db, f' db = f db) (hg : ∀ r s, g' r s = g r s) : Splits V G cfg f' g' := by
  have e1 : f' = f := funext hf
  have e2 : g' = g := funext fun r => funext fun s => hg r s
  rw [e1, e2]; exact h

theorem Splits.op {α : Type} (o : Op) (k : Res Unit → α) {f : Db → α × Db} {g : Res Reply → Option StoreReq → α × Option StoreReq}
    (hf : ∀ db, f db = (k (boltStep V.C G (validatePw V.C V.K) cfg.store db o).1, (boltStep V.C G (validatePw V.C V.K) cfg.store db o).2))
    (hg : ∀ r s, g r s = (k (repUnit r), some (.op o))) : Splits V G cfg f g := by
  refine ⟨some (.op o), fun r => by rw [hg], fun db => ?_⟩
  rw [hg, hf, callExec_op, repUnit_unit]

theorem splits_add (b : Str) (r : AddReq) : Splits V G cfg (boltAdd V G cfg b r) (fun rep => recAdd cfg rep b r) := by
  by_cases h : (!writeAllowed cfg b) = true
  · exact (Splits.pure _).congr (fun db => by unfold boltAdd; rw [if_pos h]) (fun _ s => by unfold recAdd; rw [if_pos h])
  · exact Splits.op (.add (entryFromAddRequest r.dn r.attrs)) storeCode (fun db => by unfold boltAdd; rw [if_neg h]; rfl)
      (fun _ s => by unfold recAdd; rw [if_neg h])

theorem splits_delete (b dn : Str) : Splits V G cfg (boltDelete V cfg b dn) (fun rep => recDelete cfg rep b dn) := by
  by_cases h : (!writeAllowed cfg b) = true
  · exact (Splits.pure _).congr (fun db => by unfold boltDelete; rw [if_pos h]) (fun _ s => by unfold recDelete; rw [if_pos h])
  · exact Splits.op (.delete dn) storeCode (fun db => by unfold boltDelete; rw [if_neg h]; rfl)
      (fun _ s => by unfold recDelete; rw [if_neg h])

theorem splits_modify (b : Str) (r : ModifyReq) : Splits V G cfg (boltModify V G cfg b r) (fun rep => recModify cfg rep b r) := by
  by_cases h : (!writeAllowed cfg b) = true
  · exact (Splits.pure _).congr (fun db => by unfold boltModify; rw [if_pos h]) (fun _ s => by unfold recModify; rw [if_pos h])
  · exact Splits.op (.modify r.dn r.changes) storeCodeLdap (fun db => by unfold boltModify; rw [if_neg h]; rfl)
      (fun _ s => by unfold recModify; rw [if_neg h])

theorem splits_modifyDN (b : Str) (r : ModifyDNReq) : Splits V G cfg (boltModifyDN V G cfg b r) (fun rep => recModifyDN cfg rep b r) := by
  by_cases h : (!writeAllowed cfg b) = true
  · exact (Splits.pure _).congr (fun db => by unfold boltModifyDN; rw [if_pos h]) (fun _ s => by unfold recModifyDN; rw [if_pos h])
  · exact Splits.op (.rename r) storeCodeLdap (fun db => by unfold boltModifyDN; rw [if_neg h]; rfl)
      (fun _ s => by unfold recModifyDN; rw [if_neg h])

theorem splits_pw (b : Str) (r : PwModReq) : Splits V G cfg (boltPwExop V G cfg b r) (fun rep => recPwExop V cfg rep b r) := by
  have key : ∀ {f : Db → Res (Nat × Bool) × Db} {g : Res Reply → Option StoreReq → Res (Nat × Bool) × Option StoreReq},
      (∀ db, f db = (match (updatePassword V.C G (validatePw V.C V.K) db r).1 with
        | .ok _ => .ok (rcSuccess, false) | .err _ => .ok (rcOther, true) | .panic => .panic | .hang => .hang,
        (updatePassword V.C G (validatePw V.C V.K) db r).2)) →
      (∀ rep s, g rep s = (match repUnit rep with
        | .ok _ => .ok (rcSuccess, false) | .err _ => .ok (rcOther, true) | .panic => .panic | .hang => .hang, some (.op (.password r)))) →
      Splits V G cfg f g := by
    intro f g hf hg
    exact Splits.op (.password r) (fun x => match x with
        | .ok _ => .ok (rcSuccess, false) | .err _ => .ok (rcOther, true) | .panic => .panic | .hang => .hang) hf hg
  by_cases hb : b = []
  · exact (Splits.pure _).congr (fun db => by unfold boltPwExop; dsimp only; rw [if_pos hb]) (fun _ s => by unfold recPwExop; dsimp only; rw [if_pos hb])
  · by_cases hu : r.userIdentity ≠ []
    · cases hn : parseNormalize V.C r.userIdentity with
      | none =>
        exact (Splits.pure _).congr (fun db => by unfold boltPwExop; dsimp only; rw [if_neg hb, if_pos hu, hn])
          (fun _ s => by unfold recPwExop; dsimp only; rw [if_neg hb, if_pos hu, hn])
      | some user =>
        by_cases hx : b ≠ user ∧ b ≠ cfg.admin
        · exact (Splits.pure _).congr (fun db => by unfold boltPwExop; dsimp only; rw [if_neg hb, if_pos hu, hn]; dsimp only; rw [if_pos hx])
            (fun _ s => by unfold recPwExop; dsimp only; rw [if_neg hb, if_pos hu, hn]; dsimp only; rw [if_pos hx])
        · exact key (fun db => by unfold boltPwExop; dsimp only; rw [if_neg hb, if_pos hu, hn]; dsimp only; rw [if_neg hx]; rfl)
            (fun _ s => by unfold recPwExop; dsimp only; rw [if_neg hb, if_pos hu, hn]; dsimp only; rw [if_neg hx]; rfl)
    · exact key (fun db => by unfold boltPwExop; dsimp only; rw [if_neg hb, if_neg hu]; rfl)
        (fun _ s => by unfold recPwExop; dsimp only; rw [if_neg hb, if_neg hu]; rfl)

theorem splits_bind (dn pw : Str) : Splits V G cfg (boltBind V G cfg dn pw) (fun rep => recBind V cfg rep dn pw) := by
  by_cases h1 : dn = [] ∧ cfg.anon = false
  · exact (Splits.pure _).congr (fun db => by unfold boltBind; rw [if_pos h1]) (fun _ s => by unfold recBind; rw [if_pos h1])
  by_cases h2 : dn = [] ∧ pw = []
  · exact (Splits.pure _).congr (fun db => by unfold boltBind; rw [if_neg h1, if_pos h2]) (fun _ s => by unfold recBind; rw [if_neg h1, if_pos h2])
  cases hn : parseNormalize V.C dn with
  | none =>
    exact (Splits.pure _).congr (fun db => by unfold boltBind; rw [if_neg h1, if_neg h2, hn]) (fun _ s => by unfold recBind; rw [if_neg h1, if_neg h2, hn])
  | some n =>
    by_cases h3 : (!hasSuffix n cfg.base) = true
    · exact (Splits.pure _).congr (fun db => by unfold boltBind; rw [if_neg h1, if_neg h2, hn]; dsimp only; rw [if_pos h3])
        (fun _ s => by unfold recBind; rw [if_neg h1, if_neg h2, hn]; dsimp only; rw [if_pos h3])
    by_cases h4 : pw = []
    · exact (Splits.pure _).congr (fun db => by unfold boltBind; rw [if_neg h1, if_neg h2, hn]; dsimp only; rw [if_neg h3, if_pos h4])
        (fun _ s => by unfold recBind; rw [if_neg h1, if_neg h2, hn]; dsimp only; rw [if_neg h3, if_pos h4])
    refine ⟨some (.search n scopeBase), fun r => by unfold recBind; dsimp only; rw [if_neg h1, if_neg h2, hn]; dsimp only; rw [if_neg h3, if_neg h4], fun db => ?_⟩
    unfold boltBind recBind
    dsimp only
    rw [if_neg h1, if_neg h2, if_neg h1, if_neg h2, hn]
    dsimp only
    rw [if_neg h3, if_neg h4, if_neg h3, if_neg h4, callExec_search, repEntries_entries]
    rfl

theorem splits_search (b : Str) (r : SearchReq) : Splits V G cfg (boltSearchFn V G b r) (fun rep => recSearch rep b r) := by
  refine ⟨some (.search r.baseDN (scopeNat r.scope)), fun _ => rfl, fun db => ?_⟩
  unfold boltSearchFn recSearch
  dsimp only
  rw [callExec_search, repEntries_entries]
  cases boltSearch V.C G db r.baseDN (scopeNat r.scope) <;> rfl


/-! ## The front end -/

abbrev bs (V : Env) (G : GobEnv) (cfg : BoltCfg) (genPwLen : Nat) (stats : Bool) := boltSrv V G cfg genPwLen stats
abbrev rs (V : Env) (cfg : BoltCfg) (genPwLen : Nat) (stats : Bool) (r : Res Reply) := recordSrv V cfg r genPwLen stats

theorem splits_callFn {ρ : Type} {f : Str → ρ → Act Db (Nat × Bool)} {g : Res Reply → Str → ρ → Act (Option StoreReq) (Nat × Bool)}
    {dn b : Str} {r : ρ} (h : Splits V G cfg (f b r) (fun rep => g rep b r)) :
    Splits V G cfg (callFn [([], f)] dn b r) (fun rep => callFn [([], g rep)] dn b r) :=
  (h.map codeOf).congr (fun db => by unfold callFn; rw [pick_single]) (fun rep s => by unfold callFn; rw [pick_single])

theorem splits_parseFailed {ρ : Type} (r : Res ρ) : Splits V G cfg (parseFailed r) (fun _ => parseFailed r) := by
  have : ∃ x, ∀ (σ : Type) (s : σ), parseFailed r s = (x, s) := by
    cases r with
    | ok a => exact ⟨_, fun _ _ => rfl⟩
    | err e => cases e <;> exact ⟨_, fun _ _ => rfl⟩
    | panic => exact ⟨_, fun _ _ => rfl⟩
    | hang => exact ⟨_, fun _ _ => rfl⟩
  obtain ⟨x, hx⟩ := this
  exact (Splits.pure x).congr (fun db => hx _ db) (fun _ s => hx _ s)

theorem splits_handleAdd (b : Str) (req : Packet) :
    Splits V G cfg (handleAdd V (bs V G cfg genPwLen stats) b req) (fun rep => handleAdd V (rs V cfg genPwLen stats rep) b req) := by
  by_cases hb : b = []
  · exact (Splits.pure _).congr (fun db => by unfold handleAdd; rw [if_pos hb]) (fun _ s => by unfold handleAdd; rw [if_pos hb])
  cases hp : parseAddRequest V.C req with
  | ok r => exact (splits_callFn (splits_add b r)).congr (fun db => by unfold handleAdd; rw [if_neg hb, hp]; rfl) (fun rep s => by unfold handleAdd; rw [if_neg hb, hp]; rfl)
  | _ => exact (splits_parseFailed _).congr (fun db => by unfold handleAdd; rw [if_neg hb, hp]) (fun rep s => by unfold handleAdd; rw [if_neg hb, hp])

theorem splits_handleDelete (b : Str) (req : Packet) :
    Splits V G cfg (handleDelete V (bs V G cfg genPwLen stats) b req) (fun rep => handleDelete V (rs V cfg genPwLen stats rep) b req) := by
  by_cases hb : b = []
  · exact (Splits.pure _).congr (fun db => by unfold handleDelete; rw [if_pos hb]) (fun _ s => by unfold handleDelete; rw [if_pos hb])
  cases hp : parseDeleteRequest V.C req with
  | ok r => exact (splits_callFn (splits_delete b r)).congr (fun db => by unfold handleDelete; rw [if_neg hb, hp]; rfl) (fun rep s => by unfold handleDelete; rw [if_neg hb, hp]; rfl)
  | _ => exact (splits_parseFailed _).congr (fun db => by unfold handleDelete; rw [if_neg hb, hp]) (fun rep s => by unfold handleDelete; rw [if_neg hb, hp])

theorem splits_handleModify (b : Str) (req : Packet) :
    Splits V G cfg (handleModify V (bs V G cfg genPwLen stats) b req) (fun rep => handleModify V (rs V cfg genPwLen stats rep) b req) := by
  by_cases hb : b = []
  · exact (Splits.pure _).congr (fun db => by unfold handleModify; rw [if_pos hb]) (fun _ s => by unfold handleModify; rw [if_pos hb])
  cases hp : parseModifyRequest V.C req with
  | ok r => exact (splits_callFn (splits_modify b r)).congr (fun db => by unfold handleModify; rw [if_neg hb, hp]; rfl) (fun rep s => by unfold handleModify; rw [if_neg hb, hp]; rfl)
  | _ => exact (splits_parseFailed _).congr (fun db => by unfold handleModify; rw [if_neg hb, hp]) (fun rep s => by unfold handleModify; rw [if_neg hb, hp])

theorem splits_handleModifyDN (b : Str) (req : Packet) :
    Splits V G cfg (handleModifyDN V (bs V G cfg genPwLen stats) b req) (fun rep => handleModifyDN V (rs V cfg genPwLen stats rep) b req) := by
  by_cases hb : b = []
  · exact (Splits.pure _).congr (fun db => by unfold handleModifyDN; rw [if_pos hb]) (fun _ s => by unfold handleModifyDN; rw [if_pos hb])
  cases hp : parseModifyDNRequest V.C req with
  | ok r => exact (splits_callFn (splits_modifyDN b r)).congr (fun db => by unfold handleModifyDN; rw [if_neg hb, hp]; rfl) (fun rep s => by unfold handleModifyDN; rw [if_neg hb, hp]; rfl)
  | _ => exact (splits_parseFailed _).congr (fun db => by unfold handleModifyDN; rw [if_neg hb, hp]) (fun rep s => by unfold handleModifyDN; rw [if_neg hb, hp])

/-- The part of `bindBody` after the handler has answered. -/
def bindTail : Res (Nat × Bool) → Res Nat
  | .ok (code, false) => .ok code
  | .ok (_, true) => .ok rcOperationsError
  | .err _ => .ok rcOperationsError
  | .panic => .panic
  | .hang => .hang

theorem splits_bindBody (req : Packet) :
    Splits V G cfg (bindBody (bs V G cfg genPwLen stats) req) (fun rep => bindBody (rs V cfg genPwLen stats rep) req) := by
  cases h0 : req.kids[0]? with
  | none => exact (Splits.pure _).congr (fun db => by unfold bindBody; rw [h0]) (fun _ s => by unfold bindBody; rw [h0])
  | some v =>
  cases hv : v.int? with
  | none => exact (Splits.pure _).congr (fun db => by unfold bindBody; rw [h0]; dsimp only; rw [hv]) (fun _ s => by unfold bindBody; rw [h0]; dsimp only; rw [hv])
  | some version =>
  by_cases h3 : version ≠ 3
  · exact (Splits.pure _).congr (fun db => by unfold bindBody; rw [h0]; dsimp only; rw [hv]; dsimp only; rw [if_pos h3])
      (fun _ s => by unfold bindBody; rw [h0]; dsimp only; rw [hv]; dsimp only; rw [if_pos h3])
  cases h1 : req.kids[1]? with
  | none =>
    exact (Splits.pure _).congr (fun db => by unfold bindBody; rw [h0]; dsimp only; rw [hv]; dsimp only; rw [if_neg h3, h1])
      (fun _ s => by unfold bindBody; rw [h0]; dsimp only; rw [hv]; dsimp only; rw [if_neg h3, h1])
  | some d =>
  cases hd : d.str? with
  | none =>
    exact (Splits.pure _).congr (fun db => by unfold bindBody; rw [h0]; dsimp only; rw [hv]; dsimp only; rw [if_neg h3, h1]; dsimp only; rw [hd])
      (fun _ s => by unfold bindBody; rw [h0]; dsimp only; rw [hv]; dsimp only; rw [if_neg h3, h1]; dsimp only; rw [hd])
  | some dn =>
  cases h2 : req.kids[2]? with
  | none =>
    exact (Splits.pure _).congr (fun db => by unfold bindBody; rw [h0]; dsimp only; rw [hv]; dsimp only; rw [if_neg h3, h1]; dsimp only; rw [hd, h2])
      (fun _ s => by unfold bindBody; rw [h0]; dsimp only; rw [hv]; dsimp only; rw [if_neg h3, h1]; dsimp only; rw [hd, h2])
  | some auth =>
  by_cases ha : auth.tag = authSimple
  · by_cases hl : req.kids.length = 3
    · refine ((splits_bind dn auth.data).map bindTail).congr (fun db => ?_) (fun rep s => ?_)
      · unfold bindBody
        rw [h0]; dsimp only; rw [hv]; dsimp only; rw [if_neg h3, h1]; dsimp only; rw [hd, h2]; dsimp only
        rw [if_pos ha, if_pos hl]
        rw [show (bs V G cfg genPwLen stats).bindFns = [([], boltBind V G cfg)] from rfl, pick_single]
        dsimp only
        cases boltBind V G cfg dn auth.data db with | mk res st => ?_
        cases res with
        | ok x => obtain ⟨c, e⟩ := x; cases e <;> rfl
        | _ => rfl
      · unfold bindBody
        rw [h0]; dsimp only; rw [hv]; dsimp only; rw [if_neg h3, h1]; dsimp only; rw [hd, h2]; dsimp only
        rw [if_pos ha, if_pos hl]
        rw [show (rs V cfg genPwLen stats rep).bindFns = [([], recBind V cfg rep)] from rfl, pick_single]
        dsimp only
        cases recBind V cfg rep dn auth.data s with | mk res st => ?_
        cases res with
        | ok x => obtain ⟨c, e⟩ := x; cases e <;> rfl
        | _ => rfl
    · exact (Splits.pure _).congr
        (fun db => by unfold bindBody; rw [h0]; dsimp only; rw [hv]; dsimp only; rw [if_neg h3, h1]; dsimp only; rw [hd, h2]; dsimp only; rw [if_pos ha, if_neg hl])
        (fun _ s => by unfold bindBody; rw [h0]; dsimp only; rw [hv]; dsimp only; rw [if_neg h3, h1]; dsimp only; rw [hd, h2]; dsimp only; rw [if_pos ha, if_neg hl])
  · exact (Splits.pure _).congr
      (fun db => by unfold bindBody; rw [h0]; dsimp only; rw [hv]; dsimp only; rw [if_neg h3, h1]; dsimp only; rw [hd, h2]; dsimp only; rw [if_neg ha])
      (fun _ s => by unfold bindBody; rw [h0]; dsimp only; rw [hv]; dsimp only; rw [if_neg h3, h1]; dsimp only; rw [hd, h2]; dsimp only; rw [if_neg ha])

theorem splits_handleBind (req : Packet) :
    Splits V G cfg (handleBind (bs V G cfg genPwLen stats) req) (fun rep => handleBind (rs V cfg genPwLen stats rep) req) := by
  have key : ∀ {σ : Type} (srv : Srv σ) (s : σ), handleBind srv req s =
      ((fun x => match x with | .panic => .ok rcOperationsError | y => y) (bindBody srv req s).1, (bindBody srv req s).2) := by
    intro σ srv s
    unfold handleBind
    cases bindBody srv req s with | mk x st => ?_
    cases x <;> rfl
  exact ((splits_bindBody req).map fun x => match x with | .panic => .ok rcOperationsError | y => y).congr
    (fun db => key _ db) (fun rep s => key _ s)

/-- An output as a value and a state. -/
def Out.pair {σ : Type} (x : Out σ) : (List Resp × Next) × σ := ((x.resps, x.next), x.st)

/-- Sequencing with what follows a handler's answer. -/
theorem Splits.out {α : Type} {f : Db → α × Db} {g : Res Reply → Option StoreReq → α × Option StoreReq} (h : Splits V G cfg f g)
    (k : α → List Resp × Next) {F : Db → Out Db} {K : Res Reply → Option StoreReq → Out (Option StoreReq)}
    (hF : ∀ db, (F db).pair = (k (f db).1, (f db).2)) (hK : ∀ rep s, (K rep s).pair = (k (g rep s).1, (g rep s).2)) :
    Splits V G cfg (fun db => (F db).pair) (fun rep s => (K rep s).pair) :=
  (h.map k).congr hF hK

/-- `reply` on the result alone. -/
def replyTail (id : Int) (tag : Nat) (b : Str) : Res Nat → List Resp × Next
  | .ok code => ([.result id tag code], .go b)
  | .err _ => ([.result id tag rcOperationsError], .go b)
  | .panic => ([], .crash)
  | .hang => ([], .hang)

theorem splits_reply {f : Act Db Nat} {g : Res Reply → Act (Option StoreReq) Nat} (id : Int) (tag : Nat) (b : Str) (h : Splits V G cfg f g) :
    Splits V G cfg (fun db => (reply id tag b (f db)).pair) (fun rep s => (reply id tag b (g rep s)).pair) := by
  have key : ∀ {σ : Type} (x : Res Nat × σ), (reply id tag b x).pair = (replyTail id tag b x.1, x.2) := by
    intro σ x
    obtain ⟨r, st⟩ := x
    cases r <;> rfl
  exact h.out (replyTail id tag b) (fun db => key _) (fun rep s => key _)

/-- `stepBind` on the result alone. -/
def bindEnd (V : Env) (id : Int) (b : Str) (req : Packet) : Res Nat → List Resp × Next
  | .panic => ([], .crash)
  | .hang => ([], .hang)
  | .err _ => ([], .crash)
  | .ok code =>
    if code = rcSuccess then
      match req.kids[1]? with
      | none => ([], .crash)
      | some d => match d.str? with
        | none => ([], .closed)
        | some dn => match parseNormalize V.C dn with
          | none => ([], .closed)
          | some b => ([.result id appBindResponse code], .go b)
    else ([.result id appBindResponse code], .go b)

theorem splits_stepBind (id : Int) (b : Str) (req : Packet) :
    Splits V G cfg (fun db => (stepBind V (bs V G cfg genPwLen stats) id b req db).pair)
      (fun rep s => (stepBind V (rs V cfg genPwLen stats rep) id b req s).pair) := by
  have key : ∀ {σ : Type} (srv : Srv σ) (s : σ), (∀ b s, srv.close b s = s) → (stepBind V srv id b req s).pair =
      (bindEnd V id b req (handleBind srv req s).1, (handleBind srv req s).2) := by
    intro σ srv s hc
    unfold stepBind
    cases handleBind srv req s with | mk r st => ?_
    cases r with
    | ok code =>
      unfold bindEnd
      dsimp only
      by_cases h : code = rcSuccess
      · rw [if_pos h, if_pos h]
        cases req.kids[1]? with
        | none => rfl
        | some d =>
          dsimp only
          cases d.str? with
          | none => simp only [Out.pair, hc]
          | some dn =>
            dsimp only
            cases parseNormalize V.C dn with
            | none => simp only [Out.pair, hc]
            | some b => rfl
      · rw [if_neg h, if_neg h]; rfl
    | _ => rfl
  exact (splits_handleBind req).out (bindEnd V id b req) (fun db => key _ _ fun _ _ => rfl) (fun rep s => key _ _ fun _ _ => rfl)

theorem splits_handlePwModify (o : Oracle) (b : Str) (body : Option Packet) :
    Splits V G cfg (handlePwModify V (bs V G cfg genPwLen stats) o b body) (fun rep => handlePwModify V (rs V cfg genPwLen stats rep) o b body) := by
  have pure : ∀ x, (∀ (σ : Type) (srv : Srv σ) (s : σ), srv.genPwLen = genPwLen → handlePwModify V srv o b body s = (x, s)) →
      Splits V G cfg (handlePwModify V (bs V G cfg genPwLen stats) o b body) (fun rep => handlePwModify V (rs V cfg genPwLen stats rep) o b body) :=
    fun x hx => (Splits.pure x).congr (fun db => hx _ _ db rfl) (fun rep s => hx _ _ s rfl)
  by_cases hb : b = []
  · exact pure (ldapErr rcUnwillingToPerform) fun σ srv s _ => by unfold handlePwModify; rw [if_pos hb]
  cases hp : parsePwModify V body with
  | err e => exact pure (.err e) fun σ srv s _ => by unfold handlePwModify; rw [if_neg hb, hp]
  | panic => exact pure .panic fun σ srv s _ => by unfold handlePwModify; rw [if_neg hb, hp]
  | hang => exact pure .hang fun σ srv s _ => by unfold handlePwModify; rw [if_neg hb, hp]
  | ok r =>
  cases hg : (if r.newPassword = [] then generatePw o.rnd 0 genPwLen else .ok r.newPassword) with
  | err e => exact pure (ldapErr rcOperationsError) fun σ srv s hl => by unfold handlePwModify; rw [if_neg hb, hp]; dsimp only; rw [hl, hg]
  | panic => exact pure .panic fun σ srv s hl => by unfold handlePwModify; rw [if_neg hb, hp]; dsimp only; rw [hl, hg]
  | hang => exact pure .hang fun σ srv s hl => by unfold handlePwModify; rw [if_neg hb, hp]; dsimp only; rw [hl, hg]
  | ok pw =>
  cases hh : hashPw V.K o.salt pw b!"{ARGON2}" with
  | err e => exact pure (ldapErr rcOperationsError) fun σ srv s hl => by unfold handlePwModify; rw [if_neg hb, hp]; dsimp only; rw [hl, hg]; dsimp only; rw [hh]
  | panic => exact pure .panic fun σ srv s hl => by unfold handlePwModify; rw [if_neg hb, hp]; dsimp only; rw [hl, hg]; dsimp only; rw [hh]
  | hang => exact pure .hang fun σ srv s hl => by unfold handlePwModify; rw [if_neg hb, hp]; dsimp only; rw [hl, hg]; dsimp only; rw [hh]
  | ok hashed =>
    refine ((splits_pw b ⟨if r.userIdentity = [] then b else r.userIdentity, r.oldPassword, hashed⟩).map
      (pwExopAnswer (if r.newPassword = [] then some hashed else none))).congr (fun db => ?_) (fun rep s => ?_)
    · unfold handlePwModify
      rw [if_neg hb, hp]; dsimp only
      rw [show (bs V G cfg genPwLen stats).genPwLen = genPwLen from rfl, hg]; dsimp only; rw [hh]; dsimp only
      rw [show (bs V G cfg genPwLen stats).pwExopFns = [([], boltPwExop V G cfg)] from rfl, pick_single]
    · unfold handlePwModify
      rw [if_neg hb, hp]; dsimp only
      rw [show (rs V cfg genPwLen stats rep).genPwLen = genPwLen from rfl, hg]; dsimp only; rw [hh]; dsimp only
      rw [show (rs V cfg genPwLen stats rep).pwExopFns = [([], recPwExop V cfg rep)] from rfl, pick_single]

/-- The part of `handleExtended` after the operation has answered. -/
def extTail (oid : Str) : Res (Option Str) → Res ExtAnswer
  | .ok gen => .ok (.done rcSuccess oid gen)
  | .err (.ldap code true) => .ok (.done code oid none)
  | .err (.ldap _ false) => .panic
  | .err _ => .ok (.done rcOther oid none)
  | .panic => .panic
  | .hang => .hang

theorem splits_handleExtended (o : Oracle) (b : Str) (req : Packet) :
    Splits V G cfg (handleExtended V (bs V G cfg genPwLen stats) o b req) (fun rep => handleExtended V (rs V cfg genPwLen stats rep) o b req) := by
  cases hp : parseExtendedRequest req with
  | err e => exact (Splits.pure _).congr (fun db => by unfold handleExtended; rw [hp]) (fun rep s => by unfold handleExtended; rw [hp])
  | panic => exact (Splits.pure _).congr (fun db => by unfold handleExtended; rw [hp]) (fun rep s => by unfold handleExtended; rw [hp])
  | hang => exact (Splits.pure _).congr (fun db => by unfold handleExtended; rw [hp]) (fun rep s => by unfold handleExtended; rw [hp])
  | ok x =>
  obtain ⟨oid, body⟩ := x
  by_cases ho : oid = pwmodOID
  · have key : ∀ {σ : Type} (srv : Srv σ) (s : σ), handleExtended V srv o b req s =
        (extTail oid (handlePwModify V srv o b body s).1, (handlePwModify V srv o b body s).2) := by
      intro σ srv s
      unfold handleExtended
      rw [hp]; dsimp only; rw [if_pos ho]
      cases handlePwModify V srv o b body s with | mk r st => ?_
      cases r with
      | err e =>
        cases e with
        | ldap c i => cases i <;> rfl
        | _ => rfl
      | _ => rfl
    exact ((splits_handlePwModify o b body).map (extTail oid)).congr (fun db => key _ _) (fun rep s => key _ _)
  · exact (Splits.pure _).congr (fun db => by unfold handleExtended; rw [hp]; dsimp only; rw [if_neg ho])
      (fun rep s => by unfold handleExtended; rw [hp]; dsimp only; rw [if_neg ho])

/-- `stepExtended` on the result alone. -/
def extEnd (id : Int) (b : Str) : Res ExtAnswer → List Resp × Next
  | .ok .failed => ([.result id appExtendedResponse rcOperationsError], .go b)
  | .ok (.done code oid gen) => ([.extended id code oid gen], .go b)
  | .err _ => ([.result id appExtendedResponse rcOperationsError], .go b)
  | .panic => ([], .crash)
  | .hang => ([], .hang)

theorem splits_stepExtended (o : Oracle) (id : Int) (b : Str) (req : Packet) :
    Splits V G cfg (fun db => (stepExtended V (bs V G cfg genPwLen stats) o id b req db).pair)
      (fun rep s => (stepExtended V (rs V cfg genPwLen stats rep) o id b req s).pair) := by
  have key : ∀ {σ : Type} (srv : Srv σ) (s : σ), (stepExtended V srv o id b req s).pair =
      (extEnd id b (handleExtended V srv o b req s).1, (handleExtended V srv o b req s).2) := by
    intro σ srv s
    unfold stepExtended
    cases handleExtended V srv o b req s with | mk r st => ?_
    cases r with
    | ok a => cases a <;> rfl
    | _ => rfl
  exact (splits_handleExtended o b req).out (extEnd id b) (fun db => key _ _) (fun rep s => key _ _)

/-- The part of `handleSearch` after the handler has answered, with `EnforceLDAP`. -/
def searchTail (V : Env) (fp : Packet) (r : SearchReq) : Res SearchRes → List Entry × Res SearchOut
  | .err _ => ([], .panic)
  | .panic => ([], .panic)
  | .hang => ([], .hang)
  | .ok sr =>
    if sr.err then ([], .ok ⟨[], sr.code, some sr.controls, true⟩)
    else match searchLoop V.C fp r 0 sr.entries with
      | (sent, .ok code) => ([], .ok ⟨sent, code, some sr.controls, code ≠ rcSuccess⟩)
      | (sent, .err _) => (sent, .panic)
      | (sent, .panic) => (sent, .panic)
      | (sent, .hang) => (sent, .hang)

theorem splits_handleSearch (b : Str) (req : Packet) (controls : List Control) :
    Splits V G cfg (handleSearch V (bs V G cfg genPwLen stats) b req controls) (fun rep => handleSearch V (rs V cfg genPwLen stats rep) b req controls) := by
  cases hp : parseSearchRequest req controls with
  | none => exact (Splits.pure _).congr (fun db => by unfold handleSearch; rw [hp]) (fun rep s => by unfold handleSearch; rw [hp])
  | some r =>
  cases hc : compile r.filter with
  | none =>
    exact (Splits.pure _).congr
      (fun db => by unfold handleSearch; rw [hp]; dsimp only; rw [show (bs V G cfg genPwLen stats).enforce = true from rfl, if_pos rfl, hc])
      (fun rep s => by unfold handleSearch; rw [hp]; dsimp only; rw [show (rs V cfg genPwLen stats rep).enforce = true from rfl, if_pos rfl, hc])
  | some fp =>
    have tail : ∀ {σ : Type} (x : Res SearchRes × σ),
        (match x.1 with
        | .err _ => (([], .panic), x.2)
        | .panic => (([], .panic), x.2)
        | .hang => (([], .hang), x.2)
        | .ok sr =>
          if sr.err then (([], .ok ⟨[], sr.code, some sr.controls, true⟩), x.2)
          else if true = true then
            match searchLoop V.C fp r 0 sr.entries with
            | (sent, .ok code) => (([], .ok ⟨sent, code, some sr.controls, code ≠ rcSuccess⟩), x.2)
            | (sent, .err _) => ((sent, .panic), x.2)
            | (sent, .panic) => ((sent, .panic), x.2)
            | (sent, .hang) => ((sent, .hang), x.2)
          else (([], .ok ⟨sr.entries, rcSuccess, some sr.controls, false⟩), x.2)) = (searchTail V fp r x.1, x.2) := by
      intro σ x
      obtain ⟨y, st⟩ := x
      cases y with
      | ok sr =>
        unfold searchTail
        dsimp only
        rw [if_pos rfl]
        by_cases he : sr.err = true
        · rw [if_pos he, if_pos he]
        · rw [if_neg he, if_neg he]
          cases searchLoop V.C fp r 0 sr.entries with | mk a z => ?_
          cases z <;> rfl
      | _ => rfl
    refine ((splits_search b r).map (searchTail V fp r)).congr (fun db => ?_) (fun rep s => ?_)
    · rw [← tail]
      unfold handleSearch
      rw [hp]; dsimp only; rw [show (bs V G cfg genPwLen stats).enforce = true from rfl, if_pos rfl, hc]; dsimp only
      rw [show (bs V G cfg genPwLen stats).searchFns = [([], boltSearchFn V G)] from rfl, pick_single]; rfl
    · rw [← tail]
      unfold handleSearch
      rw [hp]; dsimp only; rw [show (rs V cfg genPwLen stats rep).enforce = true from rfl, if_pos rfl, hc]; dsimp only
      rw [show (rs V cfg genPwLen stats rep).searchFns = [([], recSearch rep)] from rfl, pick_single]; rfl

/-- `stepSearch` on the result alone. -/
def searchEnd (id : Int) (b : Str) : List Entry × Res SearchOut → List Resp × Next
  | (before, .panic) => (before.map (.entry id), .crash)
  | (before, .hang) => (before.map (.entry id), .hang)
  | (before, .err _) => (before.map (.entry id), .crash)
  | (_, .ok out) => (out.sent.map (.entry id) ++ [.searchDone id out.code out.controls], if out.failed then .closed else .go b)

theorem splits_stepSearch (id : Int) (b : Str) (req : Packet) (controls : List Control) :
    Splits V G cfg (fun db => (stepSearch V (bs V G cfg genPwLen stats) id b req controls db).pair)
      (fun rep s => (stepSearch V (rs V cfg genPwLen stats rep) id b req controls s).pair) := by
  have key : ∀ {σ : Type} (srv : Srv σ) (s : σ), (∀ b s, srv.close b s = s) → (stepSearch V srv id b req controls s).pair =
      (searchEnd id b (handleSearch V srv b req controls s).1, (handleSearch V srv b req controls s).2) := by
    intro σ srv s hc
    unfold stepSearch
    cases handleSearch V srv b req controls s with | mk r st => ?_
    obtain ⟨bef, r⟩ := r
    cases r with
    | ok out =>
      unfold searchEnd
      dsimp only
      by_cases h : out.failed = true
      · rw [if_pos h, if_pos h]; simp only [Out.pair, hc]
      · rw [if_neg h, if_neg h]; rfl
    | _ => rfl
  exact (splits_handleSearch b req controls).out (searchEnd id b) (fun db => key _ _ fun _ _ => rfl) (fun rep s => key _ _ fun _ _ => rfl)

theorem splits_packet (o : Oracle) (p : Packet) (b : Str) :
    Splits V G cfg (fun db => (handlePacket V (bs V G cfg genPwLen stats) o p b db).pair)
      (fun rep s => (handlePacket V (rs V cfg genPwLen stats rep) o p b s).pair) := by
  have pure : ∀ x, (∀ (σ : Type) (srv : Srv σ) (s : σ), (∀ b s, srv.close b s = s) → srv.stats = stats → (handlePacket V srv o p b s).pair = (x, s)) →
      Splits V G cfg (fun db => (handlePacket V (bs V G cfg genPwLen stats) o p b db).pair)
        (fun rep s => (handlePacket V (rs V cfg genPwLen stats rep) o p b s).pair) :=
    fun x hx => (Splits.pure x).congr (fun db => hx _ _ db (fun _ _ => rfl) rfl) (fun rep s => hx _ _ s (fun _ _ => rfl) rfl)
  cases hk : p.kids with
  | nil => exact pure ([], .closed) fun σ srv s hc _ => by simp only [handlePacket, hk, Out.pair, hc]
  | cons m l =>
  cases l with
  | nil => exact pure ([], .closed) fun σ srv s hc _ => by simp only [handlePacket, hk, Out.pair, hc]
  | cons req more =>
  cases hm : m.int? with
  | none => exact pure ([], .closed) fun σ srv s hc _ => by simp only [handlePacket, hk, hm, Out.pair, hc]
  | some id =>
  by_cases ha : req.cls ≠ .application
  · exact pure ([], .closed) fun σ srv s hc _ => by simp only [handlePacket, hk, hm, if_pos ha, Out.pair, hc]
  cases hd : decodeControls V ((more.head?.map Packet.kids).getD []) with
  | panic => exact pure ([], .crash) fun σ srv s hc _ => by simp only [handlePacket, hk, hm, if_neg ha, hd, Out.pair]
  | hang => exact pure ([], .hang) fun σ srv s hc _ => by simp only [handlePacket, hk, hm, if_neg ha, hd, Out.pair]
  | err e => exact pure ([], .crash) fun σ srv s hc _ => by simp only [handlePacket, hk, hm, if_neg ha, hd, Out.pair]
  | ok controls =>
  by_cases h1 : req.tag = appAddRequest
  · cases hst : stats with
    | true =>
      subst hst
      exact pure ([], .hang) fun σ srv s hc hs => by simp only [handlePacket, hk, hm, if_neg ha, hd, if_pos h1, hs, if_true, Out.pair]
    | false =>
      subst hst
      exact (splits_reply id appAddResponse b (splits_handleAdd (genPwLen := genPwLen) (stats := false) b req)).congr
        (fun db => by simp only [handlePacket, hk, hm, if_neg ha, hd, if_pos h1]; rfl)
        (fun rep s => by simp only [handlePacket, hk, hm, if_neg ha, hd, if_pos h1]; rfl)
  by_cases h2 : req.tag = appBindRequest
  · exact (splits_stepBind (genPwLen := genPwLen) (stats := stats) id b req).congr (fun db => by simp only [handlePacket, hk, hm, if_neg ha, hd, if_neg h1, if_pos h2])
      (fun rep s => by simp only [handlePacket, hk, hm, if_neg ha, hd, if_neg h1, if_pos h2])
  by_cases h3 : req.tag = appCompareRequest
  · exact pure ([.result id appCompareRequest rcOperationsError], .closed) fun σ srv s hc hs => by
      simp only [handlePacket, hk, hm, if_neg ha, hd, if_neg h1, if_neg h2, if_pos h3, Out.pair, hc]
  by_cases h4 : req.tag = appDelRequest
  · exact (splits_reply id appDelResponse b (splits_handleDelete (genPwLen := genPwLen) (stats := stats) b req)).congr
      (fun db => by simp only [handlePacket, hk, hm, if_neg ha, hd, if_neg h1, if_neg h2, if_neg h3, if_pos h4])
      (fun rep s => by simp only [handlePacket, hk, hm, if_neg ha, hd, if_neg h1, if_neg h2, if_neg h3, if_pos h4])
  by_cases h5 : req.tag = appExtendedRequest
  · exact (splits_stepExtended (genPwLen := genPwLen) (stats := stats) o id b req).congr
      (fun db => by simp only [handlePacket, hk, hm, if_neg ha, hd, if_neg h1, if_neg h2, if_neg h3, if_neg h4, if_pos h5])
      (fun rep s => by simp only [handlePacket, hk, hm, if_neg ha, hd, if_neg h1, if_neg h2, if_neg h3, if_neg h4, if_pos h5])
  by_cases h6 : req.tag = appModifyDNRequest
  · exact (splits_reply id appModifyDNResponse b (splits_handleModifyDN (genPwLen := genPwLen) (stats := stats) b req)).congr
      (fun db => by simp only [handlePacket, hk, hm, if_neg ha, hd, if_neg h1, if_neg h2, if_neg h3, if_neg h4, if_neg h5, if_pos h6])
      (fun rep s => by simp only [handlePacket, hk, hm, if_neg ha, hd, if_neg h1, if_neg h2, if_neg h3, if_neg h4, if_neg h5, if_pos h6])
  by_cases h7 : req.tag = appModifyRequest
  · exact (splits_reply id appModifyResponse b (splits_handleModify (genPwLen := genPwLen) (stats := stats) b req)).congr
      (fun db => by simp only [handlePacket, hk, hm, if_neg ha, hd, if_neg h1, if_neg h2, if_neg h3, if_neg h4, if_neg h5, if_neg h6, if_pos h7])
      (fun rep s => by simp only [handlePacket, hk, hm, if_neg ha, hd, if_neg h1, if_neg h2, if_neg h3, if_neg h4, if_neg h5, if_neg h6, if_pos h7])
  by_cases h8 : req.tag = appSearchRequest
  · exact (splits_stepSearch (genPwLen := genPwLen) (stats := stats) id b req controls).congr
      (fun db => by simp only [handlePacket, hk, hm, if_neg ha, hd, if_neg h1, if_neg h2, if_neg h3, if_neg h4, if_neg h5, if_neg h6, if_neg h7, if_pos h8])
      (fun rep s => by simp only [handlePacket, hk, hm, if_neg ha, hd, if_neg h1, if_neg h2, if_neg h3, if_neg h4, if_neg h5, if_neg h6, if_neg h7, if_pos h8])
  exact pure ([], .closed) fun σ srv s hc hs => by
    simp only [handlePacket, hk, hm, if_neg ha, hd, if_neg h1, if_neg h2, if_neg h3, if_neg h4, if_neg h5, if_neg h6, if_neg h7, if_neg h8, Out.pair, hc]

/-- Treating a packet alone is doing its work alone and ending with the store's answer. -/
theorem packet_alone (o : Oracle) (p : Packet) (b : Str) (db : Db) :
    handlePacket V (boltSrv V G cfg genPwLen stats) o p b db =
      ⟨(packetEnd V cfg genPwLen stats o p b ((packetWork V G cfg genPwLen stats o p b).exec db).1).1,
       (packetEnd V cfg genPwLen stats o p b ((packetWork V G cfg genPwLen stats o p b).exec db).1).2,
       ((packetWork V G cfg genPwLen stats o p b).exec db).2⟩ := by
  obtain ⟨q, h1, h2⟩ := splits_packet (V := V) (G := G) (cfg := cfg) (genPwLen := genPwLen) (stats := stats) o p b
  have hq : packetCall V cfg genPwLen stats o p b = q := h1 (.ok .unit)
  have h2 := h2 db
  unfold packetWork
  rw [hq]
  have e1 := congrArg Prod.fst h2
  have e2 := congrArg Prod.snd h2
  have e3 := congrArg Prod.fst e1
  have e4 := congrArg Prod.snd e1
  cases hx : handlePacket V (boltSrv V G cfg genPwLen stats) o p b db with
  | mk a n st =>
    simp only [Out.pair, bs, hx] at e2 e3 e4
    rw [e3, e4, e2]
    rfl


/-! ## A packet whose transaction is committed is answered -/

theorem codeOf_ok {r : Res (Nat × Bool)} {x : Nat × Bool} (h : r = .ok x) : codeOf r = .ok x.1 := by subst h; rfl

theorem record_write_answers {a : Reply} {o : Oracle} {p : Packet} {b : Str} {op : Op}
    (h : (handlePacket V (recordSrv V cfg (.ok a) genPwLen stats) o p b none).st = some (.op op)) :
    (handlePacket V (recordSrv V cfg (.ok a) genPwLen stats) o p b none).next = .go b := by
  have callFn_ok : ∀ {ρ : Type} (f : Str → ρ → Act (Option StoreReq) (Nat × Bool)) (dn : Str) (r : ρ),
      (∀ s x, (f b r s).2 = some x → (∃ y, s = some y) ∨ ∃ y, (f b r s).1 = .ok y) →
      (callFn [([], f)] dn b r none).2 = some (.op op) → ∃ c, (callFn [([], f)] dn b r none).1 = .ok c := by
    intro ρ f dn r hf hs
    unfold callFn at hs ⊢
    rw [pick_single] at hs ⊢
    dsimp only at hs ⊢
    rcases hf none _ hs with ⟨y, hy⟩ | ⟨y, hy⟩
    · cases hy
    · exact ⟨_, codeOf_ok hy⟩
  have reply_ok : ∀ (id : Int) (tag : Nat) (x : Res Nat × Option StoreReq), (∃ c, x.1 = .ok c) → (reply id tag b x).next = .go b := by
    intro id tag x hx
    obtain ⟨c, hc⟩ := hx
    obtain ⟨r, st⟩ := x
    cases hc
    rfl
  have reply_st : ∀ (id : Int) (tag : Nat) (x : Res Nat × Option StoreReq), (reply id tag b x).st = x.2 := by
    intro id tag x
    obtain ⟨r, st⟩ := x
    cases r <;> rfl
  have parseFailed_st : ∀ {ρ : Type} (r : Res ρ), (parseFailed r (none : Option StoreReq)).2 = none := by
    intro ρ r
    cases r with
    | err e => cases e <;> rfl
    | _ => rfl
  have hc := handlePacket_cases V (recordSrv V cfg (.ok a) genPwLen stats) o p b none
  generalize handlePacket V (recordSrv V cfg (.ok a) genPwLen stats) o p b none = out at h hc
  revert h
  cases hc with
  | closed => intro h; cases h
  | crash => intro h; cases h
  | hang => intro h; cases h
  | addHang => intro h; cases h
  | compare => intro h; cases h
  | add id req hm ht hs =>
    intro h
    rw [reply_st] at h
    refine reply_ok _ _ _ ?_
    unfold handleAdd at h ⊢
    by_cases hb : b = []
    · rw [if_pos hb] at h; cases h
    · rw [if_neg hb] at h ⊢
      cases hp : parseAddRequest V.C req with
      | ok r =>
        rw [hp] at h
        refine callFn_ok (recAdd cfg (.ok a)) _ r (fun s x hx => ?_) h
        unfold recAdd at hx ⊢
        by_cases hw : (!writeAllowed cfg b) = true
        · rw [if_pos hw] at hx; exact .inl ⟨_, hx⟩
        · rw [if_neg hw]; exact .inr ⟨_, rfl⟩
      | _ => rw [hp] at h; dsimp only at h; rw [parseFailed_st] at h; cases h
  | delete id req hm ht =>
    intro h
    rw [reply_st] at h
    refine reply_ok _ _ _ ?_
    unfold handleDelete at h ⊢
    by_cases hb : b = []
    · rw [if_pos hb] at h; cases h
    · rw [if_neg hb] at h ⊢
      cases hp : parseDeleteRequest V.C req with
      | ok r =>
        rw [hp] at h
        refine callFn_ok (recDelete cfg (.ok a)) _ r (fun s x hx => ?_) h
        unfold recDelete at hx ⊢
        by_cases hw : (!writeAllowed cfg b) = true
        · rw [if_pos hw] at hx; exact .inl ⟨_, hx⟩
        · rw [if_neg hw]; exact .inr ⟨_, rfl⟩
      | _ => rw [hp] at h; dsimp only at h; rw [parseFailed_st] at h; cases h
  | modify id req hm ht =>
    intro h
    rw [reply_st] at h
    refine reply_ok _ _ _ ?_
    unfold handleModify at h ⊢
    by_cases hb : b = []
    · rw [if_pos hb] at h; cases h
    · rw [if_neg hb] at h ⊢
      cases hp : parseModifyRequest V.C req with
      | ok r =>
        rw [hp] at h
        refine callFn_ok (recModify cfg (.ok a)) _ r (fun s x hx => ?_) h
        unfold recModify at hx ⊢
        by_cases hw : (!writeAllowed cfg b) = true
        · rw [if_pos hw] at hx; exact .inl ⟨_, hx⟩
        · rw [if_neg hw]; exact .inr ⟨_, rfl⟩
      | _ => rw [hp] at h; dsimp only at h; rw [parseFailed_st] at h; cases h
  | modifyDN id req hm ht =>
    intro h
    rw [reply_st] at h
    refine reply_ok _ _ _ ?_
    unfold handleModifyDN at h ⊢
    by_cases hb : b = []
    · rw [if_pos hb] at h; cases h
    · rw [if_neg hb] at h ⊢
      cases hp : parseModifyDNRequest V.C req with
      | ok r =>
        rw [hp] at h
        refine callFn_ok (recModifyDN cfg (.ok a)) _ r (fun s x hx => ?_) h
        unfold recModifyDN at hx ⊢
        by_cases hw : (!writeAllowed cfg b) = true
        · rw [if_pos hw] at hx; exact .inl ⟨_, hx⟩
        · rw [if_neg hw]; exact .inr ⟨_, rfl⟩
      | _ => rw [hp] at h; dsimp only at h; rw [parseFailed_st] at h; cases h
  | bind id req hm ht =>
    intro h
    exfalso
    have hq : ∀ dn pw, (recBind V cfg (.ok a) dn pw none).2 ≠ some (.op op) := by
      intro dn pw
      unfold recBind
      split
      · exact fun h => by cases h
      split
      · exact fun h => by cases h
      split
      · exact fun h => by cases h
      split
      · exact fun h => by cases h
      split
      · exact fun h => by cases h
      exact fun h => by cases h
    have hbody : (bindBody (recordSrv V cfg (.ok a) genPwLen stats) req none).2 ≠ some (.op op) := by
      unfold bindBody
      split
      · exact fun h => by cases h
      split
      · exact fun h => by cases h
      split
      · exact fun h => by cases h
      split
      · exact fun h => by cases h
      split
      · exact fun h => by cases h
      split
      · exact fun h => by cases h
      split
      · split
        · rw [show (recordSrv V cfg (.ok a) genPwLen stats).bindFns = [([], recBind V cfg (.ok a))] from rfl, pick_single]
          dsimp only
          rename_i dn _ _ auth _ _ _
          have := hq dn auth.data
          revert this
          cases recBind V cfg (.ok a) dn auth.data none with | mk x st => ?_
          intro this
          cases x with
          | ok y => obtain ⟨c, e⟩ := y; cases e <;> exact this
          | _ => exact this
        · exact fun h => by cases h
      · exact fun h => by cases h
    have hh : (handleBind (recordSrv V cfg (.ok a) genPwLen stats) req none).2 ≠ some (.op op) := by
      unfold handleBind
      revert hbody
      cases bindBody (recordSrv V cfg (.ok a) genPwLen stats) req none with | mk x st => ?_
      intro hbody
      cases x <;> exact hbody
    rcases stepBind_cases V (recordSrv V cfg (.ok a) genPwLen stats) id b req none with ⟨_, h', _⟩ | ⟨_, _, _, h', _⟩ | h' | h' | ⟨h', _⟩ <;>
      rw [h'] at h <;> exact hh h
  | search id req controls hm ht hx =>
    intro h
    exfalso
    have hh : (handleSearch V (recordSrv V cfg (.ok a) genPwLen stats) b req controls none).2 ≠ some (.op op) := by
      unfold handleSearch
      cases hp : parseSearchRequest req controls with
      | none => exact fun h => by cases h
      | some r =>
        dsimp only
        rw [show (recordSrv V cfg (.ok a) genPwLen stats).enforce = true from rfl, if_pos rfl]
        cases compile r.filter with
        | none => exact fun h => by cases h
        | some fp =>
          dsimp only
          rw [show (recordSrv V cfg (.ok a) genPwLen stats).searchFns = [([], recSearch (.ok a))] from rfl, pick_single]
          dsimp only
          have hs : (recSearch (.ok a) b r none).2 ≠ some (.op op) := fun h => by cases h
          revert hs
          cases recSearch (.ok a) b r none with | mk x st => ?_
          intro hs
          cases x with
          | ok sr =>
            dsimp only
            rw [if_pos rfl]
            split
            · exact hs
            · split <;> exact hs
          | _ => exact hs
    rcases stepSearch_cases V (recordSrv V cfg (.ok a) genPwLen stats) id b req controls none with ⟨_, _, _, h'⟩ | ⟨_, _, _, h'⟩ | ⟨_, h', _⟩ | ⟨_, h', _⟩ <;>
      rw [h'] at h <;> exact hh h
  | extended id req hm ht =>
    intro h
    have hpw : ∀ body, (handlePwModify V (recordSrv V cfg (.ok a) genPwLen stats) o b body none).2 = some (.op op) →
        ∃ g, (handlePwModify V (recordSrv V cfg (.ok a) genPwLen stats) o b body none).1 = .ok g := by
      intro body
      unfold handlePwModify
      by_cases hb : b = []
      · rw [if_pos hb]; intro h; cases h
      rw [if_neg hb]
      cases hp : parsePwModify V body with
      | ok r =>
        dsimp only
        split
        · intro h; cases h
        · intro h; cases h
        · intro h; cases h
        split
        · intro h; cases h
        · intro h; cases h
        · intro h; cases h
        rw [show (recordSrv V cfg (.ok a) genPwLen stats).pwExopFns = [([], recPwExop V cfg (.ok a))] from rfl, pick_single]
        dsimp only
        intro h
        rename_i hashed _
        have key : ∀ q : PwModReq, (recPwExop V cfg (.ok a) b q none).2 = some (.op op) → (recPwExop V cfg (.ok a) b q none).1 = .ok (rcSuccess, false) := by
          intro q
          unfold recPwExop
          dsimp only
          rw [if_neg hb]
          by_cases hu : q.userIdentity ≠ []
          · rw [if_pos hu]
            cases parseNormalize V.C q.userIdentity with
            | none => intro h; cases h
            | some u =>
              dsimp only
              by_cases hx : b ≠ u ∧ b ≠ cfg.admin
              · rw [if_pos hx]; intro h; cases h
              · rw [if_neg hx]; intro; rfl
          · rw [if_neg hu]; intro; rfl
        rw [key _ h]
        exact ⟨_, rfl⟩
      | _ => intro h; cases h
    have hext : (handleExtended V (recordSrv V cfg (.ok a) genPwLen stats) o b req none).2 = some (.op op) →
        ∃ oid gen, (handleExtended V (recordSrv V cfg (.ok a) genPwLen stats) o b req none).1 = .ok (.done rcSuccess oid gen) := by
      unfold handleExtended
      cases parseExtendedRequest req with
      | ok x =>
        obtain ⟨oid, body⟩ := x
        dsimp only
        by_cases ho : oid = pwmodOID
        · rw [if_pos ho]
          have := hpw body
          revert this
          cases handlePwModify V (recordSrv V cfg (.ok a) genPwLen stats) o b body none with | mk x st => ?_
          intro this h
          have hst : st = some (.op op) := by
            cases x with
            | err e =>
              cases e with
              | ldap c i => cases i <;> exact h
              | _ => exact h
            | _ => exact h
          obtain ⟨g, hg⟩ := this hst
          have hg : x = .ok g := hg
          subst hg
          exact ⟨_, _, rfl⟩
        · rw [if_neg ho]; intro h; cases h
      | _ => intro h; cases h
    have cs := stepExtended_cases V (recordSrv V cfg (.ok a) genPwLen stats) o id b req none
    dsimp only at cs
    rcases cs with ⟨h', _⟩ | ⟨_, _, _, h', _⟩ | ⟨h', hp⟩ | ⟨h', hp⟩
    · rw [h']
    · rw [h']
    · rw [h'] at h
      obtain ⟨_, _, e⟩ := hext h
      rw [hp] at e; cases e
    · rw [h'] at h
      obtain ⟨_, _, e⟩ := hext h
      rw [hp] at e; cases e

theorem packet_write_answers {o : Oracle} {p : Packet} {b : Str} {p₀ : Prog Reply}
    (h : packetWork V G cfg genPwLen stats o p b = .write p₀) (a : Reply) :
    (packetEnd V cfg genPwLen stats o p b (.ok a)).2 = .go b := by
  obtain ⟨q, h1, h2⟩ := splits_packet (V := V) (G := G) (cfg := cfg) (genPwLen := genPwLen) (stats := stats) o p b
  have hq : packetCall V cfg genPwLen stats o p b = q := h1 (.ok .unit)
  have hq' : (handlePacket V (recordSrv V cfg (.ok a) genPwLen stats) o p b none).st = q := h1 (.ok a)
  unfold packetWork at h
  rw [hq] at h
  cases q with
  | none => cases h
  | some r =>
    cases r with
    | op op => exact record_write_answers hq'
    | search base scope =>
      unfold workOf at h
      dsimp only at h
      revert h
      cases parseNormalize V.C base with
      | none => intro h; cases h
      | some n => intro h; cases h


/-! ## The invariant of overlapping executions -/

variable {ι : Type}

/-- The connection an event is about. -/
def Ev.on : Ev → Nat
  | .packet c _ _ => c
  | .eof c => c

/-- Where a connection is after a packet. -/
def Next.conn : Next → Option Str
  | .go b => some b
  | _ => none

/-- The server treating the events of an order one after the other. -/
abbrev serialRun (V : Env) (srv : Srv Db) (db : Db) (order : List (ι × Ev)) := (World.init db).run V srv (order.map (·.2))

/-- The request is in the order and gets these responses; or it has arrived, and at some point of the order the server would send these
responses to it and then crash or block. -/
def PacketSays (V : Env) (G : GobEnv) (cfg : BoltCfg) (genPwLen : Nat) (stats : Bool) (db : Db) (order : List (ι × Ev)) (tr : List (Seen ι))
    (id : ι) (rs : List Resp) : Prop :=
  (∃ (i : Nat) (e : Ev), order[i]? = some (id, e) ∧ (serialRun V (boltSrv V G cfg genPwLen stats) db order).2[i]? = some (e, rs)) ∨
  ∃ c p o k b, Seen.arrive id (.packet c p o) ∈ tr ∧ k ≤ order.length ∧
    (serialRun V (boltSrv V G cfg genPwLen stats) db (order.take k)).1.conn c = some b ∧
    (handlePacket V (boltSrv V G cfg genPwLen stats) o p b (serialRun V (boltSrv V G cfg genPwLen stats) db (order.take k)).1.st).resps = rs ∧
    ((handlePacket V (boltSrv V G cfg genPwLen stats) o p b (serialRun V (boltSrv V G cfg genPwLen stats) db (order.take k)).1.st).next = .crash ∨
     (handlePacket V (boltSrv V G cfg genPwLen stats) o p b (serialRun V (boltSrv V G cfg genPwLen stats) db (order.take k)).1.st).next = .hang)

/-- The request has been put into the order, with the responses it is going to get; or it will never be answered. -/
def PacketSettled (V : Env) (G : GobEnv) (cfg : BoltCfg) (genPwLen : Nat) (stats : Bool) (db : Db) (order : List (ι × Ev)) (tr : List (Seen ι)) (c : Nat)
    (j : Job ι) (r : Res Reply) : Prop :=
  let E := packetEnd V cfg genPwLen stats j.o j.p j.b r
  let W := serialRun V (boltSrv V G cfg genPwLen stats) db order
  PacketSays V G cfg genPwLen stats db order tr j.id E.1 ∧ ((E.2 = .crash ∨ E.2 = .hang) ∨
  ∃ i : Nat, order[i]? = some (j.id, .packet c j.p j.o) ∧ W.2[i]? = some (.packet c j.p j.o, E.1) ∧ W.1.conn c = E.2.conn)

/-- The request has arrived and had no effect yet. -/
def PacketPending (V : Env) (G : GobEnv) (cfg : BoltCfg) (genPwLen : Nat) (stats : Bool) (db : Db) (order : List (ι × Ev)) (tr : List (Seen ι))
    (c : Nat) (j : Job ι) : Prop :=
  Seen.arrive j.id (.packet c j.p j.o) ∈ tr ∧ j.id ∉ order.map (·.1) ∧
  (serialRun V (boltSrv V G cfg genPwLen stats) db order).1.conn c = some j.b

/-- What the stages mean. -/
def StageOk (V : Env) (G : GobEnv) (cfg : BoltCfg) (genPwLen : Nat) (stats : Bool) (db : Db) (order : List (ι × Ev))
    (disk : Db) (lock : Option Nat) (tr : List (Seen ι)) (c : Nat) : Stage ι → Prop
  | .ready b => (serialRun V (boltSrv V G cfg genPwLen stats) db order).1.conn c = some b
  | .begun j => PacketPending V G cfg genPwLen stats db order tr c j
  | .reading j p d => PacketSettled V G cfg genPwLen stats db order tr c j (view p d)
  | .writing j p d => lock = some c ∧ PacketPending V G cfg genPwLen stats db order tr c j ∧
      ∃ p₀, packetWork V G cfg genPwLen stats j.o j.p j.b = .write p₀ ∧ p.run d = p₀.run disk
  | .returned j r => PacketSettled V G cfg genPwLen stats db order tr c j r
  | .over => True

structure ParInv (V : Env) (G : GobEnv) (cfg : BoltCfg) (genPwLen : Nat) (stats : Bool) (db : Db) (s : Par ι) (order : List (ι × Ev)) : Prop where
  disk : (serialRun V (boltSrv V G cfg genPwLen stats) db order).1.st = s.disk
  answers : ∀ id rs, Seen.answer id rs ∈ s.trace → ∃ (i : Nat) (e : Ev), order[i]? = some (id, e) ∧
    (serialRun V (boltSrv V G cfg genPwLen stats) db order).2[i]? = some (e, rs)
  cuts : ∀ id rs, Seen.cut id rs ∈ s.trace → ∃ all, PacketSays V G cfg genPwLen stats db order s.trace id all ∧ rs <+: all
  once : (order.map (·.1)).Nodup
  arrived : ∀ id e, (id, e) ∈ order → Seen.arrive id e ∈ s.trace
  realTime : ∀ t₁ b e t₂, s.trace = t₁ ++ Seen.arrive b e :: t₂ → ∀ a rs, Seen.answer a rs ∈ t₁ →
    b ∈ order.map (·.1) → Precedes order a b
  stages : ∀ c, StageOk V G cfg genPwLen stats db order s.disk s.lock s.trace c (s.conns c)
  single : ∀ id e e', Seen.arrive id e ∈ s.trace → Seen.arrive id e' ∈ s.trace → e = e'

theorem setStage_self (f : Nat → Stage ι) (c : Nat) (x : Stage ι) : setStage f c x c = x := by simp [setStage]

theorem setStage_ne (f : Nat → Stage ι) {c u : Nat} (h : u ≠ c) (x : Stage ι) : setStage f c x u = f u := by simp [setStage, h]

theorem Precedes.mono {order : List (ι × Ev)} {a b : ι} (h : Precedes order a b) (e : ι × Ev) : Precedes (order ++ [e]) a b := by
  obtain ⟨l₁, ea, l₂, eb, l₃, rfl⟩ := h
  exact ⟨l₁, ea, l₂, eb, l₃ ++ [e], by simp⟩

theorem Precedes.last {order : List (ι × Ev)} {a b : ι} {ea eb : Ev} (h : (a, ea) ∈ order) : Precedes (order ++ [(b, eb)]) a b := by
  obtain ⟨l₁, l₂, rfl⟩ := List.append_of_mem h
  exact ⟨l₁, ea, l₂, eb, [], by simp⟩

theorem getElem?_snoc {α : Type} {l : List α} {i : Nat} {x y : α} (h : l[i]? = some x) : (l ++ [y])[i]? = some x := by
  obtain ⟨hi, _⟩ := List.getElem?_eq_some_iff.1 h
  rw [List.getElem?_append_left hi]; exact h

theorem run_log_length {σ : Type} {V : Env} {srv : Srv σ} (w : World σ) (es : List Ev) : (w.run V srv es).2.length = es.length := by
  induction es generalizing w with
  | nil => rfl
  | cons e es ih => rw [run_cons]; simp [ih]

theorem PacketSays.trace {db : Db} {order : List (ι × Ev)} {tr : List (Seen ι)} {id : ι} {rs : List Resp}
    (h : PacketSays V G cfg genPwLen stats db order tr id rs) (more : List (Seen ι)) :
    PacketSays V G cfg genPwLen stats db order (tr ++ more) id rs :=
  h.imp_right fun ⟨c, p, o, k, b, h1, h2⟩ => ⟨c, p, o, k, b, List.mem_append.2 (.inl h1), h2⟩

theorem StageOk.trace {db : Db} {order : List (ι × Ev)} {disk : Db} {lock : Option Nat} {tr : List (Seen ι)} {c : Nat} {x : Stage ι}
    (h : StageOk V G cfg genPwLen stats db order disk lock tr c x) (more : List (Seen ι)) :
    StageOk V G cfg genPwLen stats db order disk lock (tr ++ more) c x := by
  cases x with
  | begun j => exact ⟨List.mem_append.2 (.inl h.1), h.2⟩
  | writing j p d => exact ⟨h.1, ⟨List.mem_append.2 (.inl h.2.1.1), h.2.1.2⟩, h.2.2⟩
  | reading j p d => exact ⟨h.1.trace more, h.2⟩
  | returned j r => exact ⟨h.1.trace more, h.2⟩
  | ready b => exact h
  | over => trivial

/-- A step that has no effect. -/
theorem ParInv.local {db : Db} {s : Par ι} {order : List (ι × Ev)} (I : ParInv V G cfg genPwLen stats db s order) {c : Nat} {x : Stage ι}
    {lock : Option Nat} (hx : StageOk V G cfg genPwLen stats db order s.disk lock s.trace c x)
    (hl : ∀ u, u ≠ c → ∀ j p d, s.conns u = .writing j p d → lock = some u) :
    ParInv V G cfg genPwLen stats db { s with lock := lock, conns := setStage s.conns c x } order where
  disk := I.disk
  answers := I.answers
  cuts := I.cuts
  once := I.once
  arrived := I.arrived
  realTime := I.realTime
  single := I.single
  stages u := by
    by_cases h : u = c
    · subst h; simp only [setStage_self]; exact hx
    · simp only [setStage_ne _ h]
      have := I.stages u
      cases e : s.conns u with
      | writing j p d => rw [e] at this; exact ⟨hl u h j p d e, this.2⟩
      | _ => rw [e] at this; exact this

/-- A packet or the end of a connection is read. -/
theorem ParInv.arrive {db : Db} {s : Par ι} {order : List (ι × Ev)} (I : ParInv V G cfg genPwLen stats db s order) {id : ι} (e : Ev)
    (hnew : ∀ e, Seen.arrive id e ∉ s.trace) :
    ParInv V G cfg genPwLen stats db { s with trace := s.trace ++ [.arrive id e] } order where
  disk := I.disk
  answers := by
    intro i rs h
    rcases List.mem_append.1 h with h | h
    · exact I.answers i rs h
    · simp at h
  cuts := by
    intro i rs h
    rcases List.mem_append.1 h with h | h
    · obtain ⟨all, h2, h3⟩ := I.cuts i rs h
      exact ⟨all, h2.trace _, h3⟩
    · simp at h
  once := I.once
  arrived i e' h := List.mem_append.2 (.inl (I.arrived i e' h))
  realTime := by
    intro t₁ b e' t₂ ht a rs ha hb
    have ht : s.trace ++ [Seen.arrive id e] = t₁ ++ Seen.arrive b e' :: t₂ := ht
    rcases List.eq_nil_or_concat t₂ with rfl | ⟨t₃, z, rfl⟩
    · have := List.append_inj' (t₁ := [Seen.arrive id e]) ht rfl
      obtain ⟨-, h2⟩ := this
      simp at h2
      obtain ⟨x, hx, rfl⟩ := List.mem_map.1 hb
      have := I.arrived x.1 x.2 hx
      rw [← h2.1] at this
      exact absurd this (hnew _)
    · have : s.trace ++ [Seen.arrive id e] = (t₁ ++ Seen.arrive b e' :: t₃) ++ [z] := by rw [ht]; simp
      have := List.append_inj' this rfl
      exact I.realTime t₁ b e' t₃ this.1 a rs ha hb
  stages c := (I.stages c).trace _
  single := by
    intro i e₁ e₂ h₁ h₂
    rcases List.mem_append.1 h₁ with h₁ | h₁ <;> rcases List.mem_append.1 h₂ with h₂ | h₂
    · exact I.single i e₁ e₂ h₁ h₂
    · simp at h₂; rw [h₂.1] at h₁; exact absurd h₁ (hnew _)
    · simp at h₁; rw [h₁.1] at h₂; exact absurd h₂ (hnew _)
    · simp at h₁ h₂; rw [h₁.2, h₂.2]

/-- Responses are sent. -/
theorem ParInv.answer {db : Db} {s : Par ι} {order : List (ι × Ev)} (I : ParInv V G cfg genPwLen stats db s order) {id : ι} {rs : List Resp}
    (h : ∃ (i : Nat) (e : Ev), order[i]? = some (id, e) ∧ (serialRun V (boltSrv V G cfg genPwLen stats) db order).2[i]? = some (e, rs)) :
    ParInv V G cfg genPwLen stats db { s with trace := s.trace ++ [.answer id rs] } order where
  disk := I.disk
  answers := by
    intro i r h'
    rcases List.mem_append.1 h' with h' | h'
    · exact I.answers i r h'
    · simp at h'
      obtain ⟨rfl, rfl⟩ := h'
      exact h
  cuts := by
    intro i rs h
    rcases List.mem_append.1 h with h | h
    · obtain ⟨all, h2, h3⟩ := I.cuts i rs h
      exact ⟨all, h2.trace _, h3⟩
    · simp at h
  once := I.once
  arrived i e' h := List.mem_append.2 (.inl (I.arrived i e' h))
  realTime := by
    intro t₁ b e' t₂ ht a r ha hb
    have ht : s.trace ++ [Seen.answer id rs] = t₁ ++ Seen.arrive b e' :: t₂ := ht
    rcases List.eq_nil_or_concat t₂ with rfl | ⟨t₃, z, rfl⟩
    · have := List.append_inj' (t₁ := [Seen.answer id rs]) ht rfl
      simp at this
    · have : s.trace ++ [Seen.answer id rs] = (t₁ ++ Seen.arrive b e' :: t₃) ++ [z] := by rw [ht]; simp
      have := List.append_inj' this rfl
      exact I.realTime t₁ b e' t₃ this.1 a r ha hb
  stages c := (I.stages c).trace _
  single := by
    intro i e₁ e₂ h₁ h₂
    rcases List.mem_append.1 h₁ with h₁ | h₁
    · rcases List.mem_append.1 h₂ with h₂ | h₂
      · exact I.single i e₁ e₂ h₁ h₂
      · simp at h₂
    · simp at h₁

/-- The first responses are sent, and no more will be. -/
theorem ParInv.cut {db : Db} {s : Par ι} {order : List (ι × Ev)} (I : ParInv V G cfg genPwLen stats db s order) {j : Job ι}
    {all rs : List Resp} (h : PacketSays V G cfg genPwLen stats db order s.trace j.id all) (hp : rs <+: all) :
    ParInv V G cfg genPwLen stats db { s with trace := s.trace ++ [.cut j.id rs] } order where
  disk := I.disk
  answers := by
    intro i r h'
    rcases List.mem_append.1 h' with h' | h'
    · exact I.answers i r h'
    · simp at h'
  cuts := by
    intro i rs' h'
    rcases List.mem_append.1 h' with h' | h'
    · obtain ⟨all, h2, h3⟩ := I.cuts i rs' h'
      exact ⟨all, h2.trace _, h3⟩
    · simp at h'
      obtain ⟨rfl, rfl⟩ := h'
      exact ⟨all, h.trace _, hp⟩
  once := I.once
  arrived i e' h := List.mem_append.2 (.inl (I.arrived i e' h))
  realTime := by
    intro t₁ b e' t₂ ht a r ha hb
    have ht : s.trace ++ [Seen.cut j.id rs] = t₁ ++ Seen.arrive b e' :: t₂ := ht
    rcases List.eq_nil_or_concat t₂ with rfl | ⟨t₃, z, rfl⟩
    · have := List.append_inj' (t₁ := [Seen.cut j.id rs]) ht rfl
      simp at this
    · have : s.trace ++ [Seen.cut j.id rs] = (t₁ ++ Seen.arrive b e' :: t₃) ++ [z] := by rw [ht]; simp
      have := List.append_inj' this rfl
      exact I.realTime t₁ b e' t₃ this.1 a r ha hb
  stages c := (I.stages c).trace _
  single := by
    intro i e₁ e₂ h₁ h₂
    rcases List.mem_append.1 h₁ with h₁ | h₁
    · rcases List.mem_append.1 h₂ with h₂ | h₂
      · exact I.single i e₁ e₂ h₁ h₂
      · simp at h₂
    · simp at h₁

theorem serialRun_snoc (srv : Srv Db) (db : Db) (order : List (ι × Ev)) (id : ι) (e : Ev) :
    serialRun V srv db (order ++ [(id, e)]) = (((serialRun V srv db order).1.step V srv e).1,
      (serialRun V srv db order).2 ++ [(e, ((serialRun V srv db order).1.step V srv e).2)]) := by
  unfold serialRun
  rw [List.map_append]
  exact run_snoc _ _ _

theorem PacketSays.snoc {db : Db} {order : List (ι × Ev)} {tr : List (Seen ι)} {id : ι} {rs : List Resp}
    (h : PacketSays V G cfg genPwLen stats db order tr id rs) (x : ι × Ev) :
    PacketSays V G cfg genPwLen stats db (order ++ [x]) tr id rs := by
  rcases h with ⟨i, e, h1, h2⟩ | ⟨c, p, o, k, b, h1, h2, h3, h4, h5⟩
  · exact .inl ⟨i, e, getElem?_snoc h1, by rw [serialRun_snoc]; exact getElem?_snoc h2⟩
  · refine .inr ⟨c, p, o, k, b, h1, by simp; omega, ?_, ?_, ?_⟩
    · rw [List.take_append_of_le_length h2]; exact h3
    · rw [List.take_append_of_le_length h2]; exact h4
    · rw [List.take_append_of_le_length h2]; exact h5

/-- A step at which a request takes effect. -/
theorem ParInv.effect {db : Db} {s : Par ι} {order : List (ι × Ev)} (I : ParInv V G cfg genPwLen stats db s order) {c : Nat} {x : Stage ι}
    {lock : Option Nat} {disk : Db} {id : ι} {e : Ev} (hon : e.on = c)
    (harr : Seen.arrive id e ∈ s.trace) (hnew : id ∉ order.map (·.1))
    (hdisk : ((serialRun V (boltSrv V G cfg genPwLen stats) db order).1.step V (boltSrv V G cfg genPwLen stats) e).1.st = disk)
    (hconn : ∀ u, u ≠ c → ((serialRun V (boltSrv V G cfg genPwLen stats) db order).1.step V (boltSrv V G cfg genPwLen stats) e).1.conn u =
      (serialRun V (boltSrv V G cfg genPwLen stats) db order).1.conn u)
    (hx : StageOk V G cfg genPwLen stats db (order ++ [(id, e)]) disk lock s.trace c x)
    (hl : ∀ u, u ≠ c → ∀ j p d, s.conns u = .writing j p d → lock = some u ∧ disk = s.disk) :
    ParInv V G cfg genPwLen stats db { s with disk := disk, lock := lock, conns := setStage s.conns c x } (order ++ [(id, e)]) where
  disk := by rw [serialRun_snoc]; exact hdisk
  answers := by
    intro i rs h
    obtain ⟨k, e', h1, h2⟩ := I.answers i rs h
    exact ⟨k, e', getElem?_snoc h1, by rw [serialRun_snoc]; exact getElem?_snoc h2⟩
  cuts := by
    intro i rs h
    obtain ⟨all, h2, h3⟩ := I.cuts i rs h
    exact ⟨all, h2.snoc _, h3⟩
  once := by
    rw [List.map_append, List.nodup_append]
    refine ⟨I.once, by simp, ?_⟩
    intro a ha b hb
    simp at hb
    rintro rfl
    rw [hb] at ha
    exact hnew ha
  arrived := by
    intro i e' h
    rcases List.mem_append.1 h with h | h
    · exact I.arrived i e' h
    · simp at h
      obtain ⟨rfl, rfl⟩ := h
      exact harr
  realTime := by
    intro t₁ b e' t₂ ht a rs ha hb
    have ht : s.trace = _ := ht
    rw [List.map_append, List.mem_append] at hb
    rcases hb with hb | hb
    · exact (I.realTime t₁ b e' t₂ ht a rs ha hb).mono _
    · simp at hb
      subst hb
      obtain ⟨k, ea, h1, -⟩ := I.answers a rs (by rw [ht]; exact List.mem_append.2 (.inl ha))
      exact Precedes.last (List.mem_of_getElem? h1)
  single := I.single
  stages u := by
    by_cases h : u = c
    · subst h; simp only [setStage_self]; exact hx
    · simp only [setStage_ne _ h]
      have hc : (serialRun V (boltSrv V G cfg genPwLen stats) db (order ++ [(id, e)])).1.conn u =
          (serialRun V (boltSrv V G cfg genPwLen stats) db order).1.conn u := by rw [serialRun_snoc]; exact hconn u h
      have pend : ∀ j : Job ι, PacketPending V G cfg genPwLen stats db order s.trace u j →
          PacketPending V G cfg genPwLen stats db (order ++ [(id, e)]) s.trace u j := by
        intro j hj
        refine ⟨hj.1, ?_, by rw [hc]; exact hj.2.2⟩
        rw [List.map_append, List.mem_append]
        rintro (h' | h')
        · exact hj.2.1 h'
        · simp at h'
          have h1 := hj.1
          rw [h'] at h1
          have := I.single id _ _ h1 harr
          rw [← this] at hon
          exact h hon
      have sett : ∀ (j : Job ι) r, PacketSettled V G cfg genPwLen stats db order s.trace u j r →
          PacketSettled V G cfg genPwLen stats db (order ++ [(id, e)]) s.trace u j r := by
        rintro j r ⟨hs, hj⟩
        rcases hj with hj | ⟨i, h1, h2, h3⟩
        · exact ⟨hs.snoc _, .inl hj⟩
        · exact ⟨hs.snoc _, .inr ⟨i, getElem?_snoc h1, by rw [serialRun_snoc]; exact getElem?_snoc h2, by rw [hc]; exact h3⟩⟩
      have := I.stages u
      cases e' : s.conns u with
      | ready b => rw [e'] at this; show _ = _; rw [hc]; exact this
      | begun j => rw [e'] at this; exact pend j this
      | reading j p d => rw [e'] at this; exact sett j _ this
      | writing j p d =>
        rw [e'] at this
        obtain ⟨h1, h2, p₀, h3, h4⟩ := this
        obtain ⟨l1, l2⟩ := hl u h j p d e'
        exact ⟨l1, pend j h2, p₀, h3, by rw [h4, l2]⟩
      | returned j r => rw [e'] at this; exact sett j _ this
      | over => trivial

/-- The order stays as it is, or what a connection does now comes next: its end, or the packet it is working on, under the identity it has. -/
def OrderGrows (V : Env) (G : GobEnv) (cfg : BoltCfg) (genPwLen : Nat) (stats : Bool) (db : Db) (s : Par ι) (order order' : List (ι × Ev)) : Prop :=
  order' = order ∨ (∃ id c, order' = order ++ [(id, .eof c)]) ∨
  ∃ c j, (s.conns c = .begun j ∨ ∃ p d, s.conns c = .writing j p d) ∧ order' = order ++ [(j.id, .packet c j.p j.o)] ∧
    (serialRun V (boltSrv V G cfg genPwLen stats) db order).1.conn c = some j.b

/-- A packet takes effect: it is put into the order, unless it is never answered. -/
theorem ParInv.work {db : Db} {s : Par ι} {order : List (ι × Ev)} (I : ParInv V G cfg genPwLen stats db s order) {c : Nat} {x : Stage ι}
    {lock : Option Nat} {j : Job ι} {disk : Db} {r : Res Reply} (hj : s.conns c = .begun j ∨ ∃ p d, s.conns c = .writing j p d) (hp : PacketPending V G cfg genPwLen stats db order s.trace c j)
    (hr : (packetWork V G cfg genPwLen stats j.o j.p j.b).exec s.disk = (r, disk))
    (hx : ∀ order', PacketSettled V G cfg genPwLen stats db order' s.trace c j r → StageOk V G cfg genPwLen stats db order' disk lock s.trace c x)
    (hq : (packetEnd V cfg genPwLen stats j.o j.p j.b r).2 = .crash ∨ (packetEnd V cfg genPwLen stats j.o j.p j.b r).2 = .hang → disk = s.disk)
    (hl : ∀ u, u ≠ c → ∀ j p d, s.conns u = .writing j p d → lock = some u ∧ disk = s.disk) :
    ∃ order', ParInv V G cfg genPwLen stats db { s with disk := disk, lock := lock, conns := setStage s.conns c x } order' ∧
      OrderGrows V G cfg genPwLen stats db s order order' := by
  by_cases hbad : (packetEnd V cfg genPwLen stats j.o j.p j.b r).2 = .crash ∨ (packetEnd V cfg genPwLen stats j.o j.p j.b r).2 = .hang
  · have hd := hq hbad
    subst hd
    have hsays : PacketSays V G cfg genPwLen stats db order s.trace j.id (packetEnd V cfg genPwLen stats j.o j.p j.b r).1 := by
      refine .inr ⟨c, j.p, j.o, order.length, j.b, hp.1, Nat.le_refl _, by rw [List.take_length]; exact hp.2.2, ?_, ?_⟩
      · rw [List.take_length, I.disk, packet_alone, hr]
      · rw [List.take_length, I.disk, packet_alone, hr]; exact hbad
    exact ⟨order, I.local (hx order ⟨hsays, .inl hbad⟩) fun u hu j p d e => (hl u hu j p d e).1, .inl rfl⟩
  · have hst := I.disk
    have halone := packet_alone (V := V) (G := G) (cfg := cfg) (genPwLen := genPwLen) (stats := stats) j.o j.p j.b s.disk
    rw [hr] at halone
    have hstep : (serialRun V (boltSrv V G cfg genPwLen stats) db order).1.step V (boltSrv V G cfg genPwLen stats) (.packet c j.p j.o) =
        (({ (serialRun V (boltSrv V G cfg genPwLen stats) db order).1 with st := disk }).setConn c
          (packetEnd V cfg genPwLen stats j.o j.p j.b r).2.conn, (packetEnd V cfg genPwLen stats j.o j.p j.b r).1) := by
      unfold World.step
      dsimp only
      rw [hp.2.2]
      dsimp only
      rw [hst, halone]
      dsimp only
      cases hn : (packetEnd V cfg genPwLen stats j.o j.p j.b r).2 with
      | go b' => rfl
      | closed => rfl
      | hang => exact absurd (.inr hn) hbad
      | crash => exact absurd (.inl hn) hbad
    refine ⟨order ++ [(j.id, .packet c j.p j.o)], I.effect (c := c) (e := .packet c j.p j.o) rfl hp.1 hp.2.1 (by rw [hstep]; rfl) ?_ (hx _ ?_) hl, .inr (.inr ⟨c, j, hj, rfl, hp.2.2⟩)⟩
    · intro u hu
      rw [hstep]
      simp [World.setConn, hu]
    · have hlog : (serialRun V (boltSrv V G cfg genPwLen stats) db (order ++ [(j.id, .packet c j.p j.o)])).2[order.length]? =
          some (.packet c j.p j.o, (packetEnd V cfg genPwLen stats j.o j.p j.b r).1) := by
        rw [serialRun_snoc, hstep]
        have : (serialRun V (boltSrv V G cfg genPwLen stats) db order).2.length = order.length := by
          rw [run_log_length]; simp
        rw [← this]
        simp
      refine ⟨.inl ⟨order.length, _, by simp, hlog⟩, .inr ⟨order.length, by simp, hlog, ?_⟩⟩
      rw [serialRun_snoc, hstep]
      simp [World.setConn]

theorem par_step {db : Db} {s s' : Par ι} {order : List (ι × Ev)} (I : ParInv V G cfg genPwLen stats db s order)
    (hs : ParStep V G cfg genPwLen stats s s') : ∃ order', ParInv V G cfg genPwLen stats db s' order' ∧
      OrderGrows V G cfg genPwLen stats db s order order' := by
  have lockOf : ∀ u j p d, s.conns u = .writing j p d → s.lock = some u := by
    intro u j p d e
    have := I.stages u
    rw [e] at this
    exact this.1
  cases hs with
  | arrive c b id o p hd h hnew =>
    have hc := I.stages c
    rw [h] at hc
    have I' := I.arrive (.packet c p o) hnew
    refine ⟨order, I'.local (c := c) (x := .begun ⟨id, o, p, b⟩) (lock := s.lock) ⟨by simp, ?_, hc⟩ ?_, .inl rfl⟩
    · intro hm
      obtain ⟨x, hx, e⟩ := List.mem_map.1 hm
      have := I.arrived x.1 x.2 hx
      have e : x.1 = id := e
      rw [e] at this
      exact hnew _ this
    · intro u _ j p d e; exact lockOf u j p d e
  | eof c b id hd h hnew =>
    have hc := I.stages c
    rw [h] at hc
    have hc : (serialRun V (boltSrv V G cfg genPwLen stats) db order).1.conn c = some b := hc
    have I' := I.arrive (.eof c) hnew
    have hni : id ∉ order.map (·.1) := by
      intro hm
      obtain ⟨x, hx, e⟩ := List.mem_map.1 hm
      have := I.arrived x.1 x.2 hx
      have e : x.1 = id := e
      rw [e] at this
      exact hnew _ this
    have hstep : (serialRun V (boltSrv V G cfg genPwLen stats) db order).1.step V (boltSrv V G cfg genPwLen stats) (.eof c) =
        ((serialRun V (boltSrv V G cfg genPwLen stats) db order).1.setConn c none, []) := by
      unfold World.step
      dsimp only
      rw [hc]
      rfl
    have I'' := I'.effect (c := c) (x := .over) (lock := s.lock) (disk := s.disk) (id := id) (e := .eof c) rfl (by simp) hni
      (by rw [hstep]; exact I.disk) (by intro u hu; rw [hstep]; simp [World.setConn, hu]) trivial
      (fun u _ j p d e => ⟨lockOf u j p d e, rfl⟩)
    have I3 := I''.answer (id := id) (rs := []) ⟨order.length, .eof c, by simp, by
      rw [serialRun_snoc, hstep]
      have : (serialRun V (boltSrv V G cfg genPwLen stats) db order).2.length = order.length := by
        rw [run_log_length]; simp
      rw [← this]
      simp⟩
    refine ⟨order ++ [(id, .eof c)], ?_, .inr (.inl ⟨id, c, rfl⟩)⟩
    have e : s.trace ++ [Seen.arrive id (.eof c), .answer id []] = (s.trace ++ [Seen.arrive id (.eof c)]) ++ [.answer id []] := by simp
    rw [e]
    exact I3
  | direct c j r hd h hw =>
    have hc := I.stages c
    rw [h] at hc
    exact I.work (x := .returned j r) (lock := s.lock) (disk := s.disk) (r := r) (.inl h) hc (by rw [hw]; rfl) (fun _ h => h) (fun _ => rfl)
      (fun u _ j p d e => ⟨lockOf u j p d e, rfl⟩)
  | beginRead c j p hd h hw =>
    have hc := I.stages c
    rw [h] at hc
    exact I.work (x := .reading j (p s.disk) s.disk) (lock := s.lock) (disk := s.disk) (r := view (p s.disk) s.disk) (.inl h) hc (by rw [hw]; rfl)
      (fun _ h => h) (fun _ => rfl) (fun u _ j p d e => ⟨lockOf u j p d e, rfl⟩)
  | beginWrite c j p hd h hw hl =>
    have hc := I.stages c
    rw [h] at hc
    refine ⟨order, I.local (x := .writing j p s.disk) (lock := some c) ⟨rfl, hc, p, hw, rfl⟩ ?_, .inl rfl⟩
    intro u hu j p d e
    rw [lockOf u j p d e] at hl
    simp at hl
  | stepRead c j p d q hd h hi =>
    have hc := I.stages c
    rw [h] at hc
    refine ⟨order, I.local (x := .reading j q.1 q.2) (lock := s.lock) ?_ (fun u _ j p d e => lockOf u j p d e), .inl rfl⟩
    show PacketSettled V G cfg genPwLen stats db order s.trace c j (view q.1 q.2)
    rw [view_congr hi.run]
    exact hc
  | stepWrite c j p d q hd h hi =>
    have hc := I.stages c
    rw [h] at hc
    obtain ⟨h1, h2, p₀, h3, h4⟩ := hc
    exact ⟨order, I.local (x := .writing j q.1 q.2) (lock := s.lock) ⟨h1, h2, p₀, h3, by rw [hi.run]; exact h4⟩ (fun u _ j p d e => lockOf u j p d e), .inl rfl⟩
  | endRead c j p d r hd h ho =>
    have hc := I.stages c
    rw [h] at hc
    refine ⟨order, I.local (x := .returned j r) (lock := s.lock) ?_ (fun u _ j p d e => lockOf u j p d e), .inl rfl⟩
    have hv : view p d = r := by
      cases p <;> simp only [Prog.outcome, Option.some.injEq, reduceCtorEq] at ho <;> subst ho <;> rfl
    rw [← hv]
    exact hc
  | commit c j a d hd h =>
    have hc := I.stages c
    rw [h] at hc
    obtain ⟨h1, h2, p₀, h3, h4⟩ := hc
    have hu : update p₀ s.disk = (.ok a, d) := by simp only [update, ← h4, Prog.run]
    have hgo := packet_write_answers h3 a
    refine I.work (x := .returned j (.ok a)) (lock := none) (disk := d) (r := .ok a) (.inr ⟨_, _, h⟩) h2 (by rw [h3]; exact hu) (fun _ h => h) ?_ ?_
    · rw [hgo]; rintro (h | h) <;> cases h
    · intro u hu j p d e
      have := lockOf u j p d e
      rw [h1] at this
      simp at this
      exact absurd this.symm hu
  | rollback c j p d r hd h ho hr =>
    have hc := I.stages c
    rw [h] at hc
    obtain ⟨h1, h2, p₀, h3, h4⟩ := hc
    have hu : update p₀ s.disk = (r, s.disk) := by
      simp only [update, ← h4]
      cases p with
      | ret a => simp only [Prog.outcome, Option.some.injEq] at ho; exact absurd ho.symm (hr a)
      | fail e => simp only [Prog.outcome, Option.some.injEq] at ho; subst ho; simp only [Prog.run]
      | panic => simp only [Prog.outcome, Option.some.injEq] at ho; subst ho; simp only [Prog.run]
      | hang => simp [Prog.outcome] at ho
      | get => simp [Prog.outcome] at ho
      | put => simp [Prog.outcome] at ho
      | del => simp [Prog.outcome] at ho
      | nextSeq => simp [Prog.outcome] at ho
    refine I.work (x := .returned j r) (lock := none) (disk := s.disk) (r := r) (.inr ⟨_, _, h⟩) h2 (by rw [h3]; exact hu) (fun _ h => h) (fun _ => rfl) ?_
    intro u hu j p d e
    have := lockOf u j p d e
    rw [h1] at this
    simp at this
    exact absurd this.symm hu
  | goOn c j r b' hd h hn =>
    have hc := I.stages c
    rw [h] at hc
    rcases hc.2 with hc | ⟨i, h1, h2, h3⟩
    · rw [hn] at hc; rcases hc with hc | hc <;> cases hc
    · have I' := I.answer (id := j.id) ⟨i, _, h1, h2⟩
      refine ⟨order, I'.local (c := c) (x := .ready b') (lock := s.lock) ?_ (fun u _ j p d e => lockOf u j p d e), .inl rfl⟩
      rw [hn] at h3
      exact h3
  | close c j r hd h hn =>
    have hc := I.stages c
    rw [h] at hc
    rcases hc.2 with hc | ⟨i, h1, h2, h3⟩
    · rw [hn] at hc; rcases hc with hc | hc <;> cases hc
    · have I' := I.answer (id := j.id) ⟨i, _, h1, h2⟩
      exact ⟨order, I'.local (c := c) (x := .over) (lock := s.lock) trivial (fun u _ j p d e => lockOf u j p d e), .inl rfl⟩
  | lost c j r k hd h hk =>
    have hc := I.stages c
    rw [h] at hc
    exact ⟨order, (I.cut hc.1 (List.take_prefix _ _)).local (c := c) (x := .over) (lock := s.lock) trivial (fun u _ j p d e => lockOf u j p d e),
      .inl rfl⟩
  | block c j r hd h hn =>
    have hc := I.stages c
    rw [h] at hc
    exact ⟨order, (I.cut hc.1 (List.prefix_refl _)).local (c := c) (x := .over) (lock := s.lock) trivial (fun u _ j p d e => lockOf u j p d e),
      .inl rfl⟩
  | crash c j r hd h hn =>
    have hc := I.stages c
    rw [h] at hc
    have I' := I.cut hc.1 (List.prefix_refl _)
    exact ⟨order, ⟨I'.disk, I'.answers, I'.cuts, I'.once, I'.arrived, I'.realTime, I'.stages, I'.single⟩, .inl rfl⟩

theorem par_reach {db : Db} {s : Par ι} (h : ParReach V G cfg genPwLen stats db s) : ∃ order, ParInv V G cfg genPwLen stats db s order := by
  induction h with
  | start =>
    refine ⟨[], rfl, ?_, ?_, by simp, by simp, ?_, fun c => rfl, ?_⟩ <;> simp [Par.start]
  | step s s' _ hs ih =>
    obtain ⟨order, I⟩ := ih
    obtain ⟨order', I', -⟩ := par_step I hs
    exact ⟨order', I'⟩

end
end Idm
