import Verif.Props.BoltServer
import Verif.Proofs.BoltPassword
/-!
# C19, C20, C34: who changes the directory
-/
namespace Idm
open Dir

section
variable {V : Env} {G : GobEnv} {cfg : BoltCfg} {n : Nat} {stats : Bool} {base : DN}

/-! ## C34 -/

/-- C34: a packet that changes the database (any database) is an add, delete, modify, rename or extended request, and it was answered by
one response with success. So no search, bind, unbind, compare, malformed or refused request changes it. -/
theorem C34_only_successful_writes_change (o : Oracle) (p : Packet) (bound : Str) (db : Db)
    (h : (handlePacket V (boltSrv V G cfg n stats) o p bound db).st ≠ db) :
    (∃ id req, Message p id req ∧ (req.tag = 6 ∨ req.tag = 8 ∨ req.tag = 10 ∨ req.tag = 12 ∨ req.tag = 23)) ∧
    Succeeded (handlePacket V (boltSrv V G cfg n stats) o p bound db).resps := by
  rcases bolt_packet (V := V) (G := G) (cfg := cfg) (n := n) (stats := stats) o p bound db with h1 | ⟨op, id, req, -, hm, ht, -, hs, -⟩
  · exact absurd h1 h
  · refine ⟨⟨id, req, hm, ?_⟩, hs⟩
    rw [ht]
    cases op <;> simp [Op.tag]

/-- a packet that does change the database -/
example : (toyReq b!"uid=admin,dc=lg" (wDelete b!"uid=ann,dc=lg")).resps = [.result 7 11 0] ∧
    (toyReq b!"uid=admin,dc=lg" (wDelete b!"uid=ann,dc=lg")).st.tbl .dn2id b!"uid=ann,dc=lg" = none ∧
    toyDb.tbl .dn2id b!"uid=ann,dc=lg" ≠ none := by decide +kernel

/-- A store call some connection made: who was bound, what was called. -/
def Called (V : Env) (srv : Srv Db) (db : Db) (evs : List Ev) (admin : Str) (op : Op) : Prop :=
  ∃ before c p o after bound id req, evs = before ++ .packet c p o :: after ∧
    ((World.init db).run V srv before).1.conn c = some bound ∧ Permitted V.C admin bound op ∧
    Message p id req ∧ req.tag = op.tag ∧
    Succeeded (handlePacket V srv o p bound ((World.init db).run V srv before).1.st).resps

theorem Called.snoc {srv : Srv Db} {db : Db} {evs : List Ev} {admin : Str} {op : Op} (h : Called V srv db evs admin op) (e : Ev) :
    Called V srv db (evs ++ [e]) admin op := by
  obtain ⟨before, c, p, o, after, bound, id, req, h1, h2⟩ := h
  exact ⟨before, c, p, o, after ++ [e], bound, id, req, by rw [h1]; simp, h2⟩

/-- C34 for schedules: whatever any number of clients send in whatever order, the database is the one reached by a list of store calls
that all succeeded, each made by a permitted client whose request was answered with success. -/
theorem C34_database_is_a_history (db : Db) (evs : List Ev) :
    ∃ ops : List Op, ((World.init db).run V (boltSrv V G cfg n stats) evs).1.st =
        (boltRun V.C G (validatePw V.C V.K) cfg.store db ops).2 ∧
      (∀ r ∈ (boltRun V.C G (validatePw V.C V.K) cfg.store db ops).1, r = .ok ()) ∧ ops.length ≤ evs.length ∧
      ∀ op ∈ ops, Called V (boltSrv V G cfg n stats) db evs cfg.admin op := by
  induction evs using snoc_induction with
  | nil => exact ⟨[], rfl, by simp [boltRun], Nat.le_refl _, by simp⟩
  | snoc evs e ih =>
    obtain ⟨ops, h1, h2, h3, h4⟩ := ih
    have same : ((World.init db).run V (boltSrv V G cfg n stats) (evs ++ [e])).1.st =
        ((World.init db).run V (boltSrv V G cfg n stats) evs).1.st →
        ∃ ops : List Op, ((World.init db).run V (boltSrv V G cfg n stats) (evs ++ [e])).1.st =
          (boltRun V.C G (validatePw V.C V.K) cfg.store db ops).2 ∧
        (∀ r ∈ (boltRun V.C G (validatePw V.C V.K) cfg.store db ops).1, r = .ok ()) ∧ ops.length ≤ (evs ++ [e]).length ∧
        ∀ op ∈ ops, Called V (boltSrv V G cfg n stats) db (evs ++ [e]) cfg.admin op := by
      intro h
      exact ⟨ops, by rw [h, h1], h2, by simp; omega, fun op ho => (h4 op ho).snoc e⟩
    rw [run_snoc] at same ⊢
    dsimp only at same ⊢
    generalize hw : ((World.init db).run V (boltSrv V G cfg n stats) evs).1 = w at h1 same ⊢
    cases e with
    | eof c =>
      apply same
      simp only [World.step]
      split <;> rfl
    | packet c p o =>
      cases hc : w.conn c with
      | none => apply same; simp only [World.step, hc]
      | some b =>
        have hst : (w.step V (boltSrv V G cfg n stats) (.packet c p o)).1.st =
            (handlePacket V (boltSrv V G cfg n stats) o p b w.st).st := by
          simp only [World.step, hc]
          split <;> rfl
        rcases bolt_packet (V := V) (G := G) (cfg := cfg) (n := n) (stats := stats) o p b w.st with h5 | ⟨op, id, req, hp, hm, ht, hs, hr, -⟩
        · exact same (hst.trans h5)
        · refine ⟨ops ++ [op], ?_, ?_, by simp; omega, ?_⟩
          · rw [hst, boltRun_append]
            simp only [boltRun]
            rw [← h1]
            exact (congrArg Prod.snd hs).symm
          · intro r hr'
            rw [boltRun_append] at hr'
            rcases List.mem_append.1 hr' with hr' | hr'
            · exact h2 r hr'
            · simp only [boltRun, List.mem_singleton] at hr'
              rw [hr', ← h1]
              exact congrArg Prod.fst hs
          · intro op' ho
            rcases List.mem_append.1 ho with ho | ho
            · exact (h4 op' ho).snoc _
            · simp only [List.mem_singleton] at ho
              subst ho
              exact ⟨evs, c, p, o, [], b, id, req, rfl, by rw [hw]; exact hc, hp, hm, ht, by rw [hw]; exact hr⟩

/-! ## C19 -/

/-- C19: a packet on a connection that is not bound as a named user does not change the database. -/
theorem C19_anonymous_changes_nothing (o : Oracle) (p : Packet) (db : Db) :
    (handlePacket V (boltSrv V G cfg n stats) o p [] db).st = db := by
  rcases bolt_packet (V := V) (G := G) (cfg := cfg) (n := n) (stats := stats) o p [] db with h | ⟨op, id, req, hp, -⟩
  · exact h
  · exact absurd rfl hp.1

/-- C19 for schedules: an event of a connection that has had no successful bind with a non-empty name leaves the database as it was,
whatever happened on it and on other connections before. -/
theorem C19_unbound_connection_changes_nothing (db : Db) (evs : List Ev) (c : Nat) (p : Packet) (o : Oracle)
    (h : ∀ dn, BoundAs c ((World.init db).run V (boltSrv V G cfg n stats) evs).2 dn → parseNormalize V.C dn = some []) :
    ((World.init db).run V (boltSrv V G cfg n stats) (evs ++ [.packet c p o])).1.st =
      ((World.init db).run V (boltSrv V G cfg n stats) evs).1.st := by
  rw [run_snoc]
  dsimp only
  have hid := C21_identity_all_connections (V := V) (srv := boltSrv V G cfg n stats) db evs c
  generalize (World.init db).run V (boltSrv V G cfg n stats) evs = x at h hid
  obtain ⟨w, log⟩ := x
  dsimp only at h hid ⊢
  cases hc : w.conn c with
  | none => simp only [World.step, hc]
  | some b =>
    have hb : b = [] := by
      rcases hid b hc with ⟨h1, -⟩ | ⟨before, p', o', rs, after, dn, h1, h2, -, h4, h5⟩
      · exact h1
      · have := h dn ⟨p', o', rs, by rw [h1]; simp, h2, h4⟩
        rw [this] at h5
        exact (Option.some.inj h5).symm
    subst hb
    have := C19_anonymous_changes_nothing (V := V) (G := G) (cfg := cfg) (n := n) (stats := stats) o p w.st
    simp only [World.step, hc]
    split <;> exact this

theorem decodeControls_ok {V : Env} (ps : List Packet) (hctl : ∀ q ∈ ps, V.control q ≠ .panic ∧ V.control q ≠ .hang) :
    ∃ cs, decodeControls V ps = .ok cs := by
  induction ps with
  | nil => exact ⟨[], rfl⟩
  | cons p ps ih =>
    obtain ⟨cs, h⟩ := ih fun q hq => hctl q (List.mem_cons_of_mem _ hq)
    unfold decodeControls
    cases hq : V.control p with
    | ok c => exact ⟨c :: cs, by rw [h]; rfl⟩
    | err e => exact ⟨cs, h⟩
    | panic => exact absurd hq (hctl p List.mem_cons_self).1
    | hang => exact absurd hq (hctl p List.mem_cons_self).2

/-- C19: on a connection that is not bound each add, delete, modify and rename is answered insufficientAccessRights (50), whatever else
is in the request; for every server, not only with the BoltDB store. (Missing: adds at servers with statistics, see `C19_stats_fails`, and
a request with a control that go-ldap's `DecodeControl` panics on, which ends the process, C27.) -/
theorem C19_writes_refused_partial {σ : Type} {srv : Srv σ}
    (o : Oracle) (p : Packet) (st : σ) (id : Int) (req : Packet) (hst : srv.stats = false ∨ req.tag ≠ 8)
    (hctl : ∀ c, p.kids[2]? = some c → ∀ q ∈ c.kids, V.control q ≠ .panic ∧ V.control q ≠ .hang)
    (hm : Message p id req) (ht : req.tag = 6 ∨ req.tag = 8 ∨ req.tag = 10 ∨ req.tag = 12) :
    (handlePacket V srv o p [] st).resps = [.result id (req.tag + 1) 50] ∧
    (handlePacket V srv o p [] st).next = .go [] ∧ (handlePacket V srv o p [] st).st = st := by
  obtain ⟨m, more, hk, hi, hc⟩ := hm
  obtain ⟨cs, hcs⟩ := decodeControls_ok (V := V) ((more.head?.map Packet.kids).getD []) (by
    cases more with
    | nil => intro q hq; cases hq
    | cons c cs => exact hctl c (by rw [hk]; rfl))
  have h : handlePacket V srv o p [] st = ⟨[.result id (req.tag + 1) 50], .go [], st⟩ := by
    unfold handlePacket
    rw [hk]
    simp only [int?_iff.2 hi, hc, ne_eq, not_true_eq_false, if_false, hcs]
    rcases ht with ht | ht | ht | ht <;> rw [ht] <;> simp [appAddRequest, appBindRequest, appCompareRequest, appDelRequest,
      appExtendedRequest, appModifyDNRequest, appModifyRequest, handleAdd, handleModify, handleDelete, handleModifyDN, reply,
      appAddResponse, appModifyResponse, appDelResponse, appModifyDNResponse, rcInsufficientAccessRights]
    rw [hst.resolve_right fun h => h ht]
  rw [h]
  exact ⟨rfl, rfl, rfl⟩

example : (∀ c, (wMsg 7 (wDelete b!"uid=ann,dc=lg")).kids[2]? = some c → ∀ q ∈ c.kids, toyEnv.control q ≠ .panic ∧ toyEnv.control q ≠ .hang) ∧
    Message (wMsg 7 (wDelete b!"uid=ann,dc=lg")) 7 (wDelete b!"uid=ann,dc=lg") ∧ (wDelete b!"uid=ann,dc=lg").tag = 10 :=
  ⟨by simp [toyEnv], ⟨_, [], rfl, rfl, rfl⟩, rfl⟩

/-- Without a bind, an add is not answered if statistics are on: the connection blocks forever. -/
theorem C19_stats_fails : ∃ p o id req, Message p id req ∧ req.tag = 8 ∧
    (handlePacket toyEnv (boltSrv toyEnv gobInstance toyCfg 8 true) o p [] toyDb).resps = [] ∧
    (handlePacket toyEnv (boltSrv toyEnv gobInstance toyCfg 8 true) o p [] toyDb).next = .hang :=
  ⟨wMsg 7 (wAdd ⟨b!"uid=x,dc=lg", []⟩), toyOracle, 7, wAdd ⟨b!"uid=x,dc=lg", []⟩, ⟨_, [], rfl, rfl, rfl⟩, rfl, by decide +kernel⟩

/-! ## C20 -/

/-- C20 for one packet and any database that holds a directory: if the client is not bound as the administrator, then the directory
afterwards is the same, or it differs in one entry, the one the client is bound as, and there only in `userPassword`. -/
theorem rel_packet (hG : G.Lawful) {db : Db} {ns : List INode} (R : Rel V.C G base db ns) (o : Oracle) (p : Packet) (bound : Str)
    (hna : bound = cfg.admin → bound = []) :
    ∃ ns', Rel V.C G base (handlePacket V (boltSrv V G cfg n stats) o p bound db).st ns' ∧
      (ns' = ns ∨ ∃ n0 ∈ ns, ∃ e', render n0.name = bound ∧ SameButPassword V.C n0.entry e' ∧
        dirOf ns' = (dirOf ns).setEntry n0.name e') := by
  rcases bolt_packet (V := V) (G := G) (cfg := cfg) (n := n) (stats := stats) o p bound db with h | ⟨op, id, req, ⟨hne, hp⟩, -, -, hs, -⟩
  · rw [h]; exact ⟨ns, R, Or.inl rfl⟩
  · rcases hp with hp | ⟨r, rfl, hr⟩
    · exact absurd (hna hp) hne
    · obtain ⟨n0, hn0, e', ns', h1, h2, h3, h4, -⟩ := password_effect hG R hs
      rw [hr] at h1
      exact ⟨ns', h4, Or.inr ⟨n0, hn0, e', (Option.some.inj h1).symm, h2, h3⟩⟩

/-- C20: after any history of store calls, a packet of a client that is not bound as the administrator leaves the directory as it is,
or changes the entry the client is bound as (its name `k` is written `bound`), and there only `userPassword`. (Missing: databases made by
calls on names with escaped attribute types, see C03.) -/
theorem C20_non_admin_packet (hC : V.C.Lawful) (hG : G.Lawful) (hb : BaseOk V.C base) (ops : List Op) (h : HistOk V.C ops)
    (o : Oracle) (p : Packet) (bound : Str) (hna : bound ≠ cfg.admin) :
    let d := dirAfter V.C (validatePw V.C V.K) base ops
    ∃ d', Serves V.C G (handlePacket V (boltSrv V G cfg n stats) o p bound (after V.C G (validatePw V.C V.K) base ops)).st d' ∧
      (d' = d ∨ ∃ k e e', render k = bound ∧ d.get k = some e ∧ SameButPassword V.C e e' ∧ d' = d.setEntry k e') := by
  intro d
  obtain ⟨ns, -, h2, R, -⟩ := sim_run_empty (validate := validatePw V.C V.K) hC hG hb ops h.ok h.len
  have hd : d = dirOf ns := h2
  obtain ⟨ns', R', h3⟩ := rel_packet (V := V) (cfg := cfg) (n := n) (stats := stats) hG R o p bound fun h => absurd h hna
  refine ⟨dirOf ns', serves_of_rel hC hG R', ?_⟩
  rcases h3 with rfl | ⟨n0, hn0, e', h3, h4, h5⟩
  · exact Or.inl hd.symm
  · exact Or.inr ⟨n0.name, n0.entry, e', h3, by rw [hd]; exact R.get_some hn0, h4, by rw [hd]; exact h5⟩

/-- a client that does change its password -/
example : (toyReq b!"uid=ann,dc=lg" (wPwModify ([48, 5, 130, 3] ++ b!"new"))).resps = [.extended 7 0 pwmodOID none] ∧
    b!"uid=ann,dc=lg" ≠ toyCfg.admin ∧ HistOk asciiCase toyOps ∧ BaseOk asciiCase toyBase ∧
    boltSearch asciiCase gobInstance (toyReq b!"uid=ann,dc=lg" (wPwModify ([48, 5, 130, 3] ++ b!"new"))).st b!"uid=ann,dc=lg" scopeBase =
      .ok ([⟨b!"uid=Ann,dc=lg", [⟨b!"uid", [b!"Ann"]⟩, ⟨b!"mail", [b!"a@lg"]⟩, ⟨b!"userPassword", [b!"{ARGON2}$argon2id$new"]⟩]⟩], none) := by
  decide +kernel

theorem setEntry_names (d : Dir) (k : DN) (e : Entry) : (d.setEntry k e).map (·.name) = d.map (·.name) := by
  unfold setEntry
  rw [List.map_map]
  apply List.map_congr_left
  intro m _
  simp only [Function.comp]
  split
  · rename_i h; exact h.symm
  · rfl

theorem get_setEntry (d : Dir) (k k' : DN) (e : Entry) :
    (d.setEntry k e).get k' = if k' = k then (d.get k').map fun _ => e else d.get k' := by
  unfold setEntry Dir.get
  induction d with
  | nil => simp
  | cons m d ih =>
    simp only [List.map_cons, List.find?_cons]
    by_cases h1 : m.name = k
    · simp only [if_pos h1]
      by_cases h2 : k' = k
      · simp [h1, h2]
      · have h3 : ¬ k = k' := fun h => h2 h.symm
        simp only [h1, decide_eq_false h3]
        exact ih
    · simp only [if_neg h1]
      by_cases h2 : m.name = k'
      · have h3 : ¬ k' = k := fun h => h1 (h2.trans h)
        simp [h2, h3]
      · simp only [decide_eq_false h2]
        exact ih

theorem SameButPassword.refl {C : CaseEnv} (e : Entry) : SameButPassword C e e := ⟨rfl, rfl⟩

theorem SameButPassword.trans {C : CaseEnv} {a b c : Entry} (h : SameButPassword C a b) (h' : SameButPassword C b c) :
    SameButPassword C a c := ⟨h'.1.trans h.1, h'.2.trans h.2⟩

/-- C20 for schedules: start with the directory of any history, let any number of clients send anything in any order. If nobody binds
as the administrator (or none is configured), then the directory afterwards has the same names, each entry differs at most in `userPassword`, and it differs only
if some client has bound as that entry. (Missing: as above.) -/
theorem C20_without_admin (hC : V.C.Lawful) (hG : G.Lawful) (hb : BaseOk V.C base) (ops : List Op) (h : HistOk V.C ops)
    (evs : List Ev)
    (hna : ∀ c dn, BoundAs c ((World.init (after V.C G (validatePw V.C V.K) base ops)).run V (boltSrv V G cfg n stats) evs).2 dn →
      parseNormalize V.C dn = some cfg.admin → cfg.admin = []) :
    let d := dirAfter V.C (validatePw V.C V.K) base ops
    let r := (World.init (after V.C G (validatePw V.C V.K) base ops)).run V (boltSrv V G cfg n stats) evs
    ∃ d', Serves V.C G r.1.st d' ∧ d'.map (·.name) = d.map (·.name) ∧
      ∀ k e', d'.get k = some e' → ∃ e, d.get k = some e ∧ SameButPassword V.C e e' ∧
        (e' ≠ e → ∃ c dn, BoundAs c r.2 dn ∧ parseNormalize V.C dn = some (render k)) := by
  intro d r
  suffices ∃ ns', Rel V.C G base r.1.st ns' ∧ (dirOf ns').map (·.name) = d.map (·.name) ∧
      ∀ k e', (dirOf ns').get k = some e' → ∃ e, d.get k = some e ∧ SameButPassword V.C e e' ∧
        (e' ≠ e → ∃ c dn, BoundAs c r.2 dn ∧ parseNormalize V.C dn = some (render k)) by
    obtain ⟨ns', R', h1, h2⟩ := this
    exact ⟨dirOf ns', serves_of_rel hC hG R', h1, h2⟩
  obtain ⟨ns, -, h2, R, -⟩ := sim_run_empty (validate := validatePw V.C V.K) hC hG hb ops h.ok h.len
  have hd : d = dirOf ns := h2
  simp only [r] at *
  clear r
  generalize hdb : after V.C G (validatePw V.C V.K) base ops = db at *
  have R : Rel V.C G base db ns := by rw [← hdb]; exact R
  clear hdb h2
  induction evs using snoc_induction with
  | nil =>
    refine ⟨ns, R, by rw [hd], ?_⟩
    intro k e' he
    exact ⟨e', by rw [hd]; exact he, .refl e', fun h => absurd rfl h⟩
  | snoc evs e ih =>
    have hid := fun c => C21_identity_all_connections (V := V) (srv := boltSrv V G cfg n stats) db evs c
    rw [run_snoc] at hna ⊢
    generalize hw : (World.init db).run V (boltSrv V G cfg n stats) evs = x at hna ih hid ⊢
    obtain ⟨w, log⟩ := x
    dsimp only at hna ih hid ⊢
    have mono : ∀ rs c dn, BoundAs c log dn → BoundAs c (log ++ [(e, rs)]) dn := by
      rintro rs c dn ⟨p, o, rs', h1, h2⟩
      exact ⟨p, o, rs', by simp [h1], h2⟩
    obtain ⟨ns1, R1, h3, h4⟩ := ih fun c dn hb => hna c dn (mono _ c dn hb)
    have same : ∀ w1 rs, (w1 : World Db).st = w.st → ∃ ns', Rel V.C G base w1.st ns' ∧ (dirOf ns').map (·.name) = d.map (·.name) ∧
        ∀ k e', (dirOf ns').get k = some e' → ∃ e0, d.get k = some e0 ∧ SameButPassword V.C e0 e' ∧
          (e' ≠ e0 → ∃ c dn, BoundAs c (log ++ [(e, rs)]) dn ∧ parseNormalize V.C dn = some (render k)) := by
      intro w1 rs hw1
      refine ⟨ns1, by rw [hw1]; exact R1, h3, fun k e' he => ?_⟩
      obtain ⟨e0, k1, k2, k3⟩ := h4 k e' he
      refine ⟨e0, k1, k2, fun hne => ?_⟩
      obtain ⟨c, dn, k4, k5⟩ := k3 hne
      exact ⟨c, dn, mono _ c dn k4, k5⟩
    cases e with
    | eof c =>
      apply same
      simp only [World.step]
      split <;> rfl
    | packet c p o =>
      cases hc : w.conn c with
      | none => apply same; simp only [World.step, hc]
      | some b =>
        have hbound : b = [] ∨ ∃ dn, BoundAs c log dn ∧ parseNormalize V.C dn = some b := by
          rcases hid c b hc with ⟨h1, -⟩ | ⟨before, p', o', rs, after, dn, h1, h2, -, h5, h6⟩
          · exact Or.inl h1
          · exact Or.inr ⟨dn, ⟨p', o', rs, by rw [h1]; simp, h2, h5⟩, h6⟩
        have hne : b = cfg.admin → b = [] := by
          rcases hbound with rfl | ⟨dn, h5, h6⟩
          · exact fun _ => rfl
          · intro h
            rw [h]
            exact hna c dn (mono _ c dn h5) (by rw [h6, h])
        have hst : (w.step V (boltSrv V G cfg n stats) (.packet c p o)).1.st =
            (handlePacket V (boltSrv V G cfg n stats) o p b w.st).st := by
          simp only [World.step, hc]
          split <;> rfl
        obtain ⟨ns', R', h5⟩ := rel_packet (V := V) (cfg := cfg) (n := n) (stats := stats) hG R1 o p b hne
        rw [← hst] at R'
        rcases h5 with rfl | ⟨n0, hn0, e1, h5, h6, h7⟩
        · refine ⟨ns', R', h3, fun k e' he => ?_⟩
          obtain ⟨e0, k1, k2, k3⟩ := h4 k e' he
          refine ⟨e0, k1, k2, fun hne => ?_⟩
          obtain ⟨c, dn, k4, k5⟩ := k3 hne
          exact ⟨c, dn, mono _ c dn k4, k5⟩
        · refine ⟨ns', R', ?_, fun k e' he => ?_⟩
          · rw [h7, setEntry_names, h3]
          · rw [h7, get_setEntry] at he
            split at he
            · rename_i hk
              subst hk
              have hg := R1.get_some hn0
              rw [hg] at he
              simp only [Option.map_some, Option.some.injEq] at he
              subst he
              obtain ⟨e0, k1, k2, -⟩ := h4 _ _ hg
              refine ⟨e0, k1, k2.trans h6, fun _ => ?_⟩
              rcases hbound with rfl | ⟨dn, k4, k5⟩
              · have := (R1.names n0 hn0).2.2
                exfalso
                exact render_ne_nil (R1.names n0 hn0).1 this h5
              · exact ⟨c, dn, mono _ c dn k4, by rw [k5, h5]⟩
            · obtain ⟨e0, k1, k2, k3⟩ := h4 k e' he
              refine ⟨e0, k1, k2, fun hne => ?_⟩
              obtain ⟨c', dn, k4, k5⟩ := k3 hne
              exact ⟨c', dn, mono _ c' dn k4, k5⟩

/-- The names that were bound with success, in order (to compute `BoundAs` in examples). -/
def boundNames : List (Ev × List Resp) → List (Nat × Str)
  | [] => []
  | (.eof _, _) :: log => boundNames log
  | (.packet c p _, rs) :: log =>
    match rs.any (fun r => r.tag == 1 && r.code? == some 0), p.kids with
    | true, _ :: req :: _ => match (req.kids[1]?).bind Packet.str? with
      | some dn => (c, dn) :: boundNames log
      | none => boundNames log
    | _, _ => boundNames log

theorem boundAs_mem {c : Nat} {log : List (Ev × List Resp)} {dn : Str} (h : BoundAs c log dn) : (c, dn) ∈ boundNames log := by
  obtain ⟨p, o, rs, hm, ⟨r, hr, ht, hc⟩, id, req, d, ⟨m, more, hk, -, -⟩, -, hd, hv⟩ := h
  have hany : rs.any (fun r => r.tag == 1 && r.code? == some 0) = true := by
    rw [List.any_eq_true]
    exact ⟨r, hr, by simp [ht, hc]⟩
  induction log with
  | nil => simp at hm
  | cons x log ih =>
    rcases List.mem_cons.1 hm with rfl | hm
    · simp [boundNames, hany, hk, hd, str?_iff.2 hv]
    · have := ih hm
      obtain ⟨e, rs'⟩ := x
      cases e with
      | eof _ => exact this
      | packet c' p' o' =>
        simp only [boundNames]
        split
        · split
          · exact List.mem_cons_of_mem _ this
          · exact this
        · exact this

/-- Ann binds and changes her password; meanwhile somebody searches and tries to delete. -/
def toyEvs : List Ev :=
  [.packet 1 (wMsg 1 (wBind b!"uid=ann,dc=LG" b!"pw")) toyOracle,
   .packet 2 (wMsg 1 (wSearch b!"dc=lg" 2 0 (ctxStr 7 b!"mail") [b!"mail"])) toyOracle,
   .packet 1 (wMsg 2 (wPwModify ([48, 5, 130, 3] ++ b!"new"))) toyOracle,
   .packet 2 (wMsg 2 (wDelete b!"uid=ann,dc=lg")) toyOracle,
   .eof 1,
   .packet 2 (wMsg 3 (wBind b!"uid=ann,dc=LG" b!"new")) toyOracle]

/-- hypotheses of the theorems about schedules -/
example : ((World.init toyDb).run toyEnv toySrv toyEvs).2.map (·.2) =
      [[.result 1 1 0], [.entry 1 ⟨b!"uid=Ann,dc=lg", [⟨b!"mail", [b!"a@lg"]⟩]⟩, .searchDone 1 0 (some [])], [.extended 2 0 pwmodOID none],
       [.result 2 11 50], [], [.result 3 1 0]] := by decide +kernel

example : ∀ c dn, BoundAs c ((World.init toyDb).run toyEnv toySrv toyEvs).2 dn →
    parseNormalize asciiCase dn = some toyCfg.admin → toyCfg.admin = [] := by
  intro c dn h
  have h1 := boundAs_mem h
  have h2 : boundNames ((World.init toyDb).run toyEnv toySrv toyEvs).2 = [(1, b!"uid=ann,dc=LG"), (2, b!"uid=ann,dc=LG")] := by
    decide +kernel
  rw [h2] at h1
  simp only [List.mem_cons, Prod.mk.injEq, List.not_mem_nil, or_false] at h1
  rcases h1 with ⟨-, rfl⟩ | ⟨-, rfl⟩ <;> decide +kernel

end
end Idm
