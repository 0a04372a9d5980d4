import Verif.Spec.Strange
import Verif.Props.Silent
/-!
# C118: what clients learn that may not read
-/
namespace Idm

section
variable {V : Env} {W : WalkOrd} {cfg : LdifCfg} {g : Nat} {stats : Bool}

theorem parseFailed_other {ρ : Type} (x : Res ρ) (st st0 : LdifSt) : parseFailed x st = ((parseFailed x st0).1, st) := by
  unfold parseFailed
  split <;> rfl

theorem add_other (bound : Str) (req : Packet) (st st0 : LdifSt) : handleAdd V (ldifSrv V W cfg g stats) bound req st =
    ((handleAdd V (ldifSrv V W cfg g stats) bound req st0).1, st) := by
  unfold handleAdd
  split
  · rfl
  · split
    · simp only [ldifSrv, callFn_refuse]
    · exact parseFailed_other _ _ _

theorem delete_other (bound : Str) (req : Packet) (st st0 : LdifSt) : handleDelete V (ldifSrv V W cfg g stats) bound req st =
    ((handleDelete V (ldifSrv V W cfg g stats) bound req st0).1, st) := by
  unfold handleDelete
  split
  · rfl
  · split
    · simp only [ldifSrv, callFn_refuse]
    · exact parseFailed_other _ _ _

theorem modify_other (bound : Str) (req : Packet) (st st0 : LdifSt) : handleModify V (ldifSrv V W cfg g stats) bound req st =
    ((handleModify V (ldifSrv V W cfg g stats) bound req st0).1, st) := by
  unfold handleModify
  split
  · rfl
  · split
    · simp only [ldifSrv, callFn_refuse]
    · exact parseFailed_other _ _ _

theorem modifyDN_other (bound : Str) (req : Packet) (st st0 : LdifSt) : handleModifyDN V (ldifSrv V W cfg g stats) bound req st =
    ((handleModifyDN V (ldifSrv V W cfg g stats) bound req st0).1, st) := by
  unfold handleModifyDN
  split
  · rfl
  · split
    · simp only [ldifSrv, callFn_refuse]
    · exact parseFailed_other _ _ _

theorem pw_other (o : Oracle) (bound : Str) (body : Option Packet) (st st0 : LdifSt) : handlePwModify V (ldifSrv V W cfg g stats) o bound body st =
    ((handlePwModify V (ldifSrv V W cfg g stats) o bound body st0).1, st) := by
  unfold handlePwModify
  by_cases hb : bound = []
  · simp [hb]
  rw [if_neg hb, if_neg hb]
  cases parsePwModify V body with
  | err e => rfl
  | panic => rfl
  | hang => rfl
  | ok r =>
    dsimp only
    generalize (if r.newPassword = [] then generatePw o.rnd 0 (ldifSrv V W cfg g stats).genPwLen else .ok r.newPassword) = x
    cases x with
    | err e => rfl
    | panic => rfl
    | hang => rfl
    | ok pw =>
      dsimp only
      cases hashPw V.K o.salt pw b!"{ARGON2}" with
      | err e => rfl
      | panic => rfl
      | hang => rfl
      | ok h => simp [ldifSrv, pick_single, ldifRefuse]

theorem extended_other (o : Oracle) (bound : Str) (req : Packet) (st st0 : LdifSt) : handleExtended V (ldifSrv V W cfg g stats) o bound req st =
    ((handleExtended V (ldifSrv V W cfg g stats) o bound req st0).1, st) := by
  unfold handleExtended
  cases parseExtendedRequest req with
  | err e => rfl
  | panic => rfl
  | hang => rfl
  | ok x =>
    obtain ⟨oid, body⟩ := x
    dsimp only
    split
    · rw [pw_other o bound body st st0]
      rcases handlePwModify V (ldifSrv V W cfg g stats) o bound body st0 with ⟨r, st'⟩
      cases r with
      | ok gen => rfl
      | panic => rfl
      | hang => rfl
      | err e => cases e <;> first | rfl | (rename_i c b; cases b <;> rfl)
    · rfl

theorem reply_other (id : Int) (tag : Nat) (bound : Str) (x : Res Nat × LdifSt) (st : LdifSt) :
    reply id tag bound (x.1, st) = { reply id tag bound x with st := st } := by
  obtain ⟨r, st'⟩ := x
  cases r <;> rfl

theorem search_other (bound : Str) (hv : ldifValidDN cfg (V.C.lower bound) = false) (id : Int) (req : Packet) (controls : List Control) (st st0 : LdifSt) :
    stepSearch V (ldifSrv V W cfg g stats) id bound req controls st = { stepSearch V (ldifSrv V W cfg g stats) id bound req controls st0 with st := st } := by
  rw [ldif_stepSearch, ldif_stepSearch]
  cases parseSearchRequest req controls with
  | none => rfl
  | some r =>
    dsimp only
    unfold ldifSearch
    simp only [hv, Bool.not_false, if_true]
    rfl

/-- A bind request either is malformed, and the state has no influence on the answer, or names a name and a password. -/
theorem bind_other (bound : Str) (id : Int) (req : Packet) :
    ((∀ st st0, stepBind V (ldifSrv V W cfg g stats) id bound req st = { stepBind V (ldifSrv V W cfg g stats) id bound req st0 with st := st }) ∧
      ∀ st b, (stepBind V (ldifSrv V W cfg g stats) id bound req st).next = .go b → b = bound) ∨
    ∃ v d a dn, req.kids = [v, d, a] ∧ v.val = .int 3 ∧ d.val = .str dn ∧ a.tag = 0 ∧
      ∀ st, stepBind V (ldifSrv V W cfg g stats) id bound req st = stepBind V (ldifSrv V W cfg g stats) id bound (wBind dn a.data) st := by
  unfold stepBind handleBind bindBody
  cases hk : req.kids with
  | nil => exact Or.inl ⟨fun _ _ => rfl, fun _ _ h => by cases h; rfl⟩
  | cons v ks =>
    simp only [List.getElem?_cons_zero, List.getElem?_cons_succ]
    cases hv : v.int? with
    | none => exact Or.inl ⟨fun _ _ => rfl, fun _ _ h => by cases h; rfl⟩
    | some version =>
      dsimp only
      by_cases h3 : version = 3
      · subst h3
        simp only [ne_eq, not_true_eq_false, if_false]
        cases ks with
        | nil => exact Or.inl ⟨fun _ _ => rfl, fun _ _ h => by cases h; rfl⟩
        | cons d ks =>
          simp only [List.getElem?_cons_zero, List.getElem?_cons_succ]
          cases hd : d.str? with
          | none => exact Or.inl ⟨fun _ _ => rfl, fun _ _ h => by cases h; rfl⟩
          | some dn =>
            dsimp only
            cases ks with
            | nil => exact Or.inl ⟨fun _ _ => rfl, fun _ _ h => by cases h; rfl⟩
            | cons a ks =>
              simp only [List.getElem?_cons_zero]
              by_cases ha : a.tag = authSimple
              · simp only [ha, if_true]
                cases ks with
                | nil =>
                  right
                  exact ⟨v, d, a, dn, rfl, int?_iff.1 hv, str?_iff.1 hd, ha, fun st => rfl⟩
                | cons _ _ =>
                  left
                  simp only [List.length_cons, Nat.reduceEqDiff, if_false]
                  exact ⟨fun _ _ => rfl, fun _ _ h => by cases h; rfl⟩
              · left
                simp only [if_neg ha]
                exact ⟨fun _ _ => rfl, fun _ _ h => by cases h; rfl⟩
      · left
        simp only [ne_eq, h3, not_false_eq_true, if_true]
        exact ⟨fun _ _ => rfl, fun _ _ h => by cases h; rfl⟩

/-- Whatever a client sends that may not read, the state of the server has no influence on the answer, unless the client asks to bind. -/
theorem packet_strange (o : Oracle) (p : Packet) (bound : Str) (hv : ldifValidDN cfg (V.C.lower bound) = false) :
    ((∀ st st0, handlePacket V (ldifSrv V W cfg g stats) o p bound st = { handlePacket V (ldifSrv V W cfg g stats) o p bound st0 with st := st }) ∧
      ((∃ id req, Message p id req ∧ req.tag = 0) → ∀ st b, (handlePacket V (ldifSrv V W cfg g stats) o p bound st).next = .go b → b = bound)) ∨
    ∃ id dn pw, AsksBind p id dn pw ∧ ∀ st, handlePacket V (ldifSrv V W cfg g stats) o p bound st =
      handlePacket V (ldifSrv V W cfg g stats) o (wMsg id (wBind dn pw)) bound st := by
  unfold handlePacket
  dsimp only
  cases hk : p.kids with
  | nil => exact Or.inl ⟨fun _ _ => rfl, fun _ _ _ h => by cases h⟩
  | cons m kids =>
    cases kids with
    | nil => exact Or.inl ⟨fun _ _ => rfl, fun _ _ _ h => by cases h⟩
    | cons req more =>
      dsimp only
      cases hid : m.int? with
      | none => exact Or.inl ⟨fun _ _ => rfl, fun _ _ _ h => by cases h⟩
      | some id =>
        dsimp only
        by_cases hcls : req.cls = .application
        · have hm : Message p id req := ⟨m, more, hk, int?_iff.1 hid, hcls⟩
          simp only [hcls, ne_eq, not_true_eq_false, if_false]
          cases decodeControls V ((more.head?.map Packet.kids).getD []) with
          | err e => exact Or.inl ⟨fun _ _ => rfl, fun _ _ _ h => by cases h⟩
          | panic => exact Or.inl ⟨fun _ _ => rfl, fun _ _ _ h => by cases h⟩
          | hang => exact Or.inl ⟨fun _ _ => rfl, fun _ _ _ h => by cases h⟩
          | ok controls =>
            dsimp only
            by_cases ht : req.tag = 0
            · have hb : ∀ st, (if req.tag = appAddRequest then
                    if (ldifSrv V W cfg g stats).stats = true then ⟨[], .hang, st⟩
                    else reply id appAddResponse bound (handleAdd V (ldifSrv V W cfg g stats) bound req st)
                  else if req.tag = appBindRequest then stepBind V (ldifSrv V W cfg g stats) id bound req st
                  else if req.tag = appCompareRequest then
                    ⟨[.result id appCompareRequest rcOperationsError], .closed, (ldifSrv V W cfg g stats).close bound st⟩
                  else if req.tag = appDelRequest then reply id appDelResponse bound (handleDelete V (ldifSrv V W cfg g stats) bound req st)
                  else if req.tag = appExtendedRequest then stepExtended V (ldifSrv V W cfg g stats) o id bound req st
                  else if req.tag = appModifyDNRequest then
                    reply id appModifyDNResponse bound (handleModifyDN V (ldifSrv V W cfg g stats) bound req st)
                  else if req.tag = appModifyRequest then reply id appModifyResponse bound (handleModify V (ldifSrv V W cfg g stats) bound req st)
                  else if req.tag = appSearchRequest then stepSearch V (ldifSrv V W cfg g stats) id bound req controls st
                  else ⟨[], .closed, (ldifSrv V W cfg g stats).close bound st⟩) = stepBind V (ldifSrv V W cfg g stats) id bound req st := by
                intro st
                rw [if_neg (by rw [ht]; decide), if_pos (show req.tag = appBindRequest from ht)]
              rcases bind_other (V := V) (W := W) (cfg := cfg) (g := g) (stats := stats) bound id req with h | ⟨v, d, a, dn, h1, h2, h3, h4, h5⟩
              · left
                refine ⟨fun st st0 => ?_, fun _ st b hb' => ?_⟩
                · rw [hb, hb]
                  exact h.1 st st0
                · rw [hb] at hb'
                  exact h.2 st b hb'
              · right
                refine ⟨id, dn, a.data, ⟨req, v, d, a, hm, ht, h1, h2, h3, h4, rfl⟩, fun st => ?_⟩
                rw [hb, h5]
                rfl
            · left
              refine ⟨fun st st0 => ?_, fun ⟨_, _, hm', ht'⟩ => absurd ((message_unique hm hm').2 ▸ ht') ht⟩
              split
              · split
                · rfl
                · rw [add_other _ _ st st0, reply_other]
              · split
                · rename_i h; exact absurd h ht
                · split
                  · rfl
                  · split
                    · rw [delete_other _ _ st st0, reply_other]
                    · split
                      · unfold stepExtended
                        rw [extended_other _ _ _ st st0]
                        rcases handleExtended V (ldifSrv V W cfg g stats) o bound req st0 with ⟨r, st'⟩
                        cases r with
                        | ok a => cases a <;> rfl
                        | _ => rfl
                      · split
                        · rw [modifyDN_other _ _ st st0, reply_other]
                        · split
                          · rw [modify_other _ _ st st0, reply_other]
                          · split
                            · exact search_other bound hv id req controls st st0
                            · rfl
        · simp only [ne_eq, hcls, not_false_eq_true, if_true]
          exact Or.inl ⟨fun _ _ => rfl, fun _ _ _ h => by cases h⟩

/-- C118: a client that may not read is answered without a look at the data. Take any two servers with the same settings, whatever they have
loaded and whatever they are doing: any packet that does not ask to bind gets the same answer from both, and neither remembers it. -/
theorem C118_packet (hC : V.C.Lawful) (bound : Str) (hn : ¬ MayRead V.C cfg bound) (o : Oracle) (p : Packet)
    (hp : ∀ id dn pw, ¬ AsksBind p id dn pw) (st st' : LdifSt) :
    let out := handlePacket V (ldifSrv V W cfg g stats) o p bound st
    let out' := handlePacket V (ldifSrv V W cfg g stats) o p bound st'
    out.resps = out'.resps ∧ out.next = out'.next ∧ out.st = st ∧ out'.st = st' := by
  intro out out'
  have hv : ldifValidDN cfg (V.C.lower bound) = false := by
    apply Bool.eq_false_iff.2
    intro hv
    apply hn
    unfold ldifValidDN at hv
    unfold MayRead
    by_cases hb : V.C.lower bound = []
    · rw [if_pos hb] at hv
      exact Or.inl ⟨hC.lower_eq_nil _ hb, by simpa using hv⟩
    · rw [if_neg hb] at hv
      exact Or.inr ⟨hb, hv⟩
  rcases packet_strange (V := V) (W := W) (cfg := cfg) (g := g) (stats := stats) o p bound hv with ⟨h, -⟩ | ⟨id, dn, pw, h, -⟩
  · have h1 := h st st'
    have h2 := h st' st'
    refine ⟨?_, ?_, ?_, ?_⟩
    · show (handlePacket _ _ _ _ _ st).resps = _; rw [h1]
    · show (handlePacket _ _ _ _ _ st).next = _; rw [h1]
    · show (handlePacket _ _ _ _ _ st).st = _; rw [h1]
    · show (handlePacket _ _ _ _ _ st').st = _; rw [h2]
  · exact absurd h (hp id dn pw)

/-- A session in which every bind is refused alike. -/
theorem strange_run (hC : V.C.Lawful) (hanon : ¬ (cfg.anon = true ∧ cfg.loopback = true)) (st st' : LdifSt) (ps : List (Packet × Oracle))
    (hb : ∀ p ∈ ps, ∀ id dn pw, AsksBind p.1 id dn pw →
      let out := handlePacket V (ldifSrv V W cfg g stats) p.2 (wMsg id (wBind dn pw)) [] st
      let out' := handlePacket V (ldifSrv V W cfg g stats) p.2 (wMsg id (wBind dn pw)) [] st'
      out.resps = out'.resps ∧ out.next = .go [] ∧ out'.next = .go [] ∧ out.st = st ∧ out'.st = st') :
    let run := serveFrom V (ldifSrv V W cfg g stats) [] st ps
    let run' := serveFrom V (ldifSrv V W cfg g stats) [] st' ps
    run.log = run'.log ∧ run.next = run'.next ∧ run.st = st ∧ run'.st = st' := by
  have hv : ldifValidDN cfg (V.C.lower []) = false := by
    rw [hC.lower_nil]
    unfold ldifValidDN
    apply Bool.eq_false_iff.2
    intro h
    exact hanon (by simpa using h)
  induction ps with
  | nil => exact ⟨rfl, rfl, rfl, rfl⟩
  | cons p ps ih =>
    have ih := ih fun q hq => hb q (List.mem_cons_of_mem _ hq)
    obtain ⟨p, o⟩ := p
    have key : let out := handlePacket V (ldifSrv V W cfg g stats) o p [] st
        let out' := handlePacket V (ldifSrv V W cfg g stats) o p [] st'
        out.resps = out'.resps ∧ out.next = out'.next ∧ (∀ b, out.next = .go b → b = []) ∧ out.st = st ∧ out'.st = st' := by
      rcases packet_strange (V := V) (W := W) (cfg := cfg) (g := g) (stats := stats) o p [] hv with ⟨h, hgo⟩ | ⟨id, dn, pw, h, e⟩
      · have h1 := h st st'
        have h2 := h st' st'
        refine ⟨?_, ?_, fun b hb => ?_, ?_, ?_⟩
        · rw [h1]
        · rw [h1]
        · rcases step_identity o p [] b st hb with ⟨-, dn, ⟨id, req, _, hm, ht, -⟩, -⟩ | ⟨-, h⟩
          · exact hgo ⟨id, req, hm, ht⟩ st b hb
          · exact h
        · rw [h1]
        · rw [h2]
      · have := hb (p, o) (by simp) id dn pw h
        dsimp only at this ⊢
        rw [e, e]
        obtain ⟨a, b, c, d, f⟩ := this
        refine ⟨a, by rw [b, c], fun x hx => ?_, d, f⟩
        rw [b] at hx
        cases hx
        rfl
    obtain ⟨k1, k2, k3, k4, k5⟩ := key
    intro run run'
    simp only [run, run', serveFrom]
    rw [← k2, ← k1, k4, k5]
    cases hn : (handlePacket V (ldifSrv V W cfg g stats) o p [] st).next with
    | go b =>
      obtain rfl := k3 b hn
      exact ⟨by simp only [ih.1], ih.2.1, ih.2.2.1, ih.2.2.2⟩
    | _ => exact ⟨rfl, rfl, rfl, rfl⟩

/-- C118 for a whole session: where anonymous clients may not read, a client that never gets a bind right learns nothing. Take two servers with
the same settings and different data, and any series of packets. If the servers accept none of the binds in it, the client cannot tell them
apart, and leaves no trace at either. Missing are binds as records without a usable password (`C117_ldif_fails`). -/
theorem C118_session_partial (hC : V.C.Lawful) (hconf : cfg.conf = false) (hW : W.Lawful) (hanon : ¬ (cfg.anon = true ∧ cfg.loopback = true))
    {recs older recs' older'} {st st' : LdifSt} (h : LdifReach V W cfg g stats (recs :: older) st) (h' : LdifReach V W cfg g stats (recs' :: older') st')
    (ps : List (Packet × Oracle))
    (hno : ∀ p ∈ ps, ∀ id dn pw, AsksBind p.1 id dn pw → ¬ LdifMayBind V.C V.K cfg recs dn pw ∧ ¬ LdifMayBind V.C V.K cfg recs' dn pw)
    (hu : ∀ p ∈ ps, ∀ id dn pw, AsksBind p.1 id dn pw → ¬ UntestableIn V.C V.K recs dn pw ∧ ¬ UntestableIn V.C V.K recs' dn pw) :
    let run := serveFrom V (ldifSrv V W cfg g stats) [] st ps
    let run' := serveFrom V (ldifSrv V W cfg g stats) [] st' ps
    run.log = run'.log ∧ run.next = run'.next ∧ run.st = st ∧ run'.st = st' := by
  refine strange_run hC hanon st st' ps fun p hp id dn pw ha => ?_
  obtain ⟨n1, n2⟩ := hno p hp id dn pw ha
  obtain ⟨u1, u2⟩ := hu p hp id dn pw ha
  have e := C117_ldif_partial (V := V) (W := W) (g := g) (stats := stats) hconf hW h h' p.2 p.2 id [] [] dn pw pw Iff.rfl n1 n2 u1 u2
  obtain ⟨a1, -, -, a2⟩ := C44_bind_exact (V := V) (W := W) (g := g) (stats := stats) hconf hW h p.2 id [] dn pw
  obtain ⟨b1, -, -, b2⟩ := C44_bind_exact (V := V) (W := W) (g := g) (stats := stats) hconf hW h' p.2 id [] dn pw
  obtain ⟨_, -, -, a3⟩ := a2 n1
  obtain ⟨_, -, -, b3⟩ := b2 n2
  exact ⟨e, a3, b3, a1, b1⟩

/-- C118 with a config file, if only names are tried that end in the base DN. -/
theorem C118_config_partial (hC : V.C.Lawful) (hconf : cfg.conf = true) (hW : W.Lawful) (hanon : ¬ (cfg.anon = true ∧ cfg.loopback = true))
    {recs older recs' older' conf conf'} {st st' : LdifSt} (h : LdifReach V W cfg g stats (recs :: older) st)
    (h' : LdifReach V W cfg g stats (recs' :: older') st')
    (hc : treeFromLDIF V.C cfg.idx conf = some st.conf) (hc' : treeFromLDIF V.C cfg.idx conf' = some st'.conf) (ps : List (Packet × Oracle))
    (hname : ∀ p ∈ ps, ∀ id dn pw, AsksBind p.1 id dn pw → V.C.lower dn ≠ [] ∧ hasSuffix (V.C.lower dn) cfg.base = true ∧
      hasSuffix (V.C.lower dn) (V.C.lower cfg.optBase) = true)
    (hno : ∀ p ∈ ps, ∀ id dn pw, AsksBind p.1 id dn pw → ¬ ConfMayBind V.C V.K cfg recs conf dn pw ∧ ¬ ConfMayBind V.C V.K cfg recs' conf' dn pw)
    (hu : ∀ p ∈ ps, ∀ id dn pw, AsksBind p.1 id dn pw → (¬ UntestableIn V.C V.K recs dn pw ∧ ¬ UntestableIn V.C V.K conf dn pw) ∧
      ¬ UntestableIn V.C V.K recs' dn pw ∧ ¬ UntestableIn V.C V.K conf' dn pw) :
    let run := serveFrom V (ldifSrv V W cfg g stats) [] st ps
    let run' := serveFrom V (ldifSrv V W cfg g stats) [] st' ps
    run.log = run'.log ∧ run.next = run'.next ∧ run.st = st ∧ run'.st = st' := by
  refine strange_run hC hanon st st' ps fun p hp id dn pw ha => ?_
  obtain ⟨n1, n2⟩ := hno p hp id dn pw ha
  obtain ⟨u1, u2⟩ := hu p hp id dn pw ha
  obtain ⟨m1, m2, m3⟩ := hname p hp id dn pw ha
  have e := C117_config_partial (V := V) (W := W) (g := g) (stats := stats) hC hconf hW h h' hc hc' p.2 p.2 id [] [] dn pw pw Iff.rfl m1 m2 m3 n1 n2 u1 u2
  obtain ⟨a1, -, -, a2⟩ := C47_bind_exact (V := V) (W := W) (g := g) (stats := stats) hC hconf hW h hc p.2 id [] dn pw
  obtain ⟨b1, -, -, b2⟩ := C47_bind_exact (V := V) (W := W) (g := g) (stats := stats) hC hconf hW h' hc' p.2 id [] dn pw
  obtain ⟨_, -, -, a3⟩ := a2 n1
  obtain ⟨_, -, -, b3⟩ := b2 n2
  exact ⟨e, a3, b3, a1, b1⟩

end

/-! ## Concrete cases -/

/-- A server without a config file that anonymous clients may not read from. -/
def strictCfg : LdifCfg := { ldCfg with anon := false, conf := false }

def strictSrv : Srv LdifSt := ldifSrv ldEnv ldOrd strictCfg 8 false

/-- A stranger: a bind with a wrong password, an addition, a search. -/
def strangePackets : List (Packet × Oracle) :=
  [(wMsg 1 (wBind b!"uid=bob,ou=people,dc=lg" b!"x"), toyOracle), (wMsg 2 (wAdd ⟨b!"uid=x,dc=lg", []⟩), toyOracle),
   (wMsg 3 (wSearch b!"dc=lg" 2 0 (ctxStr 7 b!"cn") []), toyOracle)]

theorem strange_reach (recs : List (Option Entry)) (h : treeFromLDIF asciiCase defaultIdx recs = some (ldMem recs)) :
    LdifReach ldEnv ldOrd strictCfg 8 false [recs] (ldStart recs) := .start _ _ _ _ _ _ h

/-- hypotheses of C118, and what the stranger reads, whatever the file -/
example : ¬ (strictCfg.anon = true ∧ strictCfg.loopback = true) ∧ ¬ MayRead asciiCase strictCfg [] ∧
    ((serveFrom ldEnv strictSrv [] (ldStart ldRecs) strangePackets).log.map (·.2)) =
      [[.result 1 1 49], [.result 2 9 50], [.searchDone 3 50 (some [])]] ∧
    ((serveFrom ldEnv strictSrv [] (ldStart []) strangePackets).log.map (·.2)) =
      [[.result 1 1 49], [.result 2 9 50], [.searchDone 3 50 (some [])]] :=
  ⟨by decide, by unfold MayRead; decide +kernel, by decide +kernel, by decide +kernel⟩

/-- and the one packet among them that asks to bind does so under that name -/
example : (∀ p ∈ strangePackets, ∀ id dn pw, AsksBind p.1 id dn pw → id = 1 ∧ dn = b!"uid=bob,ou=people,dc=lg" ∧ pw = b!"x") ∧
    AsksBind (wMsg 1 (wBind b!"uid=bob,ou=people,dc=lg" b!"x")) 1 b!"uid=bob,ou=people,dc=lg" b!"x" := by
  refine ⟨?_, ?_⟩
  · rintro p hp id dn pw ⟨req, v, d, a, ⟨m, more, hk, hi, -⟩, ht, hks, hv, hd, -, rfl⟩
    simp only [strangePackets, List.mem_cons, List.not_mem_nil, or_false] at hp
    rcases hp with rfl | rfl | rfl
    · simp only [wMsg, wSeq, Packet.kids, List.cons.injEq] at hk
      obtain ⟨rfl, rfl, -⟩ := hk
      simp only [wBind, wReq, Packet.kids, List.cons.injEq, and_true] at hks
      obtain ⟨rfl, rfl, rfl⟩ := hks
      simp only [berInt, Packet.val, Val.int.injEq] at hi
      simp only [octet, Packet.val, Val.str.injEq] at hd
      exact ⟨hi.symm, hd.symm, rfl⟩
    · simp only [wMsg, wSeq, Packet.kids, List.cons.injEq] at hk
      obtain ⟨rfl, rfl, -⟩ := hk
      exact absurd ht (by decide)
    · simp only [wMsg, wSeq, Packet.kids, List.cons.injEq] at hk
      obtain ⟨rfl, rfl, -⟩ := hk
      exact absurd ht (by decide)
  · exact ⟨_, _, _, _, ⟨_, _, rfl, rfl, rfl⟩, rfl, rfl, rfl, rfl, rfl, rfl⟩

end Idm
