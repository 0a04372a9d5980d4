import Verif.Props.BoltAccess
/-!
# C22: who can bind
-/
namespace Idm
open Dir

theorem renderRDN_blank (sep : Str) (r : RDN) (h : ∃ a, r.getLast? = some a ∧ a.val.getLast? = some chSpace) :
    (renderRDN sep r).getLast? = some chSpace := by
  induction r generalizing sep with
  | nil => simp at h
  | cons a as ih =>
    cases as with
    | nil =>
      obtain ⟨b, hb, hv⟩ := h
      simp only [List.getLast?_singleton, Option.some.injEq] at hb
      subst hb
      have hne : a.val ≠ [] := by intro e; rw [e] at hv; simp at hv
      rcases encodeLoop_last true a.val hne with ⟨_, _, _, _, h2⟩ | ⟨pre, h1, _⟩
      · exact absurd hv h2
      · have : renderRDN sep [a] = (sep ++ a.typ ++ [chEq] ++ pre ++ [chBackslash]) ++ [chSpace] := by
          simp [renderRDN, encodeRDNValue, h1]
        rw [this, List.getLast?_concat]
    | cons b bs =>
      have := ih [chPlus] (by simpa [List.getLast?_cons] using h)
      rw [renderRDN, List.getLast?_append, this]
      rfl

theorem renderFrom_blank (sep : Str) (dn : DN) (h : ¬ EndOk dn) : (renderFrom sep dn).getLast? = some chSpace := by
  induction dn generalizing sep with
  | nil => simp [EndOk] at h
  | cons r rs ih =>
    cases rs with
    | nil =>
      simp only [EndOk, List.getLast?_singleton, Option.bind_some, ne_eq, Decidable.not_not] at h
      obtain ⟨a, h1, h2⟩ := Option.bind_eq_some_iff.1 h
      simp only [renderFrom, List.append_nil]
      exact renderRDN_blank sep r ⟨a, h1, h2⟩
    | cons r' rs' =>
      have := ih [chComma] (by unfold EndOk at h ⊢; rw [List.getLast?_cons] at h; simpa [List.getLast?_cons] using h)
      rw [renderFrom, List.getLast?_append, this]
      rfl

/-- A name whose text ends in the text of a base without trailing blank has no trailing blank. -/
theorem endOk_of_suffix {base k : DN} (hne : base ≠ []) (hok : NameOk base) (he : EndOk base) (h : render base <:+ render k) : EndOk k := by
  apply Decidable.byContradiction
  intro hk
  have h1 := renderFrom_blank [] k hk
  obtain ⟨pre, d, h2, h3⟩ := renderFrom_last [] base hne hok he
  obtain ⟨t, ht⟩ := h
  unfold render at ht
  rw [← ht, h2] at h1
  simp at h1
  exact h3 h1

section
variable {V : Env} {G : GobEnv} {cfg : BoltCfg} {n : Nat} {stats : Bool} {base : DN}

theorem passwordOf_iff {C : CaseEnv} {as : List Attr} {dn h : Str} (hne : h ≠ []) :
    PasswordOf C ⟨dn, as⟩ h ↔ getVal C as sUserPassword = h := by
  constructor
  · rintro ⟨before, a, after, more, h1, h2, h3, h4⟩
    dsimp only at h1
    subst h1
    unfold getVal
    have : getVals C (before ++ a :: after) sUserPassword = a.vals := by
      clear h4
      induction before with
      | nil => simp [getVals, h3]
      | cons b bs ih =>
        have hb := h2 b (by simp)
        rw [List.cons_append, getVals, hb]
        exact ih fun x hx => h2 x (by simp [hx])
    rw [this, h4]
    rfl
  · intro hv
    unfold getVal at hv
    have : ∀ vs, getVals C as sUserPassword = vs → vs ≠ [] →
        ∃ before a after, as = before ++ a :: after ∧ (∀ b ∈ before, C.eqFold sUserPassword b.name = false) ∧
          C.eqFold sUserPassword a.name = true ∧ a.vals = vs := by
      intro vs
      clear hv
      induction as with
      | nil => intro h1 h2; exact absurd h1.symm h2
      | cons a as ih =>
        intro h1 h2
        rw [getVals] at h1
        cases ha : C.eqFold sUserPassword a.name with
        | true =>
          rw [ha, if_pos rfl] at h1
          exact ⟨[], a, as, rfl, by simp, ha, h1⟩
        | false =>
          rw [ha] at h1
          obtain ⟨x, y, z, k1, k2, k3, k4⟩ := ih h1 h2
          refine ⟨a :: x, y, z, by rw [k1]; rfl, ?_, k3, k4⟩
          intro b hb
          rcases List.mem_cons.1 hb with rfl | hb
          · exact ha
          · exact k2 b hb
    cases hg : getVals C as sUserPassword with
    | nil => rw [hg] at hv; exact absurd hv.symm hne
    | cons v vs =>
      rw [hg] at hv
      obtain ⟨x, y, z, k1, k2, k3, k4⟩ := this _ hg (by simp)
      exact ⟨x, y, z, vs, k1, k2, k3, by rw [k4]; simpa using hv⟩

theorem validatePw_nil {C : CaseEnv} {K : CryptoEnv} (pw : Str) : validatePw C K pw [] = .panic := by simp [validatePw]

theorem wBind_packet {σ : Type} (V : Env) (srv : Srv σ) (o : Oracle) (id : Int) (dn pw bound : Str) (st : σ) :
    handlePacket V srv o (wMsg id (wBind dn pw)) bound st = stepBind V srv id bound (wBind dn pw) st := by
  simp [handlePacket, wMsg, wSeq, Packet.kids, berInt, Packet.int?, Packet.val, wBind, wReq, Packet.cls, decodeControls, Packet.tag,
    appAddRequest, appBindRequest]

/-- What the handler answers to a bind, on a database that holds a directory. -/
theorem boltBind_eq (hC : V.C.Lawful) (hG : G.Lawful) (hb : BaseOk V.C base) (hcfg : cfg.base = render base) {db : Db} {ns : List INode}
    (R : Rel V.C G base db ns) (dn pw : Str) (ht : TextOk V.C dn) :
    (boltBind V G cfg dn pw db).2 = db ∧
    ((MayBind V.C V.K cfg.anon base (dirOf ns) dn pw ∧ (boltBind V G cfg dn pw db).1 = .ok (rcSuccess, false)) ∨
     (¬ MayBind V.C V.K cfg.anon base (dirOf ns) dn pw ∧
       ((boltBind V G cfg dn pw db).1 = .panic ∨ ∃ code, code ≠ 0 ∧ (boltBind V G cfg dn pw db).1 = .ok (code, false)))) := by
  refine ⟨validate_st, ?_⟩
  have hnil : parseDN V.C [] = some [] := by
    have := parseDN_render hC [] (by simp [NameOk]) (by simp [EndOk])
    simpa [render, renderFrom] using this
  have hempty : ∀ e, (dirOf ns).get [] ≠ some e := by
    intro e he
    rw [Rel.get_none] at he
    · simp at he
    · rintro ⟨m, hm, h⟩
      exact (R.names m hm).2.2 h
  have hbne := render_ne_nil hb.name hb.ne
  unfold boltBind
  by_cases h1 : dn = [] ∧ cfg.anon = false
  · rw [if_pos h1]
    right
    refine ⟨?_, Or.inr ⟨rcInvalidCredentials, by decide, rfl⟩⟩
    rintro (⟨-, -, h⟩ | ⟨-, name, e, h, k1, -, k2, -⟩)
    · rw [h1.2] at h; cases h
    · rw [h1.1, hnil] at k1
      cases k1
      exact hempty e k2
  · rw [if_neg h1]
    by_cases h2 : dn = [] ∧ pw = []
    · rw [if_pos h2]
      left
      refine ⟨Or.inl ⟨h2.1, h2.2, ?_⟩, rfl⟩
      cases h : cfg.anon with
      | true => rfl
      | false => exact absurd ⟨h2.1, h⟩ h1
    · rw [if_neg h2]
      have hno : ¬ (dn = [] ∧ pw = [] ∧ cfg.anon = true) := fun h => h2 ⟨h.1, h.2.1⟩
      unfold MayBind
      simp only [hno, false_or]
      cases hp : parseDN V.C dn with
      | none =>
        right
        refine ⟨by simp, Or.inr ⟨rcInvalidDNSyntax, by decide, by simp [parseNormalize, hp]⟩⟩
      | some name =>
        have hnorm : parseNormalize V.C dn = some (render (foldDN V.C name)) := by simp [parseNormalize, hp, normalize]
        simp only [hnorm]
        cases hsuf : hasSuffix (render (foldDN V.C name)) cfg.base with
        | false =>
          right
          refine ⟨?_, Or.inr ⟨rcInvalidCredentials, by decide, by simp⟩⟩
          rintro ⟨-, name', e, h, k1, k2, -⟩
          cases k1
          rw [hcfg] at hsuf
          simp only [hasSuffix] at hsuf
          rw [← List.isSuffixOf_iff_suffix] at k2
          rw [k2] at hsuf
          cases hsuf
        | true =>
          simp only [Bool.not_true, Bool.false_eq_true, if_false]
          have hs : render base <:+ render (foldDN V.C name) := by
            rw [hcfg] at hsuf
            exact List.isSuffixOf_iff_suffix.1 hsuf
          by_cases h3 : pw = []
          · rw [if_pos h3]
            right
            exact ⟨fun h => h.1 h3, Or.inr ⟨rcInvalidCredentials, by decide, rfl⟩⟩
          · rw [if_neg h3]
            have hok := foldDN_nameOk hC (ht name hp)
            have hend := endOk_of_suffix hb.ne hb.name hb.endOk hs
            have hlk := lookup_of_rel hC hG R (parseDN_render hC _ hok hend) hok
            rw [foldDN_idem hC] at hlk
            unfold validateUser
            rw [hlk]
            cases hg : (dirOf ns).get (foldDN V.C name) with
            | none =>
              right
              refine ⟨?_, Or.inr ⟨rcInvalidCredentials, by decide, rfl⟩⟩
              rintro ⟨-, name', e, h, k1, -, k2, -⟩
              cases k1
              rw [hg] at k2
              cases k2
            | some e =>
              dsimp only
              have hpw : ∀ h, PasswordOf V.C e h → validatePw V.C V.K pw h = .ok true →
                  validatePw V.C V.K pw (getVal V.C e.attrs sUserPassword) = .ok true := by
                intro h q1 q2
                have hne : h ≠ [] := by rintro rfl; rw [validatePw_nil] at q2; cases q2
                rw [(passwordOf_iff (dn := e.dn) hne).1 q1]
                exact q2
              cases hv : validatePw V.C V.K pw (getVal V.C e.attrs sUserPassword) with
              | ok b =>
                cases b with
                | true =>
                  left
                  refine ⟨⟨h3, name, e, _, rfl, hs, hg, ?_, hv⟩, rfl⟩
                  apply (passwordOf_iff (dn := e.dn) ?_).2 rfl
                  intro h
                  rw [h, validatePw_nil] at hv
                  cases hv
                | false =>
                  right
                  refine ⟨?_, Or.inr ⟨rcInvalidCredentials, by decide, rfl⟩⟩
                  rintro ⟨-, name', e', h, k1, -, k2, k3, k4⟩
                  cases k1
                  rw [hg] at k2
                  cases k2
                  rw [hpw h k3 k4] at hv
                  cases hv
              | err x =>
                right
                refine ⟨?_, Or.inr ⟨rcInvalidCredentials, by decide, rfl⟩⟩
                rintro ⟨-, name', e', h, k1, -, k2, k3, k4⟩
                cases k1
                rw [hg] at k2
                cases k2
                rw [hpw h k3 k4] at hv
                cases hv
              | panic =>
                right
                refine ⟨?_, Or.inl rfl⟩
                rintro ⟨-, name', e', h, k1, -, k2, k3, k4⟩
                cases k1
                rw [hg] at k2
                cases k2
                rw [hpw h k3 k4] at hv
                cases hv
              | hang =>
                exfalso
                revert hv
                unfold validatePw
                split
                · simp
                · dsimp only
                  repeat' split
                  all_goals simp

theorem wBind_step (hC : V.C.Lawful) (hG : G.Lawful) (hb : BaseOk V.C base) (hcfg : cfg.base = render base) {db : Db} {ns : List INode}
    (R : Rel V.C G base db ns) (o : Oracle) (id : Int) (bound dn pw : Str) (ht : TextOk V.C dn) :
    let out := handlePacket V (boltSrv V G cfg n stats) o (wMsg id (wBind dn pw)) bound db
    out.st = db ∧
    (MayBind V.C V.K cfg.anon base (dirOf ns) dn pw →
      ∃ name, parseDN V.C dn = some name ∧ out.resps = [.result id 1 0] ∧ out.next = .go (normalize V.C name)) ∧
    (¬ MayBind V.C V.K cfg.anon base (dirOf ns) dn pw →
      ∃ code, code ≠ 0 ∧ out.resps = [.result id 1 code] ∧ out.next = .go bound) := by
  intro out
  obtain ⟨hst, h⟩ := boltBind_eq (V := V) (G := G) (cfg := cfg) hC hG hb hcfg R dn pw ht
  generalize hx : boltBind V G cfg dn pw db = x at hst h
  obtain ⟨res, db'⟩ := x
  dsimp only at hst h
  subst hst
  have hbody : bindBody (boltSrv V G cfg n stats) (wBind dn pw) db' = (match res with
      | .ok (code, false) => (.ok code, db')
      | .ok (_, true) => (.ok rcOperationsError, db')
      | .err _ => (.ok rcOperationsError, db')
      | .panic => (.panic, db')
      | .hang => (.hang, db')) := by
    have h3 : authSimple = 0 := rfl
    simp only [bindBody, wBind, wReq, Packet.kids, berInt, Packet.int?, Packet.val, octet, Packet.str?, ctxStr, Packet.tag, boltSrv,
      pick_single, Packet.data, hx, List.getElem?_cons_zero, List.getElem?_cons_succ, h3, ne_eq, not_true_eq_false, if_false,
      List.length_cons, List.length_nil, if_true, Nat.zero_add, Nat.reduceAdd]
    rcases res with ⟨code, b⟩ | e | _ | _
    · cases b <;> rfl
    all_goals rfl
  have hout : out = stepBind V (boltSrv V G cfg n stats) id bound (wBind dn pw) db' := wBind_packet V _ o id dn pw bound db'
  rw [hout]
  unfold stepBind handleBind
  rw [hbody]
  rcases h with ⟨h1, rfl⟩ | ⟨h1, rfl | ⟨code, hc, rfl⟩⟩
  · have hp : ∃ name, parseDN V.C dn = some name := by
      rcases h1 with ⟨rfl, -, -⟩ | ⟨-, name, e, h, k1, -⟩
      · have := parseDN_render hC [] (by simp [NameOk]) (by simp [EndOk])
        exact ⟨[], by simpa [render, renderFrom] using this⟩
      · exact ⟨name, k1⟩
    obtain ⟨name, hp⟩ := hp
    have hk : (wBind dn pw).kids[1]? = some (octet dn) := rfl
    have hs : (octet dn).str? = some dn := rfl
    simp only [hk, hs, parseNormalize, hp, if_true, Option.map_some, appBindResponse, rcSuccess, true_and]
    exact ⟨fun _ => ⟨name, by simp⟩, fun h => absurd h1 h⟩
  · refine ⟨rfl, fun h => absurd h h1, fun _ => ⟨rcOperationsError, by decide, rfl, rfl⟩⟩
  · have hc' : ¬ code = rcSuccess := hc
    simp only [if_neg hc', true_and]
    exact ⟨fun h => absurd h h1, fun _ => ⟨code, by simpa [appBindResponse] using hc⟩⟩

/-- C22: after any history of store calls, a bind request on any connection succeeds, and the connection then acts under the normalised
name, exactly if `MayBind` holds for the name and password in the directory. Otherwise it is refused with another code and the connection's
identity does not change. In both cases the database is as before. (Missing: names with escaped attribute types, see C03.) -/
theorem C22_bind_exact (hC : V.C.Lawful) (hG : G.Lawful) (hb : BaseOk V.C base) (hcfg : cfg.base = render base) (ops : List Op)
    (h : HistOk V.C ops) (o : Oracle) (id : Int) (bound dn pw : Str) (ht : TextOk V.C dn) :
    let d := dirAfter V.C (validatePw V.C V.K) base ops
    let db := after V.C G (validatePw V.C V.K) base ops
    let out := handlePacket V (boltSrv V G cfg n stats) o (wMsg id (wBind dn pw)) bound db
    out.st = db ∧
    (MayBind V.C V.K cfg.anon base d dn pw →
      ∃ name, parseDN V.C dn = some name ∧ out.resps = [.result id 1 0] ∧ out.next = .go (normalize V.C name)) ∧
    (¬ MayBind V.C V.K cfg.anon base d dn pw → ∃ code, code ≠ 0 ∧ out.resps = [.result id 1 code] ∧ out.next = .go bound) := by
  obtain ⟨ns, -, h2, R, -⟩ := sim_run_empty (validate := validatePw V.C V.K) hC hG hb ops h.ok h.len
  have hd : dirAfter V.C (validatePw V.C V.K) base ops = dirOf ns := h2
  intro d db out
  simp only [d, hd]
  exact wBind_step hC hG hb hcfg R o id bound dn pw ht

/-- C22: a connection that already is bound is never bound under a name without the password of that name's entry, and an empty password
never binds under a name. -/
theorem C22_needs_password (hC : V.C.Lawful) (hG : G.Lawful) (hb : BaseOk V.C base) (hcfg : cfg.base = render base) (ops : List Op)
    (h : HistOk V.C ops) (o : Oracle) (id : Int) (bound dn : Str) (ht : TextOk V.C dn) (hne : dn ≠ []) :
    (handlePacket V (boltSrv V G cfg n stats) o (wMsg id (wBind dn [])) bound (after V.C G (validatePw V.C V.K) base ops)).next = .go bound := by
  obtain ⟨-, -, h3⟩ := C22_bind_exact (n := n) (stats := stats) hC hG hb hcfg ops h o id bound dn [] ht
  obtain ⟨code, -, -, h4⟩ := h3 (by rintro (⟨h, -⟩ | ⟨h, -⟩); exact hne h; exact h rfl)
  exact h4

/-- hypotheses, and a bind that succeeds, one with a wrong password and an anonymous one -/
example : BaseOk asciiCase toyBase ∧ toyCfg.base = render toyBase ∧ HistOk asciiCase toyOps ∧ TextOk asciiCase b!"uid=ann,dc=LG" ∧
    (toyReq [] (wBind b!"uid=ann,dc=LG" b!"pw")).resps = [.result 7 1 0] ∧
    (toyReq b!"uid=admin,dc=lg" (wBind b!"uid=ann,dc=LG" b!"wrong")).resps = [.result 7 1 49] ∧
    (toyReq b!"uid=admin,dc=lg" (wBind b!"uid=ann,dc=LG" b!"wrong")).next = .go b!"uid=admin,dc=lg" ∧
    (toyReq b!"uid=admin,dc=lg" (wBind [] [])).next = .go [] := by decide +kernel

end
end Idm
