import Verif.Spec.Silent
import Verif.Props.BoltBind
import Verif.Props.LdifBind
import Verif.Spec.LdifToy
/-!
# C117: what refused binds tell
-/
namespace Idm
open Dir

section
variable {V : Env} {G : GobEnv} {cfg : BoltCfg} {n : Nat} {stats : Bool} {base : DN}

/-- What the handler answers decides what the client is told. -/
theorem bolt_bind_told (o : Oracle) (id : Int) (bound dn pw : Str) (db : Db) :
    (∀ c, c ≠ 0 → (boltBind V G cfg dn pw db).1 = .ok (c, false) →
      (handlePacket V (boltSrv V G cfg n stats) o (wMsg id (wBind dn pw)) bound db).resps = [.result id 1 c]) ∧
    ((boltBind V G cfg dn pw db).1 = .panic →
      (handlePacket V (boltSrv V G cfg n stats) o (wMsg id (wBind dn pw)) bound db).resps = [.result id 1 1]) := by
  have hst : (boltBind V G cfg dn pw db).2 = db := validate_st
  generalize hx : boltBind V G cfg dn pw db = x at hst
  obtain ⟨res, db'⟩ := x
  dsimp only at hst
  subst hst
  have hbody : bindBody (boltSrv V G cfg n stats) (wBind dn pw) db' = (match res with
      | .ok (code, false) => (.ok code, db')
      | .ok (_, true) => (.ok rcOperationsError, db')
      | .err _ => (.ok rcOperationsError, db')
      | .panic => (.panic, db')
      | .hang => (.hang, db')) := by
    have h3 : authSimple = 0 := rfl
    simp only [bindBody, wBind, wReq, Packet.kids, berInt, Packet.int?, Packet.val, octet, Packet.str?, ctxStr, Packet.tag, boltSrv,
      pick_single, Packet.data, hx, List.getElem?_cons_zero, List.getElem?_cons_succ, h3, ne_eq, not_true_eq_false, if_false,
      List.length_cons, List.length_nil, if_true, Nat.zero_add, Nat.reduceAdd]
    rcases res with ⟨code, b⟩ | e | _ | _
    · cases b <;> rfl
    all_goals rfl
  rw [wBind_packet]
  unfold stepBind handleBind
  rw [hbody]
  constructor
  · rintro c hc rfl
    have hc' : ¬ c = rcSuccess := hc
    simp only [if_neg hc']
    rfl
  · rintro rfl
    rfl

/-- Which answer the handler gives to a bind it refuses. -/
theorem boltBind_code (hC : V.C.Lawful) (hG : G.Lawful) (hb : BaseOk V.C base) (hcfg : cfg.base = render base) {db : Db} {ns : List INode}
    (R : Rel V.C G base db ns) (dn pw : Str) (ht : TextOk V.C dn) :
    (parseDN V.C dn = none → (boltBind V G cfg dn pw db).1 = .ok (34, false)) ∧
    (Untestable V.C V.K base (dirOf ns) dn pw → (boltBind V G cfg dn pw db).1 = .panic) ∧
    (parseDN V.C dn ≠ none → ¬ MayBind V.C V.K cfg.anon base (dirOf ns) dn pw → ¬ Untestable V.C V.K base (dirOf ns) dn pw →
      (boltBind V G cfg dn pw db).1 = .ok (49, false)) := by
  have hnil : parseDN V.C [] = some [] := by
    have := parseDN_render hC [] (by simp [NameOk]) (by simp [EndOk])
    simpa [render, renderFrom] using this
  have hempty : ∀ e, (dirOf ns).get [] ≠ some e := by
    intro e he
    rw [Rel.get_none] at he
    · simp at he
    · rintro ⟨m, hm, h⟩
      exact (R.names m hm).2.2 h
  have hone := (boltBind_eq (V := V) (G := G) (cfg := cfg) hC hG hb hcfg R dn pw ht).2
  cases hp : parseDN V.C dn with
  | none =>
    have hne : dn ≠ [] := by rintro rfl; rw [hnil] at hp; cases hp
    refine ⟨fun _ => ?_, ?_, fun h => absurd rfl h⟩
    · unfold boltBind
      rw [if_neg (fun h => hne h.1), if_neg (fun h => hne h.1)]
      simp [parseNormalize, hp, rcInvalidDNSyntax]
    · rintro ⟨-, name, e, k, -⟩
      rw [hp] at k; cases k
  | some name =>
    refine ⟨(fun h => by cases h), ?_, fun _ => ?_⟩
    all_goals
      have hnorm : parseNormalize V.C dn = some (render (foldDN V.C name)) := by simp [parseNormalize, hp, normalize]
    · rintro ⟨hpw, name', e, k1, hs, hg, hv⟩
      rw [hp] at k1; cases k1
      have hne : dn ≠ [] := by
        rintro rfl
        rw [hnil] at hp; cases hp
        exact hempty e hg
      have hsuf : hasSuffix (render (foldDN V.C name)) cfg.base = true := by rw [hcfg]; exact List.isSuffixOf_iff_suffix.2 hs
      unfold boltBind
      rw [if_neg (fun h => hne h.1), if_neg (fun h => hne h.1), hnorm]
      simp only [hsuf, Bool.not_true, Bool.false_eq_true, if_false, if_neg hpw]
      have hok := foldDN_nameOk hC (ht name hp)
      have hend := endOk_of_suffix hb.ne hb.name hb.endOk hs
      have hlk := lookup_of_rel hC hG R (parseDN_render hC _ hok hend) hok
      rw [foldDN_idem hC] at hlk
      unfold validateUser
      rw [hlk, hg]
      dsimp only
      have hval : validatePw V.C V.K pw (getVal V.C e.attrs sUserPassword) = .panic := by
        by_cases hne : getVal V.C e.attrs sUserPassword = []
        · rw [hne, validatePw_nil]
        · exact hv _ ((passwordOf_iff (dn := e.dn) hne).2 rfl)
      rw [hval]
    · intro hno hbr
      rcases hone with ⟨h, -⟩ | ⟨-, h⟩
      · exact absurd h hno
      · unfold boltBind at h ⊢
        by_cases h1 : dn = [] ∧ cfg.anon = false
        · rw [if_pos h1]; rfl
        · rw [if_neg h1] at h ⊢
          by_cases h2 : dn = [] ∧ pw = []
          · rw [if_pos h2] at h
            simp [rcSuccess] at h
          · rw [if_neg h2] at h ⊢
            rw [hnorm] at h ⊢
            dsimp only at h ⊢
            cases hsuf : hasSuffix (render (foldDN V.C name)) cfg.base with
            | false => rfl
            | true =>
              simp only [hsuf, Bool.not_true, Bool.false_eq_true, if_false] at h ⊢
              have hs : render base <:+ render (foldDN V.C name) := by
                rw [hcfg] at hsuf
                exact List.isSuffixOf_iff_suffix.1 hsuf
              by_cases h3 : pw = []
              · rw [if_pos h3]; rfl
              · rw [if_neg h3] at h ⊢
                have hok := foldDN_nameOk hC (ht name hp)
                have hend := endOk_of_suffix hb.ne hb.name hb.endOk hs
                have hlk := lookup_of_rel hC hG R (parseDN_render hC _ hok hend) hok
                rw [foldDN_idem hC] at hlk
                unfold validateUser at h ⊢
                rw [hlk] at h ⊢
                cases hg : (dirOf ns).get (foldDN V.C name) with
                | none => rfl
                | some e =>
                  rw [hg] at h
                  dsimp only at h ⊢
                  cases hv : validatePw V.C V.K pw (getVal V.C e.attrs sUserPassword) with
                  | ok b =>
                    rw [hv] at h
                    cases b with
                    | true => simp [rcSuccess] at h
                    | false => rfl
                  | err x => rfl
                  | panic =>
                    refine absurd ⟨h3, name, e, hp, hs, hg, fun h hh => ?_⟩ hbr
                    by_cases hne : h = []
                    · rw [hne, validatePw_nil]
                    · rw [← (passwordOf_iff (dn := e.dn) hne).1 hh, hv]
                  | hang => exact absurd hv (validatePw_no_hang _ _ _ _)

/-- C117: what a client of the database server is told when a bind is refused: that the name is none, that the entry cannot be tested, or, in
all other cases, the same thing: whether there is no such entry, the password is wrong or empty, the name is outside the base, or anonymous
access is not allowed. -/
theorem C117_codes (hC : V.C.Lawful) (hG : G.Lawful) (hb : BaseOk V.C base) (hcfg : cfg.base = render base) (ops : List Op)
    (h : HistOk V.C ops) (o : Oracle) (id : Int) (bound dn pw : Str) (ht : TextOk V.C dn) :
    let d := dirAfter V.C (validatePw V.C V.K) base ops
    let out := handlePacket V (boltSrv V G cfg n stats) o (wMsg id (wBind dn pw)) bound (after V.C G (validatePw V.C V.K) base ops)
    (parseDN V.C dn = none → out.resps = [.result id 1 34]) ∧
    (Untestable V.C V.K base d dn pw → out.resps = [.result id 1 1]) ∧
    (parseDN V.C dn ≠ none → ¬ MayBind V.C V.K cfg.anon base d dn pw → ¬ Untestable V.C V.K base d dn pw → out.resps = [.result id 1 49]) := by
  obtain ⟨ns, -, h2, R, -⟩ := sim_run_empty (validate := validatePw V.C V.K) hC hG hb ops h.ok h.len
  have hd : dirAfter V.C (validatePw V.C V.K) base ops = dirOf ns := h2
  intro d out
  simp only [d, hd]
  obtain ⟨k1, k2, k3⟩ := boltBind_code (V := V) (G := G) (cfg := cfg) hC hG hb hcfg R dn pw ht
  obtain ⟨t1, t2⟩ := bolt_bind_told (V := V) (G := G) (cfg := cfg) (n := n) (stats := stats) o id bound dn pw (after V.C G (validatePw V.C V.K) base ops)
  exact ⟨fun h => t1 34 (by decide) (k1 h), fun h => t2 (k2 h), fun h1 h2 h3 => t1 49 (by decide) (k3 h1 h2 h3)⟩

/-- C117 for the database server: a refused bind does not tell why. Whatever the two directories contain and whichever passwords are tried, by
whomever: if the bind is refused by both, the answers are the same. Missing are names of entries that cannot be tested
(`C117_no_password_fails`). -/
theorem C117_bolt_partial (hC : V.C.Lawful) (hG : G.Lawful) (hb : BaseOk V.C base) (hcfg : cfg.base = render base) (ops ops' : List Op)
    (h : HistOk V.C ops) (h' : HistOk V.C ops') (o o' : Oracle) (id : Int) (bound bound' dn pw pw' : Str) (ht : TextOk V.C dn)
    (hno : ¬ MayBind V.C V.K cfg.anon base (dirAfter V.C (validatePw V.C V.K) base ops) dn pw)
    (hno' : ¬ MayBind V.C V.K cfg.anon base (dirAfter V.C (validatePw V.C V.K) base ops') dn pw')
    (hu : ¬ Untestable V.C V.K base (dirAfter V.C (validatePw V.C V.K) base ops) dn pw)
    (hu' : ¬ Untestable V.C V.K base (dirAfter V.C (validatePw V.C V.K) base ops') dn pw') :
    (handlePacket V (boltSrv V G cfg n stats) o (wMsg id (wBind dn pw)) bound (after V.C G (validatePw V.C V.K) base ops)).resps =
      (handlePacket V (boltSrv V G cfg n stats) o' (wMsg id (wBind dn pw')) bound' (after V.C G (validatePw V.C V.K) base ops')).resps := by
  obtain ⟨a1, -, a3⟩ := C117_codes (V := V) (cfg := cfg) (n := n) (stats := stats) hC hG hb hcfg ops h o id bound dn pw ht
  obtain ⟨b1, -, b3⟩ := C117_codes (V := V) (cfg := cfg) (n := n) (stats := stats) hC hG hb hcfg ops' h' o' id bound' dn pw' ht
  cases hp : parseDN V.C dn with
  | none => rw [a1 hp, b1 hp]
  | some name => rw [a3 (by simp [hp]) hno hu, b3 (by simp [hp]) hno' hu']

end

section
variable {V : Env} {W : WalkOrd} {cfg : LdifCfg} {g : Nat} {stats : Bool}

theorem ldif_bind_told (o : Oracle) (id : Int) (bound dn pw : Str) (st : LdifSt) :
    (∀ c, c ≠ 0 → ((if cfg.conf then confBind V cfg else ldifBind V cfg) dn pw st).1 = .ok (c, false) →
      (handlePacket V (ldifSrv V W cfg g stats) o (wMsg id (wBind dn pw)) bound st).resps = [.result id 1 c]) ∧
    (((if cfg.conf then confBind V cfg else ldifBind V cfg) dn pw st).1 = .panic →
      (handlePacket V (ldifSrv V W cfg g stats) o (wMsg id (wBind dn pw)) bound st).resps = [.result id 1 1]) := by
  have hst : ((if cfg.conf then confBind V cfg else ldifBind V cfg) dn pw st).2 = st := by
    split
    · exact confBind_st _ _ _
    · exact ldifBind_st _ _ _
  generalize hx : (if cfg.conf then confBind V cfg else ldifBind V cfg) dn pw st = x at hst
  obtain ⟨res, st'⟩ := x
  dsimp only at hst
  subst hst
  have hbody : bindBody (ldifSrv V W cfg g stats) (wBind dn pw) st' = (match res with
      | .ok (code, false) => (.ok code, st')
      | .ok (_, true) => (.ok rcOperationsError, st')
      | .err _ => (.ok rcOperationsError, st')
      | .panic => (.panic, st')
      | .hang => (.hang, st')) := by
    have h3 : authSimple = 0 := rfl
    simp only [bindBody, wBind, wReq, Packet.kids, berInt, Packet.int?, Packet.val, octet, Packet.str?, ctxStr, Packet.tag, ldifSrv,
      pick_single, Packet.data, hx, List.getElem?_cons_zero, List.getElem?_cons_succ, h3, ne_eq, not_true_eq_false, if_false,
      List.length_cons, List.length_nil, if_true, Nat.zero_add, Nat.reduceAdd]
    rcases res with ⟨code, b⟩ | e | _ | _
    · cases b <;> rfl
    all_goals rfl
  rw [wBind_packet]
  unfold stepBind handleBind
  rw [hbody]
  constructor
  · rintro c hc rfl
    have hc' : ¬ c = rcSuccess := hc
    simp only [if_neg hc']
    rfl
  · rintro rfl
    rfl

theorem bindCode_refused (i : Nat) (r : Entry) (pw : Str) (hno : ¬ Opens V.C V.K r pw)
    (hu : ¬ ∀ h, passwordOf V.C r = some h → validatePw V.C V.K pw h = .panic) :
    ldifBindCode (ldifValidate V (buildEntry V.C i r) pw) = .ok (49, false) := by
  unfold ldifValidate Opens passwordOf buildEntry at *
  dsimp only
  revert hno hu
  cases (List.filter (fun a => decide (V.C.lower a.name = b!"userpassword")) r.attrs).getLast? with
  | none => simp
  | some a =>
    cases hv : a.vals with
    | nil => simp [hv]
    | cons h hs =>
      simp only [Option.map_some, hv, Option.bind_some, List.head?_cons, Option.some.injEq, exists_eq_left', forall_eq']
      have := validatePw_no_hang V.C V.K pw h
      cases hx : validatePw V.C V.K pw h with
      | ok b => cases b <;> simp [ldifBindCode, rcSuccess, rcInvalidCredentials]
      | err e => simp [ldifBindCode, rcInvalidCredentials]
      | panic => simp
      | hang => exact absurd hx this

/-- Which answer the handler of LDIF files gives to a bind it refuses. -/
theorem ldifBind_code {recs : List (Option Entry)} {st : LdifSt} (hm : treeFromLDIF V.C cfg.idx recs = some st.main) (dn pw : Str)
    (hno : ¬ LdifMayBind V.C V.K cfg recs dn pw) (hu : ¬ UntestableIn V.C V.K recs dn pw) :
    (ldifBind V cfg dn pw st).1 = .ok (if !ldifValidDN cfg (V.C.lower dn) then 50 else if pw = [] then 53 else 49, false) := by
  have hiff : (if V.C.lower dn = [] then cfg.anon = true ∧ cfg.loopback = true else hasSuffix (V.C.lower dn) cfg.base = true) ↔
      ldifValidDN cfg (V.C.lower dn) = true := by
    unfold ldifValidDN
    split <;> simp
  unfold LdifMayBind at hno
  rw [hiff] at hno
  unfold ldifBind
  dsimp only
  by_cases hv : ldifValidDN cfg (V.C.lower dn) = true
  · simp only [hv, true_and, Bool.not_true, Bool.false_eq_true, if_false] at hno ⊢
    by_cases hp : pw = []
    · subst hp
      by_cases hd : V.C.lower dn = []
      · exact absurd (Or.inl ⟨hd, rfl⟩) hno
      · simp [hd, rcUnwillingToPerform]
    · rw [if_neg hp, if_neg hp]
      rcases treeGet_recs hm (V.C.lower dn) with ⟨hg, -⟩ | ⟨i, r, hr, hg, hl, -⟩
      · rw [hg]; rfl
      · rw [hg]
        exact bindCode_refused i r pw (fun ho => hno (Or.inr ⟨hp, r, hr, hl, ho⟩)) fun h => hu ⟨r, hr, hl, h⟩
  · simp only [Bool.not_eq_true] at hv
    simp only [hv, Bool.not_false, if_true]
    rfl

/-- C117 for the server with an LDIF file: a refused bind does not tell why. Whatever the two files contain, and whichever passwords are tried:
if the bind is refused by both, the answers are the same. Missing are names of records that cannot be tested (`C117_ldif_fails`). -/
theorem C117_ldif_partial (hconf : cfg.conf = false) (hW : W.Lawful) {recs older recs' older'} {st st' : LdifSt}
    (h : LdifReach V W cfg g stats (recs :: older) st) (h' : LdifReach V W cfg g stats (recs' :: older') st')
    (o o' : Oracle) (id : Int) (bound bound' dn pw pw' : Str) (hpw : pw = [] ↔ pw' = [])
    (hno : ¬ LdifMayBind V.C V.K cfg recs dn pw) (hno' : ¬ LdifMayBind V.C V.K cfg recs' dn pw')
    (hu : ¬ UntestableIn V.C V.K recs dn pw) (hu' : ¬ UntestableIn V.C V.K recs' dn pw') :
    (handlePacket V (ldifSrv V W cfg g stats) o (wMsg id (wBind dn pw)) bound st).resps =
      (handlePacket V (ldifSrv V W cfg g stats) o' (wMsg id (wBind dn pw')) bound' st').resps := by
  obtain ⟨⟨_, _, e, hm⟩, -⟩ := reach_inv hW h
  cases e
  obtain ⟨⟨_, _, e, hm'⟩, -⟩ := reach_inv hW h'
  cases e
  have k := ldifBind_code hm dn pw hno hu
  have k' := ldifBind_code hm' dn pw' hno' hu'
  simp only [← hpw] at k'
  rw [(ldif_bind_told (W := W) (g := g) (stats := stats) o id bound dn pw st).1 _ ?_ (by simpa [hconf] using k),
    (ldif_bind_told (W := W) (g := g) (stats := stats) o' id bound' dn pw' st').1 _ ?_ (by simpa [hconf] using k')]
  all_goals repeat' split
  all_goals decide

/-- C117 with a config file, for names that end in the base DN: nor does the answer tell whether the name is in the config file. -/
theorem C117_config_partial (hC : V.C.Lawful) (hconf : cfg.conf = true) (hW : W.Lawful) {recs older recs' older' conf conf'} {st st' : LdifSt}
    (h : LdifReach V W cfg g stats (recs :: older) st) (h' : LdifReach V W cfg g stats (recs' :: older') st')
    (hc : treeFromLDIF V.C cfg.idx conf = some st.conf) (hc' : treeFromLDIF V.C cfg.idx conf' = some st'.conf)
    (o o' : Oracle) (id : Int) (bound bound' dn pw pw' : Str) (hpw : pw = [] ↔ pw' = []) (hname : V.C.lower dn ≠ [])
    (hb : hasSuffix (V.C.lower dn) cfg.base = true) (hb' : hasSuffix (V.C.lower dn) (V.C.lower cfg.optBase) = true)
    (hno : ¬ ConfMayBind V.C V.K cfg recs conf dn pw) (hno' : ¬ ConfMayBind V.C V.K cfg recs' conf' dn pw')
    (hu : ¬ UntestableIn V.C V.K recs dn pw ∧ ¬ UntestableIn V.C V.K conf dn pw)
    (hu' : ¬ UntestableIn V.C V.K recs' dn pw' ∧ ¬ UntestableIn V.C V.K conf' dn pw') :
    (handlePacket V (ldifSrv V W cfg g stats) o (wMsg id (wBind dn pw)) bound st).resps =
      (handlePacket V (ldifSrv V W cfg g stats) o' (wMsg id (wBind dn pw')) bound' st').resps := by
  obtain ⟨⟨_, _, e, hm⟩, -⟩ := reach_inv hW h
  cases e
  obtain ⟨⟨_, _, e, hm'⟩, -⟩ := reach_inv hW h'
  cases e
  have key : ∀ (recs conf : List (Option Entry)) (st : LdifSt) (pw : Str), treeFromLDIF V.C cfg.idx recs = some st.main →
      treeFromLDIF V.C cfg.idx conf = some st.conf → ¬ ConfMayBind V.C V.K cfg recs conf dn pw →
      ¬ UntestableIn V.C V.K recs dn pw → ¬ UntestableIn V.C V.K conf dn pw → (confBind V cfg dn pw st).1 = .ok (if pw = [] then 53 else 49, false) := by
    intro recs conf st pw hm hc hno hu huc
    have hv : ldifValidDN cfg (V.C.lower dn) = true := by
      unfold ldifValidDN
      rw [if_neg hname]
      exact hb
    have hmain : ¬ LdifMayBind V.C V.K cfg recs dn pw → (ldifBind V cfg (V.C.lower dn) pw st).1 = .ok (if pw = [] then 53 else 49, false) := by
      intro hno
      have := ldifBind_code hm (V.C.lower dn) pw (by unfold LdifMayBind at hno ⊢; rw [hC.lower_idem]; exact hno)
        (by unfold UntestableIn at hu ⊢; rw [hC.lower_idem]; exact hu)
      rw [hC.lower_idem, hv] at this
      exact this
    unfold ConfMayBind at hno
    unfold confBind
    dsimp only
    by_cases hp : pw = []
    · rw [if_neg (fun h => h.1 hp)] at hno
      rw [if_pos hp]
      exact hmain hno
    · rcases treeGet_recs hc (V.C.lower dn) with ⟨hg, hn⟩ | ⟨i, r, hr, hg, hl, hun⟩
      · rw [if_neg (fun h => hn h.2)] at hno
        rw [if_neg hp, hg]
        exact hmain hno
      · rw [if_pos ⟨hp, r, hr, hl⟩] at hno
        rw [if_neg hp, if_neg hp, hg]
        dsimp only
        rw [if_neg (by simp [hb'])]
        exact bindCode_refused i r pw (fun ho => hno ⟨hb', r, hr, hl, ho⟩) fun h => huc ⟨r, hr, hl, h⟩
  have k := key recs conf st pw hm hc hno hu.1 hu.2
  have k' := key recs' conf' st' pw' hm' hc' hno' hu'.1 hu'.2
  simp only [← hpw] at k'
  rw [(ldif_bind_told (W := W) (g := g) (stats := stats) o id bound dn pw st).1 _ ?_ (by simpa [hconf] using k),
    (ldif_bind_told (W := W) (g := g) (stats := stats) o' id bound' dn pw' st').1 _ ?_ (by simpa [hconf] using k')]
  all_goals repeat' split
  all_goals decide

end
/-! ## Concrete cases -/

/-- The answer of a database server after these calls. -/
def silentReq (ops : List Op) (dn pw : Str) : List Resp :=
  (handlePacket toyEnv toySrv toyOracle (wMsg 7 (wBind dn pw)) [] (after asciiCase gobInstance (validatePw asciiCase toyCrypto) toyBase ops)).resps

theorem silent_refused {ops : List Op} {dn pw : Str} (h : HistOk asciiCase ops) (ht : TextOk asciiCase dn) (hr : silentReq ops dn pw = [.result 7 1 49]) :
    ¬ MayBind asciiCase toyCrypto true toyBase (dirAfter asciiCase (validatePw asciiCase toyCrypto) toyBase ops) dn pw ∧
    ¬ Untestable asciiCase toyCrypto toyBase (dirAfter asciiCase (validatePw asciiCase toyCrypto) toyBase ops) dn pw := by
  refine ⟨fun hm => ?_, fun hu => ?_⟩
  · obtain ⟨-, h2, -⟩ := C22_bind_exact (V := toyEnv) (cfg := toyCfg) (base := toyBase) (n := 8) (stats := false) asciiCase_lawful gobInstance_lawful (by decide +kernel)
      (by decide +kernel) ops h toyOracle 7 [] dn pw ht
    obtain ⟨_, -, k, -⟩ := h2 hm
    have : silentReq ops dn pw = [.result 7 1 0] := k
    rw [hr] at this
    exact absurd this (by decide)
  · have := (C117_codes (V := toyEnv) (cfg := toyCfg) (base := toyBase) (n := 8) (stats := false) asciiCase_lawful gobInstance_lawful (by decide +kernel)
      (by decide +kernel) ops h toyOracle 7 [] dn pw ht).2.1 hu
    have : silentReq ops dn pw = [.result 7 1 1] := this
    rw [hr] at this
    exact absurd this (by decide)

/-- hypotheses of C117: a wrong password for a user, and the same name at a server without that user -/
example : HistOk asciiCase toyOps ∧ HistOk asciiCase (toyOps.take 2) ∧ TextOk asciiCase b!"uid=ann,dc=lg" ∧
    silentReq toyOps b!"uid=ann,dc=lg" b!"pw" = [.result 7 1 0] ∧
    silentReq toyOps b!"uid=ann,dc=lg" b!"wrong" = [.result 7 1 49] ∧ silentReq (toyOps.take 2) b!"uid=ann,dc=lg" b!"pw" = [.result 7 1 49] ∧
    (let d := dirAfter asciiCase (validatePw asciiCase toyCrypto) toyBase toyOps
     ¬ MayBind asciiCase toyCrypto true toyBase d b!"uid=ann,dc=lg" b!"wrong" ∧ ¬ Untestable asciiCase toyCrypto toyBase d b!"uid=ann,dc=lg" b!"wrong") :=
  ⟨by decide +kernel, by decide +kernel, by decide +kernel, by decide +kernel, by decide +kernel, by decide +kernel,
    silent_refused (by decide +kernel) (by decide +kernel) (by decide +kernel)⟩

/-- C117 fails for entries without a password: a client that has not bound learns from a refused bind that there is such an entry. -/
theorem C117_no_password_fails : let d := fun ops => dirAfter asciiCase (validatePw asciiCase toyCrypto) toyBase ops
    ¬ MayBind asciiCase toyCrypto true toyBase (d toyOps) b!"dc=lg" b!"x" ∧ ¬ MayBind asciiCase toyCrypto true toyBase (d []) b!"dc=lg" b!"x" ∧
    silentReq toyOps b!"dc=lg" b!"x" = [.result 7 1 1] ∧ silentReq [] b!"dc=lg" b!"x" = [.result 7 1 49] := by
  refine ⟨fun hm => ?_, (silent_refused (by decide +kernel) (by decide +kernel) (by decide +kernel)).1, by decide +kernel, by decide +kernel⟩
  obtain ⟨-, h2, -⟩ := C22_bind_exact (V := toyEnv) (cfg := toyCfg) (base := toyBase) (n := 8) (stats := false) asciiCase_lawful gobInstance_lawful (by decide +kernel)
      (by decide +kernel) toyOps (by decide +kernel) toyOracle 7 [] b!"dc=lg" b!"x" (by decide +kernel)
  obtain ⟨_, -, k, -⟩ := h2 hm
  have : silentReq toyOps b!"dc=lg" b!"x" = [.result 7 1 0] := k
  have h3 : silentReq toyOps b!"dc=lg" b!"x" = [.result 7 1 1] := by decide +kernel
  rw [h3] at this
  exact absurd this (by decide)

/-- The answer of a server with these files. -/
def silentLdif (recs conf : List (Option Entry)) (dn pw : Str) : List Resp :=
  (handlePacket ldEnv ldSrv toyOracle (wMsg 7 (wBind dn pw)) [] { ldStart recs with conf := ldMem conf }).resps

theorem silent_reach (recs conf : List (Option Entry)) (h : treeFromLDIF asciiCase defaultIdx recs = some (ldMem recs)) :
    LdifReach ldEnv ldOrd ldCfg 8 false [recs] { ldStart recs with conf := ldMem conf } := .start _ _ _ _ _ _ h

/-- hypotheses of C117 with a config file: names in the data, in the config file and in neither, with wrong passwords -/
example : LdifReach ldEnv ldOrd ldCfg 8 false [ldRecs] { ldStart ldRecs with conf := ldMem ldConfRecs } ∧
    treeFromLDIF asciiCase defaultIdx ldConfRecs = some (ldMem ldConfRecs) ∧
    (∀ dn ∈ [b!"uid=ann,ou=people,dc=lg", b!"uid=bob,ou=people,dc=lg", b!"uid=eve,ou=people,dc=lg"],
      hasSuffix dn ldCfg.base = true ∧ hasSuffix dn (asciiCase.lower ldCfg.optBase) = true ∧ silentLdif ldRecs ldConfRecs dn b!"x" = [.result 7 1 49] ∧
      silentLdif [] [] dn b!"x" = [.result 7 1 49]) :=
  ⟨silent_reach _ _ ldRecs_loads, ldConfRecs_loads, by decide +kernel⟩

/-- hypotheses of C117: a wrong password cannot be used, and the user can be tested -/
example : let r : Entry := ⟨b!"uid=bob,ou=People,dc=lg", [⟨b!"userPassword", [b!"secret"]⟩]⟩
    ¬ LdifMayBind asciiCase toyCrypto ldCfg [some r] b!"uid=bob,ou=people,dc=lg" b!"x" ∧
    ¬ UntestableIn asciiCase toyCrypto [some r] b!"uid=bob,ou=people,dc=lg" b!"x" := by
  have hp : passwordOf asciiCase ⟨b!"uid=bob,ou=People,dc=lg", [⟨b!"userPassword", [b!"secret"]⟩]⟩ = some b!"secret" := by decide +kernel
  refine ⟨?_, ?_⟩
  · rintro ⟨-, ⟨-, h⟩ | ⟨-, r, hr, -, h, h1, h2⟩⟩
    · cases h
    · simp only [entriesIn, List.filterMap_cons, id, List.filterMap_nil, List.mem_singleton] at hr
      subst hr
      rw [hp] at h1
      cases h1
      exact absurd h2 (by decide +kernel)
  · rintro ⟨r, hr, -, h⟩
    simp only [entriesIn, List.filterMap_cons, id, List.filterMap_nil, List.mem_singleton] at hr
    subst hr
    exact absurd (h _ hp) (by decide +kernel)

/-- C117 fails for records without a password: a client that may not read at all learns from a refused bind that there is such a record. -/
theorem C117_ldif_fails : ∃ recs recs' : List (Option Entry),
    LdifReach ldEnv ldOrd ldCfg 8 false [recs] { ldStart recs with conf := ldMem [] } ∧
    LdifReach ldEnv ldOrd ldCfg 8 false [recs'] { ldStart recs' with conf := ldMem [] } ∧
    silentLdif recs [] b!"ou=people,dc=lg" b!"x" = [.result 7 1 1] ∧ silentLdif recs' [] b!"ou=people,dc=lg" b!"x" = [.result 7 1 49] :=
  ⟨ldRecs, ldRecs.take 1, silent_reach _ _ ldRecs_loads, silent_reach _ _ (ldMemI_loads (by decide +kernel)), by decide +kernel, by decide +kernel⟩

/-- C117 fails for names outside the base DN that are in the config file: refused binds tell them from other names. -/
theorem C117_config_fails : ∃ conf : List (Option Entry), treeFromLDIF asciiCase defaultIdx conf = some (ldMem conf) ∧
    LdifReach ldEnv ldOrd ldCfg 8 false [ldRecs] { ldStart ldRecs with conf := ldMem conf } ∧
    silentLdif ldRecs conf b!"uid=bob,dc=test" b!"x" = [.result 7 1 49] ∧ silentLdif ldRecs conf b!"uid=eve,dc=test" b!"x" = [.result 7 1 50] :=
  ⟨[some ⟨b!"uid=bob,dc=test", [⟨b!"userPassword", [b!"secret"]⟩]⟩], ldMemI_loads (by decide +kernel), silent_reach _ _ ldRecs_loads, by decide +kernel, by decide +kernel⟩

end Idm
