import Verif.Props.BoltBind
import Verif.Props.Password
/-!
# C25, C26: the password modify operation
-/
namespace Idm
open Dir

section
variable {V : Env} {G : GobEnv} {cfg : BoltCfg} {n : Nat} {stats : Bool} {base : DN}

theorem parsePwModify_body {body : Str} {user old new : Option Str} (h : PwBody V body user old new) :
    parsePwModify V (some (ctxStr 1 body)) = .ok ⟨user.getD [], old.getD [], new.getD []⟩ := by
  obtain ⟨p, h1, h2⟩ := h
  simp only [parsePwModify, ctxStr, Packet.data, h1, h2]
  cases user <;> cases old <;> cases new <;> simp [pwKids, ctxStr, Packet.cls, Packet.tag, Packet.data]

theorem pwTarget_eq (user : Option Str) (bound : Str) :
    (if user.getD [] = [] then bound else user.getD []) = pwTarget user bound := by
  unfold pwTarget
  cases user with
  | none => rfl
  | some s => cases s <;> rfl

theorem wPwModify_packet {σ : Type} (V : Env) (srv : Srv σ) (o : Oracle) (id : Int) (body bound : Str) (st : σ) :
    handlePacket V srv o (wMsg id (wPwModify body)) bound st = stepExtended V srv o id bound (wPwModify body) st := by
  simp [handlePacket, wMsg, wSeq, Packet.kids, berInt, Packet.int?, Packet.val, wPwModify, wReq, Packet.cls, decodeControls, Packet.tag,
    appAddRequest, appBindRequest, appCompareRequest, appDelRequest, appExtendedRequest]

theorem wPwModify_parse (body : Str) : parseExtendedRequest (wPwModify body) = .ok (pwmodOID, some (ctxStr 1 body)) := by
  simp [parseExtendedRequest, wPwModify, wReq, Packet.kids, ctxStr, Packet.cls, Packet.tag, Packet.data, pwmodOID]

/-- The handler of the operation succeeds only if the store does, for a permitted user; otherwise it answers an error code. -/
theorem boltPwExop_cases (bound : Str) (r : PwModReq) (hu : r.userIdentity ≠ []) (db : Db) :
    (∃ db', boltPwExop V G cfg bound r db = (.ok (rcSuccess, false), db') ∧
      updatePassword V.C G (validatePw V.C V.K) db r = (.ok (), db') ∧ bound ≠ [] ∧
      (bound = cfg.admin ∨ parseNormalize V.C r.userIdentity = some bound)) ∨
    (∀ e db', boltPwExop V G cfg bound r db ≠ (.ok (rcSuccess, e), db')) := by
  unfold boltPwExop
  dsimp only
  by_cases hb : bound = []
  · right; intro e db'; simp [hb, rcSuccess, rcInsufficientAccessRights]
  · rw [if_neg hb, if_pos hu]
    cases hp : parseNormalize V.C r.userIdentity with
    | none => right; intro e db'; simp [rcSuccess, rcOperationsError]
    | some u =>
      dsimp only
      by_cases h1 : bound ≠ u ∧ bound ≠ cfg.admin
      · right; intro e db'; rw [if_pos h1]; simp [rcSuccess, rcInsufficientAccessRights]
      · rw [if_neg h1]
        rcases hx : updatePassword V.C G (validatePw V.C V.K) db r with ⟨res, db'⟩
        cases res with
        | ok a =>
          left
          refine ⟨db', rfl, rfl, hb, ?_⟩
          by_cases h2 : bound = cfg.admin
          · exact Or.inl h2
          · right
            by_cases h3 : bound = u
            · rw [h3]
            · exact absurd ⟨h3, h2⟩ h1
        | err e => right; intro e db'; simp [rcSuccess, rcOther]
        | panic => right; intro e db'; simp
        | hang => right; intro e db'; simp

theorem handlePwModify_cases (o : Oracle) (bound : Str) (body : Option Packet) (r : PwModReq) (db : Db) (hr : parsePwModify V body = .ok r) :
    (∃ pw hashed db', (if r.newPassword = [] then generatePw o.rnd 0 n else .ok r.newPassword) = .ok pw ∧
      hashPw V.K o.salt pw b!"{ARGON2}" = .ok hashed ∧
      updatePassword V.C G (validatePw V.C V.K) db ⟨if r.userIdentity = [] then bound else r.userIdentity, r.oldPassword, hashed⟩ = (.ok (), db') ∧
      handlePwModify V (boltSrv V G cfg n stats) o bound body db = (.ok (if r.newPassword = [] then some hashed else none), db') ∧
      bound ≠ [] ∧ (bound = cfg.admin ∨ parseNormalize V.C (if r.userIdentity = [] then bound else r.userIdentity) = some bound)) ∨
    (∃ db', handlePwModify V (boltSrv V G cfg n stats) o bound body db = (.panic, db') ∨
      handlePwModify V (boltSrv V G cfg n stats) o bound body db = (.hang, db') ∨
      (∃ e, handlePwModify V (boltSrv V G cfg n stats) o bound body db = (.err e, db') ∧ ∀ b, e ≠ .ldap 0 b)) := by
  unfold handlePwModify
  by_cases hb : bound = []
  · right; exact ⟨db, Or.inr (Or.inr ⟨_, by rw [if_pos hb], by simp [rcUnwillingToPerform]⟩)⟩
  · rw [if_neg hb, hr]
    dsimp only
    have hn : (boltSrv V G cfg n stats).genPwLen = n := rfl
    rw [hn]
    have hu : (if r.userIdentity = [] then bound else r.userIdentity) ≠ [] := by
      split
      · exact hb
      · assumption
    cases hg : (if r.newPassword = [] then generatePw o.rnd 0 n else Res.ok r.newPassword) with
    | err e => right; exact ⟨db, Or.inr (Or.inr ⟨_, rfl, by simp [rcOperationsError]⟩)⟩
    | panic => right; exact ⟨db, Or.inl rfl⟩
    | hang => right; exact ⟨db, Or.inr (Or.inl rfl)⟩
    | ok pw =>
      dsimp only
      cases hh : hashPw V.K o.salt pw b!"{ARGON2}" with
      | err e => right; exact ⟨db, Or.inr (Or.inr ⟨_, rfl, by simp [rcOperationsError]⟩)⟩
      | panic => right; exact ⟨db, Or.inl rfl⟩
      | hang => right; exact ⟨db, Or.inr (Or.inl rfl)⟩
      | ok hashed =>
        simp only [boltSrv, pick_single]
        rcases boltPwExop_cases (V := V) (G := G) (cfg := cfg) bound ⟨if r.userIdentity = [] then bound else r.userIdentity, r.oldPassword, hashed⟩ hu db with
          ⟨db', h1, h2, h3, h4⟩ | h1
        · left
          refine ⟨pw, hashed, db', rfl, hh, h2, ?_, h3, h4⟩
          rw [h1]
          simp [pwExopAnswer]
        · right
          rcases hx : boltPwExop V G cfg bound ⟨if r.userIdentity = [] then bound else r.userIdentity, r.oldPassword, hashed⟩ db with ⟨res, db'⟩
          refine ⟨db', ?_⟩
          rcases res with ⟨code, e⟩ | e | _ | _
          · have hc : code ≠ rcSuccess := by
              rintro rfl
              exact h1 e db' hx
            right; right
            refine ⟨.ldap code e, by simp [pwExopAnswer, hc], ?_⟩
            intro b hq
            simp only [Err.ldap.injEq] at hq
            exact hc hq.1
          · exfalso
            revert hx
            unfold boltPwExop
            dsimp only
            repeat' split
            all_goals simp
          · left; rfl
          · right; left; rfl

/-- What a successful password modify request did. -/
theorem exop_success {db : Db} (o : Oracle) (id : Int) (body bound : Str) {user old new : Option Str} (hreq : PwBody V body user old new)
    {out : Out Db} (hout : handlePacket V (boltSrv V G cfg n stats) o (wMsg id (wPwModify body)) bound db = out)
    (hs : Succeeded out.resps) :
    ∃ pw hashed, (new.getD [] ≠ [] → pw = new.getD []) ∧ (new.getD [] = [] → generatePw o.rnd 0 n = .ok pw) ∧
      hashPw V.K o.salt pw b!"{ARGON2}" = .ok hashed ∧
      updatePassword V.C G (validatePw V.C V.K) db ⟨pwTarget user bound, old.getD [], hashed⟩ = (.ok (), out.st) ∧
      out.resps = [.extended id 0 pwmodOID (if new.getD [] = [] then some hashed else none)] ∧ out.next = .go bound ∧
      bound ≠ [] ∧ (bound = cfg.admin ∨ parseNormalize V.C (pwTarget user bound) = some bound) := by
  rw [wPwModify_packet] at hout
  subst hout
  unfold stepExtended handleExtended at hs ⊢
  simp only [wPwModify_parse, if_true] at hs ⊢
  rcases handlePwModify_cases (V := V) (G := G) (cfg := cfg) (n := n) (stats := stats) o bound (some (ctxStr 1 body)) _ db (parsePwModify_body hreq) with
    ⟨pw, hashed, db', h1, h2, h3, h4, h5, h6⟩ | ⟨db', h | h | ⟨e, h, he⟩⟩
  · dsimp only at h1 h3 h4 h6
    rw [pwTarget_eq] at h3 h6
    rw [h4]
    refine ⟨pw, hashed, ?_, ?_, h2, h3, rfl, rfl, h5, h6⟩
    · intro hne; rw [if_neg hne] at h1; exact (Res.ok.inj h1).symm
    · intro hn; rw [if_pos hn] at h1; exact h1
  · rw [h] at hs; simp [Succeeded] at hs
  · rw [h] at hs; simp [Succeeded] at hs
  · rw [h] at hs
    rcases e with ⟨code, b⟩ | _ | _ | _ | _
    · cases b
      · simp [Succeeded] at hs
      · simp [Succeeded, Resp.code?] at hs
        subst hs
        exact absurd rfl (he true)
    all_goals simp [Succeeded, Resp.code?, rcOther] at hs

theorem getVal_replaced {C : CaseEnv} (hC : C.Lawful) {as : List Attr} (ha : AsciiNames as) (v : Str) :
    getVal C (entryReplaceValues C as sUserPassword [v]) sUserPassword = v := by
  have hp : IsAscii sUserPassword := by decide +kernel
  have key : ∀ a ∈ as, (C.eqFold sUserPassword a.name = true ↔ C.fold a.name = C.fold sUserPassword) := fun a h =>
    eqFold_iff_fold hC hp (ha a h)
  have main : ∀ l : List Attr, (∀ a ∈ l, a ∈ as) → getVals C (replaceLoop C (C.fold sUserPassword) [v] l) sUserPassword =
      if l.any (fun a => C.fold a.name = C.fold sUserPassword) then [v] else [] := by
    intro l
    induction l with
    | nil => intro _; rfl
    | cons a l ih =>
      intro hl
      have hk := key a (hl a (by simp))
      have hi := ih fun b hb => hl b (by simp [hb])
      rw [replaceLoop]
      by_cases h : C.fold a.name = C.fold sUserPassword
      · simp [h, getVals, hk.2 h]
      · have : C.eqFold sUserPassword a.name = false := by
          cases hx : C.eqFold sUserPassword a.name with
          | false => rfl
          | true => exact absurd (hk.1 hx) h
        rw [if_neg h, getVals, this, List.any_cons]
        simp only [h, decide_false, Bool.false_or]
        exact hi
  unfold entryReplaceValues getVal
  dsimp only
  by_cases h : as.any (fun a => C.fold a.name = C.fold sUserPassword) = true
  · rw [if_pos h, main as fun a h => h, if_pos h]; rfl
  · rw [if_neg h, if_neg (by simp)]
    have hno : replaceLoop C (C.fold sUserPassword) [v] as = as := by
      apply replaceLoop_of_none
      intro a ha' e
      exact h (List.any_eq_true.2 ⟨a, ha', by simp [e]⟩)
    rw [hno]
    have : ∀ l : List Attr, (∀ a ∈ l, a ∈ as) → getVals C (l ++ [⟨sUserPassword, [v]⟩]) sUserPassword = [v] := by
      intro l
      induction l with
      | nil => intro _; simp [getVals, hC.eqFold_refl]
      | cons a l ih =>
        intro hl
        have hk := key a (hl a (by simp))
        have : C.eqFold sUserPassword a.name = false := by
          cases hx : C.eqFold sUserPassword a.name with
          | false => rfl
          | true => exact absurd (List.any_eq_true.2 ⟨a, hl a (by simp), by simp [hk.1 hx]⟩) h
        rw [List.cons_append, getVals, this]
        exact ih fun b hb => hl b (by simp [hb])
    rw [this as fun a h => h]
    rfl

/-- After a password modify request that was answered with success the user can bind with the password that was set: the one in the
request, or the one that was generated. -/
theorem exop_then_bind (hC : V.C.Lawful) (hK : V.K.Lawful) (hG : G.Lawful) (hb : BaseOk V.C base) (hcfg : cfg.base = render base)
    {db : Db} {ns : List INode} (R : Rel V.C G base db ns) (o : Oracle) (id : Int) (body bound : Str) {user old new : Option Str}
    (hreq : PwBody V body user old new) {out : Out Db}
    (hout : handlePacket V (boltSrv V G cfg n stats) o (wMsg id (wPwModify body)) bound db = out) (hs : Succeeded out.resps)
    {name : DN} (hname : parseDN V.C (pwTarget user bound) = some name) (hok : NameOk name)
    (hbelow : render base <:+ render (foldDN V.C name))
    (hascii : ∀ e, (dirOf ns).get (foldDN V.C name) = some e → AsciiNames e.attrs) :
    ∃ pw hashed, (new.getD [] ≠ [] → pw = new.getD []) ∧ (new.getD [] = [] → generatePw o.rnd 0 n = .ok pw) ∧
      hashPw V.K o.salt pw b!"{ARGON2}" = .ok hashed ∧
      out.resps = [.extended id 0 pwmodOID (if new.getD [] = [] then some hashed else none)] ∧
      (pw ≠ [] → ∀ o' id' bound', let out' := handlePacket V (boltSrv V G cfg n stats) o' (wMsg id' (wBind (pwTarget user bound) pw)) bound' out.st
        out'.resps = [.result id' 1 0] ∧ out'.next = .go (normalize V.C name)) := by
  obtain ⟨pw, hashed, h1, h2, h3, h4, h5, -, -, -⟩ := exop_success o id body bound hreq hout hs
  refine ⟨pw, hashed, h1, h2, h3, h5, fun hpw o' id' bound' => ?_⟩
  rcases updatePassword_eq (validate := validatePw V.C V.K) hG R ⟨pwTarget user bound, old.getD [], hashed⟩ with
    ⟨n0, hn0, hp, ⟨e', -, k2, k3⟩ | ⟨k3, -⟩⟩ | ⟨-, k3⟩
  · rw [h4] at k3
    simp only [Prod.mk.injEq, true_and] at k3
    obtain ⟨ns', -, m4, m5, -⟩ := sim_set R hn0 e'
    rw [← k3] at m5
    have hn0' : n0.name = foldDN V.C name := by
      simp only [parseNormalize, hname, Option.map_some, Option.some.injEq, normalize] at hp
      exact (render_injective _ _ (foldDN_nameOk hC hok) (R.names n0 hn0).1 hp).symm
    have hget : (dirOf ns).get (foldDN V.C name) = some n0.entry := by rw [← hn0']; exact R.get_some hn0
    have hget' : (dirOf ns').get (foldDN V.C name) = some e' := by
      rw [← m4, get_setEntry, hn0', if_pos rfl, hget]
      rfl
    have hval := C23_argon2_roundtrip hC hK pw o.salt hashed h3
    have hne : hashed ≠ [] := by rintro rfl; rw [validatePw_nil] at hval; cases hval
    have hpo : PasswordOf V.C e' hashed := by
      apply (passwordOf_iff (dn := e'.dn) hne).2
      obtain ⟨rdn, rest, md, -, -, -, -, hch⟩ := applyModify_ok k2
      obtain ⟨as1, q1, q2⟩ := applyChanges_cons hch
      simp only [applyChanges, Res.ok.injEq] at q2
      rw [← q2]
      rcases applyChange_ok q1 with ⟨h, _⟩ | ⟨_, _, rfl⟩ | ⟨h, _⟩ | ⟨_, h, _⟩
      · exact absurd h (by simp [opAdd, opReplace, opDelete])
      · exact getVal_replaced hC (hascii _ hget) hashed
      · exact absurd h (by simp [opAdd, opReplace, opDelete])
      · exact absurd rfl h
    have ht : TextOk V.C (pwTarget user bound) := by
      intro m hm
      rw [hname] at hm
      cases hm
      exact hok
    obtain ⟨-, w1, -⟩ := wBind_step (n := n) (stats := stats) hC hG hb hcfg m5 o' id' bound' (pwTarget user bound) pw ht
    obtain ⟨name', p1, p2, p3⟩ := w1 (Or.inr ⟨hpw, name, e', hashed, hname, hbelow, hget', hpo, hval⟩)
    rw [hname] at p1
    cases p1
    exact ⟨p2, p3⟩
  · rw [h4] at k3; exact absurd rfl k3
  · rw [h4] at k3; exact absurd rfl k3

/-- C26: after any history of store calls, if a password modify request with a new password is answered with success, then any connection
can bind as that user with the new password. (Missing: users not below the base, which can arise by renaming the base entry, see `C26_renamed_base_fails`; entries with
attribute names that are not ASCII, see `C26_ligature_fails`; names with escaped attribute types, see C03.) -/
theorem C26_change_takes_effect_partial (hC : V.C.Lawful) (hK : V.K.Lawful) (hG : G.Lawful) (hb : BaseOk V.C base) (hcfg : cfg.base = render base)
    (ops : List Op) (h : HistOk V.C ops) (o : Oracle) (id : Int) (body bound : Str) (user old : Option Str) (new : Str) (hne : new ≠ [])
    (hreq : PwBody V body user old (some new)) (name : DN) (hname : parseDN V.C (pwTarget user bound) = some name) (hok : NameOk name)
    (hbelow : render base <:+ render (foldDN V.C name))
    (hascii : ∀ e, (dirAfter V.C (validatePw V.C V.K) base ops).get (foldDN V.C name) = some e → AsciiNames e.attrs) :
    let out := handlePacket V (boltSrv V G cfg n stats) o (wMsg id (wPwModify body)) bound (after V.C G (validatePw V.C V.K) base ops)
    Succeeded out.resps → ∀ o' id' bound',
      let out' := handlePacket V (boltSrv V G cfg n stats) o' (wMsg id' (wBind (pwTarget user bound) new)) bound' out.st
      out'.resps = [.result id' 1 0] ∧ out'.next = .go (normalize V.C name) := by
  intro out hs
  obtain ⟨ns, -, h2, R, -⟩ := sim_run_empty (validate := validatePw V.C V.K) hC hG hb ops h.ok h.len
  have hd : dirAfter V.C (validatePw V.C V.K) base ops = dirOf ns := h2
  obtain ⟨pw, hashed, k1, -, -, -, k4⟩ := exop_then_bind (n := n) (stats := stats) hC hK hG hb hcfg R o id body bound hreq rfl hs hname hok hbelow
    (by rw [← hd]; exact hascii)
  have hpw : pw = new := k1 hne
  subst hpw
  exact k4 hne

/-- C26: after any history, a password modify request with an old password that the user's current password does not validate is not
answered with success, and nothing changes. (Missing: names with escaped attribute types, see C03.) -/
theorem C26_old_password_checked_partial (hC : V.C.Lawful) (hG : G.Lawful) (hb : BaseOk V.C base) (ops : List Op) (h : HistOk V.C ops)
    (o : Oracle) (id : Int) (body bound : Str) (user new : Option Str) (old : Str) (hne : old ≠ [])
    (hreq : PwBody V body user (some old) new) (name : DN) (hname : parseDN V.C (pwTarget user bound) = some name) (hok : NameOk name)
    (hbad : ∀ e x, (dirAfter V.C (validatePw V.C V.K) base ops).get (foldDN V.C name) = some e → PasswordOf V.C e x →
      validatePw V.C V.K old x ≠ .ok true) :
    let db := after V.C G (validatePw V.C V.K) base ops
    let out := handlePacket V (boltSrv V G cfg n stats) o (wMsg id (wPwModify body)) bound db
    ¬ Succeeded out.resps ∧ out.st = db := by
  intro db out
  obtain ⟨ns, -, h2, R, -⟩ := sim_run_empty (validate := validatePw V.C V.K) hC hG hb ops h.ok h.len
  have hd : dirAfter V.C (validatePw V.C V.K) base ops = dirOf ns := h2
  have hns : ¬ Succeeded out.resps := by
    intro hs
    obtain ⟨pw, hashed, -, -, -, h4, -⟩ := exop_success (V := V) (G := G) (cfg := cfg) (n := n) (stats := stats) o id body bound hreq rfl hs
    rcases updatePassword_eq (validate := validatePw V.C V.K) hG R ⟨pwTarget user bound, old, hashed⟩ with
      ⟨n0, hn0, hp, ⟨e', k1, -, -⟩ | ⟨k3, -⟩⟩ | ⟨-, k3⟩
    · have hn0' : n0.name = foldDN V.C name := by
        simp only [parseNormalize, hname, Option.map_some, Option.some.injEq, normalize] at hp
        exact (render_injective _ _ (foldDN_nameOk hC hok) (R.names n0 hn0).1 hp).symm
      have hget : (dirOf ns).get (foldDN V.C name) = some n0.entry := by rw [← hn0']; exact R.get_some hn0
      rcases k1 with k1 | k1
      · exact hne k1
      · dsimp only at k1
        refine hbad n0.entry (getVal V.C n0.entry.attrs sUserPassword) (by rw [hd]; exact hget) ?_ k1
        apply (passwordOf_iff (dn := n0.entry.dn) ?_).2 rfl
        intro hx
        rw [hx, validatePw_nil] at k1
        cases k1
    · rw [show (some old).getD [] = old from rfl] at h4
      rw [h4] at k3
      exact absurd rfl k3
    · rw [show (some old).getD [] = old from rfl] at h4
      rw [h4] at k3
      exact absurd rfl k3
  refine ⟨hns, ?_⟩
  apply Classical.byContradiction
  intro hst
  exact hns (C34_only_successful_writes_change (V := V) (G := G) (cfg := cfg) (n := n) (stats := stats) o _ bound db hst).2

/-! ## C25 -/

/-- C25, as far as it holds: if the server is asked to generate the password, then it draws one of the configured length from the
alphabet and binds with it succeed afterwards; but the value in the response is its Argon2 hash. (Missing: the response should carry the
password, see `C25_generated_password_fails`; otherwise as in C26.) -/
theorem C25_generated_password_partial (hC : V.C.Lawful) (hK : V.K.Lawful) (hG : G.Lawful) (hb : BaseOk V.C base) (hcfg : cfg.base = render base)
    (ops : List Op) (h : HistOk V.C ops) (o : Oracle) (id : Int) (body bound : Str) (user old : Option Str) (hlen : 0 < n)
    (hreq : PwBody V body user old none) (name : DN) (hname : parseDN V.C (pwTarget user bound) = some name) (hok : NameOk name)
    (hbelow : render base <:+ render (foldDN V.C name))
    (hascii : ∀ e, (dirAfter V.C (validatePw V.C V.K) base ops).get (foldDN V.C name) = some e → AsciiNames e.attrs) :
    let out := handlePacket V (boltSrv V G cfg n stats) o (wMsg id (wPwModify body)) bound (after V.C G (validatePw V.C V.K) base ops)
    Succeeded out.resps → ∃ pw hashed, pw.length = n ∧ (∀ c ∈ pw, c ∈ b!"0123456789ABCDEFGHIJKLMNOPQRSTUVWXYZabcdefghijklmnopqrstuvwxyz-=+!@#$%^&*.") ∧ hashPw V.K o.salt pw b!"{ARGON2}" = .ok hashed ∧
      out.resps = [.extended id 0 pwmodOID (some hashed)] ∧
      ∀ o' id' bound', (handlePacket V (boltSrv V G cfg n stats) o' (wMsg id' (wBind (pwTarget user bound) pw)) bound' out.st).resps =
        [.result id' 1 0] := by
  intro out hs
  obtain ⟨ns, -, h2, R, -⟩ := sim_run_empty (validate := validatePw V.C V.K) hC hG hb ops h.ok h.len
  have hd : dirAfter V.C (validatePw V.C V.K) base ops = dirOf ns := h2
  obtain ⟨pw, hashed, -, k2, k3, k4, k5⟩ := exop_then_bind (n := n) (stats := stats) hC hK hG hb hcfg R o id body bound hreq rfl hs hname hok hbelow
    (by rw [← hd]; exact hascii)
  have hgen := k2 rfl
  obtain ⟨l1, l2⟩ := C24_generated o.rnd 0 n pw hgen
  refine ⟨pw, hashed, l1, l2, k3, k4, fun o' id' bound' => (k5 ?_ o' id' bound').1⟩
  rintro rfl
  simp at l1
  omega

/-- Ann asks for a generated password. -/
def toyGen : Out Db := toyReq b!"uid=ann,dc=lg" (wPwModify [48, 0])

/-- C25 fails: the request succeeds, but the value in its response is not a password of the user: a bind with it is answered 49 (invalid
credentials), while one with the password that was generated, and never sent, succeeds. -/
theorem C25_generated_password_fails :
    toyGen.resps = [.extended 7 0 pwmodOID (some b!"{ARGON2}$argon2id$01234567")] ∧
    (handlePacket toyEnv toySrv toyOracle (wMsg 8 (wBind b!"uid=ann,dc=lg" b!"{ARGON2}$argon2id$01234567")) [] toyGen.st).resps = [.result 8 1 49] ∧
    (handlePacket toyEnv toySrv toyOracle (wMsg 8 (wBind b!"uid=ann,dc=lg" b!"01234567")) [] toyGen.st).resps = [.result 8 1 0] := by
  decide +kernel

theorem toyBodies : PwBody toyEnv [48, 0] none none none ∧ PwBody toyEnv ([48, 5, 130, 3] ++ b!"new") none none (some b!"new") ∧
    PwBody toyEnv ([48, 10, 129, 3] ++ b!"bad" ++ [130, 3] ++ b!"new") none (some b!"bad") (some b!"new") :=
  ⟨⟨wSeq [], rfl, rfl⟩, ⟨wSeq [ctxStr 2 b!"new"], rfl, rfl⟩, ⟨wSeq [ctxStr 1 b!"bad", ctxStr 2 b!"new"], rfl, rfl⟩⟩

example : toyDb = after asciiCase gobInstance (validatePw asciiCase toyCrypto) toyBase toyOps := rfl

/-- hypotheses of C25 and C26: bodies, the user's name and entry; and a request with a wrong old password -/
example : BaseOk asciiCase toyBase ∧ toyCfg.base = render toyBase ∧ HistOk asciiCase toyOps ∧
    parseDN asciiCase (pwTarget none b!"uid=ann,dc=lg") = some [[⟨b!"uid", b!"ann"⟩], [⟨b!"dc", b!"lg"⟩]] ∧
    NameOk [[⟨b!"uid", b!"ann"⟩], [⟨b!"dc", b!"lg"⟩]] ∧
    render toyBase <:+ render (foldDN asciiCase [[⟨b!"uid", b!"ann"⟩], [⟨b!"dc", b!"lg"⟩]]) ∧
    ((dirAfter asciiCase (validatePw asciiCase toyCrypto) toyBase toyOps).get [[⟨b!"uid", b!"ann"⟩], [⟨b!"dc", b!"lg"⟩]]).all
      (fun e => e.attrs.all fun a => a.name.all (· < 128)) = true ∧
    (toyReq b!"uid=ann,dc=lg" (wPwModify ([48, 5, 130, 3] ++ b!"new"))).resps = [.extended 7 0 pwmodOID none] ∧
    (toyReq b!"uid=ann,dc=lg" (wPwModify ([48, 10, 129, 3] ++ b!"bad" ++ [130, 3] ++ b!"new"))).resps ≠ [.extended 7 0 pwmodOID none] := by
  decide +kernel

/-! ### An attribute name that folds to `userpassword` without being equal to it -/

/-- A case folding that, like Unicode's, turns one letter ("ß", here the byte 223 it has in Latin-1) into two, which `EqualFold` does not. -/
def sharpCase : CaseEnv := { asciiCase with fold := fun s => s.flatMap fun c => if c = 223 then b!"ss" else [lowerByte c] }

theorem sharpCase_lawful : sharpCase.Lawful := { asciiCase_lawful with
  fold_nil := rfl
  fold_split := by
    intro s c t hc
    have : c ≠ 223 := by rintro rfl; exact absurd hc (by decide)
    simp [sharpCase, this]
  fold_space := by
    intro s h
    rcases s.eq_nil_or_concat with rfl | ⟨t, c, rfl⟩
    · simp [sharpCase] at h
    · rw [List.concat_eq_append] at h ⊢
      have key : ∀ c : UInt8, (if c = 223 then b!"ss" else [lowerByte c]) ≠ [] ∧
          ((if c = 223 then b!"ss" else [lowerByte c]).getLast? = some 32 → c = 32) := by decide +kernel
      simp only [sharpCase, List.flatMap_append, List.flatMap_cons, List.flatMap_nil, List.append_nil] at h
      rw [List.getLast?_append] at h
      cases hx : (if c = 223 then b!"ss" else [lowerByte c]).getLast? with
      | none => exact absurd (List.getLast?_eq_none_iff.1 hx) (key c).1
      | some y =>
        rw [hx, Option.some_or] at h
        simp [(key c).2 (hx.trans h)]
  fold_idem := by
    intro s
    have key : ∀ c : UInt8, (if c = 223 then b!"ss" else [lowerByte c]).flatMap (fun c => if c = 223 then b!"ss" else [lowerByte c]) =
      (if c = 223 then b!"ss" else [lowerByte c]) := by decide +kernel
    simp only [sharpCase, List.flatMap_assoc]
    congr 1
    funext c
    exact key c }

/-- Ann's entry, with an attribute `userPa<ß>word` and without `userPassword`. -/
def sharpOps : List Op :=
  [.add ⟨b!"dc=lg", [⟨b!"dc", [b!"lg"]⟩]⟩,
   .add ⟨b!"uid=ann,dc=lg", [⟨b!"uid", [b!"ann"]⟩, ⟨b!"userPa" ++ [223] ++ b!"word", [b!"x"]⟩]⟩]

/-- C26 fails without the hypothesis on attribute names: the administrator sets Ann's password, with success, but the bind is refused:
the new value went into the attribute that merely folds to the same name. -/
theorem C26_ligature_fails :
    let V : Env := { toyEnv with C := sharpCase }
    let srv := boltSrv V gobInstance toyCfg 8 false
    let out := handlePacket V srv toyOracle (wMsg 7 (wPwModify ([48, 20, 128, 13] ++ b!"uid=ann,dc=lg" ++ [130, 3] ++ b!"new"))) toyCfg.admin
      (after sharpCase gobInstance (validatePw sharpCase toyCrypto) toyBase sharpOps)
    out.resps = [.extended 7 0 pwmodOID none] ∧
    (handlePacket V srv toyOracle (wMsg 8 (wBind b!"uid=ann,dc=lg" b!"new")) [] out.st).resps = [.result 8 1 1] := by
  decide +kernel

/-- C26 fails for a user not below the base: the base entry is renamed, the administrator sets the password of the renamed entry, with success, but
the bind is refused. -/
theorem C26_renamed_base_fails :
    let srv := boltSrv toyEnv gobInstance toyCfg 8 false
    let ops := [.add ⟨b!"dc=lg", [⟨b!"dc", [b!"lg"]⟩]⟩, .rename ⟨b!"dc=lg", b!"dc=lh", true⟩]
    let out := handlePacket toyEnv srv toyOracle (wMsg 7 (wPwModify ([48, 12, 128, 5] ++ b!"dc=lh" ++ [130, 3] ++ b!"new"))) toyCfg.admin
      (after asciiCase gobInstance (validatePw asciiCase toyCrypto) toyBase ops)
    HistOk asciiCase ops ∧ out.resps = [.extended 7 0 pwmodOID none] ∧
    (handlePacket toyEnv srv toyOracle (wMsg 8 (wBind b!"dc=lh" b!"new")) [] out.st).resps = [.result 8 1 49] := by
  decide +kernel

/-- A directory with the entry `uid=Stra<ß>e,dc=lg`. -/
def streetOps : List Op :=
  [.add ⟨b!"dc=lg", [⟨b!"dc", [b!"lg"]⟩]⟩, .add ⟨b!"uid=Stra" ++ [223] ++ b!"e,dc=lg", [⟨b!"uid", [b!"Stra" ++ [223] ++ b!"e"]⟩]⟩]

/-- C33 fails for names on which the store and the front end do not agree: the directory has an entry under the name `uid=strasse,dc=lg`;
a search of its subtree finds it, but one of the entry itself is answered by success without entries. -/
theorem C33_case_fails :
    let V : Env := { toyEnv with C := sharpCase }
    let srv := boltSrv V gobInstance toyCfg 8 false
    let db := after sharpCase gobInstance (validatePw sharpCase toyCrypto) toyBase streetOps
    (dirAfter sharpCase (validatePw sharpCase toyCrypto) toyBase streetOps).has (foldDN sharpCase [[⟨b!"uid", b!"strasse"⟩], [⟨b!"dc", b!"lg"⟩]]) = true ∧
    (handlePacket V srv toyOracle (wMsg 7 (wSearch b!"uid=strasse,dc=lg" 0 0 (ctxStr 7 b!"uid") [b!"uid"])) [] db).resps = [.searchDone 7 0 (some [])] ∧
    (handlePacket V srv toyOracle (wMsg 8 (wSearch b!"uid=strasse,dc=lg" 2 0 (ctxStr 7 b!"uid") [b!"1.1"])) [] db).resps =
      [.entry 8 ⟨b!"uid=Stra" ++ [223] ++ b!"e,dc=lg", []⟩, .searchDone 8 0 (some [])] := by
  decide +kernel

end
end Idm
