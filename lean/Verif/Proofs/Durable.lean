import Verif.Spec.Durable
import Verif.Proofs.Codes
import Verif.Props.WellFormed
import Verif.Props.BoltAccess
import Verif.Props.Parallel
/-!
# A request for a change that is answered with success was carried out
-/
namespace Idm

section
variable {V : Env} {G : GobEnv} {cfg : BoltCfg} {n : Nat} {stats : Bool}

/-- The write request was carried out. -/
def WriteDone (V : Env) (G : GobEnv) (cfg : BoltCfg) (bound : Str) (req : Packet) (db db' : Db) : Prop :=
  ∃ w, IsWrite req w ∧ NamesParse V.C w ∧ Permitted V.C cfg.admin bound w.op ∧ storeStep V G cfg db w.op = (.ok (), db')

theorem codeOf_storeCode {r : Res Unit} (h : codeOf (storeCode r) = .ok 0) : r = .ok () := by
  unfold storeCode at h
  split at h <;> simp [codeOf, rcEntryAlreadyExists, rcUnwillingToPerform] at h ⊢

theorem codeOf_storeCodeLdap {r : Res Unit} (hr : ErrCode r) (h : codeOf (storeCodeLdap r) = .ok 0) : r = .ok () := by
  unfold storeCodeLdap at h
  split at h <;> simp [codeOf, rcEntryAlreadyExists, rcUnwillingToPerform] at h ⊢
  exact absurd h (hr _ _ rfl).2

theorem handleAdd_done (bound : Str) (req : Packet) (ht : req.tag = 8) (db : Db)
    (h : (handleAdd V (boltSrv V G cfg n stats) bound req db).1 = .ok 0) :
    WriteDone V G cfg bound req db (handleAdd V (boltSrv V G cfg n stats) bound req db).2 := by
  have hp := two_exact (R := IsAttribute) V.C req parseAttributeList AddReq.mk
      (fun l => seq_exact l ⟨(attrs_exact l.kids).1, (attrs_exact l.kids).2.imp (fun h => h) Or.inl⟩) (parseAddRequest V.C req) rfl
  unfold handleAdd at h ⊢
  by_cases hb : bound = []
  · rw [if_pos hb] at h; simp [rcInsufficientAccessRights] at h
  rw [if_neg hb] at h ⊢
  rcases hp with ⟨dn, as, d, l, h1, h2, h3, h4, h5⟩ | ⟨-, h2⟩
  · rw [h5] at h ⊢
    simp only [boltSrv, callFn, pick_single, boltAdd] at h ⊢
    by_cases hw : writeAllowed cfg bound = true
    · simp only [hw, Bool.not_true, Bool.false_eq_true, if_false] at h ⊢
      obtain ⟨k1, k2⟩ := writeAllowed_iff.1 hw
      refine ⟨.add dn as, ⟨ht, d, l, h1, h2, h4⟩, by simpa [NamesParse, Write.names] using h3, ⟨hb, Or.inl k2.symm⟩, ?_⟩
      have := codeOf_storeCode h
      exact Prod.ext this rfl
    · simp only [hw] at h
      simp [codeOf, rcInsufficientAccessRights] at h
  · rcases h2 with e | e | e <;> rw [e] at h <;> simp [parseFailed, ldapErr, rcProtocolError, rcDecodingError] at h

theorem handleModify_done (bound : Str) (req : Packet) (ht : req.tag = 6) (db : Db)
    (h : (handleModify V (boltSrv V G cfg n stats) bound req db).1 = .ok 0) :
    WriteDone V G cfg bound req db (handleModify V (boltSrv V G cfg n stats) bound req db).2 := by
  have hp := two_exact (R := IsChange) V.C req parseModList ModifyReq.mk (fun l => seq_exact l (mods_exact l.kids)) (parseModifyRequest V.C req) rfl
  unfold handleModify at h ⊢
  by_cases hb : bound = []
  · rw [if_pos hb] at h; simp [rcInsufficientAccessRights] at h
  rw [if_neg hb] at h ⊢
  rcases hp with ⟨dn, as, d, l, h1, h2, h3, h4, h5⟩ | ⟨-, h2⟩
  · rw [h5] at h ⊢
    simp only [boltSrv, callFn, pick_single, boltModify] at h ⊢
    by_cases hw : writeAllowed cfg bound = true
    · simp only [hw, Bool.not_true, Bool.false_eq_true, if_false] at h ⊢
      obtain ⟨k1, k2⟩ := writeAllowed_iff.1 hw
      refine ⟨.modify dn as, ⟨ht, d, l, h1, h2, h4⟩, by simpa [NamesParse, Write.names] using h3, ⟨hb, Or.inl k2.symm⟩, ?_⟩
      have := codeOf_storeCodeLdap (entryModify_codes V.C G db dn as) h
      exact Prod.ext this rfl
    · simp only [hw] at h
      simp [codeOf, rcInsufficientAccessRights] at h
  · rcases h2 with e | e | e <;> rw [e] at h <;> simp [parseFailed, ldapErr, rcProtocolError, rcDecodingError] at h

theorem handleModifyDN_done (bound : Str) (req : Packet) (ht : req.tag = 12) (db : Db)
    (h : (handleModifyDN V (boltSrv V G cfg n stats) bound req db).1 = .ok 0) :
    WriteDone V G cfg bound req db (handleModifyDN V (boltSrv V G cfg n stats) bound req db).2 := by
  unfold handleModifyDN at h ⊢
  by_cases hb : bound = []
  · rw [if_pos hb] at h; simp [rcInsufficientAccessRights] at h
  rw [if_neg hb] at h ⊢
  rcases rename_exact V.C req with ⟨dn, rdn, del, d, n', b, h1, h2, h3, h4, h5, h6, h7⟩ | ⟨-, h2⟩
  · rw [h7] at h ⊢
    simp only [boltSrv, callFn, pick_single, boltModifyDN] at h ⊢
    by_cases hw : writeAllowed cfg bound = true
    · simp only [hw, Bool.not_true, Bool.false_eq_true, if_false] at h ⊢
      obtain ⟨k1, k2⟩ := writeAllowed_iff.1 hw
      refine ⟨.rename dn rdn del, ⟨ht, d, n', b, h1, h2, h3, h4⟩, by simpa [NamesParse, Write.names] using ⟨h5, h6⟩, ⟨hb, Or.inl k2.symm⟩, ?_⟩
      have := codeOf_storeCodeLdap (entryModifyDN_codes V.C G db ⟨dn, rdn, del⟩) h
      exact Prod.ext this rfl
    · simp only [hw] at h
      simp [codeOf, rcInsufficientAccessRights] at h
  · rcases h2 with e | e <;> rw [e] at h <;> simp [parseFailed, ldapErr] at h

theorem handleDelete_done (bound : Str) (req : Packet) (ht : req.tag = 10) (db : Db)
    (h : (handleDelete V (boltSrv V G cfg n stats) bound req db).1 = .ok 0) :
    WriteDone V G cfg bound req db (handleDelete V (boltSrv V G cfg n stats) bound req db).2 := by
  unfold handleDelete at h ⊢
  by_cases hb : bound = []
  · rw [if_pos hb] at h; simp [rcInsufficientAccessRights] at h
  rw [if_neg hb] at h ⊢
  by_cases hk : req.kids = []
  · cases hd : parseDN V.C req.data with
    | none =>
      have e : parseDeleteRequest V.C req = ldapErr rcProtocolError := by simp [parseDeleteRequest, hk, hd]
      rw [e] at h
      simp [parseFailed, ldapErr, rcProtocolError] at h
    | some nm =>
      have e : parseDeleteRequest V.C req = .ok req.data := by simp [parseDeleteRequest, hk, hd]
      rw [e] at h ⊢
      simp only [boltSrv, callFn, pick_single, boltDelete] at h ⊢
      by_cases hw : writeAllowed cfg bound = true
      · simp only [hw, Bool.not_true, Bool.false_eq_true, if_false] at h ⊢
        obtain ⟨k1, k2⟩ := writeAllowed_iff.1 hw
        refine ⟨.delete req.data, ⟨ht, hk, rfl⟩, by simp [NamesParse, Write.names, hd], ⟨hb, Or.inl k2.symm⟩, ?_⟩
        have := codeOf_storeCode h
        exact Prod.ext this rfl
      · simp only [hw] at h
        simp [codeOf, rcInsufficientAccessRights] at h
  · have e : parseDeleteRequest V.C req = ldapErr rcProtocolError := by simp [parseDeleteRequest, hk]
    rw [e] at h
    simp [parseFailed, ldapErr, rcProtocolError] at h

/-- The password change was carried out. -/
def PasswordDone (V : Env) (G : GobEnv) (cfg : BoltCfg) (bound : Str) (req : Packet) (db db' : Db) : Prop :=
  ∃ value user old new pw salt hash, IsPwExop req value ∧ PwAsks V value user old new ∧ (new ≠ [] → pw = new) ∧
    hashPw V.K salt pw b!"{ARGON2}" = .ok hash ∧
    Permitted V.C cfg.admin bound (.password ⟨if user = [] then bound else user, old, hash⟩) ∧
    storeStep V G cfg db (.password ⟨if user = [] then bound else user, old, hash⟩) = (.ok (), db')

theorem handleExtended_done (o : Oracle) (bound : Str) (req : Packet) (db : Db) {oid : Str} {gen : Option Str}
    (h : (handleExtended V (boltSrv V G cfg n stats) o bound req db).1 = .ok (.done 0 oid gen)) :
    PasswordDone V G cfg bound req db (handleExtended V (boltSrv V G cfg n stats) o bound req db).2 := by
  unfold handleExtended at h ⊢
  rcases exop_exact req with ⟨body, oid', h1, h2, h3, h4⟩ | ⟨h1, e, h2⟩
  · rw [h1] at h ⊢
    dsimp only at h ⊢
    by_cases ho : oid' = pwmodOID
    · rw [if_pos ho] at h ⊢
      rcases pwModify_exact V body with ⟨user, old, new, k1, k2⟩ | ⟨k1, k2⟩
      · rcases handlePwModify_cases (V := V) (G := G) (cfg := cfg) (n := n) (stats := stats) o bound body _ db k2 with
          ⟨pw, hash, db', g1, g2, g3, g4, g5, g6⟩ | ⟨db', g | g | ⟨e, g, he⟩⟩
        · rw [g4]
          refine ⟨_, user, old, new, pw, o.salt, hash, h2 ho, k1, ?_, g2, ⟨g5, ?_⟩, g3⟩
          · intro hne
            rw [if_neg hne] at g1
            exact (Res.ok.inj g1).symm
          · exact g6.imp id fun h => ⟨_, rfl, h⟩
        · rw [g] at h; cases h
        · rw [g] at h; cases h
        · rw [g] at h
          rcases e with ⟨code, b⟩ | _ | _ | _ | _
          · cases b
            · cases h
            · simp only [Res.ok.injEq, ExtAnswer.done.injEq] at h
              rw [h.1] at he
              exact absurd rfl (he true)
          all_goals simp [rcOther] at h
      · unfold handlePwModify at h
        by_cases hb : bound = []
        · rw [if_pos hb] at h
          simp [ldapErr, rcUnwillingToPerform] at h
        · rw [if_neg hb, k2] at h
          simp [ldapErr] at h
    · rw [if_neg ho] at h; cases h
  · rw [h2] at h; cases h

theorem reply_done {id : Int} {tag : Nat} {bound : Str} {x : Res Nat × Db} (h : Succeeded (reply id tag bound x).resps) :
    x.1 = .ok 0 ∧ (reply id tag bound x).st = x.2 := by
  rcases reply_cases id tag bound x with ⟨code, e, k⟩ | ⟨e, -⟩ | ⟨e, -⟩ <;> rw [e] at h ⊢
  · obtain ⟨r, h1, h2⟩ := h
    simp only [List.cons.injEq, and_true] at h1
    subst h1
    simp only [Resp.code?, Option.some.injEq] at h2
    subst h2
    refine ⟨?_, rfl⟩
    rcases k with k | ⟨_, -, k⟩
    · exact k
    · simp [rcOperationsError] at k
  · simp [Succeeded] at h
  · simp [Succeeded] at h

/-- A request for a change answered with success was carried out as asked for. -/
theorem packet_done (o : Oracle) (p : Packet) (bound : Str) (db : Db) (ha : AsksForChange p)
    (h : Succeeded (handlePacket V (boltSrv V G cfg n stats) o p bound db).resps) :
    ∃ op, AsksFor V bound p op ∧ Permitted V.C cfg.admin bound op ∧
      storeStep V G cfg db op = (.ok (), (handlePacket V (boltSrv V G cfg n stats) o p bound db).st) := by
  have hc := handlePacket_cases V (boltSrv V G cfg n stats) o p bound db
  generalize handlePacket V (boltSrv V G cfg n stats) o p bound db = out at hc h
  obtain ⟨id', req', hm', ht'⟩ := ha
  have wr : ∀ {id req tag} {x : Res Nat × Db}, Message p id req → (x.1 = .ok 0 → WriteDone V G cfg bound req db x.2) →
      Succeeded (reply id tag bound x).resps → ∃ op, AsksFor V bound p op ∧ Permitted V.C cfg.admin bound op ∧
      storeStep V G cfg db op = (.ok (), (reply id tag bound x).st) := by
    intro id req tag x hm hx hs
    obtain ⟨h1, h2⟩ := reply_done hs
    obtain ⟨w, k1, k2, k3, k4⟩ := hx h1
    exact ⟨w.op, ⟨id, req, hm, .inl ⟨w, k1, k2, rfl⟩⟩, k3, by rw [h2]; exact k4⟩
  cases hc with
  | closed => simp [Succeeded] at h
  | crash => simp [Succeeded] at h
  | hang => simp [Succeeded] at h
  | addHang => simp [Succeeded] at h
  | compare => simp [Succeeded, Resp.code?, rcOperationsError] at h
  | add id req hm ht hs => exact wr hm (handleAdd_done bound req ht db) h
  | delete id req hm ht => exact wr hm (handleDelete_done bound req ht db) h
  | modify id req hm ht => exact wr hm (handleModify_done bound req ht db) h
  | modifyDN id req hm ht => exact wr hm (handleModifyDN_done bound req ht db) h
  | bind id req hm ht => rw [← (message_unique hm hm').2] at ht'; omega
  | search id req controls hm ht => rw [← (message_unique hm hm').2] at ht'; omega
  | extended id req hm ht =>
    rcases stepExtended_cases V (boltSrv V G cfg n stats) o id bound req db with ⟨e, k⟩ | ⟨code, oid, gen, e, k⟩ | ⟨e, k⟩ | ⟨e, k⟩ <;> rw [e] at h ⊢
    · simp [Succeeded, Resp.code?, rcOperationsError] at h
    · simp only [Succeeded, List.cons.injEq, and_true] at h
      obtain ⟨r, h1, h2⟩ := h
      subst h1
      simp only [Resp.code?, Option.some.injEq] at h2
      subst h2
      obtain ⟨value, user, old, new, pw, salt, hash, k1, k2, k3, k4, k5, k6⟩ := handleExtended_done o bound req db k
      exact ⟨_, ⟨id, req, hm, .inr ⟨ht, value, user, old, new, pw, salt, hash, k1, k2, k3, k4, rfl⟩⟩, k5, k6⟩
    · simp [Succeeded] at h
    · simp [Succeeded] at h

/-! ## One packet after the other -/

variable {ι : Type}

/-- The changes that packets make, treated one after the other. -/
def SerialLog (V : Env) (G : GobEnv) (cfg : BoltCfg) (n : Nat) (stats : Bool) (db : Db) (order : List (ι × Ev)) (log : List (ι × Op)) : Prop :=
  boltRun V.C G (validatePw V.C V.K) cfg.store db (log.map (·.2)) =
      (log.map fun _ => .ok (), (serialRun V (boltSrv V G cfg n stats) db order).1.st) ∧
    (log.map (·.1)).Sublist (order.map (·.1)) ∧
    (∀ x ∈ log, ∃ (i : Nat) (c : Nat) (p : Packet) (o : Oracle) (b : Str), order[i]? = some (x.1, .packet c p o) ∧
      (serialRun V (boltSrv V G cfg n stats) db (order.take i)).1.conn c = some b ∧ Permitted V.C cfg.admin b x.2 ∧ AsksFor V b p x.2) ∧
    (∀ (i : Nat) id c p o rs, order[i]? = some (id, .packet c p o) →
      (serialRun V (boltSrv V G cfg n stats) db order).2[i]? = some (.packet c p o, rs) → AsksForChange p →
      (Succeeded rs ↔ id ∈ log.map (·.1))) ∧
    ∃ made : Nat → Nat, (∀ i j, i ≤ j → made i ≤ made j) ∧ ∀ i, made i ≤ log.length ∧
      (boltRun V.C G (validatePw V.C V.K) cfg.store db ((log.take (made i)).map (·.2))).2 =
        (serialRun V (boltSrv V G cfg n stats) db (order.take i)).1.st ∧
      ((log.take (made i)).map (·.1)).Sublist ((order.take i).map (·.1)) ∧
      ((log.drop (made i)).map (·.1)).Sublist ((order.drop i).map (·.1))

theorem serial_log (db : Db) (order : List (ι × Ev)) : (order.map (·.1)).Nodup → ∃ log, SerialLog V G cfg n stats db order log := by
  induction order using snoc_induction with
  | nil => intro _; exact ⟨[], rfl, .slnil, by simp, by simp, fun _ => 0, by simp, by simp [boltRun]; rfl⟩
  | snoc order x ih =>
    obtain ⟨id, e⟩ := x
    intro hnd
    rw [List.map_append, List.nodup_append] at hnd
    obtain ⟨hnd, -, hnew⟩ := hnd
    have hnew : id ∉ order.map (·.1) := fun h => hnew id h id (by simp) rfl
    obtain ⟨log, h1, h2, h3, h4, made, h5, h6⟩ := ih hnd
    have hnl : id ∉ log.map (·.1) := fun h => hnew (h2.subset h)
    have hlen : (serialRun V (boltSrv V G cfg n stats) db order).2.length = order.length := by rw [run_log_length]; simp
    have asked : ∀ x ∈ log, ∃ (i : Nat) (c : Nat) (p : Packet) (o : Oracle) (b : Str), (order ++ [(id, e)])[i]? = some (x.1, .packet c p o) ∧
        (serialRun V (boltSrv V G cfg n stats) db ((order ++ [(id, e)]).take i)).1.conn c = some b ∧ Permitted V.C cfg.admin b x.2 ∧ AsksFor V b p x.2 := by
      intro x hx
      obtain ⟨i, c, p, o, b, k1, k2, k3⟩ := h3 x hx
      have hi : i < order.length := (List.getElem?_eq_some_iff.1 k1).1
      exact ⟨i, c, p, o, b, getElem?_snoc k1, by rw [List.take_append_of_le_length (by omega)]; exact k2, k3⟩
    -- what the answers say, given what the last one says
    have ans : ∀ log' : List (ι × Op), (∀ i, i ≠ id → (i ∈ log'.map (·.1) ↔ i ∈ log.map (·.1))) →
        (∀ c p o, e = .packet c p o → AsksForChange p → (Succeeded ((serialRun V (boltSrv V G cfg n stats) db order).1.step V
          (boltSrv V G cfg n stats) e).2 ↔ id ∈ log'.map (·.1))) →
        ∀ (i : Nat) id' c p o rs, (order ++ [(id, e)])[i]? = some (id', .packet c p o) →
          (serialRun V (boltSrv V G cfg n stats) db (order ++ [(id, e)])).2[i]? = some (.packet c p o, rs) → AsksForChange p →
          (Succeeded rs ↔ id' ∈ log'.map (·.1)) := by
      intro log' hl hlast i id' c p o rs k1 k2 ha
      rw [serialRun_snoc] at k2
      by_cases hi : i < order.length
      · rw [List.getElem?_append_left hi] at k1
        rw [List.getElem?_append_left (by omega)] at k2
        rw [hl id' (fun h => hnew (h ▸ List.mem_map.2 ⟨_, List.mem_of_getElem? k1, rfl⟩))]
        exact h4 i id' c p o rs k1 k2 ha
      · have hi' : i = order.length := by
          obtain ⟨h, -⟩ := List.getElem?_eq_some_iff.1 k1
          simp at h
          omega
        subst hi'
        simp only [List.getElem?_concat_length, Option.some.injEq, Prod.mk.injEq] at k1
        rw [← hlen] at k2
        simp only [List.getElem?_concat_length, Option.some.injEq, Prod.mk.injEq] at k2
        rw [← k2.2, ← k1.1]
        exact hlast c p o k1.2 ha
    -- how many changes were made when
    have upTo : ∀ more : List (ι × Op), (more.map (·.1)).Sublist [id] →
        (boltRun V.C G (validatePw V.C V.K) cfg.store db ((log ++ more).map (·.2))).2 =
          (serialRun V (boltSrv V G cfg n stats) db (order ++ [(id, e)])).1.st →
        ∃ made : Nat → Nat, (∀ i j, i ≤ j → made i ≤ made j) ∧ ∀ i, made i ≤ (log ++ more).length ∧
          (boltRun V.C G (validatePw V.C V.K) cfg.store db (((log ++ more).take (made i)).map (·.2))).2 =
            (serialRun V (boltSrv V G cfg n stats) db ((order ++ [(id, e)]).take i)).1.st ∧
          (((log ++ more).take (made i)).map (·.1)).Sublist (((order ++ [(id, e)]).take i).map (·.1)) ∧
          (((log ++ more).drop (made i)).map (·.1)).Sublist (((order ++ [(id, e)]).drop i).map (·.1)) := by
      intro more hm hst
      refine ⟨fun i => if i ≤ order.length then made i else (log ++ more).length, fun i j hij => ?_, fun i => ?_⟩
      · have h7 := h5 i j hij
        have h8 := (h6 i).1
        dsimp only
        split <;> split <;> simp <;> omega
      · by_cases hi : i ≤ order.length
        · obtain ⟨g1, g2, g3, g4⟩ := h6 i
          simp only [if_pos hi]
          refine ⟨by simp; omega, ?_, ?_, ?_⟩
          · rw [List.take_append_of_le_length g1, List.take_append_of_le_length hi]; exact g2
          · rw [List.take_append_of_le_length g1, List.take_append_of_le_length hi]; exact g3
          · rw [List.drop_append_of_le_length g1, List.drop_append_of_le_length hi, List.map_append, List.map_append]
            exact g4.append hm
        · simp only [if_neg hi]
          have e1 : (order ++ [(id, e)]).take i = order ++ [(id, e)] := List.take_of_length_le (by simp; omega)
          have e2 : (order ++ [(id, e)]).drop i = [] := List.drop_of_length_le (by simp; omega)
          rw [e1, e2, List.take_length, List.drop_length]
          refine ⟨Nat.le_refl _, hst, ?_, .slnil⟩
          rw [List.map_append, List.map_append]
          exact h2.append hm
    -- nothing happens
    have same : (serialRun V (boltSrv V G cfg n stats) db (order ++ [(id, e)])).1.st = (serialRun V (boltSrv V G cfg n stats) db order).1.st →
        (∀ c p o, e = .packet c p o → AsksForChange p → ¬ Succeeded ((serialRun V (boltSrv V G cfg n stats) db order).1.step V
          (boltSrv V G cfg n stats) e).2) → ∃ log, SerialLog V G cfg n stats db (order ++ [(id, e)]) log := fun hst hno =>
      ⟨log, by rw [hst]; exact h1, by rw [List.map_append]; exact h2.trans (List.sublist_append_left _ _), asked,
        ans log (fun _ _ => Iff.rfl) (fun c p o he ha => ⟨fun h => absurd h (hno c p o he ha), fun h => absurd h hnl⟩),
        by simpa using upTo [] (by simp) (by rw [List.append_nil, h1, hst])⟩
    cases e with
    | eof c =>
      refine same ?_ (fun _ _ _ h => by cases h)
      rw [serialRun_snoc]
      unfold World.step
      dsimp only
      split <;> rfl
    | packet c p o =>
      cases hc : (serialRun V (boltSrv V G cfg n stats) db order).1.conn c with
      | none =>
        have hs : (serialRun V (boltSrv V G cfg n stats) db order).1.step V (boltSrv V G cfg n stats) (.packet c p o) =
            ((serialRun V (boltSrv V G cfg n stats) db order).1, []) := by
          unfold World.step
          dsimp only
          rw [hc]
        refine same ?_ (fun _ _ _ _ _ h => ?_)
        · rw [serialRun_snoc, hs]
        · rw [hs] at h
          simp [Succeeded] at h
      | some b =>
        have hs : ((serialRun V (boltSrv V G cfg n stats) db order).1.step V (boltSrv V G cfg n stats) (.packet c p o)).2 =
            (handlePacket V (boltSrv V G cfg n stats) o p b (serialRun V (boltSrv V G cfg n stats) db order).1.st).resps := by
          unfold World.step
          dsimp only
          rw [hc]
        have hst : ((serialRun V (boltSrv V G cfg n stats) db order).1.step V (boltSrv V G cfg n stats) (.packet c p o)).1.st =
            (handlePacket V (boltSrv V G cfg n stats) o p b (serialRun V (boltSrv V G cfg n stats) db order).1.st).st := by
          unfold World.step
          dsimp only
          rw [hc]
          dsimp only
          split <;> rfl
        by_cases hdo : AsksForChange p ∧
            Succeeded (handlePacket V (boltSrv V G cfg n stats) o p b (serialRun V (boltSrv V G cfg n stats) db order).1.st).resps
        · obtain ⟨op, k1, k2, k3⟩ := packet_done o p b _ hdo.1 hdo.2
          have hrun : boltRun V.C G (validatePw V.C V.K) cfg.store db ((log ++ [(id, op)]).map (·.2)) =
              ((log ++ [(id, op)]).map fun _ => .ok (), (serialRun V (boltSrv V G cfg n stats) db (order ++ [(id, .packet c p o)])).1.st) := by
            rw [List.map_append, boltRun_append, h1, serialRun_snoc]
            simp only [List.map_cons, List.map_nil, boltRun, List.map_append]
            have k3 : boltStep V.C G (validatePw V.C V.K) cfg.store _ op = _ := k3
            rw [k3, hst]
          refine ⟨log ++ [(id, op)], hrun, ?_, ?_, ans _ ?_ ?_, upTo _ (List.Sublist.refl _) (by rw [hrun])⟩
          · rw [List.map_append, List.map_append]
            exact h2.append (List.Sublist.refl _)
          · intro x hx
            rcases List.mem_append.1 hx with hx | hx
            · exact asked x hx
            · simp only [List.mem_singleton] at hx
              subst hx
              exact ⟨order.length, c, p, o, b, by simp, by simp [hc], k2, k1⟩
          · intro i hi
            simp [hi]
          · intro c' p' o' he _
            rw [hs]
            simp [hdo.2]
        · refine same ?_ ?_
          · rw [serialRun_snoc, hst]
            exact Classical.byContradiction fun hne => hdo (C34_only_successful_writes_change o p b _ hne)
          · intro c' p' o' he ha
            cases he
            rw [hs]
            exact fun h => hdo ⟨ha, h⟩

/-! ## Who sent a packet -/

theorem seen_grows {s s' : Par ι} (hs : ParStep V G cfg n stats s s') : (∃ more, s'.trace = s.trace ++ more) ∧
    ∀ c j, (s'.conns c).job = some j → (s.conns c).job = some j ∨
      (s.conns c = .ready j.b ∧ s'.trace = s.trace ++ [.arrive j.id (.packet c j.p j.o)]) := by
  have keep : ∀ {x : Stage ι} {d : Nat}, (∀ j, x.job = some j → (s.conns d).job = some j) → ∀ c j, (setStage s.conns d x c).job = some j →
      (s.conns c).job = some j := by
    intro x d hx c j h
    by_cases hu : c = d
    · subst hu; rw [setStage_self] at h; exact hx j h
    · rw [setStage_ne _ hu] at h; exact h
  cases hs with
  | arrive d b id o p hd hc hnew =>
    refine ⟨⟨_, rfl⟩, fun c j h => ?_⟩
    by_cases hu : c = d
    · subst hu
      simp only [setStage_self, Stage.job, Option.some.injEq] at h
      subst h
      exact .inr ⟨hc, rfl⟩
    · simp only [setStage_ne _ hu] at h
      exact .inl h
  | eof d b id hd hc hnew => exact ⟨⟨_, rfl⟩, fun c j h => .inl (keep (x := .over) (fun _ h => by cases h) c j h)⟩
  | direct d j r hd hc hw => exact ⟨⟨[], by simp⟩, fun c j h => .inl (keep (fun _ h => by rw [hc]; exact h) c j h)⟩
  | beginRead d j p hd hc hw => exact ⟨⟨[], by simp⟩, fun c j h => .inl (keep (fun _ h => by rw [hc]; exact h) c j h)⟩
  | beginWrite d j p hd hc hw hl => exact ⟨⟨[], by simp⟩, fun c j h => .inl (keep (fun _ h => by rw [hc]; exact h) c j h)⟩
  | stepRead d j p db q hd hc hi => exact ⟨⟨[], by simp⟩, fun c j h => .inl (keep (fun _ h => by rw [hc]; exact h) c j h)⟩
  | stepWrite d j p db q hd hc hi => exact ⟨⟨[], by simp⟩, fun c j h => .inl (keep (fun _ h => by rw [hc]; exact h) c j h)⟩
  | endRead d j p db r hd hc ho => exact ⟨⟨[], by simp⟩, fun c j h => .inl (keep (fun _ h => by rw [hc]; exact h) c j h)⟩
  | commit d j a db hd hc => exact ⟨⟨[], by simp⟩, fun c j h => .inl (keep (fun _ h => by rw [hc]; exact h) c j h)⟩
  | rollback d j p db r hd hc ho hr => exact ⟨⟨[], by simp⟩, fun c j h => .inl (keep (fun _ h => by rw [hc]; exact h) c j h)⟩
  | lost d j r k hd hc hk => exact ⟨⟨_, rfl⟩, fun c j h => .inl (keep (x := .over) (fun _ h => by cases h) c j h)⟩
  | block d j r hd hc hn => exact ⟨⟨_, rfl⟩, fun c j h => .inl (keep (x := .over) (fun _ h => by cases h) c j h)⟩
  | crash d j r hd hc hn => exact ⟨⟨_, rfl⟩, fun c j h => .inl h⟩
  | goOn d j r b' hd hc hn => exact ⟨⟨_, rfl⟩, fun c j h => .inl (keep (x := .ready b') (fun _ h => by cases h) c j h)⟩
  | close d j r hd hc hn => exact ⟨⟨_, rfl⟩, fun c j h => .inl (keep (x := .over) (fun _ h => by cases h) c j h)⟩

/-- The packet arrived on a connection on which `b` was the last to bind. -/
def Sender (V : Env) (seen : List (Seen ι)) (id : ι) (c : Nat) (p : Packet) (o : Oracle) (b : Str) : Prop :=
  ∃ t₁ t₂, seen = t₁ ++ .arrive id (.packet c p o) :: t₂ ∧ LastBind V.C c t₁ b

theorem Sender.more {seen more : List (Seen ι)} {id : ι} {c : Nat} {p : Packet} {o : Oracle} {b : Str} (h : Sender V seen id c p o b) :
    Sender V (seen ++ more) id c p o b := by
  obtain ⟨t₁, t₂, rfl, h⟩ := h
  exact ⟨t₁, t₂ ++ more, by simp, h⟩

theorem job_sender {db : Db} {s : Par ι} (h : ParReach V G cfg n stats db s) (c : Nat) (j : Job ι) (hj : (s.conns c).job = some j) :
    Sender V s.trace j.id c j.p j.o j.b := by
  induction h generalizing c j with
  | start => cases hj
  | step s s' hr hs ih =>
    obtain ⟨⟨more, hm⟩, hk⟩ := seen_grows hs
    rcases hk c j hj with h | ⟨h, ht⟩
    · rw [hm]; exact (ih c j h).more
    · exact ⟨s.trace, [], ht, C21_overlapping db s hr c j.b (by rw [h]; rfl)⟩

theorem par_senders {db : Db} {s : Par ι} (h : ParReach V G cfg n stats db s) : ∃ order, ParInv V G cfg n stats db s order ∧
    ∀ (i : Nat) id c p o, order[i]? = some (id, .packet c p o) → ∃ b,
      (serialRun V (boltSrv V G cfg n stats) db (order.take i)).1.conn c = some b ∧ Sender V s.trace id c p o b := by
  induction h with
  | start =>
    obtain ⟨order, I⟩ := par_reach (ParReach.start (V := V) (G := G) (cfg := cfg) (genPwLen := n) (stats := stats) (ι := ι) (db := db))
    refine ⟨order, I, fun i id c p o hi => ?_⟩
    have := I.arrived id _ (List.mem_of_getElem? hi)
    cases this
  | step s s' hr hs ih =>
    obtain ⟨order, I, hw⟩ := ih
    obtain ⟨order', I', hg⟩ := par_step I hs
    obtain ⟨⟨more, hm⟩, -⟩ := seen_grows hs
    refine ⟨order', I', fun i id c p o hi => ?_⟩
    have old : ∀ e, order' = order ++ e → i < order.length → ∃ b,
        (serialRun V (boltSrv V G cfg n stats) db (order'.take i)).1.conn c = some b ∧ Sender V s'.trace id c p o b := by
      intro e he hl
      rw [he, List.getElem?_append_left hl] at hi
      obtain ⟨b, k1, k2⟩ := hw i id c p o hi
      exact ⟨b, by rw [he, List.take_append_of_le_length (by omega)]; exact k1, by rw [hm]; exact k2.more⟩
    rcases hg with rfl | ⟨id', c', he⟩ | ⟨c', j, hj, he, hb⟩
    · exact old [] (by simp) (List.getElem?_eq_some_iff.1 hi).1
    · by_cases hl : i < order.length
      · exact old _ he hl
      · have hl' := (List.getElem?_eq_some_iff.1 hi).1
        rw [he] at hl' hi
        have : i = order.length := by simp at hl'; omega
        subst this
        simp at hi
    · by_cases hl : i < order.length
      · exact old _ he hl
      · have hl' := (List.getElem?_eq_some_iff.1 hi).1
        rw [he] at hl' hi
        have : i = order.length := by simp at hl'; omega
        subst this
        simp only [List.getElem?_concat_length, Option.some.injEq, Prod.mk.injEq, Ev.packet.injEq] at hi
        obtain ⟨rfl, rfl, rfl, rfl⟩ := hi
        refine ⟨j.b, by rw [he]; simpa using hb, ?_⟩
        rw [hm]
        refine (job_sender hr c' j ?_).more
        rcases hj with h | ⟨_, _, h⟩ <;> rw [h] <;> rfl

/-! ## One life -/

theorem not_precedes {order : List (ι × Ev)} (hn : (order.map (·.1)).Nodup) {i j : Nat} (hij : i < j) {a b : ι}
    (ha : (order.map (·.1))[i]? = some a) (hb : (order.map (·.1))[j]? = some b) : ¬ Precedes order b a := by
  rintro ⟨l₁, eb, l₂, ea, l₃, he⟩
  have e1 : (order.map (·.1))[l₁.length]? = some b := by
    rw [List.getElem?_map, he]; simp
  have e2 : (order.map (·.1))[l₁.length + 1 + l₂.length]? = some a := by
    rw [List.getElem?_map, he, List.getElem?_append_right (by omega)]
    have : l₁.length + 1 + l₂.length - l₁.length = l₂.length + 1 := by omega
    rw [this]
    simp
  have f1 := (List.getElem?_inj (List.getElem?_eq_some_iff.1 hb).1 hn).1 (hb.trans e1.symm)
  have f2 := (List.getElem?_inj (List.getElem?_eq_some_iff.1 ha).1 hn).1 (ha.trans e2.symm)
  omega

theorem precedes_lt {order : List (ι × Ev)} (hn : (order.map (·.1)).Nodup) {i j : Nat} {a b : ι} (ha : (order.map (·.1))[i]? = some a)
    (hb : (order.map (·.1))[j]? = some b) (h : Precedes order a b) : i < j := by
  by_cases hij : i < j
  · exact hij
  · by_cases he : i = j
    · subst he
      rw [ha] at hb
      cases hb
      obtain ⟨l₁, ea, l₂, eb, l₃, rfl⟩ := h
      rw [List.map_append, List.nodup_append] at hn
      simp at hn
    · exact absurd h (not_precedes hn (by omega) hb ha)

/-- What the one packet at index `i` is told. -/
theorem serial_at (db : Db) (order : List (ι × Ev)) : ∀ (i : Nat) id e rs, order[i]? = some (id, e) →
    (serialRun V (boltSrv V G cfg n stats) db order).2[i]? = some (e, rs) →
    rs = ((serialRun V (boltSrv V G cfg n stats) db (order.take i)).1.step V (boltSrv V G cfg n stats) e).2 := by
  induction order using snoc_induction with
  | nil => intro i id e rs h; simp at h
  | snoc order x ih =>
    intro i id e rs h1 h2
    have hlen : (serialRun V (boltSrv V G cfg n stats) db order).2.length = order.length := by rw [run_log_length]; simp
    rw [serialRun_snoc] at h2
    by_cases hi : i < order.length
    · rw [List.getElem?_append_left hi] at h1
      rw [List.getElem?_append_left (by omega)] at h2
      rw [List.take_append_of_le_length (by omega)]
      exact ih i id e rs h1 h2
    · have hi' : i = order.length := by
        obtain ⟨h, -⟩ := List.getElem?_eq_some_iff.1 h1
        simp at h
        omega
      subst hi'
      simp only [List.getElem?_concat_length, Option.some.injEq] at h1
      subst h1
      rw [← hlen] at h2
      simp only [List.getElem?_concat_length, Option.some.injEq, Prod.mk.injEq] at h2
      rw [← h2.2]
      simp

/-- In the life the request was answered. -/
def Told (s : Par ι) (id : ι) : Prop := ∃ rs, Seen.answer id rs ∈ s.trace

theorem life_log {db : Db} {s : Par ι} (h : ParReach V G cfg n stats db s) : ∃ log : List (ι × Op), log.length ≤ s.trace.length ∧
    boltRun V.C G (validatePw V.C V.K) cfg.store db (log.map (·.2)) = (log.map fun _ => .ok (), s.disk) ∧
    (∀ x ∈ log, ∃ t₁ c p o t₂ bound, s.trace = t₁ ++ Seen.arrive x.1 (.packet c p o) :: t₂ ∧ LastBind V.C c t₁ bound ∧
      Permitted V.C cfg.admin bound x.2 ∧ AsksFor V bound p x.2) ∧
    (log.map (·.1)).Nodup ∧
    (∀ id c p o rs, Seen.arrive id (.packet c p o) ∈ s.trace → Seen.answer id rs ∈ s.trace → AsksForChange p →
      (Succeeded rs ↔ id ∈ log.map (·.1))) ∧
    ((log.map (·.1)).Pairwise fun a b => ¬ AnsweredBefore s.trace b a) ∧
    ∃ saw : ι → Nat, (∀ id, saw id ≤ log.length) ∧
      (∀ id c p o rs, Seen.arrive id (.packet c p o) ∈ s.trace → Seen.answer id rs ∈ s.trace → ∃ t₁ t₂ bound,
        s.trace = t₁ ++ Seen.arrive id (.packet c p o) :: t₂ ∧ LastBind V.C c t₁ bound ∧
        rs = (handlePacket V (boltSrv V G cfg n stats) o p bound
          (boltRun V.C G (validatePw V.C V.K) cfg.store db ((log.take (saw id)).map (·.2))).2).resps) ∧
      (∀ id, Told s id → ∀ x ∈ log.drop (saw id), ¬ AnsweredBefore s.trace x.1 id) ∧
      (∀ id, Told s id → ∀ x ∈ log.take (saw id), x.1 ≠ id ∧ ¬ AnsweredBefore s.trace id x.1) ∧
      ∀ a b, Told s a → Told s b → AnsweredBefore s.trace a b → saw a ≤ saw b := by
  obtain ⟨order, I, hw⟩ := par_senders h
  obtain ⟨log, h1, h2, h3, h4, made, h5, h6⟩ := serial_log (V := V) (G := G) (cfg := cfg) (n := n) (stats := stats) db order I.once
  have hidx : ∀ id, ∃ i : Nat, id ∈ order.map (·.1) → (order.map (·.1))[i]? = some id := by
    intro id
    by_cases hm : id ∈ order.map (·.1)
    · obtain ⟨i, hi, e⟩ := List.getElem_of_mem hm
      exact ⟨i, fun _ => by rw [List.getElem?_eq_getElem hi, e]⟩
    · exact ⟨0, fun h => absurd h hm⟩
  obtain ⟨idx, hidx⟩ := Classical.axiomOfChoice hidx
  have htold : ∀ id, Told s id → (order.map (·.1))[idx id]? = some id := by
    rintro id ⟨rs, hr⟩
    obtain ⟨i, e, k1, -⟩ := I.answers id rs hr
    exact hidx id (List.mem_map.2 ⟨_, List.mem_of_getElem? k1, rfl⟩)
  have hbefore : ∀ a b, b ∈ order.map (·.1) → AnsweredBefore s.trace a b → Precedes order a b := by
    rintro a b hb ⟨t₁, e, t₂, rs, k1, k2⟩
    exact I.realTime t₁ b e t₂ k1 a rs k2 hb
  refine ⟨log, ?_, by rw [h1, I.disk], fun x hx => ?_, h2.nodup I.once, fun id c p o rs ha hr hp => ?_, ?_, fun id => made (idx id), fun id => (h6 _).1,
    fun id c p o rs ha hr => ?_, fun id ht x hx hb => ?_, fun id ht x hx => ⟨fun he => ?_, fun hb => ?_⟩, fun a b ha hb hab => ?_⟩
  · have := h2.length_le
    have := I.length
    simp at this ‹(log.map _).length ≤ _›
    omega
  · obtain ⟨i, c, p, o, b, k1, k2, k3, k4⟩ := h3 x hx
    obtain ⟨b', g1, t₁, t₂, g2, g3⟩ := hw i x.1 c p o k1
    rw [k2] at g1
    cases g1
    exact ⟨t₁, c, p, o, t₂, b, g2, g3, k3, k4⟩
  · obtain ⟨i, e, k1, k2⟩ := I.answers id rs hr
    have := I.single id _ _ ha (I.arrived id e (List.mem_of_getElem? k1))
    subst this
    exact h4 i id c p o rs k1 k2 hp
  rotate_left
  · obtain ⟨i, e, k1, k2⟩ := I.answers id rs hr
    have := I.single id _ _ ha (I.arrived id e (List.mem_of_getElem? k1))
    subst this
    have hi : idx id = i := by
      have e1 := htold id ⟨rs, hr⟩
      have e2 : (order.map (·.1))[i]? = some id := by rw [List.getElem?_map, k1]; rfl
      exact (List.getElem?_inj (List.getElem?_eq_some_iff.1 e1).1 I.once).1 (e1.trans e2.symm)
    obtain ⟨b, g1, t₁, t₂, g2, g3⟩ := hw i id c p o k1
    refine ⟨t₁, t₂, b, g2, g3, ?_⟩
    rw [(h6 (idx id)).2.1, hi, serial_at db order i id _ rs k1 k2]
    unfold World.step
    dsimp only
    rw [g1]
  · have hm := (h6 (idx id)).2.2.2.subset (List.mem_map.2 ⟨x, hx, rfl⟩)
    obtain ⟨j, hj, e⟩ := List.getElem_of_mem hm
    have e1 : (order.map (·.1))[idx id + j]? = some x.1 := by
      rw [← e, ← List.getElem?_eq_getElem hj, List.map_drop, List.getElem?_drop]
    have := precedes_lt I.once e1 (htold id ht) (hbefore _ _ (List.mem_of_getElem? (htold id ht)) hb)
    omega
  · have hm := (h6 (idx id)).2.2.1.subset (List.mem_map.2 ⟨x, hx, rfl⟩)
    obtain ⟨j, hj, e⟩ := List.getElem_of_mem hm
    have e1 : (order.map (·.1))[j]? = some x.1 := by
      rw [← e, ← List.getElem?_eq_getElem hj, List.map_take, List.getElem?_take_of_lt (by simp at hj; omega)]
    have e2 := htold id ht
    rw [he] at e1
    have := (List.getElem?_inj (List.getElem?_eq_some_iff.1 e1).1 I.once).1 (e1.trans e2.symm)
    simp at hj
    omega
  · have hm := (h6 (idx id)).2.2.1.subset (List.mem_map.2 ⟨x, hx, rfl⟩)
    obtain ⟨j, hj, e⟩ := List.getElem_of_mem hm
    have e1 : (order.map (·.1))[j]? = some x.1 := by
      rw [← e, ← List.getElem?_eq_getElem hj, List.map_take, List.getElem?_take_of_lt (by simp at hj; omega)]
    have := precedes_lt I.once (htold id ht) e1 (hbefore _ _ (List.mem_of_getElem? e1) hb)
    simp at hj
    omega
  · exact h5 _ _ (Nat.le_of_lt (precedes_lt I.once (htold a ha) (htold b hb) (hbefore _ _ (List.mem_of_getElem? (htold b hb)) hab)))
  · refine List.Pairwise.sublist h2 ?_
    refine List.Pairwise.imp_of_mem (R := fun a b => ¬ Precedes order b a) ?_ ?_
    · rintro a b ha hb hn ⟨t₁, e, t₂, rs, k1, k2⟩
      exact hn (I.realTime t₁ a e t₂ k1 b rs k2 ha)
    · rw [List.pairwise_iff_getElem]
      intro i j hi hj hij
      exact not_precedes I.once hij (List.getElem?_eq_getElem hi) (List.getElem?_eq_getElem hj)

theorem arrive_unique {db : Db} {s : Par ι} (h : ParReach V G cfg n stats db s) {id : ι} {e e' : Ev} (h1 : Seen.arrive id e ∈ s.trace)
    (h2 : Seen.arrive id e' ∈ s.trace) : e = e' := by
  obtain ⟨order, I, -⟩ := par_senders h
  exact I.single id _ _ h1 h2

/-- All the lives. -/
theorem lives_log {base : Str} : ∀ (lives : List (Life ι)) (db : Db), Lives V G base db lives →
    ∃ log, ExactlyOnce V G base db lives log ∧ log.length ≤ (lives.map fun l => l.proc.trace.length).sum ∧
      ∃ saw, AnswersFit V G base db lives log saw := by
  intro lives
  induction lives with
  | nil =>
    intro db _
    exact ⟨[], ⟨rfl, by simp, by simp, by simp, by simp⟩, by simp, fun _ _ => 0, ⟨by simp, by simp, by simp, by simp⟩⟩
  | cons l ls ih =>
    rintro db ⟨hb, hr, hls⟩
    obtain ⟨log, h0, h1, h2, h3, h4, h5, saw, f0, f1, f2, f3, f4⟩ := life_log hr
    obtain ⟨log', E, hl, saw', F⟩ := ih _ hls
    subst hb
    refine ⟨log.map (fun x => ⟨0, x.1, x.2⟩) ++ log'.map (fun x => ⟨x.life + 1, x.id, x.op⟩), ⟨?_, ?_, ?_, ?_, ?_⟩, ?_,
      fun k id => match k with
        | 0 => saw id
        | k + 1 => log.length + saw' k id, ⟨?_, ?_, ?_, ?_⟩⟩
    · have e1 : (log.map (fun x : ι × Op => (⟨0, x.1, x.2⟩ : Made ι)) ++ log'.map (fun x : Made ι => (⟨x.life + 1, x.id, x.op⟩ : Made ι))).map Made.op =
          log.map (·.2) ++ log'.map (·.op) := by simp [Function.comp_def]
      rw [e1, boltRun_append, h1]
      dsimp only
      rw [E.file]
      simp [fileAfter, Function.comp_def]
    · intro x hx
      rcases List.mem_append.1 hx with hx | hx
      · obtain ⟨y, hy, rfl⟩ := List.mem_map.1 hx
        obtain ⟨t₁, c, p, o, t₂, b, k1, k2, k3, k4⟩ := h2 y hy
        exact ⟨l, t₁, c, p, o, t₂, b, rfl, k1, k2, k3, k4⟩
      · obtain ⟨y, hy, rfl⟩ := List.mem_map.1 hx
        obtain ⟨l', t₁, c, p, o, t₂, b, k0, k1, k2, k3, k4⟩ := E.asked y hy
        exact ⟨l', t₁, c, p, o, t₂, b, by simpa using k0, k1, k2, k3, k4⟩
    · rw [List.pairwise_append]
      refine ⟨?_, ?_, ?_⟩
      · rw [List.pairwise_map]
        rw [List.Nodup, List.pairwise_map] at h3
        exact h3.imp fun hne hh => hne hh.2
      · rw [List.pairwise_map]
        exact E.once.imp fun hn hh => hn ⟨by simpa using hh.1, hh.2⟩
      · intro a ha b hb hh
        obtain ⟨y, -, rfl⟩ := List.mem_map.1 ha
        obtain ⟨z, -, rfl⟩ := List.mem_map.1 hb
        simp at hh
    · intro k l' id c p o rs hk ha hs hp
      cases k with
      | zero =>
        simp only [List.getElem?_cons_zero, Option.some.injEq] at hk
        subst hk
        rw [h4 id c p o rs ha hs hp]
        constructor
        · intro hm
          obtain ⟨y, hy, rfl⟩ := List.mem_map.1 hm
          exact ⟨_, List.mem_append_left _ (List.mem_map.2 ⟨y, hy, rfl⟩), rfl, rfl⟩
        · rintro ⟨x, hx, e1, rfl⟩
          rcases List.mem_append.1 hx with hx | hx
          · obtain ⟨y, hy, rfl⟩ := List.mem_map.1 hx
            exact List.mem_map.2 ⟨y, hy, rfl⟩
          · obtain ⟨y, hy, rfl⟩ := List.mem_map.1 hx
            cases e1
      | succ k =>
        rw [E.answered k l' id c p o rs (by simpa using hk) ha hs hp]
        constructor
        · rintro ⟨y, hy, rfl, rfl⟩
          exact ⟨_, List.mem_append_right _ (List.mem_map.2 ⟨y, hy, rfl⟩), rfl, rfl⟩
        · rintro ⟨x, hx, e1, rfl⟩
          rcases List.mem_append.1 hx with hx | hx
          · obtain ⟨y, hy, rfl⟩ := List.mem_map.1 hx
            cases e1
          · obtain ⟨y, hy, rfl⟩ := List.mem_map.1 hx
            exact ⟨y, hy, by simpa using e1, rfl⟩
    · rw [List.pairwise_append]
      refine ⟨?_, ?_, ?_⟩
      · rw [List.pairwise_map]
        rw [List.pairwise_map] at h5
        refine h5.imp fun hn => ⟨Nat.le_refl _, fun l' _ e => ?_⟩
        simp only [List.getElem?_cons_zero, Option.some.injEq] at e
        subst e
        exact hn
      · rw [List.pairwise_map]
        refine E.inOrder.imp fun hn => ⟨Nat.succ_le_succ hn.1, fun l' e e' => ?_⟩
        exact hn.2 l' (by simpa using e) (by simpa using e')
      · intro a ha b hb
        obtain ⟨y, -, rfl⟩ := List.mem_map.1 ha
        obtain ⟨z, -, rfl⟩ := List.mem_map.1 hb
        exact ⟨Nat.zero_le _, by simp⟩
    · simp
      omega
    · intro k l' id c p o rs hk ha
      cases k with
      | zero =>
        simp only [List.getElem?_cons_zero, Option.some.injEq] at hk
        subst hk
        obtain ⟨t₁, t₂, b, g1, g2, g3⟩ := f1 id c p o rs ha.1 ha.2
        refine ⟨t₁, t₂, b, g1, g2, ?_⟩
        dsimp only
        rw [List.take_append_of_le_length (by simpa using f0 id), ← List.map_take, List.map_map]
        exact g3
      | succ k =>
        obtain ⟨t₁, t₂, b, g1, g2, g3⟩ := F.answers k l' id c p o rs (by simpa using hk) ha
        refine ⟨t₁, t₂, b, g1, g2, ?_⟩
        dsimp only
        have e0 : log.length = (log.map (fun x : ι × Op => (⟨0, x.1, x.2⟩ : Made ι))).length := by simp
        rw [e0, List.take_length_add_append, ← List.map_take, List.map_append, List.map_map, List.map_map, boltRun_append]
        have e1 : log.map (Made.op ∘ fun x : ι × Op => (⟨0, x.1, x.2⟩ : Made ι)) = log.map (·.2) := rfl
        rw [e1, h1]
        exact g3
    · intro k l' id c p o rs hk ha x hx
      cases k with
      | zero =>
        refine ⟨Nat.zero_le _, fun e => ?_⟩
        simp only [List.getElem?_cons_zero, Option.some.injEq] at hk
        subst hk
        dsimp only at hx
        rw [List.drop_append_of_le_length (by simpa using f0 id), ← List.map_drop] at hx
        rcases List.mem_append.1 hx with hx | hx
        · obtain ⟨y, hy, rfl⟩ := List.mem_map.1 hx
          exact f2 id ⟨rs, ha.2⟩ y hy
        · obtain ⟨y, hy, rfl⟩ := List.mem_map.1 hx
          cases e
      | succ k =>
        dsimp only at hx
        have e0 : log.length = (log.map (fun x : ι × Op => (⟨0, x.1, x.2⟩ : Made ι))).length := by simp
        rw [e0, List.drop_length_add_append, ← List.map_drop] at hx
        obtain ⟨y, hy, rfl⟩ := List.mem_map.1 hx
        obtain ⟨g1, g2⟩ := F.nothingMissed k l' id c p o rs (by simpa using hk) ha y hy
        exact ⟨Nat.succ_le_succ g1, fun e => g2 (by simpa using e)⟩
    · intro k l' id c p o rs hk ha x hx
      cases k with
      | zero =>
        simp only [List.getElem?_cons_zero, Option.some.injEq] at hk
        subst hk
        dsimp only at hx
        rw [List.take_append_of_le_length (by simpa using f0 id), ← List.map_take] at hx
        obtain ⟨y, hy, rfl⟩ := List.mem_map.1 hx
        exact ⟨Nat.le_refl _, fun _ => f3 id ⟨rs, ha.2⟩ y hy⟩
      | succ k =>
        dsimp only at hx
        have e0 : log.length = (log.map (fun x : ι × Op => (⟨0, x.1, x.2⟩ : Made ι))).length := by simp
        rw [e0, List.take_length_add_append, ← List.map_take] at hx
        rcases List.mem_append.1 hx with hx | hx
        · obtain ⟨y, hy, rfl⟩ := List.mem_map.1 hx
          exact ⟨Nat.zero_le _, fun e => by cases e⟩
        · obtain ⟨y, hy, rfl⟩ := List.mem_map.1 hx
          obtain ⟨g1, g2⟩ := F.nothingAhead k l' id c p o rs (by simpa using hk) ha y hy
          exact ⟨Nat.succ_le_succ g1, fun e => g2 (by simpa using e)⟩
    · intro k l₁ id c p o rs k' l₂ id' c' p' o' rs' hk ha hk' ha' hor
      cases k with
      | zero =>
        cases k' with
        | zero =>
          simp only [List.getElem?_cons_zero, Option.some.injEq] at hk hk'
          subst hk
          subst hk'
          rcases hor with h | ⟨-, h⟩
          · omega
          · exact f4 id id' ⟨rs, ha.2⟩ ⟨rs', ha'.2⟩ h
        | succ k' =>
          have := f0 id
          dsimp only
          omega
      | succ k =>
        cases k' with
        | zero => rcases hor with h | ⟨h, -⟩ <;> omega
        | succ k' =>
          have := F.neverBack k l₁ id c p o rs k' l₂ id' c' p' o' rs' (by simpa using hk) ha (by simpa using hk') ha'
            (hor.imp (fun h => by omega) (fun h => ⟨by omega, h.2⟩))
          dsimp only
          omega

theorem lives_reach {base : Str} : ∀ (lives : List (Life ι)) (db : Db), Lives V G base db lives → ∀ (k : Nat) l, lives[k]? = some l →
    ∃ db', ParReach V G l.cfg l.genPwLen l.stats db' l.proc := by
  intro lives
  induction lives with
  | nil => intro db _ k l hk; simp at hk
  | cons a ls ih =>
    rintro db ⟨-, hr, hls⟩ k l hk
    cases k with
    | zero =>
      simp only [List.getElem?_cons_zero, Option.some.injEq] at hk
      subst hk
      exact ⟨db, hr⟩
    | succ k => exact ih _ hls k l (by simpa using hk)

end

section
variable {C : CaseEnv} {validate : Str → Str → Res Bool} {base : DN}

theorem entryPutDN_of_parse {s : Str} {n : DN} (h : parseDN C s = some n) : entryPutDN C s = some n := by
  unfold parseDN at h
  unfold entryPutDN
  cases hp : parseDNRes C s <;> rw [hp] at h <;> simp at h ⊢
  exact h

theorem has_setEntry {d : Dir} {k k' : DN} {e : Entry} : (d.setEntry k e).has k' = d.has k' := by
  unfold Dir.setEntry Dir.has
  rw [List.any_map]
  congr 1
  funext n
  simp only [Function.comp_apply]
  split <;> simp_all

theorem step_keeps {d : Dir} {name : DN} {op : Op} (h : d.has (foldDN C name) = true) (hn : ¬ TakesAway C name op) :
    (specStep C validate base d op).2.has (foldDN C name) = true := by
  cases op with
  | add e =>
    unfold specStep
    dsimp only
    split
    · exact h
    · unfold specAdd specAddAt
      repeat' split
      all_goals first | exact h | (simp only [Dir.has, List.any_append] at h ⊢; rw [h]; rfl)
  | delete dn =>
    unfold specStep
    dsimp only
    split
    · exact h
    · rename_i n hp
      have hne : foldDN C n ≠ foldDN C name := fun e => hn ⟨n, hp, e⟩
      unfold specDelete specDeleteAt
      repeat' split
      all_goals first | exact h | skip
      simp only [Dir.has, Dir.remove, List.any_eq_true, List.mem_filter, decide_eq_true_eq] at h ⊢
      obtain ⟨m, hm, e⟩ := h
      exact ⟨m, ⟨hm, by simpa [e] using fun e => hne e.symm⟩, e⟩
  | modify dn cs =>
    unfold specStep
    dsimp only
    split
    · exact h
    · unfold specModify specModifyAt
      repeat' split
      all_goals first | exact h | (dsimp only; rw [has_setEntry]; exact h)
  | rename r =>
    unfold specStep
    dsimp only
    split
    all_goals first | exact h | skip
    rename_i o p n t hp _
    have hne : foldDN C (o :: p) ≠ foldDN C name := fun e => hn ⟨_, hp, e⟩
    unfold specRename specRenameAt
    repeat' split
    all_goals first | exact h | skip
    all_goals
      simp only [Dir.has, Dir.rename, List.any_eq_true, decide_eq_true_eq, List.mem_map] at h ⊢
      obtain ⟨m, hm, e⟩ := h
      exact ⟨_, ⟨m, hm, rfl⟩, by rw [if_neg (by rw [e]; exact fun e => hne e.symm)]; exact e⟩
  | password r =>
    unfold specStep
    dsimp only
    split
    · exact h
    · unfold specPassword specPasswordAt
      repeat' split
      all_goals first | exact h | (dsimp only; rw [has_setEntry]; exact h)

theorem step_keeps_out {d : Dir} {name : DN} {op : Op} (h : d.has (foldDN C name) = false) (hn : ¬ GivesName C name op)
    (hp : ∀ e, op = .add e → parseDN C e.dn ≠ none) :
    (specStep C validate base d op).2.has (foldDN C name) = false := by
  cases op with
  | add e =>
    cases hp' : parseDN C e.dn with
    | none => exact absurd hp' (hp e rfl)
    | some n =>
      have hne : foldDN C n ≠ foldDN C name := fun e => hn ⟨n, hp', e⟩
      unfold specStep
      dsimp only
      rw [entryPutDN_of_parse hp']
      dsimp only
      unfold specAdd specAddAt
      repeat' split
      all_goals first | exact h | skip
      simp only [Dir.has, List.any_append] at h ⊢
      rw [h]
      simpa using hne
  | delete dn =>
    unfold specStep
    dsimp only
    split
    · exact h
    · unfold specDelete specDeleteAt
      repeat' split
      all_goals first | exact h | skip
      simp only [Dir.has, Dir.remove, List.any_eq_false, List.mem_filter, decide_eq_true_eq] at h ⊢
      exact fun m hm => h m hm.1
  | modify dn cs =>
    unfold specStep
    dsimp only
    split
    · exact h
    · unfold specModify specModifyAt
      repeat' split
      all_goals first | exact h | (dsimp only; rw [has_setEntry]; exact h)
  | rename r =>
    unfold specStep
    dsimp only
    split
    all_goals first | exact h | skip
    rename_i o p n t hp hq
    have hne : foldDN C (n :: p) ≠ foldDN C name := fun e => hn ⟨_, _, _, _, hp, hq, e⟩
    unfold specRename specRenameAt
    repeat' split
    all_goals first | exact h | skip
    all_goals
      simp only [Dir.has, Dir.rename, List.any_eq_false, decide_eq_true_eq, List.mem_map] at h ⊢
      rintro m ⟨m', hm', rfl⟩
      split
      · exact hne
      · exact h m' hm'
  | password r =>
    unfold specStep
    dsimp only
    split
    · exact h
    · unfold specPassword specPasswordAt
      repeat' split
      all_goals first | exact h | (dsimp only; rw [has_setEntry]; exact h)

theorem run_keeps {name : DN} : ∀ (ops : List Op) (d : Dir), d.has (foldDN C name) = true → (∀ op ∈ ops, ¬ TakesAway C name op) →
    (specRun C validate base d ops).2.has (foldDN C name) = true := by
  intro ops
  induction ops with
  | nil => intro d h _; exact h
  | cons op ops ih =>
    intro d h hn
    exact ih _ (step_keeps h (hn op List.mem_cons_self)) fun o ho => hn o (List.mem_cons_of_mem _ ho)

theorem run_keeps_out {name : DN} : ∀ (ops : List Op) (d : Dir), d.has (foldDN C name) = false →
    (∀ op ∈ ops, ¬ GivesName C name op ∧ ∀ e, op = .add e → parseDN C e.dn ≠ none) →
    (specRun C validate base d ops).2.has (foldDN C name) = false := by
  intro ops
  induction ops with
  | nil => intro d h _; exact h
  | cons op ops ih =>
    intro d h hn
    exact ih _ (step_keeps_out h (hn op List.mem_cons_self).1 (hn op List.mem_cons_self).2) fun o ho => hn o (List.mem_cons_of_mem _ ho)

theorem add_has {d : Dir} {name : DN} {e : Entry} (hp : parseDN C e.dn = some name)
    (h : (specStep C validate base d (.add e)).1 = .ok ()) : (specStep C validate base d (.add e)).2.has (foldDN C name) = true := by
  unfold specStep at h ⊢
  dsimp only at h ⊢
  rw [entryPutDN_of_parse hp] at h ⊢
  dsimp only at h ⊢
  unfold specAdd specAddAt at h ⊢
  repeat' split
  all_goals simp_all
  simp [Dir.has]

theorem delete_has {d : Dir} {name : DN} {dn : Str} (hp : parseDN C dn = some name)
    (h : (specStep C validate base d (.delete dn)).1 = .ok ()) : (specStep C validate base d (.delete dn)).2.has (foldDN C name) = false := by
  unfold specStep at h ⊢
  dsimp only at h ⊢
  rw [hp] at h ⊢
  dsimp only at h ⊢
  unfold specDelete specDeleteAt at h ⊢
  repeat' split
  all_goals simp_all
  simp [Dir.has, Dir.remove]

end
end Idm
