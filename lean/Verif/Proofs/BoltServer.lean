import Verif.Spec.BoltServer
import Verif.Proofs.Session
import Verif.Props.Bolt
/-!
# One round of the connection loop on the BoltDB server is at most one call of the store
-/
namespace Idm

@[simp] theorem pick_single {α : Type} (f : α) (dn : Str) : pick [([], f)] dn = some f := by
  simp [pick, routeFunc, routeLoop, hasSuffix, splitLen, fnAt]

section
variable {V : Env} {G : GobEnv} {cfg : BoltCfg} {n : Nat} {stats : Bool}

/-- The store call. -/
abbrev storeStep (V : Env) (G : GobEnv) (cfg : BoltCfg) (db : Db) (op : Op) : Res Unit × Db :=
  boltStep V.C G (validatePw V.C V.K) cfg.store db op

/-- Nothing changed, or one permitted call of the store succeeded. -/
def Eff (V : Env) (G : GobEnv) (cfg : BoltCfg) (bound : Str) (tag : Nat) (db db' : Db) (ok : Prop) : Prop :=
  db' = db ∨ ∃ op, Permitted V.C cfg.admin bound op ∧ op.tag = tag ∧ storeStep V G cfg db op = (.ok (), db') ∧ ok

theorem store_eff {bound : Str} {db : Db} {op : Op} (hp : Permitted V.C cfg.admin bound op) {ok : Prop}
    (hok : (storeStep V G cfg db op).1 = .ok () → ok) : Eff V G cfg bound op.tag db (storeStep V G cfg db op).2 ok := by
  by_cases h : (storeStep V G cfg db op).1 = .ok ()
  · exact Or.inr ⟨op, hp, rfl, by rw [← h], hok h⟩
  · exact Or.inl (C08_refused_changes_nothing _ _ _ h)

theorem writeAllowed_iff {bound : Str} : writeAllowed cfg bound = true ↔ cfg.admin ≠ [] ∧ cfg.admin = bound := by
  simp [writeAllowed]

theorem parseFailed_st {σ ρ : Type} (r : Res ρ) (st : σ) : (parseFailed r st).2 = st := by
  unfold parseFailed; split <;> rfl

theorem handleAdd_eff (bound : Str) (req : Packet) (db : Db) :
    Eff V G cfg bound 8 db (handleAdd V (boltSrv V G cfg n stats) bound req db).2
      ((handleAdd V (boltSrv V G cfg n stats) bound req db).1 = .ok 0) := by
  unfold handleAdd
  split
  · exact Or.inl rfl
  · rename_i hb
    split
    · rename_i r hr
      simp only [boltSrv, callFn, pick_single, boltAdd]
      by_cases hw : writeAllowed cfg bound = true
      · simp only [hw, Bool.not_true, Bool.false_eq_true, if_false]
        obtain ⟨h1, h2⟩ := writeAllowed_iff.1 hw
        refine store_eff (op := .add (entryFromAddRequest r.dn r.attrs)) ⟨hb, Or.inl h2.symm⟩ ?_
        intro h
        simp only [storeStep, boltStep] at h
        rw [h]; rfl
      · simp only [hw]
        exact Or.inl rfl
    · exact Or.inl (parseFailed_st _ _)

theorem handleDelete_eff (bound : Str) (req : Packet) (db : Db) :
    Eff V G cfg bound 10 db (handleDelete V (boltSrv V G cfg n stats) bound req db).2
      ((handleDelete V (boltSrv V G cfg n stats) bound req db).1 = .ok 0) := by
  unfold handleDelete
  split
  · exact Or.inl rfl
  · rename_i hb
    split
    · rename_i r hr
      simp only [boltSrv, callFn, pick_single, boltDelete]
      by_cases hw : writeAllowed cfg bound = true
      · simp only [hw, Bool.not_true, Bool.false_eq_true, if_false]
        obtain ⟨h1, h2⟩ := writeAllowed_iff.1 hw
        refine store_eff (op := .delete r) ⟨hb, Or.inl h2.symm⟩ ?_
        intro h
        simp only [storeStep, boltStep] at h
        rw [h]; rfl
      · simp only [hw]
        exact Or.inl rfl
    · exact Or.inl (parseFailed_st _ _)

theorem handleModify_eff (bound : Str) (req : Packet) (db : Db) :
    Eff V G cfg bound 6 db (handleModify V (boltSrv V G cfg n stats) bound req db).2
      ((handleModify V (boltSrv V G cfg n stats) bound req db).1 = .ok 0) := by
  unfold handleModify
  split
  · exact Or.inl rfl
  · rename_i hb
    split
    · rename_i r hr
      simp only [boltSrv, callFn, pick_single, boltModify]
      by_cases hw : writeAllowed cfg bound = true
      · simp only [hw, Bool.not_true, Bool.false_eq_true, if_false]
        obtain ⟨h1, h2⟩ := writeAllowed_iff.1 hw
        refine store_eff (op := .modify r.dn r.changes) ⟨hb, Or.inl h2.symm⟩ ?_
        intro h
        simp only [storeStep, boltStep] at h
        rw [h]; rfl
      · simp only [hw]
        exact Or.inl rfl
    · exact Or.inl (parseFailed_st _ _)

theorem handleModifyDN_eff (bound : Str) (req : Packet) (db : Db) :
    Eff V G cfg bound 12 db (handleModifyDN V (boltSrv V G cfg n stats) bound req db).2
      ((handleModifyDN V (boltSrv V G cfg n stats) bound req db).1 = .ok 0) := by
  unfold handleModifyDN
  split
  · exact Or.inl rfl
  · rename_i hb
    split
    · rename_i r hr
      simp only [boltSrv, callFn, pick_single, boltModifyDN]
      by_cases hw : writeAllowed cfg bound = true
      · simp only [hw, Bool.not_true, Bool.false_eq_true, if_false]
        obtain ⟨h1, h2⟩ := writeAllowed_iff.1 hw
        refine store_eff (op := .rename r) ⟨hb, Or.inl h2.symm⟩ ?_
        intro h
        simp only [storeStep, boltStep] at h
        rw [h]; rfl
      · simp only [hw]
        exact Or.inl rfl
    · exact Or.inl (parseFailed_st _ _)

theorem boltPwExop_eff (bound : Str) (r : PwModReq) (hu : r.userIdentity ≠ []) (db : Db) :
    Eff V G cfg bound 23 db (boltPwExop V G cfg bound r db).2 ((boltPwExop V G cfg bound r db).1 = .ok (0, false)) := by
  unfold boltPwExop
  dsimp only
  split
  · exact Or.inl rfl
  · rename_i hb
    split
    · exact Or.inl rfl
    · rename_i u hp
      split
      · exact Or.inl rfl
      · rename_i hne
        have hor : bound = cfg.admin ∨ bound = u := by
          by_cases h1 : bound = u
          · exact Or.inr h1
          · by_cases h2 : bound = cfg.admin
            · exact Or.inl h2
            · exact absurd ⟨h1, h2⟩ hne
        refine store_eff (op := .password r) ⟨hb, ?_⟩ ?_
        · rcases hor with h | h
          · exact Or.inl h
          · exact Or.inr ⟨r, rfl, by rw [hp, h]⟩
        · intro h
          simp only [storeStep, boltStep] at h
          rw [h]; rfl

theorem handlePwModify_eff (o : Oracle) (bound : Str) (body : Option Packet) (db : Db) :
    Eff V G cfg bound 23 db (handlePwModify V (boltSrv V G cfg n stats) o bound body db).2
      (∃ gen, (handlePwModify V (boltSrv V G cfg n stats) o bound body db).1 = .ok gen) := by
  unfold handlePwModify
  split
  · exact Or.inl rfl
  · rename_i hb
    split
    · exact Or.inl rfl
    · exact Or.inl rfl
    · exact Or.inl rfl
    · rename_i r hr
      dsimp only
      split
      · exact Or.inl rfl
      · exact Or.inl rfl
      · exact Or.inl rfl
      · split
        · exact Or.inl rfl
        · exact Or.inl rfl
        · exact Or.inl rfl
        · rename_i pw hpw hashed hh
          simp only [boltSrv, pick_single]
          have hu : (if r.userIdentity = [] then bound else r.userIdentity) ≠ [] := by
            split
            · exact hb
            · assumption
          rcases boltPwExop_eff (V := V) (G := G) (cfg := cfg) bound ⟨if r.userIdentity = [] then bound else r.userIdentity, r.oldPassword, hashed⟩ hu db with h | ⟨op, h1, h2, h3, h4⟩
          · exact Or.inl h
          · refine Or.inr ⟨op, h1, h2, h3, ?_⟩
            rw [h4]
            exact ⟨_, rfl⟩

theorem handleExtended_eff (o : Oracle) (bound : Str) (req : Packet) (db : Db) :
    Eff V G cfg bound 23 db (handleExtended V (boltSrv V G cfg n stats) o bound req db).2
      (∃ oid gen, (handleExtended V (boltSrv V G cfg n stats) o bound req db).1 = .ok (.done 0 oid gen)) := by
  unfold handleExtended
  split
  · exact Or.inl rfl
  · exact Or.inl rfl
  · exact Or.inl rfl
  · rename_i oid body hb
    split
    · have := handlePwModify_eff (V := V) (G := G) (cfg := cfg) (n := n) (stats := stats) o bound body db
      rcases hx : handlePwModify V (boltSrv V G cfg n stats) o bound body db with ⟨x, db'⟩
      rw [hx] at this
      rcases this with h | ⟨op, h1, h2, h3, gen, h4⟩
      · left
        dsimp only at h
        subst h
        split <;> simp_all
      · dsimp only at h4
        subst h4
        exact Or.inr ⟨op, h1, h2, h3, oid, gen, rfl⟩
    · exact Or.inl rfl

theorem validate_st {bindDN pw : Str} {db : Db} : (boltBind V G cfg bindDN pw db).2 = db := by
  unfold boltBind
  repeat' split
  all_goals rfl

theorem handleBind_st (req : Packet) (db : Db) : (handleBind (boltSrv V G cfg n stats) req db).2 = db := by
  have key : (bindBody (boltSrv V G cfg n stats) req db).2 = db := by
    unfold bindBody
    split
    · rfl
    split
    · rfl
    split
    · rfl
    split
    · rfl
    split
    · rfl
    split
    · rfl
    split
    · split
      · simp only [boltSrv, pick_single]
        split <;> exact validate_st
      · rfl
    · rfl
  unfold handleBind
  split
  · rename_i st' h
    rw [h] at key
    exact key
  · exact key

theorem handleSearch_st (bound : Str) (req : Packet) (controls : List Control) (db : Db) :
    (handleSearch V (boltSrv V G cfg n stats) bound req controls db).2 = db := by
  have hs : ∀ r, (boltSearchFn V G bound r db).2 = db := by
    intro r; unfold boltSearchFn; split <;> rfl
  unfold handleSearch
  split
  · rfl
  · split
    · rfl
    · simp only [boltSrv, pick_single]
      split
      · exact hs _
      · exact hs _
      · exact hs _
      · split
        · exact hs _
        · simp only [if_true]
          split <;> exact hs _

/-- One round: the database is unchanged, or one permitted call of the store succeeded, and then the request was one of the five that
ask for a change, it was answered by one response with success, and the connection goes on under the same identity. -/
theorem bolt_packet (o : Oracle) (p : Packet) (bound : Str) (db : Db) :
    let out := handlePacket V (boltSrv V G cfg n stats) o p bound db
    out.st = db ∨ ∃ op id req, Permitted V.C cfg.admin bound op ∧ Message p id req ∧ req.tag = op.tag ∧
      storeStep V G cfg db op = (.ok (), out.st) ∧ Succeeded out.resps ∧ out.next = .go bound := by
  intro out
  have hc := handlePacket_cases V (boltSrv V G cfg n stats) o p bound db
  change PktCase V (boltSrv V G cfg n stats) o p bound db out at hc
  generalize out = out at hc
  have rep : ∀ id tag (x : Res Nat × Db), (reply id tag bound x).st = x.2 := by
    intro id tag x
    rcases reply_cases id tag bound x with ⟨code, h, -⟩ | ⟨h, -⟩ | ⟨h, -⟩ <;> rw [h]
  have wr : ∀ id req tag rtag (x : Res Nat × Db), Message p id req → req.tag = tag → Eff V G cfg bound tag db x.2 (x.1 = .ok 0) →
      (reply id rtag bound x).st = db ∨ ∃ op id' req, Permitted V.C cfg.admin bound op ∧ Message p id' req ∧ req.tag = op.tag ∧
      storeStep V G cfg db op = (.ok (), (reply id rtag bound x).st) ∧ Succeeded (reply id rtag bound x).resps ∧
      (reply id rtag bound x).next = .go bound := by
    intro id req tag rtag x hm ht he
    rcases he with h | ⟨op, h1, h2, h3, h4⟩
    · left; rw [rep]; exact h
    · right
      obtain ⟨r, st⟩ := x
      dsimp only at h4
      subst h4
      exact ⟨op, id, req, h1, hm, by rw [h2, ht], h3, ⟨_, rfl, rfl⟩, rfl⟩
  cases hc with
  | closed => exact Or.inl rfl
  | crash => exact Or.inl rfl
  | hang => exact Or.inl rfl
  | addHang => exact Or.inl rfl
  | compare => exact Or.inl rfl
  | add id req hm ht hs => exact wr id req 8 9 _ hm ht (handleAdd_eff bound req db)
  | delete id req hm ht => exact wr id req 10 11 _ hm ht (handleDelete_eff bound req db)
  | modify id req hm ht => exact wr id req 6 7 _ hm ht (handleModify_eff bound req db)
  | modifyDN id req hm ht => exact wr id req 12 13 _ hm ht (handleModifyDN_eff bound req db)
  | bind id req hm ht =>
    left
    rcases stepBind_cases V (boltSrv V G cfg n stats) id bound req db with ⟨code, e, -, -⟩ | ⟨d, dn, b', e, -⟩ | e | e | ⟨e, -⟩
    all_goals rw [e]; exact handleBind_st req db
  | extended id req hm ht =>
    have he := handleExtended_eff (V := V) (G := G) (cfg := cfg) (n := n) (stats := stats) o bound req db
    rcases stepExtended_cases V (boltSrv V G cfg n stats) o id bound req db with ⟨e, k⟩ | ⟨code, oid, gen, e, k⟩ | ⟨e, k⟩ | ⟨e, k⟩
    · rw [e]
      rcases he with h | ⟨op, h1, h2, h3, oid, gen, h4⟩
      · exact Or.inl h
      · rcases k with k | ⟨_, k⟩ <;> rw [k] at h4 <;> cases h4
    · rw [e]
      rcases he with h | ⟨op, h1, h2, h3, oid', gen', h4⟩
      · exact Or.inl h
      · rw [k] at h4
        simp only [Res.ok.injEq, ExtAnswer.done.injEq] at h4
        exact Or.inr ⟨op, id, req, h1, hm, by rw [ht, h2], h3, ⟨_, rfl, by rw [h4.1]; rfl⟩, rfl⟩
    · rw [e]
      rcases he with h | ⟨op, h1, h2, h3, oid', gen', h4⟩
      · exact Or.inl h
      · rw [k] at h4; cases h4
    · rw [e]
      rcases he with h | ⟨op, h1, h2, h3, oid', gen', h4⟩
      · exact Or.inl h
      · rw [k] at h4; cases h4
  | search id req controls hm ht =>
    left
    rcases stepSearch_cases V (boltSrv V G cfg n stats) id bound req controls db with ⟨out, -, -, e⟩ | ⟨out, -, -, e⟩ | ⟨sent, e, -⟩ | ⟨sent, e, -⟩
    all_goals rw [e]; exact handleSearch_st bound req controls db

end
end Idm
