import Verif.Proofs.LdifEnds
import Verif.Props.Crash
/-!
# The LDIF server: which packets end in a panic or block
-/
namespace Idm

/-! ## Filters -/

mutual
theorem leaves_calm : ∀ (p : Packet), ShapeF p → leaves p ≠ .panic ∧ leaves p ≠ .hang
  | .mk cls cons tag val data kids, h => by
    simp only [ShapeF] at h
    rw [leaves.eq_def]
    dsimp only
    by_cases h1 : tag = filterEq
    · rw [if_pos h1]
      split
      · rename_i a v
        obtain ⟨⟨s, hs⟩, t, ht⟩ := h.1 h1 a v rfl
        simp [Packet.mustStr, hs, ht]
      · exact ⟨nofun, nofun⟩
    · rw [if_neg h1]
      by_cases h2 : tag = filterPresent
      · rw [if_pos h2]; split <;> exact ⟨nofun, nofun⟩
      · rw [if_neg h2]
        by_cases h6 : tag = filterSub
        · rw [if_pos h6]
          split
          · rename_i a s
            obtain ⟨⟨t, ht⟩, hc⟩ := h.2.1 h6 a s rfl
            simp only [Packet.mustStr, ht, Res.ok_bind]
            split
            · rename_i c hk
              have := hc c (by rw [hk]; simp)
              simp [this]
            · exact ⟨nofun, nofun⟩
          · exact ⟨nofun, nofun⟩
        · rw [if_neg h6]
          by_cases h3 : tag = filterAnd
          · rw [if_pos h3]; exact leavesAll_calm kids (h.2.2 (Or.inl h3))
          · rw [if_neg h3]
            by_cases h4 : tag = filterOr
            · rw [if_pos h4]; exact leavesAll_calm kids (h.2.2 (Or.inr (Or.inl h4)))
            · rw [if_neg h4]; exact ⟨nofun, nofun⟩
theorem leavesAll_calm : ∀ (ps : List Packet), ShapeFs ps → leavesAll ps ≠ .panic ∧ leavesAll ps ≠ .hang
  | [], _ => ⟨nofun, nofun⟩
  | p :: ps, h => by
    rw [leavesAll]
    have h1 := leaves_calm p h.1
    have h2 := leavesAll_calm ps h.2
    cases e1 : leaves p with
    | panic => exact absurd e1 h1.1
    | hang => exact absurd e1 h1.2
    | err e => exact ⟨nofun, nofun⟩
    | ok l =>
      cases e2 : leavesAll ps with
      | panic => exact absurd e2 h2.1
      | hang => exact absurd e2 h2.2
      | err e => exact ⟨nofun, nofun⟩
      | ok l => exact ⟨nofun, nofun⟩
end

theorem indexFilter_calm (C : CaseEnv) (f : Str) : ∃ fs, indexFilter C f = .ok fs := by
  unfold indexFilter
  cases h : compile f with
  | none => exact ⟨_, rfl⟩
  | some p =>
    have := leaves_calm p (compile_shape h)
    dsimp only
    cases e : leaves p with
    | panic => exact absurd e this.1
    | hang => exact absurd e this.2
    | err e => exact ⟨_, rfl⟩
    | ok l => exact ⟨_, rfl⟩

section
variable {V : Env} {cfg : LdifCfg} {g : Nat} {stats : Bool}

theorem searchPlan_calm {bound : Str} {r : SearchReq} {x : Res SearchRes} (h : searchPlan V cfg bound r = .inl x) : ∃ sr, x = .ok sr := by
  unfold searchPlan at h
  split at h
  · cases h; exact ⟨_, rfl⟩
  · obtain ⟨fs, e⟩ := indexFilter_calm V.C r.filter
    rw [e] at h
    dsimp only at h
    split at h
    · cases h; exact ⟨_, rfl⟩
    · cases h

theorem eat_calm {con : LdifCon} (hs : ShapeF con.fp) {x : LEntry} {res : Res (List Entry × Nat)} (h : ldifEat V con x = .inr res) :
    (∃ y, res = .ok y) ∨ (res = .panic ∧ EmptySub con.fp) := by
  unfold ldifEat at h
  rcases applyFilter_calm V.C x.visible con.fp hs with ⟨⟨b, c⟩, e⟩ | ⟨e, he⟩
  · rw [e] at h
    dsimp only at h
    repeat' split at h
    all_goals first | (cases h; done) | (cases h; exact .inl ⟨_, rfl⟩)
  · rw [e] at h
    cases h
    exact .inr ⟨rfl, he⟩

theorem pageReply_calm (r : SearchReq) (k : Str) (last : Bool) {res : Res (List Entry × Nat)} :
    ((∃ y, res = .ok y) → ∃ sr, pageReply r k last res = .ok sr) ∧ (pageReply r k last .panic = .panic) := by
  refine ⟨?_, rfl⟩
  rintro ⟨⟨es, code⟩, rfl⟩
  unfold pageReply
  dsimp only
  split <;> exact ⟨_, rfl⟩

/-! ## Requests -/

theorem refuse_calm {ρ : Type} (dn b : Str) (r : ρ) (s : Option LCall) {cause : Prop} :
    (callFn [([], recRefuse)] dn b r s).1 ≠ .hang ∧ ((callFn [([], recRefuse)] dn b r s).1 = .panic → cause) := by
  unfold callFn
  rw [pick_single]
  exact ⟨nofun, nofun⟩

theorem writes_calm (rep : LRep) (b : Str) (req : Packet) (s : Option LCall) :
    ((handleAdd V (recordLdif rep g stats) b req s).1 ≠ .hang ∧ ((handleAdd V (recordLdif rep g stats) b req s).1 = .panic → False)) ∧
    ((handleDelete V (recordLdif rep g stats) b req s).1 ≠ .hang ∧ ((handleDelete V (recordLdif rep g stats) b req s).1 = .panic → False)) ∧
    ((handleModifyDN V (recordLdif rep g stats) b req s).1 ≠ .hang ∧ ((handleModifyDN V (recordLdif rep g stats) b req s).1 = .panic → False)) ∧
    ((handleModify V (recordLdif rep g stats) b req s).1 ≠ .hang ∧
      ((handleModify V (recordLdif rep g stats) b req s).1 = .panic → b ≠ [] ∧ ∃ l c, req.kids[1]? = some l ∧ c ∈ l.kids ∧ BadChange c)) := by
  refine ⟨?_, ?_, ?_, ?_⟩
  · unfold handleAdd
    split
    · exact ⟨nofun, nofun⟩
    · obtain ⟨h1, h2, -⟩ := parseAdd_calm (C := V.C) req
      split
      · exact refuse_calm ..
      · exact parseFailed_calm ⟨h2, fun h => h1 h⟩
  · unfold handleDelete
    split
    · exact ⟨nofun, nofun⟩
    · obtain ⟨h1, h2, -⟩ := parseDelete_calm (C := V.C) req
      split
      · exact refuse_calm ..
      · exact parseFailed_calm ⟨h2, fun h => h1 h⟩
  · unfold handleModifyDN
    split
    · exact ⟨nofun, nofun⟩
    · obtain ⟨h1, h2, -⟩ := parseModifyDN_calm (C := V.C) req
      split
      · exact refuse_calm ..
      · exact parseFailed_calm ⟨h2, fun h => h1 h⟩
  · unfold handleModify
    split
    · exact ⟨nofun, nofun⟩
    · rename_i hb
      have hm := parseModify_calm (C := V.C) req
      split
      · exact refuse_calm ..
      · exact parseFailed_calm ⟨hm.1, fun h => ⟨hb, hm.2 h⟩⟩

theorem ext_calm (rep : LRep) (o : Oracle) (ho : ∀ i k, o.rnd i = some k → k < 74) (id : Int) (b : Str) (req : Packet) (s : Option LCall) :
    (stepExtended V (recordLdif rep g stats) o id b req s).next ≠ .hang ∧ (stepExtended V (recordLdif rep g stats) o id b req s).next ≠ .crash := by
  have hpw : ∀ body, (∀ b, body = some b → b ∈ req.kids) →
      (handlePwModify V (recordLdif rep g stats) o b body s).1 ≠ .hang ∧ (handlePwModify V (recordLdif rep g stats) o b body s).1 ≠ .panic ∧
      ∀ code, (handlePwModify V (recordLdif rep g stats) o b body s).1 ≠ .err (.ldap code false) := by
    intro body hbody
    unfold handlePwModify
    by_cases hb : b = []
    · rw [if_pos hb]; simp
    · rw [if_neg hb]
      obtain ⟨h1, h2, h3⟩ := parsePw_calm V req req body hbody
      have herr : ∀ e, parsePwModify V body = .err e → ∀ code, e ≠ .ldap code false := by
        intro e h code
        have hk : ∀ (ks : List Packet) (r : PwModReq) (e : Err), pwKids r ks = .err e → e ≠ .ldap code false := by
          intro ks
          induction ks with
          | nil => intro r e h; simp [pwKids] at h
          | cons k ks ih =>
            intro r e h
            rw [pwKids] at h
            repeat' split at h
            all_goals first | exact ih _ _ h | (cases h; simp)
        unfold parsePwModify at h
        repeat' split at h
        all_goals first | exact hk _ _ _ h | (cases h; try simp)
      cases hp : parsePwModify V body with
      | err e => refine ⟨by simp, by simp, fun code h => ?_⟩; cases h; exact absurd rfl (herr _ hp code)
      | panic => exact absurd hp h1
      | hang => exact absurd hp h2
      | ok r =>
        dsimp only
        have hg : ∀ x, (if r.newPassword = [] then generatePw o.rnd 0 g else .ok r.newPassword) = x → x ≠ .panic ∧ x ≠ .hang := by
          intro x hx
          split at hx
          · rw [← hx]; exact generatePw_calm _ ho _ _
          · rw [← hx]; simp
        rw [show (recordLdif rep g stats).genPwLen = g from rfl]
        cases hx : (if r.newPassword = [] then generatePw o.rnd 0 g else .ok r.newPassword) with
        | err e => simp
        | panic => exact absurd rfl (hg _ hx).1
        | hang => exact absurd rfl (hg _ hx).2
        | ok pw =>
          dsimp only
          have hh := hashPw_calm V.K o.salt pw b!"{ARGON2}"
          cases hy : hashPw V.K o.salt pw b!"{ARGON2}" with
          | err e => simp
          | panic => exact absurd hy hh.1
          | hang => exact absurd hy hh.2
          | ok hashed =>
            dsimp only
            rw [show (recordLdif rep g stats).pwExopFns = [([], recRefuse)] from rfl, pick_single]
            simp [recRefuse, pwExopAnswer, rcUnwillingToPerform, rcSuccess]
  have hext : (handleExtended V (recordLdif rep g stats) o b req s).1 ≠ .hang ∧ (handleExtended V (recordLdif rep g stats) o b req s).1 ≠ .panic := by
    unfold handleExtended
    have hq : ∀ q, parseExtendedRequest req = q → q ≠ .panic ∧ q ≠ .hang ∧ ∀ oid body, q = .ok (oid, body) → ∀ b, body = some b → b ∈ req.kids := by
      intro q h
      subst h
      unfold parseExtendedRequest
      split
      · split <;> simp
      · split
        · simp
        · split
          · simp
          · rename_i hk _ _
            refine ⟨by simp, by simp, ?_⟩
            intro oid body h b hb
            subst hb
            simp at h
            rw [hk, ← h.2]
            simp
      · simp
    cases hp : parseExtendedRequest req with
    | err e => simp
    | panic => exact absurd rfl (hq _ hp).1
    | hang => exact absurd rfl (hq _ hp).2.1
    | ok ob =>
      obtain ⟨oid, body⟩ := ob
      dsimp only
      split
      · have := hpw body (fun b hb => (hq _ hp).2.2 oid body rfl b hb)
        rcases hz : handlePwModify V (recordLdif rep g stats) o b body s with ⟨res, st2⟩
        rw [hz] at this
        dsimp only at this
        cases res with
        | ok g => simp
        | err e =>
          cases e with
          | ldap code b =>
            cases b with
            | true => simp
            | false => exact absurd rfl (this.2.2 code)
          | _ => simp
        | panic => exact absurd rfl this.2.1
        | hang => exact absurd rfl this.1
      · simp
  rcases stepExtended_cases V (recordLdif rep g stats) o id b req s with ⟨h, -⟩ | ⟨_, _, _, h, -⟩ | ⟨h, h'⟩ | ⟨h, h'⟩
  · rw [h]; simp
  · rw [h]; simp
  · exact absurd h' hext.2
  · exact absurd h' hext.1

theorem bind_end_calm (rep : LRep) (id : Int) (b : Str) (req : Packet) (s : Option LCall) :
    ((stepBind V (recordLdif rep g stats) id b req s).next = .hang → rep.toBind = .hang) ∧
    (stepBind V (recordLdif rep g stats) id b req s).next ≠ .crash := by
  have hbody : ∀ r st', bindBody (recordLdif rep g stats) req s = (r, st') →
      (r = .hang → rep.toBind = .hang) ∧ (∀ e, r ≠ .err e) ∧ (r = .ok rcSuccess → ∃ d, req.kids[1]? = some d) := by
    intro r st' h
    unfold bindBody at h
    cases h0 : req.kids[0]? with
    | none => simp [h0] at h; simp [← h.1]
    | some v =>
      rw [h0] at h
      dsimp only at h
      cases h1 : v.int? with
      | none => simp [h1] at h; simp [← h.1, rcProtocolError, rcSuccess]
      | some version =>
        rw [h1] at h
        dsimp only at h
        by_cases h2 : version ≠ 3
        · rw [if_pos h2] at h; cases h; simp [rcInappropriateAuthentication, rcSuccess]
        · rw [if_neg h2] at h
          cases h3 : req.kids[1]? with
          | none => simp [h3] at h; simp [← h.1]
          | some d =>
            rw [h3] at h
            refine ⟨?_, ?_, fun _ => ⟨d, rfl⟩⟩
            all_goals
              dsimp only at h
              cases h4 : d.str? with
              | none => simp [h4] at h; simp [← h.1]
              | some bindDN =>
                rw [h4] at h
                dsimp only at h
                cases h5 : req.kids[2]? with
                | none => simp [h5] at h; simp [← h.1]
                | some auth =>
                  rw [h5] at h
                  dsimp only at h
                  by_cases h6 : auth.tag = authSimple
                  · rw [if_pos h6] at h
                    by_cases h7 : req.kids.length = 3
                    · rw [if_pos h7, show (recordLdif rep g stats).bindFns = [([], fun dn pw _ => (rep.toBind, some (.bind dn pw)))] from rfl,
                        pick_single] at h
                      dsimp only at h
                      cases hf : rep.toBind with
                      | ok c =>
                        rw [hf] at h
                        obtain ⟨c, b⟩ := c
                        cases b <;> (simp at h; simp [← h.1])
                      | err e => rw [hf] at h; simp at h; simp [← h.1]
                      | panic => rw [hf] at h; simp at h; simp [← h.1]
                      | hang => rw [hf] at h; simp at h; simp [← h.1]
                    · rw [if_neg h7] at h; cases h; simp
                  · rw [if_neg h6] at h; cases h; simp
  unfold stepBind
  have hh : ∀ r st', handleBind (recordLdif rep g stats) req s = (r, st') →
      (r = .hang → rep.toBind = .hang) ∧ r ≠ .panic ∧ (∀ e, r ≠ .err e) ∧ (r = .ok rcSuccess → ∃ d, req.kids[1]? = some d) := by
    intro r st' h
    unfold handleBind at h
    rcases hb : bindBody (recordLdif rep g stats) req s with ⟨res, st2⟩
    have := hbody res st2 hb
    rw [hb] at h
    cases res with
    | panic => simp at h; simp [← h.1, rcOperationsError, rcSuccess]
    | ok c => simp at h; rw [← h.1]; exact ⟨this.1, by simp, this.2.1, this.2.2⟩
    | err e => exact absurd rfl (this.2.1 e)
    | hang => simp at h; rw [← h.1]; exact ⟨this.1, nofun, nofun, nofun⟩
  rcases hx : handleBind (recordLdif rep g stats) req s with ⟨r, st'⟩
  obtain ⟨k1, k2, k3, k4⟩ := hh r st' hx
  cases r with
  | panic => exact absurd rfl k2
  | hang => exact ⟨fun _ => k1 rfl, nofun⟩
  | err e => exact absurd rfl (k3 e)
  | ok code =>
    dsimp only
    by_cases hc : code = rcSuccess
    · rw [if_pos hc]
      obtain ⟨d, hd⟩ := k4 (by rw [hc])
      rw [hd]
      dsimp only
      split
      · exact ⟨nofun, nofun⟩
      · split <;> exact ⟨nofun, nofun⟩
    · rw [if_neg hc]; exact ⟨nofun, nofun⟩

theorem search_end_calm (rep : LRep) (id : Int) (b : Str) (req : Packet) (controls : List Control) (s : Option LCall) :
    ((stepSearch V (recordLdif rep g stats) id b req controls s).next = .hang → rep.toSearch = .hang) ∧
    ((stepSearch V (recordLdif rep g stats) id b req controls s).next = .crash →
      (rep.toSearch = .panic ∨ ∃ e, rep.toSearch = .err e) ∧ ∃ r, (stepSearch V (recordLdif rep g stats) id b req controls s).st = some (.search b r)) := by
  unfold stepSearch handleSearch
  cases hp : parseSearchRequest req controls with
  | none => exact ⟨nofun, nofun⟩
  | some r =>
    have he : (recordLdif rep g stats).enforce = false := rfl
    have hk : pick (recordLdif rep g stats).searchFns r.baseDN = some (fun bound r _ => (rep.toSearch, some (.search bound r))) := by
      rw [show (recordLdif rep g stats).searchFns = [([], fun bound r _ => (rep.toSearch, some (.search bound r)))] from rfl, pick_single]
    simp only [he, Bool.false_eq_true, if_false, hk]
    cases rep.toSearch with
    | err e => exact ⟨nofun, fun _ => ⟨.inr ⟨e, rfl⟩, r, rfl⟩⟩
    | panic => exact ⟨nofun, fun _ => ⟨.inl rfl, r, rfl⟩⟩
    | hang => exact ⟨fun _ => rfl, nofun⟩
    | ok sr => cases hb : sr.err <;> simp [hb, recordLdif]

/-- Which packets end in a crash or block, given what the handler returned. -/
theorem end_calm (rep : LRep) (o : Oracle) (ho : ∀ i k, o.rnd i = some k → k < 74) (p : Packet) (b : Str) :
    ((ldifEnd V g stats o p b rep).2 = .crash → (∃ q ∈ controlsOf p, V.control q = .panic) ∨
      (∃ id req l c, Message p id req ∧ req.tag = 6 ∧ b ≠ [] ∧ req.kids[1]? = some l ∧ c ∈ l.kids ∧ BadChange c) ∨
      ((rep.toSearch = .panic ∨ ∃ e, rep.toSearch = .err e) ∧ ∃ r, ldifCall V g stats o p b = some (.search b r))) ∧
    ((ldifEnd V g stats o p b rep).2 = .hang → (∃ q ∈ controlsOf p, V.control q = .hang) ∨ (stats = true ∧ ∃ id req, Message p id req ∧ req.tag = 8) ∨
      rep.toBind = .hang ∨ rep.toSearch = .hang) := by
  have hst := ldifCall_rep (V := V) (g := g) (stats := stats) o p b rep
  unfold ldifEnd
  dsimp only
  have hc := handlePacket_cases V (recordLdif rep g stats) o p b none
  generalize handlePacket V (recordLdif rep g stats) o p b none = out at hst hc
  have hw := fun req => writes_calm (V := V) (g := g) (stats := stats) rep b req none
  have hctl : ∀ {m req : Packet} {more : List Packet}, p.kids = m :: req :: more → controlsOf p = (more.head?.map Packet.kids).getD [] := by
    intro m req more hk
    unfold controlsOf
    rw [hk]
    cases more <;> rfl
  cases hc with
  | closed => exact ⟨nofun, nofun⟩
  | crash more m req h1 h2 h3 =>
    refine ⟨fun _ => .inl ?_, nofun⟩
    have hd := decodeControls_calm V ((more.head?.map Packet.kids).getD [])
    rw [hctl h1]
    rcases h3 with hp | ⟨e, hp⟩
    · exact hd.2.1 hp
    · exact absurd hp (hd.1 e)
  | hang more m req h1 h2 h3 =>
    refine ⟨nofun, fun _ => .inl ?_⟩
    rw [hctl h1]
    exact (decodeControls_calm V ((more.head?.map Packet.kids).getD [])).2.2 h3
  | addHang id req h1 h2 h3 => exact ⟨nofun, fun _ => .inr (.inl ⟨h3, id, req, h1, h2⟩)⟩
  | add id req h1 h2 h3 =>
    have := reply_calm (id := id) (tag := 9) (bound := b) (hw req).1
    exact ⟨fun h => (this.2 h).elim, fun h => absurd h this.1⟩
  | bind id req h1 h2 =>
    have := bind_end_calm (V := V) (g := g) (stats := stats) rep id b req none
    exact ⟨fun h => absurd h this.2, fun h => .inr (.inr (.inl (this.1 h)))⟩
  | compare id req h1 h2 => exact ⟨nofun, nofun⟩
  | delete id req h1 h2 =>
    have := reply_calm (id := id) (tag := 11) (bound := b) (hw req).2.1
    exact ⟨fun h => (this.2 h).elim, fun h => absurd h this.1⟩
  | extended id req h1 h2 =>
    have := ext_calm (V := V) (g := g) (stats := stats) rep o ho id b req none
    exact ⟨fun h => absurd h this.2, fun h => absurd h this.1⟩
  | modifyDN id req h1 h2 =>
    have := reply_calm (id := id) (tag := 13) (bound := b) (hw req).2.2.1
    exact ⟨fun h => (this.2 h).elim, fun h => absurd h this.1⟩
  | modify id req h1 h2 =>
    have := reply_calm (id := id) (tag := 7) (bound := b) (hw req).2.2.2
    refine ⟨fun h => ?_, fun h => absurd h this.1⟩
    obtain ⟨k1, l, c, k2, k3, k4⟩ := this.2 h
    exact .inr (.inl ⟨id, req, l, c, h1, h2, k1, k2, k3, k4⟩)
  | search id req controls h1 h2 h3 =>
    have := search_end_calm (V := V) (g := g) (stats := stats) rep id b req controls none
    refine ⟨fun h => ?_, fun h => .inr (.inr (.inr (this.1 h)))⟩
    obtain ⟨k1, r, k2⟩ := this.2 h
    exact .inr (.inr ⟨k1, r, by rw [← hst]; exact k2⟩)

end
end Idm
