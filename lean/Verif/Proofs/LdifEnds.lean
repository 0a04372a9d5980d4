import Verif.Proofs.LdifParallel
/-!
# The LDIF server: what is sent when the handler has returned
-/
namespace Idm

section
variable {V : Env} {g : Nat} {stats : Bool}

theorem bindBody_noted (rep : LRep) (req : Packet) (q : LCall) (h : (bindBody (recordLdif rep g stats) req none).2 = some q) :
    ∃ dn pw d, q = .bind dn pw ∧ req.kids[1]? = some d ∧ d.str? = some dn := by
  unfold bindBody at h
  split at h
  · cases h
  split at h
  · cases h
  split at h
  · cases h
  split at h
  · cases h
  rename_i d hd
  split at h
  · cases h
  rename_i dn hdn
  split at h
  · cases h
  rename_i auth _
  refine ⟨dn, auth.data, d, ?_, hd, hdn⟩
  split at h
  · split at h
    · rw [show (recordLdif rep g stats).bindFns = [([], fun dn pw _ => (rep.toBind, some (.bind dn pw)))] from rfl, pick_single] at h
      dsimp only at h
      cases hr : rep.toBind with
      | ok x => rw [hr] at h; obtain ⟨c, e⟩ := x; cases e <;> (cases h; rfl)
      | _ => rw [hr] at h; cases h; rfl
    · cases h
  · cases h

theorem stepBind_noted (rep : LRep) (id : Int) (b : Str) (req : Packet) (q : LCall) (h : (stepBind V (recordLdif rep g stats) id b req none).st = some q) :
    ∃ dn pw d, q = .bind dn pw ∧ req.kids[1]? = some d ∧ d.str? = some dn := by
  have h2 : (handleBind (recordLdif rep g stats) req none).2 = some q := by
    unfold stepBind at h
    cases hx : handleBind (recordLdif rep g stats) req none with
    | mk x st =>
      rw [hx] at h
      cases x with
      | ok code =>
        dsimp only at h
        split at h
        · split at h
          · exact h
          · split at h
            · exact h
            · split at h <;> exact h
        · exact h
      | _ => exact h
  refine bindBody_noted (g := g) (stats := stats) rep req q ?_
  unfold handleBind at h2
  cases hx : bindBody (recordLdif rep g stats) req none with
  | mk x st => rw [hx] at h2; cases x <;> exact h2

/-- What is sent for the result of a search. -/
def sentBy (mid : Int) : Res SearchRes → List Resp
  | .ok sr => if sr.err then [.searchDone mid sr.code (some sr.controls)] else sr.entries.map (.entry mid) ++ [.searchDone mid 0 (some sr.controls)]
  | _ => []

theorem stepSearch_record (rep : LRep) (mid : Int) (b : Str) (req : Packet) (controls : List Control) :
    (parseSearchRequest req controls = none ∧ (stepSearch V (recordLdif rep g stats) mid b req controls none).st = none ∧
      (stepSearch V (recordLdif rep g stats) mid b req controls none).resps = [.searchDone mid rcOperationsError none]) ∨
    ∃ r, parseSearchRequest req controls = some r ∧ (stepSearch V (recordLdif rep g stats) mid b req controls none).st = some (.search b r) ∧
      (stepSearch V (recordLdif rep g stats) mid b req controls none).resps = sentBy mid rep.toSearch := by
  unfold stepSearch handleSearch
  cases hp : parseSearchRequest req controls with
  | none => exact .inl ⟨rfl, rfl, rfl⟩
  | some r =>
    refine .inr ⟨r, rfl, ?_⟩
    have he : (recordLdif rep g stats).enforce = false := rfl
    have hk : pick (recordLdif rep g stats).searchFns r.baseDN = some (fun bound r _ => (rep.toSearch, some (.search bound r))) := by
      rw [show (recordLdif rep g stats).searchFns = [([], fun bound r _ => (rep.toSearch, some (.search bound r)))] from rfl, pick_single]
    simp only [he, Bool.false_eq_true, if_false, hk]
    cases rep.toSearch with
    | err e => exact ⟨rfl, rfl⟩
    | panic => exact ⟨rfl, rfl⟩
    | hang => exact ⟨rfl, rfl⟩
    | ok sr => cases hb : sr.err <;> simp [sentBy, hb, recordLdif, rcSuccess]

theorem reply_quiet {σ : Type} (id : Int) (tag : Nat) (b : Str) (x : Res Nat × σ) :
    entriesOf (reply id tag b x).resps = [] ∧ ∀ key, ¬ GivesCookie (reply id tag b x).resps key := by
  obtain ⟨y, st⟩ := x
  cases y with
  | ok code => exact ⟨by unfold reply; rfl, fun key h => by obtain ⟨_, _, _, h, _⟩ := h; simp [reply] at h⟩
  | _ => exact ⟨by unfold reply; rfl, fun key h => by obtain ⟨_, _, _, h, _⟩ := h; simp [reply] at h⟩

theorem reply_no_search {σ : Type} (id : Int) (tag : Nat) (b : Str) (x : Res Nat × σ) (mid : Int) (code : Nat) (cs : Option (List Control)) :
    .searchDone mid code cs ∉ (reply id tag b x).resps := by
  obtain ⟨y, st⟩ := x
  cases y <;> simp [reply]

/-- A packet leads to a search, and its result is sent; or no entries and no cookie are sent, nor that the server is unwilling to search. -/
theorem end_cases (o : Oracle) (p : Packet) (b : Str) (rep : LRep) :
    (∃ mid req r, Message p mid req ∧ req.tag = 3 ∧ parseSearchRequest req r.controls = some r ∧ decodeControls V (controlsOf p) = .ok r.controls ∧
      ldifCall V g stats o p b = some (.search b r) ∧ (ldifEnd V g stats o p b rep).1 = sentBy mid rep.toSearch) ∨
    (entriesOf (ldifEnd V g stats o p b rep).1 = [] ∧ (∀ key, ¬ GivesCookie (ldifEnd V g stats o p b rep).1 key) ∧
      ∀ mid cs, .searchDone mid rcUnwillingToPerform cs ∉ (ldifEnd V g stats o p b rep).1) := by
  have hst := ldifCall_rep (V := V) (g := g) (stats := stats) o p b rep
  unfold ldifEnd
  dsimp only
  have hc := handlePacket_cases V (recordLdif rep g stats) o p b none
  generalize handlePacket V (recordLdif rep g stats) o p b none = out at hst hc
  have nil : entriesOf ([] : List Resp) = [] ∧ (∀ key, ¬ GivesCookie [] key) ∧ ∀ mid cs, .searchDone mid rcUnwillingToPerform cs ∉ ([] : List Resp) :=
    ⟨rfl, fun key h => by (obtain ⟨_, _, _, h, _⟩ := h; cases h), by simp⟩
  have one : ∀ a t c, entriesOf [Resp.result a t c] = [] ∧ (∀ key, ¬ GivesCookie [Resp.result a t c] key) ∧
      ∀ mid cs, .searchDone mid rcUnwillingToPerform cs ∉ [Resp.result a t c] :=
    fun a t c => ⟨rfl, fun key h => by (obtain ⟨_, _, _, h, _⟩ := h; simp at h), by simp⟩
  have rep' : ∀ (id : Int) (tag : Nat) (x : Res Nat × Option LCall), entriesOf (reply id tag b x).resps = [] ∧
      (∀ key, ¬ GivesCookie (reply id tag b x).resps key) ∧ ∀ mid cs, .searchDone mid rcUnwillingToPerform cs ∉ (reply id tag b x).resps :=
    fun id tag x => ⟨(reply_quiet id tag b x).1, (reply_quiet id tag b x).2, fun mid cs => reply_no_search id tag b x mid _ cs⟩
  cases hc with
  | closed => exact .inr nil
  | crash more m req h1 h2 h3 => exact .inr nil
  | hang more m req h1 h2 h3 => exact .inr nil
  | addHang id req h1 h2 h3 => exact .inr nil
  | add id req h1 h2 h3 => exact .inr (rep' _ _ _)
  | bind id req h1 h2 =>
    refine .inr ?_
    rcases stepBind_cases V (recordLdif rep g stats) id b req none with ⟨c, e, -⟩ | ⟨d, dn, b', e, -⟩ | e | e | ⟨e, -⟩ <;> rw [e] <;>
      first | exact nil | exact one _ _ _
  | compare id req h1 h2 => exact .inr (one _ _ _)
  | delete id req h1 h2 => exact .inr (rep' _ _ _)
  | extended id req h1 h2 =>
    refine .inr ?_
    rcases stepExtended_cases V (recordLdif rep g stats) o id b req none with ⟨e, -⟩ | ⟨c, oid, gen, e, -⟩ | ⟨e, -⟩ | ⟨e, -⟩ <;> rw [e]
    · exact one _ _ _
    · exact ⟨rfl, fun key h => by (obtain ⟨_, _, _, h, _⟩ := h; simp at h), by simp⟩
    · exact nil
    · exact nil
  | modifyDN id req h1 h2 => exact .inr (rep' _ _ _)
  | modify id req h1 h2 => exact .inr (rep' _ _ _)
  | search mid req controls h1 h2 h3 =>
    rcases stepSearch_record (V := V) (g := g) (stats := stats) rep mid b req controls with ⟨e1, e2, e3⟩ | ⟨r, e1, e2, e3⟩
    · rw [e3]
      exact .inr ⟨rfl, fun key h => by (obtain ⟨_, _, _, h, _⟩ := h; simp at h), by simp [rcUnwillingToPerform, rcOperationsError]⟩
    · rw [e2] at hst
      have hq := hst.symm
      have hcs := parseSearchRequest_controls e1
      obtain ⟨-, mid', req', k1, k2, k3, k4⟩ := ldifCall_search hq
      obtain ⟨-, rfl⟩ := message_unique h1 k1
      exact .inl ⟨mid, req, r, h1, h2, k3, k4, hq, e3⟩

/-- The call of `Bind` is made for bind requests, with the name in the request. -/
theorem call_bind {o : Oracle} {p : Packet} {b dn pw : Str} (h : ldifCall V g stats o p b = some (.bind dn pw)) : BindName p dn := by
  have hreply : ∀ id tag (x : Res Nat × Option LCall), (reply id tag b x).st = x.2 := by
    intro id tag x; obtain ⟨y, st⟩ := x; cases y <;> rfl
  unfold ldifCall at h
  have hc := handlePacket_cases V (recordLdif .nothing g stats) o p b none
  generalize handlePacket V (recordLdif .nothing g stats) o p b none = out at h hc
  cases hc with
  | closed => cases h
  | crash more m req h1 h2 h3 => cases h
  | hang more m req h1 h2 h3 => cases h
  | addHang id req h1 h2 h3 => cases h
  | add id req h1 h2 h3 => rw [hreply, (writes_noted .nothing b req o).1] at h; cases h
  | bind id req h1 h2 =>
    obtain ⟨dn', pw', d, e1, e2, e3⟩ := stepBind_noted .nothing id b req _ h
    cases e1
    exact ⟨id, req, d, h1, h2, e2, str?_iff.1 e3⟩
  | compare id req h1 h2 => cases h
  | delete id req h1 h2 => rw [hreply, (writes_noted .nothing b req o).2.1] at h; cases h
  | extended id req h1 h2 =>
    have := (writes_noted (V := V) (g := g) (stats := stats) .nothing b req o).2.2.2.2
    unfold stepExtended at h
    cases hx : handleExtended V (recordLdif .nothing g stats) o b req none with
    | mk x st =>
      rw [hx] at this h
      cases x with
      | ok a => cases a <;> exact absurd (h.symm.trans this) (by nofun)
      | _ => exact absurd (h.symm.trans this) (by nofun)
  | modifyDN id req h1 h2 => rw [hreply, (writes_noted .nothing b req o).2.2.2.1] at h; cases h
  | modify id req h1 h2 => rw [hreply, (writes_noted .nothing b req o).2.2.1] at h; cases h
  | search id req controls h1 h2 h3 =>
    rcases stepSearch_record (V := V) (g := g) (stats := stats) .nothing id b req controls with ⟨_, e2, _⟩ | ⟨r, _, e2, _⟩
    · rw [e2] at h; cases h
    · rw [e2] at h; cases h

/-! ## What the loop takes -/

/-- One turn of the loop. -/
theorem eat_kept (con : LdifCon) (x : LEntry) :
    (∀ con', ldifEat V con x = .inl con' → con' = { con with taken := con.taken ++ ([x].filter (kept V.C con.fp con.r)).map fun x => filterAttributes V.C con.r.attrs x.visible }) ∧
    (∀ es, ldifEat V con x = .inr (.ok (es, rcSuccess)) → es = con.taken ++ ([x].filter (kept V.C con.fp con.r)).map fun x => filterAttributes V.C con.r.attrs x.visible) := by
  unfold ldifEat kept
  cases hf : applyFilter V.C x.visible con.fp with
  | err e => exact ⟨nofun, nofun⟩
  | panic => exact ⟨nofun, nofun⟩
  | hang => exact ⟨nofun, nofun⟩
  | ok kc =>
    obtain ⟨keep, code⟩ := kc
    dsimp only
    by_cases hc : code ≠ rcSuccess
    · rw [if_pos hc]
      refine ⟨nofun, fun es h => ?_⟩
      cases h
      exact absurd rfl hc
    · rw [if_neg hc]
      rw [ne_eq, Classical.not_not] at hc
      subst hc
      cases keep with
      | false =>
        rw [if_pos (by rfl)]
        refine ⟨fun con' h => ?_, nofun⟩
        cases h
        simp [hf]
      | true =>
        rw [if_neg (by simp)]
        cases hs : filterScope V.C con.r.baseDN (scopeNat con.r.scope) x.visible with
        | mk keep code =>
          dsimp only
          by_cases hc : code ≠ rcSuccess
          · rw [if_pos hc]
            refine ⟨nofun, fun es h => ?_⟩
            cases h
            exact absurd rfl hc
          · rw [if_neg hc]
            rw [ne_eq, Classical.not_not] at hc
            subst hc
            cases keep with
            | false =>
              rw [if_pos (by rfl)]
              refine ⟨fun con' h => ?_, nofun⟩
              cases h
              simp [hf, hs]
            | true =>
              rw [if_neg (by simp)]
              split
              · refine ⟨nofun, fun es h => ?_⟩
                cases h
                simp [hf, hs]
              · split
                · refine ⟨nofun, fun es h => ?_⟩
                  cases h
                  simp [hf, hs]
                · refine ⟨fun con' h => ?_, nofun⟩
                  cases h
                  simp [hf, hs]

/-- The loop has taken the entries that the filter and the scope keep. -/
theorem eatAll_kept (l : List LEntry) (con con' : LdifCon) (h : eatAll (ρ := Res (List Entry × Nat)) (ldifEat V) con l = .waiting con') :
    con' = { con with taken := con.taken ++ (l.filter (kept V.C con.fp con.r)).map fun x => filterAttributes V.C con.r.attrs x.visible } := by
  induction l generalizing con with
  | nil => cases h; simp
  | cons x l ih =>
    rw [eatAll] at h
    cases he : ldifEat V con x with
    | inl con1 =>
      rw [he] at h
      have e := (eat_kept con x).1 con1 he
      have := ih con1 h
      rw [this, e]
      simp only [List.append_assoc, ← List.map_append, ← List.filter_append]
      rfl
    | inr res => rw [he] at h; cases h

end
end Idm
