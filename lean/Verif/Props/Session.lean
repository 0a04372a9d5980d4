import Verif.Proofs.Session
import Verif.Spec.Toy
/-!
# C21 identity of a connection, C28 responses: for every set of handlers
-/
namespace Idm

section
variable {σ : Type} {V : Env} {srv : Srv σ}

/-- One round: the identity changes only by a bind answered with success, to the normalised name of that bind. -/
theorem step_identity (o : Oracle) (p : Packet) (bound b : Str) (st : σ) (h : (handlePacket V srv o p bound st).next = .go b) :
    (BindOk (handlePacket V srv o p bound st).resps ∧ ∃ dn, BindName p dn ∧ parseNormalize V.C dn = some b) ∨
    (¬ BindOk (handlePacket V srv o p bound st).resps ∧ b = bound) := by
  have rep : ∀ id tag (x : Res Nat × σ), tag ≠ 1 → (reply id tag bound x).next = .go b →
      ¬ BindOk (reply id tag bound x).resps ∧ b = bound := by
    intro id tag x ht hn
    rcases reply_cases id tag bound x with ⟨code, h, -⟩ | ⟨h, -⟩ | ⟨h, -⟩
    · rw [h] at hn ⊢
      cases hn
      refine ⟨?_, rfl⟩
      rintro ⟨r, hr, h1, -⟩
      simp only [List.mem_singleton] at hr
      subst hr
      exact ht h1
    · rw [h] at hn; cases hn
    · rw [h] at hn; cases hn
  have hc := handlePacket_cases V srv o p bound st
  revert h hc
  generalize handlePacket V srv o p bound st = out
  intro h hc
  cases hc with
  | closed => cases h
  | crash => cases h
  | hang => cases h
  | addHang => cases h
  | compare => cases h
  | add id req hm ht hs => exact Or.inr (rep id 9 _ (by decide) h)
  | delete id req hm ht => exact Or.inr (rep id 11 _ (by decide) h)
  | modifyDN id req hm ht => exact Or.inr (rep id 13 _ (by decide) h)
  | modify id req hm ht => exact Or.inr (rep id 7 _ (by decide) h)
  | bind id req hm ht =>
    rcases stepBind_cases V srv id bound req st with ⟨code, e, hne, -⟩ | ⟨d, dn, b', e, h1, h2, h3, -⟩ | e | e | ⟨e, -⟩
    · rw [e] at h ⊢
      cases h
      right
      refine ⟨?_, rfl⟩
      rintro ⟨r, hr, -, h2⟩
      simp only [List.mem_singleton] at hr
      subst hr
      simp only [Resp.code?, Option.some.injEq] at h2
      exact hne h2
    · rw [e] at h ⊢
      cases h
      exact Or.inl ⟨⟨_, List.mem_singleton_self _, rfl, rfl⟩, dn, ⟨id, req, d, hm, ht, h1, h2⟩, h3⟩
    all_goals rw [e] at h; cases h
  | extended id req hm ht =>
    rcases stepExtended_cases V srv o id bound req st with ⟨e, -⟩ | ⟨code, oid, gen, e, -⟩ | ⟨e, -⟩ | ⟨e, -⟩
    · rw [e] at h ⊢
      cases h
      right
      refine ⟨?_, rfl⟩
      rintro ⟨r, hr, h1, -⟩
      simp only [List.mem_singleton] at hr
      subst hr
      cases h1
    · rw [e] at h ⊢
      cases h
      right
      refine ⟨?_, rfl⟩
      rintro ⟨r, hr, h1, -⟩
      simp only [List.mem_singleton] at hr
      subst hr
      cases h1
    all_goals rw [e] at h; cases h
  | search id req controls hm ht =>
    rcases stepSearch_cases V srv id bound req controls st with ⟨out, -, -, e⟩ | ⟨out, -, -, e⟩ | ⟨sent, e, -⟩ | ⟨sent, e, -⟩
    · rw [e] at h ⊢
      cases h
      right
      refine ⟨?_, rfl⟩
      rintro ⟨r, hr, h1, -⟩
      simp only [List.mem_append, List.mem_map, List.mem_singleton] at hr
      rcases hr with ⟨_, _, rfl⟩ | rfl <;> cases h1
    all_goals rw [e] at h; cases h

theorem serve_identity (b0 b : Str) (st : σ) (ps : List (Packet × Oracle)) (h : (serveFrom V srv b0 st ps).next = .go b) :
    (b = b0 ∧ ∀ x ∈ (serveFrom V srv b0 st ps).log, ¬ BindOk x.2) ∨
    ∃ before p rs after dn, (serveFrom V srv b0 st ps).log = before ++ (p, rs) :: after ∧ BindOk rs ∧ (∀ x ∈ after, ¬ BindOk x.2) ∧
      BindName p dn ∧ parseNormalize V.C dn = some b := by
  induction ps generalizing b0 st with
  | nil => left; cases h; exact ⟨rfl, by simp [serveFrom]⟩
  | cons x ps ih =>
    obtain ⟨p, o⟩ := x
    rw [serveFrom] at h ⊢
    dsimp only at h ⊢
    cases hn : (handlePacket V srv o p b0 st).next with
    | go b1 =>
      rw [hn] at h
      dsimp only at h ⊢
      have hs := step_identity (V := V) (srv := srv) o p b0 b1 st hn
      rcases ih b1 _ h with ⟨rfl, h2⟩ | ⟨before, q, rs, after, dn, h1, h2, h3, h4, h5⟩
      · rcases hs with ⟨k1, dn, k2, k3⟩ | ⟨k1, rfl⟩
        · exact Or.inr ⟨[], p, _, _, dn, rfl, k1, h2, k2, k3⟩
        · left
          refine ⟨rfl, fun x hx => ?_⟩
          simp only [List.mem_cons] at hx
          rcases hx with rfl | hx
          · exact k1
          · exact h2 x hx
      · right
        exact ⟨(p, _) :: before, q, rs, after, dn, by rw [h1]; rfl, h2, h3, h4, h5⟩
    | closed => rw [hn] at h; cases h
    | crash => rw [hn] at h; cases h
    | hang => rw [hn] at h; cases h

/-- C21: after any packets the identity of an open connection is the normalised name of the last bind that was answered with success; it
is anonymous if there was none. For every server, whatever its handlers do. -/
theorem C21_identity (st : σ) (ps : List (Packet × Oracle)) (b : Str) (h : (serveFrom V srv [] st ps).next = .go b) :
    (b = [] ∧ ∀ x ∈ (serveFrom V srv [] st ps).log, ¬ BindOk x.2) ∨
    ∃ before p rs after dn, (serveFrom V srv [] st ps).log = before ++ (p, rs) :: after ∧ BindOk rs ∧ (∀ x ∈ after, ¬ BindOk x.2) ∧
      BindName p dn ∧ parseNormalize V.C dn = some b :=
  serve_identity [] b st ps h

/-- The packets of an open connection have all been read and answered in order. -/
theorem C21_log (b0 b : Str) (st : σ) (ps : List (Packet × Oracle)) (h : (serveFrom V srv b0 st ps).next = .go b) :
    (serveFrom V srv b0 st ps).log.map (·.1) = ps.map (·.1) := by
  induction ps generalizing b0 st with
  | nil => rfl
  | cons x ps ih =>
    obtain ⟨p, o⟩ := x
    rw [serveFrom] at h ⊢
    dsimp only at h ⊢
    cases hn : (handlePacket V srv o p b0 st).next with
    | go b1 =>
      rw [hn] at h
      dsimp only at h ⊢
      rw [List.map_cons, ih b1 _ h]
      rfl
    | closed => rw [hn] at h; cases h
    | crash => rw [hn] at h; cases h
    | hang => rw [hn] at h; cases h

/-- a connection that binds twice, fails to bind, and goes on as the second user -/
example : (serveFrom toyEnv toySrv [] toyDb [(wMsg 1 (wBind b!"uid=ann,dc=LG" b!"pw"), toyOracle),
      (wMsg 2 (wBind b!"UID=admin,dc=lg" b!"secret"), toyOracle), (wMsg 3 (wBind b!"uid=ann,dc=lg" b!"wrong"), toyOracle)]).next =
    .go b!"uid=admin,dc=lg" := by decide +kernel

/-! ## C28 -/

/-- C28: every response carries the message id of the request it answers. -/
theorem C28_ids (o : Oracle) (p : Packet) (bound : Str) (st : σ) :
    ∀ r ∈ (handlePacket V srv o p bound st).resps, ∃ req, Message p r.id req := by
  have rep : ∀ id tag (x : Res Nat × σ), ∀ r ∈ (reply id tag bound x).resps, r.id = id := by
    intro id tag x r hr
    rcases reply_cases id tag bound x with ⟨code, h, -⟩ | ⟨h, -⟩ | ⟨h, -⟩
    · rw [h] at hr; simp only [List.mem_singleton] at hr; subst hr; rfl
    · rw [h] at hr; simp at hr
    · rw [h] at hr; simp at hr
  have hc := handlePacket_cases V srv o p bound st
  generalize handlePacket V srv o p bound st = out at *
  intro r hr
  cases hc with
  | closed => simp at hr
  | crash => simp at hr
  | hang => simp at hr
  | addHang => simp at hr
  | compare id req hm ht => simp only [List.mem_singleton] at hr; subst hr; exact ⟨req, hm⟩
  | add id req hm ht hs => rw [rep id 9 _ r hr]; exact ⟨req, hm⟩
  | delete id req hm ht => rw [rep id 11 _ r hr]; exact ⟨req, hm⟩
  | modifyDN id req hm ht => rw [rep id 13 _ r hr]; exact ⟨req, hm⟩
  | modify id req hm ht => rw [rep id 7 _ r hr]; exact ⟨req, hm⟩
  | bind id req hm ht =>
    rcases stepBind_cases V srv id bound req st with ⟨code, e, -, -⟩ | ⟨d, dn, b', e, -⟩ | e | e | ⟨e, -⟩
    all_goals rw [e] at hr
    · simp only [List.mem_singleton] at hr; subst hr; exact ⟨req, hm⟩
    · simp only [List.mem_singleton] at hr; subst hr; exact ⟨req, hm⟩
    all_goals simp at hr
  | extended id req hm ht =>
    rcases stepExtended_cases V srv o id bound req st with ⟨e, -⟩ | ⟨code, oid, gen, e, -⟩ | ⟨e, -⟩ | ⟨e, -⟩
    all_goals rw [e] at hr
    · simp only [List.mem_singleton] at hr; subst hr; exact ⟨req, hm⟩
    · simp only [List.mem_singleton] at hr; subst hr; exact ⟨req, hm⟩
    all_goals simp at hr
  | search id req controls hm ht =>
    rcases stepSearch_cases V srv id bound req controls st with ⟨out, -, -, e⟩ | ⟨out, -, -, e⟩ | ⟨sent, e, -⟩ | ⟨sent, e, -⟩
    all_goals rw [e] at hr
    · simp only [List.mem_append, List.mem_map, List.mem_singleton] at hr
      rcases hr with ⟨_, _, rfl⟩ | rfl <;> exact ⟨req, hm⟩
    · simp only [List.mem_append, List.mem_map, List.mem_singleton] at hr
      rcases hr with ⟨_, _, rfl⟩ | rfl <;> exact ⟨req, hm⟩
    · simp only [List.mem_map] at hr
      obtain ⟨_, _, rfl⟩ := hr
      exact ⟨req, hm⟩
    · simp only [List.mem_map] at hr
      obtain ⟨_, _, rfl⟩ := hr
      exact ⟨req, hm⟩

/-- C28: if the connection goes on after a packet then the packet was a request of one of the seven kinds, and it was answered by exactly
one final response of the matching kind, preceded by search result entries only if it is a search. (Missing: requests after which the
connection does not go on: `C28_closed` for closed ones; with statistics an add is not answered at all, `C28_stats_fails`.) -/
theorem C28_one_final_partial (o : Oracle) (p : Packet) (bound b : Str) (st : σ) (h : (handlePacket V srv o p bound st).next = .go b) :
    ∃ id req tag entries final, Message p id req ∧ (req.tag, tag) ∈ responseTags ∧
      (handlePacket V srv o p bound st).resps = entries ++ [final] ∧ final.final = true ∧ final.tag = tag ∧ final.id = id ∧
      (∀ r ∈ entries, r.final = false) ∧ (entries ≠ [] → req.tag = 3) := by
  have rep : ∀ id tag (x : Res Nat × σ), (reply id tag bound x).next = .go b →
      ∃ code, (reply id tag bound x).resps = [] ++ [.result id tag code] := by
    intro id tag x hn
    rcases reply_cases id tag bound x with ⟨code, h, -⟩ | ⟨h, -⟩ | ⟨h, -⟩
    · rw [h]; exact ⟨code, rfl⟩
    · rw [h] at hn; cases hn
    · rw [h] at hn; cases hn
  have hc := handlePacket_cases V srv o p bound st
  generalize handlePacket V srv o p bound st = out at *
  cases hc with
  | closed => cases h
  | crash => cases h
  | hang => cases h
  | addHang => cases h
  | compare => cases h
  | add id req hm ht hs =>
    obtain ⟨code, e⟩ := rep id 9 _ h
    exact ⟨id, req, 9, [], _, hm, by rw [ht]; decide, e, rfl, rfl, rfl, by simp, by simp⟩
  | delete id req hm ht =>
    obtain ⟨code, e⟩ := rep id 11 _ h
    exact ⟨id, req, 11, [], _, hm, by rw [ht]; decide, e, rfl, rfl, rfl, by simp, by simp⟩
  | modifyDN id req hm ht =>
    obtain ⟨code, e⟩ := rep id 13 _ h
    exact ⟨id, req, 13, [], _, hm, by rw [ht]; decide, e, rfl, rfl, rfl, by simp, by simp⟩
  | modify id req hm ht =>
    obtain ⟨code, e⟩ := rep id 7 _ h
    exact ⟨id, req, 7, [], _, hm, by rw [ht]; decide, e, rfl, rfl, rfl, by simp, by simp⟩
  | bind id req hm ht =>
    rcases stepBind_cases V srv id bound req st with ⟨code, e, -, -⟩ | ⟨d, dn, b', e, -⟩ | e | e | ⟨e, -⟩
    all_goals rw [e] at h ⊢
    · exact ⟨id, req, 1, [], _, hm, by rw [ht]; decide, rfl, rfl, rfl, rfl, by simp, by simp⟩
    · exact ⟨id, req, 1, [], _, hm, by rw [ht]; decide, rfl, rfl, rfl, rfl, by simp, by simp⟩
    all_goals cases h
  | extended id req hm ht =>
    rcases stepExtended_cases V srv o id bound req st with ⟨e, -⟩ | ⟨code, oid, gen, e, -⟩ | ⟨e, -⟩ | ⟨e, -⟩
    all_goals rw [e] at h ⊢
    · exact ⟨id, req, 24, [], _, hm, by rw [ht]; decide, rfl, rfl, rfl, rfl, by simp, by simp⟩
    · exact ⟨id, req, 24, [], _, hm, by rw [ht]; decide, rfl, rfl, rfl, rfl, by simp, by simp⟩
    all_goals cases h
  | search id req controls hm ht =>
    rcases stepSearch_cases V srv id bound req controls st with ⟨out, -, -, e⟩ | ⟨out, -, -, e⟩ | ⟨sent, e, -⟩ | ⟨sent, e, -⟩
    all_goals rw [e] at h ⊢
    · refine ⟨id, req, 5, _, _, hm, by rw [ht]; decide, rfl, rfl, rfl, rfl, ?_, fun _ => ht⟩
      intro r hr
      obtain ⟨_, _, rfl⟩ := List.mem_map.1 hr
      rfl
    all_goals cases h

/-- C28: if the connection is closed after a packet then either nothing was sent, or it was a compare request, or a search that was
answered with its entries and one final response. -/
theorem C28_closed (o : Oracle) (p : Packet) (bound : Str) (st : σ) (h : (handlePacket V srv o p bound st).next = .closed) :
    (handlePacket V srv o p bound st).resps = [] ∨
    (∃ id req, Message p id req ∧ req.tag = 14 ∧ (handlePacket V srv o p bound st).resps = [.result id 14 rcOperationsError]) ∨
    ∃ id req, ∃ es : List Entry, ∃ code controls, Message p id req ∧ req.tag = 3 ∧
      (handlePacket V srv o p bound st).resps = es.map (.entry id) ++ [.searchDone id code controls] := by
  have hc := handlePacket_cases V srv o p bound st
  generalize handlePacket V srv o p bound st = out at *
  have rep : ∀ id tag (x : Res Nat × σ), (reply id tag bound x).next ≠ .closed := by
    intro id tag x hn
    rcases reply_cases id tag bound x with ⟨code, h, -⟩ | ⟨h, -⟩ | ⟨h, -⟩ <;> rw [h] at hn <;> cases hn
  cases hc with
  | closed => exact Or.inl rfl
  | crash => cases h
  | hang => cases h
  | addHang => cases h
  | compare id req hm ht => exact Or.inr (Or.inl ⟨id, req, hm, ht, rfl⟩)
  | add => exact absurd h (rep _ _ _)
  | delete => exact absurd h (rep _ _ _)
  | modifyDN => exact absurd h (rep _ _ _)
  | modify => exact absurd h (rep _ _ _)
  | bind id req hm ht =>
    rcases stepBind_cases V srv id bound req st with ⟨code, e, -, -⟩ | ⟨d, dn, b', e, -⟩ | e | e | ⟨e, -⟩
    all_goals rw [e] at h ⊢
    any_goals cases h
    exact Or.inl rfl
  | extended id req hm ht =>
    rcases stepExtended_cases V srv o id bound req st with ⟨e, -⟩ | ⟨code, oid, gen, e, -⟩ | ⟨e, -⟩ | ⟨e, -⟩
    all_goals rw [e] at h; cases h
  | search id req controls hm ht =>
    rcases stepSearch_cases V srv id bound req controls st with ⟨out, -, -, e⟩ | ⟨out, -, -, e⟩ | ⟨sent, e, -⟩ | ⟨sent, e, -⟩
    all_goals rw [e] at h ⊢
    any_goals cases h
    exact Or.inr (Or.inr ⟨id, req, out.sent, out.code, out.controls, hm, ht, rfl⟩)

/-- With statistics an add request is not answered, and the connection is not closed. -/
theorem C28_stats_fails : ∃ p o id req bound, Message p id req ∧ req.tag = 8 ∧
    (handlePacket toyEnv (boltSrv toyEnv gobInstance toyCfg 8 true) o p bound toyDb).resps = [] ∧
    (handlePacket toyEnv (boltSrv toyEnv gobInstance toyCfg 8 true) o p bound toyDb).next = .hang :=
  ⟨wMsg 7 (wAdd ⟨b!"uid=x,dc=lg", []⟩), toyOracle, 7, wAdd ⟨b!"uid=x,dc=lg", []⟩, toyCfg.admin, ⟨_, [], rfl, rfl, rfl⟩, rfl,
    by decide +kernel⟩

/-- a search answered with an entry; one that is closed because of its size limit; a compare request -/
example : (toyReq [] (wSearch b!"dc=lg" 2 0 (ctxStr 7 b!"uid") [b!"mail"])).next = .go [] ∧
    (toyReq [] (wSearch b!"dc=lg" 2 1 (ctxStr 7 b!"uid") [b!"mail"])).next = .closed ∧
    (toyReq [] (wSearch b!"dc=lg" 2 1 (ctxStr 7 b!"uid") [b!"mail"])).resps =
      [.entry 7 ⟨b!"uid=admin,dc=lg", []⟩, .searchDone 7 4 (some [])] ∧
    (toyReq [] (wReq 14 [])).resps = [.result 7 14 1] := by decide +kernel

end
end Idm
