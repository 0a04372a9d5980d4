import Verif.Props.Router
import Verif.Props.BoltPw
import Verif.Proofs.World
import Verif.Spec.Toy
/-!
# C97: what registering a handler does to a server; C103: the close handlers
-/
namespace Idm

section
variable {σ : Type} {V : Env} {id : Int} {bound : Str} {o : Oracle}

/-- C97: a password modify request goes to the handler responsible for the user it names, or for the bound user if it names none, with the
old password as sent and the hash of the new password. -/
theorem C97_password {srv : Srv σ} {s : Str} (hn : OnePerSuffix srv.pwExopFns) {body new hash : Str} {user old : Option Str}
    (hbody : PwBody V body user old (some new))
    (hnew : new ≠ []) (hh : hashPw V.K o.salt new b!"{ARGON2}" = .ok hash)
    (hr : Responsible (srv.pwExopFns.map (·.1)) s (pwTarget user bound)) {f : Str → PwModReq → Act σ (Nat × Bool)} (hf : (s, f) ∈ srv.pwExopFns)
    (hb : bound ≠ []) (st : σ) :
    handlePacket V srv o (wMsg id (wPwModify body)) bound st =
      match f bound ⟨pwTarget user bound, old.getD [], hash⟩ st with
      | (.ok (code, true), st') => ⟨[.extended id code b!"1.3.6.1.4.1.4203.1.11.1" none], .go bound, st'⟩
      | (.ok (code, false), st') => if code = 0 then ⟨[.extended id 0 b!"1.3.6.1.4.1.4203.1.11.1" none], .go bound, st'⟩ else ⟨[], .crash, st'⟩
      | (.err (.ldap code true), st') => ⟨[.extended id code b!"1.3.6.1.4.1.4203.1.11.1" none], .go bound, st'⟩
      | (.err (.ldap _ false), st') => ⟨[], .crash, st'⟩
      | (.err _, st') => ⟨[.extended id 80 b!"1.3.6.1.4.1.4203.1.11.1" none], .go bound, st'⟩
      | (.panic, st') => ⟨[], .crash, st'⟩
      | (.hang, st') => ⟨[], .hang, st'⟩ := by
  rw [wPwModify_packet, stepExtended, handleExtended, wPwModify_parse]
  dsimp only
  rw [if_pos rfl, handlePwModify, if_neg hb, parsePwModify_body hbody]
  simp only [Option.getD_some, if_neg hnew, hh, pwTarget_eq, responsible_pick hn hr hf]
  rcases f bound ⟨pwTarget user bound, old.getD [], hash⟩ st with ⟨r, st'⟩
  rcases r with ⟨c, e⟩ | e | _ | _
  · cases e
    · by_cases hc : c = 0
      · subst hc; rfl
      · simp [pwExopAnswer, hc, rcSuccess]
    · by_cases hc : c = 0
      · subst hc; rfl
      · simp [pwExopAnswer, hc, rcSuccess]; rfl
  · rcases e with ⟨c, e⟩ | _ | _ | _ | _
    · cases e <;> rfl
    all_goals rfl
  · rfl
  · rfl

/-- The packet is a request with this operation tag. -/
def IsRequest (tag : Nat) (p : Packet) : Prop := ∃ id req, Message p id req ∧ req.tag = tag

/-- `pairs` are the handlers of `old` with `f` under `base`, in any order (a Go map has none). -/
def Registered {α : Type} (old : List (Str × α)) (base : Str) (f : α) (pairs : List (Str × α)) : Prop :=
  ∀ s g, (s, g) ∈ pairs ↔ (s = base ∧ g = f) ∨ (s ≠ base ∧ (s, g) ∈ old)

theorem registered_register {α : Type} (old : List (Str × α)) (base : Str) (f : α) : Registered old base f (register base f old) := by
  intro s g
  rw [mem_register]
  simp only [Prod.mk.injEq]
  exact ⟨fun h => h.elim .inl fun h => .inr ⟨h.2, h.1⟩, fun h => h.elim .inl fun h => .inr ⟨h.2, h.1⟩⟩

theorem packet_same {srv srv' : Srv σ} {p : Packet} {st : σ} (hc : srv'.close = srv.close) (hs : srv'.stats = srv.stats) (he : srv'.enforce = srv.enforce)
    (hg : srv'.genPwLen = srv.genPwLen) (h8 : IsRequest 8 p → srv'.addFns = srv.addFns) (h0 : IsRequest 0 p → srv'.bindFns = srv.bindFns)
    (h10 : IsRequest 10 p → srv'.deleteFns = srv.deleteFns) (h6 : IsRequest 6 p → srv'.modifyFns = srv.modifyFns)
    (h12 : IsRequest 12 p → srv'.modifyDNFns = srv.modifyDNFns) (h23 : IsRequest 23 p → srv'.pwExopFns = srv.pwExopFns)
    (h3 : IsRequest 3 p → srv'.searchFns = srv.searchFns) :
    handlePacket V srv' o p bound st = handlePacket V srv o p bound st := by
  obtain ⟨a, b, c, d, e, f, g, cl, en, gen, sta⟩ := srv
  obtain ⟨a', b', c', d', e', f', g', cl', en', gen', sta'⟩ := srv'
  dsimp only at hc hs he hg h8 h0 h10 h6 h12 h23 h3
  subst hc hs he hg
  unfold handlePacket
  dsimp only
  cases hk : p.kids with
  | nil => rfl
  | cons m more =>
    cases more with
    | nil => rfl
    | cons req more =>
      dsimp only
      cases hid : m.int? with
      | none => rfl
      | some id =>
        dsimp only
        by_cases hcls : req.cls ≠ .application
        · rw [if_pos hcls, if_pos hcls]
        rw [if_neg hcls, if_neg hcls]
        have hm : Message p id req := ⟨m, more, hk, int?_iff.1 hid, Decidable.byContradiction hcls⟩
        have q : ∀ t, req.tag = t → IsRequest t p := fun t h => ⟨id, req, hm, h⟩
        generalize decodeControls V ((more.head?.map Packet.kids).getD []) = dc
        cases dc with
        | err e => rfl
        | panic => rfl
        | hang => rfl
        | ok controls =>
          dsimp only
          by_cases t : req.tag = appAddRequest
          · rw [if_pos t, if_pos t]; have := h8 (q _ t); subst this; rfl
          rw [if_neg t, if_neg t]
          clear t
          by_cases t : req.tag = appBindRequest
          · rw [if_pos t, if_pos t]; have := h0 (q _ t); subst this; rfl
          rw [if_neg t, if_neg t]
          clear t
          by_cases t : req.tag = appCompareRequest
          · rw [if_pos t, if_pos t]
          rw [if_neg t, if_neg t]
          clear t
          by_cases t : req.tag = appDelRequest
          · rw [if_pos t, if_pos t]; have := h10 (q _ t); subst this; rfl
          rw [if_neg t, if_neg t]
          clear t
          by_cases t : req.tag = appExtendedRequest
          · rw [if_pos t, if_pos t]; have := h23 (q _ t); subst this; rfl
          rw [if_neg t, if_neg t]
          clear t
          by_cases t : req.tag = appModifyDNRequest
          · rw [if_pos t, if_pos t]; have := h12 (q _ t); subst this; rfl
          rw [if_neg t, if_neg t]
          clear t
          by_cases t : req.tag = appModifyRequest
          · rw [if_pos t, if_pos t]; have := h6 (q _ t); subst this; rfl
          rw [if_neg t, if_neg t]
          clear t
          by_cases t : req.tag = appSearchRequest
          · rw [if_pos t, if_pos t]; have := h3 (q _ t); subst this; rfl
          rw [if_neg t, if_neg t]

/-- C97: `addFunc` puts the handler under its suffix, in place of one that was there, and changes nothing for any packet that is not an add
request. -/
theorem C97_addFunc (srv : Srv σ) (base : Str) (f : Str → AddReq → Act σ (Nat × Bool)) :
    Registered srv.addFns base f (srv.addFunc base f).addFns ∧ (OnePerSuffix srv.addFns → OnePerSuffix (srv.addFunc base f).addFns) ∧
    ∀ p st, ¬ IsRequest 8 p → handlePacket V (srv.addFunc base f) o p bound st = handlePacket V srv o p bound st := by
  refine ⟨registered_register _ _ _, fun h => C97_one_per_suffix h _ _, fun p st hp => ?_⟩
  exact packet_same rfl rfl rfl rfl (fun h => absurd h hp) (fun _ => rfl) (fun _ => rfl) (fun _ => rfl) (fun _ => rfl) (fun _ => rfl) (fun _ => rfl)

/-- C97: `bindFunc` puts the handler under its suffix, in place of one that was there, and changes nothing for any packet that is not a bind
request. -/
theorem C97_bindFunc (srv : Srv σ) (base : Str) (f : Str → Str → Act σ (Nat × Bool)) :
    Registered srv.bindFns base f (srv.bindFunc base f).bindFns ∧ (OnePerSuffix srv.bindFns → OnePerSuffix (srv.bindFunc base f).bindFns) ∧
    ∀ p st, ¬ IsRequest 0 p → handlePacket V (srv.bindFunc base f) o p bound st = handlePacket V srv o p bound st := by
  refine ⟨registered_register _ _ _, fun h => C97_one_per_suffix h _ _, fun p st hp => ?_⟩
  exact packet_same rfl rfl rfl rfl (fun _ => rfl) (fun h => absurd h hp) (fun _ => rfl) (fun _ => rfl) (fun _ => rfl) (fun _ => rfl) (fun _ => rfl)

/-- C97: `deleteFunc` puts the handler under its suffix, in place of one that was there, and changes nothing for any packet that is not a delete
request. -/
theorem C97_deleteFunc (srv : Srv σ) (base : Str) (f : Str → Str → Act σ (Nat × Bool)) :
    Registered srv.deleteFns base f (srv.deleteFunc base f).deleteFns ∧ (OnePerSuffix srv.deleteFns → OnePerSuffix (srv.deleteFunc base f).deleteFns) ∧
    ∀ p st, ¬ IsRequest 10 p → handlePacket V (srv.deleteFunc base f) o p bound st = handlePacket V srv o p bound st := by
  refine ⟨registered_register _ _ _, fun h => C97_one_per_suffix h _ _, fun p st hp => ?_⟩
  exact packet_same rfl rfl rfl rfl (fun _ => rfl) (fun _ => rfl) (fun h => absurd h hp) (fun _ => rfl) (fun _ => rfl) (fun _ => rfl) (fun _ => rfl)

/-- C97: `modifyFunc` puts the handler under its suffix, in place of one that was there, and changes nothing for any packet that is not a modify
request. -/
theorem C97_modifyFunc (srv : Srv σ) (base : Str) (f : Str → ModifyReq → Act σ (Nat × Bool)) :
    Registered srv.modifyFns base f (srv.modifyFunc base f).modifyFns ∧ (OnePerSuffix srv.modifyFns → OnePerSuffix (srv.modifyFunc base f).modifyFns) ∧
    ∀ p st, ¬ IsRequest 6 p → handlePacket V (srv.modifyFunc base f) o p bound st = handlePacket V srv o p bound st := by
  refine ⟨registered_register _ _ _, fun h => C97_one_per_suffix h _ _, fun p st hp => ?_⟩
  exact packet_same rfl rfl rfl rfl (fun _ => rfl) (fun _ => rfl) (fun _ => rfl) (fun h => absurd h hp) (fun _ => rfl) (fun _ => rfl) (fun _ => rfl)

/-- C97: `modifyDNFunc` puts the handler under its suffix, in place of one that was there, and changes nothing for any packet that is not a rename
request. -/
theorem C97_modifyDNFunc (srv : Srv σ) (base : Str) (f : Str → ModifyDNReq → Act σ (Nat × Bool)) :
    Registered srv.modifyDNFns base f (srv.modifyDNFunc base f).modifyDNFns ∧ (OnePerSuffix srv.modifyDNFns → OnePerSuffix (srv.modifyDNFunc base f).modifyDNFns) ∧
    ∀ p st, ¬ IsRequest 12 p → handlePacket V (srv.modifyDNFunc base f) o p bound st = handlePacket V srv o p bound st := by
  refine ⟨registered_register _ _ _, fun h => C97_one_per_suffix h _ _, fun p st hp => ?_⟩
  exact packet_same rfl rfl rfl rfl (fun _ => rfl) (fun _ => rfl) (fun _ => rfl) (fun _ => rfl) (fun h => absurd h hp) (fun _ => rfl) (fun _ => rfl)

/-- C97: `pwExopFunc` puts the handler under its suffix, in place of one that was there, and changes nothing for any packet that is not an extended
request. -/
theorem C97_pwExopFunc (srv : Srv σ) (base : Str) (f : Str → PwModReq → Act σ (Nat × Bool)) :
    Registered srv.pwExopFns base f (srv.pwExopFunc base f).pwExopFns ∧ (OnePerSuffix srv.pwExopFns → OnePerSuffix (srv.pwExopFunc base f).pwExopFns) ∧
    ∀ p st, ¬ IsRequest 23 p → handlePacket V (srv.pwExopFunc base f) o p bound st = handlePacket V srv o p bound st := by
  refine ⟨registered_register _ _ _, fun h => C97_one_per_suffix h _ _, fun p st hp => ?_⟩
  exact packet_same rfl rfl rfl rfl (fun _ => rfl) (fun _ => rfl) (fun _ => rfl) (fun _ => rfl) (fun _ => rfl) (fun h => absurd h hp) (fun _ => rfl)

/-- C97: `searchFunc` puts the handler under its suffix, in place of one that was there, and changes nothing for any packet that is not a search
request. -/
theorem C97_searchFunc (srv : Srv σ) (base : Str) (f : Str → SearchReq → Act σ SearchRes) :
    Registered srv.searchFns base f (srv.searchFunc base f).searchFns ∧ (OnePerSuffix srv.searchFns → OnePerSuffix (srv.searchFunc base f).searchFns) ∧
    ∀ p st, ¬ IsRequest 3 p → handlePacket V (srv.searchFunc base f) o p bound st = handlePacket V srv o p bound st := by
  refine ⟨registered_register _ _ _, fun h => C97_one_per_suffix h _ _, fun p st hp => ?_⟩
  exact packet_same rfl rfl rfl rfl (fun _ => rfl) (fun _ => rfl) (fun _ => rfl) (fun _ => rfl) (fun _ => rfl) (fun _ => rfl) (fun h => absurd h hp)

/-! ## The close handlers -/

/-- C103: the close handlers of a connection: each is called once, in some order, with the identity of the connection. -/
theorem C103_close_all (keys : List Str) (bound : Str) (st : List (Str × Str)) :
    closeAll (keys.map fun k => (k, fun b st => st ++ [(k, b)])) bound st = st ++ keys.map fun k => (k, bound) := by
  unfold closeAll
  induction keys generalizing st with
  | nil => simp
  | cons k keys ih => rw [List.map_cons, List.foldl_cons, ih]; simp

/-- No handler touches `log`. -/
structure Unlogged {lg : Type} (srv : Srv σ) (log : σ → lg) : Prop where
  add : ∀ p ∈ srv.addFns, ∀ b r st, log (p.2 b r st).2 = log st
  bind : ∀ p ∈ srv.bindFns, ∀ b r st, log (p.2 b r st).2 = log st
  delete : ∀ p ∈ srv.deleteFns, ∀ b r st, log (p.2 b r st).2 = log st
  modify : ∀ p ∈ srv.modifyFns, ∀ b r st, log (p.2 b r st).2 = log st
  rename : ∀ p ∈ srv.modifyDNFns, ∀ b r st, log (p.2 b r st).2 = log st
  password : ∀ p ∈ srv.pwExopFns, ∀ b r st, log (p.2 b r st).2 = log st
  search : ∀ p ∈ srv.searchFns, ∀ b r st, log (p.2 b r st).2 = log st

theorem pick_mem {α : Type} {fns : List (Str × α)} {dn : Str} {f : α} (h : pick fns dn = some f) : ∃ s, (s, f) ∈ fns := by
  unfold pick fnAt at h
  obtain ⟨p, hp, rfl⟩ := Option.map_eq_some_iff.1 h
  exact ⟨p.1, List.mem_of_find?_eq_some hp⟩

theorem callFn_log {lg α : Type} {fns : List (Str × (Str → α → Act σ (Nat × Bool)))} {log : σ → lg}
    (h : ∀ p ∈ fns, ∀ b r st, log (p.2 b r st).2 = log st) (dn : Str) (b : Str) (r : α) (st : σ) : log (callFn fns dn b r st).2 = log st := by
  unfold callFn
  cases hp : pick fns dn with
  | none => rfl
  | some f =>
    obtain ⟨s, hs⟩ := pick_mem hp
    exact h _ hs b r st

variable {lg : Type} {srv : Srv σ} {log : σ → lg}

theorem pick_log {ρ τ α : Type} {fns : List (Str × (ρ → τ → Act σ α))} (h : ∀ p ∈ fns, ∀ b r st, log (p.2 b r st).2 = log st) {dn : Str}
    {f : ρ → τ → Act σ α} (hf : pick fns dn = some f) {b : ρ} {r : τ} {st st' : σ} {x : Res α} (he : f b r st = (x, st')) : log st' = log st := by
  obtain ⟨s, hs⟩ := pick_mem hf
  have := h _ hs b r st
  dsimp only at this
  rw [he] at this
  exact this

theorem handleBind_log (hl : Unlogged srv log) (req : Packet) (st : σ) : log (handleBind srv req st).2 = log st := by
  have hb : log (bindBody srv req st).2 = log st := by
    unfold bindBody
    repeat' split
    all_goals first
      | rfl
      | exact pick_log hl.bind (by assumption) (by assumption)
  unfold handleBind
  rcases hx : bindBody srv req st with ⟨r, st'⟩
  rw [hx] at hb
  cases r <;> exact hb

theorem handleSearch_log (hl : Unlogged srv log) (b : Str) (req : Packet) (controls : List Control) (st : σ) :
    log (handleSearch V srv b req controls st).2 = log st := by
  unfold handleSearch
  repeat' split
  all_goals first
    | rfl
    | exact pick_log hl.search (by assumption) (by assumption)

theorem handleExtended_log (hl : Unlogged srv log) (b : Str) (req : Packet) (st : σ) :
    log (handleExtended V srv o b req st).2 = log st := by
  have hp : ∀ body, log (handlePwModify V srv o b body st).2 = log st := by
    intro body
    unfold handlePwModify
    split
    · rfl
    rcases parsePwModify V body with r | _ | _ | _
    · dsimp only
      generalize (if r.newPassword = [] then generatePw o.rnd 0 srv.genPwLen else .ok r.newPassword) = pw
      rcases pw with pw | _ | _ | _
      · dsimp only
        rcases hashPw V.K o.salt pw b!"{ARGON2}" with hash | _ | _ | _
        · dsimp only
          generalize (if r.userIdentity = [] then b else r.userIdentity) = user
          cases hf : pick srv.pwExopFns user with
          | none => rfl
          | some f => exact pick_log hl.password hf rfl
        all_goals rfl
      all_goals rfl
    all_goals rfl
  unfold handleExtended
  split
  · rfl
  · rfl
  · rfl
  · rename_i oid body _
    split
    · have h := hp body
      rcases hx : handlePwModify V srv o b body st with ⟨r, st'⟩
      rw [hx] at h
      rcases r with _ | e | _ | _
      · exact h
      · rcases e with ⟨c, e⟩ | _ | _ | _ | _
        · cases e <;> exact h
        all_goals exact h
      · exact h
      · exact h
    · rfl

/-- One packet: the close handlers are called if, and only if, the server closes the connection, and once. -/
theorem packet_log {calls : σ → List Str} (hl : Unlogged srv calls) (hc : ∀ b st, calls (srv.close b st) = calls st ++ [b]) (p : Packet) (b : Str) (st : σ) :
    let out := handlePacket V srv o p b st
    if out.next = .closed then calls out.st = calls st ++ [b] ∨ IsRequest 0 p ∧ calls out.st = calls st ++ [[]] else calls out.st = calls st := by
  intro out
  have h := handlePacket_cases V srv o p b st
  have ho : handlePacket V srv o p b st = out := rfl
  rw [ho] at h
  have hrep : ∀ id tag (x : Res Nat × σ), calls x.2 = calls st → out = reply id tag b x →
      if out.next = .closed then calls out.st = calls st ++ [b] ∨ IsRequest 0 p ∧ calls out.st = calls st ++ [[]] else calls out.st = calls st := by
    intro id tag x hx e
    rw [e]
    rcases reply_cases id tag b x with ⟨c, e, -⟩ | ⟨e, -⟩ | ⟨e, -⟩ <;> rw [e] <;> simpa using hx
  have hadd : ∀ req, calls (handleAdd V srv b req st).2 = calls st := by
    intro req
    unfold handleAdd
    split
    · rfl
    · split
      · exact callFn_log hl.add _ _ _ _
      · rw [parseFailed_st]
  have hdel : ∀ req, calls (handleDelete V srv b req st).2 = calls st := by
    intro req
    unfold handleDelete
    split
    · rfl
    · split
      · exact callFn_log hl.delete _ _ _ _
      · rw [parseFailed_st]
  have hmod : ∀ req, calls (handleModify V srv b req st).2 = calls st := by
    intro req
    unfold handleModify
    split
    · rfl
    · split
      · exact callFn_log hl.modify _ _ _ _
      · rw [parseFailed_st]
  have hren : ∀ req, calls (handleModifyDN V srv b req st).2 = calls st := by
    intro req
    unfold handleModifyDN
    split
    · rfl
    · split
      · exact callFn_log hl.rename _ _ _ _
      · rw [parseFailed_st]
  generalize hout : out = x at h
  cases h with
  | closed => simp [hc]
  | crash => simp
  | hang => simp
  | addHang => simp
  | add id req => exact hout ▸ hrep _ _ _ (hadd req) hout
  | bind id req hm ht =>
    have := handleBind_log hl req st
    rcases stepBind_cases V srv id b req st with ⟨c, e, -, -⟩ | ⟨_, _, _, e, -⟩ | e | e | ⟨e, -⟩ <;> rw [e]
    · simpa using this
    · simpa using this
    · simp only [if_true, hc]
      exact .inr ⟨⟨id, req, hm, ht⟩, by rw [this]⟩
    · simpa using this
    · simpa using this
  | compare => simp [hc]
  | delete id req => exact hout ▸ hrep _ _ _ (hdel req) hout
  | extended id req =>
    have := handleExtended_log (V := V) (o := o) hl b req st
    rcases stepExtended_cases V srv o id b req st with ⟨e, -⟩ | ⟨_, _, _, e, -⟩ | ⟨e, -⟩ | ⟨e, -⟩ <;> rw [e] <;> simpa using this
  | modifyDN id req => exact hout ▸ hrep _ _ _ (hren req) hout
  | modify id req => exact hout ▸ hrep _ _ _ (hmod req) hout
  | search id req controls =>
    have := handleSearch_log (V := V) hl b req controls st
    rcases stepSearch_cases V srv id b req controls st with ⟨_, -, -, e⟩ | ⟨_, -, -, e⟩ | ⟨_, e, -⟩ | ⟨_, e, -⟩ <;> rw [e]
    · simpa using this
    · simp only [if_true, hc]
      exact .inl (by rw [this])
    · simpa using this
    · simpa using this

/-- The connection an event belongs to. -/
def Ev.at : Ev → Nat
  | .packet c _ _ => c
  | .eof c => c

/-- C103: the close handlers of a server on any schedule of any number of connections, seen in a log that no other handler touches: they are called
at most once for each connection; only for a connection that was open and has ended; with the identity the connection had when it ended, or with
no identity if a bind request ended it; and, if the process did not crash and no packet was blocked forever, for every connection that has ended. -/
theorem C103_close_once {calls : σ → List Str} (hl : Unlogged srv calls) (hc : ∀ b st, calls (srv.close b st) = calls st ++ [b]) (st : σ) (es : List Ev) :
    let w := ((World.init st).run V srv es).1
    ∃ closed : List (Nat × Str), calls w.st = calls st ++ closed.map (·.2) ∧ (closed.map (·.1)).Nodup ∧
      (∀ x ∈ closed, w.conn x.1 = none ∧ ∃ before e after b, es = before ++ e :: after ∧ e.at = x.1 ∧
        ((World.init st).run V srv before).1.conn x.1 = some b ∧
        (x.2 = b ∨ x.2 = [] ∧ ∃ p o, e = .packet x.1 p o ∧ IsRequest 0 p)) ∧
      (w.down = false →
        (∀ before c p o after b, es = before ++ .packet c p o :: after → ((World.init st).run V srv before).1.conn c = some b →
          (handlePacket V srv o p b ((World.init st).run V srv before).1.st).next ≠ .hang) →
        ∀ c, w.conn c = none → c ∈ closed.map (·.1)) := by
  induction es using snoc_induction with
  | nil => exact ⟨[], by simp [World.run, World.init], by simp, by simp, by simp [World.run, World.init]⟩
  | snoc es e ih =>
    obtain ⟨closed, h1, h2, h3, h4⟩ := ih
    rw [run_snoc]
    generalize hw : ((World.init st).run V srv es).1 = w at h1 h2 h3 h4 ⊢
    have h4' : w.down = false → (∀ before c p o after b, es ++ [e] = before ++ .packet c p o :: after → ((World.init st).run V srv before).1.conn c = some b →
          (handlePacket V srv o p b ((World.init st).run V srv before).1.st).next ≠ .hang) → ∀ c, w.conn c = none → c ∈ closed.map (·.1) := by
      intro hd hh
      refine h4 hd fun before c p o after b he => hh before c p o (after ++ [e]) b (by rw [he]; simp)
    have h3' : ∀ x ∈ closed, w.conn x.1 = none ∧ ∃ before e' after b, es ++ [e] = before ++ e' :: after ∧ e'.at = x.1 ∧
        ((World.init st).run V srv before).1.conn x.1 = some b ∧ (x.2 = b ∨ x.2 = [] ∧ ∃ p o, e' = .packet x.1 p o ∧ IsRequest 0 p) := by
      intro x hx
      obtain ⟨a, before, e', after, b, he, r⟩ := h3 x hx
      exact ⟨a, before, e', after ++ [e], b, by rw [he]; simp, r⟩
    clear h3 h4
    cases hcn : w.conn e.at with
    | none =>
      have hs : w.step V srv e = (w, []) := by
        cases e <;> simp only [Ev.at] at hcn <;> simp only [World.step, hcn]
      rw [hs]
      exact ⟨closed, h1, h2, h3', h4'⟩
    | some b =>
      have hnew : e.at ∉ closed.map (·.1) := by
        intro hm
        obtain ⟨x, hx, hxe⟩ := List.mem_map.1 hm
        have := (h3' x hx).1
        rw [hxe, hcn] at this
        cases this
      have hset : ∀ (s : σ) v x, x ∈ closed → ({ w with st := s }.setConn e.at v).conn x.1 = none := by
        intro s v x hx
        have : x.1 ≠ e.at := fun h => hnew (h ▸ List.mem_map_of_mem (f := (·.1)) hx)
        simp only [World.setConn, if_neg this]
        exact (h3' x hx).1
      have hother : ∀ (s : σ) v c, ({ w with st := s }.setConn e.at v).conn c = none → c = e.at ∧ v = none ∨ w.conn c = none := by
        intro s v c h
        simp only [World.setConn] at h
        split at h
        · exact .inl ⟨by assumption, h⟩
        · exact .inr h
      have hgrow : ∀ (s : σ) (id : Str), calls s = calls w.st ++ [id] → (id = b ∨ id = [] ∧ ∃ p o, e = .packet e.at p o ∧ IsRequest 0 p) →
          ∃ closed' : List (Nat × Str), calls s = calls st ++ closed'.map (·.2) ∧ (closed'.map (·.1)).Nodup ∧
            (∀ x ∈ closed', ({ w with st := s }.setConn e.at none).conn x.1 = none ∧ ∃ before e' after b, es ++ [e] = before ++ e' :: after ∧ e'.at = x.1 ∧
              ((World.init st).run V srv before).1.conn x.1 = some b ∧
              (x.2 = b ∨ x.2 = [] ∧ ∃ p o, e' = .packet x.1 p o ∧ IsRequest 0 p)) ∧
            (w.down = false →
              (∀ before c p o after b, es ++ [e] = before ++ .packet c p o :: after → ((World.init st).run V srv before).1.conn c = some b →
                (handlePacket V srv o p b ((World.init st).run V srv before).1.st).next ≠ .hang) →
              ∀ c, ({ w with st := s }.setConn e.at none).conn c = none → c ∈ closed'.map (·.1)) := by
        intro s id hs hid
        refine ⟨closed ++ [(e.at, id)], by rw [hs, h1]; simp, ?_, ?_, ?_⟩
        · rw [List.map_append, List.nodup_append]
          refine ⟨h2, by simp, ?_⟩
          intro a ha c hc
          simp only [List.map_cons, List.map_nil, List.mem_singleton] at hc
          subst hc
          exact fun h => hnew (h ▸ ha)
        · intro x hx
          rcases List.mem_append.1 hx with hx | hx
          · exact ⟨hset s none x hx, (h3' x hx).2⟩
          · rw [List.mem_singleton] at hx
            subst hx
            exact ⟨by simp [World.setConn], es, e, [], b, rfl, rfl, by rw [hw]; exact hcn, hid⟩
        · intro hd hh c h
          rcases hother _ _ c h with ⟨rfl, -⟩ | h
          · simp
          · rw [List.map_append]
            exact List.mem_append_left _ (h4' hd hh c h)
      cases e with
      | eof c =>
        simp only [World.step, Ev.at] at hcn ⊢
        rw [hcn]
        exact hgrow _ b (hc _ _) (.inl rfl)
      | packet c p o =>
        have hp := packet_log (V := V) (o := o) hl hc p b w.st
        simp only [Ev.at] at hcn
        simp only [World.step, hcn]
        generalize hout : handlePacket V srv o p b w.st = out at hp ⊢
        obtain ⟨resps, next, s⟩ := out
        dsimp only at hp ⊢
        cases next with
        | go b' =>
          rw [if_neg (by simp)] at hp
          refine ⟨closed, by rw [← h1]; exact hp, h2, fun x hx => ⟨hset s (some b') x hx, (h3' x hx).2⟩, fun hd hh d h => ?_⟩
          rcases hother _ _ d h with ⟨-, h⟩ | h
          · cases h
          · exact h4' hd hh d h
        | closed =>
          rw [if_pos rfl] at hp
          rcases hp with hp | ⟨hq, hp⟩
          · exact hgrow s b hp (.inl rfl)
          · exact hgrow s [] hp (.inr ⟨rfl, p, o, rfl, hq⟩)
        | hang =>
          rw [if_neg (by simp)] at hp
          refine ⟨closed, by rw [← h1]; exact hp, h2, fun x hx => ⟨hset s none x hx, (h3' x hx).2⟩, fun hd hh d h => ?_⟩
          have := hh es c p o [] b rfl (by rw [hw]; exact hcn)
          rw [hw, hout] at this
          exact absurd rfl this
        | crash =>
          rw [if_neg (by simp)] at hp
          exact ⟨closed, by rw [← h1]; exact hp, h2, fun x hx => ⟨rfl, (h3' x hx).2⟩, fun hd => absurd hd (by simp)⟩

end
/-! ## Concrete cases -/

/-- A server of handlers that write down what they are called with, and a close handler that writes down identities in a second list. -/
def noteSrv : Srv (List (Str × Str) × List Str) :=
  let f : Srv (List (Str × Str) × List Str) := { freshServer with close := fun b st => (st.1, st.2 ++ [b]) }
  (((f.pwExopFunc b!"dc=lg" (fun _ r st => (.ok (0, false), (st.1 ++ [(r.userIdentity, r.oldPassword)], st.2)))).bindFunc b!"dc=lg"
    (fun _ pw st => (.ok (if pw = b!"pw" then 0 else 49, false), st))).addFunc b!"dc=lg" (fun b r st => (.ok (0, false), (st.1 ++ [(b, r.dn)], st.2)))).searchFunc
    b!"dc=lg" (fun b _ st => (.ok ⟨[], [], 0, false⟩, (st.1 ++ [(b, [])], st.2)))

/-- the hypotheses of C97_password, and what its handler is called with -/
example : OnePerSuffix noteSrv.pwExopFns ∧
    PwBody toyEnv ([48, 20, 128, 11] ++ b!"uid=b,dc=lg" ++ [129, 1, 120, 130, 2, 121, 122]) (some b!"uid=b,dc=lg") (some b!"x") (some b!"yz") ∧
    (handlePacket toyEnv noteSrv toyOracle (wMsg 1 (wPwModify ([48, 20, 128, 11] ++ b!"uid=b,dc=lg" ++ [129, 1, 120, 130, 2, 121, 122]))) b!"uid=a,dc=lg" ([], [])).st =
      ([(b!"uid=b,dc=lg", b!"x")], []) := by
  refine ⟨by decide +kernel, ⟨wSeq [ctxStr 0 b!"uid=b,dc=lg", ctxStr 1 b!"x", ctxStr 2 b!"yz"], rfl, rfl⟩, by decide +kernel⟩

/-- the hypotheses of C103_close_once -/
example : Unlogged noteSrv Prod.snd ∧ ∀ b st, Prod.snd (noteSrv.close b st) = Prod.snd st ++ [b] := by
  refine ⟨⟨?_, ?_, ?_, ?_, ?_, ?_, ?_⟩, fun _ _ => rfl⟩ <;> intro p hp <;>
    simp only [noteSrv, freshServer, Srv.pwExopFunc, Srv.bindFunc, Srv.addFunc, Srv.searchFunc, register] at hp <;> simp at hp <;> first
      | (rcases hp with rfl | rfl <;> intros <;> rfl)
      | (subst hp; intros; rfl)

/-- three connections: one binds and goes away, one goes away, one sends nonsense -/
example :
    let w := ((World.init ([], [])).run toyEnv noteSrv [.packet 0 (wMsg 1 (wBind b!"uid=A,dc=lg" b!"pw")) toyOracle, .eof 1, .packet 2 (wMsg 1 (wBind b!"x" b!"pw")) toyOracle,
      .packet 2 (ctxStr 0 []) toyOracle, .eof 0, .eof 0]).1
    w.st.2 = [[], [], b!"uid=a,dc=lg"] ∧ w.down = false ∧ w.conn 0 = none ∧ w.conn 1 = none ∧ w.conn 2 = none ∧ w.conn 3 = some [] := by
  decide +kernel

end Idm
