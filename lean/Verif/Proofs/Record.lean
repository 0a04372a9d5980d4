import Verif.Proofs.Parallel
/-!
# Packets make at most one call of a handler, for any handlers

`Proofs/Parallel` shows this for the BoltDB handler and the store. Here the same is shown for any server whose functions make one call
at most.
-/
namespace Idm

section
variable {V : Env} {σ R Q : Type} {exec : Option Q → σ → R × σ}

/-- `f` makes one call at most, and `g` is `f` with the call noted. `exec` is the call alone. -/
def Calls {α : Type} (exec : Option Q → σ → R × σ) (f : σ → α × σ) (g : R → Option Q → α × Option Q) : Prop :=
  ∃ q, (∀ rep, (g rep none).2 = q) ∧ ∀ st, f st = ((g (exec q st).1 none).1, (exec q st).2)

theorem Calls.pure {α : Type} (hex : ∀ st, (exec none st).2 = st) (x : α) : Calls exec (fun st => (x, st)) (fun _ s => (x, s)) :=
  ⟨none, fun _ => rfl, fun st => by rw [hex]⟩

theorem Calls.map {α β : Type} {f : σ → α × σ} {g : R → Option Q → α × Option Q} (h : Calls exec f g) (k : α → β) :
    Calls exec (fun st => (k (f st).1, (f st).2)) (fun r s => (k (g r s).1, (g r s).2)) := by
  obtain ⟨q, h1, h2⟩ := h
  exact ⟨q, h1, fun st => by show (k (f st).1, (f st).2) = _; rw [h2 st]⟩

theorem Calls.congr {α : Type} {f f' : σ → α × σ} {g g' : R → Option Q → α × Option Q} (h : Calls exec f g)
    (hf : ∀ st, f' st = f st) (hg : ∀ r s, g' r s = g r s) : Calls exec f' g' := by
  have e1 : f' = f := funext hf
  have e2 : g' = g := funext fun r => funext fun s => hg r s
  rw [e1, e2]; exact h

/-- `srv` has one function of each kind, which makes one call at most, and `rsv` are the same functions with the call noted. -/
structure Records (exec : Option Q → σ → R × σ) (srv : Srv σ) (rsv : R → Srv (Option Q)) where
  hex : ∀ st, (exec none st).2 = st
  fAdd : Str → AddReq → Act σ (Nat × Bool)
  gAdd : R → Str → AddReq → Act (Option Q) (Nat × Bool)
  eAdd : srv.addFns = [([], fAdd)]
  eAdd' : ∀ rep, (rsv rep).addFns = [([], gAdd rep)]
  sAdd : ∀ b r, Calls exec (fAdd b r) (fun rep => gAdd rep b r)
  fBind : Str → Str → Act σ (Nat × Bool)
  gBind : R → Str → Str → Act (Option Q) (Nat × Bool)
  eBind : srv.bindFns = [([], fBind)]
  eBind' : ∀ rep, (rsv rep).bindFns = [([], gBind rep)]
  sBind : ∀ b r, Calls exec (fBind b r) (fun rep => gBind rep b r)
  fDelete : Str → Str → Act σ (Nat × Bool)
  gDelete : R → Str → Str → Act (Option Q) (Nat × Bool)
  eDelete : srv.deleteFns = [([], fDelete)]
  eDelete' : ∀ rep, (rsv rep).deleteFns = [([], gDelete rep)]
  sDelete : ∀ b r, Calls exec (fDelete b r) (fun rep => gDelete rep b r)
  fModify : Str → ModifyReq → Act σ (Nat × Bool)
  gModify : R → Str → ModifyReq → Act (Option Q) (Nat × Bool)
  eModify : srv.modifyFns = [([], fModify)]
  eModify' : ∀ rep, (rsv rep).modifyFns = [([], gModify rep)]
  sModify : ∀ b r, Calls exec (fModify b r) (fun rep => gModify rep b r)
  fModifyDN : Str → ModifyDNReq → Act σ (Nat × Bool)
  gModifyDN : R → Str → ModifyDNReq → Act (Option Q) (Nat × Bool)
  eModifyDN : srv.modifyDNFns = [([], fModifyDN)]
  eModifyDN' : ∀ rep, (rsv rep).modifyDNFns = [([], gModifyDN rep)]
  sModifyDN : ∀ b r, Calls exec (fModifyDN b r) (fun rep => gModifyDN rep b r)
  fPw : Str → PwModReq → Act σ (Nat × Bool)
  gPw : R → Str → PwModReq → Act (Option Q) (Nat × Bool)
  ePw : srv.pwExopFns = [([], fPw)]
  ePw' : ∀ rep, (rsv rep).pwExopFns = [([], gPw rep)]
  sPw : ∀ b r, Calls exec (fPw b r) (fun rep => gPw rep b r)
  fSearch : Str → SearchReq → Act σ SearchRes
  gSearch : R → Str → SearchReq → Act (Option Q) SearchRes
  eSearch : srv.searchFns = [([], fSearch)]
  eSearch' : ∀ rep, (rsv rep).searchFns = [([], gSearch rep)]
  sSearch : ∀ b r, Calls exec (fSearch b r) (fun rep => gSearch rep b r)
  close : ∀ b s, srv.close b s = s
  close' : ∀ rep b s, (rsv rep).close b s = s
  enforce : ∀ rep, (rsv rep).enforce = srv.enforce
  genPwLen : ∀ rep, (rsv rep).genPwLen = srv.genPwLen
  stats : ∀ rep, (rsv rep).stats = srv.stats

variable {srv : Srv σ} {rsv : R → Srv (Option Q)} (H : Records exec srv rsv)
include H

theorem calls_callFn {ρ : Type} {f : Str → ρ → Act σ (Nat × Bool)} {g : R → Str → ρ → Act (Option Q) (Nat × Bool)}
    {dn b : Str} {r : ρ} (h : Calls exec (f b r) (fun rep => g rep b r)) :
    Calls exec (callFn [([], f)] dn b r) (fun rep => callFn [([], g rep)] dn b r) :=
  (h.map codeOf).congr (fun db => by unfold callFn; rw [pick_single]) (fun rep s => by unfold callFn; rw [pick_single])

theorem calls_parseFailed {ρ : Type} (r : Res ρ) : Calls exec (parseFailed r) (fun _ => parseFailed r) := by
  have : ∃ x, ∀ (σ : Type) (s : σ), parseFailed r s = (x, s) := by
    cases r with
    | ok a => exact ⟨_, fun _ _ => rfl⟩
    | err e => cases e <;> exact ⟨_, fun _ _ => rfl⟩
    | panic => exact ⟨_, fun _ _ => rfl⟩
    | hang => exact ⟨_, fun _ _ => rfl⟩
  obtain ⟨x, hx⟩ := this
  exact (Calls.pure H.hex x).congr (fun db => hx _ db) (fun _ s => hx _ s)

theorem calls_handleAdd (b : Str) (req : Packet) :
    Calls exec (handleAdd V srv b req) (fun rep => handleAdd V (rsv rep) b req) := by
  by_cases hb : b = []
  · exact (Calls.pure H.hex _).congr (fun db => by unfold handleAdd; rw [if_pos hb]) (fun _ s => by unfold handleAdd; rw [if_pos hb])
  cases hp : parseAddRequest V.C req with
  | ok r => exact (calls_callFn H (H.sAdd b r)).congr (fun db => by unfold handleAdd; rw [if_neg hb, hp]; dsimp only; rw [H.eAdd]) (fun rep s => by unfold handleAdd; rw [if_neg hb, hp]; dsimp only; rw [H.eAdd'])
  | _ => exact (calls_parseFailed H _).congr (fun db => by unfold handleAdd; rw [if_neg hb, hp]) (fun rep s => by unfold handleAdd; rw [if_neg hb, hp])

theorem calls_handleDelete (b : Str) (req : Packet) :
    Calls exec (handleDelete V srv b req) (fun rep => handleDelete V (rsv rep) b req) := by
  by_cases hb : b = []
  · exact (Calls.pure H.hex _).congr (fun db => by unfold handleDelete; rw [if_pos hb]) (fun _ s => by unfold handleDelete; rw [if_pos hb])
  cases hp : parseDeleteRequest V.C req with
  | ok r => exact (calls_callFn H (H.sDelete b r)).congr (fun db => by unfold handleDelete; rw [if_neg hb, hp]; dsimp only; rw [H.eDelete]) (fun rep s => by unfold handleDelete; rw [if_neg hb, hp]; dsimp only; rw [H.eDelete'])
  | _ => exact (calls_parseFailed H _).congr (fun db => by unfold handleDelete; rw [if_neg hb, hp]) (fun rep s => by unfold handleDelete; rw [if_neg hb, hp])

theorem calls_handleModify (b : Str) (req : Packet) :
    Calls exec (handleModify V srv b req) (fun rep => handleModify V (rsv rep) b req) := by
  by_cases hb : b = []
  · exact (Calls.pure H.hex _).congr (fun db => by unfold handleModify; rw [if_pos hb]) (fun _ s => by unfold handleModify; rw [if_pos hb])
  cases hp : parseModifyRequest V.C req with
  | ok r => exact (calls_callFn H (H.sModify b r)).congr (fun db => by unfold handleModify; rw [if_neg hb, hp]; dsimp only; rw [H.eModify]) (fun rep s => by unfold handleModify; rw [if_neg hb, hp]; dsimp only; rw [H.eModify'])
  | _ => exact (calls_parseFailed H _).congr (fun db => by unfold handleModify; rw [if_neg hb, hp]) (fun rep s => by unfold handleModify; rw [if_neg hb, hp])

theorem calls_handleModifyDN (b : Str) (req : Packet) :
    Calls exec (handleModifyDN V srv b req) (fun rep => handleModifyDN V (rsv rep) b req) := by
  by_cases hb : b = []
  · exact (Calls.pure H.hex _).congr (fun db => by unfold handleModifyDN; rw [if_pos hb]) (fun _ s => by unfold handleModifyDN; rw [if_pos hb])
  cases hp : parseModifyDNRequest V.C req with
  | ok r => exact (calls_callFn H (H.sModifyDN b r)).congr (fun db => by unfold handleModifyDN; rw [if_neg hb, hp]; dsimp only; rw [H.eModifyDN]) (fun rep s => by unfold handleModifyDN; rw [if_neg hb, hp]; dsimp only; rw [H.eModifyDN'])
  | _ => exact (calls_parseFailed H _).congr (fun db => by unfold handleModifyDN; rw [if_neg hb, hp]) (fun rep s => by unfold handleModifyDN; rw [if_neg hb, hp])

theorem calls_bindBody (req : Packet) :
    Calls exec (bindBody srv req) (fun rep => bindBody (rsv rep) req) := by
  cases h0 : req.kids[0]? with
  | none => exact (Calls.pure H.hex _).congr (fun db => by unfold bindBody; rw [h0]) (fun _ s => by unfold bindBody; rw [h0])
  | some v =>
  cases hv : v.int? with
  | none => exact (Calls.pure H.hex _).congr (fun db => by unfold bindBody; rw [h0]; dsimp only; rw [hv]) (fun _ s => by unfold bindBody; rw [h0]; dsimp only; rw [hv])
  | some version =>
  by_cases h3 : version ≠ 3
  · exact (Calls.pure H.hex _).congr (fun db => by unfold bindBody; rw [h0]; dsimp only; rw [hv]; dsimp only; rw [if_pos h3])
      (fun _ s => by unfold bindBody; rw [h0]; dsimp only; rw [hv]; dsimp only; rw [if_pos h3])
  cases h1 : req.kids[1]? with
  | none =>
    exact (Calls.pure H.hex _).congr (fun db => by unfold bindBody; rw [h0]; dsimp only; rw [hv]; dsimp only; rw [if_neg h3, h1])
      (fun _ s => by unfold bindBody; rw [h0]; dsimp only; rw [hv]; dsimp only; rw [if_neg h3, h1])
  | some d =>
  cases hd : d.str? with
  | none =>
    exact (Calls.pure H.hex _).congr (fun db => by unfold bindBody; rw [h0]; dsimp only; rw [hv]; dsimp only; rw [if_neg h3, h1]; dsimp only; rw [hd])
      (fun _ s => by unfold bindBody; rw [h0]; dsimp only; rw [hv]; dsimp only; rw [if_neg h3, h1]; dsimp only; rw [hd])
  | some dn =>
  cases h2 : req.kids[2]? with
  | none =>
    exact (Calls.pure H.hex _).congr (fun db => by unfold bindBody; rw [h0]; dsimp only; rw [hv]; dsimp only; rw [if_neg h3, h1]; dsimp only; rw [hd, h2])
      (fun _ s => by unfold bindBody; rw [h0]; dsimp only; rw [hv]; dsimp only; rw [if_neg h3, h1]; dsimp only; rw [hd, h2])
  | some auth =>
  by_cases ha : auth.tag = authSimple
  · by_cases hl : req.kids.length = 3
    · refine ((H.sBind dn auth.data).map bindTail).congr (fun db => ?_) (fun rep s => ?_)
      · unfold bindBody
        rw [h0]; dsimp only; rw [hv]; dsimp only; rw [if_neg h3, h1]; dsimp only; rw [hd, h2]; dsimp only
        rw [if_pos ha, if_pos hl]
        rw [H.eBind, pick_single]
        dsimp only
        cases H.fBind dn auth.data db with | mk res st => ?_
        cases res with
        | ok x => obtain ⟨c, e⟩ := x; cases e <;> rfl
        | _ => rfl
      · unfold bindBody
        rw [h0]; dsimp only; rw [hv]; dsimp only; rw [if_neg h3, h1]; dsimp only; rw [hd, h2]; dsimp only
        rw [if_pos ha, if_pos hl]
        rw [H.eBind' rep, pick_single]
        dsimp only
        cases H.gBind rep dn auth.data s with | mk res st => ?_
        cases res with
        | ok x => obtain ⟨c, e⟩ := x; cases e <;> rfl
        | _ => rfl
    · exact (Calls.pure H.hex _).congr
        (fun db => by unfold bindBody; rw [h0]; dsimp only; rw [hv]; dsimp only; rw [if_neg h3, h1]; dsimp only; rw [hd, h2]; dsimp only; rw [if_pos ha, if_neg hl])
        (fun _ s => by unfold bindBody; rw [h0]; dsimp only; rw [hv]; dsimp only; rw [if_neg h3, h1]; dsimp only; rw [hd, h2]; dsimp only; rw [if_pos ha, if_neg hl])
  · exact (Calls.pure H.hex _).congr
      (fun db => by unfold bindBody; rw [h0]; dsimp only; rw [hv]; dsimp only; rw [if_neg h3, h1]; dsimp only; rw [hd, h2]; dsimp only; rw [if_neg ha])
      (fun _ s => by unfold bindBody; rw [h0]; dsimp only; rw [hv]; dsimp only; rw [if_neg h3, h1]; dsimp only; rw [hd, h2]; dsimp only; rw [if_neg ha])

theorem calls_handleBind (req : Packet) :
    Calls exec (handleBind srv req) (fun rep => handleBind (rsv rep) req) := by
  have key : ∀ {τ : Type} (srv : Srv τ) (s : τ), handleBind srv req s =
      ((fun x => match x with | .panic => .ok rcOperationsError | y => y) (bindBody srv req s).1, (bindBody srv req s).2) := by
    intro τ srv s
    unfold handleBind
    cases bindBody srv req s with | mk x st => ?_
    cases x <;> rfl
  exact ((calls_bindBody H req).map fun x => match x with | .panic => .ok rcOperationsError | y => y).congr
    (fun db => key _ db) (fun rep s => key _ s)

omit H in
/-- Sequencing with what follows a handler's answer. -/
theorem Calls.out {α : Type} {f : σ → α × σ} {g : R → Option Q → α × Option Q} (h : Calls exec f g)
    (k : α → List Resp × Next) {F : σ → Out σ} {K : R → Option Q → Out (Option Q)}
    (hF : ∀ db, (F db).pair = (k (f db).1, (f db).2)) (hK : ∀ rep s, (K rep s).pair = (k (g rep s).1, (g rep s).2)) :
    Calls exec (fun db => (F db).pair) (fun rep s => (K rep s).pair) :=
  (h.map k).congr hF hK

theorem calls_reply {f : Act σ Nat} {g : R → Act (Option Q) Nat} (id : Int) (tag : Nat) (b : Str) (h : Calls exec f g) :
    Calls exec (fun db => (reply id tag b (f db)).pair) (fun rep s => (reply id tag b (g rep s)).pair) := by
  have key : ∀ {σ : Type} (x : Res Nat × σ), (reply id tag b x).pair = (replyTail id tag b x.1, x.2) := by
    intro σ x
    obtain ⟨r, st⟩ := x
    cases r <;> rfl
  exact h.out (replyTail id tag b) (fun db => key _) (fun rep s => key _)

theorem calls_stepBind (id : Int) (b : Str) (req : Packet) :
    Calls exec (fun db => (stepBind V srv id b req db).pair)
      (fun rep s => (stepBind V (rsv rep) id b req s).pair) := by
  have key : ∀ {τ : Type} (srv : Srv τ) (s : τ), (∀ b s, srv.close b s = s) → (stepBind V srv id b req s).pair =
      (bindEnd V id b req (handleBind srv req s).1, (handleBind srv req s).2) := by
    intro τ srv s hc
    unfold stepBind
    cases handleBind srv req s with | mk r st => ?_
    cases r with
    | ok code =>
      unfold bindEnd
      dsimp only
      by_cases h : code = rcSuccess
      · rw [if_pos h, if_pos h]
        cases req.kids[1]? with
        | none => rfl
        | some d =>
          dsimp only
          cases d.str? with
          | none => simp only [Out.pair, hc]
          | some dn =>
            dsimp only
            cases parseNormalize V.C dn with
            | none => simp only [Out.pair, hc]
            | some b => rfl
      · rw [if_neg h, if_neg h]; rfl
    | _ => rfl
  exact (calls_handleBind H req).out (bindEnd V id b req) (fun db => key _ _ H.close) (fun rep s => key _ _ (H.close' rep))

theorem calls_handlePwModify (o : Oracle) (b : Str) (body : Option Packet) :
    Calls exec (handlePwModify V srv o b body) (fun rep => handlePwModify V (rsv rep) o b body) := by
  obtain ⟨L, hL⟩ : ∃ L, srv.genPwLen = L := ⟨_, rfl⟩
  have pure : ∀ x, (∀ (τ : Type) (srv : Srv τ) (s : τ), srv.genPwLen = L → handlePwModify V srv o b body s = (x, s)) →
      Calls exec (handlePwModify V srv o b body) (fun rep => handlePwModify V (rsv rep) o b body) :=
    fun x hx => (Calls.pure H.hex x).congr (fun db => hx _ _ db hL) (fun rep s => hx _ _ s ((H.genPwLen rep).trans hL))
  by_cases hb : b = []
  · exact pure (ldapErr rcUnwillingToPerform) fun τ srv s _ => by unfold handlePwModify; rw [if_pos hb]
  cases hp : parsePwModify V body with
  | err e => exact pure (.err e) fun τ srv s _ => by unfold handlePwModify; rw [if_neg hb, hp]
  | panic => exact pure .panic fun τ srv s _ => by unfold handlePwModify; rw [if_neg hb, hp]
  | hang => exact pure .hang fun τ srv s _ => by unfold handlePwModify; rw [if_neg hb, hp]
  | ok r =>
  cases hg : (if r.newPassword = [] then generatePw o.rnd 0 L else .ok r.newPassword) with
  | err e => exact pure (ldapErr rcOperationsError) fun τ srv s hl => by unfold handlePwModify; rw [if_neg hb, hp]; dsimp only; rw [hl, hg]
  | panic => exact pure .panic fun τ srv s hl => by unfold handlePwModify; rw [if_neg hb, hp]; dsimp only; rw [hl, hg]
  | hang => exact pure .hang fun τ srv s hl => by unfold handlePwModify; rw [if_neg hb, hp]; dsimp only; rw [hl, hg]
  | ok pw =>
  cases hh : hashPw V.K o.salt pw b!"{ARGON2}" with
  | err e => exact pure (ldapErr rcOperationsError) fun τ srv s hl => by unfold handlePwModify; rw [if_neg hb, hp]; dsimp only; rw [hl, hg]; dsimp only; rw [hh]
  | panic => exact pure .panic fun τ srv s hl => by unfold handlePwModify; rw [if_neg hb, hp]; dsimp only; rw [hl, hg]; dsimp only; rw [hh]
  | hang => exact pure .hang fun τ srv s hl => by unfold handlePwModify; rw [if_neg hb, hp]; dsimp only; rw [hl, hg]; dsimp only; rw [hh]
  | ok hashed =>
    refine ((H.sPw b ⟨if r.userIdentity = [] then b else r.userIdentity, r.oldPassword, hashed⟩).map
      (pwExopAnswer (if r.newPassword = [] then some hashed else none))).congr (fun db => ?_) (fun rep s => ?_)
    · unfold handlePwModify
      rw [if_neg hb, hp]; dsimp only
      rw [hL, hg]; dsimp only; rw [hh]; dsimp only
      rw [H.ePw, pick_single]
    · unfold handlePwModify
      rw [if_neg hb, hp]; dsimp only
      rw [H.genPwLen rep, hL, hg]; dsimp only; rw [hh]; dsimp only
      rw [H.ePw' rep, pick_single]

theorem calls_handleExtended (o : Oracle) (b : Str) (req : Packet) :
    Calls exec (handleExtended V srv o b req) (fun rep => handleExtended V (rsv rep) o b req) := by
  cases hp : parseExtendedRequest req with
  | err e => exact (Calls.pure H.hex _).congr (fun db => by unfold handleExtended; rw [hp]) (fun rep s => by unfold handleExtended; rw [hp])
  | panic => exact (Calls.pure H.hex _).congr (fun db => by unfold handleExtended; rw [hp]) (fun rep s => by unfold handleExtended; rw [hp])
  | hang => exact (Calls.pure H.hex _).congr (fun db => by unfold handleExtended; rw [hp]) (fun rep s => by unfold handleExtended; rw [hp])
  | ok x =>
  obtain ⟨oid, body⟩ := x
  by_cases ho : oid = pwmodOID
  · have key : ∀ {τ : Type} (srv : Srv τ) (s : τ), handleExtended V srv o b req s =
        (extTail oid (handlePwModify V srv o b body s).1, (handlePwModify V srv o b body s).2) := by
      intro τ srv s
      unfold handleExtended
      rw [hp]; dsimp only; rw [if_pos ho]
      cases handlePwModify V srv o b body s with | mk r st => ?_
      cases r with
      | err e =>
        cases e with
        | ldap c i => cases i <;> rfl
        | _ => rfl
      | _ => rfl
    exact ((calls_handlePwModify H o b body).map (extTail oid)).congr (fun db => key _ _) (fun rep s => key _ _)
  · exact (Calls.pure H.hex _).congr (fun db => by unfold handleExtended; rw [hp]; dsimp only; rw [if_neg ho])
      (fun rep s => by unfold handleExtended; rw [hp]; dsimp only; rw [if_neg ho])

theorem calls_stepExtended (o : Oracle) (id : Int) (b : Str) (req : Packet) :
    Calls exec (fun db => (stepExtended V srv o id b req db).pair)
      (fun rep s => (stepExtended V (rsv rep) o id b req s).pair) := by
  have key : ∀ {τ : Type} (srv : Srv τ) (s : τ), (stepExtended V srv o id b req s).pair =
      (extEnd id b (handleExtended V srv o b req s).1, (handleExtended V srv o b req s).2) := by
    intro τ srv s
    unfold stepExtended
    cases handleExtended V srv o b req s with | mk r st => ?_
    cases r with
    | ok a => cases a <;> rfl
    | _ => rfl
  exact (calls_handleExtended H o b req).out (extEnd id b) (fun db => key _ _) (fun rep s => key _ _)

omit H in
/-- The part of `handleSearch` after the handler has answered; `e` is `EnforceLDAP`. -/
def searchTailE (V : Env) (e : Bool) (fp : Packet) (r : SearchReq) : Res SearchRes → List Entry × Res SearchOut
  | .err _ => ([], .panic)
  | .panic => ([], .panic)
  | .hang => ([], .hang)
  | .ok sr =>
    if sr.err then ([], .ok ⟨[], sr.code, some sr.controls, true⟩)
    else if e then match searchLoop V.C fp r 0 sr.entries with
      | (sent, .ok code) => ([], .ok ⟨sent, code, some sr.controls, code ≠ rcSuccess⟩)
      | (sent, .err _) => (sent, .panic)
      | (sent, .panic) => (sent, .panic)
      | (sent, .hang) => (sent, .hang)
    else ([], .ok ⟨sr.entries, rcSuccess, some sr.controls, false⟩)

theorem calls_handleSearch (b : Str) (req : Packet) (controls : List Control) :
    Calls exec (handleSearch V srv b req controls) (fun rep => handleSearch V (rsv rep) b req controls) := by
  cases hp : parseSearchRequest req controls with
  | none => exact (Calls.pure H.hex _).congr (fun db => by unfold handleSearch; rw [hp]) (fun rep s => by unfold handleSearch; rw [hp])
  | some r =>
  obtain ⟨e, he⟩ : ∃ e, srv.enforce = e := ⟨_, rfl⟩
  cases hc : (if e then compile r.filter else some (.mk .universal false 0 .nil [] [])) with
  | none =>
    exact (Calls.pure H.hex _).congr
      (fun db => by unfold handleSearch; rw [hp]; dsimp only; rw [he, hc])
      (fun rep s => by unfold handleSearch; rw [hp]; dsimp only; rw [H.enforce rep, he, hc])
  | some fp =>
    have tail : ∀ {τ : Type} (srv : Srv τ) (f : Str → SearchReq → Act τ SearchRes) (s : τ), srv.enforce = e → srv.searchFns = [([], f)] →
        handleSearch V srv b req controls s = (searchTailE V e fp r (f b r s).1, (f b r s).2) := by
      intro τ srv f s h1 h2
      unfold handleSearch
      rw [hp]; dsimp only
      rw [h1, hc]; dsimp only
      rw [h2, pick_single]; dsimp only
      cases f b r s with | mk y st => ?_
      cases y with
      | ok sr =>
        unfold searchTailE
        dsimp only
        by_cases he : sr.err = true
        · rw [if_pos he, if_pos he]
        · rw [if_neg he, if_neg he]
          cases e with
          | false => rfl
          | true =>
            rw [if_pos rfl, if_pos rfl]
            cases searchLoop V.C fp r 0 sr.entries with | mk a z => ?_
            cases z <;> rfl
      | _ => rfl
    exact ((H.sSearch b r).map (searchTailE V e fp r)).congr (fun db => tail srv _ db he H.eSearch)
      (fun rep s => tail (rsv rep) _ s ((H.enforce rep).trans he) (H.eSearch' rep))

theorem calls_stepSearch (id : Int) (b : Str) (req : Packet) (controls : List Control) :
    Calls exec (fun db => (stepSearch V srv id b req controls db).pair)
      (fun rep s => (stepSearch V (rsv rep) id b req controls s).pair) := by
  have key : ∀ {τ : Type} (srv : Srv τ) (s : τ), (∀ b s, srv.close b s = s) → (stepSearch V srv id b req controls s).pair =
      (searchEnd id b (handleSearch V srv b req controls s).1, (handleSearch V srv b req controls s).2) := by
    intro τ srv s hc
    unfold stepSearch
    cases handleSearch V srv b req controls s with | mk r st => ?_
    obtain ⟨bef, r⟩ := r
    cases r with
    | ok out =>
      unfold searchEnd
      dsimp only
      by_cases h : out.failed = true
      · rw [if_pos h, if_pos h]; simp only [Out.pair, hc]
      · rw [if_neg h, if_neg h]; rfl
    | _ => rfl
  exact (calls_handleSearch H b req controls).out (searchEnd id b) (fun db => key _ _ H.close) (fun rep s => key _ _ (H.close' rep))

theorem calls_packet (o : Oracle) (p : Packet) (b : Str) :
    Calls exec (fun db => (handlePacket V srv o p b db).pair)
      (fun rep s => (handlePacket V (rsv rep) o p b s).pair) := by
  obtain ⟨S, hS⟩ : ∃ S, srv.stats = S := ⟨_, rfl⟩
  have pure : ∀ x, (∀ (τ : Type) (srv : Srv τ) (s : τ), (∀ b s, srv.close b s = s) → srv.stats = S → (handlePacket V srv o p b s).pair = (x, s)) →
      Calls exec (fun db => (handlePacket V srv o p b db).pair)
        (fun rep s => (handlePacket V (rsv rep) o p b s).pair) :=
    fun x hx => (Calls.pure H.hex x).congr (fun db => hx _ _ db H.close hS) (fun rep s => hx _ _ s (H.close' rep) ((H.stats rep).trans hS))
  cases hk : p.kids with
  | nil => exact pure ([], .closed) fun τ srv s hc _ => by simp only [handlePacket, hk, Out.pair, hc]
  | cons m l =>
  cases l with
  | nil => exact pure ([], .closed) fun τ srv s hc _ => by simp only [handlePacket, hk, Out.pair, hc]
  | cons req more =>
  cases hm : m.int? with
  | none => exact pure ([], .closed) fun τ srv s hc _ => by simp only [handlePacket, hk, hm, Out.pair, hc]
  | some id =>
  by_cases ha : req.cls ≠ .application
  · exact pure ([], .closed) fun τ srv s hc _ => by simp only [handlePacket, hk, hm, if_pos ha, Out.pair, hc]
  cases hd : decodeControls V ((more.head?.map Packet.kids).getD []) with
  | panic => exact pure ([], .crash) fun τ srv s hc _ => by simp only [handlePacket, hk, hm, if_neg ha, hd, Out.pair]
  | hang => exact pure ([], .hang) fun τ srv s hc _ => by simp only [handlePacket, hk, hm, if_neg ha, hd, Out.pair]
  | err e => exact pure ([], .crash) fun τ srv s hc _ => by simp only [handlePacket, hk, hm, if_neg ha, hd, Out.pair]
  | ok controls =>
  by_cases h1 : req.tag = appAddRequest
  · cases hst : S with
    | true =>
      subst hst
      exact pure ([], .hang) fun τ srv s hc hs => by simp only [handlePacket, hk, hm, if_neg ha, hd, if_pos h1, hs, if_true, Out.pair]
    | false =>
      subst hst
      exact (calls_reply H id appAddResponse b (calls_handleAdd (V := V) H b req)).congr
        (fun db => by simp only [handlePacket, hk, hm, if_neg ha, hd, if_pos h1, hS]; rfl)
        (fun rep s => by simp only [handlePacket, hk, hm, if_neg ha, hd, if_pos h1, H.stats rep, hS]; rfl)
  by_cases h2 : req.tag = appBindRequest
  · exact (calls_stepBind (V := V) H id b req).congr (fun db => by simp only [handlePacket, hk, hm, if_neg ha, hd, if_neg h1, if_pos h2])
      (fun rep s => by simp only [handlePacket, hk, hm, if_neg ha, hd, if_neg h1, if_pos h2])
  by_cases h3 : req.tag = appCompareRequest
  · exact pure ([.result id appCompareRequest rcOperationsError], .closed) fun τ srv s hc hs => by
      simp only [handlePacket, hk, hm, if_neg ha, hd, if_neg h1, if_neg h2, if_pos h3, Out.pair, hc]
  by_cases h4 : req.tag = appDelRequest
  · exact (calls_reply H id appDelResponse b (calls_handleDelete (V := V) H b req)).congr
      (fun db => by simp only [handlePacket, hk, hm, if_neg ha, hd, if_neg h1, if_neg h2, if_neg h3, if_pos h4])
      (fun rep s => by simp only [handlePacket, hk, hm, if_neg ha, hd, if_neg h1, if_neg h2, if_neg h3, if_pos h4])
  by_cases h5 : req.tag = appExtendedRequest
  · exact (calls_stepExtended (V := V) H o id b req).congr
      (fun db => by simp only [handlePacket, hk, hm, if_neg ha, hd, if_neg h1, if_neg h2, if_neg h3, if_neg h4, if_pos h5])
      (fun rep s => by simp only [handlePacket, hk, hm, if_neg ha, hd, if_neg h1, if_neg h2, if_neg h3, if_neg h4, if_pos h5])
  by_cases h6 : req.tag = appModifyDNRequest
  · exact (calls_reply H id appModifyDNResponse b (calls_handleModifyDN (V := V) H b req)).congr
      (fun db => by simp only [handlePacket, hk, hm, if_neg ha, hd, if_neg h1, if_neg h2, if_neg h3, if_neg h4, if_neg h5, if_pos h6])
      (fun rep s => by simp only [handlePacket, hk, hm, if_neg ha, hd, if_neg h1, if_neg h2, if_neg h3, if_neg h4, if_neg h5, if_pos h6])
  by_cases h7 : req.tag = appModifyRequest
  · exact (calls_reply H id appModifyResponse b (calls_handleModify (V := V) H b req)).congr
      (fun db => by simp only [handlePacket, hk, hm, if_neg ha, hd, if_neg h1, if_neg h2, if_neg h3, if_neg h4, if_neg h5, if_neg h6, if_pos h7])
      (fun rep s => by simp only [handlePacket, hk, hm, if_neg ha, hd, if_neg h1, if_neg h2, if_neg h3, if_neg h4, if_neg h5, if_neg h6, if_pos h7])
  by_cases h8 : req.tag = appSearchRequest
  · exact (calls_stepSearch (V := V) H id b req controls).congr
      (fun db => by simp only [handlePacket, hk, hm, if_neg ha, hd, if_neg h1, if_neg h2, if_neg h3, if_neg h4, if_neg h5, if_neg h6, if_neg h7, if_pos h8])
      (fun rep s => by simp only [handlePacket, hk, hm, if_neg ha, hd, if_neg h1, if_neg h2, if_neg h3, if_neg h4, if_neg h5, if_neg h6, if_neg h7, if_pos h8])
  exact pure ([], .closed) fun τ srv s hc hs => by
    simp only [handlePacket, hk, hm, if_neg ha, hd, if_neg h1, if_neg h2, if_neg h3, if_neg h4, if_neg h5, if_neg h6, if_neg h7, if_neg h8, Out.pair, hc]


end
end Idm
