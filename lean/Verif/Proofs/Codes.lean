import Verif.Spec.Message
import Verif.Proofs.Session
import Verif.Model.BoltHandler
import Verif.Model.Ldif
/-!
# Which result codes occur
-/
namespace Idm

/-- An `*ldap.Error` has one of the codes, and not that of success. -/
def ErrCode {α : Type} (r : Res α) : Prop := ∀ code b, r = .err (.ldap code b) → ReplyCode code ∧ code ≠ 0

theorem ErrCode.ok {α : Type} (a : α) : ErrCode (.ok a) := fun _ _ h => by cases h
theorem ErrCode.panic {α : Type} : ErrCode (.panic : Res α) := fun _ _ h => by cases h
theorem ErrCode.hang {α : Type} : ErrCode (.hang : Res α) := fun _ _ h => by cases h
theorem ErrCode.ldap {α : Type} {code : Nat} {b : Bool} (h : ReplyCode code ∧ code ≠ 0) : ErrCode (.err (.ldap code b) : Res α) := fun _ _ he => by cases he; exact h
theorem ErrCode.other {α : Type} : ErrCode (.err .other : Res α) := fun _ _ h => by cases h

theorem ErrCode.bind {α β : Type} {r : Res α} {f : α → Res β} (h : ErrCode r) (hf : ∀ a, ErrCode (f a)) : ErrCode (r >>= f) := by
  cases r with
  | ok a => exact hf a
  | err e => intro code b he; cases he; exact h code b rfl
  | panic => exact .panic
  | hang => exact .hang

/-! ## Parsers -/

theorem strVals_codes (ps : List Packet) : ErrCode (strVals ps) := by
  induction ps with
  | nil => exact .ok _
  | cons p ps ih =>
    rw [strVals]
    cases p.str? with
    | none => exact .ldap (by decide)
    | some s => exact ih.bind fun _ => .ok _

theorem parseAttributeValues_codes (v : Packet) : ErrCode (parseAttributeValues v) := by
  unfold parseAttributeValues
  split
  · exact .ldap (by decide)
  · exact strVals_codes _

theorem parseAttribute_codes (a : Packet) (part : Bool) : ErrCode (parseAttribute a part) := by
  unfold parseAttribute
  split
  · exact .ldap (by decide)
  split
  · exact .ldap (by decide)
  split
  · exact .panic
  split
  · exact .ldap (by decide)
  split
  · exact .ldap (by decide)
  split
  · exact .ok _
  split
  · exact .panic
  · exact (parseAttributeValues_codes _).bind fun _ => .ok _

theorem parseAttrs_codes (ps : List Packet) : ErrCode (parseAttrs ps) := by
  induction ps with
  | nil => exact .ok _
  | cons p ps ih => exact (parseAttribute_codes p false).bind fun _ => ih.bind fun _ => .ok _

theorem parseAddRequest_codes (C : CaseEnv) (req : Packet) : ErrCode (parseAddRequest C req) := by
  unfold parseAddRequest
  split
  · split
    · exact .ldap (by decide)
    split
    · exact .ldap (by decide)
    refine ErrCode.bind ?_ fun _ => .ok _
    unfold parseAttributeList
    split
    · exact .ldap (by decide)
    · exact parseAttrs_codes _
  · exact .ldap (by decide)

theorem parseDeleteRequest_codes (C : CaseEnv) (req : Packet) : ErrCode (parseDeleteRequest C req) := by
  unfold parseDeleteRequest
  split
  · exact .ldap (by decide)
  split
  · exact .ldap (by decide)
  · exact .ok _

theorem parseMods_codes (ps : List Packet) : ErrCode (parseMods ps) := by
  induction ps with
  | nil => exact .ok _
  | cons p ps ih =>
    rw [parseMods]
    split
    · exact .panic
    split
    · exact .panic
    split
    · exact .ldap (by decide)
    split
    · exact .panic
    · exact (parseAttribute_codes _ _).bind fun _ => ih.bind fun _ => .ok _

theorem parseModifyRequest_codes (C : CaseEnv) (req : Packet) : ErrCode (parseModifyRequest C req) := by
  unfold parseModifyRequest
  split
  · split
    · exact .ldap (by decide)
    split
    · exact .ldap (by decide)
    refine ErrCode.bind ?_ fun _ => .ok _
    unfold parseModList
    split
    · exact .ldap (by decide)
    · exact parseMods_codes _
  · exact .ldap (by decide)

theorem parseModifyDNRequest_codes (C : CaseEnv) (req : Packet) : ErrCode (parseModifyDNRequest C req) := by
  unfold parseModifyDNRequest
  split
  · exact .ldap (by decide)
  split
  · split
    · exact .ldap (by decide)
    split
    · exact .ldap (by decide)
    split
    · exact .ldap (by decide)
    split
    · exact .ldap (by decide)
    split
    · exact .ldap (by decide)
    split
    · exact .ldap (by decide)
    · exact .ok _
  · exact .panic

theorem pwKids_codes (ks : List Packet) (r : PwModReq) : ErrCode (pwKids r ks) := by
  induction ks generalizing r with
  | nil => exact .ok _
  | cons k ks ih =>
    rw [pwKids]
    split
    · exact .ldap (by decide)
    split
    · exact ih _
    split
    · exact ih _
    split
    · exact ih _
    · exact .ldap (by decide)

theorem parsePwModify_codes (V : Env) (body : Option Packet) : ErrCode (parsePwModify V body) := by
  unfold parsePwModify
  split
  · exact .ok _
  split
  · exact .ok _
  split
  · exact .ldap (by decide)
  · exact pwKids_codes _ _

/-! ## Filters -/

/-- A result of the filter functions has code success or operationsError. -/
def FilterCode (r : Res (Bool × Nat)) : Prop := ∀ b code, r = .ok (b, code) → code = 0 ∨ code = 1

theorem FilterCode.bind {α : Type} {r : Res α} {f : α → Res (Bool × Nat)} (hf : ∀ a, r = .ok a → FilterCode (f a)) : FilterCode (r >>= f) := by
  cases r with
  | ok a => exact hf a rfl
  | err e => intro b code h; cases h
  | panic => intro b code h; cases h
  | hang => intro b code h; cases h

theorem FilterCode.ok {b : Bool} {code : Nat} (h : code = 0 ∨ code = 1) : FilterCode (.ok (b, code)) := fun _ _ he => by cases he; exact h
theorem FilterCode.panic : FilterCode .panic := fun _ _ h => by cases h

theorem applyEq_codes (C : CaseEnv) (e : Entry) (ks : List Packet) : FilterCode (applyEq C e ks) := by
  unfold applyEq
  repeat' (first | exact .ok (.inl rfl) | exact .ok (.inr rfl) | exact .panic | split | (refine FilterCode.bind fun _ _ => ?_))

theorem applySub_codes (C : CaseEnv) (e : Entry) (ks : List Packet) : FilterCode (applySub C e ks) := by
  unfold applySub
  repeat' (first | exact .ok (.inl rfl) | exact .ok (.inr rfl) | exact .panic | split | (refine FilterCode.bind fun _ _ => ?_))

mutual
theorem applyFilter_codes (C : CaseEnv) (e : Entry) : (p : Packet) → FilterCode (applyFilter C e p)
  | .mk c k tag v data kids => by
    rw [applyFilter]
    split
    · exact applyEq_codes _ _ _
    split
    · exact .ok (.inl rfl)
    split
    · exact applyAnd_codes C e kids
    split
    · exact applyOr_codes C e kids false
    split
    · exact applyNot_codes C e kids
    split
    · exact applySub_codes _ _ _
    · exact .ok (.inr rfl)
theorem applyAnd_codes (C : CaseEnv) (e : Entry) : (ps : List Packet) → FilterCode (applyAnd C e ps)
  | [] => by rw [applyAnd]; exact .ok (.inl rfl)
  | p :: ps => by
    rw [applyAnd]
    refine FilterCode.bind fun a ha => ?_
    obtain ⟨ok, code⟩ := a
    dsimp only
    split
    · exact .ok (applyFilter_codes C e p _ _ ha)
    split
    · exact .ok (.inl rfl)
    · exact applyAnd_codes C e ps
theorem applyOr_codes (C : CaseEnv) (e : Entry) : (ps : List Packet) → (any : Bool) → FilterCode (applyOr C e ps any)
  | [], any => by rw [applyOr]; exact .ok (.inl rfl)
  | p :: ps, any => by
    rw [applyOr]
    refine FilterCode.bind fun a ha => ?_
    obtain ⟨ok, code⟩ := a
    dsimp only
    split
    · exact .ok (applyFilter_codes C e p _ _ ha)
    · exact applyOr_codes C e ps _
theorem applyNot_codes (C : CaseEnv) (e : Entry) : (ps : List Packet) → FilterCode (applyNot C e ps)
  | [] => by rw [applyNot]; exact .ok (.inr rfl); intro p h; cases h
  | [p] => by
    rw [applyNot]
    refine FilterCode.bind fun a ha => ?_
    obtain ⟨ok, code⟩ := a
    dsimp only
    split
    · exact .ok (applyFilter_codes C e p _ _ ha)
    · exact .ok (.inl rfl)
  | p :: q :: ps => by rw [applyNot]; exact .ok (.inr rfl); intro p h; cases h
end

theorem filterScope_codes (C : CaseEnv) (base : Str) (scope : Nat) (e : Entry) : (filterScope C base scope e).2 = 0 ∨ (filterScope C base scope e).2 = 1 := by
  unfold filterScope
  repeat' (first | exact .inl rfl | exact .inr rfl | split)

theorem searchLoop_codes (C : CaseEnv) (fp : Packet) (r : SearchReq) (es : List Entry) (i code : Nat) (h : (searchLoop C fp r i es).2 = .ok code) :
    ReplyCode code := by
  have h01 : ∀ {c : Nat}, c = 0 ∨ c = 1 → ReplyCode c := by rintro c (rfl | rfl) <;> decide
  induction es generalizing i with
  | nil => cases h; decide
  | cons e es ih =>
    rw [searchLoop] at h
    cases hf : applyFilter C e fp with
    | err x => rw [hf] at h; cases h
    | panic => rw [hf] at h; cases h
    | hang => rw [hf] at h; cases h
    | ok q =>
      obtain ⟨keep, c⟩ := q
      rw [hf] at h
      dsimp only at h
      split at h
      · cases h; exact h01 (applyFilter_codes C e fp _ _ hf)
      split at h
      · exact ih i h
      have hs := filterScope_codes C r.baseDN (scopeNat r.scope) e
      generalize filterScope C r.baseDN (scopeNat r.scope) e = q at h hs
      obtain ⟨keep', c'⟩ := q
      dsimp only at h hs
      split at h
      · cases h; exact h01 hs
      split at h
      · exact ih i h
      split at h
      · cases h; decide
      · exact ih (i + 1) h

/-! ## The front end -/

/-- A handler answers one of the codes. -/
def AnsOk : Res (Nat × Bool) → Prop
  | .ok (code, _) => ReplyCode code
  | .err _ => False
  | _ => True

theorem AnsOk.mk {code : Nat} {b : Bool} (h : ReplyCode code) : AnsOk (.ok (code, b)) := h

theorem AnsOk.code {x : Res (Nat × Bool)} {code : Nat} {b : Bool} (h : AnsOk x) (he : x = .ok (code, b)) : ReplyCode code := by
  subst he; exact h

theorem pwExopAnswer_codes {x : Res (Nat × Bool)} (h : AnsOk x) (g : Option Str) : ErrCode (pwExopAnswer g x) := by
  unfold pwExopAnswer
  split
  · split
    · rename_i hne; exact .ldap ⟨h, hne⟩
    · exact .ok _
  · exact absurd h id
  · exact .panic
  · exact .hang

/-- A search handler answers one of the codes, and page sizes of 32 bits. -/
def SearchOk : Res SearchRes → Prop
  | .ok r => ReplyCode r.code ∧ ∀ n k, .paging n k ∈ r.controls → n < 2 ^ 32
  | .err _ => False
  | _ => True

theorem SearchOk.get {x : Res SearchRes} {r : SearchRes} (h : SearchOk x) (he : x = .ok r) :
    ReplyCode r.code ∧ ∀ n k, .paging n k ∈ r.controls → n < 2 ^ 32 := by
  subst he; exact h

structure CodesOk {σ : Type} (srv : Srv σ) : Prop where
  add : ∀ x ∈ srv.addFns, ∀ b r st, AnsOk (x.2 b r st).1
  bind : ∀ x ∈ srv.bindFns, ∀ b r st, AnsOk (x.2 b r st).1
  delete : ∀ x ∈ srv.deleteFns, ∀ b r st, AnsOk (x.2 b r st).1
  modify : ∀ x ∈ srv.modifyFns, ∀ b r st, AnsOk (x.2 b r st).1
  modifyDN : ∀ x ∈ srv.modifyDNFns, ∀ b r st, AnsOk (x.2 b r st).1
  pwExop : ∀ x ∈ srv.pwExopFns, ∀ b r st, AnsOk (x.2 b r st).1
  search : ∀ x ∈ srv.searchFns, ∀ b r st, SearchOk (x.2 b r st).1

theorem pick_mem {α : Type} {fns : List (Str × α)} {dn : Str} {f : α} (h : pick fns dn = some f) : ∃ k, (k, f) ∈ fns := by
  unfold pick fnAt at h
  obtain ⟨x, hx, rfl⟩ := Option.map_eq_some_iff.1 h
  exact ⟨x.1, List.mem_of_find?_eq_some hx⟩

theorem callFn_codes {σ ρ : Type} {fns : List (Str × (Str → ρ → Act σ (Nat × Bool)))} (h : ∀ x ∈ fns, ∀ b r st, AnsOk (x.2 b r st).1)
    (dn bound : Str) (r : ρ) (st : σ) (code : Nat) (hc : (callFn fns dn bound r st).1 = .ok code) : ReplyCode code := by
  unfold callFn at hc
  cases hp : pick fns dn with
  | none => rw [hp] at hc; cases hc; decide
  | some f =>
    obtain ⟨k, hk⟩ := pick_mem hp
    rw [hp] at hc
    have := h _ hk bound r st
    dsimp only at hc this
    revert hc this
    cases (f bound r st).1 with
    | ok q => intro hc h; cases hc; exact h
    | err e => intro _ h; exact absurd h id
    | panic => intro hc; cases hc
    | hang => intro hc; cases hc

theorem parseFailed_codes {σ ρ : Type} {r : Res ρ} (h : ErrCode r) (st : σ) (code : Nat) (hc : (parseFailed r st).1 = .ok code) : ReplyCode code := by
  unfold parseFailed at hc
  split at hc
  · cases hc; decide
  · cases hc; exact (h _ _ rfl).1
  · cases hc; decide
  · cases hc
  · cases hc

theorem handleAdd_codes {σ : Type} (V : Env) {srv : Srv σ} (hs : CodesOk srv) (bound : Str) (req : Packet) (st : σ) (code : Nat)
    (hc : (handleAdd V srv bound req st).1 = .ok code) : ReplyCode code := by
  unfold handleAdd at hc
  split at hc
  · cases hc; decide
  split at hc
  · exact callFn_codes hs.add _ _ _ _ _ hc
  · exact parseFailed_codes (parseAddRequest_codes _ _) _ _ hc

theorem handleDelete_codes {σ : Type} (V : Env) {srv : Srv σ} (hs : CodesOk srv) (bound : Str) (req : Packet) (st : σ) (code : Nat)
    (hc : (handleDelete V srv bound req st).1 = .ok code) : ReplyCode code := by
  unfold handleDelete at hc
  split at hc
  · cases hc; decide
  split at hc
  · exact callFn_codes hs.delete _ _ _ _ _ hc
  · exact parseFailed_codes (parseDeleteRequest_codes _ _) _ _ hc

theorem handleModify_codes {σ : Type} (V : Env) {srv : Srv σ} (hs : CodesOk srv) (bound : Str) (req : Packet) (st : σ) (code : Nat)
    (hc : (handleModify V srv bound req st).1 = .ok code) : ReplyCode code := by
  unfold handleModify at hc
  split at hc
  · cases hc; decide
  split at hc
  · exact callFn_codes hs.modify _ _ _ _ _ hc
  · exact parseFailed_codes (parseModifyRequest_codes _ _) _ _ hc

theorem handleModifyDN_codes {σ : Type} (V : Env) {srv : Srv σ} (hs : CodesOk srv) (bound : Str) (req : Packet) (st : σ) (code : Nat)
    (hc : (handleModifyDN V srv bound req st).1 = .ok code) : ReplyCode code := by
  unfold handleModifyDN at hc
  split at hc
  · cases hc; decide
  split at hc
  · exact callFn_codes hs.modifyDN _ _ _ _ _ hc
  · exact parseFailed_codes (parseModifyDNRequest_codes _ _) _ _ hc

theorem bindBody_codes {σ : Type} {srv : Srv σ} (hs : CodesOk srv) (req : Packet) (st : σ) (code : Nat)
    (hc : (bindBody srv req st).1 = .ok code) : ReplyCode code := by
  unfold bindBody at hc
  split at hc
  · cases hc
  split at hc
  · cases hc; decide
  split at hc
  · cases hc; decide
  split at hc
  · cases hc
  split at hc
  · cases hc; decide
  split at hc
  · cases hc
  split at hc
  · split at hc
    · split at hc
      · cases hc
      · rename_i hp
        obtain ⟨k, hk⟩ := pick_mem hp
        have h2 : ∀ b pw, AnsOk _ := fun b pw => hs.bind _ hk b pw st
        dsimp only at hc h2
        split at hc
        · rename_i he; cases hc; exact (h2 _ _).code he
        · cases hc; decide
        · cases hc; decide
        · cases hc
        · cases hc
    · cases hc; decide
  · cases hc; decide

theorem handleBind_codes {σ : Type} {srv : Srv σ} (hs : CodesOk srv) (req : Packet) (st : σ) (code : Nat)
    (hc : (handleBind srv req st).1 = .ok code) : ReplyCode code := by
  unfold handleBind at hc
  split at hc
  · cases hc; decide
  · rename_i r h
    exact bindBody_codes hs req st code hc

theorem handlePwModify_codes {σ : Type} (V : Env) {srv : Srv σ} (hs : CodesOk srv) (o : Oracle) (bound : Str) (body : Option Packet) (st : σ) :
    ErrCode (handlePwModify V srv o bound body st).1 := by
  unfold handlePwModify
  split
  · exact .ldap (by decide)
  split
  · rename_i e he; have := parsePwModify_codes V body; rw [he] at this; exact fun code b h => this code b (by cases h; rfl)
  · exact .panic
  · exact .hang
  · dsimp only
    split
    · exact .ldap (by decide)
    · exact .panic
    · exact .hang
    split
    · exact .ldap (by decide)
    · exact .panic
    · exact .hang
    split
    · exact .ldap (by decide)
    · rename_i hp
      obtain ⟨k, hk⟩ := pick_mem hp
      exact pwExopAnswer_codes (hs.pwExop _ hk _ _ _) _

theorem handleExtended_codes {σ : Type} (V : Env) {srv : Srv σ} (hs : CodesOk srv) (o : Oracle) (bound : Str) (req : Packet) (st : σ)
    (code : Nat) (oid : Str) (gen : Option Str) (hc : (handleExtended V srv o bound req st).1 = .ok (.done code oid gen)) : ReplyCode code := by
  unfold handleExtended at hc
  split at hc
  · cases hc
  · cases hc
  · cases hc
  split at hc
  · have := handlePwModify_codes V hs o bound
    split at hc
    · cases hc; decide
    · rename_i h; cases hc; exact (this _ _ _ _ (congrArg Prod.fst h)).1
    · cases hc
    · cases hc; decide
    · cases hc
    · cases hc
  · cases hc

theorem handleSearch_codes {σ : Type} (V : Env) {srv : Srv σ} (hs : CodesOk srv) (bound : Str) (req : Packet) (cs : List Control) (st : σ)
    (out : SearchOut) (hc : (handleSearch V srv bound req cs st).1.2 = .ok out) :
    ReplyCode out.code ∧ ∀ l, out.controls = some l → ∀ n k, .paging n k ∈ l → n < 2 ^ 32 := by
  unfold handleSearch at hc
  split at hc
  · cases hc; exact ⟨(by decide), fun l hl => by cases hl⟩
  split at hc
  · cases hc; exact ⟨(by decide), fun l hl => by cases hl⟩
  split at hc
  · cases hc
  · rename_i hp
    obtain ⟨k, hk⟩ := pick_mem hp
    have h2 : ∀ b r, SearchOk _ := fun b r => hs.search _ hk b r st
    dsimp only at hc h2
    split at hc
    · cases hc
    · cases hc
    · cases hc
    rename_i he
    have h := (h2 _ _).get he
    split at hc
    · cases hc; exact ⟨h.1, fun l hl => by cases hl; exact h.2⟩
    split at hc
    · split at hc
      · rename_i hl; cases hc
        exact ⟨searchLoop_codes _ _ _ _ _ _ (congrArg Prod.snd hl), fun l hl => by cases hl; exact h.2⟩
      · cases hc
      · cases hc
      · cases hc
    · cases hc; exact ⟨(show ReplyCode 0 by decide), fun l hl => by cases hl; exact h.2⟩

/-- Every response can be sent. -/
theorem handlePacket_sendable {σ : Type} (V : Env) {srv : Srv σ} (hs : CodesOk srv) (o : Oracle) (p : Packet) (bound : Str) (st : σ)
    (hid : ∀ k ∈ p.kids, ∀ i, k.val = .int i → Int64 i) : ∀ r ∈ (handlePacket V srv o p bound st).resps, Sendable r := by
  have hm : ∀ {id req}, Message p id req → Int64 id := by
    rintro id req ⟨m, more, hk, hi, -⟩
    exact hid m (by rw [hk]; simp) id hi
  have hreply : ∀ (id : Int) (tag : Nat) (x : Res Nat × σ), Int64 id → (tag = 7 ∨ tag = 9 ∨ tag = 11 ∨ tag = 13) →
      (∀ code, x.1 = .ok code → ReplyCode code) → ∀ r ∈ (reply id tag bound x).resps, Sendable r := by
    intro id tag x h1 h2 h3 r hr
    rcases reply_cases id tag bound x with ⟨code, he, hc⟩ | ⟨he, -⟩ | ⟨he, -⟩
    · rw [he] at hr
      simp only [List.mem_singleton] at hr
      subst hr
      refine ⟨h1, ?_, by omega⟩
      rcases hc with hc | ⟨e, -, rfl⟩
      · exact h3 code hc
      · decide
    · rw [he] at hr; simp at hr
    · rw [he] at hr; simp at hr
  have hc := handlePacket_cases V srv o p bound st
  generalize handlePacket V srv o p bound st = out at hc
  cases hc with
  | closed => intro r hr; simp at hr
  | crash => intro r hr; simp at hr
  | hang => intro r hr; simp at hr
  | addHang => intro r hr; simp at hr
  | add id req h ht _ => exact hreply _ _ _ (hm h) (by omega) (handleAdd_codes V hs bound req st)
  | delete id req h ht => exact hreply _ _ _ (hm h) (by omega) (handleDelete_codes V hs bound req st)
  | modify id req h ht => exact hreply _ _ _ (hm h) (by omega) (handleModify_codes V hs bound req st)
  | modifyDN id req h ht => exact hreply _ _ _ (hm h) (by omega) (handleModifyDN_codes V hs bound req st)
  | compare id req h ht =>
    intro r hr
    simp only [List.mem_singleton] at hr
    subst hr
    exact ⟨hm h, (by decide), by omega⟩
  | bind id req h ht =>
    intro r hr
    rcases stepBind_cases V srv id bound req st with ⟨code, he, -, hc⟩ | ⟨d, dn, b, he, -⟩ | he | he | ⟨he, -⟩ <;> rw [he] at hr
    · simp only [List.mem_singleton] at hr
      subst hr
      exact ⟨hm h, handleBind_codes hs req st code hc, by omega⟩
    · simp only [List.mem_singleton] at hr
      subst hr
      exact ⟨hm h, (by decide), by omega⟩
    · simp at hr
    · simp at hr
    · simp at hr
  | extended id req h ht =>
    intro r hr
    unfold stepExtended at hr
    have := handleExtended_codes V hs o bound req st
    revert hr this
    generalize handleExtended V srv o bound req st = x
    obtain ⟨a, st'⟩ := x
    cases a with
    | ok a =>
      cases a with
      | failed => intro hr _; simp only [List.mem_singleton] at hr; subst hr; exact ⟨hm h, (by decide), by decide⟩
      | done code oid gen => intro hr hc; simp only [List.mem_singleton] at hr; subst hr; exact ⟨hm h, hc code oid gen rfl⟩
    | err e => intro hr _; simp only [List.mem_singleton] at hr; subst hr; exact ⟨hm h, (by decide), by decide⟩
    | panic => intro hr; simp at hr
    | hang => intro hr; simp at hr
  | search id req cs h ht _ =>
    intro r hr
    unfold stepSearch at hr
    have := handleSearch_codes V hs bound req cs st
    revert hr this
    generalize handleSearch V srv bound req cs st = x
    obtain ⟨⟨before, a⟩, st'⟩ := x
    have hent : ∀ l : List Entry, r ∈ l.map (Resp.entry id) → Sendable r := by
      intro l hl
      obtain ⟨e, -, rfl⟩ := List.mem_map.1 hl
      exact hm h
    cases a with
    | ok out =>
      intro hr hc
      dsimp only at hr
      have hr : r ∈ out.sent.map (Resp.entry id) ++ [.searchDone id out.code out.controls] := by
        split at hr <;> exact hr
      rcases List.mem_append.1 hr with hr | hr
      · exact hent _ hr
      · simp only [List.mem_singleton] at hr
        subst hr
        exact ⟨hm h, hc out rfl⟩
    | err e => intro hr _; exact hent _ hr
    | panic => intro hr _; exact hent _ hr
    | hang => intro hr _; exact hent _ hr

/-! ## The BoltDB store -/

/-- The body fails with one of the codes. -/
def ProgCode {α : Type} : Prog α → Prop
  | .ret _ => True
  | .fail e => ∀ code b, e = .ldap code b → ReplyCode code ∧ code ≠ 0
  | .panic => True
  | .hang => True
  | .get _ _ c => ∀ r, ProgCode (c r)
  | .put _ _ _ c => ProgCode c
  | .del _ _ c => ProgCode c
  | .nextSeq c => ∀ n, ProgCode (c n)

theorem ProgCode.bind {α β : Type} {p : Prog α} {f : α → Prog β} (h : ProgCode p) (hf : ∀ a, ProgCode (f a)) : ProgCode (p >>= f) := by
  show ProgCode (p.bind f)
  induction p with
  | ret a => exact hf a
  | fail e => exact h
  | panic => trivial
  | hang => trivial
  | get b k c ih => exact fun r => ih r (h r)
  | put b k v c ih => exact ih h
  | del b k c ih => exact ih h
  | nextSeq c ih => exact fun n => ih n (h n)

theorem ProgCode.lift {α : Type} {r : Res α} (h : ErrCode r) : ProgCode (Prog.lift r) := by
  cases r with
  | ok a => trivial
  | err e => exact fun code b he => h code b (by rw [he])
  | panic => trivial
  | hang => trivial

theorem ProgCode.run {α : Type} {p : Prog α} (h : ProgCode p) (db : Db) : ErrCode (p.run db) := by
  induction p generalizing db with
  | ret a => exact .ok _
  | fail e => intro code b he; exact h code b (by cases he; rfl)
  | panic => exact .panic
  | hang => exact .hang
  | get b k c ih => exact ih _ (h _) db
  | put b k v c ih =>
    rw [Prog.run]
    split
    · exact .other
    · exact ih h _
  | del b k c ih => exact ih h _
  | nextSeq c ih => exact ih _ (h _) _

theorem ProgCode.update {α : Type} {p : Prog α} (h : ProgCode p) (db : Db) : ErrCode (update p db).1 := by
  have := h.run db
  unfold Idm.update
  cases hr : p.run db with
  | ok q => exact .ok _
  | err e => intro code b he; exact this code b (by cases he; exact hr)
  | panic => exact .panic
  | hang => exact .hang

theorem applyChange_codes (C : CaseEnv) (rdn : RDN) (old attrs : List Attr) (c : Change) : ErrCode (applyChange C rdn old attrs c) := by
  unfold applyChange
  split
  · exact .ok _
  split
  · split
    · exact .ldap (by decide)
    · exact .ok _
  split
  · split
    · exact .ldap (by decide)
    · exact .ok _
  · exact .ok _

theorem applyChanges_codes (C : CaseEnv) (rdn : RDN) (old : List Attr) (cs : List Change) (attrs : List Attr) : ErrCode (applyChanges C rdn old attrs cs) := by
  induction cs generalizing attrs with
  | nil => exact .ok _
  | cons c cs ih => exact (applyChange_codes C rdn old attrs c).bind fun a => ih a

theorem applyModify_codes (C : CaseEnv) (e : Entry) (dn : Str) (cs : List Change) : ErrCode (applyModify C e dn cs) := by
  unfold applyModify
  split
  · exact .other
  · exact .panic
  split
  · exact .other
  split
  · exact (applyChanges_codes _ _ _ _ _).bind fun _ => .ok _
  · exact .ldap (by decide)

theorem getIDByDN_codes (n : Str) : ProgCode (getIDByDN n) := by
  unfold getIDByDN
  refine ProgCode.bind (fun _ => trivial) fun v => ?_
  cases v with
  | none => trivial
  | some v =>
    refine ProgCode.lift ?_
    unfold decodeId
    split
    · exact .ok _
    · exact .panic

theorem getEntryByDN_codes (G : GobEnv) (n : Str) : ProgCode (getEntryByDN G n) := by
  unfold getEntryByDN
  refine (getIDByDN_codes n).bind fun id => ?_
  split
  · exact fun code b h => by cases h
  · refine ProgCode.bind ?_ fun _ => trivial
    unfold getEntryByID
    refine ProgCode.bind (fun _ => trivial) fun v => ?_
    split
    · exact fun code b h => by cases h
    · trivial

theorem entryModifyWithTxn_codes (C : CaseEnv) (G : GobEnv) (id : Nat) (e : Entry) (dn : Str) (cs : List Change) :
    ProgCode (entryModifyWithTxn C G id e dn cs) :=
  (ProgCode.lift (applyModify_codes C e dn cs)).bind fun _ => trivial

theorem entryModify_codes (C : CaseEnv) (G : GobEnv) (db : Db) (dn : Str) (cs : List Change) : ErrCode (entryModify C G db dn cs).1 := by
  unfold entryModify
  split
  · exact .other
  · exact ProgCode.update ((getEntryByDN_codes G _).bind fun q => entryModifyWithTxn_codes C G q.2 q.1 dn cs) db

theorem entryModifyDN_codes (C : CaseEnv) (G : GobEnv) (db : Db) (r : ModifyDNReq) : ErrCode (entryModifyDN C G db r).1 := by
  unfold entryModifyDN
  split
  · exact .other
  split
  · exact .other
  · exact .panic
  split
  · exact .panic
  · refine ProgCode.update ?_ db
    unfold entryModifyDNBody
    refine (getIDByDN_codes _).bind fun id => ?_
    split
    · exact fun code b h => by cases h
    · refine (getEntryByDN_codes G _).bind fun q => ?_
      refine ProgCode.bind (ProgCode.bind (fun _ => trivial) fun _ => trivial) fun ids => ?_
      split
      · exact fun code b h => by cases h
      · exact (entryModifyWithTxn_codes C G _ _ _ _).bind fun _ => trivial

theorem storeCode_codes (r : Res Unit) : AnsOk (storeCode r) := by
  unfold storeCode
  split <;> first | exact .mk (by decide) | trivial

theorem storeCodeLdap_codes {r : Res Unit} (h : ErrCode r) : AnsOk (storeCodeLdap r) := by
  unfold storeCodeLdap
  split <;> first | exact .mk (by decide) | trivial | exact (h _ _ rfl).1

theorem boltSrv_codes (V : Env) (G : GobEnv) (cfg : BoltCfg) (genPwLen : Nat) (stats : Bool) : CodesOk (boltSrv V G cfg genPwLen stats) where
  add := by
    intro x hx b r st
    simp only [boltSrv, List.mem_singleton] at hx
    subst hx
    dsimp only
    unfold boltAdd
    split
    · exact .mk (by decide)
    · exact storeCode_codes _
  bind := by
    intro x hx b r st
    simp only [boltSrv, List.mem_singleton] at hx
    subst hx
    dsimp only
    unfold boltBind
    split
    · exact .mk (by decide)
    split
    · exact .mk (by decide)
    split
    · exact .mk (by decide)
    split
    · exact .mk (by decide)
    split
    · exact .mk (by decide)
    · unfold validateUser
      dsimp only
      split
      · split <;> first | exact .mk (by decide) | trivial
      · exact .mk (by decide)
      · exact .mk (by decide)
      · trivial
      · trivial
  delete := by
    intro x hx b r st
    simp only [boltSrv, List.mem_singleton] at hx
    subst hx
    dsimp only
    unfold boltDelete
    split
    · exact .mk (by decide)
    · exact storeCode_codes _
  modify := by
    intro x hx b r st
    simp only [boltSrv, List.mem_singleton] at hx
    subst hx
    dsimp only
    unfold boltModify
    split
    · exact .mk (by decide)
    · exact storeCodeLdap_codes (entryModify_codes _ _ _ _ _)
  modifyDN := by
    intro x hx b r st
    simp only [boltSrv, List.mem_singleton] at hx
    subst hx
    dsimp only
    unfold boltModifyDN
    split
    · exact .mk (by decide)
    · exact storeCodeLdap_codes (entryModifyDN_codes _ _ _ _)
  pwExop := by
    intro x hx b r st
    simp only [boltSrv, List.mem_singleton] at hx
    subst hx
    dsimp only
    have go : ∀ y : Res Unit, AnsOk (match y with
        | .ok _ => .ok (rcSuccess, false)
        | .err _ => .ok (rcOther, true)
        | .panic => .panic
        | .hang => .hang) := by
      intro y
      cases y <;> first | exact .mk (by decide) | trivial
    unfold boltPwExop
    dsimp only
    split
    · exact .mk (by decide)
    split
    · split
      · exact .mk (by decide)
      split
      · exact .mk (by decide)
      · exact go _
    · exact go _
  search := by
    intro x hx b r st
    simp only [boltSrv, List.mem_singleton] at hx
    subst hx
    dsimp only
    unfold boltSearchFn
    split
    · exact ⟨(by decide : ReplyCode 0), fun n k h => by simp at h⟩
    · exact ⟨(by decide : ReplyCode 0), fun n k h => by simp at h⟩
    · trivial
    · trivial

/-! ## The LDIF server -/

theorem searchPage_codes (V : Env) (fp : Packet) (r : SearchReq) (paging : Option Nat) (l : List LEntry) (count : Nat) (p : Page)
    (h : searchPage V fp r paging count l = .ok p) : ReplyCode p.code := by
  have h01 : ∀ {c : Nat}, c = 0 ∨ c = 1 → ReplyCode c := by rintro c (rfl | rfl) <;> decide
  induction l generalizing count p with
  | nil => cases h; exact (by decide : ReplyCode 0)
  | cons x xs ih =>
    rw [searchPage] at h
    cases hf : applyFilter V.C x.visible fp with
    | err x => rw [hf] at h; cases h
    | panic => rw [hf] at h; cases h
    | hang => rw [hf] at h; cases h
    | ok q =>
      obtain ⟨keep, c⟩ := q
      rw [hf] at h
      dsimp only at h
      split at h
      · cases h; exact h01 (applyFilter_codes V.C _ fp _ _ hf)
      split at h
      · exact ih _ _ h
      have hs := filterScope_codes V.C r.baseDN (scopeNat r.scope) x.visible
      generalize filterScope V.C r.baseDN (scopeNat r.scope) x.visible = q at h hs
      obtain ⟨keep', c'⟩ := q
      dsimp only at h hs
      split at h
      · cases h; exact h01 hs
      split at h
      · exact ih _ _ h
      split at h
      · cases h; exact (by decide : ReplyCode 0)
      split at h
      · cases h; exact (by decide : ReplyCode 0)
      split at h
      · rename_i q hq; cases h; exact (ih _ q hq : ReplyCode q.code)
      · rename_i hq; exact absurd h (hq p)

theorem ldifBindCode_codes (x : Res Bool) : AnsOk (ldifBindCode x) := by
  unfold ldifBindCode
  split <;> first | exact .mk (by decide) | trivial

theorem ldifBind_codes (V : Env) (cfg : LdifCfg) (dn pw : Str) (st : LdifSt) : AnsOk (ldifBind V cfg dn pw st).1 := by
  unfold ldifBind
  dsimp only
  split
  · exact .mk (by decide)
  split
  · split <;> exact .mk (by decide)
  split
  · exact .mk (by decide)
  · exact ldifBindCode_codes _

theorem ldifSrv_codes (V : Env) (W : WalkOrd) (cfg : LdifCfg) (genPwLen : Nat) (stats : Bool) : CodesOk (ldifSrv V W cfg genPwLen stats) where
  add := by intro x hx b r st; simp only [ldifSrv, List.mem_singleton] at hx; subst hx; exact .mk (by decide)
  delete := by intro x hx b r st; simp only [ldifSrv, List.mem_singleton] at hx; subst hx; exact .mk (by decide)
  modify := by intro x hx b r st; simp only [ldifSrv, List.mem_singleton] at hx; subst hx; exact .mk (by decide)
  modifyDN := by intro x hx b r st; simp only [ldifSrv, List.mem_singleton] at hx; subst hx; exact .mk (by decide)
  pwExop := by intro x hx b r st; simp only [ldifSrv, List.mem_singleton] at hx; subst hx; exact .mk (by decide)
  bind := by
    intro x hx b r st
    simp only [ldifSrv, List.mem_singleton] at hx
    subst hx
    dsimp only
    split
    · unfold confBind
      dsimp only
      split
      · exact ldifBind_codes _ _ _ _ _
      split
      · split
        · exact .mk (by decide)
        · exact ldifBindCode_codes _
      · exact ldifBind_codes _ _ _ _ _
    · exact ldifBind_codes _ _ _ _ _
  search := by
    intro x hx b r st
    simp only [ldifSrv, List.mem_singleton] at hx
    subst hx
    dsimp only
    have hn : ∀ {c : Nat}, ReplyCode c → ∀ {es : List Entry} {e : Bool}, SearchOk (.ok ⟨es, [], c, e⟩) :=
      fun h _ _ => ⟨h, fun n k h => by simp at h⟩
    unfold ldifSearch
    dsimp only
    split
    · exact hn (by decide)
    split
    · trivial
    · trivial
    · trivial
    split
    · exact hn (by decide)
    split
    · exact hn (by decide)
    split
    · exact hn (by decide)
    split
    · exact hn (by decide)
    · trivial
    split
    · trivial
    · trivial
    · trivial
    rename_i hp
    split
    · exact hn (searchPage_codes _ _ _ _ _ _ _ hp)
    · refine ⟨(by decide : ReplyCode 0), fun n k h => ?_⟩
      dsimp only at h
      split at h
      · simp only [List.mem_singleton] at h; cases h; omega
      · simp at h

end Idm
