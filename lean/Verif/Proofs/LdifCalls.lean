import Verif.Spec.LdifParallel
import Verif.Proofs.Record
import Verif.Spec.Paging
import Verif.Proofs.LdifPaging
/-!
# The LDIF server: every packet makes at most one call of the handler
-/
namespace Idm

section
variable {V : Env} {W : WalkOrd} {cfg : LdifCfg} {g : Nat} {stats : Bool}

/-- The call alone. -/
def ldifExec (V : Env) (W : WalkOrd) (cfg : LdifCfg) : Option LCall → LdifSt → LRep × LdifSt
  | none, st => (.nothing, st)
  | some (.bind dn pw), st =>
    (.bind ((if cfg.conf then confBind V cfg else ldifBind V cfg) dn pw st).1, ((if cfg.conf then confBind V cfg else ldifBind V cfg) dn pw st).2)
  | some (.search b r), st => (.search (ldifSearch V W cfg b r st).1, (ldifSearch V W cfg b r st).2)

theorem refuse_calls {ρ : Type} (b : Str) (r : ρ) : Calls (ldifExec V W cfg) (ldifRefuse b r) (fun _ => recRefuse b r) :=
  ⟨none, fun _ => rfl, fun _ => rfl⟩

/-- The recording server notes the calls of the LDIF server. -/
def ldifCallRecords (V : Env) (W : WalkOrd) (cfg : LdifCfg) (g : Nat) (stats : Bool) :
    Records (ldifExec V W cfg) (ldifSrv V W cfg g stats) (fun rep => recordLdif rep g stats) where
  hex := fun _ => rfl
  fAdd := ldifRefuse
  gAdd := fun _ => recRefuse
  eAdd := rfl
  eAdd' := fun _ => rfl
  sAdd := refuse_calls
  fBind := if cfg.conf then confBind V cfg else ldifBind V cfg
  gBind := fun rep dn pw _ => (rep.toBind, some (.bind dn pw))
  eBind := rfl
  eBind' := fun _ => rfl
  sBind := fun dn pw => ⟨some (.bind dn pw), fun _ => rfl, fun _ => rfl⟩
  fDelete := ldifRefuse
  gDelete := fun _ => recRefuse
  eDelete := rfl
  eDelete' := fun _ => rfl
  sDelete := refuse_calls
  fModify := ldifRefuse
  gModify := fun _ => recRefuse
  eModify := rfl
  eModify' := fun _ => rfl
  sModify := refuse_calls
  fModifyDN := ldifRefuse
  gModifyDN := fun _ => recRefuse
  eModifyDN := rfl
  eModifyDN' := fun _ => rfl
  sModifyDN := refuse_calls
  fPw := ldifRefuse
  gPw := fun _ => recRefuse
  ePw := rfl
  ePw' := fun _ => rfl
  sPw := refuse_calls
  fSearch := ldifSearch V W cfg
  gSearch := fun rep b r _ => (rep.toSearch, some (.search b r))
  eSearch := rfl
  eSearch' := fun _ => rfl
  sSearch := fun b r => ⟨some (.search b r), fun _ => rfl, fun _ => rfl⟩
  close := fun _ _ => rfl
  close' := fun _ _ _ => rfl
  enforce := fun _ => rfl
  genPwLen := fun _ => rfl
  stats := fun _ => rfl

/-- Treating a packet alone is making its call alone and ending with what it returns. -/
theorem ldif_alone (o : Oracle) (p : Packet) (b : Str) (st : LdifSt) :
    handlePacket V (ldifSrv V W cfg g stats) o p b st =
      ⟨(ldifEnd V g stats o p b (ldifExec V W cfg (ldifCall V g stats o p b) st).1).1,
       (ldifEnd V g stats o p b (ldifExec V W cfg (ldifCall V g stats o p b) st).1).2,
       (ldifExec V W cfg (ldifCall V g stats o p b) st).2⟩ := by
  obtain ⟨q, h1, h2⟩ := calls_packet (V := V) (ldifCallRecords V W cfg g stats) o p b
  have hq : ldifCall V g stats o p b = q := h1 .nothing
  have h2 := h2 st
  rw [hq]
  have e1 := congrArg Prod.fst h2
  have e2 := congrArg Prod.snd h2
  have e3 := congrArg Prod.fst e1
  have e4 := congrArg Prod.snd e1
  cases hx : handlePacket V (ldifSrv V W cfg g stats) o p b st with
  | mk a n st' =>
    simp only [Out.pair, hx] at e2 e3 e4
    rw [e3, e4, e2]
    rfl

/-- The call a packet leads to does not depend on the answer. -/
theorem ldifCall_rep (o : Oracle) (p : Packet) (b : Str) (rep : LRep) :
    (handlePacket V (recordLdif rep g stats) o p b none).st = ldifCall V g stats o p b := by
  obtain ⟨q, h1, -⟩ := calls_packet (V := V) (ldifCallRecords V ⟨id, id⟩ ⟨[], [], false, false, false, []⟩ g stats) o p b
  exact (h1 rep).trans (h1 .nothing).symm

/-! ## What is called -/

theorem bindOne {dn pw : Str} (st : LdifSt) (conf : Bool) (hc : cfg.conf = conf) :
    ((if cfg.conf then confBind V cfg else ldifBind V cfg) dn pw st) =
      (if conf then (confLook V cfg st.conf dn pw).getD (mainLook V cfg st.main (V.C.lower dn) pw) else mainLook V cfg st.main dn pw, st) := by
  have hm : ∀ d, ldifBind V cfg d pw st = (mainLook V cfg st.main d pw, st) := by
    intro d
    unfold ldifBind mainLook
    dsimp only
    by_cases h1 : (!ldifValidDN cfg (V.C.lower d)) = true
    · rw [if_pos h1, if_pos h1]
    rw [if_neg h1, if_neg h1]
    by_cases h2 : pw = []
    · rw [if_pos h2, if_pos h2]
      by_cases h3 : V.C.lower d = []
      · rw [if_pos h3, if_pos h3]
      · rw [if_neg h3, if_neg h3]
    rw [if_neg h2, if_neg h2]
    cases treeGet st.main.tree (V.C.lower d) <;> rfl
  subst hc
  cases hc : cfg.conf with
  | false => exact hm dn
  | true =>
    rw [if_pos rfl, if_pos rfl]
    unfold confBind confLook
    dsimp only
    by_cases h2 : pw = []
    · rw [if_pos h2, if_pos h2, hm]; rfl
    rw [if_neg h2, if_neg h2]
    cases treeGet st.conf.tree (V.C.lower dn) with
    | none => dsimp only; rw [hm]; rfl
    | some e =>
      dsimp only
      by_cases h3 : (!hasSuffix (V.C.lower dn) (V.C.lower cfg.optBase)) = true
      · rw [if_pos h3, if_pos h3]; rfl
      · rw [if_neg h3, if_neg h3]; rfl

/-- What a packet can note. -/
def NotedOnly (q : Option LCall) : Prop := ∀ bound r, q ≠ some (.search bound r)

theorem recRefuse_noted {ρ : Type} (x y : Str) (z : ρ) : (callFn [([], recRefuse)] x y z (none : Option LCall)).2 = none := by
  unfold callFn; rw [pick_single]; rfl

theorem parseFailed_noted {ρ : Type} (x : Res ρ) : (parseFailed x (none : Option LCall)).2 = none := by
  cases x with
  | err e => cases e <;> rfl
  | _ => rfl

theorem writes_noted (rep : LRep) (b : Str) (req : Packet) (o : Oracle) :
    (handleAdd V (recordLdif rep g stats) b req none).2 = none ∧ (handleDelete V (recordLdif rep g stats) b req none).2 = none ∧
    (handleModify V (recordLdif rep g stats) b req none).2 = none ∧ (handleModifyDN V (recordLdif rep g stats) b req none).2 = none ∧
    (handleExtended V (recordLdif rep g stats) o b req none).2 = none := by
  refine ⟨?_, ?_, ?_, ?_, ?_⟩
  · unfold handleAdd
    by_cases hb : b = []
    · rw [if_pos hb]
    rw [if_neg hb]
    cases parseAddRequest V.C req with
    | ok r => exact recRefuse_noted _ _ _
    | _ => exact parseFailed_noted _
  · unfold handleDelete
    by_cases hb : b = []
    · rw [if_pos hb]
    rw [if_neg hb]
    cases parseDeleteRequest V.C req with
    | ok r => exact recRefuse_noted _ _ _
    | _ => exact parseFailed_noted _
  · unfold handleModify
    by_cases hb : b = []
    · rw [if_pos hb]
    rw [if_neg hb]
    cases parseModifyRequest V.C req with
    | ok r => exact recRefuse_noted _ _ _
    | _ => exact parseFailed_noted _
  · unfold handleModifyDN
    by_cases hb : b = []
    · rw [if_pos hb]
    rw [if_neg hb]
    cases parseModifyDNRequest V.C req with
    | ok r => exact recRefuse_noted _ _ _
    | _ => exact parseFailed_noted _
  · unfold handleExtended
    cases parseExtendedRequest req with
    | err e => rfl
    | panic => rfl
    | hang => rfl
    | ok x =>
    obtain ⟨oid, body⟩ := x
    dsimp only
    by_cases ho : oid = pwmodOID
    · rw [if_pos ho]
      have key : (handlePwModify V (recordLdif rep g stats) o b body none).2 = none := by
        unfold handlePwModify
        by_cases hb : b = []
        · rw [if_pos hb]
        rw [if_neg hb]
        cases parsePwModify V body with
        | ok r =>
          dsimp only
          cases (if r.newPassword = [] then generatePw o.rnd 0 (recordLdif rep g stats).genPwLen else .ok r.newPassword) with
          | ok pw =>
            dsimp only
            cases hashPw V.K o.salt pw b!"{ARGON2}" with
            | ok h =>
              dsimp only
              rw [show (recordLdif rep g stats).pwExopFns = [([], recRefuse)] from rfl, pick_single]
              rfl
            | _ => rfl
          | _ => rfl
        | _ => rfl
      cases hx : handlePwModify V (recordLdif rep g stats) o b body none with
      | mk r st =>
        rw [hx] at key
        cases r with
        | err e => cases e with
          | ldap c i => cases i <;> exact key
          | _ => exact key
        | _ => exact key
    · rw [if_neg ho]

theorem bind_noted (rep : LRep) (id : Int) (b : Str) (req : Packet) : NotedOnly (stepBind V (recordLdif rep g stats) id b req none).st := by
  have h1 : ∀ bound r, (bindBody (recordLdif rep g stats) req none).2 ≠ some (.search bound r) := by
    intro bound r
    unfold bindBody
    split
    · nofun
    split
    · nofun
    split
    · nofun
    split
    · nofun
    split
    · nofun
    split
    · nofun
    split
    · split
      · rw [show (recordLdif rep g stats).bindFns = [([], fun dn pw _ => (rep.toBind, some (.bind dn pw)))] from rfl, pick_single]
        dsimp only
        cases rep.toBind with
        | ok x => obtain ⟨c, e⟩ := x; cases e <;> nofun
        | _ => nofun
      · nofun
    · nofun
  have h2 : ∀ bound r, (handleBind (recordLdif rep g stats) req none).2 ≠ some (.search bound r) := by
    intro bound r
    unfold handleBind
    have := h1 bound r
    cases hx : bindBody (recordLdif rep g stats) req none with
    | mk x st => rw [hx] at this; cases x <;> exact this
  intro bound r
  have := h2 bound r
  unfold stepBind
  cases hx : handleBind (recordLdif rep g stats) req none with
  | mk x st =>
    rw [hx] at this
    cases x with
    | ok code =>
      dsimp only
      split
      · split
        · exact this
        · split
          · exact this
          · split <;> exact this
      · exact this
    | _ => exact this

/-- The search that a packet leads to is the one in the packet, with the controls of the packet. -/
theorem ldifCall_search {o : Oracle} {p : Packet} {b bound : Str} {r : SearchReq} (h : ldifCall V g stats o p b = some (.search bound r)) :
    bound = b ∧ ∃ id req, Message p id req ∧ req.tag = appSearchRequest ∧ parseSearchRequest req r.controls = some r ∧
      decodeControls V (controlsOf p) = .ok r.controls := by
  have hreply : ∀ id tag (x : Res Nat × Option LCall), (reply id tag b x).st = x.2 := by
    intro id tag x; obtain ⟨y, st⟩ := x; cases y <;> rfl
  unfold ldifCall at h
  have hc := handlePacket_cases V (recordLdif .nothing g stats) o p b none
  generalize handlePacket V (recordLdif .nothing g stats) o p b none = out at h hc
  cases hc with
  | closed => cases h
  | crash more m req h1 h2 h3 => cases h
  | hang more m req h1 h2 h3 => cases h
  | addHang id req h1 h2 h3 => cases h
  | add id req h1 h2 h3 => rw [hreply, (writes_noted .nothing b req o).1] at h; cases h
  | bind id req h1 h2 => exact absurd h (bind_noted .nothing id b req bound r)
  | compare id req h1 h2 => cases h
  | delete id req h1 h2 => rw [hreply, (writes_noted .nothing b req o).2.1] at h; cases h
  | extended id req h1 h2 =>
    have := (writes_noted (V := V) (g := g) (stats := stats) .nothing b req o).2.2.2.2
    unfold stepExtended at h
    cases hx : handleExtended V (recordLdif .nothing g stats) o b req none with
    | mk x st =>
      rw [hx] at this h
      cases x with
      | ok a => cases a <;> exact absurd (h.symm.trans this) (by nofun)
      | _ => exact absurd (h.symm.trans this) (by nofun)
  | modifyDN id req h1 h2 => rw [hreply, (writes_noted .nothing b req o).2.2.2.1] at h; cases h
  | modify id req h1 h2 => rw [hreply, (writes_noted .nothing b req o).2.2.1] at h; cases h
  | search id req controls h1 h2 h3 =>
    obtain ⟨m, more, h3, h4⟩ := h3
    have hco : controlsOf p = (more.head?.map Packet.kids).getD [] := by
      unfold controlsOf
      rw [h3]
      cases more <;> rfl
    have hs : (handleSearch V (recordLdif .nothing g stats) b req controls none).2 = some (.search bound r) := by
      unfold stepSearch at h
      cases hx : handleSearch V (recordLdif .nothing g stats) b req controls none with
      | mk x st =>
        obtain ⟨y, z⟩ := x
        rw [hx] at h
        cases z with
        | ok out => dsimp only at h; split at h <;> exact h
        | _ => exact h
    unfold handleSearch at hs
    cases hp : parseSearchRequest req controls with
    | none => rw [hp] at hs; cases hs
    | some r' =>
      rw [hp] at hs
      dsimp only at hs
      rw [show (recordLdif .nothing g stats).enforce = false from rfl, if_neg (by simp)] at hs
      dsimp only at hs
      rw [show (recordLdif .nothing g stats).searchFns = [([], fun bound r _ => (LRep.nothing.toSearch, some (.search bound r)))] from rfl, pick_single] at hs
      cases hs
      have hctl : r.controls = controls := by
        unfold parseSearchRequest at hp
        split at hp
        · simp only [Option.bind_eq_bind, Option.bind_eq_some_iff] at hp
          obtain ⟨_, -, _, -, _, -, _, -, _, -, hp⟩ := hp
          split at hp
          all_goals
            simp only [Option.bind_eq_some_iff] at hp
            obtain ⟨_, -, _, -, _, -, hp⟩ := hp
            cases hp
            rfl
        · cases hp
      rw [hctl, hco]
      exact ⟨rfl, id, req, h1, h2, hp, h4⟩

/-- A search without a paging control asks for no pages. -/
theorem unpaged_search {o : Oracle} {p : Packet} {b bound : Str} {r : SearchReq} (h : ldifCall V g stats o p b = some (.search bound r))
    (hp : ¬ Paged V p) : pagingOf r = none := by
  obtain ⟨-, _, _, -, -, -, h1⟩ := ldifCall_search h
  cases hg : pagingOf r with
  | none => rfl
  | some x =>
    obtain ⟨n, k⟩ := x
    obtain ⟨q, h2, h3⟩ := decodeControls_mem _ _ h1 _ (pagingOf_mem hg)
    exact absurd ⟨q, h2, n, k, h3⟩ hp

/-! ## A search that receives everything -/

/-- Results of a page without the page. -/
def pageVal (acc : List Entry) : Res Page → Res (List Entry × Nat)
  | .ok p => .ok (if p.code = rcSuccess then acc ++ p.entries else [], p.code)
  | .err e => .err e
  | .panic => .panic
  | .hang => .hang

theorem runPage_searchPage (V : Env) (fp : Packet) (r : SearchReq) (paging : Option Nat) (l : List LEntry) (acc : List Entry) :
    (runPage (ldifEat V) ldifFin ⟨fp, r, paging, acc⟩ l).1 = pageVal acc (searchPage V fp r paging acc.length l) := by
  induction l generalizing acc with
  | nil => simp [runPage, searchPage, pageVal, ldifFin]
  | cons x xs ih =>
    rw [searchPage, runPage, ldifEat]
    dsimp only
    generalize applyFilter V.C x.visible fp = af
    match af with
    | .err e => rfl
    | .panic => rfl
    | .hang => rfl
    | .ok (keep, code) =>
      dsimp only
      by_cases hc : code ≠ rcSuccess
      · rw [if_pos hc, if_pos hc]; simp [pageVal, hc]
      rw [if_neg hc, if_neg hc]
      cases keep with
      | false => simpa using ih acc
      | true =>
        simp only [Bool.not_true, Bool.false_eq_true, if_false]
        generalize filterScope V.C r.baseDN (scopeNat r.scope) x.visible = fs
        obtain ⟨keep2, code2⟩ := fs
        dsimp only
        by_cases hc2 : code2 ≠ rcSuccess
        · rw [if_pos hc2, if_pos hc2]; simp [pageVal, hc2]
        rw [if_neg hc2, if_neg hc2]
        cases keep2 with
        | false => simpa using ih acc
        | true =>
          simp only [Bool.not_true, Bool.false_eq_true, if_false]
          have hlen : (acc ++ [filterAttributes V.C r.attrs x.visible]).length = acc.length + 1 := by simp
          rw [hlen]
          by_cases hp : paging.any (fun n => acc.length + 1 ≥ n)
          · rw [if_pos hp, if_pos hp]; simp [pageVal]
          rw [if_neg hp, if_neg hp]
          by_cases hl : r.sizeLimit > 0 ∧ acc.length + 1 ≥ toU32 r.sizeLimit
          · rw [if_pos hl, if_pos hl]; simp [pageVal]
          rw [if_neg hl, if_neg hl]
          have := ih (acc ++ [filterAttributes V.C r.attrs x.visible])
          rw [hlen] at this
          refine Eq.trans this ?_
          cases searchPage V fp r paging (acc.length + 1) xs with
          | ok p => simp [pageVal, Page.cons]; rfl
          | _ => rfl

/-- A search that has received a beginning of a list and then answers, or the whole list, answers as if it had it at once. -/
theorem eatAll_runPage {α κ ρ : Type} (eat : κ → α → κ ⊕ ρ) (fin : κ → ρ) (k : κ) (got rest : List α) :
    (∀ res b, eatAll (ρ := ρ) eat k got = .answered res b → b = false ∧ (runPage eat fin k (got ++ rest)).1 = res) ∧
    (∀ k', eatAll (ρ := ρ) eat k got = .waiting k' → (runPage eat fin k got).1 = fin k') ∧ eatAll (ρ := ρ) eat k got ≠ .abandoning ∧
    eatAll (ρ := ρ) eat k got ≠ .stuck ∧ eatAll (ρ := ρ) eat k got ≠ .refused := by
  induction got generalizing k with
  | nil => exact ⟨nofun, fun k' h => by cases h; rfl, nofun, nofun, nofun⟩
  | cons x xs ih =>
    rw [List.cons_append, eatAll, runPage, runPage]
    cases eat k x with
    | inl k' => exact ih k'
    | inr r => exact ⟨fun res b h => by cases h; exact ⟨rfl, rfl⟩, nofun, nofun, nofun, nofun⟩

theorem eatAll_snoc {α κ ρ : Type} (eat : κ → α → κ ⊕ ρ) (k : κ) (l : List α) (k' : κ) (x : α)
    (h : eatAll (ρ := ρ) eat k l = .waiting k') : eatAll eat k (l ++ [x]) = Con.receive eat k' x := by
  induction l generalizing k with
  | nil =>
    cases h
    rw [List.nil_append, eatAll, Con.receive]
    cases eat k' x <;> rfl
  | cons y ys ih =>
    rw [eatAll] at h
    rw [List.cons_append, eatAll]
    cases he : eat k y with
    | inl k'' => rw [he] at h; exact ih k'' h
    | inr r => rw [he] at h; cases h

/-- What a search without paging returns, if nothing stands against it before it looks at the data. -/
theorem ldifSearch_plain {bound : Str} {r : SearchReq} {fs : List IdxReq} (hp : searchPlan V cfg bound r = .inr fs) (hg : pagingOf r = none) (st : LdifSt) :
    (ldifSearch V W cfg bound r st).1 = match compile r.filter with
      | none => .ok ⟨[], [], rcOperationsError, true⟩
      | some fp => pageReply r [] false (runPage (ldifEat V) ldifFin ⟨fp, r, none, []⟩ (pump V.C W st.main (V.C.lower r.baseDN) fs)).1 := by
  unfold searchPlan at hp
  unfold ldifSearch
  dsimp only
  by_cases h1 : (!ldifValidDN cfg (V.C.lower bound)) = true
  · rw [if_pos h1] at hp; cases hp
  rw [if_neg h1] at hp ⊢
  cases hi : indexFilter V.C r.filter with
  | ok fs' =>
    rw [hi] at hp
    dsimp only at hp ⊢
    by_cases h2 : (!hasSuffix (V.C.lower r.baseDN) cfg.base) = true
    · rw [if_pos h2] at hp; cases hp
    rw [if_neg h2] at hp ⊢
    cases hp
    rw [hg]
    rw [show pageSource V W (V.C.lower r.baseDN) fs none st = (.from_ (pump V.C W st.main (V.C.lower r.baseDN) fs), [], st) from rfl]
    dsimp only
    cases hc : compile r.filter with
    | none => rfl
    | some fp =>
      dsimp only
      rw [runPage_searchPage]
      simp only [Option.map_none, List.length_nil]
      cases searchPage V fp r none 0 (pump V.C W st.main (V.C.lower r.baseDN) fs) with
      | ok p =>
        unfold pageVal pageReply
        dsimp only
        rw [hg]
        by_cases h3 : p.code ≠ rcSuccess
        · rw [if_pos h3, if_pos h3]
        · rw [if_neg h3, if_neg h3, if_pos (Decidable.byContradiction h3)]
          simp
      | _ => rfl
  | _ => rw [hi] at hp; cases hp

theorem ldifSearch_refused {bound : Str} {r : SearchReq} {x : Res SearchRes} (hp : searchPlan V cfg bound r = .inl x) (st : LdifSt) :
    (ldifSearch V W cfg bound r st).1 = x := by
  unfold searchPlan at hp
  unfold ldifSearch
  dsimp only
  by_cases h1 : (!ldifValidDN cfg (V.C.lower bound)) = true
  · rw [if_pos h1] at hp ⊢; cases hp; rfl
  rw [if_neg h1] at hp ⊢
  cases hi : indexFilter V.C r.filter with
  | ok fs' =>
    rw [hi] at hp
    dsimp only at hp ⊢
    by_cases h2 : (!hasSuffix (V.C.lower r.baseDN) cfg.base) = true
    · rw [if_pos h2] at hp ⊢; cases hp; rfl
    · rw [if_neg h2] at hp; cases hp
  | _ => rw [hi] at hp; cases hp; rfl

end
end Idm
