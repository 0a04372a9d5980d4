import Verif.Proofs.LdifServer
/-!
# The passwords in the data have no influence on anything but binds
-/
namespace Idm

/-- The entry without its password. -/
def LEntry.blind (x : LEntry) : LEntry := { x with pw := none }

def Multi.blind (m : Multi) : Multi := m.map fun p => (p.1, p.2.blind)

def Idx.blind : Idx → Idx
  | .map m => .map m.blind
  | .sub a b c => .sub a.blind b.blind c.blind

def Reg.blind (reg : Reg) : Reg := fun n k => (reg n k).map Idx.blind

def LMem.blind (m : LMem) : LMem := ⟨m.tree.map LEntry.blind, m.reg.blind⟩

/-- The state without passwords and without config entries. -/
def LdifSt.blind (st : LdifSt) : LdifSt :=
  { st with main := st.main.blind, conf := ⟨[], fun _ _ => none⟩, pagings := st.pagings.map fun p => (p.1, p.2.map LEntry.blind) }

theorem Multi.blind_get (m : Multi) (k : Str) : m.blind.get k = (m.get k).map LEntry.blind := by
  simp [Multi.blind, Multi.get, List.filter_map, Function.comp_def]

theorem Multi.blind_keys (m : Multi) : m.blind.keys = m.keys := by
  simp [Multi.blind, Multi.keys, List.map_map, Function.comp_def]

theorem Multi.blind_add (m : Multi) (ks : List Str) (e : LEntry) : (m.add ks e).blind = m.blind.add ks e.blind := by
  simp [Multi.blind, Multi.add, List.map_map, Function.comp_def]

theorem Idx.blind_add (C : CaseEnv) (vals : List Str) (e : LEntry) (i : Idx) : (i.add C vals e).blind = i.blind.add C vals e.blind := by
  cases i <;> simp [Idx.add, Idx.blind, Multi.blind_add]

theorem flatMap_blind (m : Multi) (ks : List Str) : ks.flatMap m.blind.get = (ks.flatMap m.get).map LEntry.blind := by
  rw [List.map_flatMap]
  congr 1
  funext k
  exact Multi.blind_get m k

theorem Idx.blind_load (C : CaseEnv) (W : WalkOrd) (v : Str) (t : Option Nat) (i : Idx) :
    i.blind.load C W v t = (i.load C W v t).map (List.map LEntry.blind) := by
  cases i with
  | map m => simp [Idx.blind, Idx.load, Multi.blind_get]
  | sub a b c =>
    cases t with
    | none => rfl
    | some t =>
      simp only [Idx.blind, Idx.load]
      split
      · simp [Multi.blind_get]
      · split
        · simp [Multi.blind_keys, flatMap_blind]
        · split
          · simp [Multi.blind_keys, flatMap_blind]
          · rfl

theorem Reg.blind_load (C : CaseEnv) (W : WalkOrd) (reg : Reg) (n : Str) (k : IdxKind) (v : Str) (t : Option Nat) :
    reg.blind.load C W n k v t = (reg.load C W n k v t).map (List.map LEntry.blind) := by
  unfold Reg.load Reg.blind
  cases reg (C.lower n) k with
  | none => rfl
  | some i => exact Idx.blind_load C W v t i

theorem loadAll_blind (C : CaseEnv) (W : WalkOrd) (reg : Reg) : ∀ fs : List IdxReq,
    loadAll C W reg.blind fs = (loadAll C W reg fs).map (List.map LEntry.blind)
  | [] => rfl
  | f :: fs => by
    have ih := loadAll_blind C W reg fs
    simp only [loadAll, Reg.blind_load, ih]
    cases reg.load C W f.attr f.kind f.value f.tag with
    | none => rfl
    | some l =>
      cases loadAll C W reg fs with
      | none => rfl
      | some l' => simp

theorem pumpIndexed_blind (base : Str) : ∀ (l : List LEntry) (seen : List Nat),
    pumpIndexed base seen (l.map LEntry.blind) = (pumpIndexed base seen l).map LEntry.blind
  | [], _ => rfl
  | x :: xs, seen => by
    have ih := pumpIndexed_blind base xs
    simp only [List.map_cons, pumpIndexed, LEntry.blind]
    split
    · exact ih seen
    · split
      · rw [List.map_cons]
        exact congrArg _ (ih _)
      · exact ih _

theorem treeGet_blind (tree : List LEntry) (k : Str) : treeGet (tree.map LEntry.blind) k = (treeGet tree k).map LEntry.blind := by
  unfold treeGet
  rw [List.find?_map]
  rfl

theorem treeWalk_blind (W : WalkOrd) (tree : List LEntry) (sfx : Str) :
    treeWalk W (tree.map LEntry.blind) sfx = (treeWalk W tree sfx).map LEntry.blind := by
  unfold treeWalk
  have h : (tree.map LEntry.blind).map (·.dn) = tree.map (·.dn) := by rw [List.map_map]; rfl
  rw [h, List.map_filterMap]
  congr 1
  funext k
  exact treeGet_blind tree k

theorem pump_blind (C : CaseEnv) (W : WalkOrd) (m : LMem) (base : Str) (fs : List IdxReq) :
    pump C W m.blind base fs = (pump C W m base fs).map LEntry.blind := by
  unfold pump
  by_cases h : fs = []
  · simp [h, LMem.blind, treeWalk_blind]
  · simp only [if_neg h, LMem.blind, loadAll_blind]
    cases loadAll C W m.reg fs with
    | none => exact treeWalk_blind W m.tree base
    | some l => exact pumpIndexed_blind base l []

/-- A page without passwords. -/
def blindPage : Res Page → Res Page
  | .ok p => .ok { p with rest := p.rest.map LEntry.blind }
  | x => x

theorem searchPage_blind (V : Env) (fp : Packet) (r : SearchReq) (paging : Option Nat) : ∀ (l : List LEntry) (count : Nat),
    searchPage V fp r paging count (l.map LEntry.blind) = blindPage (searchPage V fp r paging count l)
  | [], _ => rfl
  | x :: xs, count => by
    have ih := searchPage_blind V fp r paging xs
    have hv : x.blind.visible = x.visible := rfl
    rw [List.map_cons, searchPage, searchPage, hv]
    cases applyFilter V.C x.visible fp with
    | err e => rfl
    | panic => rfl
    | hang => rfl
    | ok y =>
      obtain ⟨keep, code⟩ := y
      dsimp only
      split
      · rfl
      · split
        · exact ih _
        · rcases hs : filterScope V.C r.baseDN (scopeNat r.scope) x.visible with ⟨k, c⟩
          dsimp only
          split
          · rfl
          · split
            · exact ih _
            · split
              · rfl
              · split
                · rfl
                · rw [ih]
                  cases searchPage V fp r paging (count + 1) xs <;> rfl

section
variable {V : Env} {W : WalkOrd} {cfg : LdifCfg} {g : Nat} {stats : Bool}

def Source.blind : Source → Source
  | .from_ l => .from_ (l.map LEntry.blind)
  | .nil_ => .nil_
  | .unknown => .unknown

theorem dropCookie_blind (k : Str) (ps : List (Str × List LEntry)) :
    dropCookie k (ps.map fun p => (p.1, p.2.map LEntry.blind)) = (dropCookie k ps).map fun p => (p.1, p.2.map LEntry.blind) := by
  unfold dropCookie
  rw [List.filter_map]
  rfl

theorem cutTo_map (f : LEntry → LEntry) (n : Option Nat) (l : List LEntry) : cutTo n (l.map f) = (cutTo n l).map f := by
  cases n <;> simp [cutTo, List.map_take]

theorem pageSource_blind (base : Str) (fs : List IdxReq) (paging : Option (Nat × Str)) (st : LdifSt) :
    pageSource V W base fs paging st.blind =
      ((pageSource V W base fs paging st).1.blind, (pageSource V W base fs paging st).2.1, (pageSource V W base fs paging st).2.2.blind) := by
  have hp : pump V.C W st.blind.main base fs = (pump V.C W st.main base fs).map LEntry.blind := pump_blind V.C W st.main base fs
  match paging with
  | none => simp only [pageSource, hp, Source.blind]
  | some (n, []) =>
    simp only [pageSource, hp, Source.blind]
    rw [show st.blind.cut st.blind.nCookie = st.cut st.nCookie from rfl, cutTo_map]
    simp only [LdifSt.blind, dropCookie_blind, List.map_cons]
  | some (n, k :: ks) =>
    simp only [pageSource]
    have hf : st.blind.pagings.find? (fun p => p.1 = k :: ks) =
        (st.pagings.find? (fun p => p.1 = k :: ks)).map fun p => (p.1, p.2.map LEntry.blind) := by
      simp only [LdifSt.blind]
      rw [List.find?_map]
      rfl
    rw [hf]
    cases st.pagings.find? (fun p => p.1 = k :: ks) with
    | none => rfl
    | some q =>
      obtain ⟨k', l⟩ := q
      simp only [Option.map_some]
      have h1 : st.blind.inTime st.blind.nLate = st.inTime st.nLate := rfl
      have h2 : (l.map LEntry.blind = []) = (l = []) := by simp
      rw [h1]
      simp only [h2]
      by_cases hl : l = [] ∧ st.inTime st.nLate = false
      · simp [hl, LdifSt.blind, dropCookie_blind, Source.blind]
      · simp only [if_neg hl]
        by_cases hn : n > 0 <;> by_cases hl2 : l = [] <;> simp [hn, hl2, LdifSt.blind, dropCookie_blind, Source.blind]

theorem ldifSearch_blind (bound : Str) (r : SearchReq) (st : LdifSt) :
    ldifSearch V W cfg bound r st.blind = ((ldifSearch V W cfg bound r st).1, (ldifSearch V W cfg bound r st).2.blind) := by
  unfold ldifSearch
  dsimp only
  split
  · rfl
  · cases indexFilter V.C r.filter with
    | err e => rfl
    | panic => rfl
    | hang => rfl
    | ok fs =>
      dsimp only
      split
      · rfl
      · rw [pageSource_blind]
        rcases pageSource V W (V.C.lower r.baseDN) fs (pagingOf r) st with ⟨src, k, st'⟩
        cases src with
        | unknown => rfl
        | nil_ =>
          simp only [Source.blind]
          cases compile r.filter <;> rfl
        | from_ l =>
          simp only [Source.blind]
          cases compile r.filter with
          | none => rfl
          | some fp =>
            dsimp only
            rw [searchPage_blind]
            cases searchPage V fp r ((pagingOf r).map (·.1)) 0 l with
            | err e => rfl
            | panic => rfl
            | hang => rfl
            | ok p =>
              have hst : (if (pagingOf r).isSome then
                  { st'.blind with pagings := (if p.eof then [] else [(k, p.rest.map LEntry.blind)]) ++ dropCookie k st'.blind.pagings } else st'.blind) =
                  (if (pagingOf r).isSome then
                  { st' with pagings := (if p.eof then [] else [(k, p.rest)]) ++ dropCookie k st'.pagings } else st').blind := by
                split
                · simp only [LdifSt.blind, dropCookie_blind, List.map_append]
                  cases p.eof <;> rfl
                · rfl
              simp only [blindPage, hst]
              split <;> rfl

/-! ## Loading -/

theorem buildEntry_blind (C : CaseEnv) (n : Nat) {r r' : Entry} (h : withoutPassword C r = withoutPassword C r') :
    (buildEntry C n r).blind = (buildEntry C n r').blind := by
  simp only [withoutPassword, Entry.mk.injEq] at h
  simp only [buildEntry, LEntry.blind, h.1, h.2]

theorem Reg.blind_add (C : CaseEnv) (reg : Reg) (n : Str) (k : IdxKind) (vs : List Str) (e : LEntry) :
    (reg.add C n k vs e).blind = reg.blind.add C n k vs e.blind := by
  funext n' k'
  simp only [Reg.blind, Reg.add]
  split
  · cases reg n' k' with
    | none => rfl
    | some i => simp [Idx.blind_add]
  · rfl

/-- No index for this lower-cased name. -/
def Reg.lacks (reg : Reg) (n : Str) : Prop := ∀ k, reg n k = none

theorem Reg.lacks_add {C : CaseEnv} {reg : Reg} {n : Str} (h : reg.lacks n) (n' : Str) (k : IdxKind) (vs : List Str) (e : LEntry) :
    (reg.add C n' k vs e).lacks n := by
  intro k'
  simp only [Reg.add]
  split
  · rw [h k']; rfl
  · exact h k'

theorem Reg.add_lacks {C : CaseEnv} {reg : Reg} {n : Str} (h : reg.lacks (C.lower n)) (k : IdxKind) (vs : List Str) (e : LEntry) :
    reg.add C n k vs e = reg := by
  funext n' k'
  simp only [Reg.add]
  split
  · rename_i hn
    rw [hn.1, h k']
    rfl
  · rfl

theorem indexAttrs_lacks {C : CaseEnv} {n : Str} (e : LEntry) : ∀ (as : List Attr) (reg : Reg), reg.lacks n → (indexAttrs C e as reg).lacks n
  | [], _, h => h
  | _ :: as, _, h => indexAttrs_lacks e as _ (Reg.lacks_add (Reg.lacks_add (Reg.lacks_add h _ _ _ _) _ _ _ _) _ _ _ _)

theorem indexAttrs_drop {C : CaseEnv} {n : Str} (e : LEntry) : ∀ (as : List Attr) (reg : Reg), reg.lacks n →
    indexAttrs C e as reg = indexAttrs C e (as.filter fun a => C.lower a.name ≠ n) reg
  | [], _, _ => rfl
  | a :: as, reg, h => by
    by_cases ha : C.lower a.name = n
    · have h' : reg.lacks (C.lower a.name) := ha ▸ h
      simp only [indexAttrs, List.filter_cons, ha, ne_eq, not_true_eq_false, decide_false, Bool.false_eq_true, if_false,
        Reg.add_lacks h']
      exact indexAttrs_drop e as reg h
    · simp only [indexAttrs, List.filter_cons, ne_eq, ha, not_false_eq_true, decide_true, if_true]
      exact indexAttrs_drop e as _ (Reg.lacks_add (Reg.lacks_add (Reg.lacks_add h _ _ _ _) _ _ _ _) _ _ _ _)

theorem indexAttrs_blind {C : CaseEnv} (e : LEntry) : ∀ (as : List Attr) (reg : Reg),
    (indexAttrs C e as reg).blind = indexAttrs C e.blind as reg.blind
  | [], _ => rfl
  | a :: as, reg => by
    simp only [indexAttrs]
    rw [indexAttrs_blind e as, Reg.blind_add, Reg.blind_add, Reg.blind_add]

theorem any_blind (tree : List LEntry) (d : Str) : (tree.any fun x => decide (x.dn = d)) = ((tree.map LEntry.blind).any fun x => decide (x.dn = d)) := by
  rw [List.any_map]
  rfl

theorem loadRecs_blind (C : CaseEnv) : ∀ (recs recs' : List (Option Entry)) (n : Nat) (m m' : LMem), SameButPasswords C recs recs' →
    m.blind = m'.blind → m.reg.lacks b!"userpassword" → m'.reg.lacks b!"userpassword" →
    (loadRecs C n m recs).map LMem.blind = (loadRecs C n m' recs').map LMem.blind
  | [], [], n, m, m', _, h, _, _ => by simp [loadRecs, h]
  | [], _ :: _, _, _, _, hs, _, _, _ => by simp [SameButPasswords] at hs
  | _ :: _, [], _, _, _, hs, _, _, _ => by simp [SameButPasswords] at hs
  | none :: rs, none :: rs', n, m, m', hs, h, h1, h2 => by
    simp only [SameButPasswords, List.map_cons, List.cons.injEq] at hs
    simp only [loadRecs]
    exact loadRecs_blind C rs rs' n m m' hs.2 h h1 h2
  | none :: _, some _ :: _, _, _, _, hs, _, _, _ => by simp [SameButPasswords] at hs
  | some _ :: _, none :: _, _, _, _, hs, _, _, _ => by simp [SameButPasswords] at hs
  | some r :: rs, some r' :: rs', n, m, m', hs, h, h1, h2 => by
    simp only [SameButPasswords, List.map_cons, List.cons.injEq, Option.map_some, Option.some.injEq] at hs
    have hb := buildEntry_blind C n hs.1
    have hdn : (buildEntry C n r).dn = (buildEntry C n r').dn := by have := congrArg LEntry.dn hb; exact this
    have ht : m.tree.map LEntry.blind = m'.tree.map LEntry.blind := congrArg LMem.tree h
    have hr : m.reg.blind = m'.reg.blind := congrArg LMem.reg h
    simp only [loadRecs]
    rw [any_blind m.tree, any_blind m'.tree, hdn, ht]
    split
    · rfl
    · apply loadRecs_blind C rs rs' (n + 1) _ _ hs.2
      · have e : r.attrs.filter (fun a => C.lower a.name ≠ b!"userpassword") = r'.attrs.filter (fun a => C.lower a.name ≠ b!"userpassword") :=
          congrArg Entry.attrs hs.1
        simp only [LMem.blind, List.map_append, List.map_cons, List.map_nil, hb, ht, LMem.mk.injEq, true_and]
        rw [indexAttrs_drop _ r.attrs _ h1, indexAttrs_drop _ r'.attrs _ h2, e, indexAttrs_blind, indexAttrs_blind, hb, hr]
      · exact indexAttrs_lacks _ _ _ h1
      · exact indexAttrs_lacks _ _ _ h2

theorem treeFromLDIF_blind (C : CaseEnv) {idx : IdxAttrs} (hidx : ∀ k, indexed C idx b!"userpassword" k = false) {recs recs' : List (Option Entry)}
    (hs : SameButPasswords C recs recs') {m m' : LMem} (hm : treeFromLDIF C idx recs = some m) (hm' : treeFromLDIF C idx recs' = some m') :
    m.blind = m'.blind := by
  have hl : (newReg C idx).lacks b!"userpassword" := by
    intro k
    simp [newReg, hidx k]
  have := loadRecs_blind C recs recs' 0 ⟨[], newReg C idx⟩ ⟨[], newReg C idx⟩ hs rfl hl hl
  unfold treeFromLDIF at hm hm'
  rw [hm, hm'] at this
  simpa using this

/-! ## Packets -/

/-- The result with the state without passwords. -/
def blindOut (o : Out LdifSt) : Out LdifSt := { o with st := o.st.blind }

/-- The result of an action that does not look at the state. -/
theorem parseFailed_blind {ρ : Type} (x : Res ρ) (st : LdifSt) : parseFailed x st.blind = ((parseFailed x st).1, (parseFailed x st).2.blind) := by
  unfold parseFailed
  split <;> rfl

theorem add_blind (bound : Str) (req : Packet) (st : LdifSt) : handleAdd V (ldifSrv V W cfg g stats) bound req st.blind =
    ((handleAdd V (ldifSrv V W cfg g stats) bound req st).1, (handleAdd V (ldifSrv V W cfg g stats) bound req st).2.blind) := by
  unfold handleAdd
  split
  · rfl
  · split
    · simp only [ldifSrv, callFn_refuse]
    · exact parseFailed_blind _ _

theorem delete_blind (bound : Str) (req : Packet) (st : LdifSt) : handleDelete V (ldifSrv V W cfg g stats) bound req st.blind =
    ((handleDelete V (ldifSrv V W cfg g stats) bound req st).1, (handleDelete V (ldifSrv V W cfg g stats) bound req st).2.blind) := by
  unfold handleDelete
  split
  · rfl
  · split
    · simp only [ldifSrv, callFn_refuse]
    · exact parseFailed_blind _ _

theorem modify_blind (bound : Str) (req : Packet) (st : LdifSt) : handleModify V (ldifSrv V W cfg g stats) bound req st.blind =
    ((handleModify V (ldifSrv V W cfg g stats) bound req st).1, (handleModify V (ldifSrv V W cfg g stats) bound req st).2.blind) := by
  unfold handleModify
  split
  · rfl
  · split
    · simp only [ldifSrv, callFn_refuse]
    · exact parseFailed_blind _ _

theorem modifyDN_blind (bound : Str) (req : Packet) (st : LdifSt) : handleModifyDN V (ldifSrv V W cfg g stats) bound req st.blind =
    ((handleModifyDN V (ldifSrv V W cfg g stats) bound req st).1, (handleModifyDN V (ldifSrv V W cfg g stats) bound req st).2.blind) := by
  unfold handleModifyDN
  split
  · rfl
  · split
    · simp only [ldifSrv, callFn_refuse]
    · exact parseFailed_blind _ _

theorem pw_blind (o : Oracle) (bound : Str) (body : Option Packet) (st : LdifSt) : handlePwModify V (ldifSrv V W cfg g stats) o bound body st.blind =
    ((handlePwModify V (ldifSrv V W cfg g stats) o bound body st).1, (handlePwModify V (ldifSrv V W cfg g stats) o bound body st).2.blind) := by
  unfold handlePwModify
  by_cases hb : bound = []
  · simp [hb]
  rw [if_neg hb, if_neg hb]
  cases parsePwModify V body with
  | err e => rfl
  | panic => rfl
  | hang => rfl
  | ok r =>
    dsimp only
    generalize (if r.newPassword = [] then generatePw o.rnd 0 (ldifSrv V W cfg g stats).genPwLen else .ok r.newPassword) = x
    cases x with
    | err e => rfl
    | panic => rfl
    | hang => rfl
    | ok pw =>
      dsimp only
      cases hashPw V.K o.salt pw b!"{ARGON2}" with
      | err e => rfl
      | panic => rfl
      | hang => rfl
      | ok h => simp [ldifSrv, pick_single, ldifRefuse]

theorem extended_blind (o : Oracle) (bound : Str) (req : Packet) (st : LdifSt) : handleExtended V (ldifSrv V W cfg g stats) o bound req st.blind =
    ((handleExtended V (ldifSrv V W cfg g stats) o bound req st).1, (handleExtended V (ldifSrv V W cfg g stats) o bound req st).2.blind) := by
  unfold handleExtended
  cases parseExtendedRequest req with
  | err e => rfl
  | panic => rfl
  | hang => rfl
  | ok x =>
    obtain ⟨oid, body⟩ := x
    dsimp only
    split
    · rw [pw_blind]
      rcases handlePwModify V (ldifSrv V W cfg g stats) o bound body st with ⟨r, st'⟩
      cases r with
      | ok gen => rfl
      | panic => rfl
      | hang => rfl
      | err e => cases e <;> first | rfl | (rename_i c b; cases b <;> rfl)
    · rfl

theorem reply_blind (id : Int) (tag : Nat) (bound : Str) (x : Res Nat × LdifSt) : reply id tag bound (x.1, x.2.blind) = blindOut (reply id tag bound x) := by
  obtain ⟨r, st⟩ := x
  cases r <;> rfl

theorem ldifOut_blind (id : Int) (bound : Str) (x : Res SearchRes × LdifSt) : ldifOut id bound (x.1, x.2.blind) = blindOut (ldifOut id bound x) := by
  obtain ⟨r, st⟩ := x
  cases r with
  | ok sr => unfold ldifOut; dsimp only; split <;> rfl
  | _ => rfl

/-- Everything but binds works the same without passwords. -/
theorem handlePacket_blind (o : Oracle) (p : Packet) (bound : Str) (st : LdifSt) (hp : ∀ id req, Message p id req → req.tag ≠ 0) :
    handlePacket V (ldifSrv V W cfg g stats) o p bound st.blind = blindOut (handlePacket V (ldifSrv V W cfg g stats) o p bound st) := by
  unfold handlePacket
  dsimp only
  cases hk : p.kids with
  | nil => rfl
  | cons m kids =>
    cases kids with
    | nil => rfl
    | cons req more =>
      dsimp only
      cases hid : m.int? with
      | none => rfl
      | some id =>
        dsimp only
        by_cases hcls : req.cls = .application
        · have hm : Message p id req := ⟨m, more, hk, int?_iff.1 hid, hcls⟩
          simp only [hcls, ne_eq, not_true_eq_false, if_false]
          cases decodeControls V ((more.head?.map Packet.kids).getD []) with
          | err e => rfl
          | panic => rfl
          | hang => rfl
          | ok controls =>
            dsimp only
            split
            · split
              · rfl
              · rw [add_blind, reply_blind]
            · split
              · rename_i ht; exact absurd ht (hp id req hm)
              · split
                · rfl
                · split
                  · rw [delete_blind, reply_blind]
                  · split
                    · unfold stepExtended
                      rw [extended_blind]
                      rcases handleExtended V (ldifSrv V W cfg g stats) o bound req st with ⟨r, st'⟩
                      cases r with
                      | ok a => cases a <;> rfl
                      | _ => rfl
                    · split
                      · rw [modifyDN_blind, reply_blind]
                      · split
                        · rw [modify_blind, reply_blind]
                        · split
                          · rw [ldif_stepSearch, ldif_stepSearch]
                            cases parseSearchRequest req controls with
                            | none => rfl
                            | some r =>
                              dsimp only
                              rw [ldifSearch_blind, ldifOut_blind]
                          · rfl
        · simp only [ne_eq, hcls, not_false_eq_true, if_true]
          rfl

theorem ldif_bind_packet_st (o : Oracle) (p : Packet) (bound : Str) (st : LdifSt) {id : Int} {req : Packet} (hm : Message p id req) (ht : req.tag = 0) :
    (handlePacket V (ldifSrv V W cfg g stats) o p bound st).st = st := by
  rcases ldif_packet_cases (V := V) (W := W) (cfg := cfg) (g := g) (stats := stats) o p bound st with ⟨id', req', controls, r, hm', ht', -⟩ | ⟨h, -⟩
  · obtain ⟨-, rfl⟩ := message_unique hm hm'
    rw [ht] at ht'
    cases ht'
  · exact h

theorem twins_blind (hidx : ∀ k, indexed V.C cfg.idx b!"userpassword" k = false) {st st' : LdifSt} (h : LdifTwins V W cfg g stats st st') : st.blind = st'.blind := by
  induction h with
  | start recs recs' m m' conf conf' cookie cut inTime hs hm hm' =>
    simp only [LdifSt.blind, treeFromLDIF_blind V.C hidx hs hm hm']
  | packet st st' o p bound lo _ ih =>
    by_cases hp : ∀ id req, Message p id req → req.tag ≠ 0
    · have key : ∀ st, (handlePacket V (ldifSrv V W { cfg with loopback := lo } g stats) o p bound st).st.blind =
          (handlePacket V (ldifSrv V W { cfg with loopback := lo } g stats) o p bound st.blind).st := fun st => by
        rw [handlePacket_blind o p bound st hp]; rfl
      rw [key, key, ih]
    · simp only [ne_eq, Classical.not_forall, Classical.not_imp, Classical.not_not] at hp
      obtain ⟨id, req, hm, ht⟩ := hp
      rw [ldif_bind_packet_st o p bound st hm ht, ldif_bind_packet_st o p bound st' hm ht]
      exact ih
  | reload st st' recs recs' m m' _ hs hm hm' ih =>
    have := treeFromLDIF_blind V.C hidx hs hm hm'
    simp only [LdifSt.blind, LdifSt.mk.injEq] at ih ⊢
    exact ⟨this, ih.2⟩
  | conf st st' m m' _ ih => exact ih

end
end Idm
