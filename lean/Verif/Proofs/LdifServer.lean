import Verif.Proofs.LdifFilter
import Verif.Proofs.LdifNames
import Verif.Proofs.Session
import Verif.Props.Route
import Verif.Props.BoltFind
/-!
# One request on the LDIF server, and what all reachable states have in common
-/
namespace Idm

/-- What the producer still has after a page is the end of what it had. -/
theorem searchPage_rest (V : Env) (fp : Packet) (r : SearchReq) (paging : Option Nat) : ∀ (l : List LEntry) (count : Nat) (p : Page),
    searchPage V fp r paging count l = .ok p → ∃ pre, l = pre ++ p.rest
  | [], count, p, h => by
    simp only [searchPage, Res.ok.injEq] at h
    subst h
    exact ⟨[], rfl⟩
  | x :: xs, count, p, h => by
    have lift : ∀ c, searchPage V fp r paging c xs = .ok p → ∃ pre, x :: xs = pre ++ p.rest := by
      intro c h
      obtain ⟨pre, e⟩ := searchPage_rest V fp r paging xs c p h
      exact ⟨x :: pre, by rw [e]; rfl⟩
    rw [searchPage] at h
    cases ha : applyFilter V.C x.visible fp with
    | err e => rw [ha] at h; cases h
    | panic => rw [ha] at h; cases h
    | hang => rw [ha] at h; cases h
    | ok y =>
      rw [ha] at h
      dsimp only at h
      split at h
      · cases h; exact ⟨[x], rfl⟩
      · split at h
        · exact lift _ h
        · split at h
          · cases h; exact ⟨[x], rfl⟩
          · split at h
            · exact lift _ h
            · split at h
              · cases h; exact ⟨[x], rfl⟩
              · split at h
                · cases h; exact ⟨[x], rfl⟩
                · cases hp : searchPage V fp r paging (count + 1) xs with
                  | err e => rw [hp] at h; cases h
                  | panic => rw [hp] at h; cases h
                  | hang => rw [hp] at h; cases h
                  | ok q =>
                    rw [hp] at h
                    cases h
                    obtain ⟨pre, e⟩ := searchPage_rest V fp r paging xs _ q hp
                    exact ⟨x :: pre, by rw [e]; rfl⟩

section
variable {V : Env} {W : WalkOrd} {cfg : LdifCfg} {g : Nat} {stats : Bool}

/-- What the connection does with the answer of `Search`. -/
def ldifOut (id : Int) (bound : Str) : Res SearchRes × LdifSt → Out LdifSt
  | (.ok sr, st') =>
    if sr.err then ⟨[.searchDone id sr.code (some sr.controls)], .closed, st'⟩
    else ⟨sr.entries.map (.entry id) ++ [.searchDone id 0 (some sr.controls)], .go bound, st'⟩
  | (.hang, st') => ⟨[], .hang, st'⟩
  | (_, st') => ⟨[], .crash, st'⟩

theorem ldif_stepSearch (id : Int) (bound : Str) (req : Packet) (controls : List Control) (st : LdifSt) :
    stepSearch V (ldifSrv V W cfg g stats) id bound req controls st =
      match parseSearchRequest req controls with
      | none => ⟨[.searchDone id 1 none], .closed, st⟩
      | some r => ldifOut id bound (ldifSearch V W cfg bound r st) := by
  unfold stepSearch handleSearch
  cases hp : parseSearchRequest req controls with
  | none => simp [ldifSrv, rcOperationsError]
  | some r =>
    have he : (ldifSrv V W cfg g stats).enforce = false := rfl
    have hk : pick (ldifSrv V W cfg g stats).searchFns r.baseDN = some (ldifSearch V W cfg) := by simp [ldifSrv]
    simp only [he, Bool.false_eq_true, if_false, hk]
    rcases hs : ldifSearch V W cfg bound r st with ⟨res, st'⟩
    cases res with
    | err e => rfl
    | panic => rfl
    | hang => rfl
    | ok sr =>
      cases hb : sr.err <;> simp [ldifOut, hb, ldifSrv, rcSuccess]

mutual
theorem leaves_tagOk : ∀ (p : Packet) (ms : List IdxReq), leaves p = .ok ms → ∀ f ∈ ms, TagOk f.kind f.tag
  | .mk _ _ tag _ data kids, ms, h => by
    rw [leaves.eq_def] at h
    dsimp only at h
    by_cases h1 : tag = filterEq
    · rw [if_pos h1] at h
      split at h
      · rename_i a v
        cases ha : a.mustStr <;> cases hv : v.mustStr <;> simp [ha, hv] at h
        subst h
        simp [TagOk]
      · cases h
    · rw [if_neg h1] at h
      by_cases h2 : tag = filterPresent
      · rw [if_pos h2] at h
        split at h
        · cases h
        · cases h; simp [TagOk]
      · rw [if_neg h2] at h
        by_cases h3 : tag = filterSub
        · rw [if_pos h3] at h
          split at h
          · rename_i a s
            cases ha : a.mustStr <;> simp [ha] at h
            split at h
            · rename_i c hc
              cases hv : c.mustStr <;> simp [hv] at h
              subst h
              intro f hf
              split at hf
              · rename_i ht
                rw [List.mem_singleton] at hf
                subst hf
                intro _
                rcases ht with h | h | h <;> simp [h]
              · simp at hf
            · cases h
          · cases h
        · rw [if_neg h3] at h
          by_cases h4 : tag = filterAnd
          · rw [if_pos h4] at h; exact leavesAll_tagOk kids ms h
          · rw [if_neg h4] at h
            by_cases h5 : tag = filterOr
            · rw [if_pos h5] at h; exact leavesAll_tagOk kids ms h
            · rw [if_neg h5] at h; cases h; simp
theorem leavesAll_tagOk : ∀ (ps : List Packet) (ms : List IdxReq), leavesAll ps = .ok ms → ∀ f ∈ ms, TagOk f.kind f.tag
  | [], ms, h => by simp [leavesAll] at h; subst h; simp
  | p :: ps, ms, h => by
    rw [leavesAll] at h
    cases h1 : leaves p with
    | err e => simp [h1] at h
    | panic => simp [h1] at h
    | hang => simp [h1] at h
    | ok l =>
      cases h2 : leavesAll ps with
      | err e => simp [h1, h2] at h
      | panic => simp [h1, h2] at h
      | hang => simp [h1, h2] at h
      | ok l' =>
        simp [h1, h2] at h
        subst h
        intro f hf
        rcases List.mem_append.1 hf with hf | hf
        · exact leaves_tagOk p l h1 f hf
        · exact leavesAll_tagOk ps l' h2 f hf
end

theorem indexFilter_tagOk (C : CaseEnv) (s : Str) (fs : List IdxReq) (h : indexFilter C s = .ok fs) : ∀ f ∈ fs, TagOk f.kind f.tag := by
  unfold indexFilter at h
  split at h
  · cases h; simp
  · split at h
    · rename_i ms hm
      cases h
      intro f hf
      exact leaves_tagOk _ _ hm f (List.mem_filter.1 hf).1
    · cases h; simp
    · cases h
    · cases h

theorem dropCookie_mem {k : Str} {ps : List (Str × List LEntry)} {x : Str × List LEntry} (h : x ∈ dropCookie k ps) : x ∈ ps :=
  (List.mem_filter.1 h).1

/-- Where the entries of a page come from and what is kept for later: whatever holds of the lists producers offer and of their rests holds
of these lists too. -/
theorem pageSource_lists (P : List LEntry → Prop) (hsub : ∀ l l', l'.Sublist l → P l → P l') (base : Str) (fs : List IdxReq)
    (paging : Option (Nat × Str)) (st : LdifSt) (hpump : P (pump V.C W st.main base fs)) (hold : ∀ x ∈ st.pagings, P x.2) :
    let o := pageSource V W base fs paging st
    (∀ x ∈ o.2.2.pagings, P x.2) ∧ o.2.2.main = st.main ∧ o.2.2.conf = st.conf ∧ ∀ l, o.1 = .from_ l → P l := by
  intro o
  have ho : o = pageSource V W base fs paging st := rfl
  unfold pageSource at ho
  split at ho
  · rw [ho]
    exact ⟨hold, rfl, rfl, fun l h => by cases h; exact hpump⟩
  · rw [ho]
    have hc : P (cutTo (st.cut st.nCookie) (pump V.C W st.main base fs)) := by
      refine hsub _ _ ?_ hpump
      unfold cutTo
      split
      · exact .refl _
      · exact List.take_sublist _ _
    refine ⟨?_, rfl, rfl, fun l h => by cases h; exact hc⟩
    intro x hx
    rcases List.mem_cons.1 hx with h | h
    · rw [h]; exact hc
    · exact hold x (dropCookie_mem h)
  · split at ho
    · rw [ho]
      exact ⟨hold, rfl, rfl, fun l h => by cases h⟩
    · rename_i k l hf
      have hmem := List.mem_of_find?_eq_some hf
      have hl : P l := hold _ hmem
      split at ho
      · rw [ho]
        exact ⟨fun x hx => hold x (dropCookie_mem hx), rfl, rfl, fun l h => by cases h⟩
      · have e : ∀ s : LdifSt, s = (if l = [] then { st with nLate := st.nLate + 1 } else st) →
            s.pagings = st.pagings ∧ s.main = st.main ∧ s.conf = st.conf := by
          intro s hs
          rw [hs]
          split <;> exact ⟨rfl, rfl, rfl⟩
        obtain ⟨e1, e2, e3⟩ := e _ rfl
        dsimp only at ho
        split at ho
        · rw [ho]
          refine ⟨fun x hx => hold x (e1 ▸ hx), e2, e3, fun l' h => ?_⟩
          cases h
          exact hl
        · rw [ho]
          exact ⟨fun x hx => hold x (dropCookie_mem hx), e2, e3, fun l h => by cases h⟩

theorem ldifSearch_lists (P : List LEntry → Prop) (hsub : ∀ l l', l'.Sublist l → P l → P l') (bound : Str) (r : SearchReq) (st : LdifSt)
    (hpump : ∀ fs, (∀ f ∈ fs, TagOk f.kind f.tag) → hasSuffix (V.C.lower r.baseDN) cfg.base = true → P (pump V.C W st.main (V.C.lower r.baseDN) fs))
    (hold : ∀ x ∈ st.pagings, P x.2) :
    let o := ldifSearch V W cfg bound r st
    (∀ x ∈ o.2.pagings, P x.2) ∧ o.2.main = st.main ∧ o.2.conf = st.conf ∧
    ∀ sr, o.1 = .ok sr → sr.entries = [] ∨ ∃ fp pre rest, P (pre ++ rest) ∧ compile r.filter = some fp ∧
      ldifValidDN cfg (V.C.lower bound) = true ∧ hasSuffix (V.C.lower r.baseDN) cfg.base = true ∧
      sr.entries = (pre.filter (kept V.C fp r)).map (fun x => filterAttributes V.C r.attrs x.visible) := by
  intro o
  have ho : o = ldifSearch V W cfg bound r st := rfl
  have triv : ∀ res, (∀ sr, res = Res.ok sr → sr.entries = []) → o = (res, st) → (∀ x ∈ o.2.pagings, P x.2) ∧ o.2.main = st.main ∧ o.2.conf = st.conf ∧
    ∀ sr, o.1 = .ok sr → sr.entries = [] ∨ ∃ fp pre rest, P (pre ++ rest) ∧ compile r.filter = some fp ∧
      ldifValidDN cfg (V.C.lower bound) = true ∧ hasSuffix (V.C.lower r.baseDN) cfg.base = true ∧
      sr.entries = (pre.filter (kept V.C fp r)).map (fun x => filterAttributes V.C r.attrs x.visible) := by
    intro res hr h
    rw [h]
    exact ⟨hold, rfl, rfl, fun sr hs => Or.inl (hr sr hs)⟩
  unfold ldifSearch at ho
  dsimp only at ho
  by_cases hv : ¬ ldifValidDN cfg (V.C.lower bound) = true
  · rw [if_pos (by simpa using hv)] at ho
    exact triv _ (fun sr h => by cases h; rfl) ho
  rw [Classical.not_not] at hv
  rw [if_neg (by simpa using hv)] at ho
  cases hi : indexFilter V.C r.filter with
  | err e => rw [hi] at ho; exact triv _ (fun sr h => by cases h) ho
  | panic => rw [hi] at ho; exact triv _ (fun sr h => by cases h) ho
  | hang => rw [hi] at ho; exact triv _ (fun sr h => by cases h) ho
  | ok fs =>
    rw [hi] at ho
    dsimp only at ho
    by_cases hb : ¬ hasSuffix (V.C.lower r.baseDN) cfg.base = true
    · rw [if_pos (by simpa using hb)] at ho
      exact triv _ (fun sr h => by cases h; rfl) ho
    rw [Classical.not_not] at hb
    rw [if_neg (by simpa using hb)] at ho
    have hp := pageSource_lists P hsub (V.C.lower r.baseDN) fs (pagingOf r) st (hpump fs (indexFilter_tagOk _ _ _ hi) hb) hold
    dsimp only at hp
    rcases hps : pageSource V W (V.C.lower r.baseDN) fs (pagingOf r) st with ⟨src, k, st'⟩
    rw [hps] at hp ho
    dsimp only at hp ho
    obtain ⟨hp1, hp2, hp3, hp4⟩ := hp
    have triv' : ∀ res, (∀ sr, res = Res.ok sr → sr.entries = []) → o = (res, st') → (∀ x ∈ o.2.pagings, P x.2) ∧ o.2.main = st.main ∧ o.2.conf = st.conf ∧
      ∀ sr, o.1 = .ok sr → sr.entries = [] ∨ ∃ fp pre rest, P (pre ++ rest) ∧ compile r.filter = some fp ∧
        ldifValidDN cfg (V.C.lower bound) = true ∧ hasSuffix (V.C.lower r.baseDN) cfg.base = true ∧
        sr.entries = (pre.filter (kept V.C fp r)).map (fun x => filterAttributes V.C r.attrs x.visible) := by
      intro res hr h
      rw [h]
      exact ⟨hp1, hp2, hp3, fun sr hs => Or.inl (hr sr hs)⟩
    cases src with
    | unknown => exact triv' _ (fun sr h => by cases h; rfl) ho
    | nil_ =>
      dsimp only at ho
      rcases Option.eq_none_or_eq_some (compile r.filter) with hc | ⟨fp, hc⟩
      · rw [hc] at ho; exact triv' _ (fun sr h => by cases h; rfl) ho
      · rw [hc] at ho; exact triv' _ (fun sr h => by cases h) ho
    | from_ l =>
      dsimp only at ho
      rcases Option.eq_none_or_eq_some (compile r.filter) with hc | ⟨fp, hc⟩
      · rw [hc] at ho; exact triv' _ (fun sr h => by cases h; rfl) ho
      · rw [hc] at ho
        dsimp only at ho
        have hl := hp4 l rfl
        cases hs : searchPage V fp r ((pagingOf r).map (·.1)) 0 l with
        | err e => rw [hs] at ho; exact triv' _ (fun sr h => by cases h) ho
        | panic => rw [hs] at ho; exact triv' _ (fun sr h => by cases h) ho
        | hang => rw [hs] at ho; exact triv' _ (fun sr h => by cases h) ho
        | ok p =>
          rw [hs] at ho
          dsimp only at ho
          obtain ⟨pre0, hrest⟩ := searchPage_rest V fp r _ l 0 p hs
          have hpr : P p.rest := hsub _ _ (hrest ▸ List.sublist_append_right ..) hl
          have hst : ∀ x ∈ (if (pagingOf r).isSome then
              { st' with pagings := (if p.eof then [] else [(k, p.rest)]) ++ dropCookie k st'.pagings } else st').pagings, P x.2 := by
            intro x hx
            split at hx
            · rcases List.mem_append.1 hx with h | h
              · split at h
                · simp at h
                · simp only [List.mem_singleton] at h
                  rw [h]; exact hpr
              · exact hp1 x (dropCookie_mem h)
            · exact hp1 x hx
          have hm : (if (pagingOf r).isSome then
              { st' with pagings := (if p.eof then [] else [(k, p.rest)]) ++ dropCookie k st'.pagings } else st').main = st.main := by
            split
            · exact hp2
            · exact hp2
          have hcf : (if (pagingOf r).isSome then
              { st' with pagings := (if p.eof then [] else [(k, p.rest)]) ++ dropCookie k st'.pagings } else st').conf = st.conf := by
            split
            · exact hp3
            · exact hp3
          by_cases hcode : p.code ≠ rcSuccess
          · rw [if_pos hcode] at ho
            rw [ho]
            exact ⟨hst, hm, hcf, fun sr h => by cases h; exact Or.inl rfl⟩
          · rw [if_neg hcode] at ho
            rw [ho]
            refine ⟨hst, hm, hcf, fun sr h => ?_⟩
            cases h
            obtain ⟨pre, e1, e2, -⟩ := searchPage_split V fp r _ l 0 p hs (by simpa using hcode)
            exact Or.inr ⟨fp, pre, p.rest, e1 ▸ hl, hc, hv, hb, e2⟩

/-! ## Requests other than searches change nothing -/

theorem ldifBind_st (d pw : Str) (st : LdifSt) : (ldifBind V cfg d pw st).2 = st := by
  unfold ldifBind
  dsimp only
  repeat' split
  all_goals rfl

theorem confBind_st (d pw : Str) (st : LdifSt) : (confBind V cfg d pw st).2 = st := by
  unfold confBind
  dsimp only
  split
  · exact ldifBind_st _ _ _
  · split
    · split <;> rfl
    · exact ldifBind_st _ _ _

theorem ldif_bind_st (req : Packet) (st : LdifSt) : (handleBind (ldifSrv V W cfg g stats) req st).2 = st := by
  have hf : ∀ d pw, ((if cfg.conf then confBind V cfg else ldifBind V cfg) d pw st).2 = st := by
    intro d pw
    split
    · exact confBind_st _ _ _
    · exact ldifBind_st _ _ _
  have key : (bindBody (ldifSrv V W cfg g stats) req st).2 = st := by
    unfold bindBody
    split
    · rfl
    split
    · rfl
    split
    · rfl
    split
    · rfl
    split
    · rfl
    split
    · rfl
    split
    · split
      · simp only [ldifSrv, pick_single]
        split <;> exact hf _ _
      · rfl
    · rfl
  unfold handleBind
  split
  · rename_i st' h
    rw [h] at key
    exact key
  · exact key

/-- A write request that can be parsed is answered with unwillingToPerform. -/
theorem callFn_refuse {ρ : Type} (dn bound : Str) (r : ρ) (st : LdifSt) :
    callFn [(([] : Str), (ldifRefuse : Str → ρ → Act LdifSt (Nat × Bool)))] dn bound r st = (.ok 53, st) := by
  simp [callFn, pick_single, ldifRefuse, codeOf, rcUnwillingToPerform]

theorem ldif_pw (o : Oracle) (bound : Str) (body : Option Packet) (st : LdifSt) :
    (handlePwModify V (ldifSrv V W cfg g stats) o bound body st).2 = st ∧
    ∀ gen, (handlePwModify V (ldifSrv V W cfg g stats) o bound body st).1 ≠ .ok gen := by
  unfold handlePwModify
  simp only [ldapErr]
  by_cases hb : bound = []
  · simp [hb]
  rw [if_neg hb]
  cases parsePwModify V body with
  | err e => simp
  | panic => simp
  | hang => simp
  | ok r =>
    dsimp only
    generalize (if r.newPassword = [] then generatePw o.rnd 0 (ldifSrv V W cfg g stats).genPwLen else .ok r.newPassword) = x
    cases x with
    | err e => simp
    | panic => simp
    | hang => simp
    | ok pw =>
      dsimp only
      cases hashPw V.K o.salt pw b!"{ARGON2}" with
      | err e => simp
      | panic => simp
      | hang => simp
      | ok h => simp [ldifSrv, pick_single, ldifRefuse, pwExopAnswer, rcUnwillingToPerform, rcSuccess]

theorem ldif_extended_st (o : Oracle) (bound : Str) (req : Packet) (st : LdifSt) :
    (handleExtended V (ldifSrv V W cfg g stats) o bound req st).2 = st := by
  unfold handleExtended
  split
  · rfl
  · rfl
  · rfl
  · split
    · have h := (ldif_pw (V := V) (W := W) (cfg := cfg) (g := g) (stats := stats) o bound ‹_› st).1
      split <;> rename_i h' <;> rw [h'] at h <;> exact h
    · rfl

theorem ldif_add_st (bound : Str) (req : Packet) (st : LdifSt) : (handleAdd V (ldifSrv V W cfg g stats) bound req st).2 = st := by
  unfold handleAdd
  split
  · rfl
  · split
    · simp only [ldifSrv, callFn_refuse]
    · exact parseFailed_st _ _

theorem ldif_delete_st (bound : Str) (req : Packet) (st : LdifSt) : (handleDelete V (ldifSrv V W cfg g stats) bound req st).2 = st := by
  unfold handleDelete
  split
  · rfl
  · split
    · simp only [ldifSrv, callFn_refuse]
    · exact parseFailed_st _ _

theorem ldif_modify_st (bound : Str) (req : Packet) (st : LdifSt) : (handleModify V (ldifSrv V W cfg g stats) bound req st).2 = st := by
  unfold handleModify
  split
  · rfl
  · split
    · simp only [ldifSrv, callFn_refuse]
    · exact parseFailed_st _ _

theorem ldif_modifyDN_st (bound : Str) (req : Packet) (st : LdifSt) : (handleModifyDN V (ldifSrv V W cfg g stats) bound req st).2 = st := by
  unfold handleModifyDN
  split
  · rfl
  · split
    · simp only [ldifSrv, callFn_refuse]
    · exact parseFailed_st _ _

theorem reply_st (id : Int) (tag : Nat) (bound : Str) {x : Res Nat × LdifSt} {st : LdifSt} (h : x.2 = st) :
    (reply id tag bound x).st = st ∧ entriesOf (reply id tag bound x).resps = [] := by
  rcases reply_cases id tag bound x with ⟨c, e, -⟩ | ⟨e, -⟩ | ⟨e, -⟩ <;> rw [e] <;> exact ⟨h, rfl⟩

/-- A packet is a search, or it changes nothing and no entries are sent. -/
theorem ldif_packet_cases (o : Oracle) (p : Packet) (bound : Str) (st : LdifSt) :
    let out := handlePacket V (ldifSrv V W cfg g stats) o p bound st
    (∃ id req controls r, Message p id req ∧ req.tag = 3 ∧ parseSearchRequest req controls = some r ∧
      out = ldifOut id bound (ldifSearch V W cfg bound r st)) ∨
    (out.st = st ∧ entriesOf out.resps = []) := by
  intro out
  have h := handlePacket_cases V (ldifSrv V W cfg g stats) o p bound st
  have ho : handlePacket V (ldifSrv V W cfg g stats) o p bound st = out := rfl
  rw [ho] at h
  generalize out = out at h
  clear ho
  cases h with
  | closed => exact Or.inr ⟨rfl, rfl⟩
  | crash => exact Or.inr ⟨rfl, rfl⟩
  | hang => exact Or.inr ⟨rfl, rfl⟩
  | addHang => exact Or.inr ⟨rfl, rfl⟩
  | add => exact Or.inr (reply_st _ _ _ (ldif_add_st _ _ _))
  | delete => exact Or.inr (reply_st _ _ _ (ldif_delete_st _ _ _))
  | modify => exact Or.inr (reply_st _ _ _ (ldif_modify_st _ _ _))
  | modifyDN => exact Or.inr (reply_st _ _ _ (ldif_modifyDN_st _ _ _))
  | compare => exact Or.inr ⟨rfl, rfl⟩
  | bind id req hm ht =>
    have h := ldif_bind_st (V := V) (W := W) (cfg := cfg) (g := g) (stats := stats) req st
    rcases stepBind_cases V (ldifSrv V W cfg g stats) id bound req st with ⟨c, e, -⟩ | ⟨d, dn, b, e, -⟩ | e | e | ⟨e, -⟩ <;> rw [e] <;>
      exact Or.inr ⟨h, rfl⟩
  | extended id req hm ht =>
    have h := ldif_extended_st (V := V) (W := W) (cfg := cfg) (g := g) (stats := stats) o bound req st
    rcases stepExtended_cases V (ldifSrv V W cfg g stats) o id bound req st with ⟨e, -⟩ | ⟨c, oid, gen, e, -⟩ | ⟨e, -⟩ | ⟨e, -⟩ <;> rw [e] <;>
      exact Or.inr ⟨h, rfl⟩
  | search id req controls hm ht =>
    rw [ldif_stepSearch]
    cases hp : parseSearchRequest req controls with
    | none => exact Or.inr ⟨rfl, rfl⟩
    | some r => exact Or.inl ⟨id, req, controls, r, hm, ht, hp, rfl⟩

theorem ldifOut_st (id : Int) (bound : Str) (x : Res SearchRes × LdifSt) : (ldifOut id bound x).st = x.2 := by
  obtain ⟨r, st⟩ := x
  cases r with
  | ok sr => unfold ldifOut; dsimp only; split <;> rfl
  | _ => rfl

theorem ldifOut_entries (id : Int) (bound : Str) (x : Res SearchRes × LdifSt) : entriesOf (ldifOut id bound x).resps = [] ∨
    ∃ sr, x.1 = .ok sr ∧ entriesOf (ldifOut id bound x).resps = sr.entries := by
  obtain ⟨r, st⟩ := x
  cases r with
  | ok sr =>
    unfold ldifOut
    dsimp only
    split
    · exact Or.inl rfl
    · exact Or.inr ⟨sr, rfl, by rw [entriesOf_append, entriesOf_map]; exact List.append_nil _⟩
  | _ => exact Or.inl rfl

/-! ## What all reachable states have in common -/

/-- The list consists of loaded entries of one version of the data, none twice, below the base DN. -/
def FromVersion (C : CaseEnv) (cfg : LdifCfg) (versions : List (List (Option Entry))) (l : List LEntry) : Prop :=
  (l.map (·.dn)).Nodup ∧ (∀ x ∈ l, hasSuffix x.dn cfg.base = true) ∧
  ∃ v ∈ versions, ∃ m, treeFromLDIF C cfg.idx v = some m ∧ ∀ x ∈ l, x ∈ m.tree

theorem FromVersion.sublist {C : CaseEnv} {versions} {l l' : List LEntry} (hs : l'.Sublist l) (h : FromVersion C cfg versions l) :
    FromVersion C cfg versions l' := by
  obtain ⟨h1, h2, v, hv, m, hm, h3⟩ := h
  exact ⟨h1.sublist (hs.map _), fun x hx => h2 x (hs.subset hx), v, hv, m, hm, fun x hx => h3 x (hs.subset hx)⟩

theorem hasSuffix_trans {a b c : Str} (h1 : hasSuffix a b = true) (h2 : hasSuffix b c = true) : hasSuffix a c = true := by
  rw [hasSuffix_iff] at *
  exact h2.trans h1

theorem FromVersion.pump (hW : W.Lawful) {C : CaseEnv} {recs : List (Option Entry)} {older} {m : LMem} (hm : treeFromLDIF C cfg.idx recs = some m) (base : Str)
    (hb : hasSuffix base cfg.base = true) (fs : List IdxReq) (ht : ∀ f ∈ fs, TagOk f.kind f.tag) :
    FromVersion C cfg (recs :: older) (pump C W m base fs) := by
  obtain ⟨h1, h2, -⟩ := pump_spec hW hm base fs ht
  exact ⟨h1, fun x hx => hasSuffix_trans (h2 x hx).2 hb, recs, by simp, m, hm, fun x hx => (h2 x hx).1⟩

theorem reach_inv (hW : W.Lawful) {versions} {st : LdifSt} (h : LdifReach V W cfg g stats versions st) :
    (∃ recs older, versions = recs :: older ∧ treeFromLDIF V.C cfg.idx recs = some st.main) ∧
    ∀ x ∈ st.pagings, FromVersion V.C cfg versions x.2 := by
  induction h with
  | start recs m conf cookie cut inTime hm => exact ⟨⟨recs, [], rfl, hm⟩, by simp⟩
  | packet versions st o p bound lo _ ih =>
    obtain ⟨⟨recs, older, e, hm⟩, hp⟩ := ih
    rcases ldif_packet_cases (V := V) (W := W) (cfg := { cfg with loopback := lo }) (g := g) (stats := stats) o p bound st with ⟨id, req, controls, r, -, -, -, h⟩ | ⟨h, -⟩
    · have := ldifSearch_lists (V := V) (W := W) (cfg := { cfg with loopback := lo }) (FromVersion V.C cfg versions) (fun _ _ => FromVersion.sublist) bound r st
        (fun fs ht hb => e ▸ FromVersion.pump hW hm _ hb fs ht) hp
      rw [h, ldifOut_st]
      exact ⟨⟨recs, older, e, by rw [this.2.1]; exact hm⟩, this.1⟩
    · rw [h]
      exact ⟨⟨recs, older, e, hm⟩, hp⟩
  | reload versions st recs m _ hm ih =>
    refine ⟨⟨recs, versions, rfl, hm⟩, fun x hx => ?_⟩
    obtain ⟨h1, h2, v, hv, h3⟩ := ih.2 x hx
    exact ⟨h1, h2, v, by simp [hv], h3⟩
  | conf versions st m _ ih => exact ih

theorem ldif_answer_of (hW : W.Lawful) {versions recs older} {st : LdifSt} (e : versions = recs :: older) (hm : treeFromLDIF V.C cfg.idx recs = some st.main)
    (hp : ∀ x ∈ st.pagings, FromVersion V.C cfg versions x.2) (o : Oracle) (p : Packet) (bound : Str) :
    let out := handlePacket V (ldifSrv V W cfg g stats) o p bound st
    entriesOf out.resps = [] ∨ ∃ id req controls r fp l, Message p id req ∧ req.tag = 3 ∧ parseSearchRequest req controls = some r ∧
      FromVersion V.C cfg versions l ∧ compile r.filter = some fp ∧
      ldifValidDN cfg (V.C.lower bound) = true ∧ hasSuffix (V.C.lower r.baseDN) cfg.base = true ∧
      entriesOf out.resps = (l.filter (kept V.C fp r)).map (fun x => filterAttributes V.C r.attrs x.visible) := by
  intro out
  rcases ldif_packet_cases (V := V) (W := W) (cfg := cfg) (g := g) (stats := stats) o p bound st with ⟨id, req, controls, r, k1, k2, k3, ho⟩ | ⟨-, ho⟩
  · have := (ldifSearch_lists (V := V) (W := W) (cfg := cfg) (FromVersion V.C cfg versions) (fun _ _ => FromVersion.sublist) bound r st
        (fun fs ht hb => e ▸ FromVersion.pump hW hm _ hb fs ht) hp).2.2.2
    rcases ldifOut_entries id bound (ldifSearch V W cfg bound r st) with h | ⟨sr, h1, h2⟩
    · exact Or.inl (by rw [← h, ← ho])
    · rcases this sr h1 with h3 | ⟨fp, pre, rest, q1, q2, q3, q4, q5⟩
      · exact Or.inl (by rw [← h3, ← h2, ← ho])
      · refine Or.inr ⟨id, req, controls, r, fp, pre, k1, k2, k3, ?_, q2, q3, q4, ?_⟩
        · obtain ⟨z1, z2, v, hv, m, hm', z3⟩ := q1
          rw [List.map_append] at z1
          exact ⟨(List.nodup_append.1 z1).1, fun x hx => z2 x (by simp [hx]), v, hv, m, hm', fun x hx => z3 x (by simp [hx])⟩
        · rw [← q5, ← h2, ← ho]
  · exact Or.inl ho

/-- What a packet is answered with, in any reachable state: entries that come from one list of entries of one version. -/
theorem ldif_answer (hW : W.Lawful) {versions} {st : LdifSt} (h : LdifReach V W cfg g stats versions st) (o : Oracle) (p : Packet) (bound : Str) :
    let out := handlePacket V (ldifSrv V W cfg g stats) o p bound st
    entriesOf out.resps = [] ∨ ∃ id req controls r fp l, Message p id req ∧ req.tag = 3 ∧ parseSearchRequest req controls = some r ∧
      FromVersion V.C cfg versions l ∧ compile r.filter = some fp ∧
      ldifValidDN cfg (V.C.lower bound) = true ∧ hasSuffix (V.C.lower r.baseDN) cfg.base = true ∧
      entriesOf out.resps = (l.filter (kept V.C fp r)).map (fun x => filterAttributes V.C r.attrs x.visible) := by
  obtain ⟨⟨recs, older, e, hm⟩, hp⟩ := reach_inv hW h
  exact ldif_answer_of hW e hm hp o p bound

end
end Idm
