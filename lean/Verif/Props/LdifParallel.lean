import Verif.Proofs.LdifEnds
import Verif.Proofs.Codes
import Verif.Props.LdifLoad
import Verif.Proofs.LdifRun
import Verif.Spec.LdifToy
/-!
# Overlapping requests to the LDIF server: properties C85, C86
-/
namespace Idm

section
variable {ι : Type} [DecidableEq ι] {V : Env} {W : WalkOrd} {cfg : LdifCfg} {g : Nat} {stats : Bool} {loop : Nat → Bool} {m c : LMem}

theorem got_all {x : Chan ι} {id : ι} (h : ∀ p ∈ x.out, p.1 = id) : x.got id = x.out.map (·.2) := by
  unfold Chan.got
  rw [List.filter_eq_self.2 fun p hp => by simpa using h p hp]

/-- C85: requests that overlap, on any number of connections, while the files are reloaded at any moments, are answered as if each was
alone. The request that arrived at `k` and was answered at `n` has the responses that the server which treats one packet at a time sends to it
on a connection with the identity of the last successful bind before `k`, with the data of the config file in force at `i` and
the data of the main files in force at `i'`, two moments between arrival and answer, whatever pagings are under way. The two moments are the
same unless the request is a bind and there is a config file. (Except: searches with a paging control, see C86; searches whose producer gave up,
see `C85_shutdown_fails`.) -/
theorem C85_overlapping_partial {s : LPar ι} (h : LParReach V W cfg g stats loop m c s) {k n : Nat} {id : ι} {cn : Nat} {p : Packet} {o : Oracle}
    {rs : List Resp} (ha : s.trace[k]? = some (.io (.arrive id (.packet cn p o)))) (hr : s.trace[n]? = some (.io (.answer id rs)))
    (hp : ¬ Paged V p) (hg : AsksSearch p → .gaveUp id ∉ s.trace.take n) :
    ∃ b i i', LastBind V.C cn (ios (s.trace.take k)) b ∧ k < i ∧ i ≤ i' ∧ i' ≤ n ∧ (i = i' ∨ (cfg.conf = true ∧ ∃ dn, BindName p dn)) ∧
      ∀ st : LdifSt, st.conf = confAt c (s.trace.take i) → st.main = mainAt m (s.trace.take i') →
        (handlePacket V (ldifSrv V W { cfg with loopback := loop cn } g stats) o p b st).resps = rs := by
  have I := linv h
  obtain ⟨hkn, b, rep, h1, h2, rfl⟩ := I.answers k n id cn p o rs ha hr
  refine ⟨b, ?_⟩
  unfold RepOk at h2
  dsimp only at h2
  have same : ∀ i i', k < i → i ≤ i' → i' ≤ n → (i = i' ∨ (cfg.conf = true ∧ ∃ dn, BindName p dn)) →
      (∀ st : LdifSt, st.conf = confAt c (s.trace.take i) → st.main = mainAt m (s.trace.take i') →
        (ldifExec V W (cfgAt cfg loop cn) (ldifCall V g stats o p b) st).1 = rep) →
      ∃ i i', LastBind V.C cn (ios (s.trace.take k)) b ∧ k < i ∧ i ≤ i' ∧ i' ≤ n ∧ (i = i' ∨ (cfg.conf = true ∧ ∃ dn, BindName p dn)) ∧
        ∀ st : LdifSt, st.conf = confAt c (s.trace.take i) → st.main = mainAt m (s.trace.take i') →
          (handlePacket V (ldifSrv V W { cfg with loopback := loop cn } g stats) o p b st).resps = (ldifEnd V g stats o p b rep).1 := by
    intro i i' k1 k2 k3 k4 k5
    refine ⟨i, i', h1, k1, k2, k3, k4, fun st e1 e2 => ?_⟩
    have := k5 st e1 e2
    unfold cfgAt at this
    rw [ldif_alone, this]
  cases hq : ldifCall V g stats o p b with
  | none =>
    rw [hq] at h2
    dsimp only at h2
    refine same (k + 1) (k + 1) (by omega) (by omega) (by omega) (.inl rfl) fun st _ _ => ?_
    rw [hq, h2]
    rfl
  | some call => cases call with
    | bind dn pw =>
      rw [hq] at h2
      obtain ⟨i, i', k1, k2, k3, k4⟩ := h2
      have key : ∀ i, ∀ st : LdifSt, (cfg.conf = true → st.conf = confAt c (s.trace.take i)) → st.main = mainAt m (s.trace.take i') →
          (ldifExec V W (cfgAt cfg loop cn) (some (.bind dn pw)) st).1 =
            .bind (bindAns V (cfgAt cfg loop cn) (confAt c (s.trace.take i)) (mainAt m (s.trace.take i')) dn pw) := by
        intro i st e1 e2
        show LRep.bind _ = _
        rw [bindOne st _ rfl, ← e2]
        unfold bindAns
        by_cases hcf : (cfgAt cfg loop cn).conf = true
        · rw [if_pos hcf, if_pos hcf, e1 hcf]
        · rw [if_neg hcf, if_neg hcf]
      by_cases hcf : cfg.conf = true
      · refine same i i' k1 k2 k3 (.inr ⟨hcf, dn, call_bind hq⟩) fun st e1 e2 => ?_
        rw [hq, k4]
        exact key i st (fun _ => e1) e2
      · refine same i' i' (by omega) (Nat.le_refl _) k3 (.inl rfl) fun st e1 e2 => ?_
        rw [hq, k4]
        exact key i st (fun h => absurd h hcf) e2
    | search bound r =>
      rw [hq] at h2
      dsimp only at h2
      have hpg := unpaged_search hq hp
      cases hpl : searchPlan V (cfgAt cfg loop cn) bound r with
      | inl x =>
        rw [hpl] at h2
        dsimp only at h2
        refine same (k + 1) (k + 1) (by omega) (by omega) (by omega) (.inl rfl) fun st _ _ => ?_
        rw [hq, h2]
        show LRep.search _ = _
        rw [ldifSearch_refused hpl]
      | inr fs =>
        rw [hpl] at h2
        dsimp only at h2
        rcases h2 with ⟨⟨_, _, h2, _⟩, _⟩ | ⟨hc, h2⟩ | ⟨ch, x, ck, fp, hx, hu, hc, hfd, h2⟩
        · rw [hpg] at h2; cases h2
        · refine same (k + 1) (k + 1) (by omega) (by omega) (by omega) (.inl rfl) fun st _ _ => ?_
          rw [hq, h2]
          show LRep.search _ = _
          rw [ldifSearch_plain hpl hpg, hc]
        · have hX := I.chan ch x hx
          rcases hu with ⟨_, rfl, u3, u4⟩ | ⟨⟨_, u1⟩, _⟩ | ⟨⟨_, _, u1⟩, _⟩
          · obtain ⟨ho, _, t, t1, t2, t3⟩ := u4
            have hgot : x.got id = x.out.map (·.2) := got_all fun q hq => by rw [hX.priv u3 q hq]; exact ho
            refine same t t t1 (Nat.le_refl _) t2 (.inl rfl) fun st _ e2 => ?_
            rw [hq]
            show LRep.search _ = _
            rw [ldifSearch_plain hpl hpg, hc, e2, ← t3]
            dsimp only
            have hcon : con0 fp r = ⟨fp, r, none, []⟩ := by unfold con0; rw [hpg]; rfl
            rcases h2 with ⟨l, e, con, res, g1, g2, g3, rfl⟩ | ⟨con, g1, g2, g3, rfl⟩
            · have heat := eatAll_snoc _ _ _ _ e g2
              rw [← g1, Con.receive, g3, hcon] at heat
              have := ((eatAll_runPage (ldifEat V) ldifFin ⟨fp, r, none, []⟩ (x.got id) x.todo).1 res false heat).2
              rw [hgot, hX.sum] at this
              rw [this]
            · rcases g3 with g3 | g3
              · rw [hcon] at g1
                have := (eatAll_runPage (ldifEat V) ldifFin ⟨fp, r, none, []⟩ (x.got id) []).2.1 con g1
                rw [hgot] at this
                have hs := hX.sum
                rw [g3, List.append_nil] at hs
                rw [hs] at this
                rw [this]
                simp [ldifFin, pageReply, hpg, rcSuccess]
              · rw [show x.owner = id from ho] at g3
                obtain ⟨-, mid, req, q1, q2, -⟩ := ldifCall_search hq
                exact absurd g3 (hg ⟨mid, req, q1, q2⟩)
          · rw [hpg] at u1; cases u1
          · rw [hpg] at u1; cases u1

/-! ## Entries -/

theorem quiet_nil : entriesOf ([] : List Resp) = [] ∧ ∀ key, ¬ GivesCookie [] key :=
  ⟨rfl, fun key h => by obtain ⟨_, _, _, h, _⟩ := h; cases h⟩

theorem quiet_err (mid : Int) (code : Nat) : entriesOf (sentBy mid (.ok ⟨[], [], code, true⟩)) = [] ∧
    ∀ key, ¬ GivesCookie (sentBy mid (.ok ⟨[], [], code, true⟩)) key := by
  refine ⟨rfl, fun key h => ?_⟩
  obtain ⟨_, _, _, h, h'⟩ := h
  simp only [sentBy, if_true, List.mem_singleton, Resp.searchDone.injEq, Option.some.injEq] at h
  rw [h.2.2] at h'
  cases h'

theorem quiet_plan {mid : Int} {bound : Str} {r : SearchReq} {x : Res SearchRes} (h : searchPlan V cfg bound r = .inl x) :
    entriesOf (sentBy mid x) = [] ∧ ∀ key, ¬ GivesCookie (sentBy mid x) key := by
  unfold searchPlan at h
  split at h
  · cases h; exact quiet_err _ _
  · split at h
    · cases h; exact quiet_nil
    · cases h; exact quiet_nil
    · cases h; exact quiet_nil
    · split at h
      · cases h; exact quiet_err _ _
      · cases h

theorem sent_page (mid : Int) (r : SearchReq) (ck : Str) (last : Bool) (es : List Entry) :
    sentBy mid (pageReply r ck last (.ok (es, rcSuccess))) =
      es.map (.entry mid) ++ [.searchDone mid 0 (some (if (pagingOf r).isSome then [.paging 0 (if last then [] else ck)] else []))] := by
  simp [pageReply, sentBy, rcSuccess]

/-- What was answered, in terms of a channel. -/
theorem par_answer {s : LPar ι} (h : LParReach V W cfg g stats loop m c s) {k n : Nat} {id : ι} {cn : Nat} {p : Packet} {o : Oracle}
    {rs : List Resp} (ha : s.trace[k]? = some (.io (.arrive id (.packet cn p o)))) (hr : s.trace[n]? = some (.io (.answer id rs))) :
    (entriesOf rs = [] ∧ ∀ key, ¬ GivesCookie rs key) ∨
    ∃ (b : Str) (mid : Int) (req : Packet) (r : SearchReq) (fs : List IdxReq) (fp : Packet) (ch : Nat) (x : Chan ι) (ck : Str) (last : Bool),
      Message p mid req ∧ req.tag = 3 ∧ parseSearchRequest req r.controls = some r ∧
      decodeControls V (controlsOf p) = .ok r.controls ∧ compile r.filter = some fp ∧
      s.chans[ch]? = some x ∧ Uses V W m s.trace n k ⟨id, o, p, b⟩ r fs ck x ∧ FromData V W cfg m s.trace n x ∧
      rs = (((x.got id).filter (kept V.C fp r)).map fun x => filterAttributes V.C r.attrs x.visible).map (.entry mid) ++
        [.searchDone mid 0 (some (if (pagingOf r).isSome then [.paging 0 (if last then [] else ck)] else []))] ∧
      (last = true → x.todo = [] ∨ .gaveUp x.owner ∈ s.trace.take n) := by
  have I := linv h
  obtain ⟨hkn, b, rep, h1, h2, rfl⟩ := I.answers k n id cn p o rs ha hr
  rcases end_cases (V := V) (g := g) (stats := stats) o p b rep with ⟨mid, req, r, m1, m2, m3, m4, hq, e⟩ | hquiet
  · rw [e]
    unfold RepOk at h2
    dsimp only at h2
    rw [hq] at h2
    dsimp only at h2
    cases hpl : searchPlan V (cfgAt cfg loop cn) b r with
    | inl x =>
      rw [hpl] at h2
      dsimp only at h2
      rw [h2]
      exact .inl (quiet_plan hpl)
    | inr fs =>
      rw [hpl] at h2
      dsimp only at h2
      rcases h2 with ⟨_, h2⟩ | ⟨hc, h2⟩ | ⟨ch, x, ck, fp, hx, hu, hc, hfd, h2⟩
      · rw [h2]; exact .inl (quiet_err _ _)
      · rw [h2]; exact .inl (quiet_err _ _)
      · rcases h2 with ⟨l, e1, con, res, g1, g2, g3, rfl⟩ | ⟨con, g1, g2, g3, rfl⟩
        · show _ ∨ _
          have hcon := eatAll_kept _ _ _ g2
          cases res with
          | err e => exact .inl quiet_nil
          | panic => exact .inl quiet_nil
          | hang => exact .inl quiet_nil
          | ok ec =>
            obtain ⟨es, code⟩ := ec
            by_cases hcode : code = rcSuccess
            · subst hcode
              have hes := (eat_kept con e1).2 es g3
              rw [hcon] at hes
              refine .inr ⟨b, mid, req, r, fs, fp, ch, x, ck, false, m1, m2, m3, m4, hc, hx, hu, hfd, ?_, nofun⟩
              show sentBy mid (pageReply r ck false (.ok (es, rcSuccess))) = _
              rw [sent_page, hes, show x.got id = l ++ [e1] from g1]
              simp only [con0, List.nil_append, ← List.map_append, ← List.filter_append]
            · left
              show entriesOf (sentBy mid (pageReply r ck false (.ok (es, code)))) = [] ∧ ∀ key, ¬ GivesCookie (sentBy mid (pageReply r ck false (.ok (es, code)))) key
              rw [show pageReply r ck false (.ok (es, code)) = .ok ⟨[], [], code, true⟩ from if_pos hcode]
              exact quiet_err _ _
        · have hcon := eatAll_kept _ _ _ g1
          refine .inr ⟨b, mid, req, r, fs, fp, ch, x, ck, true, m1, m2, m3, m4, hc, hx, hu, hfd, ?_, fun _ => g3⟩
          show sentBy mid (pageReply r ck true (.ok (con.taken, rcSuccess))) = _
          rw [sent_page, hcon]
          simp only [con0, List.nil_append]
  · exact .inl ⟨hquiet.1, hquiet.2.1⟩

theorem eat_codes {con : LdifCon} {x : LEntry} {es : List Entry} {code : Nat} (h : ldifEat V con x = .inr (.ok (es, code))) : code = 0 ∨ code = 1 := by
  unfold ldifEat at h
  cases hf : applyFilter V.C x.visible con.fp with
  | ok kc =>
    obtain ⟨keep, c1⟩ := kc
    have h1 := applyFilter_codes V.C x.visible con.fp _ _ hf
    have h2 := filterScope_codes V.C con.r.baseDN (scopeNat con.r.scope) x.visible
    rw [hf] at h
    dsimp only at h
    split at h
    · cases h; exact h1
    split at h
    · cases h
    split at h
    · cases h; exact h2
    split at h
    · cases h
    split at h
    · cases h; exact .inl rfl
    split at h
    · cases h; exact .inl rfl
    · cases h
  | _ => rw [hf] at h; cases h

/-- A search refused as unwilling is one with an unknown cookie. -/
theorem par_refused {s : LPar ι} (h : LParReach V W cfg g stats loop m c s) {k n : Nat} {id : ι} {cn : Nat} {p : Packet} {o : Oracle}
    {rs : List Resp} (ha : s.trace[k]? = some (.io (.arrive id (.packet cn p o)))) (hr : s.trace[n]? = some (.io (.answer id rs)))
    (he : EndsWith rs rcUnwillingToPerform) : ∃ key, Presents V p key ∧ Unknown V s.trace s.chans n k key := by
  have I := linv h
  obtain ⟨hkn, b, rep, h1, h2, rfl⟩ := I.answers k n id cn p o rs ha hr
  obtain ⟨mid0, cs0, he⟩ := he
  rcases end_cases (V := V) (g := g) (stats := stats) o p b rep with ⟨mid, req, r, m1, m2, m3, m4, hq, e⟩ | hquiet
  · rw [e] at he
    unfold RepOk at h2
    dsimp only at h2
    rw [hq] at h2
    dsimp only at h2
    have hcode : ∀ code, .searchDone mid0 rcUnwillingToPerform cs0 ∈ sentBy mid (.ok ⟨[], [], code, true⟩) → code = rcUnwillingToPerform := by
      intro code hm
      simp only [sentBy, if_true, List.mem_singleton, Resp.searchDone.injEq] at hm
      exact hm.2.1.symm
    cases hpl : searchPlan V (cfgAt cfg loop cn) b r with
    | inl x =>
      rw [hpl] at h2
      dsimp only at h2
      rw [h2] at he
      exfalso
      unfold searchPlan at hpl
      split at hpl
      · cases hpl; exact absurd (hcode _ he) (by decide)
      · split at hpl
        · cases hpl; cases he
        · cases hpl; cases he
        · cases hpl; cases he
        · split at hpl
          · cases hpl; exact absurd (hcode _ he) (by decide)
          · cases hpl
    | inr fs =>
      rw [hpl] at h2
      dsimp only at h2
      have hpage : ∀ r ck last (res : Res (List Entry × Nat)), (∀ es code, res = .ok (es, code) → code = 0 ∨ code = 1) →
          .searchDone mid0 rcUnwillingToPerform cs0 ∉ sentBy mid (pageReply r ck last res) := by
        intro r ck last res hres hm
        cases res with
        | ok ec =>
          obtain ⟨es, code⟩ := ec
          rcases hres es code rfl with rfl | rfl
          · rw [show (0 : Nat) = rcSuccess from rfl, sent_page] at hm
            rcases List.mem_append.1 hm with hm | hm
            · obtain ⟨_, -, e⟩ := List.mem_map.1 hm
              cases e
            · simp [rcUnwillingToPerform] at hm
          · exact absurd (hcode 1 hm) (by decide)
        | _ => cases hm
      rcases h2 with ⟨⟨n', ck, hp, -, hu⟩, -⟩ | ⟨hc, h2⟩ | ⟨ch, x, ck, fp, hx, hu, hc, hfd, h2⟩
      · obtain ⟨q, k1, k2⟩ := decodeControls_mem _ _ m4 _ (pagingOf_mem hp)
        exact ⟨ck, ⟨q, k1, n', k2⟩, hu⟩
      · rw [h2] at he
        exact absurd (hcode _ he) (by decide)
      · rcases h2 with ⟨l, e1, con, res, g1, g2, g3, rfl⟩ | ⟨con, g1, g2, g3, rfl⟩
        · refine absurd he (hpage _ _ _ _ fun es code hres => ?_)
          subst hres
          exact eat_codes g3
        · refine absurd he (hpage r ck true (ldifFin con) fun es code hres => ?_)
          cases hres
          exact .inl rfl
  · exact absurd he (hquiet.2.2 _ _)

theorem entriesOf_page (mid : Int) (es : List Entry) (cs : Option (List Control)) :
    entriesOf (es.map (Resp.entry mid) ++ [.searchDone mid 0 cs]) = es := by
  rw [entriesOf_append, entriesOf_map]
  exact List.append_nil _

/-! ## Versions -/

/-- All data that was in force has been loaded from files. -/
theorem loaded {recs0 : List (Option Entry)} (h0 : treeFromLDIF V.C cfg.idx recs0 = some m) {s : LPar ι} (h : LParReach V W cfg g stats loop m c s) (t : Nat) :
    ∃ recs, treeFromLDIF V.C cfg.idx recs = some (mainAt m (s.trace.take t)) := by
  have key : ∀ m', .main m' ∈ s.trace → ∃ recs, treeFromLDIF V.C cfg.idx recs = some m' := by
    clear t
    induction h with
    | start => intro m' hm; cases hm
    | step s s' _ hs ih =>
      cases hs with
      | reloadMain recs m1 hd hr hm =>
        intro m' h
        rcases List.mem_append.1 h with h | h
        · exact ih m' h
        · rw [List.mem_singleton] at h
          cases h
          unfold openLdif at hm
          split at hm
          · cases hm
          · cases recs with
            | none => cases hm
            | some rs => exact ⟨rs, hm⟩
      | _ => first | exact ih | (intro m' h; exact ih m' (by simpa using h))
  have gen : ∀ (tr : List (LSeen ι)) (m1 : LMem), (∃ recs, treeFromLDIF V.C cfg.idx recs = some m1) →
      (∀ m', .main m' ∈ tr → ∃ recs, treeFromLDIF V.C cfg.idx recs = some m') → ∃ recs, treeFromLDIF V.C cfg.idx recs = some (mainAt m1 tr) := by
    intro tr
    induction tr with
    | nil => exact fun m1 h _ => h
    | cons e tr ih =>
      intro m1 h1 h2
      cases e with
      | main m2 => exact ih m2 (h2 m2 (by simp)) fun m' h => h2 m' (by simp [h])
      | _ => exact ih m1 h1 fun m' h => h2 m' (by simp [h])
  exact gen _ m ⟨recs0, h0⟩ fun m' h => key m' (List.mem_of_mem_take h)

/-- C45, C40, C37 with overlapping requests: all entries of an answer, paged or not, come from one version of the data, one that was in force
before the answer was sent; no entry is sent twice. -/
theorem C85_one_version (hW : W.Lawful) {recs0 : List (Option Entry)} (h0 : treeFromLDIF V.C cfg.idx recs0 = some m) {s : LPar ι}
    (h : LParReach V W cfg g stats loop m c s) {k n : Nat} {id : ι} {cn : Nat} {p : Packet} {o : Oracle} {rs : List Resp}
    (ha : s.trace[k]? = some (.io (.arrive id (.packet cn p o)))) (hr : s.trace[n]? = some (.io (.answer id rs))) :
    ∃ t recs, t ≤ n ∧ treeFromLDIF V.C cfg.idx recs = some (mainAt m (s.trace.take t)) ∧
      (∀ e ∈ entriesOf rs, ∃ r ∈ entriesIn recs, PartOf V.C e r) ∧ ((entriesOf rs).map (·.dn)).Nodup := by
  rcases par_answer h ha hr with ⟨h1, -⟩ | ⟨b, mid, req, r, fs, fp, ch, x, ck, last, -, -, -, -, -, hx, -, hfd, rfl, -⟩
  · obtain ⟨recs, h2⟩ := loaded h0 h 0
    exact ⟨0, recs, Nat.zero_le _, h2, by rw [h1]; simp, by rw [h1]; simp⟩
  · obtain ⟨-, t, base, fs', t1, t2, t3, t4⟩ := hfd
    obtain ⟨recs, h2⟩ := loaded h0 h t
    refine ⟨t, recs, t1, h2, ?_⟩
    have hfv : FromVersion V.C cfg [recs] (x.got id) := by
      have := FromVersion.pump (cfg := cfg) (older := []) hW h2 base t2 fs' t3
      rw [← t4] at this
      refine this.sublist ?_
      have hs := ((linv h).chan ch x hx).sum
      rw [← hs]
      exact (List.filter_sublist.map _).trans (List.sublist_append_left _ _)
    rw [entriesOf_page]
    constructor
    · obtain ⟨v, hv, hpart⟩ := fromVersion_part hfv
      rw [List.mem_singleton] at hv
      subst hv
      intro e he
      obtain ⟨y, hy, rfl⟩ := List.mem_map.1 he
      exact hpart r.attrs y (List.mem_filter.1 hy).1
    · rw [List.map_map]
      have e : ((fun e : Entry => e.dn) ∘ fun x : LEntry => filterAttributes V.C r.attrs x.visible) = fun x => x.dn := by
        funext x
        exact (C31_selected r.attrs x.visible ⟨[], []⟩).1
      rw [e]
      exact hfv.1.sublist (List.filter_sublist.map _)

/-! ## Cookies -/

theorem set_same {α β : Type} (f : α → β) (l : List α) (i : Nat) (x y : α) (h : l[i]? = some x) (he : f y = f x) : (l.set i y).map f = l.map f := by
  rw [List.map_set, he]
  obtain ⟨hi, rfl⟩ := List.getElem?_eq_some_iff.1 h
  have : f l[i] = (l.map f)[i]'(by simpa using hi) := by simp
  rw [this, List.set_getElem_self]

/-- The channels with cookies are those the log tells of. -/
theorem cookies_inv {s : LPar ι} (h : LParReach V W cfg g stats loop m c s) :
    s.chans.filterMap (fun x => x.cookie.map fun k => (x.owner, k)) = cookiesIn s.trace := by
  have hset : ∀ {l : List (Chan ι)} {i : Nat} {x : Chan ι} (y : Chan ι), l[i]? = some x → y.owner = x.owner → y.cookie = x.cookie →
      (l.set i y).filterMap (fun x => x.cookie.map fun k => (x.owner, k)) = l.filterMap (fun x => x.cookie.map fun k => (x.owner, k)) := by
    intro l i x y h1 h2 h3
    have hg : ∀ l : List (Chan ι), l.filterMap (fun x => x.cookie.map fun k => (x.owner, k)) =
        (l.map fun x => (x.owner, x.cookie)).filterMap (fun q => q.2.map fun k => (q.1, k)) := by
      intro l; rw [List.filterMap_map]; rfl
    rw [hg, hg, set_same _ l i x y h1 (by rw [h2, h3])]
  have hcons : ∀ (tr : List (LSeen ι)) l, cookiesIn l = [] → cookiesIn (tr ++ l) = cookiesIn tr := by
    intro tr l hl
    unfold cookiesIn at hl ⊢
    rw [List.filterMap_append, hl, List.append_nil]
  induction h with
  | start => rfl
  | step s s' _ hs ih =>
    cases hs with
    | searchPlain c j bound r fs hd hc hq hp hg =>
      rw [List.filterMap_append, ih]
      exact List.append_nil _
    | searchFirst c j bound r fs n k hd hc hq hp hg hk =>
      rw [List.filterMap_append, ih]
      unfold cookiesIn
      rw [List.filterMap_append]
      rfl
    | begin c j r fs k ch x hd hc hch => exact Eq.trans (hset _ hch rfl rfl) ih
    | hand c j r k ch con x e es hd hc hch ho ht => exact Eq.trans (hset _ hch rfl rfl) ih
    | finish ch x hd hch ho ht => exact Eq.trans (hset _ hch rfl rfl) ih
    | giveUp ch x hd hch ho ht => rw [hcons _ _ rfl]; exact Eq.trans (hset _ hch rfl rfl) ih
    | remove ch x hd hch ho => exact Eq.trans (hset _ hch rfl rfl) ih
    | close ch x hd hch ho => exact Eq.trans (hset _ hch rfl rfl) ih
    | _ => first | exact ih | (rw [hcons _ _ rfl]; exact ih)

theorem one_index {α β : Type} [BEq β] [LawfulBEq β] (f : α → Option β) (b : β) (l : List α) (h : (l.filterMap f).count b ≤ 1) {i i' : Nat} {x x' : α}
    (hi : l[i]? = some x) (hi' : l[i']? = some x') (hx : f x = some b) (hx' : f x' = some b) : i = i' := by
  have mem : ∀ {l : List α} {i : Nat} {x : α}, l[i]? = some x → f x = some b → 1 ≤ (l.filterMap f).count b := by
    intro l i x h1 h2
    exact List.count_pos_iff.2 (List.mem_filterMap.2 ⟨x, List.mem_of_getElem? h1, h2⟩)
  induction l generalizing i i' with
  | nil => cases hi
  | cons a l ih =>
    cases i with
    | zero =>
      cases i' with
      | zero => rfl
      | succ i' =>
        simp only [List.getElem?_cons_zero, Option.some.injEq] at hi
        simp only [List.getElem?_cons_succ] at hi'
        subst hi
        rw [List.filterMap_cons, hx] at h
        dsimp only at h
        rw [List.count_cons_self] at h
        have := mem hi' hx'
        omega
    | succ i =>
      cases i' with
      | zero =>
        simp only [List.getElem?_cons_zero, Option.some.injEq] at hi'
        simp only [List.getElem?_cons_succ] at hi
        subst hi'
        rw [List.filterMap_cons, hx'] at h
        dsimp only at h
        rw [List.count_cons_self] at h
        have := mem hi hx
        omega
      | succ i' =>
        simp only [List.getElem?_cons_succ] at hi hi'
        rw [ih ?_ hi hi']
        rw [List.filterMap_cons] at h
        cases hf : f a with
        | none => rw [hf] at h; exact h
        | some b' =>
          rw [hf] at h
          dsimp only at h
          have := List.count_le_count_cons (a := b) (b := b') (l := l.filterMap f)
          omega

theorem zip_out {α β : Type} : ∀ (o : List (α × β)) (t : List β), (o.map (·.1)).zip (o.map (·.2) ++ t) = o
  | [], t => by simp
  | a :: o, t => by simp [zip_out o t]

theorem gives_page {mid : Int} {es : List Entry} {ctrl : Option (List Control)} {key : Str}
    (h : GivesCookie (es.map (.entry mid) ++ [.searchDone mid 0 ctrl]) key) : ∃ cs, ctrl = some cs ∧ .paging 0 key ∈ cs := by
  obtain ⟨a, b, cs, h1, h2⟩ := h
  rcases List.mem_append.1 h1 with h1 | h1
  · obtain ⟨x, _, e⟩ := List.mem_map.1 h1
    cases e
  · rw [List.mem_singleton] at h1
    cases h1
    exact ⟨cs, rfl, h2⟩

/-- A page and its channel. -/
theorem page_chan {s : LPar ι} (h : LParReach V W cfg g stats loop m c s) {key : Str} (hne : key ≠ []) : ∀ (k n : Nat) id cn p o rs, s.trace[k]? = some (.io (.arrive id (.packet cn p o))) → s.trace[n]? = some (.io (.answer id rs)) →
    PageOf V p rs key → ∃ mid req r fp, ∃ (ch : Nat) (x : Chan ι) (last : Bool), Message p mid req ∧ parseSearchRequest req r.controls = some r ∧
      compile r.filter = some fp ∧ s.chans[ch]? = some x ∧ x.cookie = some key ∧ x.phase ≠ .made ∧
      entriesOf rs = ((x.got id).filter (kept V.C fp r)).map (fun x => filterAttributes V.C r.attrs x.visible) ∧
      (GivesCookie rs [] → last = true) ∧ (last = true → x.todo = [] ∨ .gaveUp x.owner ∈ s.trace) := by
  intro k n id cn p o rs ha hr hof
  rcases par_answer h ha hr with h1 | ⟨b, mid, req, r, fs, fp, ch, x, ck, last, m1, m2, m3, m4, hc, hx, hu, hfd, rfl, hlast⟩
  · rcases hof with h2 | ⟨h2, -⟩
    · exact absurd h2 (h1.2 _)
    · exact absurd h2 (h1.2 _)
  · have hg : ∀ q, GivesCookie ((((x.got id).filter (kept V.C fp r)).map fun x => filterAttributes V.C r.attrs x.visible).map (.entry mid) ++
        [.searchDone mid 0 (some (if (pagingOf r).isSome then [.paging 0 (if last then [] else ck)] else []))]) q →
        (pagingOf r).isSome = true ∧ q = if last then [] else ck := by
      intro q hq
      obtain ⟨cs, e, hm⟩ := gives_page hq
      cases e
      split at hm
      · rename_i hp
        simp only [List.mem_singleton, Control.paging.injEq] at hm
        exact ⟨hp, hm.2⟩
      · cases hm
    have hpres : ∀ n' k', pagingOf r = some (n', k') → Presents V p k' := by
      intro n' k' hp
      obtain ⟨q, h2, h3⟩ := decodeControls_mem _ _ m4 _ (pagingOf_mem hp)
      exact ⟨q, h2, n', h3⟩
    have hsome : (pagingOf r).isSome = true := by
      rcases hof with h2 | ⟨h2, -⟩
      · exact (hg _ h2).1
      · exact (hg _ h2).1
    have hckey : ck ≠ [] ∧ x.cookie = some ck ∧ ck = key := by
      rcases hu with ⟨u1, -⟩ | ⟨⟨n', u1⟩, u2, u3, -⟩ | ⟨⟨n', -, u1⟩, u2, u3⟩
      · rw [u1] at hsome; cases hsome
      · refine ⟨u2, u3, ?_⟩
        rcases hof with h2 | ⟨-, -, h2⟩
        · have := (hg _ h2).2
          split at this
          · exact absurd this hne
          · exact this.symm
        · exact absurd (h2 _ (hpres _ _ u1)).symm hne
      · refine ⟨u2, u3, ?_⟩
        rcases hof with h2 | ⟨-, -, h2⟩
        · have := (hg _ h2).2
          split at this
          · exact absurd this hne
          · exact this.symm
        · exact h2 _ (hpres _ _ u1)
    obtain ⟨c1, c2, rfl⟩ := hckey
    refine ⟨mid, req, r, fp, ch, x, last, m1, m3, hc, hx, c2, hfd.1, entriesOf_page .., ?_, ?_⟩
    · intro hq
      have := (hg _ hq).2
      split at this
      · assumption
      · exact absurd this.symm c1
    · intro hl
      rcases hlast hl with h2 | h2
      · exact .inl h2
      · exact .inr (List.mem_of_mem_take h2)

/-- The request that made a cookie. -/
theorem cookie_seen {s : LPar ι} (h : LParReach V W cfg g stats loop m c s) {key : Str} : ∀ {ch : Nat} {x : Chan ι}, s.chans[ch]? = some x → x.cookie = some key → .cookie x.owner key ∈ s.trace := by
  intro ch x hx hxk
  have hck := cookies_inv h
  have hm : (x.owner, key) ∈ s.chans.filterMap (fun x => x.cookie.map fun k => (x.owner, k)) :=
    List.mem_filterMap.2 ⟨x, List.mem_of_getElem? hx, by rw [hxk]; rfl⟩
  rw [hck] at hm
  obtain ⟨e, he, hee⟩ := List.mem_filterMap.1 hm
  split at hee
  · cases hee; exact he
  · cases hee

/-- Why a cookie is refused. -/
theorem page_refusal {s : LPar ι} (h : LParReach V W cfg g stats loop m c s) {key : Str} : ∀ (k n : Nat) id cn p o rs, s.trace[k]? = some (.io (.arrive id (.packet cn p o))) → s.trace[n]? = some (.io (.answer id rs)) →
    (∀ key', Presents V p key' → key' = key) → EndsWith rs rcUnwillingToPerform → (∃ id', .cookie id' key ∈ s.trace.take k) →
    ¬ Abandoned V (s.trace.take n) key → Emptied s.trace s.chans key := by
  intro k n id cn p o rs ha hr hpr he hmade hab
  obtain ⟨key', h1, -, h2⟩ := par_refused h ha hr he
  have := hpr key' h1
  subst this
  obtain ⟨id', hmade⟩ := hmade
  rcases h2 with h2 | h2 | h2
  · exact absurd hmade (h2 id')
  · exact absurd h2 hab
  · exact h2.mono (H := fun _ => False) (.refl _ _) fun e he => List.mem_of_mem_take he

/-- C86: the pages of a paged search, requested by any number of clients on any number of connections at the same time, while the files are
reloaded: there is one list of entries of one version of the data, none twice, and each entry of it is handed to at most one of the requests
(`owners` says which); what a request is answered with are the entries handed to it that its filter and scope keep. When a request has been
told that there are no more pages, every entry of the list has been handed to a request, unless the producer gave up. A request that presents
the cookie is refused (53) only when that is so, or when somebody abandoned the search, or when it arrived before the cookie was made. `PageOf`
says which answers belong to the search; the hypothesis `hk` is that the random cookie was made only once. -/
theorem C86_pages (hW : W.Lawful) {recs0 : List (Option Entry)} (h0 : treeFromLDIF V.C cfg.idx recs0 = some m) {s : LPar ι}
    (h : LParReach V W cfg g stats loop m c s) (key : Str) (hne : key ≠ []) (hk : ((cookiesIn s.trace).map (·.2)).count key ≤ 1) :
    ∃ (t : Nat) (recs : List (Option Entry)) (l : List LEntry) (owners : List ι),
      treeFromLDIF V.C cfg.idx recs = some (mainAt m (s.trace.take t)) ∧ (∀ x ∈ l, x ∈ (mainAt m (s.trace.take t)).tree) ∧ (l.map (·.dn)).Nodup ∧
      owners.length ≤ l.length ∧
      (∀ (k n : Nat) id cn p o rs, s.trace[k]? = some (.io (.arrive id (.packet cn p o))) → s.trace[n]? = some (.io (.answer id rs)) → PageOf V p rs key →
        ∃ mid req r fp, Message p mid req ∧ parseSearchRequest req r.controls = some r ∧ compile r.filter = some fp ∧
          entriesOf rs = ((share owners l id).filter (kept V.C fp r)).map (fun x => filterAttributes V.C r.attrs x.visible) ∧
          (GivesCookie rs [] → (∀ id', .cookie id' key ∈ s.trace → .gaveUp id' ∉ s.trace) → owners.length = l.length)) ∧
      ∀ (k n : Nat) id cn p o rs, s.trace[k]? = some (.io (.arrive id (.packet cn p o))) → s.trace[n]? = some (.io (.answer id rs)) →
        (∀ key', Presents V p key' → key' = key) → EndsWith rs rcUnwillingToPerform → (∃ id', .cookie id' key ∈ s.trace.take k) →
        ¬ Abandoned V (s.trace.take n) key → (∀ id', .cookie id' key ∈ s.trace → .gaveUp id' ∉ s.trace) → owners.length = l.length := by
  have I := linv h
  have hck := cookies_inv h
  have hk' : (s.chans.filterMap (·.cookie)).count key ≤ 1 := by
    rw [← hck, List.map_filterMap] at hk
    have : (fun x : Chan ι => Option.map (·.2) (x.cookie.map fun k => (x.owner, k))) = (·.cookie) := by
      funext x
      cases x.cookie <;> rfl
    rw [this] at hk
    exact hk
  have hcase := page_chan h hne
  have hown := fun {ch : Nat} {x : Chan ι} => @cookie_seen _ _ _ _ _ _ _ _ _ _ _ h key ch x
  have href := page_refusal h (key := key)
  by_cases hex : ∃ (ch : Nat) (x : Chan ι), s.chans[ch]? = some x ∧ x.cookie = some key ∧ x.phase ≠ .made
  · obtain ⟨ch, x, hx, hxk, hph⟩ := hex
    have hX := I.chan ch x hx
    obtain ⟨-, t, base, fs', t1, t2, t3, t4⟩ := hX.data hph
    obtain ⟨recs, h2⟩ := loaded h0 h t
    obtain ⟨f1, f2, v, hv, m', hm', f3⟩ := FromVersion.pump (cfg := cfg) (older := []) hW h2 base t2 fs' t3
    rw [← t4] at f1 f2 f3
    rw [List.mem_singleton] at hv
    subst hv
    rw [h2] at hm'
    cases hm'
    have hsum := hX.sum
    have hlen : (x.out.map (·.1)).length ≤ x.all.length := by rw [← hsum]; simp
    have hshare : ∀ id, share (x.out.map (·.1)) x.all id = x.got id := by
      intro id
      unfold share Chan.got
      rw [← hsum, zip_out]
    refine ⟨t, v, x.all, x.out.map (·.1), h2, f3, f1, hlen, ?_, ?_⟩
    rotate_left
    · intro k n id cn p o rs ha hr hpr he hmade hab hnot
      obtain ⟨ch', x', e1, e2, e3, e4⟩ := href k n id cn p o rs ha hr hpr he hmade hab
      have : ch' = ch := one_index (·.cookie) key s.chans hk' e1 hx e2 hxk
      subst this
      rw [hx] at e1
      cases e1
      rcases e4 with e4 | e4
      · rw [List.length_map] at hlen ⊢
        omega
      · exact absurd e4 (hnot _ (hown hx hxk))
    intro k n id cn p o rs ha hr hof
    obtain ⟨mid, req, r, fp, ch', x', last, q1, q2, q3, q4, q5, q6, q7, q8, q9⟩ := hcase k n id cn p o rs ha hr hof
    have : ch' = ch := one_index (·.cookie) key s.chans hk' q4 hx q5 hxk
    subst this
    rw [hx] at q4
    cases q4
    refine ⟨mid, req, r, fp, q1, q2, q3, by rw [hshare]; exact q7, fun hq hnot => ?_⟩
    rcases q9 (q8 hq) with h3 | h3
    · rw [h3, List.append_nil] at hsum
      rw [← hsum]; simp
    · exact absurd h3 (hnot x.owner (hown hx hxk))
  · obtain ⟨recs, h2⟩ := loaded h0 h 0
    refine ⟨0, recs, [], [], h2, by simp, by simp, by simp, ?_, fun _ _ _ _ _ _ _ _ _ _ _ _ _ _ => rfl⟩
    intro k n id cn p o rs ha hr hof
    obtain ⟨mid, req, r, fp, ch', x', last, q1, q2, q3, q4, q5, q6, -⟩ := hcase k n id cn p o rs ha hr hof
    exact absurd ⟨ch', x', q4, q5, q6⟩ hex

end

/-! ## Examples -/

/-- Moves of the toy server, with these data at the start. -/
def ldRun (mrecs crecs : List (Option Entry)) (ms : List (LMove Nat)) : Option (LPar Nat) :=
  lMoves ldEnv ldOrd ldCfg 8 false (fun _ => true) b!"abcdefghijk" (LPar.start (ldMem mrecs) (ldMem crecs)) ms

/-- The state they lead to. -/
def ldLeads (mrecs crecs : List (Option Entry)) (ms : List (LMove Nat)) : LPar Nat := (ldRun mrecs crecs ms).getD (LPar.start (ldMem mrecs) (ldMem crecs))

theorem ldLeads_eq {mrecs crecs : List (Option Entry)} {ms : List (LMove Nat)} (h : (ldRun mrecs crecs ms).isSome = true) :
    ldRun mrecs crecs ms = some (ldLeads mrecs crecs ms) := by
  unfold ldLeads
  obtain ⟨s, e⟩ := Option.isSome_iff_exists.1 h
  rw [e]; rfl

theorem ldLeads_reach (mrecs crecs : List (Option Entry)) (ms : List (LMove Nat)) :
    LParReach ldEnv ldOrd ldCfg 8 false (fun _ => true) (ldMem mrecs) (ldMem crecs) (ldLeads mrecs crecs ms) := by
  unfold ldLeads
  cases h : ldRun mrecs crecs ms with
  | none => exact .start
  | some s => exact lMoves_reach ms .start h

/-- Bob binds; a search; a page of a search. -/
def ldBindP : Packet := wMsg 7 (wBind b!"uid=bob,ou=people,dc=lg" b!"secret")
def ldSearchP : Packet := wMsg 8 (wSearch b!"dc=LG" 2 0 (ctxStr 7 b!"cn") [b!"cn"])
def ldPageP (cookie : Str) : Packet := wMsgC 9 (wSearch b!"dc=lg" 2 0 (ctxStr 7 b!"cn") [b!"cn"]) [wSeq [berInt 1, octet cookie]]

/-- A bind, and the files are reloaded between its two looks: Bob was in the main files and is now in the config file. -/
def ldMoved : List (LMove Nat) := [.arrive 0 1 toyOracle ldBindP, .go 0, .conf ldRecs, .main [], .go 0, .go 0]

/-- C85, what fails: a bind that overlaps a reload can be refused although it would succeed with the data before the reload, with the data
after it, and with the data between: with the config file in force it looks for the user in the config file before the reload, and in the main
files after it. -/
theorem C85_bind_reload_fails : ∃ s : LPar Nat,
    LParReach ldEnv ldOrd ldCfg 8 false (fun _ => true) (ldMem ldRecs) (ldMem []) s ∧
    s.trace[0]? = some (.io (.arrive 1 (.packet 0 ldBindP toyOracle))) ∧ s.trace[3]? = some (.io (.answer 1 [.result 7 1 49])) ∧
    ∀ t, (handlePacket ldEnv ldSrv toyOracle ldBindP []
      { ldStart [] with conf := confAt (ldMem []) (s.trace.take t), main := mainAt (ldMem ldRecs) (s.trace.take t) }).resps = [.result 7 1 0] := by
  have hs : (ldRun ldRecs [] ldMoved).isSome = true := by decide +kernel
  refine ⟨ldLeads ldRecs [] ldMoved, ldLeads_reach _ _ _, ?_, answerAt_get (by decide +kernel), fun t => ?_⟩
  · obtain ⟨s1, e1, e2⟩ := lMoves_arrive [] (ldLeads_eq hs)
    cases e1
    exact e2
  · have hl : (ldLeads ldRecs [] ldMoved).trace.length = 4 := by decide +kernel
    have key : ∀ t, t < 5 → (handlePacket ldEnv ldSrv toyOracle ldBindP []
      { ldStart [] with conf := confAt (ldMem []) ((ldLeads ldRecs [] ldMoved).trace.take t),
                        main := mainAt (ldMem ldRecs) ((ldLeads ldRecs [] ldMoved).trace.take t) }).resps = [.result 7 1 0] := by decide +kernel
    by_cases ht : t < 5
    · exact key t ht
    · have e : (ldLeads ldRecs [] ldMoved).trace.take t = (ldLeads ldRecs [] ldMoved).trace.take 4 := by
        rw [List.take_of_length_le (by omega), List.take_of_length_le (by omega)]
      rw [e]
      exact key 4 (by omega)

/-- A search whose producer gives up after the first entry. -/
def ldCut : List (LMove Nat) :=
  [.arrive 0 1 toyOracle ldSearchP, .go 0, .go 0, .go 0, .giveUp 0, .produce 0, .produce 0, .go 0, .go 0]

/-- C85, what fails: when the producer of a search gives up, because the server is shutting down or the client has not taken an entry for a
minute, the search is answered with a part of the result and success. -/
theorem C85_shutdown_fails : ∃ s : LPar Nat,
    LParReach ldEnv ldOrd ldCfg 8 false (fun _ => true) (ldMem ldRecs) (ldMem []) s ∧
    s.trace[0]? = some (.io (.arrive 1 (.packet 0 ldSearchP toyOracle))) ∧
    s.trace[2]? = some (.io (.answer 1 [.entry 8 ⟨b!"uid=ann,ou=people,dc=lg", [⟨b!"cn", [b!"Ann Berg"]⟩]⟩, .searchDone 8 0 (some [])])) ∧
    ∀ t, (handlePacket ldEnv ldSrv toyOracle ldSearchP []
      { ldStart [] with conf := confAt (ldMem []) (s.trace.take t), main := mainAt (ldMem ldRecs) (s.trace.take t) }).resps =
      [.entry 8 ⟨b!"uid=ann,ou=people,dc=lg", [⟨b!"cn", [b!"Ann Berg"]⟩]⟩,
       .entry 8 ⟨b!"uid=bob,ou=people,dc=lg", [⟨b!"cn", [b!"Bob Cole", b!"Berg"]⟩]⟩, .searchDone 8 0 (some [])] := by
  have hs : (ldRun ldRecs [] ldCut).isSome = true := by decide +kernel
  refine ⟨ldLeads ldRecs [] ldCut, ldLeads_reach _ _ _, ?_, answerAt_get (by decide +kernel), fun t => ?_⟩
  · obtain ⟨s1, e1, e2⟩ := lMoves_arrive [] (ldLeads_eq hs)
    cases e1
    exact e2
  · have hl : (ldLeads ldRecs [] ldCut).trace.length = 3 := by decide +kernel
    have key : ∀ t, t < 4 → (handlePacket ldEnv ldSrv toyOracle ldSearchP []
      { ldStart [] with conf := confAt (ldMem []) ((ldLeads ldRecs [] ldCut).trace.take t),
                        main := mainAt (ldMem ldRecs) ((ldLeads ldRecs [] ldCut).trace.take t) }).resps =
      [.entry 8 ⟨b!"uid=ann,ou=people,dc=lg", [⟨b!"cn", [b!"Ann Berg"]⟩]⟩,
       .entry 8 ⟨b!"uid=bob,ou=people,dc=lg", [⟨b!"cn", [b!"Bob Cole", b!"Berg"]⟩]⟩, .searchDone 8 0 (some [])] := by decide +kernel
    by_cases ht : t < 4
    · exact key t ht
    · have e : (ldLeads ldRecs [] ldCut).trace.take t = (ldLeads ldRecs [] ldCut).trace.take 3 := by
        rw [List.take_of_length_le (by omega), List.take_of_length_le (by omega)]
      rw [e]
      exact key 3 (by omega)

/-- A search without paging on connection 1 overlaps two pages of a search on connection 0, and the files are reloaded in between. -/
def ldOverlap : List (LMove Nat) :=
  [.arrive 0 1 toyOracle (ldPageP []), .arrive 1 2 toyOracle ldSearchP, .go 0, .go 1, .go 0, .go 0, .go 0,
   .conf [], .main [], .go 1, .arrive 0 3 toyOracle (ldPageP b!"abcdefghijk"), .go 0, .go 0, .go 0, .produce 1, .produce 1, .produce 1, .go 1, .go 1]

example : (ldRun ldRecs [] ldOverlap).map (fun s => (List.range s.trace.length).filterMap (answerAt s.trace)) = some [
    (1, [.entry 9 ⟨b!"uid=ann,ou=people,dc=lg", [⟨b!"cn", [b!"Ann Berg"]⟩]⟩, .searchDone 9 0 (some [.paging 0 b!"abcdefghijk"])]),
    (3, [.entry 9 ⟨b!"uid=bob,ou=people,dc=lg", [⟨b!"cn", [b!"Bob Cole", b!"Berg"]⟩]⟩, .searchDone 9 0 (some [.paging 0 b!"abcdefghijk"])]),
    (2, [.searchDone 8 0 (some [])])] := by decide +kernel

/-- A request on connection 1 that overlaps others meets the hypotheses of C85. -/
example : ∃ (s : LPar Nat) (rs : List Resp) (n : Nat), LParReach ldEnv ldOrd ldCfg 8 false (fun _ => true) (ldMem ldRecs) (ldMem []) s ∧
    s.trace[1]? = some (.io (.arrive 2 (.packet 1 ldSearchP toyOracle))) ∧ s.trace[n]? = some (.io (.answer 2 rs)) ∧
    ¬ Paged ldEnv ldSearchP ∧ .gaveUp 2 ∉ s.trace.take n := by
  have hs : (ldRun ldRecs [] ldOverlap).isSome = true := by decide +kernel
  obtain ⟨s1, e1, e2⟩ := lMoves_arrive [.arrive 0 1 toyOracle (ldPageP [])] (ldLeads_eq hs)
  refine ⟨ldLeads ldRecs [] ldOverlap, [.searchDone 8 0 (some [])], 8, ldLeads_reach _ _ _, ?_, answerAt_get (by decide +kernel), ?_, ?_⟩
  · cases e1; exact e2
  · rintro ⟨c, hc, _⟩; cases hc
  · have h : ∀ (l : List (LSeen Nat)), (l.all fun e => match e with | .gaveUp _ => false | _ => true) = true → .gaveUp 2 ∉ l := by
      intro l hl hm
      have := List.all_eq_true.1 hl _ hm
      cases this
    exact h _ (by decide +kernel)

/-- The two pages of connection 0 meet the hypotheses of C86. -/
example : ∃ (s : LPar Nat) (rs rs' : List Resp) (k n : Nat), LParReach ldEnv ldOrd ldCfg 8 false (fun _ => true) (ldMem ldRecs) (ldMem []) s ∧
    ((cookiesIn s.trace).map (·.2)).count b!"abcdefghijk" ≤ 1 ∧
    s.trace[0]? = some (.io (.arrive 1 (.packet 0 (ldPageP []) toyOracle))) ∧ s.trace[3]? = some (.io (.answer 1 rs)) ∧
    PageOf ldEnv (ldPageP []) rs b!"abcdefghijk" ∧ entriesOf rs ≠ [] ∧
    s.trace[k]? = some (.io (.arrive 3 (.packet 0 (ldPageP b!"abcdefghijk") toyOracle))) ∧ s.trace[n]? = some (.io (.answer 3 rs')) ∧
    PageOf ldEnv (ldPageP b!"abcdefghijk") rs' b!"abcdefghijk" ∧ entriesOf rs' ≠ [] := by
  have hs : (ldRun ldRecs [] ldOverlap).isSome = true := by decide +kernel
  obtain ⟨s1, e1, e2⟩ := lMoves_arrive [] (ldLeads_eq hs)
  obtain ⟨s2, e3, e4⟩ := lMoves_arrive (ldOverlap.take 10) (post := ldOverlap.drop 11) (ldLeads_eq hs)
  refine ⟨ldLeads ldRecs [] ldOverlap,
    [.entry 9 ⟨b!"uid=ann,ou=people,dc=lg", [⟨b!"cn", [b!"Ann Berg"]⟩]⟩, .searchDone 9 0 (some [.paging 0 b!"abcdefghijk"])],
    [.entry 9 ⟨b!"uid=bob,ou=people,dc=lg", [⟨b!"cn", [b!"Bob Cole", b!"Berg"]⟩]⟩, .searchDone 9 0 (some [.paging 0 b!"abcdefghijk"])],
    _, 7, ldLeads_reach _ _ _, by decide +kernel, ?_, answerAt_get (by decide +kernel), .inl ⟨9, 0, [.paging 0 b!"abcdefghijk"], by simp, by simp⟩, nofun, e4,
    answerAt_get (by decide +kernel), .inl ⟨9, 0, [.paging 0 b!"abcdefghijk"], by simp, by simp⟩, nofun⟩
  cases e1
  exact e2

/-- Both pages are taken, the producer ends, and the cookie is presented once more, on another connection. -/
def ldUsedUp : List (LMove Nat) :=
  [.arrive 0 1 toyOracle (ldPageP []), .go 0, .go 0, .go 0, .go 0, .arrive 0 2 toyOracle (ldPageP b!"abcdefghijk"), .go 0, .go 0, .go 0,
   .produce 0, .produce 0, .produce 0, .arrive 1 3 toyOracle (ldPageP b!"abcdefghijk"), .go 1, .go 1]

/-- A checker for `Abandoned`. -/
def abandonsIn (tr : List (LSeen Nat)) (key : Str) : Bool := tr.any fun e => match e with
  | .io (.arrive _ (.packet _ p _)) => (controlsOf p).any fun q => match ldEnv.control q with
    | .ok (.paging 0 k) => k == key
    | _ => false
  | _ => false

theorem not_abandoned {tr : List (LSeen Nat)} {key : Str} (h : abandonsIn tr key = false) : ¬ Abandoned ldEnv tr key := by
  rintro ⟨id, cn, p, o, h1, q, h2, h3⟩
  have : abandonsIn tr key = true := by
    refine List.any_eq_true.2 ⟨_, h1, List.any_eq_true.2 ⟨q, h2, ?_⟩⟩
    rw [h3]
    simp
  rw [h] at this
  cases this

/-- The last request meets the hypotheses of the part of C86 about refused cookies. -/
example : ∃ (s : LPar Nat) (rs : List Resp) (k n : Nat), LParReach ldEnv ldOrd ldCfg 8 false (fun _ => true) (ldMem ldRecs) (ldMem []) s ∧
    ((cookiesIn s.trace).map (·.2)).count b!"abcdefghijk" ≤ 1 ∧
    s.trace[k]? = some (.io (.arrive 3 (.packet 1 (ldPageP b!"abcdefghijk") toyOracle))) ∧ s.trace[n]? = some (.io (.answer 3 rs)) ∧
    (∀ key', Presents ldEnv (ldPageP b!"abcdefghijk") key' → key' = b!"abcdefghijk") ∧ EndsWith rs rcUnwillingToPerform ∧
    (∃ id', .cookie id' b!"abcdefghijk" ∈ s.trace.take k) ∧ ¬ Abandoned ldEnv (s.trace.take n) b!"abcdefghijk" ∧
    ∀ id', .gaveUp id' ∉ s.trace := by
  have hs : (ldRun ldRecs [] ldUsedUp).isSome = true := by decide +kernel
  obtain ⟨s2, e3, e4⟩ := lMoves_arrive (ldUsedUp.take 12) (post := ldUsedUp.drop 13) (ldLeads_eq hs)
  have hlen : s2.trace.length = 5 := by
    have : ldRun ldRecs [] (ldUsedUp.take 12) = some s2 := e3
    have h5 : (ldRun ldRecs [] (ldUsedUp.take 12)).map (fun s => s.trace.length) = some 5 := by decide +kernel
    rw [this] at h5
    exact Option.some.inj h5
  rw [hlen] at e4
  refine ⟨ldLeads ldRecs [] ldUsedUp, [.searchDone 9 53 (some [])], 5, 6, ldLeads_reach _ _ _, by decide +kernel, e4, answerAt_get (by decide +kernel), ?_,
    ⟨9, some [], by simp [rcUnwillingToPerform]⟩, ?_, not_abandoned (by decide +kernel), ?_⟩
  · rintro key' ⟨q, hq, n, hn⟩
    have : q = wSeq [berInt 1, octet b!"abcdefghijk"] := List.mem_singleton.1 hq
    subst this
    cases hn
    rfl
  · have h : (cookiesIn ((ldLeads ldRecs [] ldUsedUp).trace.take 5)) = [(1, b!"abcdefghijk")] := by decide +kernel
    have h1 : (1, b!"abcdefghijk") ∈ cookiesIn ((ldLeads ldRecs [] ldUsedUp).trace.take 5) := by rw [h]; simp
    obtain ⟨e, he, hee⟩ := List.mem_filterMap.1 h1
    split at hee
    · cases hee; exact ⟨1, he⟩
    · cases hee
  · intro id' hm
    have h : ((ldLeads ldRecs [] ldUsedUp).trace.all fun e => match e with | .gaveUp _ => false | _ => true) = true := by decide +kernel
    have := List.all_eq_true.1 h _ hm
    cases this

end Idm
