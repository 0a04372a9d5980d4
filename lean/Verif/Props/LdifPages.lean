import Verif.Props.LdifParallel
import Verif.Props.LdifPaging
/-!
# C86: the pages of a search are what it would be answered with without paging
-/
namespace Idm

section
variable {ι : Type} [DecidableEq ι] {V : Env} {W : WalkOrd} {cfg : LdifCfg} {g : Nat} {stats : Bool} {loop : Nat → Bool} {m c : LMem}

/-- The entries of a channel are those of the search that made it, with the data in force at a moment since it arrived. -/
def Origin (V : Env) (W : WalkOrd) (cfg : LdifCfg) (g : Nat) (stats : Bool) (loop : Nat → Bool) (m : LMem) (tr : List (LSeen ι)) (x : Chan ι) : Prop :=
  ∃ k cn p o b r fs, tr[k]? = some (.io (.arrive x.owner (.packet cn p o))) ∧ LastBind V.C cn (ios (tr.take k)) b ∧
    Searches V cfg g stats loop cn ⟨x.owner, o, p, b⟩ r fs ∧
    (x.phase ≠ .made → ∃ t, k < t ∧ t ≤ tr.length ∧ x.all = pump V.C W (mainAt m (tr.take t)) (V.C.lower r.baseDN) fs)

theorem Origin.mono {tr l : List (LSeen ι)} {x y : Chan ι} (h : Origin V W cfg g stats loop m tr x) (ho : y.owner = x.owner) (ha : y.all = x.all)
    (hp : y.phase ≠ .made → x.phase ≠ .made) : Origin V W cfg g stats loop m (tr ++ l) y := by
  obtain ⟨k, cn, p, o, b, r, fs, h1, h2, h3, h4⟩ := h
  refine ⟨k, cn, p, o, b, r, fs, by rw [ho]; exact get_app h1, ?_, by rw [ho]; exact h3, fun hy => ?_⟩
  · rwa [take_app (Nat.le_of_lt (List.getElem?_eq_some_iff.1 h1).1)]
  · obtain ⟨t, h5, h6, h7⟩ := h4 (hp hy)
    exact ⟨t, h5, by rw [List.length_append]; omega, by rwa [take_app h6, ha]⟩

theorem origin {s : LPar ι} (h : LParReach V W cfg g stats loop m c s) :
    ∀ (ch : Nat) (x : Chan ι), s.chans[ch]? = some x → Origin V W cfg g stats loop m s.trace x := by
  induction h with
  | start => intro ch x hx; cases hx
  | step s s' hr hs ih =>
    have I := linv hr
    have same : ∀ (l : List (LSeen ι)) (ch : Nat) (x : Chan ι), s.chans[ch]? = some x →
        Origin V W cfg g stats loop m (s.trace ++ l) x := fun l ch x hx => (ih ch x hx).mono rfl rfl fun h => h
    have put : ∀ (i : Nat) (x y : Chan ι) (l : List (LSeen ι)), s.chans[i]? = some x → x.phase ≠ .made → y.owner = x.owner → y.all = x.all →
        ∀ (ch : Nat) (z : Chan ι), (s.chans.set i y)[ch]? = some z → Origin V W cfg g stats loop m (s.trace ++ l) z := by
      intro i x y l hx hp h1 h2 ch z hz
      by_cases e : i = ch
      · subst e
        rw [List.getElem?_set_self (List.getElem?_eq_some_iff.1 hx).1] at hz
        cases hz
        exact (ih i x hx).mono h1 h2 fun _ => hp
      · rw [List.getElem?_set_ne e] at hz
        exact same l ch z hz
    have add : ∀ (c' : Nat) (j : Job ι) (r : SearchReq) (fs : List IdxReq) (ck : Option Str) (l : List (LSeen ι)), (s.conns c').job = some j →
        Searches V cfg g stats loop c' j r fs → ∀ (ch : Nat) (z : Chan ι), (s.chans ++ [Chan.new j.id ck])[ch]? = some z →
        Origin V W cfg g stats loop m (s.trace ++ l) z := by
      intro c' j r fs ck l hj hS ch z hz
      rcases List.mem_append.1 (List.mem_of_getElem? hz) with hm | hm
      · obtain ⟨i, hi⟩ := List.getElem?_of_mem hm
        exact same l i z hi
      · rw [List.mem_singleton] at hm
        subst hm
        obtain ⟨k0, a1, a2, a3⟩ := I.stage c' j hj
        refine ⟨k0, c', j.p, j.o, j.b, r, fs, get_app a1, ?_, hS, fun hzp => absurd rfl hzp⟩
        rwa [take_app (Nat.le_of_lt (List.getElem?_eq_some_iff.1 a1).1)]
    have nil := List.append_nil s.trace
    cases hs with
    | searchPlain c' j bound r fs hd hc hq hp hg =>
      have := add c' j r fs none [] (by rw [hc]; rfl) ⟨_, hq, hp⟩
      rwa [nil] at this
    | searchFirst c' j bound r fs n k hd hc hq hp hg hk => exact add c' j r fs (some k) _ (by rw [hc]; rfl) ⟨_, hq, hp⟩
    | begin c' j r fs k ch x hd hc hch =>
      obtain ⟨k0, a1, a2, a3⟩ := I.stage c' j (by rw [hc]; rfl)
      rw [hc] at a3
      obtain ⟨hS, a3⟩ := a3
      have ho : x.owner = j.id := by
        rcases a3 with ⟨_, _, a3⟩ | ⟨_, _, a3⟩ <;> (rw [hch] at a3; cases a3; rfl)
      intro ch' z hz
      by_cases e : ch = ch'
      · subst e
        rw [List.getElem?_set_self (List.getElem?_eq_some_iff.1 hch).1] at hz
        cases hz
        refine ⟨k0, c', j.p, j.o, j.b, r, fs, ?_, a2, ?_, fun _ => ⟨s.trace.length, (List.getElem?_eq_some_iff.1 a1).1, Nat.le_refl _, ?_⟩⟩
        · show s.trace[k0]? = some (.io (.arrive x.owner _))
          rw [ho]
          exact a1
        · show Searches V cfg g stats loop c' ⟨x.owner, _, _, _⟩ r fs
          rw [ho]
          exact hS
        · rw [List.take_length, ← I.main]
          rfl
      · rw [List.getElem?_set_ne e] at hz
        exact ih ch' z hz
    | hand c' j r k ch con x e es hd hc hch ho ht =>
      have := put ch x { x with todo := es, out := x.out ++ [(j.id, e)] } [] hch (by rw [ho]; simp) rfl rfl
      rwa [nil] at this
    | finish ch x hd hch ho ht =>
      have := put ch x { x with phase := .removing } [] hch (by rw [ho]; simp) rfl rfl
      rwa [nil] at this
    | giveUp ch x hd hch ho ht => exact put ch x { x with phase := .removing, gaveUp := true } _ hch (by rw [ho]; simp) rfl rfl
    | remove ch x hd hch ho =>
      have := put ch x { x with phase := .closing } [] hch (by rw [ho]; simp) rfl rfl
      rwa [nil] at this
    | close ch x hd hch ho =>
      have := put ch x { x with phase := .ended } [] hch (by rw [ho]; simp) rfl rfl
      rwa [nil] at this
    | _ => first | exact ih | exact same _

/-- What was handed over, of the entries that are kept. -/
theorem share_kept {β : Type} (keep : LEntry → Bool) (f : LEntry → β) (out : List (ι × LEntry)) (todo : List LEntry) (id : ι) :
    share ((out.filter fun q => keep q.2).map (·.1)) (((out.map (·.2) ++ todo).filter keep).map f) id =
      ((((out.filter fun p => p.1 = id).map (·.2)).filter keep).map f) := by
  have e : ((out.map (·.2) ++ todo).filter keep).map f =
      ((out.filter fun q => keep q.2).map fun q => (q.1, f q.2)).map (·.2) ++ (todo.filter keep).map f := by
    rw [List.filter_append, List.map_append, List.filter_map, List.map_map, List.map_map]
    rfl
  have e' : (out.filter fun q => keep q.2).map (·.1) = ((out.filter fun q => keep q.2).map fun q => (q.1, f q.2)).map (·.1) := by
    rw [List.map_map]
    rfl
  unfold share
  rw [e, e', zip_out, List.filter_map, List.map_map, List.filter_filter, List.filter_map, List.map_map, List.filter_filter]
  congr 1
  refine List.filter_congr fun q _ => ?_
  simp only [Function.comp, Bool.and_comm]

/-- C86: one search, all its pages. A client asks for the first page of a search and gets a cookie; then any clients ask for further pages with it, on
any connections at the same time, while the files are reloaded. There is one moment since the search arrived such that all the pages are pages of what
the same search without paging would be answered with at that moment (`full`): each entry of it goes to at most one of the requests (`owners` says
which, in their order), each request is answered with the entries that go to it, in their order, and when a request has been told that there are no
more pages, or that the cookie is unknown, all the entries have gone to requests. (Unless the producer gave up; the random cookie was made only once;
the client did not abandon the search.) -/
theorem C86_whole {s : LPar ι} (h : LParReach V W cfg g stats loop m c s) (key : Str) (hne : key ≠ [])
    (hk : ((cookiesIn s.trace).map (·.2)).count key ≤ 1)
    (b : Str) (scope : Nat) (w : Packet) (attrs : List Str) {k₀ : Nat} {first : ι} {cn₀ : Nat} {mid₀ : Int} {ctl : Packet} {o₀ : Oracle}
    (harr : s.trace[k₀]? = some (.io (.arrive first (.packet cn₀ (wMsgC mid₀ (wSearch b scope 0 w attrs) [ctl]) o₀))))
    (hmade : .cookie first key ∈ s.trace) :
    ∃ bound t, LastBind V.C cn₀ (ios (s.trace.take k₀)) bound ∧ k₀ < t ∧ t ≤ s.trace.length ∧
      ∀ (full : List Entry) (mid : Int) (o : Oracle) (st : LdifSt), st.main = mainAt m (s.trace.take t) →
        (handlePacket V (ldifSrv V W { cfg with loopback := loop cn₀ } g stats) o (wMsg mid (wSearch b scope 0 w attrs)) bound st).resps =
          full.map (.entry mid) ++ [.searchDone mid 0 (some [])] →
        ∃ owners : List ι, owners.length ≤ full.length ∧
          ∀ (k n : Nat) id cn mid' ctl' o' rs, s.trace[k]? = some (.io (.arrive id (.packet cn (wMsgC mid' (wSearch b scope 0 w attrs) [ctl']) o'))) →
            s.trace[n]? = some (.io (.answer id rs)) →
            (PageOf V (wMsgC mid' (wSearch b scope 0 w attrs) [ctl']) rs key → entriesOf rs = share owners full id ∧
              (GivesCookie rs [] → .gaveUp first ∉ s.trace → owners.length = full.length)) ∧
            ((∃ n', V.control ctl' = .ok (.paging n' key)) → EndsWith rs rcUnwillingToPerform → .cookie first key ∈ s.trace.take k →
              ¬ Abandoned V (s.trace.take n) key → .gaveUp first ∉ s.trace → owners.length = full.length) := by
  have I := linv h
  have hck := cookies_inv h
  have hk' : (s.chans.filterMap (·.cookie)).count key ≤ 1 := by
    rw [← hck, List.map_filterMap] at hk
    have : (fun x : Chan ι => Option.map (·.2) (x.cookie.map fun k => (x.owner, k))) = (·.cookie) := by
      funext x
      cases x.cookie <;> rfl
    rw [this] at hk
    exact hk
  -- the channel of the search
  have hm : (first, key) ∈ s.chans.filterMap (fun x => x.cookie.map fun k => (x.owner, k)) := by
    rw [hck]
    exact List.mem_filterMap.2 ⟨_, hmade, rfl⟩
  obtain ⟨x, hxm, hx2⟩ := List.mem_filterMap.1 hm
  obtain ⟨ch, hx⟩ := List.getElem?_of_mem hxm
  obtain ⟨_, hxk, he⟩ := Option.map_eq_some_iff.1 hx2
  cases he
  have only : ∀ {ch' : Nat} {x' : Chan ι}, s.chans[ch']? = some x' → x'.cookie = some key → x' = x := by
    intro ch' x' e1 e2
    have : ch' = ch := one_index (·.cookie) key s.chans hk' e1 hx e2 hxk
    subst this
    rw [hx] at e1
    cases e1
    rfl
  have hmsg : ∀ {mid mid' : Int} {req req' : Packet} {cs : List Packet}, Message (wMsgC mid req cs) mid' req' → mid' = mid ∧ req' = req := by
    rintro mid mid' req req' cs ⟨m, more, h1, h2, -⟩
    cases h1
    cases h2
    exact ⟨rfl, rfl⟩
  obtain ⟨k, cn, p, o, bd, r, fs, g1, g2, g3, g4⟩ := origin h ch x hx
  have := I.once _ _ _ _ _ harr g1
  subst this
  rw [harr] at g1
  cases g1
  have hpage := page_chan h hne
  have href := page_refusal h (key := key)
  have honly : ∀ {mid' : Int} {ctl' : Packet} {n' : Nat} {key' : Str}, V.control ctl' = .ok (.paging n' key) →
      Presents V (wMsgC mid' (wSearch b scope 0 w attrs) [ctl']) key' → key' = key := by
    rintro mid' ctl' n' key' h1 ⟨q, hq, n, h2⟩
    have hq' : q ∈ [ctl'] := hq
    rw [List.mem_singleton] at hq'
    subst hq'
    rw [h1] at h2
    cases h2
    rfl
  by_cases hph : x.phase = .made
  · refine ⟨bd, k₀ + 1, g2, by omega, (List.getElem?_eq_some_iff.1 harr).1, fun full mid o st hst hfull => ⟨[], by simp, ?_⟩⟩
    intro k n id cn mid' ctl' o' rs ha hr
    refine ⟨fun hof => ?_, ?_⟩
    · obtain ⟨mid, req, r, fp, ch', x', last, q1, q2, q3, q4, q5, q6, -⟩ := hpage k n id cn _ o' rs ha hr hof
      rw [only q4 q5] at q6
      exact absurd hph q6
    · rintro ⟨n', hn'⟩ he hmd hab -
      obtain ⟨ch', x', e1, e2, e3, -⟩ := href k n id cn _ o' rs ha hr (fun key' => honly hn') he ⟨_, hmd⟩ hab
      rw [only e1 e2] at e3
      exact absurd hph e3
  · obtain ⟨t, g4, g5, g6⟩ := g4 hph
    refine ⟨bd, t, g2, g4, g5, fun full mid o st hst hfull => ?_⟩
    obtain ⟨sf, fs', fp, u1, u2, u3, u4, u5, u6⟩ := unpaged_ok hfull
    obtain ⟨p1, p2, -⟩ := g3.plan
    obtain ⟨bound', hcall, hplan⟩ := g3
    obtain ⟨rfl, mid1, req1, m1, m2, m3, m4⟩ := ldifCall_search hcall
    obtain ⟨rfl, rfl⟩ := hmsg m1
    have hparse : ∀ {r : SearchReq}, parseSearchRequest (wSearch b scope 0 w attrs) r.controls = some r → r = rqOf b scope sf attrs r.controls := by
      intro r hr
      rw [wSearch_parse, u1] at hr
      exact (Option.some.inj hr).symm
    have hr1 := hparse m3
    have e1 : r.filter = sf := by rw [hr1]
    have e2 : r.baseDN = b := by rw [hr1]
    rw [e1, u2] at p1
    cases p1
    rw [e2] at g6
    have hX := I.chan ch x hx
    have hsum := hX.sum
    have hfull' : full = ((x.out.map (·.2) ++ x.todo).filter (kept V.C fp (rqOf b scope sf attrs []))).map
        fun y => filterAttributes V.C attrs y.visible := by
      rw [u6, hst, hsum, g6]
      rfl
    have hsh := fun id => share_kept (kept V.C fp (rqOf b scope sf attrs [])) (fun y => filterAttributes V.C attrs y.visible) x.out x.todo id
    rw [← hfull'] at hsh
    have hall : (x.todo = [] ∨ .gaveUp x.owner ∈ s.trace) → .gaveUp x.owner ∉ s.trace →
        ((x.out.filter fun q => kept V.C fp (rqOf b scope sf attrs []) q.2).map (·.1)).length = full.length := by
      intro h1 h2
      rcases h1 with h1 | h1
      · rw [hfull', h1, List.append_nil, List.filter_map, List.length_map, List.length_map, List.length_map]
        rfl
      · exact absurd h1 h2
    refine ⟨(x.out.filter fun q => kept V.C fp (rqOf b scope sf attrs []) q.2).map (·.1), ?_, ?_⟩
    · rw [hfull', List.filter_append, List.map_append, List.filter_map, List.length_append, List.length_map, List.length_map, List.length_map]
      exact Nat.le_add_right _ _
    intro k n id cn mid' ctl' o' rs ha hr
    refine ⟨fun hof => ?_, ?_⟩
    · obtain ⟨mid2, req2, r2, fp2, ch', x', last, q1, q2, q3, q4, q5, q6, q7, q8, q9⟩ := hpage k n id cn _ o' rs ha hr hof
      have := only q4 q5
      subst this
      obtain ⟨rfl, rfl⟩ := hmsg q1
      have hr2 := hparse q2
      have e3 : r2.filter = sf := by rw [hr2]
      rw [e3, u3] at q3
      cases q3
      refine ⟨?_, fun hl hg => hall (q9 (q8 hl)) hg⟩
      rw [hsh id, q7, hr2]
      rfl
    · rintro ⟨n', hn'⟩ he hmd hab hg
      obtain ⟨ch', x', e1, e2, e3, e4⟩ := href k n id cn _ o' rs ha hr (fun key' => honly hn') he ⟨_, hmd⟩ hab
      have := only e1 e2
      subst this
      refine hall (e4.imp_left fun hl => ?_) hg
      have := congrArg List.length hsum
      rw [List.length_append, List.length_map] at this
      exact List.eq_nil_of_length_eq_zero (by omega)

end

/-- A client takes the two pages of a search and the cookie is presented once more: the hypotheses are met, and without paging the search is answered
with two entries. -/
example : ∃ (s : LPar Nat) (rs rs' : List Resp), LParReach ldEnv ldOrd ldCfg 8 false (fun _ => true) (ldMem ldRecs) (ldMem []) s ∧
    ((cookiesIn s.trace).map (·.2)).count b!"abcdefghijk" ≤ 1 ∧
    s.trace[0]? = some (.io (.arrive 1 (.packet 0 (wMsgC 9 (wSearch b!"dc=lg" 2 0 (ctxStr 7 b!"cn") [b!"cn"]) [wSeq [berInt 1, octet []]]) toyOracle))) ∧
    .cookie 1 b!"abcdefghijk" ∈ s.trace ∧ s.trace[2]? = some (.io (.answer 1 rs)) ∧ PageOf ldEnv (ldPageP []) rs b!"abcdefghijk" ∧ entriesOf rs ≠ [] ∧
    s.trace[6]? = some (.io (.answer 3 rs')) ∧ EndsWith rs' rcUnwillingToPerform ∧
    ∀ t, ∃ full : List Entry, full.length = 2 ∧
      (handlePacket ldEnv ldSrv toyOracle (wMsg 9 (wSearch b!"dc=lg" 2 0 (ctxStr 7 b!"cn") [b!"cn"])) []
        { ldStart [] with main := mainAt (ldMem ldRecs) (s.trace.take t) }).resps = full.map (.entry 9) ++ [.searchDone 9 0 (some [])] := by
  have hs : (ldRun ldRecs [] ldUsedUp).isSome = true := by decide +kernel
  obtain ⟨s1, e1, e2⟩ := lMoves_arrive [] (ldLeads_eq hs)
  refine ⟨ldLeads ldRecs [] ldUsedUp,
    [.entry 9 ⟨b!"uid=ann,ou=people,dc=lg", [⟨b!"cn", [b!"Ann Berg"]⟩]⟩, .searchDone 9 0 (some [.paging 0 b!"abcdefghijk"])],
    [.searchDone 9 53 (some [])], ldLeads_reach _ _ _, by decide +kernel, ?_, ?_, answerAt_get (by decide +kernel),
    .inl ⟨9, 0, [.paging 0 b!"abcdefghijk"], by simp, by simp⟩, nofun, answerAt_get (by decide +kernel), ⟨9, some [], by simp [rcUnwillingToPerform]⟩, fun t => ?_⟩
  · cases e1; exact e2
  · have h : (cookiesIn (ldLeads ldRecs [] ldUsedUp).trace) = [(1, b!"abcdefghijk")] := by decide +kernel
    have h1 : (1, b!"abcdefghijk") ∈ cookiesIn (ldLeads ldRecs [] ldUsedUp).trace := by rw [h]; simp
    obtain ⟨e, he, hee⟩ := List.mem_filterMap.1 h1
    split at hee
    · cases hee; exact he
    · cases hee
  · have hl : (ldLeads ldRecs [] ldUsedUp).trace.length = 7 := by decide +kernel
    refine ⟨[⟨b!"uid=ann,ou=people,dc=lg", [⟨b!"cn", [b!"Ann Berg"]⟩]⟩, ⟨b!"uid=bob,ou=people,dc=lg", [⟨b!"cn", [b!"Bob Cole", b!"Berg"]⟩]⟩], rfl, ?_⟩
    have key : ∀ t, t < 8 → (handlePacket ldEnv ldSrv toyOracle (wMsg 9 (wSearch b!"dc=lg" 2 0 (ctxStr 7 b!"cn") [b!"cn"])) []
        { ldStart [] with main := mainAt (ldMem ldRecs) ((ldLeads ldRecs [] ldUsedUp).trace.take t) }).resps =
        [⟨b!"uid=ann,ou=people,dc=lg", [⟨b!"cn", [b!"Ann Berg"]⟩]⟩, ⟨b!"uid=bob,ou=people,dc=lg", [⟨b!"cn", [b!"Bob Cole", b!"Berg"]⟩]⟩].map (.entry 9) ++
          [.searchDone 9 0 (some [])] := by decide +kernel
    by_cases ht : t < 8
    · exact key t ht
    · have e : (ldLeads ldRecs [] ldUsedUp).trace.take t = (ldLeads ldRecs [] ldUsedUp).trace.take 7 := by
        rw [List.take_of_length_le (by omega), List.take_of_length_le (by omega)]
      rw [e]
      exact key 7 (by omega)

end Idm
