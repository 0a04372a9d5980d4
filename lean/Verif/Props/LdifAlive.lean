import Verif.Proofs.LdifCalm
import Verif.Spec.LdifAlive
import Verif.Props.LdifParallel
/-!
# C87: the LDIF server with overlapping requests stays alive and answers
-/
namespace Idm

section
variable {V : Env}

theorem parse_filter {req : Packet} {controls : List Control} {r : SearchReq} (hp : parseSearchRequest req controls = some r) :
    ∃ f, req.kids[6]? = some f ∧ decompile f = some r.filter := by
  unfold parseSearchRequest at hp
  split at hp
  · rename_i hk
    simp only [Option.bind_eq_bind, Option.bind_eq_some_iff] at hp
    obtain ⟨_, -, _, -, _, -, _, -, _, -, hp⟩ := hp
    split at hp
    all_goals
      simp only [Option.bind_eq_some_iff] at hp
      obtain ⟨_, -, t, ht, _, -, e⟩ := hp
      cases e
      exact ⟨_, by rw [hk]; rfl, ht⟩
  · cases hp

theorem bindCode_not_hang (e : LEntry) (pw : Str) : ldifBindCode (ldifValidate V e pw) ≠ .hang := by
  unfold ldifValidate
  split
  · nofun
  · nofun
  · rename_i x _ _
    have := validatePw_not_hang (C := V.C) V.K pw x
    cases h : validatePw V.C V.K pw x with
    | hang => exact absurd h this
    | ok b => cases b <;> nofun
    | _ => nofun

theorem mainLook_not_hang (cfg : LdifCfg) (m : LMem) (dn pw : Str) : mainLook V cfg m dn pw ≠ .hang := by
  unfold mainLook
  dsimp only
  repeat' split
  all_goals first | exact bindCode_not_hang _ _ | nofun

theorem bindAns_not_hang (cfg : LdifCfg) (conf main : LMem) (dn pw : Str) : bindAns V cfg conf main dn pw ≠ .hang := by
  unfold bindAns
  split
  · cases h : confLook V cfg conf dn pw with
    | none => exact mainLook_not_hang _ _ _ _
    | some x =>
      unfold confLook at h
      dsimp only at h
      repeat' split at h
      all_goals first | (cases h; done) | (cases h; first | exact bindCode_not_hang _ _ | nofun)
  · exact mainLook_not_hang _ _ _ _
end

section
variable {ι : Type} [DecidableEq ι] {V : Env} {W : WalkOrd} {cfg : LdifCfg} {g : Nat} {stats : Bool} {loop : Nat → Bool} {m0 c0 : LMem}

theorem pageReply_safe (r : SearchReq) (k : Str) (last : Bool) {res : Res (List Entry × Nat)} (h : ∃ y, res = .ok y) :
    ∃ sr, pageReply r k last res = .ok sr := (pageReply_calm r k last).1 h

/-- What the handler may return. -/
theorem rep_calm {tr : List (LSeen ι)} {chans : List (Chan ι)} {N k c : Nat} {j : Job ι} {rep : LRep}
    (h : RepOk V W cfg g stats loop m0 c0 tr chans N k c j rep) :
    (∀ bound r, ldifCall V g stats j.o j.p j.b = some (.search bound r) → (rep.toSearch = .panic ∨ ∃ e, rep.toSearch = .err e) →
      ∃ fp, compile r.filter = some fp ∧ EmptySub fp) ∧ rep.toBind ≠ .hang ∧ rep.toSearch ≠ .hang := by
  unfold RepOk at h
  split at h
  · rename_i hq
    subst h
    exact ⟨fun bound r h => (by rw [hq] at h; cases h), nofun, nofun⟩
  · rename_i dn pw hq
    obtain ⟨i, i', -, -, -, rfl⟩ := h
    exact ⟨fun bound r h => (by rw [hq] at h; cases h), bindAns_not_hang _ _ _ _ _, nofun⟩
  · rename_i bound r hq
    have fine : ∀ sr, rep = .search (.ok sr) → (∀ bound' r', ldifCall V g stats j.o j.p j.b = some (.search bound' r') →
        (rep.toSearch = .panic ∨ ∃ e, rep.toSearch = .err e) → ∃ fp, compile r'.filter = some fp ∧ EmptySub fp) ∧ rep.toBind ≠ .hang ∧ rep.toSearch ≠ .hang := by
      rintro sr rfl
      exact ⟨fun _ _ _ h => (by rcases h with h | ⟨e, h⟩ <;> cases h), nofun, nofun⟩
    split at h
    · rename_i x hp
      obtain ⟨sr, rfl⟩ := searchPlan_calm hp
      exact fine sr h
    · rcases h with ⟨-, h⟩ | ⟨-, h⟩ | ⟨ch, x, ck, fp, -, -, hf, -, h⟩
      · exact fine _ h
      · exact fine _ h
      · rcases h with ⟨l, e, con, res, -, h1, h2, h3⟩ | ⟨con, -, -, -, h3⟩
        · have hfp : con.fp = fp := by rw [eatAll_kept _ _ _ h1]; rfl
          have hs : ShapeF con.fp := by rw [hfp]; exact compile_shape hf
          rcases eat_calm hs h2 with hy | ⟨rfl, he⟩
          · obtain ⟨sr, e⟩ := pageReply_safe r ck false hy
            exact fine sr (by rw [h3, e])
          · subst h3
            refine ⟨fun bound' r' hq' _ => ?_, nofun, nofun⟩
            rw [hq] at hq'
            cases hq'
            exact ⟨fp, hf, by rw [← hfp]; exact he⟩
        · obtain ⟨sr, e⟩ := pageReply_safe r ck true (res := ldifFin con) ⟨_, rfl⟩
          exact fine sr (by rw [h3, e])

/-- How a request ends when the handler has returned. -/
theorem returned_calm {tr : List (LSeen ι)} {chans : List (Chan ι)} {N k c : Nat} {j : Job ι} {rep : LRep}
    (h : RepOk V W cfg g stats loop m0 c0 tr chans N k c j rep) (ho : ∀ i k, j.o.rnd i = some k → k < 74) :
    ((ldifEnd V g stats j.o j.p j.b rep).2 = .crash → LdifCrash V j.p j.b) ∧
    ((ldifEnd V g stats j.o j.p j.b rep).2 = .hang → LdifBlock V stats j.p) := by
  obtain ⟨h1, h2, h3⟩ := rep_calm h
  obtain ⟨e1, e2⟩ := end_calm (V := V) (g := g) (stats := stats) rep j.o ho j.p j.b
  refine ⟨fun hc => ?_, fun hc => ?_⟩
  · rcases e1 hc with ⟨q, q1, q2⟩ | ⟨id, req, l, c, q1, q2, q3, q4, q5, q6⟩ | ⟨q1, r, q2⟩
    · exact .control q q1 q2
    · exact .change id req l c q1 q2 q3 q4 q5 q6
    · obtain ⟨fp, f1, f2⟩ := h1 _ _ q2 q1
      obtain ⟨-, id, req, p1, p2, p3, -⟩ := ldifCall_search q2
      obtain ⟨f, f3, f4⟩ := parse_filter p3
      exact .substring id req f fp r.filter p1 p2 f3 f4 f1 f2
  · rcases e2 hc with ⟨q, q1, q2⟩ | ⟨q1, id, req, q2, q3⟩ | q | q
    · exact .control q q1 q2
    · exact .add id req q1 q2 q3
    · exact absurd q h2
    · exact absurd q h3

/-- C87, crashes: whatever requests overlap in whatever way, the server ends in a crash only if a client sent a packet with one of the listed
contents: a control that the LDAP library panics on, a modify request of a bound client with an incomplete change, or a search with an empty
substring filter. Missing from the full claim that nothing a client sends ends the server: these packets do. -/
theorem C87_crash_causes_partial {s : LPar ι} (h : LParReach V W cfg g stats loop m0 c0 s)
    (ho : ∀ id c p o, .io (.arrive id (.packet c p o)) ∈ s.trace → ∀ i k, o.rnd i = some k → k < 74) (hd : s.down = true) :
    ∃ (k : Nat) (id : ι) (c : Nat) (p : Packet) (o : Oracle) (b : Str), s.trace[k]? = some (.io (.arrive id (.packet c p o))) ∧
      LastBind V.C c (ios (s.trace.take k)) b ∧ LdifCrash V p b := by
  cases h with
  | start => cases hd
  | step s1 _ h1 h2 =>
    have I := linv h1
    cases h2 with
    | crash c j rep hd' h hn =>
      obtain ⟨k, k1, k2, k3⟩ := I.stage c j (by rw [h]; rfl)
      rw [h] at k3
      have hk : k ≤ s1.trace.length := Nat.le_of_lt (List.getElem?_eq_some_iff.1 k1).1
      exact ⟨k, j.id, c, j.p, j.o, j.b, get_app k1, by rw [take_app hk]; exact k2,
        (returned_calm k3 (ho _ _ _ _ (List.mem_append_left _ (List.mem_of_getElem? k1)))).1 hn⟩
    | _ => simp_all

/-- A step that starts no producer and makes no channel. -/
theorem made_keep {s s' : LPar ι} (h : ∀ (ch : Nat) x, s.chans[ch]? = some x → x.phase = .made → ∃ c j r fs k, s.conns c = .starting j r fs k ch)
    (hch : ∀ (ch : Nat) x, s'.chans[ch]? = some x → x.phase = .made → ∃ y, s.chans[ch]? = some y ∧ y.phase = .made)
    (hc : ∀ c j r fs k ch, s.conns c = .starting j r fs k ch → s'.conns c = s.conns c) :
    ∀ (ch : Nat) x, s'.chans[ch]? = some x → x.phase = .made → ∃ c j r fs k, s'.conns c = .starting j r fs k ch := by
  intro ch x hx hp
  obtain ⟨y, hy, hq⟩ := hch ch x hx hp
  obtain ⟨c, j, r, fs, k, e⟩ := h ch y hy hq
  exact ⟨c, j, r, fs, k, by rw [hc c j r fs k ch e, e]⟩

theorem conns_keep {f : Nat → LStage ι} {c : Nat} {st : LStage ι} (h : f c = st) (hn : ∀ j r fs k ch, st ≠ .starting j r fs k ch) (y : LStage ι) :
    ∀ d j r fs k ch, f d = .starting j r fs k ch → setLStage f c y d = f d := by
  intro d j r fs k ch hd
  refine setLStage_ne f ?_ y
  rintro rfl
  exact hn j r fs k ch (h ▸ hd)

theorem made_set {l : List (Chan ι)} {i : Nat} {y : Chan ι} (hy : y.phase ≠ .made) :
    ∀ (ch : Nat) x, (l.set i y)[ch]? = some x → x.phase = .made → l[ch]? = some x ∧ ch ≠ i := by
  intro ch x hx hp
  by_cases he : i = ch
  · subst he
    rw [List.getElem?_set] at hx
    split at hx
    · split at hx
      · cases hx; exact absurd hp hy
      · cases hx
    · exact absurd rfl ‹_›
  · rw [List.getElem?_set_ne he] at hx
    exact ⟨hx, fun e => he e.symm⟩

/-- A channel whose producer is not started belongs to a request that is about to start it. -/
theorem made_inv {s : LPar ι} (h : LParReach V W cfg g stats loop m0 c0 s) :
    ∀ (ch : Nat) x, s.chans[ch]? = some x → x.phase = .made → ∃ c j r fs k, s.conns c = .starting j r fs k ch := by
  induction h with
  | start => intro ch x hx; cases hx
  | step s s' hr hs ih =>
    have same : ∀ (ch : Nat) x, s.chans[ch]? = some x → x.phase = .made → ∃ y, s.chans[ch]? = some y ∧ y.phase = .made := fun ch x h1 h2 => ⟨x, h1, h2⟩
    have new : ∀ (id : ι) (ck : Option Str) (c : Nat) (j : Job ι) (r : SearchReq) (fs : List IdxReq) (k : Str) (st : LStage ι), s.conns c = st →
        (∀ j r fs k ch, st ≠ .starting j r fs k ch) →
        ∀ (ch : Nat) x, (s.chans ++ [Chan.new id ck])[ch]? = some x → x.phase = .made →
          ∃ c' j' r' fs' k', setLStage s.conns c (.starting j r fs k s.chans.length) c' = .starting j' r' fs' k' ch := by
      intro id ck c j r fs k st hst hn ch x hx hp
      rcases Nat.lt_or_ge ch s.chans.length with hl | hl
      · rw [List.getElem?_append_left hl] at hx
        obtain ⟨c', j', r', fs', k', e⟩ := ih ch x hx hp
        exact ⟨c', j', r', fs', k', by rw [conns_keep hst hn _ c' j' r' fs' k' ch e, e]⟩
      · have : ch = s.chans.length := by
          have := (List.getElem?_eq_some_iff.1 hx).1
          simp at this
          omega
        subst this
        exact ⟨c, j, r, fs, k, setLStage_self _ _ _⟩
    cases hs with
    | arrive c b id o p hd h hnew => exact made_keep ih same (conns_keep h nofun _)
    | eof c b id hd h hnew => exact made_keep ih same (conns_keep h nofun _)
    | direct c j hd h hq => exact made_keep ih same (conns_keep h nofun _)
    | bindConf c j dn pw hd h hq hc => exact made_keep ih same (conns_keep h nofun _)
    | bindPlain c j dn pw hd h hq hc => exact made_keep ih same (conns_keep h nofun _)
    | bindMain c j dn pw hd h => exact made_keep ih same (conns_keep h nofun _)
    | searchRefused c j bound r x hd h hq hp => exact made_keep ih same (conns_keep h nofun _)
    | searchPlain c j bound r fs hd h hq hp hg => exact new _ _ c j r fs [] _ h nofun
    | searchFirst c j bound r fs n k hd h hq hp hg hk => exact new _ _ c j r fs k _ h nofun
    | searchUnknown c j bound r fs n k hd h hq hp hg hk hr => exact made_keep ih same (conns_keep h nofun _)
    | searchNext c j bound r fs n k ch hd h hq hp hg hk hr hn => exact made_keep ih same (conns_keep h nofun _)
    | searchAbandon c j bound r fs k ch hd h hq hp hg hk hr => exact made_keep ih same (conns_keep h nofun _)
    | drop c j r k hd h => exact made_keep ih same (conns_keep h nofun _)
    | begin c j r fs k ch x hd h hch =>
      intro ch' x' hx' hp'
      obtain ⟨h1, h2⟩ := made_set (by simp [Chan.begin]) ch' x' hx' hp'
      obtain ⟨c', j', r', fs', k', e⟩ := ih ch' x' h1 hp'
      refine ⟨c', j', r', fs', k', ?_⟩
      rw [← e]
      refine setLStage_ne _ ?_ _
      rintro rfl
      rw [h] at e
      cases e
      exact h2 rfl
    | hand c j r k ch con x e es hd h hch ho ht =>
      exact made_keep ih (fun ch' x' a b => ⟨x', (made_set (by simp [ho]) ch' x' a b).1, b⟩) (conns_keep h nofun _)
    | closed c j r k ch con x hd h hch ho => exact made_keep ih same (conns_keep h nofun _)
    | finish ch x hd hch ho ht => exact made_keep ih (fun ch' x' a b => ⟨x', (made_set (by simp) ch' x' a b).1, b⟩) (fun _ _ _ _ _ _ _ => rfl)
    | giveUp ch x hd hch ho ht => exact made_keep ih (fun ch' x' a b => ⟨x', (made_set (by simp) ch' x' a b).1, b⟩) (fun _ _ _ _ _ _ _ => rfl)
    | remove ch x hd hch ho => exact made_keep ih (fun ch' x' a b => ⟨x', (made_set (by simp) ch' x' a b).1, b⟩) (fun _ _ _ _ _ _ _ => rfl)
    | close ch x hd hch ho => exact made_keep ih (fun ch' x' a b => ⟨x', (made_set (by simp) ch' x' a b).1, b⟩) (fun _ _ _ _ _ _ _ => rfl)
    | reloadConf recs m hd hc hr hm => exact ih
    | reloadMain recs m hd hr hm => exact ih
    | reloadFail recs hd hr hm => exact ih
    | goOn c j rep b' hd h hn => exact made_keep ih same (conns_keep h nofun _)
    | hangUp c j rep hd h hn => exact made_keep ih same (conns_keep h nofun _)
    | lost c j rep k hd h hk => exact made_keep ih same (conns_keep h nofun _)
    | block c j rep hd h hn => exact made_keep ih same (conns_keep h nofun _)
    | crash c j rep hd h hn => exact ih

/-- The request is a search that presents a cookie and asks for no entries. -/
def Abandons (V : Env) (g : Nat) (stats : Bool) (j : Job ι) : Prop :=
  ∃ bound r k, ldifCall V g stats j.o j.p j.b = some (.search bound r) ∧ pagingOf r = some (0, k) ∧ k ≠ []

/-- Nothing to show for the stage, or the request abandons a search. -/
def NilOk (V : Env) (g : Nat) (stats : Bool) : LStage ι → Prop
  | .stuck j => Abandons V g stats j
  | .dropping j _ _ => Abandons V g stats j
  | _ => True

theorem NilOk.set {f : Nat → LStage ι} (h : ∀ c, NilOk V g stats (f c)) {y : LStage ι} (hy : NilOk V g stats y) (c : Nat) :
    ∀ d, NilOk V g stats (setLStage f c y d) := by
  intro d
  by_cases hd : d = c
  · subst hd; rw [setLStage_self]; exact hy
  · rw [setLStage_ne f hd]; exact h d

theorem nilOk_loop (j : Job ι) (r : SearchReq) (k : Str) (ch : Nat) : NilOk V g stats (enterLoop j r k ch) := by
  unfold enterLoop; split <;> trivial

/-- Only requests that abandon a search come to the nil channel. -/
theorem nil_inv {s : LPar ι} (h : LParReach V W cfg g stats loop m0 c0 s) : ∀ c, NilOk V g stats (s.conns c) := by
  induction h with
  | start => intro c; trivial
  | step s s' hr hs ih =>
    cases hs with
    | bindConf c j dn pw hd h hq hc => exact NilOk.set ih (by split <;> trivial) _
    | searchNext c j bound r fs n k ch hd h hq hp hg hk hr hn => exact NilOk.set ih (nilOk_loop ..) _
    | searchAbandon c j bound r fs k ch hd h hq hp hg hk hr => exact NilOk.set ih (y := .dropping j r k) ⟨bound, r, k, hq, hg, hk⟩ _
    | drop c j r k hd h =>
      have := ih c
      rw [h] at this
      refine NilOk.set ih ?_ _
      unfold enterNil
      split
      · trivial
      · exact this
    | begin c j r fs k ch x hd h hch => exact NilOk.set ih (nilOk_loop ..) _
    | hand c j r k ch con x e es hd h hch ho ht => exact NilOk.set ih (by unfold takeEntry; split <;> trivial) _
    | finish ch x hd hch ho ht => exact ih
    | giveUp ch x hd hch ho ht => exact ih
    | remove ch x hd hch ho => exact ih
    | close ch x hd hch ho => exact ih
    | reloadConf recs m hd hc hr hm => exact ih
    | reloadMain recs m hd hr hm => exact ih
    | reloadFail recs hd hr hm => exact ih
    | crash c j rep hd h hn => exact ih
    | _ => refine NilOk.set ih ?_ _; trivial

theorem abandon_block {j : Job ι} (h : Abandons V g stats j) : LdifBlock V stats j.p := by
  obtain ⟨bound, r, k, h1, h2, h3⟩ := h
  obtain ⟨-, id, req, p1, p2, -, p4⟩ := ldifCall_search h1
  obtain ⟨q, q1, q2⟩ := decodeControls_mem _ _ p4 _ (pagingOf_mem h2)
  exact .abandon id req q k p1 p2 q1 q2 h3

/-! ## Every request can be answered -/

theorem LAnswerable.before {s s1 : LPar ι} {id : ι} (h : LParStep V W cfg g stats loop s s1) (ht : s1.trace = s.trace)
    (ha : LAnswerable V W cfg g stats loop s1 id) : LAnswerable V W cfg g stats loop s id := by
  obtain ⟨s', rs, l, h1, h2, h3⟩ := ha
  exact ⟨s', rs, l, .step _ _ _ h h1, by rw [h2, ht], h3⟩

/-- The handler has returned. -/
theorem answer_returned {s : LPar ι} (h : LParReach V W cfg g stats loop m0 c0 s) (hd : s.down = false) {c : Nat} {j : Job ι} {rep : LRep}
    (hc : s.conns c = .returned j rep) (ho : ∀ i k, j.o.rnd i = some k → k < 74) (h1 : ¬ LdifCrash V j.p j.b) (h2 : ¬ LdifBlock V stats j.p) :
    ∃ s' rs, LParSteps V W cfg g stats loop s s' ∧ s'.trace = s.trace ++ [.io (.answer j.id rs)] := by
  obtain ⟨k, -, -, k3⟩ := (linv h).stage c j (by rw [hc]; rfl)
  rw [hc] at k3
  have hr := returned_calm k3 ho
  cases he : (ldifEnd V g stats j.o j.p j.b rep).2 with
  | go b' => exact ⟨_, _, .step _ _ _ (.goOn _ _ _ _ _ hd hc he) (.refl _), rfl⟩
  | closed => exact ⟨_, _, .step _ _ _ (.hangUp _ _ _ _ hd hc he) (.refl _), rfl⟩
  | hang => exact absurd (hr.2 he) h2
  | crash => exact absurd (hr.1 he) h1

/-- How far a producer is from having ended. -/
def Chan.rank (x : Chan ι) : Nat := match x.phase with
  | .made => 0
  | .offering => x.todo.length + 3
  | .removing => 2
  | .closing => 1
  | .ended => 0

/-- The answer comes with nothing else. -/
def Soon (V : Env) (W : WalkOrd) (cfg : LdifCfg) (g : Nat) (stats : Bool) (loop : Nat → Bool) (s : LPar ι) (id : ι) : Prop :=
  ∃ s' rs, LParSteps V W cfg g stats loop s s' ∧ s'.trace = s.trace ++ [.io (.answer id rs)]

theorem Soon.before {s s1 : LPar ι} {id : ι} (h : LParStep V W cfg g stats loop s s1) (ht : s1.trace = s.trace)
    (ha : Soon V W cfg g stats loop s1 id) : Soon V W cfg g stats loop s id := by
  obtain ⟨s', rs, h1, h2⟩ := ha
  exact ⟨s', rs, .step _ _ _ h h1, by rw [h2, ht]⟩

variable {j : Job ι} (ho : ∀ i k, j.o.rnd i = some k → k < 74) (h1 : ¬ LdifCrash V j.p j.b) (h2 : ¬ LdifBlock V stats j.p)
include ho h1 h2

/-- In the loop, with a producer that was started. -/
theorem soon_receiving (n : Nat) : ∀ {s : LPar ι} (_ : LParReach V W cfg g stats loop m0 c0 s) (_ : s.down = false) {c : Nat} {r : SearchReq} {k : Str}
    {ch : Nat} {con : LdifCon} {x : Chan ι}, s.conns c = .receiving j r k ch con → s.chans[ch]? = some x → x.phase ≠ .made → x.rank ≤ n →
    Soon V W cfg g stats loop s j.id := by
  induction n with
  | zero =>
    intro s h hd c r k ch con x hc hx hp hn
    cases hph : x.phase with
    | made => exact absurd hph hp
    | ended =>
      have st : LParStep V W cfg g stats loop s _ := .closed _ _ _ _ _ _ _ _ hd hc hx hph
      refine Soon.before st rfl ?_
      exact answer_returned (.step _ _ h st) hd (setLStage_self _ _ _) ho h1 h2
    | _ => simp [Chan.rank, hph] at hn
  | succ n ih =>
    intro s h hd c r k ch con x hc hx hp hn
    have hlt := (List.getElem?_eq_some_iff.1 hx).1
    cases hph : x.phase with
    | made => exact absurd hph hp
    | ended =>
      have st : LParStep V W cfg g stats loop s _ := .closed _ _ _ _ _ _ _ _ hd hc hx hph
      refine Soon.before st rfl ?_
      exact answer_returned (.step _ _ h st) hd (setLStage_self _ _ _) ho h1 h2
    | closing =>
      have st : LParStep V W cfg g stats loop s _ := .close _ _ _ hd hx hph
      refine Soon.before st rfl ?_
      exact ih (.step _ _ h st) hd hc (by simp [hlt]; rfl) (by simp) (by simp [Chan.rank])
    | removing =>
      have st : LParStep V W cfg g stats loop s _ := .remove _ _ _ hd hx hph
      refine Soon.before st rfl ?_
      exact ih (.step _ _ h st) hd hc (by simp [hlt]; rfl) (by simp) (by simp [Chan.rank, hph] at hn ⊢; omega)
    | offering =>
      cases ht : x.todo with
      | nil =>
        have st : LParStep V W cfg g stats loop s _ := .finish _ _ _ hd hx hph ht
        refine Soon.before st rfl ?_
        exact ih (.step _ _ h st) hd hc (by simp [hlt]; rfl) (by simp) (by simp [Chan.rank, hph, ht] at hn ⊢; omega)
      | cons e es =>
        have st : LParStep V W cfg g stats loop s _ := .hand _ _ _ _ _ _ _ _ _ _ hd hc hx hph ht
        refine Soon.before st rfl ?_
        have hs : setLStage s.conns c (takeEntry V j r k ch con e) c = takeEntry V j r k ch con e := setLStage_self _ _ _
        unfold takeEntry at hs
        cases he : ldifEat V con e with
        | inl con' =>
          rw [he] at hs
          exact ih (.step _ _ h st) hd (by unfold takeEntry; rw [he]; exact hs) (by simp [hlt]; rfl) (by simp [hph])
            (by simp [Chan.rank, hph, ht] at hn ⊢; omega)
        | inr res =>
          rw [he] at hs
          exact answer_returned (.step _ _ h st) hd (by unfold takeEntry; rw [he]; exact hs) ho h1 h2

/-- In the loop. -/
theorem soon_loop {s : LPar ι} (h : LParReach V W cfg g stats loop m0 c0 s) (hd : s.down = false) {c : Nat} {r : SearchReq} {k : Str}
    {ch : Nat} {con : LdifCon} (hc : s.conns c = .receiving j r k ch con) : Soon V W cfg g stats loop s j.id := by
  obtain ⟨_, -, -, k3⟩ := (linv h).stage c j (by rw [hc]; rfl)
  rw [hc] at k3
  obtain ⟨_, x, _, -, hx, -⟩ := k3
  by_cases hp : x.phase = .made
  · obtain ⟨c', j', r', fs', k', e⟩ := made_inv h ch x hx hp
    have st : LParStep V W cfg g stats loop s _ := .begin _ _ _ _ _ _ _ _ hd e hx
    have hlt := (List.getElem?_eq_some_iff.1 hx).1
    refine Soon.before st rfl ?_
    have hne : c ≠ c' := by rintro rfl; rw [hc] at e; cases e
    exact soon_receiving ho h1 h2 _ (.step _ _ h st) hd (by dsimp only; rw [setLStage_ne _ hne]; exact hc) (by simp [hlt]; rfl) (by simp [Chan.begin])
      (Nat.le_refl _)
  · exact soon_receiving ho h1 h2 _ h hd hc hx hp (Nat.le_refl _)

/-- At the start of the loop. -/
theorem soon_enter {s : LPar ι} (h : LParReach V W cfg g stats loop m0 c0 s) (hd : s.down = false) {c : Nat} {r : SearchReq} {k : Str}
    {ch : Nat} (hc : s.conns c = enterLoop j r k ch) : Soon V W cfg g stats loop s j.id := by
  unfold enterLoop at hc
  split at hc
  · exact answer_returned h hd hc ho h1 h2
  · exact soon_loop ho h1 h2 h hd hc

/-- The channel is made. -/
theorem soon_starting {s : LPar ι} (h : LParReach V W cfg g stats loop m0 c0 s) (hd : s.down = false) {c : Nat} {r : SearchReq} {fs : List IdxReq}
    {k : Str} {ch : Nat} (hc : s.conns c = .starting j r fs k ch) : Soon V W cfg g stats loop s j.id := by
  obtain ⟨_, -, -, k3⟩ := (linv h).stage c j (by rw [hc]; rfl)
  rw [hc] at k3
  have hx : ∃ x, s.chans[ch]? = some x := by
    rcases k3.2 with ⟨-, -, h⟩ | ⟨-, -, h⟩ <;> exact ⟨_, h⟩
  obtain ⟨x, hx⟩ := hx
  have st : LParStep V W cfg g stats loop s _ := .begin _ _ _ _ _ _ _ _ hd hc hx
  exact Soon.before st rfl (soon_enter ho h1 h2 (.step _ _ h st) hd (setLStage_self _ _ _))

theorem soon_bind {s : LPar ι} (h : LParReach V W cfg g stats loop m0 c0 s) (hd : s.down = false) {c : Nat} {dn pw : Str}
    (hc : s.conns c = .bindMain j dn pw) : Soon V W cfg g stats loop s j.id := by
  have st : LParStep V W cfg g stats loop s _ := .bindMain _ _ _ _ _ hd hc
  exact Soon.before st rfl (answer_returned (.step _ _ h st) hd (setLStage_self _ _ _) ho h1 h2)

omit ho h1 h2 in
theorem Soon.answerable {s : LPar ι} {id : ι} (h : Soon V W cfg g stats loop s id) : LAnswerable V W cfg g stats loop s id := by
  obtain ⟨s', rs, a, b⟩ := h
  exact ⟨s', rs, [], a, b, .inl rfl⟩

/-- As long as the statistics block nobody, requests are answered. -/
theorem answered_any {s : LPar ι} (h : LParReach V W cfg g stats loop m0 c0 s) (hd : s.down = false) {c : Nat}
    (hc : (s.conns c).job = some j) : LAnswerable V W cfg g stats loop s j.id := by
  cases hs : s.conns c with
  | ready b => rw [hs] at hc; cases hc
  | over => rw [hs] at hc; cases hc
  | stuck j' =>
    rw [hs] at hc; cases hc
    have := nil_inv h c
    rw [hs] at this
    exact absurd (abandon_block this) h2
  | dropping j' r k =>
    rw [hs] at hc; cases hc
    have := nil_inv h c
    rw [hs] at this
    exact absurd (abandon_block this) h2
  | returned j' rep => rw [hs] at hc; cases hc; exact Soon.answerable (answer_returned h hd hs ho h1 h2)
  | bindMain j' dn pw => rw [hs] at hc; cases hc; exact (soon_bind ho h1 h2 h hd hs).answerable
  | starting j' r fs k ch => rw [hs] at hc; cases hc; exact (soon_starting ho h1 h2 h hd hs).answerable
  | receiving j' r k ch con => rw [hs] at hc; cases hc; exact (soon_loop ho h1 h2 h hd hs).answerable
  | begun j' =>
    rw [hs] at hc; cases hc
    cases hq : ldifCall V g stats j.o j.p j.b with
    | none =>
      have st : LParStep V W cfg g stats loop s _ := .direct _ _ _ hd hs hq
      exact (Soon.before st rfl (answer_returned (.step _ _ h st) hd (setLStage_self _ _ _) ho h1 h2)).answerable
    | some q =>
      cases q with
      | bind dn pw =>
        cases hcf : cfg.conf with
        | false =>
          have st : LParStep V W cfg g stats loop s _ := .bindPlain _ _ _ _ _ hd hs hq hcf
          exact (Soon.before st rfl (soon_bind ho h1 h2 (.step _ _ h st) hd (setLStage_self _ _ _))).answerable
        | true =>
          have st : LParStep V W cfg g stats loop s _ := .bindConf _ _ _ _ _ hd hs hq hcf
          refine (Soon.before st rfl ?_).answerable
          cases hl : confLook V cfg s.conf dn pw with
          | none =>
            rw [hl] at st
            exact soon_bind ho h1 h2 (.step _ _ h st) hd (setLStage_self _ _ _)
          | some x =>
            rw [hl] at st
            exact answer_returned (.step _ _ h st) hd (setLStage_self _ _ _) ho h1 h2
      | search bound r =>
        cases hp : searchPlan V (cfgAt cfg loop c) bound r with
        | inl x =>
          have st : LParStep V W cfg g stats loop s _ := .searchRefused _ _ _ _ _ _ hd hs hq hp
          exact (Soon.before st rfl (answer_returned (.step _ _ h st) hd (setLStage_self _ _ _) ho h1 h2)).answerable
        | inr fs =>
          cases hg : pagingOf r with
          | none =>
            have st : LParStep V W cfg g stats loop s _ := .searchPlain _ _ _ _ _ _ hd hs hq hp hg
            exact (Soon.before st rfl (soon_starting ho h1 h2 (.step _ _ h st) hd (setLStage_self _ _ _))).answerable
          | some nk =>
            obtain ⟨n, k⟩ := nk
            by_cases hk : k = []
            · subst hk
              have st : LParStep V W cfg g stats loop s _ := .searchFirst _ _ _ _ _ _ _ (List.replicate 11 0) hd hs hq hp hg (by simp)
              obtain ⟨s', rs, a, b⟩ := soon_starting ho h1 h2 (.step _ _ h st) hd (setLStage_self _ _ _)
              exact ⟨s', rs, [.cookie j.id (List.replicate 11 0)], .step _ _ _ st a, by rw [b]; simp, .inr ⟨_, rfl⟩⟩
            · cases hr : regGet k s.reg with
              | none =>
                have st : LParStep V W cfg g stats loop s _ := .searchUnknown _ _ _ _ _ _ _ _ hd hs hq hp hg hk hr
                exact (Soon.before st rfl (answer_returned (.step _ _ h st) hd (setLStage_self _ _ _) ho h1 h2)).answerable
              | some ch =>
                by_cases hn : n > 0
                · have st : LParStep V W cfg g stats loop s _ := .searchNext _ _ _ _ _ _ _ _ _ hd hs hq hp hg hk hr hn
                  exact (Soon.before st rfl (soon_enter ho h1 h2 (.step _ _ h st) hd (setLStage_self _ _ _))).answerable
                · have : n = 0 := by omega
                  subst this
                  exact absurd (abandon_block ⟨bound, r, k, hq, hg, hk⟩) h2

end

/-- C87, answers: however requests overlap, the server can always go on until it has answered a given request that it has read; it needs no
other client to do anything, no reload and no time-out. Missing from the full claim that every request is answered: the listed packets, on
which the connection blocks for ever or the server crashes. (Without metrics: with them the first add request makes all
connections wait, see `C52_adds_fails`.) -/
theorem C87_answered_partial {ι : Type} [DecidableEq ι] {V : Env} {W : WalkOrd} {cfg : LdifCfg} {g : Nat} {loop : Nat → Bool} {m0 c0 : LMem}
    {j : Job ι} (ho : ∀ i k, j.o.rnd i = some k → k < 74) (h1 : ¬ LdifCrash V j.p j.b) (h2 : ¬ LdifBlock V false j.p)
    {s : LPar ι} (h : LParReach V W cfg g false loop m0 c0 s) (hd : s.down = false) {c : Nat}
    (hc : (s.conns c).job = some j) : LAnswerable V W cfg g false loop s j.id := answered_any ho h1 h2 h hd hc

section
variable {ι : Type} [DecidableEq ι] {V : Env} {W : WalkOrd} {cfg : LdifCfg} {g : Nat} {stats : Bool} {loop : Nat → Bool} {m0 c0 : LMem}

theorem stuck_step {s s' : LPar ι} {c : Nat} {j : Job ι} (h : s.conns c = .stuck j) (hs : LParStep V W cfg g stats loop s s') :
    s'.conns c = .stuck j := by
  have keep : ∀ (d : Nat) (y : LStage ι), s.conns d ≠ .stuck j → setLStage s.conns d y c = .stuck j := by
    intro d y hd
    rw [setLStage_ne _ (by rintro rfl; exact hd h)]
    exact h
  cases hs <;> first | exact h | exact keep _ _ (by simp [*])

theorem stuck_steps {s s' : LPar ι} (hs : LParSteps V W cfg g stats loop s s') {c : Nat} {j : Job ι} (h : s.conns c = .stuck j) :
    s'.conns c = .stuck j := by
  induction hs with
  | refl => exact h
  | step _ _ _ h1 _ ih => exact ih (stuck_step h h1)

theorem steps_reach {s s' : LPar ι} (hs : LParSteps V W cfg g stats loop s s') (h : LParReach V W cfg g stats loop m0 c0 s) :
    LParReach V W cfg g stats loop m0 c0 s' := by
  induction hs with
  | refl => exact h
  | step _ _ _ h1 _ ih => exact ih (.step _ _ h h1)

end

/-! ## Examples -/

/-- A search with the filter `(cn=**)`. -/
def ldSubP : Packet := wMsg 8 (wSearch b!"dc=lg" 2 0 (.mk .context true 4 .nil [] [octet b!"cn", wSeq [ctxStr 1 []]]) [])

/-- C87, what fails: a client that has not bound, at a loopback address, crashes the server with one search. -/
theorem C87_substring_fails : ∃ s : LPar Nat, LParReach ldEnv ldOrd ldCfg 8 false (fun _ => true) (ldMem ldRecs) (ldMem []) s ∧ s.down = true :=
  ⟨ldLeads ldRecs [] [.arrive 0 1 toyOracle ldSubP, .go 0, .go 0, .go 0, .go 0], ldLeads_reach _ _ _, by decide +kernel⟩

/-- A modify request with an empty change. -/
def ldChangeP : Packet := wMsg 8 (wReq 6 [octet b!"uid=ann,dc=lg", wSeq [wSeq []]])

/-- C87, what fails: a client that has bound crashes the server with one modify request, although all modify requests are refused. -/
theorem C87_change_fails : ∃ s : LPar Nat, LParReach ldEnv ldOrd ldCfg 8 false (fun _ => true) (ldMem ldRecs) (ldMem []) s ∧ s.down = true :=
  ⟨ldLeads ldRecs [] [.arrive 0 1 toyOracle ldBindP, .go 0, .go 0, .go 0, .arrive 0 2 toyOracle ldChangeP, .go 0, .go 0], ldLeads_reach _ _ _,
    by decide +kernel⟩

/-- A paged search, and then the client abandons it. -/
def ldAbandon : List (LMove Nat) :=
  [.arrive 0 1 toyOracle (ldPageP []), .go 0, .go 0, .go 0, .go 0,
   .arrive 0 2 toyOracle (wMsgC 9 (wSearch b!"dc=lg" 2 0 (ctxStr 7 b!"cn") [b!"cn"]) [wSeq [berInt 0, octet b!"abcdefghijk"]]), .go 0, .go 0]

/-- C87, what fails: a client that abandons a paged search is never answered, whatever happens. -/
theorem C87_abandon_fails : ∃ (s : LPar Nat) (j : Job Nat),
    LParReach ldEnv ldOrd ldCfg 8 false (fun _ => true) (ldMem ldRecs) (ldMem []) s ∧ s.down = false ∧ (s.conns 0).job = some j ∧
    ∀ s', LParSteps ldEnv ldOrd ldCfg 8 false (fun _ => true) s s' → ∀ rs, .io (.answer j.id rs) ∉ s'.trace := by
  have hst : ∃ j, (ldLeads ldRecs [] ldAbandon).conns 0 = .stuck j := by
    have h : (match (ldLeads ldRecs [] ldAbandon).conns 0 with | .stuck _ => true | _ => false) = true := by decide +kernel
    split at h
    · exact ⟨_, by assumption⟩
    · cases h
  obtain ⟨j, hj⟩ := hst
  refine ⟨_, j, ldLeads_reach ldRecs [] ldAbandon, by decide +kernel, by rw [hj]; rfl, fun s' hs rs => ?_⟩
  exact (linv (steps_reach hs (ldLeads_reach _ _ _))).busy 0 j (by rw [stuck_steps hs hj]; rfl) rs

/-- The search of connection 1, while a paged search is going on, meets the hypotheses of `C87_answered_partial`. -/
example : ∃ (s : LPar Nat) (j : Job Nat), LParReach ldEnv ldOrd ldCfg 8 false (fun _ => true) (ldMem ldRecs) (ldMem []) s ∧ s.down = false ∧
    (s.conns 1).job = some j ∧ (∀ i k, j.o.rnd i = some k → k < 74) ∧ ¬ LdifCrash ldEnv j.p j.b ∧ ¬ LdifBlock ldEnv false j.p := by
  let o : Oracle := ⟨fun _ => some 5, []⟩
  let ms : List (LMove Nat) := [.arrive 0 1 o (ldPageP []), .go 0, .arrive 1 2 o ldSearchP]
  refine ⟨ldLeads ldRecs [] ms, ⟨2, o, ldSearchP, []⟩, ldLeads_reach _ _ _, by decide +kernel, rfl, ?_, ?_, ?_⟩
  · intro i k h; cases h; decide
  · intro h
    cases h with
    | control q h1 => cases h1
    | change _ _ _ _ _ _ h => exact h rfl
    | substring id req f fp text h1 h2 h3 h4 h5 h6 =>
      have := message_wMsg h1
      subst this
      cases h3
      rw [show decompile (ctxStr 7 b!"cn") = some b!"(cn=*)" by decide +kernel] at h4
      cases h4
      have ht : (compile b!"(cn=*)").map Packet.tag = some 7 := by decide +kernel
      rw [h5] at ht
      simp only [Option.map_some, Option.some.injEq] at ht
      cases h6 with
      | here h => rw [ht] at h; cases h
      | under h => rw [ht] at h; simp at h
  · intro h
    cases h with
    | control q h1 => cases h1
    | add _ _ h => cases h
    | abandon _ _ q _ _ _ h1 => cases h1

end Idm
