import Verif.Proofs.LdifCalls
import Verif.Props.Parallel
/-!
# Overlapping requests to the LDIF server: the invariant
-/
namespace Idm

section
variable {ι : Type}

theorem mainAt_append (m : LMem) (a b : List (LSeen ι)) : mainAt m (a ++ b) = mainAt (mainAt m a) b := by
  induction a generalizing m with
  | nil => rfl
  | cons e a ih => cases e <;> exact ih _

theorem confAt_append (m : LMem) (a b : List (LSeen ι)) : confAt m (a ++ b) = confAt (confAt m a) b := by
  induction a generalizing m with
  | nil => rfl
  | cons e a ih => cases e <;> exact ih _

theorem ios_append (a b : List (LSeen ι)) : ios (a ++ b) = ios a ++ ios b := by simp [ios, List.filterMap_append]

theorem mem_ios {tr : List (LSeen ι)} {e : Seen ι} : e ∈ ios tr ↔ .io e ∈ tr := by
  unfold ios
  rw [List.mem_filterMap]
  constructor
  · rintro ⟨x, h1, h2⟩
    cases x <;> cases h2
    exact h1
  · exact fun h => ⟨_, h, rfl⟩

theorem setLStage_self (f : Nat → LStage ι) (c : Nat) (x : LStage ι) : setLStage f c x c = x := by simp [setLStage]

theorem setLStage_ne (f : Nat → LStage ι) {c u : Nat} (h : u ≠ c) (x : LStage ι) : setLStage f c x u = f u := by simp [setLStage, h]

/-- A stage as in `Model/Parallel`. -/
def LStage.plain : LStage ι → Stage ι
  | .ready b => .ready b
  | .begun j => .begun j
  | .bindMain j _ _ => .begun j
  | .starting j _ _ _ _ => .begun j
  | .dropping j _ _ => .begun j
  | .receiving j _ _ _ _ => .begun j
  | .stuck _ => .over
  | .returned j _ => .begun j
  | .over => .over

/-- The process as in `Model/Parallel`, without the data. -/
def LPar.shadow (s : LPar ι) : Par ι := ⟨Db.empty, none, fun c => (s.conns c).plain, s.down, ios s.trace⟩

theorem shadow_set (f : Nat → LStage ι) (c : Nat) (x : LStage ι) :
    (fun d => (setLStage f c x d).plain) = setStage (fun d => (f d).plain) c x.plain := by
  funext d
  by_cases h : d = c
  · subst h; simp [setLStage, setStage]
  · simp [setLStage, setStage, h]

/-- A channel after a step of the requests `H`. -/
structure ChanLe (H : ι → Prop) (x x' : Chan ι) : Prop where
  owner : x'.owner = x.owner
  cookie : x'.cookie = x.cookie
  started : x.phase ≠ .made → x'.phase ≠ .made ∧ x'.all = x.all
  made : x.phase = .made → x' = x ∨ H x.owner
  ended : x.phase = .ended → x' = x
  out : ∃ l, x'.out = x.out ++ l ∧ ∀ p ∈ l, H p.1

theorem ChanLe.refl (H : ι → Prop) (x : Chan ι) : ChanLe H x x := ⟨rfl, rfl, fun h => ⟨h, rfl⟩, fun _ => .inl rfl, fun _ => rfl, [], by simp⟩

/-- All channels after a step of the requests `H`; new channels have handed over nothing. -/
structure ChansLe (H : ι → Prop) (l l' : List (Chan ι)) : Prop where
  old : ∀ (ch : Nat) x, l[ch]? = some x → ∃ x', l'[ch]? = some x' ∧ ChanLe H x x'
  back : ∀ (ch : Nat) x', l'[ch]? = some x' → (∃ x, l[ch]? = some x ∧ ChanLe H x x') ∨ x'.out = []

theorem ChansLe.refl (H : ι → Prop) (l : List (Chan ι)) : ChansLe H l l :=
  ⟨fun _ x h => ⟨x, h, .refl H x⟩, fun _ x h => .inl ⟨x, h, .refl H x⟩⟩

theorem ChansLe.add (H : ι → Prop) (l : List (Chan ι)) (id : ι) (k : Option Str) : ChansLe H l (l ++ [Chan.new id k]) := by
  refine ⟨fun ch x h => ⟨x, ?_, .refl H x⟩, fun ch x h => ?_⟩
  · rw [List.getElem?_append_left (List.getElem?_eq_some_iff.1 h).1]; exact h
  · rcases Nat.lt_or_ge ch l.length with hl | hl
    · rw [List.getElem?_append_left hl] at h; exact .inl ⟨x, h, .refl H x⟩
    · rw [List.getElem?_append_right hl] at h
      have := List.mem_of_getElem? h
      simp only [List.mem_singleton] at this
      rw [this]; exact .inr rfl

theorem ChansLe.set {H : ι → Prop} {l : List (Chan ι)} {ch : Nat} {x x' : Chan ι} (h : l[ch]? = some x) (hx : ChanLe H x x') : ChansLe H l (l.set ch x') := by
  have hlt := (List.getElem?_eq_some_iff.1 h).1
  refine ⟨fun d y hy => ?_, fun d y hy => ?_⟩
  · by_cases hd : ch = d
    · subst hd
      rw [h] at hy; cases hy
      exact ⟨x', by simp [hlt], hx⟩
    · exact ⟨y, by rw [List.getElem?_set_ne hd]; exact hy, .refl H y⟩
  · by_cases hd : ch = d
    · subst hd
      rw [List.getElem?_set_self hlt] at hy
      cases hy
      exact .inl ⟨x, h, hx⟩
    · rw [List.getElem?_set_ne hd] at hy
      exact .inl ⟨y, hy, .refl H y⟩

variable [DecidableEq ι]

theorem ChanLe.got {H : ι → Prop} {x x' : Chan ι} (h : ChanLe H x x') {id : ι} (hid : ¬ H id) : x'.got id = x.got id := by
  obtain ⟨l, h1, h2⟩ := h.out
  have : l.filter (fun p => decide (p.1 = id)) = [] := by
    rw [List.filter_eq_nil_iff]
    intro p hp
    simp only [decide_eq_true_eq]
    rintro rfl
    exact hid (h2 p hp)
  unfold Chan.got
  rw [h1, List.filter_append, this, List.append_nil]

end

section
variable {ι : Type} [DecidableEq ι] (V : Env) (W : WalkOrd) (cfg : LdifCfg) (g : Nat) (stats : Bool) (loop : Nat → Bool) (m0 c0 : LMem)

/-- The channel was made and its producer started by request `j`, which arrived at `k`, with the data in force at some moment since. -/
def BegunBy (tr : List (LSeen ι)) (N k : Nat) (j : Job ι) (r : SearchReq) (fs : List IdxReq) (x : Chan ι) : Prop :=
  x.owner = j.id ∧ x.phase ≠ .made ∧ ∃ t, k < t ∧ t ≤ N ∧ x.all = pump V.C W (mainAt m0 (tr.take t)) (V.C.lower r.baseDN) fs

/-- The channel is the one a request has to use. -/
def Uses (tr : List (LSeen ι)) (N k : Nat) (j : Job ι) (r : SearchReq) (fs : List IdxReq) (ck : Str) (x : Chan ι) : Prop :=
  (pagingOf r = none ∧ ck = [] ∧ x.cookie = none ∧ BegunBy V W m0 tr N k j r fs x) ∨
  ((∃ n, pagingOf r = some (n, [])) ∧ ck ≠ [] ∧ x.cookie = some ck ∧ BegunBy V W m0 tr N k j r fs x) ∨
  ((∃ n, n > 0 ∧ pagingOf r = some (n, ck)) ∧ ck ≠ [] ∧ x.cookie = some ck)

/-- What a bind returns. -/
def bindAns (cfg : LdifCfg) (conf main : LMem) (dn pw : Str) : Res (Nat × Bool) :=
  if cfg.conf then (confLook V cfg conf dn pw).getD (mainLook V cfg main (V.C.lower dn) pw) else mainLook V cfg main dn pw

/-- The start of a request in its loop. -/
def con0 (fp : Packet) (r : SearchReq) : LdifCon := ⟨fp, r, (pagingOf r).map (·.1), []⟩

/-- The entries of a channel come from data that was in force. -/
def FromData (tr : List (LSeen ι)) (N : Nat) (x : Chan ι) : Prop :=
  x.phase ≠ .made ∧ ∃ t base fs, t ≤ N ∧ hasSuffix base cfg.base = true ∧ (∀ f ∈ fs, TagOk f.kind f.tag) ∧
    x.all = pump V.C W (mainAt m0 (tr.take t)) base fs

/-- A channel with this cookie has handed over all it had, or its producer gave up. -/
def Emptied (tr : List (LSeen ι)) (chans : List (Chan ι)) (key : Str) : Prop :=
  ∃ (ch : Nat) (x : Chan ι), chans[ch]? = some x ∧ x.cookie = some key ∧ x.phase ≠ .made ∧ (x.all.length ≤ x.out.length ∨ .gaveUp x.owner ∈ tr)

/-- Why a request that arrived at `k` may be told that its cookie is unknown. -/
def Unknown (tr : List (LSeen ι)) (chans : List (Chan ι)) (N k : Nat) (key : Str) : Prop :=
  k ≤ N ∧ ((∀ id, .cookie id key ∉ tr.take k) ∨ Abandoned V (tr.take N) key ∨ Emptied (tr.take N) chans key)

/-- Cookies are known until the search is at its end. -/
def CookiesLive (s : LPar ι) : Prop :=
  ∀ id key, .cookie id key ∈ s.trace → (regGet key s.reg).isSome = true ∨ Abandoned V s.trace key ∨ Emptied s.trace s.chans key

/-- What a search may return. -/
def LSearchOk (tr : List (LSeen ι)) (chans : List (Chan ι)) (N k : Nat) (j : Job ι) (r : SearchReq) (fs : List IdxReq) (rep : LRep) : Prop :=
  ((∃ n ck, pagingOf r = some (n, ck) ∧ ck ≠ [] ∧ Unknown V tr chans N k ck) ∧ rep = .search (.ok ⟨[], [], rcUnwillingToPerform, true⟩)) ∨
  (compile r.filter = none ∧ rep = .search (.ok ⟨[], [], rcOperationsError, true⟩)) ∨
  ∃ (ch : Nat) (x : Chan ι) (ck : Str) (fp : Packet), chans[ch]? = some x ∧ Uses V W m0 tr N k j r fs ck x ∧ compile r.filter = some fp ∧
    FromData V W cfg m0 tr N x ∧
    ((∃ l e con res, x.got j.id = l ++ [e] ∧ eatAll (ldifEat V) (con0 fp r) l = .waiting con ∧ ldifEat V con e = .inr res ∧
        rep = .search (pageReply r ck false res)) ∨
     (∃ con, eatAll (ldifEat V) (con0 fp r) (x.got j.id) = .waiting con ∧ x.phase = .ended ∧
       (x.todo = [] ∨ .gaveUp x.owner ∈ tr.take N) ∧ rep = .search (pageReply r ck true (ldifFin con))))

/-- What a call may return. -/
def RepOk (tr : List (LSeen ι)) (chans : List (Chan ι)) (N k c : Nat) (j : Job ι) (rep : LRep) : Prop :=
  match ldifCall V g stats j.o j.p j.b with
  | none => rep = .nothing
  | some (.bind dn pw) => ∃ i i', k < i ∧ i ≤ i' ∧ i' ≤ N ∧
      rep = .bind (bindAns V (cfgAt cfg loop c) (confAt c0 (tr.take i)) (mainAt m0 (tr.take i')) dn pw)
  | some (.search bound r) => match searchPlan V (cfgAt cfg loop c) bound r with
    | .inl x => rep = .search x
    | .inr fs => LSearchOk V W cfg m0 tr chans N k j r fs rep

/-- The packet leads to this search. -/
def Searches (c : Nat) (j : Job ι) (r : SearchReq) (fs : List IdxReq) : Prop :=
  ∃ bound, ldifCall V g stats j.o j.p j.b = some (.search bound r) ∧ searchPlan V (cfgAt cfg loop c) bound r = .inr fs

/-- What is known of a request in a stage. -/
def LStageOk (tr : List (LSeen ι)) (chans : List (Chan ι)) (k c : Nat) : LStage ι → Prop
  | .ready _ => True
  | .begun j => ∀ (ch : Nat) x, chans[ch]? = some x → ∀ p ∈ x.out, p.1 ≠ j.id
  | .bindMain j dn pw => ∃ dn', ldifCall V g stats j.o j.p j.b = some (.bind dn' pw) ∧
      if cfg.conf then dn = V.C.lower dn' ∧ ∃ i, k < i ∧ i ≤ tr.length ∧ confLook V cfg (confAt c0 (tr.take i)) dn' pw = none else dn = dn'
  | .starting j r fs ck ch => Searches V cfg g stats loop c j r fs ∧
      ((pagingOf r = none ∧ ck = [] ∧ chans[ch]? = some (Chan.new j.id none)) ∨
       ((∃ n, pagingOf r = some (n, [])) ∧ ck ≠ [] ∧ chans[ch]? = some (Chan.new j.id (some ck))))
  | .dropping j r ck => (∃ fs, Searches V cfg g stats loop c j r fs) ∧ pagingOf r = some (0, ck) ∧ ck ≠ []
  | .receiving j r ck ch con => ∃ fs x fp, Searches V cfg g stats loop c j r fs ∧ chans[ch]? = some x ∧
      Uses V W m0 tr tr.length k j r fs ck x ∧ compile r.filter = some fp ∧ eatAll (ldifEat V) (con0 fp r) (x.got j.id) = .waiting con
  | .stuck _ => True
  | .returned j rep => RepOk V W cfg g stats loop m0 c0 tr chans tr.length k c j rep
  | .over => True

/-- What is known of a channel. -/
structure ChanOk (tr : List (LSeen ι)) (x : Chan ι) : Prop where
  made : x.phase = .made → x = Chan.new x.owner x.cookie
  sum : x.out.map (·.2) ++ x.todo = x.all
  after : x.phase ≠ .made → x.phase ≠ .offering → x.todo = [] ∨ .gaveUp x.owner ∈ tr
  priv : x.cookie = none → ∀ p ∈ x.out, p.1 = x.owner
  seen : ∀ p ∈ x.out, ∃ e, .io (.arrive p.1 e) ∈ tr
  data : x.phase ≠ .made → FromData V W cfg m0 tr tr.length x
  key : x.cookie ≠ some []

/-- The invariant. -/
structure LInv (s : LPar ι) : Prop where
  main : s.main = mainAt m0 s.trace
  conf : s.conf = confAt c0 s.trace
  ids : IdInv V s.shadow
  once : ∀ (k k' : Nat) id e e', s.trace[k]? = some (.io (.arrive id e)) → s.trace[k']? = some (.io (.arrive id e')) → k = k'
  busy : ∀ c j, (s.conns c).job = some j → ∀ rs, .io (.answer j.id rs) ∉ s.trace
  stage : ∀ c j, (s.conns c).job = some j → ∃ k, s.trace[k]? = some (.io (.arrive j.id (.packet c j.p j.o))) ∧
    LastBind V.C c (ios (s.trace.take k)) j.b ∧ LStageOk V W cfg g stats loop m0 c0 s.trace s.chans k c (s.conns c)
  chan : ∀ (ch : Nat) x, s.chans[ch]? = some x → ChanOk V W cfg m0 s.trace x
  reg : ∀ p ∈ s.reg, ∃ x, s.chans[p.2]? = some x ∧ x.cookie = some p.1
  answers : ∀ (k n : Nat) id c p o rs, s.trace[k]? = some (.io (.arrive id (.packet c p o))) → s.trace[n]? = some (.io (.answer id rs)) →
    k < n ∧ ∃ b rep, LastBind V.C c (ios (s.trace.take k)) b ∧ RepOk V W cfg g stats loop m0 c0 s.trace s.chans n k c ⟨id, o, p, b⟩ rep ∧
      rs = (ldifEnd V g stats o p b rep).1

end

section
variable {ι : Type} [DecidableEq ι] {V : Env} {W : WalkOrd} {cfg : LdifCfg} {g : Nat} {stats : Bool} {loop : Nat → Bool} {m0 c0 : LMem}

theorem take_app {α : Type} {tr l : List α} {t : Nat} (h : t ≤ tr.length) : (tr ++ l).take t = tr.take t := by
  rw [List.take_append_of_le_length h]

theorem get_app {α : Type} {tr l : List α} {k : Nat} {e : α} (h : tr[k]? = some e) : (tr ++ l)[k]? = some e := by
  rw [List.getElem?_append_left (List.getElem?_eq_some_iff.1 h).1]; exact h

/-! ## Monotony -/

section
variable {tr l : List (LSeen ι)} {chans chans' : List (Chan ι)} {H : ι → Prop} {N N' k c : Nat} {j : Job ι} {r : SearchReq} {fs : List IdxReq}
  {ck : Str} {x x' : Chan ι} {rep : LRep}

theorem BegunBy.mono (h : BegunBy V W m0 tr N k j r fs x) (hx : ChanLe H x x') (hN : N ≤ tr.length) (hN' : N ≤ N') :
    BegunBy V W m0 (tr ++ l) N' k j r fs x' := by
  obtain ⟨h1, h2, t, h3, h4, h5⟩ := h
  obtain ⟨h6, h7⟩ := hx.started h2
  exact ⟨hx.owner.trans h1, h6, t, h3, by omega, by rw [h7, h5, take_app (by omega)]⟩

theorem Uses.mono (h : Uses V W m0 tr N k j r fs ck x) (hx : ChanLe H x x') (hN : N ≤ tr.length) (hN' : N ≤ N') :
    Uses V W m0 (tr ++ l) N' k j r fs ck x' := by
  rcases h with ⟨h1, h2, h3, h4⟩ | ⟨h1, h2, h3, h4⟩ | ⟨h1, h2, h3⟩
  · exact .inl ⟨h1, h2, hx.cookie.trans h3, h4.mono hx hN hN'⟩
  · exact .inr (.inl ⟨h1, h2, hx.cookie.trans h3, h4.mono hx hN hN'⟩)
  · exact .inr (.inr ⟨h1, h2, hx.cookie.trans h3⟩)

theorem FromData.mono (h : FromData V W cfg m0 tr N x) (hx : ChanLe H x x') (hN : N ≤ tr.length) (hN' : N ≤ N') :
    FromData V W cfg m0 (tr ++ l) N' x' := by
  obtain ⟨h2, t, b, f, h4, h8, h9, h5⟩ := h
  obtain ⟨h6, h7⟩ := hx.started h2
  exact ⟨h6, t, b, f, by omega, h8, h9, by rw [h7, h5, take_app (by omega)]⟩

theorem Emptied.mono {tr tr' : List (LSeen ι)} {key : Str} (h : Emptied tr chans key) (hx : ChansLe H chans chans') (ht : ∀ e ∈ tr, e ∈ tr') :
    Emptied tr' chans' key := by
  obtain ⟨ch, x, h1, h2, h3, h4⟩ := h
  obtain ⟨x', h5, h6⟩ := hx.old ch x h1
  obtain ⟨h7, h8⟩ := h6.started h3
  refine ⟨ch, x', h5, h6.cookie.trans h2, h7, ?_⟩
  rw [h6.owner, h8]
  obtain ⟨l', h9, -⟩ := h6.out
  refine h4.imp (fun h => ?_) (ht _)
  rw [h9, List.length_append]; omega

theorem Abandoned.mono {tr tr' : List (LSeen ι)} {key : Str} (h : Abandoned V tr key) (ht : ∀ e ∈ tr, e ∈ tr') : Abandoned V tr' key := by
  obtain ⟨id, cn, p, o, h1, h2⟩ := h
  exact ⟨id, cn, p, o, ht _ h1, h2⟩

theorem Unknown.mono {key : Str} (h : Unknown V tr chans N k key) (hx : ChansLe H chans chans') (hN : N ≤ tr.length) (hN' : N ≤ N') :
    Unknown V (tr ++ l) chans' N' k key := by
  obtain ⟨hk, h⟩ := h
  refine ⟨by omega, ?_⟩
  have ht : ∀ e ∈ tr.take N, e ∈ (tr ++ l).take N' := by
    intro e he
    rw [← take_app (l := l) hN] at he
    exact (List.take_subset_take_left _ hN') he
  rcases h with h | h | h
  · exact .inl fun id => by rw [take_app (by omega)]; exact h id
  · exact .inr (.inl (h.mono ht))
  · exact .inr (.inr (h.mono hx ht))

theorem RepOk.mono (h : RepOk V W cfg g stats loop m0 c0 tr chans N k c j rep) (hx : ChansLe H chans chans') (hid : ¬ H j.id)
    (hN : N ≤ tr.length) (hN' : N ≤ N') : RepOk V W cfg g stats loop m0 c0 (tr ++ l) chans' N' k c j rep := by
  unfold RepOk at h ⊢
  split
  · rename_i hq; rw [hq] at h; exact h
  · rename_i dn pw hq
    rw [hq] at h
    obtain ⟨i, i', h1, h2, h3, h4⟩ := h
    exact ⟨i, i', h1, h2, by omega, by rw [h4, take_app (by omega), take_app (by omega)]⟩
  · rename_i bound r hq
    rw [hq] at h
    dsimp only at h
    split
    · rename_i y hp; rw [hp] at h; exact h
    · rename_i fs hp
      rw [hp] at h
      dsimp only at h
      rcases h with ⟨⟨n, ck, h1, h2, h3⟩, h⟩ | h | ⟨ch, x, ck, fp, h1, h2, h3, h4, h5⟩
      · exact .inl ⟨⟨n, ck, h1, h2, h3.mono hx hN hN'⟩, h⟩
      · exact .inr (.inl h)
      · obtain ⟨x', h6, h7⟩ := hx.old ch x h1
        refine .inr (.inr ⟨ch, x', ck, fp, h6, h2.mono h7 hN hN', h3, h4.mono h7 hN hN', ?_⟩)
        rw [h7.got hid]
        rcases h5 with h8 | ⟨con, h8, h9, h10, h11⟩
        · exact .inl h8
        · have := h7.ended h9
          subst this
          refine .inr ⟨con, h8, h9, h10.imp_right fun hm => ?_, h11⟩
          rw [← take_app (l := l) hN] at hm
          exact (List.take_subset_take_left _ hN') hm

theorem LStageOk.mono {st : LStage ι} (h : LStageOk V W cfg g stats loop m0 c0 tr chans k c st) (hx : ChansLe H chans chans')
    (hid : ∀ j, st.job = some j → ¬ H j.id) : LStageOk V W cfg g stats loop m0 c0 (tr ++ l) chans' k c st := by
  cases st with
  | ready b => trivial
  | begun j =>
    intro ch x' hc p hp
    rcases hx.back ch x' hc with ⟨x, h1, h2⟩ | h1
    · obtain ⟨l', h3, h4⟩ := h2.out
      rw [h3] at hp
      rcases List.mem_append.1 hp with hp | hp
      · exact h ch x h1 p hp
      · intro he
        exact hid j rfl (he ▸ h4 p hp)
    · rw [h1] at hp; cases hp
  | bindMain j dn pw =>
    obtain ⟨dn', h1, h2⟩ := h
    refine ⟨dn', h1, ?_⟩
    by_cases hc : cfg.conf = true
    · rw [if_pos hc] at h2 ⊢
      obtain ⟨h2, i, h3, h4, h5⟩ := h2
      exact ⟨h2, i, h3, by simp; omega, by rw [take_app h4]; exact h5⟩
    · rw [if_neg hc] at h2 ⊢
      exact h2
  | starting j r fs ck ch =>
    obtain ⟨h1, h2⟩ := h
    refine ⟨h1, ?_⟩
    have key : ∀ k, chans[ch]? = some (Chan.new j.id k) → chans'[ch]? = some (Chan.new j.id k) := by
      intro k hk
      obtain ⟨x', h3, h4⟩ := hx.old ch _ hk
      rcases h4.made rfl with h5 | h5
      · rw [h3, h5]
      · exact absurd h5 (hid j rfl)
    rcases h2 with ⟨h2, h3, h4⟩ | ⟨h2, h3, h4⟩
    · exact .inl ⟨h2, h3, key _ h4⟩
    · exact .inr ⟨h2, h3, key _ h4⟩
  | dropping j r ck => exact h
  | receiving j r ck ch con =>
    obtain ⟨fs, x, fp, h1, h2, h3, h4, h5⟩ := h
    obtain ⟨x', h6, h7⟩ := hx.old ch x h2
    exact ⟨fs, x', fp, h1, h6, h3.mono h7 (Nat.le_refl _) (by simp), h4, by rw [h7.got (hid j rfl)]; exact h5⟩
  | stuck j => trivial
  | returned j rep => exact RepOk.mono h hx (hid j rfl) (Nat.le_refl _) (by simp)
  | over => trivial

end

/-! ## Steps -/

theorem job_plain {st : LStage ι} {j : Job ι} (h : st.plain.job = some j) : st.job = some j := by
  cases st <;> first | exact h | cases h

/-- Two goroutines at work are not working on the same request. -/
theorem LInv.apart {s : LPar ι} (I : LInv V W cfg g stats loop m0 c0 s) {c d : Nat} {j j' : Job ι} (h : (s.conns c).job = some j)
    (h' : (s.conns d).job = some j') (hne : d ≠ c) : j'.id ≠ j.id := by
  intro he
  obtain ⟨k, h1, _⟩ := I.stage c j h
  obtain ⟨k', h2, _⟩ := I.stage d j' h'
  have a1 := mem_ios.2 (List.mem_of_getElem? h1)
  have a2 := mem_ios.2 (List.mem_of_getElem? h2)
  rw [he] at a2
  have := I.ids.single _ _ _ a1 a2
  simp only [Ev.packet.injEq] at this
  exact hne this.1.symm

theorem ChanOk.mono {tr l : List (LSeen ι)} {x : Chan ι} (h : ChanOk V W cfg m0 tr x) : ChanOk V W cfg m0 (tr ++ l) x where
  made := h.made
  sum := h.sum
  after := fun a b => (h.after a b).imp_right fun hm => List.mem_append_left _ hm
  priv := h.priv
  seen := fun p hp => by obtain ⟨e, he⟩ := h.seen p hp; exact ⟨e, List.mem_append_left _ he⟩
  data := fun hp => (h.data hp).mono (ChanLe.refl (fun _ => False) x) (Nat.le_refl _) (by simp)
  key := h.key

/-- No request arrives and none is answered. -/
def Quiet (l : List (LSeen ι)) : Prop := ∀ e ∈ ios l, ∃ id rs, e = .cut id rs

theorem Quiet.of_nil {l : List (LSeen ι)} (h : ios l = []) : Quiet l := fun e he => by rw [h] at he; cases he

theorem LastBind.cuts {C : CaseEnv} {c : Nat} {b : Str} (l : List (Seen ι)) (hl : ∀ e ∈ l, ∃ id rs, e = .cut id rs) :
    ∀ {tr : List (Seen ι)}, LastBind C c tr b → LastBind C c (tr ++ l) b := by
  induction l with
  | nil => intro tr h; rw [List.append_nil]; exact h
  | cons e l ih =>
    intro tr h
    obtain ⟨id, rs, rfl⟩ := hl e List.mem_cons_self
    have := ih (fun e he => hl e (List.mem_cons_of_mem _ he)) (h.cut id rs)
    rwa [List.append_assoc] at this

/-- A step at which no request arrives and none is answered. -/
theorem LInv.core {s : LPar ι} (I : LInv V W cfg g stats loop m0 c0 s) {s' : LPar ι} {l : List (LSeen ι)} {H : ι → Prop}
    (hH : ∀ id, H id → ∃ d j, (s.conns d).job = some j ∧ j.id = id)
    (hcon : ∀ d, (s'.conns d = s.conns d ∧ ∀ j, (s.conns d).job = some j → ¬ H j.id) ∨
      (∃ j, (s.conns d).job = some j ∧ ((s'.conns d).job = some j ∨ (s'.conns d).job = none) ∧
        ((s'.conns d).plain = (s.conns d).plain ∨ (s'.conns d).plain = .over) ∧
        ∀ k, s.trace[k]? = some (.io (.arrive j.id (.packet d j.p j.o))) → LStageOk V W cfg g stats loop m0 c0 s.trace s.chans k d (s.conns d) →
          LStageOk V W cfg g stats loop m0 c0 s'.trace s'.chans k d (s'.conns d)))
    (ht : s'.trace = s.trace ++ l) (hl : Quiet l) (hm : s'.main = mainAt m0 s'.trace) (hc : s'.conf = confAt c0 s'.trace)
    (hext : ChansLe H s.chans s'.chans) (hchan : ∀ (ch : Nat) x, s'.chans[ch]? = some x → ChanOk V W cfg m0 s'.trace x)
    (hreg : ∀ p ∈ s'.reg, ∃ x, s'.chans[p.2]? = some x ∧ x.cookie = some p.1) : LInv V W cfg g stats loop m0 c0 s' := by
  have hios : ios s'.trace = ios s.trace ++ ios l := by rw [ht, ios_append]
  have hmem : ∀ {e : Seen ι}, (∀ id rs, e ≠ .cut id rs) → (e ∈ ios s'.trace ↔ e ∈ ios s.trace) := by
    intro e hne
    rw [hios, List.mem_append]
    refine or_iff_left fun h => ?_
    obtain ⟨id, rs, he⟩ := hl e h
    exact hne id rs he
  have hio : ∀ {n : Nat} {e : Seen ι}, (∀ id rs, e ≠ .cut id rs) → s'.trace[n]? = some (.io e) → s.trace[n]? = some (.io e) := by
    intro n e hne h
    rw [ht] at h
    rcases Nat.lt_or_ge n s.trace.length with hn | hn
    · rwa [List.getElem?_append_left hn] at h
    · rw [List.getElem?_append_right hn] at h
      obtain ⟨id, rs, he⟩ := hl _ (mem_ios.2 (List.mem_of_getElem? h))
      exact absurd he (hne id rs)
  have hjob : ∀ d j, (s'.conns d).job = some j → (s.conns d).job = some j := by
    intro d j hj
    rcases hcon d with ⟨h1, _⟩ | ⟨j', h1, h2, _, _⟩
    · rw [← h1]; exact hj
    · rcases h2 with h2 | h2
      · rw [h2] at hj; cases hj; exact h1
      · rw [h2] at hj; cases hj
  refine ⟨hm, hc, ⟨?_, ?_, ?_, ?_⟩, ?_, ?_, ?_, hchan, hreg, ?_⟩
  · intro d j hj
    have hj := hjob d j (job_plain hj)
    obtain ⟨k, hk, _⟩ := I.stage d j hj
    exact (hmem (by nofun)).2 (mem_ios.2 (List.mem_of_getElem? hk))
  · intro id rs h
    obtain ⟨e, he⟩ := I.ids.answered id rs ((hmem (by nofun)).1 h)
    exact ⟨e, (hmem (by nofun)).2 he⟩
  · exact fun id e e' h h' => I.ids.single id e e' ((hmem (by nofun)).1 h) ((hmem (by nofun)).1 h')
  · intro d b hb
    show LastBind V.C d (ios s'.trace) b
    rw [hios]
    refine LastBind.cuts _ hl (I.ids.identity d b ?_)
    show (s.conns d).plain.identity = some b
    have hb : (s'.conns d).plain.identity = some b := hb
    rcases hcon d with ⟨h1, _⟩ | ⟨j', _, _, h2, _⟩
    · rw [← h1]; exact hb
    · rcases h2 with h2 | h2
      · rw [← h2]; exact hb
      · rw [h2] at hb; cases hb
  · intro k k' id e e' h1 h2
    exact I.once k k' id e e' (hio (by nofun) h1) (hio (by nofun) h2)
  · intro d j hj rs hm
    exact I.busy d j (hjob d j hj) rs (mem_ios.1 ((hmem (by nofun)).1 (mem_ios.2 hm)))
  · intro d j hj
    have hj0 := hjob d j hj
    obtain ⟨k, h1, h2, h3⟩ := I.stage d j hj0
    have hk : k ≤ s.trace.length := Nat.le_of_lt (List.getElem?_eq_some_iff.1 h1).1
    refine ⟨k, by rw [ht]; exact get_app h1, by rw [ht, take_app hk]; exact h2, ?_⟩
    rcases hcon d with ⟨h4, h5⟩ | ⟨j', h4, _, _, h5⟩
    · rw [h4, ht]
      exact h3.mono hext h5
    · rw [hj0] at h4; cases h4
      exact h5 k h1 h3
  · intro k n id c p o rs h1 h2
    have h1 := hio (by nofun) h1
    have h2 := hio (by nofun) h2
    obtain ⟨h3, b, rep, h4, h5, h6⟩ := I.answers k n id c p o rs h1 h2
    have hn : n < s.trace.length := (List.getElem?_eq_some_iff.1 h2).1
    refine ⟨h3, b, rep, by rw [ht, take_app (by omega)]; exact h4, ?_, h6⟩
    rw [ht]
    refine h5.mono hext ?_ (by omega) (Nat.le_refl _)
    intro hHid
    obtain ⟨d, j, h7, h8⟩ := hH _ hHid
    exact I.busy d j h7 rs (by rw [h8]; exact List.mem_of_getElem? h2)

/-- A step of the goroutine of connection `c`. -/
theorem LInv.move {s : LPar ι} (I : LInv V W cfg g stats loop m0 c0 s) {s' : LPar ι} {c : Nat} {j : Job ι} {x : LStage ι} {l : List (LSeen ι)}
    (hj : (s.conns c).job = some j) (hcs : s'.conns = setLStage s.conns c x) (hx : x.job = some j ∨ x.job = none)
    (hp : x.plain = (s.conns c).plain ∨ x.plain = .over) (ht : s'.trace = s.trace ++ l) (hl : ios l = [])
    (hm : s'.main = mainAt m0 s'.trace) (hc : s'.conf = confAt c0 s'.trace)
    (hext : ChansLe (· = j.id) s.chans s'.chans) (hchan : ∀ (ch : Nat) x, s'.chans[ch]? = some x → ChanOk V W cfg m0 s'.trace x)
    (hreg : ∀ p ∈ s'.reg, ∃ x, s'.chans[p.2]? = some x ∧ x.cookie = some p.1)
    (hst : ∀ k, s.trace[k]? = some (.io (.arrive j.id (.packet c j.p j.o))) → LStageOk V W cfg g stats loop m0 c0 s.trace s.chans k c (s.conns c) →
          LStageOk V W cfg g stats loop m0 c0 s'.trace s'.chans k c x) : LInv V W cfg g stats loop m0 c0 s' := by
  refine I.core (H := (· = j.id)) (fun id h => ⟨c, j, hj, h.symm⟩) ?_ ht (.of_nil hl) hm hc hext hchan hreg
  intro d
  rw [hcs]
  by_cases hd : d = c
  · subst hd
    rw [setLStage_self]
    exact .inr ⟨j, hj, hx, hp, hst⟩
  · rw [setLStage_ne _ hd]
    exact .inl ⟨rfl, fun j' hj' => I.apart hj hj' hd⟩

/-- A step that changes nothing but the stage of connection `c`. -/
theorem LInv.moveOnly {s : LPar ι} (I : LInv V W cfg g stats loop m0 c0 s) {c : Nat} {j : Job ι} {x : LStage ι}
    (hj : (s.conns c).job = some j) (hx : x.job = some j ∨ x.job = none)
    (hp : x.plain = (s.conns c).plain ∨ x.plain = .over)
    (hst : ∀ k, s.trace[k]? = some (.io (.arrive j.id (.packet c j.p j.o))) → LStageOk V W cfg g stats loop m0 c0 s.trace s.chans k c (s.conns c) →
          LStageOk V W cfg g stats loop m0 c0 s.trace s.chans k c x) : LInv V W cfg g stats loop m0 c0 { s with conns := setLStage s.conns c x } :=
  I.move (l := []) hj rfl hx hp (by simp) rfl I.main I.conf (.refl _ _) I.chan I.reg hst

/-- A step of a producer or of the reload. -/
theorem LInv.back {s : LPar ι} (I : LInv V W cfg g stats loop m0 c0 s) {s' : LPar ι} {l : List (LSeen ι)}
    (hcs : s'.conns = s.conns) (ht : s'.trace = s.trace ++ l) (hl : ios l = [])
    (hm : s'.main = mainAt m0 s'.trace) (hc : s'.conf = confAt c0 s'.trace)
    (hext : ChansLe (fun _ => False) s.chans s'.chans) (hchan : ∀ (ch : Nat) x, s'.chans[ch]? = some x → ChanOk V W cfg m0 s'.trace x)
    (hreg : ∀ p ∈ s'.reg, ∃ x, s'.chans[p.2]? = some x ∧ x.cookie = some p.1) : LInv V W cfg g stats loop m0 c0 s' :=
  I.core (H := fun _ => False) (fun _ h => h.elim) (fun d => .inl ⟨by rw [hcs], fun _ _ h => h⟩) ht (.of_nil hl) hm hc hext hchan hreg

theorem mainAt_io (m : LMem) (e : Seen ι) : ∀ tr : List (LSeen ι), mainAt m (tr ++ [.io e]) = mainAt m tr := by
  intro tr
  induction tr generalizing m with
  | nil => rfl
  | cons x tr ih => cases x <;> exact ih _

theorem confAt_io (m : LMem) (e : Seen ι) : ∀ tr : List (LSeen ι), confAt m (tr ++ [.io e]) = confAt m tr := by
  intro tr
  induction tr generalizing m with
  | nil => rfl
  | cons x tr ih => cases x <;> exact ih _

/-- An answer ends early. -/
theorem LInv.cut {s : LPar ι} (I : LInv V W cfg g stats loop m0 c0 s) (id : ι) (rs : List Resp) (conns : Nat → LStage ι) (down : Bool)
    (h : ∀ d, conns d = s.conns d ∨ (conns d = .over ∧ ∃ j, (s.conns d).job = some j)) :
    LInv V W cfg g stats loop m0 c0 { s with conns := conns, down := down, trace := s.trace ++ [.io (.cut id rs)] } := by
  refine I.core (l := [.io (.cut id rs)]) (H := fun _ => False) (fun _ h => h.elim) (fun d => ?_) rfl ?_ ?_ ?_ (.refl _ _) (fun ch x hx => (I.chan ch x hx).mono) I.reg
  · rcases h d with h | ⟨h, j, hj⟩
    · exact .inl ⟨h, fun _ _ h => h⟩
    · refine .inr ⟨j, hj, ?_, ?_, fun _ _ _ => ?_⟩
      · exact .inr (by dsimp only; rw [h]; rfl)
      · exact .inr (by dsimp only; rw [h]; rfl)
      · dsimp only; rw [h]; trivial
  · intro e he
    cases he with
    | head => exact ⟨_, _, rfl⟩
    | tail _ h => cases h
  · show s.main = _
    rw [mainAt_io]; exact I.main
  · show s.conf = _
    rw [confAt_io]; exact I.conf

theorem over_only (f : Nat → LStage ι) {c : Nat} {j : Job ι} (h : (f c).job = some j) (d : Nat) :
    setLStage f c .over d = f d ∨ (setLStage f c .over d = .over ∧ ∃ j, (f d).job = some j) := by
  by_cases hd : d = c
  · subst hd; exact .inr ⟨setLStage_self _ _ _, j, h⟩
  · exact .inl (setLStage_ne _ hd _)

/-- Channels after one of them was changed. -/
theorem LInv.chan_set {s : LPar ι} (I : LInv V W cfg g stats loop m0 c0 s) {l : List (LSeen ι)} {ch : Nat} {x' : Chan ι}
    (h : ChanOk V W cfg m0 (s.trace ++ l) x') (d : Nat) (y : Chan ι) (hy : (s.chans.set ch x')[d]? = some y) : ChanOk V W cfg m0 (s.trace ++ l) y := by
  rcases List.mem_or_eq_of_mem_set (List.mem_of_getElem? hy) with hm | rfl
  · obtain ⟨i, hi⟩ := List.getElem?_of_mem hm
    exact (I.chan i y hi).mono
  · exact h

/-- The registered cookies after channels have changed. -/
theorem LInv.reg_le {s : LPar ι} (I : LInv V W cfg g stats loop m0 c0 s) {H : ι → Prop} {chans' : List (Chan ι)} {reg' : List (Str × Nat)}
    (h : ChansLe H s.chans chans') (hs : ∀ p ∈ reg', p ∈ s.reg) : ∀ p ∈ reg', ∃ x, chans'[p.2]? = some x ∧ x.cookie = some p.1 := by
  intro p hp
  obtain ⟨x, h1, h2⟩ := I.reg p (hs p hp)
  obtain ⟨x', h3, h4⟩ := h.old _ x h1
  exact ⟨x', h3, h4.cookie.trans h2⟩

theorem regDrop_sub {k : Str} {reg : List (Str × Nat)} : ∀ p ∈ regDrop k reg, p ∈ reg := fun _ h => (List.mem_filter.1 h).1

/-- A packet arrives. -/
theorem LInv.arrived {s : LPar ι} (I : LInv V W cfg g stats loop m0 c0 s) {c : Nat} {b : Str} {id : ι} {o : Oracle} {p : Packet}
    (h : s.conns c = .ready b) (hnew : ∀ e, LSeen.io (.arrive id e) ∉ s.trace) :
    LInv V W cfg g stats loop m0 c0 { s with conns := setLStage s.conns c (.begun ⟨id, o, p, b⟩),
                                             trace := s.trace ++ [.io (.arrive id (.packet c p o))] } := by
  have hpre : ∀ {n : Nat} {e : LSeen ι}, (s.trace ++ [.io (.arrive id (.packet c p o))])[n]? = some e →
      s.trace[n]? = some e ∨ (n = s.trace.length ∧ e = .io (.arrive id (.packet c p o))) := by
    intro n e hn
    rcases Nat.lt_or_ge n s.trace.length with hlt | hge
    · rw [List.getElem?_append_left hlt] at hn; exact .inl hn
    · rw [List.getElem?_append_right hge] at hn
      have : n - s.trace.length < 1 := by simpa using (List.getElem?_eq_some_iff.1 hn).1
      have he : n = s.trace.length := by omega
      subst he
      simp at hn
      exact .inr ⟨rfl, hn.symm⟩
  have hna : ∀ rs, .io (.answer id rs) ∉ s.trace := by
    intro rs hm
    obtain ⟨e, he⟩ := I.ids.answered id rs (mem_ios.2 hm)
    exact hnew e (mem_ios.1 he)
  have hlb := I.ids.identity c b (by show (s.conns c).plain.identity = _; rw [h]; rfl)
  refine ⟨by rw [mainAt_append]; exact I.main, by rw [confAt_append]; exact I.conf, ?_, ?_, ?_, ?_, ?_, I.reg, ?_⟩
  · refine I.ids.arrive (c := c) (x := .begun ⟨id, o, p, b⟩) (id := id) (e := .packet c p o) (shadow_set _ _ _) (by simp [LPar.shadow, ios_append]; rfl)
      (fun e he => hnew e (mem_ios.1 he)) (fun j hj => by cases hj; exact ⟨rfl, rfl⟩) (fun b' hb => ?_)
    cases hb
    show (s.conns c).plain.identity = _
    rw [h]; rfl
  · intro k k' i e e' h1 h2
    rcases hpre h1 with h1 | ⟨l1, h1⟩ <;> rcases hpre h2 with h2 | ⟨l2, h2⟩
    · exact I.once k k' i e e' h1 h2
    · simp only [LSeen.io.injEq, Seen.arrive.injEq] at h2; exact absurd (List.mem_of_getElem? h1) (h2.1 ▸ hnew e)
    · simp only [LSeen.io.injEq, Seen.arrive.injEq] at h1; exact absurd (List.mem_of_getElem? h2) (h1.1 ▸ hnew e')
    · rw [l1, l2]
  · intro d j hj rs hm
    replace hm : .io (.answer j.id rs) ∈ s.trace := by simpa using hm
    by_cases hd : d = c
    · subst hd
      dsimp only at hj
      rw [setLStage_self] at hj
      cases hj
      exact hna rs hm
    · dsimp only at hj
      rw [setLStage_ne _ hd] at hj
      exact I.busy d j hj rs hm
  · intro d j hj
    by_cases hd : d = c
    · subst hd
      dsimp only at hj ⊢
      rw [setLStage_self] at hj ⊢
      cases hj
      refine ⟨s.trace.length, by simp, by rw [take_app (Nat.le_refl _), List.take_length]; exact hlb, ?_⟩
      intro ch x hx q hq he
      obtain ⟨e, hm⟩ := (I.chan ch x hx).seen q hq
      rw [he] at hm
      exact hnew e hm
    · dsimp only at hj ⊢
      rw [setLStage_ne _ hd] at hj ⊢
      obtain ⟨k, h1, h2, h3⟩ := I.stage d j hj
      have hk : k ≤ s.trace.length := Nat.le_of_lt (List.getElem?_eq_some_iff.1 h1).1
      exact ⟨k, get_app h1, by rw [take_app hk]; exact h2, h3.mono (H := fun _ => False) (.refl _ _) (fun _ _ h => h)⟩
  · exact fun ch x hx => (I.chan ch x hx).mono
  · intro k n i c' p' o' rs h1 h2
    rcases hpre h2 with h2 | ⟨_, h2⟩
    · rcases hpre h1 with h1 | ⟨_, h1⟩
      · obtain ⟨h3, b, rep, h4, h5, h6⟩ := I.answers k n i c' p' o' rs h1 h2
        have hn : n < s.trace.length := (List.getElem?_eq_some_iff.1 h2).1
        exact ⟨h3, b, rep, by rw [take_app (by omega)]; exact h4, h5.mono (H := fun _ => False) (.refl _ _) (fun h => h) (by omega) (Nat.le_refl _), h6⟩
      · cases h1
        exact absurd (List.mem_of_getElem? h2) (hna rs)
    · cases h2

/-- The end of a connection arrives. -/
theorem LInv.ended {s : LPar ι} (I : LInv V W cfg g stats loop m0 c0 s) {c : Nat} {b : Str} {id : ι}
    (h : s.conns c = .ready b) (hnew : ∀ e, LSeen.io (.arrive id e) ∉ s.trace) :
    LInv V W cfg g stats loop m0 c0 { s with conns := setLStage s.conns c .over,
                                             trace := s.trace ++ [.io (.arrive id (.eof c)), .io (.answer id [])] } := by
  have hpre : ∀ {n : Nat} {e : LSeen ι}, (s.trace ++ [.io (.arrive id (.eof c)), .io (.answer id [])])[n]? = some e →
      s.trace[n]? = some e ∨ (n = s.trace.length ∧ e = .io (.arrive id (.eof c))) ∨ e = .io (.answer id []) := by
    intro n e hn
    rcases Nat.lt_or_ge n s.trace.length with hlt | hge
    · rw [List.getElem?_append_left hlt] at hn; exact .inl hn
    · rw [List.getElem?_append_right hge] at hn
      have hlt : n - s.trace.length < 2 := by simpa using (List.getElem?_eq_some_iff.1 hn).1
      rcases (by omega : n = s.trace.length ∨ n = s.trace.length + 1) with rfl | rfl
      · simp at hn
        exact .inr (.inl ⟨rfl, hn.symm⟩)
      · rw [show s.trace.length + 1 - s.trace.length = 1 by omega] at hn
        simp at hn
        exact .inr (.inr hn.symm)
  have hna : ∀ rs, .io (.answer id rs) ∉ s.trace := by
    intro rs hm
    obtain ⟨e, he⟩ := I.ids.answered id rs (mem_ios.2 hm)
    exact hnew e (mem_ios.1 he)
  have hjob : ∀ d j, (setLStage s.conns c .over d).job = some j → setLStage s.conns c .over d = s.conns d ∧ (s.conns d).job = some j := by
    intro d j hj
    by_cases hd : d = c
    · subst hd; rw [setLStage_self] at hj; cases hj
    · rw [setLStage_ne _ hd] at hj ⊢; exact ⟨rfl, hj⟩
  refine ⟨by rw [mainAt_append]; exact I.main, by rw [confAt_append]; exact I.conf, ?_, ?_, ?_, ?_, ?_, I.reg, ?_⟩
  · have I1 : IdInv V (⟨Db.empty, none, setStage s.shadow.conns c .over, s.down, ios s.trace ++ [.arrive id (.eof c)]⟩ : Par ι) :=
      I.ids.arrive (c := c) (x := .over) rfl rfl (fun e he => hnew e (mem_ios.1 he)) (fun j hj => by cases hj) (fun b' hb => by cases hb)
    refine I1.answer (c := c) (x := .over) (id := id) (e := .eof c) (rs := []) ?_ (by simp [LPar.shadow, ios_append]; rfl) (by simp) rfl rfl (fun b hb => by cases hb)
    show (fun d => (setLStage s.conns c .over d).plain) = _
    rw [shadow_set]
    funext u
    by_cases hu : u = c
    · subst hu; simp [setStage, LStage.plain]
    · simp [setStage, hu, LPar.shadow]
  · intro k k' i e e' h1 h2
    rcases hpre h1 with h1 | ⟨l1, h1⟩ | h1 <;> rcases hpre h2 with h2 | ⟨l2, h2⟩ | h2
    · exact I.once k k' i e e' h1 h2
    · simp only [LSeen.io.injEq, Seen.arrive.injEq] at h2; exact absurd (List.mem_of_getElem? h1) (h2.1 ▸ hnew e)
    · cases h2
    · simp only [LSeen.io.injEq, Seen.arrive.injEq] at h1; exact absurd (List.mem_of_getElem? h2) (h1.1 ▸ hnew e')
    · rw [l1, l2]
    · cases h2
    · cases h1
    · cases h1
    · cases h1
  · intro d j hj rs hm
    obtain ⟨_, hj⟩ := hjob d j hj
    have hm : .io (.answer j.id rs) ∈ s.trace ∨ j.id = id ∧ rs = [] := by simpa using hm
    rcases hm with hm | ⟨he, _⟩
    · exact I.busy d j hj rs hm
    · obtain ⟨k, h1, _⟩ := I.stage d j hj
      exact hnew _ (he ▸ List.mem_of_getElem? h1)
  · intro d j hj
    obtain ⟨he, hj⟩ := hjob d j hj
    dsimp only
    rw [he]
    obtain ⟨k, h1, h2, h3⟩ := I.stage d j hj
    have hk : k ≤ s.trace.length := Nat.le_of_lt (List.getElem?_eq_some_iff.1 h1).1
    exact ⟨k, get_app h1, by rw [take_app hk]; exact h2, h3.mono (H := fun _ => False) (.refl _ _) (fun _ _ h => h)⟩
  · exact fun ch x hx => (I.chan ch x hx).mono
  · intro k n i c' p' o' rs h1 h2
    rcases hpre h1 with h1 | ⟨_, h1⟩ | h1
    · rcases hpre h2 with h2 | ⟨_, h2⟩ | h2
      · obtain ⟨h3, b, rep, h4, h5, h6⟩ := I.answers k n i c' p' o' rs h1 h2
        have hn : n < s.trace.length := (List.getElem?_eq_some_iff.1 h2).1
        exact ⟨h3, b, rep, by rw [take_app (by omega)]; exact h4, h5.mono (H := fun _ => False) (.refl _ _) (fun h => h) (by omega) (Nat.le_refl _), h6⟩
      · cases h2
      · cases h2
        exact absurd (List.mem_of_getElem? h1) (hnew _)
    · cases h1
    · cases h1

/-- The responses to a request are sent. -/
theorem LInv.answered {s : LPar ι} (I : LInv V W cfg g stats loop m0 c0 s) {c : Nat} {j : Job ι} {rep : LRep} {x : LStage ι}
    (h : s.conns c = .returned j rep) (hx : x.job = none)
    (hi : ∀ b, x.plain.identity = some b → LastBind V.C c (ios s.trace ++ [.answer j.id (ldifEnd V g stats j.o j.p j.b rep).1]) b) :
    LInv V W cfg g stats loop m0 c0 { s with conns := setLStage s.conns c x,
                                             trace := s.trace ++ [.io (.answer j.id (ldifEnd V g stats j.o j.p j.b rep).1)] } := by
  generalize hrs : (ldifEnd V g stats j.o j.p j.b rep).1 = rs0 at hi ⊢
  have hpre : ∀ {n : Nat} {e : LSeen ι}, (s.trace ++ [.io (.answer j.id rs0)])[n]? = some e →
      s.trace[n]? = some e ∨ (n = s.trace.length ∧ e = .io (.answer j.id rs0)) := by
    intro n e hn
    rcases Nat.lt_or_ge n s.trace.length with hlt | hge
    · rw [List.getElem?_append_left hlt] at hn; exact .inl hn
    · rw [List.getElem?_append_right hge] at hn
      have : n - s.trace.length < 1 := by simpa using (List.getElem?_eq_some_iff.1 hn).1
      have he : n = s.trace.length := by omega
      subst he
      simp at hn
      exact .inr ⟨rfl, hn.symm⟩
  have hj0 : (s.conns c).job = some j := by rw [h]; rfl
  obtain ⟨k0, a1, a2, a3⟩ := I.stage c j hj0
  have hjob : ∀ d j', (setLStage s.conns c x d).job = some j' → d ≠ c ∧ setLStage s.conns c x d = s.conns d ∧ (s.conns d).job = some j' := by
    intro d j' hj
    by_cases hd : d = c
    · subst hd; rw [setLStage_self, hx] at hj; cases hj
    · rw [setLStage_ne _ hd] at hj ⊢; exact ⟨hd, rfl, hj⟩
  refine ⟨by rw [mainAt_append]; exact I.main, by rw [confAt_append]; exact I.conf, ?_, ?_, ?_, ?_, ?_, I.reg, ?_⟩
  · refine I.ids.answer (c := c) (x := x.plain) (id := j.id) (e := .packet c j.p j.o) (rs := rs0) (shadow_set _ _ _)
      (by simp [LPar.shadow, ios_append]; rfl) (mem_ios.2 (List.mem_of_getElem? a1)) rfl ?_ hi
    cases hp : x.plain.job with
    | none => rfl
    | some j' => rw [job_plain hp] at hx; cases hx
  · intro k k' i e e' h1 h2
    rcases hpre h1 with h1 | ⟨l1, h1⟩ <;> rcases hpre h2 with h2 | ⟨l2, h2⟩
    · exact I.once k k' i e e' h1 h2
    · cases h2
    · cases h1
    · cases h1
  · intro d j' hj rs hm
    obtain ⟨hd, _, hj⟩ := hjob d j' hj
    have hm : .io (.answer j'.id rs) ∈ s.trace ∨ j'.id = j.id ∧ rs = rs0 := by simpa using hm
    rcases hm with hm | ⟨he, _⟩
    · exact I.busy d j' hj rs hm
    · exact I.apart hj0 hj hd he
  · intro d j' hj
    obtain ⟨_, he, hj⟩ := hjob d j' hj
    dsimp only
    rw [he]
    obtain ⟨k, h1, h2, h3⟩ := I.stage d j' hj
    have hk : k ≤ s.trace.length := Nat.le_of_lt (List.getElem?_eq_some_iff.1 h1).1
    exact ⟨k, get_app h1, by rw [take_app hk]; exact h2, h3.mono (H := fun _ => False) (.refl _ _) (fun _ _ h => h)⟩
  · exact fun ch x hx => (I.chan ch x hx).mono
  · intro k n i c' p' o' rs h1 h2
    rcases hpre h1 with h1 | ⟨_, h1⟩
    · rcases hpre h2 with h2 | ⟨hn, h2⟩
      · obtain ⟨h3, b, rep, h4, h5, h6⟩ := I.answers k n i c' p' o' rs h1 h2
        have hn : n < s.trace.length := (List.getElem?_eq_some_iff.1 h2).1
        exact ⟨h3, b, rep, by rw [take_app (by omega)]; exact h4, h5.mono (H := fun _ => False) (.refl _ _) (fun h => h) (by omega) (Nat.le_refl _), h6⟩
      · simp only [LSeen.io.injEq, Seen.answer.injEq] at h2
        obtain ⟨hi1, hi2⟩ := h2
        rw [hi1] at h1 ⊢
        rw [hi2, hn]
        have := I.once _ _ _ _ _ h1 a1
        subst this
        rw [h1] at a1
        simp only [Option.some.injEq, LSeen.io.injEq, Seen.arrive.injEq, Ev.packet.injEq, true_and] at a1
        obtain ⟨e1, e2, e3⟩ := a1
        rw [e1, e2, e3]
        have hk : k < s.trace.length := (List.getElem?_eq_some_iff.1 h1).1
        rw [h] at a3
        refine ⟨hk, j.b, rep, by rw [take_app (by omega)]; exact a2, RepOk.mono (H := fun _ => False) a3 (.refl _ _) (fun h => h) (Nat.le_refl _) (Nat.le_refl _), hrs.symm⟩
    · cases h1

/-! ## Every step -/

theorem repOk_search {tr : List (LSeen ι)} {chans : List (Chan ι)} {N k c : Nat} {j : Job ι} {r : SearchReq} {fs : List IdxReq} {rep : LRep}
    (hS : Searches V cfg g stats loop c j r fs) (h : LSearchOk V W cfg m0 tr chans N k j r fs rep) :
    RepOk V W cfg g stats loop m0 c0 tr chans N k c j rep := by
  obtain ⟨bound, h1, h2⟩ := hS
  unfold RepOk
  rw [h1]
  dsimp only
  rw [h2]
  exact h

theorem enterLoop_ok {tr : List (LSeen ι)} {chans : List (Chan ι)} {k c : Nat} {j : Job ι} {r : SearchReq} {fs : List IdxReq} {ck : Str}
    {ch : Nat} {x : Chan ι} (hS : Searches V cfg g stats loop c j r fs) (hx : chans[ch]? = some x)
    (hu : Uses V W m0 tr tr.length k j r fs ck x) (hg : x.got j.id = []) :
    LStageOk V W cfg g stats loop m0 c0 tr chans k c (enterLoop j r ck ch) := by
  unfold enterLoop
  cases hf : compile r.filter with
  | none => exact repOk_search hS (.inr (.inl ⟨hf, rfl⟩))
  | some fp => exact ⟨fs, x, fp, hS, hx, hu, hf, by rw [hg]; rfl⟩

theorem enterLoop_job (j : Job ι) (r : SearchReq) (k : Str) (ch : Nat) :
    (enterLoop j r k ch).job = some j ∧ (enterLoop j r k ch).plain = .begun j := by
  unfold enterLoop; split <;> exact ⟨rfl, rfl⟩

theorem enterNil_job (j : Job ι) (r : SearchReq) :
    (enterNil j r).job = some j ∧ ((enterNil j r).plain = .begun j ∨ (enterNil j r).plain = .over) := by
  unfold enterNil; split
  · exact ⟨rfl, .inl rfl⟩
  · exact ⟨rfl, .inr rfl⟩

theorem takeEntry_job (j : Job ι) (r : SearchReq) (k : Str) (ch : Nat) (con : LdifCon) (e : LEntry) :
    (takeEntry V j r k ch con e).job = some j ∧ (takeEntry V j r k ch con e).plain = .begun j := by
  unfold takeEntry; split <;> exact ⟨rfl, rfl⟩

theorem got_nil {x : Chan ι} {id : ι} (h : ∀ p ∈ x.out, p.1 ≠ id) : x.got id = [] := by
  unfold Chan.got
  rw [List.map_eq_nil_iff, List.filter_eq_nil_iff]
  intro p hp
  simpa using h p hp

theorem regGet_mem {k : Str} {reg : List (Str × Nat)} {ch : Nat} (h : regGet k reg = some ch) : (k, ch) ∈ reg := by
  unfold regGet at h
  obtain ⟨p, h1, h2⟩ := Option.map_eq_some_iff.1 h
  have h3 := List.mem_of_find?_eq_some h1
  have h4 : p.1 = k := by simpa using List.find?_some h1
  obtain ⟨a, b⟩ := p
  cases h2; cases h4
  exact h3

theorem ChanOk.new (tr : List (LSeen ι)) (id : ι) (ck : Option Str) (h : ck ≠ some []) : ChanOk V W cfg m0 tr (Chan.new id ck) where
  made := fun _ => rfl
  sum := rfl
  after := fun h => absurd rfl h
  priv := fun _ p hp => by cases hp
  seen := fun p hp => by cases hp
  data := fun h => absurd rfl h
  key := h

/-- A new channel is added. -/
theorem LInv.chan_add {s : LPar ι} (I : LInv V W cfg g stats loop m0 c0 s) {l : List (LSeen ι)} {id : ι} {ck : Option Str} (h : ck ≠ some [])
    (d : Nat) (y : Chan ι) (hy : (s.chans ++ [Chan.new id ck])[d]? = some y) : ChanOk V W cfg m0 (s.trace ++ l) y := by
  rcases List.mem_append.1 (List.mem_of_getElem? hy) with hm | hm
  · obtain ⟨i, hi⟩ := List.getElem?_of_mem hm
    exact (I.chan i y hi).mono
  · rw [List.mem_singleton] at hm
    rw [hm]
    exact .new _ _ _ h

theorem get_new {l : List (Chan ι)} {x : Chan ι} : (l ++ [x])[l.length]? = some x := by simp

theorem Searches.plan {c : Nat} {j : Job ι} {r : SearchReq} {fs : List IdxReq} (h : Searches V cfg g stats loop c j r fs) :
    indexFilter V.C r.filter = .ok fs ∧ hasSuffix (V.C.lower r.baseDN) cfg.base = true ∧ ∀ f ∈ fs, TagOk f.kind f.tag := by
  obtain ⟨bound, -, h⟩ := h
  unfold searchPlan at h
  split at h
  · cases h
  · cases hi : indexFilter V.C r.filter with
    | ok fs' =>
      rw [hi] at h
      dsimp only at h
      by_cases hb : hasSuffix (V.C.lower r.baseDN) cfg.base = true
      · rw [if_neg (by simpa [cfgAt] using hb)] at h
        cases h
        exact ⟨rfl, hb, indexFilter_tagOk _ _ _ hi⟩
      · rw [if_pos (by simpa [cfgAt] using hb)] at h
        cases h
    | err e => rw [hi] at h; cases h
    | panic => rw [hi] at h; cases h
    | hang => rw [hi] at h; cases h

/-- The invariant is kept by every step. -/
theorem LInv.step {s s' : LPar ι} (I : LInv V W cfg g stats loop m0 c0 s) (L : CookiesLive V s) (h : LParStep V W cfg g stats loop s s') :
    LInv V W cfg g stats loop m0 c0 s' := by
  have hM : mainAt m0 (s.trace.take s.trace.length) = s.main := by rw [List.take_length, I.main]
  have hC : confAt c0 (s.trace.take s.trace.length) = s.conf := by rw [List.take_length, I.conf]
  have hlt : ∀ {k : Nat} {e : LSeen ι}, s.trace[k]? = some e → k < s.trace.length := fun h => (List.getElem?_eq_some_iff.1 h).1
  cases h with
  | arrive c b id o p hd hc hnew => exact I.arrived hc hnew
  | eof c b id hd hc hnew => exact I.ended hc hnew
  | direct c j hd hc hq =>
    refine I.moveOnly (j := j) (by rw [hc]; rfl) (.inl rfl) (.inl (by rw [hc]; rfl)) fun k hk _ => ?_
    show RepOk ..
    unfold RepOk
    rw [hq]
  | bindConf c j dn pw hd hc hq hcf =>
    refine I.moveOnly (j := j) (by rw [hc]; rfl) (by split <;> exact .inl rfl) (.inl (by rw [hc]; split <;> rfl)) fun k hk _ => ?_
    cases hl : confLook V cfg s.conf dn pw with
    | some x =>
      show RepOk ..
      unfold RepOk
      rw [hq]
      refine ⟨_, _, hlt hk, Nat.le_refl _, Nat.le_refl _, ?_⟩
      rw [hC]
      have : bindAns V (cfgAt cfg loop c) s.conf (mainAt m0 (s.trace.take s.trace.length)) dn pw = x := by
        unfold bindAns
        rw [if_pos (show (cfgAt cfg loop c).conf = true from hcf), show confLook V (cfgAt cfg loop c) s.conf dn pw = some x from hl]
        rfl
      rw [this]
    | none =>
      refine ⟨dn, hq, ?_⟩
      rw [if_pos hcf]
      exact ⟨rfl, _, hlt hk, Nat.le_refl _, by rw [hC]; exact hl⟩
  | bindPlain c j dn pw hd hc hq hcf =>
    refine I.moveOnly (j := j) (by rw [hc]; rfl) (.inl rfl) (.inl (by rw [hc]; rfl)) fun k hk _ => ?_
    refine ⟨dn, hq, ?_⟩
    rw [if_neg (by rw [hcf]; simp)]
  | bindMain c j dn pw hd hc =>
    refine I.moveOnly (j := j) (by rw [hc]; rfl) (.inl rfl) (.inl (by rw [hc]; rfl)) fun k hk hst => ?_
    rw [hc] at hst
    obtain ⟨dn', hq, hst⟩ := hst
    show RepOk ..
    unfold RepOk
    rw [hq]
    by_cases hcf : cfg.conf = true
    · rw [if_pos hcf] at hst
      obtain ⟨rfl, i, h1, h2, h3⟩ := hst
      refine ⟨i, s.trace.length, h1, h2, Nat.le_refl _, ?_⟩
      rw [hM]
      unfold bindAns
      rw [if_pos (show (cfgAt cfg loop c).conf = true from hcf),
        show confLook V (cfgAt cfg loop c) (confAt c0 (s.trace.take i)) dn' pw = none from h3]
      rfl
    · rw [if_neg hcf] at hst
      subst hst
      refine ⟨s.trace.length, s.trace.length, hlt hk, Nat.le_refl _, Nat.le_refl _, ?_⟩
      rw [hM]
      unfold bindAns
      rw [if_neg (show ¬ (cfgAt cfg loop c).conf = true from hcf)]
  | searchRefused c j bound r x hd hc hq hp =>
    refine I.moveOnly (j := j) (by rw [hc]; rfl) (.inl rfl) (.inl (by rw [hc]; rfl)) fun k hk _ => ?_
    show RepOk ..
    unfold RepOk
    rw [hq]
    dsimp only
    rw [hp]
  | searchPlain c j bound r fs hd hc hq hp hg =>
    refine I.move (l := []) (j := j) (by rw [hc]; rfl) rfl (.inl rfl) (.inl (by rw [hc]; rfl)) (by simp) rfl I.main I.conf (.add _ _ _ _) ?_
      (I.reg_le (.add (fun _ => False) _ _ _) (fun _ h => h)) fun k hk _ => ?_
    · have := I.chan_add (l := []) (id := j.id) (ck := none) nofun
      rw [List.append_nil] at this
      exact this
    · exact ⟨⟨bound, hq, hp⟩, .inl ⟨hg, rfl, get_new⟩⟩
  | searchFirst c j bound r fs n k hd hc hq hp hg hk =>
    have hk0 : k ≠ [] := by rintro rfl; cases hk
    refine I.move (j := j) (by rw [hc]; rfl) rfl (.inl rfl) (.inl (by rw [hc]; rfl)) rfl rfl (by rw [mainAt_append]; exact I.main)
      (by rw [confAt_append]; exact I.conf) (.add _ _ _ _) ?_ ?_ fun k' hk' _ => ?_
    · exact I.chan_add (id := j.id) (ck := some k) (fun h => hk0 (by cases h; rfl))
    · intro p hp
      rcases List.mem_cons.1 hp with rfl | hp
      · exact ⟨_, get_new, rfl⟩
      · exact I.reg_le (.add (fun _ => False) _ j.id (some k)) regDrop_sub p hp
    · exact ⟨⟨bound, hq, hp⟩, .inr ⟨⟨n, hg⟩, hk0, get_new⟩⟩
  | searchUnknown c j bound r fs n k hd hc hq hp hg hk hr =>
    refine I.moveOnly (j := j) (by rw [hc]; rfl) (.inl rfl) (.inl (by rw [hc]; rfl)) fun k' hk' _ => ?_
    refine repOk_search ⟨bound, hq, hp⟩ (.inl ⟨⟨n, k, hg, hk, Nat.le_of_lt (hlt hk'), ?_⟩, rfl⟩)
    rw [List.take_length]
    by_cases hm : ∃ id, .cookie id k ∈ s.trace
    · obtain ⟨id, hm⟩ := hm
      rcases L id k hm with h | h
      · rw [hr] at h; cases h
      · exact .inr h
    · exact .inl fun id h => hm ⟨id, List.mem_of_mem_take h⟩
  | searchNext c j bound r fs n k ch hd hc hq hp hg hk hr hn =>
    obtain ⟨h1, h2⟩ := enterLoop_job j r k ch
    refine I.moveOnly (j := j) (by rw [hc]; rfl) (.inl h1) (.inl (by rw [hc]; exact h2)) fun k' hk' hst => ?_
    obtain ⟨x, h3, h4⟩ := I.reg _ (regGet_mem hr)
    rw [hc] at hst
    exact enterLoop_ok ⟨bound, hq, hp⟩ h3 (.inr (.inr ⟨⟨n, hn, hg⟩, hk, h4⟩)) (got_nil (hst ch x h3))
  | searchAbandon c j bound r fs k ch hd hc hq hp hg hk hr =>
    exact I.moveOnly (j := j) (by rw [hc]; rfl) (.inl rfl) (.inl (by rw [hc]; rfl)) fun k' hk' _ => ⟨⟨fs, bound, hq, hp⟩, hg, hk⟩
  | drop c j r k hd hc =>
    obtain ⟨h1, h2⟩ := enterNil_job j r
    refine I.move (l := []) (j := j) (by rw [hc]; rfl) rfl (.inl h1) (h2.imp_left fun h => by rw [hc]; exact h) (by simp) rfl I.main I.conf (.refl _ _) I.chan
      (fun p hp => I.reg p (regDrop_sub p hp)) fun k' hk' hst => ?_
    rw [hc] at hst
    obtain ⟨⟨fs, hS⟩, h3, h4⟩ := hst
    unfold enterNil
    cases hf : compile r.filter with
    | none => exact repOk_search hS (.inr (.inl ⟨hf, rfl⟩))
    | some fp => trivial
  | begin c j r fs k ch x hd hc hch =>
    obtain ⟨h1, h2⟩ := enterLoop_job j r k ch
    obtain ⟨k0, a1, a2, a3⟩ := I.stage c j (by rw [hc]; rfl)
    rw [hc] at a3
    obtain ⟨hS, a3⟩ := a3
    have hx : x = Chan.new j.id x.cookie := by
      rcases a3 with ⟨_, _, a3⟩ | ⟨_, _, a3⟩ <;> (rw [hch] at a3; cases a3; rfl)
    have hle : ChanLe (· = j.id) x (x.begin (pump V.C W s.main (V.C.lower r.baseDN) fs)) := by
      rw [hx]
      exact ⟨rfl, rfl, fun h => absurd rfl h, fun _ => .inr rfl, nofun, [], by simp [Chan.begin], by simp⟩
    refine I.move (l := []) (j := j) (by rw [hc]; rfl) rfl (.inl h1) (.inl (by rw [hc]; exact h2)) (by simp) rfl I.main I.conf (.set hch hle) ?_
      (I.reg_le (.set hch hle) fun _ h => h) fun k' hk' hst => ?_
    · have hok : ChanOk V W cfg m0 s.trace (x.begin (pump V.C W s.main (V.C.lower r.baseDN) fs)) := by
        refine ⟨nofun, ?_, fun _ h => absurd rfl h, ?_, ?_, fun _ => ⟨nofun, s.trace.length, _, _, Nat.le_refl _, hS.plan.2.1, hS.plan.2.2, by rw [hM]; rfl⟩, (I.chan ch x hch).key⟩
        · rw [hx]; rfl
        · rw [hx]; intro _ p hp; cases hp
        · rw [hx]; intro p hp; cases hp
      have := I.chan_set (l := []) (ch := ch) (x' := x.begin (pump V.C W s.main (V.C.lower r.baseDN) fs)) (by rw [List.append_nil]; exact hok)
      rw [List.append_nil] at this
      exact this
    · have hb : BegunBy V W m0 s.trace s.trace.length k' j r fs (x.begin (pump V.C W s.main (V.C.lower r.baseDN) fs)) := by
        refine ⟨by rw [hx]; rfl, nofun, s.trace.length, hlt hk', Nat.le_refl _, by rw [hM]; rfl⟩
      refine enterLoop_ok hS (List.getElem?_set_self (List.getElem?_eq_some_iff.1 hch).1) ?_ ?_
      · rcases a3 with ⟨a4, a5, a6⟩ | ⟨a4, a5, a6⟩
        · rw [hch] at a6; cases a6
          exact .inl ⟨a4, a5, rfl, hb⟩
        · rw [hch] at a6; cases a6
          exact .inr (.inl ⟨a4, a5, rfl, hb⟩)
      · rw [hx]; rfl
  | hand c j r k ch con x e es hd hc hch ho ht =>
    obtain ⟨h1, h2⟩ := takeEntry_job (V := V) j r k ch con e
    have hx := I.chan ch x hch
    have hnm : x.phase ≠ .made := by rw [ho]; nofun
    have hle : ChanLe (· = j.id) x { x with todo := es, out := x.out ++ [(j.id, e)] } :=
      ⟨rfl, rfl, fun h => ⟨h, rfl⟩, fun h => absurd h hnm, (by rw [ho]; nofun), [(j.id, e)], rfl, by simp⟩
    obtain ⟨k0, a1, a2, a3⟩ := I.stage c j (by rw [hc]; rfl)
    rw [hc] at a3
    obtain ⟨fs, x1, fp, hS, b1, b2, b3, b4⟩ := a3
    rw [hch] at b1; cases b1
    have hok : ChanOk V W cfg m0 s.trace { x with todo := es, out := x.out ++ [(j.id, e)] } := by
      refine ⟨fun h => absurd h hnm, ?_, fun _ h => absurd ho h, ?_, ?_, fun h => ?_, hx.key⟩
      · have := hx.sum
        rw [ht] at this
        simpa using this
      · intro hcn p hp
        rcases List.mem_append.1 hp with hp | hp
        · exact hx.priv hcn p hp
        · rw [List.mem_singleton] at hp
          subst hp
          rcases b2 with ⟨_, _, _, d4⟩ | ⟨_, _, d3, _⟩ | ⟨_, _, d3⟩
          · exact d4.1.symm
          · rw [show x.cookie = none from hcn] at d3; cases d3
          · rw [show x.cookie = none from hcn] at d3; cases d3
      · intro p hp
        rcases List.mem_append.1 hp with hp | hp
        · exact hx.seen p hp
        · rw [List.mem_singleton] at hp
          subst hp
          exact ⟨_, List.mem_of_getElem? a1⟩
      · exact hx.data h
    refine I.move (l := []) (j := j) (by rw [hc]; rfl) rfl (.inl h1) (.inl (by rw [hc]; exact h2)) (by simp) rfl I.main I.conf (.set hch hle) ?_
      (I.reg_le (.set hch hle) fun _ h => h) fun k' hk' hst => ?_
    · have := I.chan_set (l := []) (ch := ch) (x' := { x with todo := es, out := x.out ++ [(j.id, e)] }) (by rw [List.append_nil]; exact hok)
      rw [List.append_nil] at this
      exact this
    · rw [hc] at hst
      obtain ⟨fs, x1, fp, hS, b1, b2, b3, b4⟩ := hst
      rw [hch] at b1; cases b1
      have hget : (s.chans.set ch { x with todo := es, out := x.out ++ [(j.id, e)] })[ch]? = some { x with todo := es, out := x.out ++ [(j.id, e)] } :=
        List.getElem?_set_self (List.getElem?_eq_some_iff.1 hch).1
      have hu : Uses V W m0 s.trace s.trace.length k' j r fs k { x with todo := es, out := x.out ++ [(j.id, e)] } := by
        have := b2.mono (l := []) hle (Nat.le_refl _) (Nat.le_refl _)
        rw [List.append_nil] at this
        exact this
      have hgot : ({ x with todo := es, out := x.out ++ [(j.id, e)] } : Chan ι).got j.id = x.got j.id ++ [e] := by
        simp [Chan.got]
      have heat := eatAll_snoc _ _ _ _ e b4
      rw [← hgot, Con.receive] at heat
      show LStageOk V W cfg g stats loop m0 c0 s.trace _ k' c (takeEntry V j r k ch con e)
      unfold takeEntry
      cases hE : ldifEat V con e with
      | inl con' =>
        rw [hE] at heat
        exact ⟨fs, _, fp, hS, hget, hu, b3, heat⟩
      | inr res =>
        rw [hE] at heat
        exact repOk_search hS (.inr (.inr ⟨ch, _, k, fp, hget, hu, b3, hok.data hnm, .inl ⟨_, e, con, res, hgot, b4, hE, rfl⟩⟩))
  | closed c j r k ch con x hd hc hch ho =>
    have hx := I.chan ch x hch
    refine I.moveOnly (j := j) (by rw [hc]; rfl) (.inl rfl) (.inl (by rw [hc]; rfl)) fun k' hk' hst => ?_
    rw [hc] at hst
    obtain ⟨fs, x1, fp, hS, b1, b2, b3, b4⟩ := hst
    rw [hch] at b1; cases b1
    refine repOk_search hS (.inr (.inr ⟨ch, _, k, fp, hch, b2, b3, hx.data (by rw [ho]; nofun), .inr ⟨con, b4, ho, ?_, rfl⟩⟩))
    rw [List.take_length]
    exact hx.after (by rw [ho]; nofun) (by rw [ho]; nofun)
  | finish ch x hd hch ho ht =>
    have hx := I.chan ch x hch
    have hnm : x.phase ≠ .made := by rw [ho]; nofun
    have hle : ChanLe (fun _ => False) x { x with phase := .removing } :=
      ⟨rfl, rfl, fun _ => ⟨nofun, rfl⟩, fun h => absurd h hnm, (by rw [ho]; nofun), [], by simp, by simp⟩
    refine I.back (l := []) rfl (by simp) rfl I.main I.conf (.set hch hle) ?_ (I.reg_le (.set hch hle) fun _ h => h)
    have hok : ChanOk V W cfg m0 (s.trace ++ []) { x with phase := .removing } := by
      rw [List.append_nil]
      exact ⟨nofun, hx.sum, fun _ _ => .inl ht, hx.priv, hx.seen, fun _ => ⟨nofun, (hx.data hnm).2⟩, hx.key⟩
    have := I.chan_set (ch := ch) hok
    rw [List.append_nil] at this
    exact this
  | giveUp ch x hd hch ho ht =>
    have hx := I.chan ch x hch
    have hnm : x.phase ≠ .made := by rw [ho]; nofun
    have hle : ChanLe (fun _ => False) x { x with phase := .removing, gaveUp := true } :=
      ⟨rfl, rfl, fun _ => ⟨nofun, rfl⟩, fun h => absurd h hnm, (by rw [ho]; nofun), [], by simp, by simp⟩
    refine I.back rfl rfl rfl (by rw [mainAt_append]; exact I.main) (by rw [confAt_append]; exact I.conf) (.set hch hle) ?_ (I.reg_le (.set hch hle) fun _ h => h)
    have hx' := hx.mono (l := [.gaveUp x.owner])
    have hok : ChanOk V W cfg m0 (s.trace ++ [.gaveUp x.owner]) { x with phase := .removing, gaveUp := true } :=
      ⟨nofun, hx.sum, fun _ _ => .inr (by simp), hx.priv, hx'.seen, fun _ => ⟨nofun, (hx'.data hnm).2⟩, hx.key⟩
    exact I.chan_set (ch := ch) hok
  | remove ch x hd hch ho =>
    have hx := I.chan ch x hch
    have hnm : x.phase ≠ .made := by rw [ho]; nofun
    have hle : ChanLe (fun _ => False) x { x with phase := .closing } :=
      ⟨rfl, rfl, fun _ => ⟨nofun, rfl⟩, fun h => absurd h hnm, (by rw [ho]; nofun), [], by simp, by simp⟩
    refine I.back (l := []) rfl (by simp) rfl I.main I.conf (.set hch hle) ?_ (I.reg_le (.set hch hle) ?_)
    · have hok : ChanOk V W cfg m0 (s.trace ++ []) { x with phase := .closing } := by
        rw [List.append_nil]
        exact ⟨nofun, hx.sum, fun _ _ => hx.after hnm (by rw [ho]; nofun), hx.priv, hx.seen, fun _ => ⟨nofun, (hx.data hnm).2⟩, hx.key⟩
      have := I.chan_set (ch := ch) hok
      rw [List.append_nil] at this
      exact this
    · intro p hp
      dsimp only at hp
      split at hp
      · exact regDrop_sub p hp
      · exact hp
  | close ch x hd hch ho =>
    have hx := I.chan ch x hch
    have hnm : x.phase ≠ .made := by rw [ho]; nofun
    have hle : ChanLe (fun _ => False) x { x with phase := .ended } :=
      ⟨rfl, rfl, fun _ => ⟨nofun, rfl⟩, fun h => absurd h hnm, (by rw [ho]; nofun), [], by simp, by simp⟩
    refine I.back (l := []) rfl (by simp) rfl I.main I.conf (.set hch hle) ?_ (I.reg_le (.set hch hle) fun _ h => h)
    have hok : ChanOk V W cfg m0 (s.trace ++ []) { x with phase := .ended } := by
      rw [List.append_nil]
      exact ⟨nofun, hx.sum, fun _ _ => hx.after hnm (by rw [ho]; nofun), hx.priv, hx.seen, fun _ => ⟨nofun, (hx.data hnm).2⟩, hx.key⟩
    have := I.chan_set (ch := ch) hok
    rw [List.append_nil] at this
    exact this
  | reloadConf recs m hd hc hr hm =>
    exact I.back rfl rfl rfl (by rw [mainAt_append]; exact I.main) (by rw [confAt_append]; rfl) (.refl _ _)
      (fun ch x hx => (I.chan ch x hx).mono) I.reg
  | reloadMain recs m hd hr hm =>
    exact I.back rfl rfl rfl (by rw [mainAt_append]; rfl) (by rw [confAt_append]; exact I.conf) (.refl _ _)
      (fun ch x hx => (I.chan ch x hx).mono) I.reg
  | reloadFail recs hd hr hm => exact I.back (l := []) rfl (by simp) rfl I.main I.conf (.refl _ _) I.chan I.reg
  | goOn c j rep b' hd hc hn =>
    have ha := I.ids.job c j (by show (s.conns c).plain.job = _; rw [hc]; rfl)
    refine I.answered hc rfl fun b hb => ?_
    cases hb
    rcases step_identity (V := V) (srv := recordLdif rep g stats) j.o j.p j.b b' none hn with ⟨k1, dn, k2, k3⟩ | ⟨k1, rfl⟩
    · exact .bind ha k1 k2 k3
    · exact (I.ids.identity c j.b (by show (s.conns c).plain.identity = _; rw [hc]; rfl)).answer _ _ fun _ _ _ => k1
  | hangUp c j rep hd hc hn => exact I.answered hc rfl fun b hb => by cases hb
  | lost c j rep k hd hc hk => exact I.cut _ _ _ s.down (over_only s.conns (j := j) (by rw [hc]; rfl))
  | block c j rep hd hc hn => exact I.cut _ _ _ s.down (over_only s.conns (j := j) (by rw [hc]; rfl))
  | crash c j rep hd hc hn => exact I.cut _ _ s.conns true fun _ => .inl rfl

theorem regGet_drop {k key : Str} {reg : List (Str × Nat)} (hne : key ≠ k) : regGet key (regDrop k reg) = regGet key reg := by
  unfold regGet regDrop
  rw [List.find?_filter]
  congr 2
  funext p
  by_cases h : p.1 = key
  · simp [h, hne]
  · simp [h]

theorem CookiesLive.keep {s s' : LPar ι} {H : ι → Prop} (L : CookiesLive V s) (hx : ChansLe H s.chans s'.chans) (ht : ∀ e ∈ s.trace, e ∈ s'.trace)
    (hc : ∀ id key, .cookie id key ∈ s'.trace → .cookie id key ∈ s.trace) (hr : s'.reg = s.reg) : CookiesLive V s' := by
  intro id key h
  rw [hr]
  exact (L id key (hc id key h)).imp_right (Or.imp (fun h => h.mono ht) fun h => h.mono hx ht)

theorem CookiesLive.step {s s' : LPar ι} (I : LInv V W cfg g stats loop m0 c0 s) (L : CookiesLive V s) (h : LParStep V W cfg g stats loop s s') :
    CookiesLive V s' := by
  have same : ∀ {s' : LPar ι}, s'.chans = s.chans → (∃ l, s'.trace = s.trace ++ l ∧ ∀ id key, .cookie id key ∉ l) → s'.reg = s.reg → CookiesLive V s' := by
    intro s' h1 ⟨l, h2, h3⟩ h4
    refine L.keep (H := fun _ => False) (by rw [h1]; exact .refl _ _) (by rw [h2]; intro e he; simp [he]) ?_ h4
    intro id key hk
    rw [h2] at hk
    exact (List.mem_append.1 hk).resolve_right (h3 id key)
  have len : ∀ {ch : Nat} {x : Chan ι}, s.chans[ch]? = some x → x.phase = .removing → x.all.length ≤ x.out.length ∨ .gaveUp x.owner ∈ s.trace := by
    intro ch x hch ho
    have hX := I.chan ch x hch
    refine (hX.after (by rw [ho]; nofun) (by rw [ho]; nofun)).imp_left fun ht => ?_
    have := hX.sum
    rw [ht, List.append_nil] at this
    rw [← this]; simp
  cases h with
  | searchPlain c j bound r fs hd hc hq hp hg => exact L.keep (H := fun _ => False) (.add _ _ _ _) (fun _ h => h) (fun _ _ h => h) rfl
  | searchFirst c j bound r fs n k hd hc hq hp hg hk =>
    intro id key h
    by_cases hkk : key = k
    · subst hkk
      left
      simp [regGet]
    · rcases List.mem_append.1 h with h | h
      · have : regGet key ((k, s.chans.length) :: regDrop k s.reg) = regGet key s.reg := by
          rw [← regGet_drop (reg := s.reg) hkk]
          unfold regGet
          rw [List.find?_cons_of_neg (by simpa using fun e => hkk e.symm)]
        have hl := L id key h
        rw [← this] at hl
        exact hl.imp_right (Or.imp (fun h => h.mono fun e he => by simp [he])
          fun h => h.mono (H := fun _ => False) (.add _ _ _ _) fun e he => by simp [he])
      · rw [List.mem_singleton] at h
        cases h
        exact absurd rfl hkk
  | drop c j r k hd hc =>
    intro id key h
    by_cases hkk : key = k
    · subst hkk
      right; left
      obtain ⟨k', h1, -, h2⟩ := I.stage c j (by rw [hc]; rfl)
      rw [hc] at h2
      obtain ⟨⟨fs, bound, hq, -⟩, hp, -⟩ := h2
      obtain ⟨-, mid, req, -, -, -, hcs⟩ := ldifCall_search hq
      exact ⟨j.id, c, j.p, j.o, List.mem_of_getElem? h1, decodeControls_mem _ _ hcs _ (pagingOf_mem hp)⟩
    · have hl := L id key h
      rw [← regGet_drop hkk] at hl
      exact hl
  | begin c j r fs k ch x hd hc hch =>
    obtain ⟨k', -, -, h2⟩ := I.stage c j (by rw [hc]; rfl)
    rw [hc] at h2
    have hx : x = Chan.new j.id x.cookie := by
      rcases h2.2 with ⟨-, -, e⟩ | ⟨-, -, e⟩ <;> (rw [hch] at e; cases e; rfl)
    refine L.keep (H := fun _ => True) (.set hch ⟨rfl, rfl, fun hp => ?_, fun _ => .inr trivial, fun hp => ?_, [], ?_⟩) (fun _ h => h) (fun _ _ h => h) rfl
    · rw [hx] at hp; exact absurd rfl hp
    · rw [hx] at hp; cases hp
    · simp [Chan.begin]
  | hand c j r k ch con x e es hd hc hch ho ht =>
    exact L.keep (H := fun _ => True) (.set hch ⟨rfl, rfl, fun hp => ⟨hp, rfl⟩, fun hp => .inr trivial, fun hp => by (rw [ho] at hp; cases hp),
      [(j.id, e)], rfl, fun _ _ => trivial⟩) (fun _ h => h) (fun _ _ h => h) rfl
  | finish ch x hd hch ho ht =>
    exact L.keep (H := fun _ => True) (.set hch ⟨rfl, rfl, fun _ => ⟨nofun, rfl⟩, fun hp => .inr trivial, fun hp => by (rw [ho] at hp; cases hp),
      [], by simp⟩) (fun _ h => h) (fun _ _ h => h) rfl
  | giveUp ch x hd hch ho ht =>
    exact L.keep (H := fun _ => True) (.set hch ⟨rfl, rfl, fun _ => ⟨nofun, rfl⟩, fun hp => .inr trivial, fun hp => by (rw [ho] at hp; cases hp),
      [], by simp⟩) (fun e h => by simp [h]) (fun _ _ h => by simpa using h) rfl
  | remove ch x hd hch ho =>
    have hx : ChansLe (fun _ => True) s.chans (s.chans.set ch { x with phase := .closing }) :=
      .set hch ⟨rfl, rfl, fun _ => ⟨nofun, rfl⟩, fun hp => .inr trivial, fun hp => by (rw [ho] at hp; cases hp), [], by simp⟩
    have hE : ∀ k, x.cookie = some k → Emptied s.trace (s.chans.set ch { x with phase := .closing }) k := fun k hck =>
      ⟨ch, { x with phase := .closing }, List.getElem?_set_self (List.getElem?_eq_some_iff.1 hch).1, hck, nofun,
        show x.all.length ≤ x.out.length ∨ .gaveUp x.owner ∈ s.trace from len hch ho⟩
    intro id key h
    dsimp only at h ⊢
    generalize s.chans.set ch { x with phase := .closing } = cs at hx hE ⊢
    cases hck : x.cookie with
    | none => exact (L id key h).imp_right (Or.imp_right fun h => h.mono hx fun _ h => h)
    | some k =>
      by_cases hkk : key = k
      · subst hkk
        exact .inr (.inr (hE _ hck))
      · have hl := L id key h
        rw [← regGet_drop hkk] at hl
        exact hl.imp_right (Or.imp_right fun h => h.mono hx fun _ h => h)
  | close ch x hd hch ho =>
    exact L.keep (H := fun _ => True) (.set hch ⟨rfl, rfl, fun _ => ⟨nofun, rfl⟩, fun hp => .inr trivial, fun hp => by (rw [ho] at hp; cases hp),
      [], by simp⟩) (fun _ h => h) (fun _ _ h => h) rfl
  | _ => first | exact same rfl ⟨[], (List.append_nil _).symm, nofun⟩ rfl | exact same rfl ⟨_, rfl, by simp⟩ rfl

/-- The invariant holds in every reachable state. -/
theorem linv_live {s : LPar ι} (h : LParReach V W cfg g stats loop m0 c0 s) : LInv V W cfg g stats loop m0 c0 s ∧ CookiesLive V s := by
  induction h with
  | start =>
    refine ⟨?_, fun _ _ h => by cases h⟩
    exact ⟨rfl, rfl, ⟨fun _ _ h => by (cases h), by simp [LPar.start, LPar.shadow, ios], by simp [LPar.start, LPar.shadow, ios],
        fun c b h => by (cases h; exact .inl ⟨rfl, by simp [LPar.start, LPar.shadow, ios]⟩)⟩,
      by simp [LPar.start], fun _ _ h => by (cases h), fun _ _ h => by (cases h), by simp [LPar.start], by simp [LPar.start], by simp [LPar.start]⟩
  | step s s' _ hs I => exact ⟨I.1.step I.2 hs, I.2.step I.1 hs⟩

theorem linv {s : LPar ι} (h : LParReach V W cfg g stats loop m0 c0 s) : LInv V W cfg g stats loop m0 c0 s := (linv_live h).1

end
end Idm
