import Verif.Model.LdifParallel
/-!
# Steps of the LDIF server that can be computed

For examples, and to show that a request is never stuck: what the goroutine of a connection does next is a function of the state.
-/
namespace Idm
section
variable {ι : Type} (V : Env) (W : WalkOrd) (cfg : LdifCfg) (g : Nat) (stats : Bool) (loop : Nat → Bool)

/-- What the goroutine of connection `c` does next, if it can do anything; `key` is the cookie it makes. -/
def lAdvance (key : Str) (s : LPar ι) (c : Nat) : Option (LPar ι) :=
  match s.conns c with
  | .ready _ => none
  | .over => none
  | .stuck _ => none
  | .begun j => match ldifCall V g stats j.o j.p j.b with
    | none => some { s with conns := setLStage s.conns c (.returned j .nothing) }
    | some (.bind dn pw) =>
      if cfg.conf then some { s with conns := setLStage s.conns c (match confLook V cfg s.conf dn pw with
        | some x => .returned j (.bind x)
        | none => .bindMain j (V.C.lower dn) pw) }
      else some { s with conns := setLStage s.conns c (.bindMain j dn pw) }
    | some (.search bound r) => match searchPlan V (cfgAt cfg loop c) bound r with
      | .inl x => some { s with conns := setLStage s.conns c (.returned j (.search x)) }
      | .inr fs => match pagingOf r with
        | none => some { s with conns := setLStage s.conns c (.starting j r fs [] s.chans.length), chans := s.chans ++ [Chan.new j.id none] }
        | some (n, k) =>
          if k = [] then
            if key.length = 11 then
              some { s with conns := setLStage s.conns c (.starting j r fs key s.chans.length), chans := s.chans ++ [Chan.new j.id (some key)],
                            reg := (key, s.chans.length) :: regDrop key s.reg, trace := s.trace ++ [.cookie j.id key] }
            else none
          else match regGet k s.reg with
            | none => some { s with conns := setLStage s.conns c (.returned j (.search (.ok ⟨[], [], rcUnwillingToPerform, true⟩))) }
            | some ch =>
              if n > 0 then some { s with conns := setLStage s.conns c (enterLoop j r k ch) }
              else some { s with conns := setLStage s.conns c (.dropping j r k) }
  | .bindMain j dn pw =>
    some { s with conns := setLStage s.conns c (.returned j (.bind (mainLook V (cfgAt cfg loop c) s.main dn pw))) }
  | .starting j r fs k ch => match s.chans[ch]? with
    | none => none
    | some x => some { s with conns := setLStage s.conns c (enterLoop j r k ch),
                              chans := s.chans.set ch (x.begin (pump V.C W s.main (V.C.lower r.baseDN) fs)) }
  | .dropping j r k => some { s with conns := setLStage s.conns c (enterNil j r), reg := regDrop k s.reg }
  | .receiving j r k ch con => match s.chans[ch]? with
    | none => none
    | some x => match x.phase, x.todo with
      | .offering, e :: es => some { s with conns := setLStage s.conns c (takeEntry V j r k ch con e),
                                            chans := s.chans.set ch { x with todo := es, out := x.out ++ [(j.id, e)] } }
      | .ended, _ => some { s with conns := setLStage s.conns c (.returned j (.search (pageReply r k true (ldifFin con)))) }
      | _, _ => none
  | .returned j rep => match (ldifEnd V g stats j.o j.p j.b rep).2 with
    | .go b' => some { s with conns := setLStage s.conns c (.ready b'),
                              trace := s.trace ++ [.io (.answer j.id (ldifEnd V g stats j.o j.p j.b rep).1)] }
    | .closed => some { s with conns := setLStage s.conns c .over,
                               trace := s.trace ++ [.io (.answer j.id (ldifEnd V g stats j.o j.p j.b rep).1)] }
    | .hang => some { s with conns := setLStage s.conns c .over, trace := s.trace ++ [.io (.cut j.id (ldifEnd V g stats j.o j.p j.b rep).1)] }
    | .crash => some { s with down := true, trace := s.trace ++ [.io (.cut j.id (ldifEnd V g stats j.o j.p j.b rep).1)] }

/-- What a producer does next when nobody takes anything from it. -/
def lProduce (s : LPar ι) (ch : Nat) : Option (LPar ι) :=
  match s.chans[ch]? with
  | none => none
  | some x => match x.phase, x.todo with
    | .offering, [] => some { s with chans := s.chans.set ch { x with phase := .removing } }
    | .removing, _ => some { s with chans := s.chans.set ch { x with phase := .closing },
                                    reg := match x.cookie with | some k => regDrop k s.reg | none => s.reg }
    | .closing, _ => some { s with chans := s.chans.set ch { x with phase := .ended } }
    | _, _ => none

/-- A move: a packet arrives, a goroutine goes on, a producer goes on or gives up, the files are loaded. -/
inductive LMove (ι : Type) where
  | arrive (c : Nat) (id : ι) (o : Oracle) (p : Packet)
  | go (c : Nat)
  | produce (ch : Nat)
  | giveUp (ch : Nat)
  | conf (recs : List (Option Entry))
  | main (recs : List (Option Entry))

/-- The number was not used. -/
def unused [DecidableEq ι] (id : ι) (tr : List (LSeen ι)) : Bool := tr.all fun e => match e with
  | .io (.arrive i _) => decide (i ≠ id)
  | _ => true

/-- Do a move, if it is possible. -/
def lMove [DecidableEq ι] (key : Str) (s : LPar ι) : LMove ι → Option (LPar ι)
  | .arrive c id o p => match s.conns c with
    | .ready b => if unused id s.trace then
        some { s with conns := setLStage s.conns c (.begun ⟨id, o, p, b⟩), trace := s.trace ++ [.io (.arrive id (.packet c p o))] }
      else none
    | _ => none
  | .go c => lAdvance V W cfg g stats loop key s c
  | .produce ch => lProduce s ch
  | .giveUp ch => match s.chans[ch]? with
    | none => none
    | some x => match x.phase, x.todo with
      | .offering, _ :: _ => some { s with chans := s.chans.set ch { x with phase := .removing, gaveUp := true }, trace := s.trace ++ [.gaveUp x.owner] }
      | _, _ => none
  | .conf recs => match openLdif V cfg (V.C.lower cfg.optBase) recs with
    | none => none
    | some m => if cfg.conf = true ∧ s.reloading = false then
        some { s with conf := m, reloading := true, trace := s.trace ++ [.conf m] } else none
  | .main recs => match openLdif V cfg cfg.base recs with
    | none => none
    | some m => if s.reloading = cfg.conf then some { s with main := m, reloading := false, trace := s.trace ++ [.main m] } else none

/-- Do moves. -/
def lMoves [DecidableEq ι] (key : Str) (s : LPar ι) : List (LMove ι) → Option (LPar ι)
  | [] => some s
  | m :: ms => if s.down then none else match lMove V W cfg g stats loop key s m with
    | none => none
    | some s' => lMoves key s' ms
end

section
variable {ι : Type} {V : Env} {W : WalkOrd} {cfg : LdifCfg} {g : Nat} {stats : Bool} {loop : Nat → Bool} {m c : LMem}

theorem lAdvance_step {key : Str} {s s' : LPar ι} {c : Nat} (hd : s.down = false) (h : lAdvance V W cfg g stats loop key s c = some s') :
    LParStep V W cfg g stats loop s s' := by
  unfold lAdvance at h
  split at h
  · cases h
  · cases h
  · cases h
  · rename_i j hj
    split at h
    · rename_i hq
      cases h
      exact .direct _ _ _ hd hj hq
    · rename_i dn pw hq
      split at h
      · cases h; exact .bindConf _ _ _ _ _ hd hj hq (by assumption)
      · rename_i hc
        cases h; exact .bindPlain _ _ _ _ _ hd hj hq (by simpa using hc)
    · rename_i bound r hq
      split at h
      · cases h; exact .searchRefused _ _ _ _ _ _ hd hj hq (by assumption)
      · rename_i fs hp
        split at h
        · cases h; exact .searchPlain _ _ _ _ _ _ hd hj hq hp (by assumption)
        · rename_i n k hg
          by_cases hk : k = []
          · rw [if_pos hk] at h
            subst hk
            by_cases hl : key.length = 11
            · rw [if_pos hl] at h
              cases h
              exact .searchFirst _ _ _ _ _ _ _ _ hd hj hq hp hg hl
            · rw [if_neg hl] at h; cases h
          · rw [if_neg hk] at h
            split at h
            · cases h; exact .searchUnknown _ _ _ _ _ _ _ _ hd hj hq hp hg hk (by assumption)
            · by_cases hn : n > 0
              · rw [if_pos hn] at h
                cases h; exact .searchNext _ _ _ _ _ _ _ _ _ hd hj hq hp hg hk (by assumption) hn
              · rw [if_neg hn] at h
                have : n = 0 := by omega
                subst this
                cases h; exact .searchAbandon _ _ _ _ _ _ _ _ hd hj hq hp hg hk (by assumption)
  · cases h; exact .bindMain _ _ _ _ _ hd (by assumption)
  · split at h
    · cases h
    · cases h; exact .begin _ _ _ _ _ _ _ _ hd (by assumption) (by assumption)
  · cases h; exact .drop _ _ _ _ _ hd (by assumption)
  · split at h
    · cases h
    · split at h
      · cases h; exact .hand _ _ _ _ _ _ _ _ _ _ hd (by assumption) (by assumption) (by assumption) (by assumption)
      · cases h; exact .closed _ _ _ _ _ _ _ _ hd (by assumption) (by assumption) (by assumption)
      · cases h
  · split at h
    · cases h; exact .goOn _ _ _ _ _ hd (by assumption) (by assumption)
    · cases h; exact .hangUp _ _ _ _ hd (by assumption) (by assumption)
    · cases h; exact .block _ _ _ _ hd (by assumption) (by assumption)
    · cases h; exact .crash _ _ _ _ hd (by assumption) (by assumption)

theorem lProduce_step {s s' : LPar ι} {ch : Nat} (hd : s.down = false) (h : lProduce s ch = some s') : LParStep V W cfg g stats loop s s' := by
  unfold lProduce at h
  split at h
  · cases h
  · split at h
    · cases h; exact .finish _ _ _ hd (by assumption) (by assumption) (by assumption)
    · cases h; exact .remove _ _ _ hd (by assumption) (by assumption)
    · cases h; exact .close _ _ _ hd (by assumption) (by assumption)
    · cases h

theorem unused_new [DecidableEq ι] {id : ι} {tr : List (LSeen ι)} (h : unused id tr = true) : ∀ e, LSeen.io (.arrive id e) ∉ tr := by
  intro e he
  have := List.all_eq_true.1 h _ he
  simp at this

theorem lMove_step [DecidableEq ι] {key : Str} {s s' : LPar ι} {mv : LMove ι} (hd : s.down = false)
    (h : lMove V W cfg g stats loop key s mv = some s') : LParStep V W cfg g stats loop s s' := by
  cases mv with
  | arrive c id o p =>
    unfold lMove at h
    dsimp only at h
    split at h
    · split at h
      · cases h; exact .arrive _ _ _ _ _ _ hd (by assumption) (unused_new (by assumption))
      · cases h
    · cases h
  | go c => exact lAdvance_step hd h
  | produce ch => exact lProduce_step hd h
  | giveUp ch =>
    unfold lMove at h
    dsimp only at h
    split at h
    · cases h
    · split at h
      · rename_i ht
        cases h; exact .giveUp _ _ _ hd (by assumption) (by assumption) (by rw [ht]; nofun)
      · cases h
  | conf recs =>
    unfold lMove at h
    dsimp only at h
    split at h
    · cases h
    · split at h
      · rename_i hc
        cases h; exact .reloadConf _ _ _ hd hc.1 hc.2 (by assumption)
      · cases h
  | main recs =>
    unfold lMove at h
    dsimp only at h
    split at h
    · cases h
    · split at h
      · cases h; exact .reloadMain _ _ _ hd (by assumption) (by assumption)
      · cases h

theorem lMoves_reach [DecidableEq ι] {key : Str} (ms : List (LMove ι)) : ∀ {s s' : LPar ι}, LParReach V W cfg g stats loop m c s →
    lMoves V W cfg g stats loop key s ms = some s' → LParReach V W cfg g stats loop m c s' := by
  induction ms with
  | nil => intro s s' h e; cases e; exact h
  | cons mv ms ih =>
    intro s s' h e
    unfold lMoves at e
    split at e
    · cases e
    · rename_i hd
      split at e
      · cases e
      · rename_i s1 h1
        exact ih (.step _ _ h (lMove_step (by simpa using hd) h1)) e

theorem LParStep.grows {s s' : LPar ι} (h : LParStep V W cfg g stats loop s s') : ∃ l, s'.trace = s.trace ++ l := by
  cases h <;> first | exact ⟨[], (List.append_nil _).symm⟩ | exact ⟨_, rfl⟩

theorem lMoves_grows [DecidableEq ι] {key : Str} (ms : List (LMove ι)) : ∀ {s s' : LPar ι},
    lMoves V W cfg g stats loop key s ms = some s' → ∃ l, s'.trace = s.trace ++ l := by
  induction ms with
  | nil => intro s s' e; cases e; exact ⟨[], (List.append_nil _).symm⟩
  | cons mv ms ih =>
    intro s s' e
    unfold lMoves at e
    split at e
    · cases e
    · rename_i hd
      split at e
      · cases e
      · rename_i s1 h1
        obtain ⟨l1, e1⟩ := (lMove_step (by simpa using hd) h1).grows
        obtain ⟨l2, e2⟩ := ih e
        exact ⟨l1 ++ l2, by rw [e2, e1, List.append_assoc]⟩

/-- The arrivals among the moves are in the log in this order. -/
theorem lMoves_arrive [DecidableEq ι] {key : Str} {cn : Nat} {id : ι} {o : Oracle} {p : Packet} {post : List (LMove ι)} (pre : List (LMove ι)) :
    ∀ {s s' : LPar ι}, lMoves V W cfg g stats loop key s (pre ++ .arrive cn id o p :: post) = some s' →
    ∃ s1, lMoves V W cfg g stats loop key s pre = some s1 ∧ s'.trace[s1.trace.length]? = some (.io (.arrive id (.packet cn p o))) := by
  induction pre with
  | nil =>
    intro s s' h
    refine ⟨s, rfl, ?_⟩
    rw [List.nil_append] at h
    unfold lMoves at h
    split at h
    · cases h
    · split at h
      · cases h
      · rename_i s1 h1
        obtain ⟨l, e⟩ := lMoves_grows _ h
        unfold lMove at h1
        dsimp only at h1
        split at h1
        · split at h1
          · cases h1
            rw [e]
            simp
          · cases h1
        · cases h1
  | cons mv pre ih =>
    intro s s' h
    rw [List.cons_append] at h
    unfold lMoves at h ⊢
    split at h
    · cases h
    · rename_i hd
      rw [if_neg hd]
      split at h
      · cases h
      · exact ih h

/-- The answer at a place of the log. -/
def answerAt (tr : List (LSeen ι)) (n : Nat) : Option (ι × List Resp) :=
  match tr[n]? with
  | some (.io (.answer i rs)) => some (i, rs)
  | _ => none

theorem answerAt_get {tr : List (LSeen ι)} {n : Nat} {id : ι} {rs : List Resp} (h : answerAt tr n = some (id, rs)) :
    tr[n]? = some (.io (.answer id rs)) := by
  unfold answerAt at h
  split at h
  · cases h; assumption
  · cases h

end
end Idm
