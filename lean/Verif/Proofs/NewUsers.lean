import Verif.Spec.NewUsers
import Verif.Proofs.Template

/-!
# Lemmas about newusers
-/
namespace Idm

/-! ## Reading the input -/

theorem splitOn_length_pos (sep : UInt8) (s : Str) : 1 ≤ (splitOn sep s).length :=
  List.length_pos_iff.2 (splitOn_ne_nil _ _)

/-- The cases of one line. -/
theorem parsePwLine_cases (strong : Str → Bool) (n : Nat) (raw : Str) :
    (userFields raw = none ∧ parsePwLine strong n raw = .ok none) ∨
    (∃ fs, userFields raw = some fs ∧
      ((fs.length < 5 ∧ parsePwLine strong n raw = .err .other) ∨
       (5 ≤ fs.length ∧ fs.length < 7 ∧ parsePwLine strong n raw = .panic) ∨
       (∃ e : PwEntry, e.line = n ∧ e.fields = fs.take 7 ∧ 7 ≤ fs.length ∧
         ((e.passwd ≠ [] ∧ strong e.passwd = false ∧ parsePwLine strong n raw = .err .other) ∨
          ((e.passwd ≠ [] → strong e.passwd = true) ∧ parsePwLine strong n raw = .ok (some e)))))) := by
  unfold userFields parsePwLine
  dsimp only
  by_cases h : trimSpace raw = [] ∨ isComment (trimSpace raw) = true
  · exact Or.inl ⟨if_pos h, if_pos h⟩
  · right
    rw [if_neg h, if_neg h]
    refine ⟨_, rfl, ?_⟩
    have hpos := splitOn_length_pos fieldSep (trimSpace raw)
    generalize splitOn fieldSep (trimSpace raw) = fs at hpos
    match fs, hpos with
    | [], h => simp at h
    | [_], _ => exact Or.inl ⟨by simp, rfl⟩
    | [_, _], _ => exact Or.inl ⟨by simp, rfl⟩
    | [_, _, _], _ => exact Or.inl ⟨by simp, rfl⟩
    | [_, _, _, _], _ => exact Or.inl ⟨by simp, rfl⟩
    | [_, _, _, _, _], _ => exact Or.inr (Or.inl ⟨by simp, by simp, rfl⟩)
    | [_, _, _, _, _, _], _ => exact Or.inr (Or.inl ⟨by simp, by simp, rfl⟩)
    | a :: p :: u :: g :: ge :: d :: s :: rest, _ =>
      refine Or.inr (Or.inr ⟨⟨n, a, p, u, g, ge, d, s⟩, rfl, by simp [PwEntry.fields], by simp, ?_⟩)
      dsimp only
      by_cases hp : p ≠ [] ∧ strong p = false
      · exact Or.inl ⟨hp.1, hp.2, if_pos hp⟩
      · refine Or.inr ⟨fun h => ?_, if_neg hp⟩
        cases hs : strong p with
        | true => rfl
        | false => exact absurd ⟨h, hs⟩ hp

theorem goodLine_iff (strong : Str → Bool) (n : Nat) (raw : Str) :
    GoodLine strong raw ↔ ∃ o, parsePwLine strong n raw = .ok o ∧
      (o.map fun e : PwEntry => e.fields) = (userFields raw).map (·.take 7) ∧ ∀ e ∈ o, e.line = n := by
  unfold GoodLine
  rcases parsePwLine_cases strong n raw with ⟨h1, h2⟩ | ⟨fs, h1, h⟩
  · rw [h1, h2]
    constructor
    · intro _; exact ⟨none, rfl, rfl, by simp⟩
    · intro _ fs h; cases h
  · rw [h1]
    rcases h with ⟨hl, h2⟩ | ⟨hl, hl', h2⟩ | ⟨e, hn, he, hl, ⟨hp, hs, h2⟩ | ⟨hs, h2⟩⟩
    · rw [h2]
      constructor
      · intro h; have := (h fs rfl).1; omega
      · rintro ⟨o, h, _⟩; cases h
    · rw [h2]
      constructor
      · intro h; have := (h fs rfl).1; omega
      · rintro ⟨o, h, _⟩; cases h
    · rw [h2]
      constructor
      · intro h
        have h1 : fs[1]? = some e.passwd := by
          have := congrArg (fun l => l[1]?) he
          simp only [PwEntry.fields, List.getElem?_cons_succ, List.getElem?_cons_zero] at this
          rw [List.getElem?_take] at this
          simpa using this.symm
        have := (h fs rfl).2 _ h1 hp
        rw [hs] at this
        cases this
      · rintro ⟨o, h, _⟩; cases h
    · rw [h2]
      constructor
      · intro _
        refine ⟨some e, rfl, by simp [he], ?_⟩
        intro e' he'
        cases he'
        exact hn
      · intro _ fs' h
        cases h
        refine ⟨hl, fun p h1 hne => ?_⟩
        have : fs[1]? = some e.passwd := by
          have := congrArg (fun l => l[1]?) he
          simp only [PwEntry.fields, List.getElem?_cons_succ, List.getElem?_cons_zero] at this
          rw [List.getElem?_take] at this
          simpa using this.symm
        rw [h1] at this
        cases this
        exact hs hne

theorem parsePwLines_ok (strong : Str → Bool) : ∀ (ls : List Str) (n : Nat),
    (∀ l ∈ ls, GoodLine strong l) → ∃ es, parsePwLines strong n ls = .ok es ∧
      es.map PwEntry.fields = ls.filterMap fun l => (userFields l).map (·.take 7) := by
  intro ls
  induction ls with
  | nil => intro n _; exact ⟨[], rfl, rfl⟩
  | cons l ls ih =>
    intro n h
    obtain ⟨o, h1, h2, _⟩ := (goodLine_iff strong (n + 1) l).1 (h l (by simp))
    obtain ⟨es, h3, h4⟩ := ih (n + 1) fun l' hl => h l' (by simp [hl])
    refine ⟨o.toList ++ es, by simp [parsePwLines, h1, h3], ?_⟩
    rw [List.map_append, h4]
    cases o with
    | none =>
      rw [Option.map_none] at h2
      rw [List.filterMap_cons_none (f := fun l => (userFields l).map (·.take 7)) h2.symm]
      rfl
    | some e =>
      rw [Option.map_some] at h2
      rw [List.filterMap_cons_some (f := fun l => (userFields l).map (·.take 7)) h2.symm]
      rfl

theorem parsePwLines_good (strong : Str → Bool) : ∀ (ls : List Str) (n : Nat) (es : List PwEntry),
    parsePwLines strong n ls = .ok es → ∀ l ∈ ls, GoodLine strong l := by
  intro ls
  induction ls with
  | nil => intro n es _ l hl; cases hl
  | cons l ls ih =>
    intro n es h
    rw [parsePwLines] at h
    cases hl : parsePwLine strong (n + 1) l with
    | ok o =>
      rw [hl, Res.ok_bind] at h
      cases hr : parsePwLines strong (n + 1) ls with
      | ok es' =>
        intro l' hl'
        rcases List.mem_cons.1 hl' with rfl | hl'
        · have hc := parsePwLine_cases strong (n + 1) l'
          rw [hl] at hc
          refine (goodLine_iff strong (n + 1) l').2 ⟨o, hl, ?_⟩
          rcases hc with ⟨h1, h2⟩ | ⟨fs, h1, h⟩
          · cases h2
            exact ⟨by rw [h1]; rfl, by simp⟩
          · rcases h with ⟨_, h2⟩ | ⟨_, _, h2⟩ | ⟨e, hn, he, _, ⟨_, _, h2⟩ | ⟨_, h2⟩⟩
            · cases h2
            · cases h2
            · cases h2
            · cases h2
              refine ⟨by rw [h1]; simp [he], ?_⟩
              intro e' he'
              cases he'
              exact hn
        · exact ih _ _ hr l' hl'
      | err e => rw [hr] at h; simp at h
      | panic => rw [hr] at h; simp at h
      | hang => rw [hr] at h; simp at h
    | err e => rw [hl] at h; simp at h
    | panic => rw [hl] at h; simp at h
    | hang => rw [hl] at h; simp at h

/-- The first line that is not good decides. -/
theorem parsePwLines_first (strong : Str → Bool) (bad : Str) (rest : List Str) : ∀ (pre : List Str) (n : Nat),
    (∀ l ∈ pre, GoodLine strong l) → (∀ m, parsePwLine strong m bad = .err .other) →
    parsePwLines strong n (pre ++ bad :: rest) = .err .other := by
  intro pre
  induction pre with
  | nil => intro n _ hb; simp [parsePwLines, hb]
  | cons l pre ih =>
    intro n h hb
    obtain ⟨o, h1, _⟩ := (goodLine_iff strong (n + 1) l).1 (h l (by simp))
    rw [List.cons_append, parsePwLines, h1, Res.ok_bind, ih _ (fun l' hl => h l' (by simp [hl])) hb]
    rfl

theorem parsePwLines_panic (strong : Str → Bool) (bad : Str) (rest : List Str) : ∀ (pre : List Str) (n : Nat),
    (∀ l ∈ pre, GoodLine strong l) → (∀ m, parsePwLine strong m bad = .panic) →
    parsePwLines strong n (pre ++ bad :: rest) = .panic := by
  intro pre
  induction pre with
  | nil => intro n _ hb; simp [parsePwLines, hb]
  | cons l pre ih =>
    intro n h hb
    obtain ⟨o, h1, _⟩ := (goodLine_iff strong (n + 1) l).1 (h l (by simp))
    rw [List.cons_append, parsePwLines, h1, Res.ok_bind, ih _ (fun l' hl => h l' (by simp [hl])) hb]
    rfl

/-! ## Numbers -/

theorem raiseTo_ge (a : Int) (o : Option Int) : a ≤ raiseTo a o := by
  cases o with
  | none => exact Int.le_refl _
  | some n => unfold raiseTo; dsimp only; split <;> omega

theorem raiseTo_mem (a : Int) (n : Int) : n ≤ raiseTo a (some n) := by
  unfold raiseTo
  dsimp only
  split <;> omega

theorem raiseTo_or (a : Int) (o : Option Int) : raiseTo a o = a ∨ o = some (raiseTo a o) := by
  cases o with
  | none => exact Or.inl rfl
  | some n =>
    unfold raiseTo
    dsimp only
    split
    · exact Or.inr rfl
    · exact Or.inl rfl

/-- The numbers of an entry are those given. -/
theorem entryNumbers_spec {e : PwEntry} {d : Option Int × Option Int} (h : entryNumbers e = some d) :
    d.1 = givenNumber e.uid ∧ d.2 = givenNumber e.gid ∧ (d.1 = none ↔ e.uid = []) ∧ (d.2 = none ↔ e.gid = []) := by
  unfold entryNumbers at h
  unfold givenNumber
  by_cases hu : e.uid = []
  · by_cases hg : e.gid = []
    · simp only [hu, hg, if_true, Option.bind_eq_bind, Option.bind_some, Option.some.injEq] at h
      subst h
      simp [hu, hg]
    · simp only [hu, hg, if_true, if_false, Option.bind_eq_bind, Option.bind_some] at h
      cases hp : parseInt64 e.gid with
      | none => rw [hp] at h; cases h
      | some n =>
        rw [hp] at h
        simp only [Option.map_some, Option.bind_some, Option.some.injEq] at h
        subst h
        simp [hu, hg]
  · simp only [hu, if_false, Option.bind_eq_bind] at h
    cases hp : parseInt64 e.uid with
    | none => rw [hp] at h; cases h
    | some m =>
      rw [hp] at h
      simp only [Option.map_some, Option.bind_some] at h
      by_cases hg : e.gid = []
      · simp only [hg, if_true, Option.bind_some, Option.some.injEq] at h
        subst h
        simp [hu, hg]
      · simp only [hg, if_false] at h
        cases hq : parseInt64 e.gid with
        | none => rw [hq] at h; cases h
        | some n =>
          rw [hq] at h
          simp only [Option.map_some, Option.bind_some, Option.some.injEq] at h
          subst h
          simp [hu, hg]

/-- The first loop: every entry keeps its numbers, and the counter ends at the largest of them. -/
theorem preprocess_spec : ∀ (es : List PwEntry) (a : Int) (ds : List (Option Int × Option Int)) (last : Int),
    preprocess a es = some (ds, last) →
    ds.length = es.length ∧ (∀ p ∈ es.zip ds, entryNumbers p.1 = some p.2) ∧ a ≤ last ∧
    (∀ n ∈ givenNumbers es, n ≤ last) ∧ (last = a ∨ last ∈ givenNumbers es) := by
  intro es
  induction es with
  | nil =>
    intro a ds last h
    cases h
    exact ⟨rfl, by simp, Int.le_refl _, by simp [givenNumbers], Or.inl rfl⟩
  | cons e es ih =>
    intro a ds last h
    rw [preprocess] at h
    cases hd : entryNumbers e with
    | none => rw [hd] at h; cases h
    | some d =>
      rw [hd] at h
      simp only [Option.bind_eq_bind, Option.bind_some] at h
      cases hr : preprocess (raiseTo (raiseTo a d.1) d.2) es with
      | none => rw [hr] at h; cases h
      | some q =>
        obtain ⟨ds', last'⟩ := q
        rw [hr] at h
        simp only [Option.bind_some, Option.some.injEq, Prod.mk.injEq] at h
        obtain ⟨rfl, rfl⟩ := h
        obtain ⟨h1, h2, h3, h4, h5⟩ := ih _ _ _ hr
        obtain ⟨e1, e2, _, _⟩ := entryNumbers_spec hd
        have ha := raiseTo_ge a d.1
        have hb := raiseTo_ge (raiseTo a d.1) d.2
        have hg : givenNumbers (e :: es) = (d.1.toList ++ d.2.toList) ++ givenNumbers es := by
          simp [givenNumbers, e1, e2]
        refine ⟨by simp [h1], ?_, by omega, ?_, ?_⟩
        · intro p hp
          rw [List.zip_cons_cons] at hp
          rcases List.mem_cons.1 hp with rfl | hp
          · exact hd
          · exact h2 p hp
        · intro n hn
          rw [hg] at hn
          rcases List.mem_append.1 hn with hn | hn
          · rcases List.mem_append.1 hn with hn | hn
            · have hn : d.1 = some n := by simpa using hn
              have := raiseTo_mem a n
              rw [← hn] at this
              omega
            · have hn : d.2 = some n := by simpa using hn
              have := raiseTo_mem (raiseTo a d.1) n
              rw [← hn] at this
              omega
          · exact h4 n hn
        · rw [hg]
          rcases h5 with h5 | h5
          · rcases raiseTo_or (raiseTo a d.1) d.2 with hx | hx
            · rcases raiseTo_or a d.1 with hy | hy
              · left; omega
              · right
                rw [h5, hx]
                simp only [List.mem_append, Option.mem_toList]
                exact Or.inl (Or.inl hy)
            · right
              rw [h5]
              simp only [List.mem_append, Option.mem_toList]
              exact Or.inl (Or.inr hx)
          · right
            exact List.mem_append_right _ h5

/-- The second loop, position by position: the numbers printed. `z` is what is printed for a user number of 0. -/
theorem genUsers_get (hash : Str → Option Str) (md : Str) :
    ∀ (ps : List (PwEntry × (Option Int × Option Int))) (auto : Int) (tpl : UInt64),
    auto + ps.length < 2 ^ 63 → 1000 ≤ auto → (∀ p ∈ ps, p.1.uid ≠ [] → p.1.gid ≠ [] → p.2.1 ≠ none ∧ p.2.2 ≠ none) →
    ∀ (i : Nat) (p : PwEntry × (Option Int × Option Int)) (r : UserRec), ps[i]? = some p →
      (genUsers hash md auto tpl ps).1[i]? = some r →
      r.name = p.1.name ∧ r.line = p.1.line ∧
      (p.2.1 = none → r.uidNumber = auto + ((ps.take (i + 1)).countP fun q => lacksNumber q.1)) ∧
      (p.2.2 = none → r.gidNumber = some (auto + ((ps.take (i + 1)).countP fun q => lacksNumber q.1))) ∧
      (∀ u, p.2.1 = some u → u ≠ 0 → r.uidNumber = u) ∧
      (∀ g, p.2.2 = some g → r.gidNumber = if g = 0 then none else some g) := by
  intro ps
  induction ps with
  | nil => intro _ _ _ _ _ i p r h; cases h
  | cons p ps ih =>
    intro auto tpl hb ha hn i p' r hp hr
    obtain ⟨e, d⟩ := p
    rw [genUsers] at hr
    cases hg : genUser hash md auto tpl e d with
    | none => rw [hg] at hr; cases hr
    | some q =>
      obtain ⟨r0, auto', tpl'⟩ := q
      rw [hg] at hr
      simp only at hr
      unfold genUser at hg
      simp only [Option.bind_eq_bind] at hg
      generalize hpw : newPassword hash e = o at hg
      cases o with
      | none => cases hg
      | some pw =>
        simp only [Option.bind_some, Option.some.injEq, Prod.mk.injEq] at hg
        obtain ⟨hr0, hau, htp⟩ := hg
        have hlen : auto + (ps.length + 1) < 2 ^ 63 := by simpa using hb
        have hau' : auto' = auto + (if lacksNumber e then 1 else 0) := by
          rw [← hau]
          unfold lacksNumber inc64
          by_cases hu : e.uid = [] ∨ e.gid = []
          · rw [if_pos hu, if_neg (by omega), if_pos]
            simpa using hu
          · rw [if_neg hu, if_neg]
            · omega
            · simpa using hu
        rw [hau] at hr0
        cases i with
        | zero =>
          simp only [List.getElem?_cons_zero, Option.some.injEq] at hp hr
          subst hp
          subst hr
          have hlk : d.1 = none ∨ d.2 = none → lacksNumber e = true := by
            intro h
            cases hl : lacksNumber e with
            | true => rfl
            | false =>
              have := hn (e, d) (by simp) (by
                intro h
                simp only [lacksNumber, Bool.or_eq_false_iff, beq_eq_false_iff_ne] at hl
                exact hl.1 h) (by
                intro h
                simp only [lacksNumber, Bool.or_eq_false_iff, beq_eq_false_iff_ne] at hl
                exact hl.2 h)
              rcases h with h | h
              · exact absurd h this.1
              · exact absurd h this.2
          subst hr0
          refine ⟨rfl, rfl, ?_, ?_, ?_, ?_⟩
          · intro h
            have hl := hlk (Or.inl h)
            have h : d.1 = none := h
            simp only [hl, if_true] at hau'
            simp only [h, Option.getD_none]
            rw [if_neg (by omega)]
            simp [hl, hau']
          · intro h
            have hl := hlk (Or.inr h)
            have h : d.2 = none := h
            simp only [hl, if_true] at hau'
            simp only [h, Option.getD_none]
            unfold nonZero
            rw [if_neg (by omega)]
            simp [hl, hau']
          · intro u h h0
            have h : d.1 = some u := h
            simp only [h, Option.getD_some]
            rw [if_neg h0]
          · intro g h
            have h : d.2 = some g := h
            simp only [h, Option.getD_some]
            rfl
        | succ i =>
          simp only [List.getElem?_cons_succ] at hp hr
          have := ih auto' tpl' (by rw [hau']; split <;> omega) (by rw [hau']; split <;> omega)
            (fun p hp => hn p (by simp [hp])) i p' r hp hr
          have hc : auto' + ((ps.take (i + 1)).countP fun q => lacksNumber q.1) =
              auto + ((((e, d) :: ps).take (i + 1 + 1)).countP fun q => lacksNumber q.1) := by
            rw [List.take_succ_cons, List.countP_cons, hau']
            dsimp only
            split <;> omega
          rw [hc] at this
          exact this

theorem genUsers_length (hash : Str → Option Str) (md : Str) :
    ∀ (ps : List (PwEntry × (Option Int × Option Int))) (auto : Int) (tpl : UInt64),
    (genUsers hash md auto tpl ps).2 = true → (genUsers hash md auto tpl ps).1.length = ps.length := by
  intro ps
  induction ps with
  | nil => intro _ _ _; rfl
  | cons p ps ih =>
    intro auto tpl h
    obtain ⟨e, d⟩ := p
    rw [genUsers] at h ⊢
    cases hg : genUser hash md auto tpl e d with
    | none => rw [hg] at h; cases h
    | some q =>
      rw [hg] at h
      simp only at h ⊢
      simp [ih _ _ h]

/-! ## Formats -/

theorem printfGo_plain : ∀ (s : Str) (n : Nat), (37 : UInt8) ∉ s → s.length ≤ n → printfGo n s = s := by
  intro s
  induction s with
  | nil => intro n _ _; cases n <;> rfl
  | cons c cs ih =>
    intro n h hn
    simp only [List.mem_cons, not_or] at h
    cases n with
    | zero => simp at hn
    | succ n =>
      rw [printfGo, if_neg (fun e => h.1 e.symm), ih n h.2 (by simpa using hn)]

end Idm
