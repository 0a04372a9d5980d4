import Verif.Props.Durable
import Verif.Props.BoltPw
/-!
# C88: what was added is found as it was sent, and a changed password counts
-/
namespace Idm
open Dir

section
variable {ι : Type} {V : Env} {G : GobEnv} {cfg : BoltCfg} {n : Nat} {stats : Bool} {base : DN}

/-- Every number arrives once. -/
theorem arrivals_once {db : Db} {s : Par ι} (h : ParReach V G cfg n stats db s) :
    s.trace.Pairwise fun a b => ∀ id e e', a = Seen.arrive id e → b ≠ Seen.arrive id e' := by
  induction h with
  | start => exact .nil
  | step s s' _ hs ih =>
    have key : ∀ (id : ι) (e : Ev) (more : List (Seen ι)), (∀ e, Seen.arrive id e ∉ s.trace) → (∀ x ∈ more, ∃ i rs, x = Seen.answer i rs) →
        (s.trace ++ .arrive id e :: more).Pairwise fun a b => ∀ id e e', a = Seen.arrive id e → b ≠ Seen.arrive id e' := by
      intro id e more hnew hmore
      refine List.pairwise_append.2 ⟨ih, List.pairwise_cons.2 ⟨fun b hb => ?_, List.pairwise_of_forall_mem_list fun a ha b hb => ?_⟩, fun a ha b hb => ?_⟩
      · obtain ⟨i, rs, rfl⟩ := hmore b hb
        intro _ _ _ _ h
        cases h
      · obtain ⟨i, rs, rfl⟩ := hmore b hb
        intro _ _ _ _ h
        cases h
      · rintro i e1 e2 rfl rfl
        rcases List.mem_cons.1 hb with h | h
        · cases h
          exact hnew e1 ha
        · obtain ⟨i, rs, h⟩ := hmore _ h
          cases h
    have key' : ∀ (x : Seen ι), (∀ id e, x ≠ .arrive id e) →
        (s.trace ++ [x]).Pairwise fun a b => ∀ id e e', a = Seen.arrive id e → b ≠ Seen.arrive id e' := by
      intro x hx
      refine List.pairwise_append.2 ⟨ih, List.pairwise_singleton _ _, fun a ha b hb => ?_⟩
      rw [List.mem_singleton] at hb
      subst hb
      exact fun id _ e' _ => hx id e'
    cases hs with
    | arrive c b id o p hd h hnew => exact key id _ [] hnew (by simp)
    | eof c b id hd h hnew => exact key id _ [_] hnew (by simp)
    | goOn => exact key' _ nofun
    | close => exact key' _ nofun
    | lost => exact key' _ nofun
    | block => exact key' _ nofun
    | crash => exact key' _ nofun
    | _ => exact ih

theorem arrive_split {db : Db} {s : Par ι} (h : ParReach V G cfg n stats db s) {id : ι} {e e' : Ev} {t₁ t₂ u₁ u₂ : List (Seen ι)}
    (h1 : s.trace = t₁ ++ Seen.arrive id e :: t₂) (h2 : s.trace = u₁ ++ Seen.arrive id e' :: u₂) : t₁ = u₁ := by
  have key : ∀ {e e' : Ev} {t₁ t₂ u₁ u₂ : List (Seen ι)}, s.trace = t₁ ++ Seen.arrive id e :: t₂ → s.trace = u₁ ++ Seen.arrive id e' :: u₂ →
      ¬ t₁.length < u₁.length := by
    intro e e' t₁ t₂ u₁ u₂ h1 h2 hlt
    have hp := arrivals_once h
    rw [h2, List.pairwise_append] at hp
    refine hp.2.2 (Seen.arrive id e) ?_ (Seen.arrive id e') (by simp) id e e' rfl rfl
    have : s.trace[t₁.length]? = some (Seen.arrive id e) := by rw [h1]; simp
    rw [h2, List.getElem?_append_left hlt] at this
    exact List.mem_of_getElem? this
  have hl : t₁.length = u₁.length := by
    have := key h1 h2
    have := key h2 h1
    omega
  exact (List.append_inj (h1.symm.trans h2) hl).1

theorem bindName_unique {p : Packet} {dn dn' : Str} (h : BindName p dn) (h' : BindName p dn') : dn = dn' := by
  obtain ⟨id, req, d, h1, -, h3, h4⟩ := h
  obtain ⟨id', req', d', k1, -, k3, k4⟩ := h'
  obtain ⟨-, rfl⟩ := message_unique h1 k1
  rw [h3] at k3
  cases k3
  rw [h4] at k4
  cases k4
  rfl

theorem lastBind_unique {c : Nat} {seen : List (Seen ι)} {b b' : Str}
    (hu : ∀ id e e', Seen.arrive id e ∈ seen → Seen.arrive id e' ∈ seen → e = e') (h : LastBind V.C c seen b) (h' : LastBind V.C c seen b') : b = b' := by
  have key : ∀ {b : Str}, LastBind V.C c seen b → (∀ id p o rs, Seen.arrive id (.packet c p o) ∈ seen → .answer id rs ∈ seen → ¬ BindOk rs) → b = [] := by
    rintro b (⟨rfl, -⟩ | ⟨t₁, id, rs, t₂, p, o, dn, rfl, h2, h3, -⟩) hno
    · rfl
    · exact absurd h3 (hno id p o rs (by simp [h2]) (by simp))
  rcases h with ⟨rfl, h⟩ | ⟨t₁, id, rs, t₂, p, o, dn, h1, h2, h3, h4, h5, h6⟩
  · exact (key h' h).symm
  rcases h' with ⟨rfl, h'⟩ | ⟨u₁, id', rs', u₂, p', o', dn', k1, k2, k3, k4, k5, k6⟩
  · exact key (Or.inr ⟨t₁, id, rs, t₂, p, o, dn, h1, h2, h3, h4, h5, h6⟩) h'
  have later : ∀ {t₁ t₂ u₁ u₂ : List (Seen ι)} {id id' : ι} {rs rs' : List Resp}, seen = t₁ ++ Seen.answer id rs :: t₂ →
      seen = u₁ ++ Seen.answer id' rs' :: u₂ → t₁.length < u₁.length → Seen.answer id' rs' ∈ t₂ := by
    intro t₁ t₂ u₁ u₂ id id' rs rs' h k hlt
    have : seen[u₁.length]? = some (Seen.answer id' rs') := by rw [k]; simp
    rw [h, List.getElem?_append_right (by omega)] at this
    obtain ⟨m, hm⟩ : ∃ m, u₁.length - t₁.length = m + 1 := ⟨u₁.length - t₁.length - 1, by omega⟩
    rw [hm, List.getElem?_cons_succ] at this
    exact List.mem_of_getElem? this
  have hle1 : ¬ t₁.length < u₁.length := fun hlt => h6 id' p' o' rs' (by rw [k1]; simp [k2]) (later h1 k1 hlt) k3
  have hle2 : ¬ u₁.length < t₁.length := fun hlt => k6 id p o rs (by rw [h1]; simp [h2]) (later k1 h1 hlt) h3
  obtain ⟨e1, e2⟩ := List.append_inj (h1.symm.trans k1) (by omega)
  injection e2 with e2 _
  cases e2
  have := hu id _ _ (by rw [h1]; simp [h2] : Seen.arrive id (.packet c p o) ∈ seen) (by rw [k1]; simp [k2] : Seen.arrive id (.packet c p' o') ∈ seen)
  cases this
  rw [bindName_unique h4 k4, k5] at h5
  exact (Option.some.inj h5).symm

/-! ### What stays as it is -/

theorem get_of_has {d : Dir} {k : DN} (h : d.has k = true) : ∃ e, d.get k = some e := by
  unfold Dir.has at h
  unfold Dir.get
  obtain ⟨m, hm, e⟩ := List.any_eq_true.1 h
  cases hf : d.find? fun n => n.name = k with
  | none => exact absurd e (List.find?_eq_none.1 hf m hm)
  | some m => exact ⟨_, rfl⟩

theorem has_of_get {d : Dir} {k : DN} {e : Entry} (h : d.get k = some e) : d.has k = true := by
  unfold Dir.get at h
  cases hf : d.find? fun n => n.name = k with
  | none => rw [hf] at h; cases h
  | some m => exact List.any_eq_true.2 ⟨m, List.mem_of_find?_eq_some hf, by simpa using List.find?_some hf⟩

theorem get_remove {d : Dir} {k k' : DN} (h : k ≠ k') : (d.remove k').get k = d.get k := by
  unfold Dir.get Dir.remove
  induction d with
  | nil => rfl
  | cons m d ih =>
    rw [List.filter_cons]
    by_cases hm : m.name = k
    · rw [if_pos (by simpa [hm] using h)]
      simp [hm]
    · by_cases hk : m.name = k'
      · rw [if_neg (by simp [hk]), ih, List.find?_cons_of_neg (by simpa using hm)]
      · rw [if_pos (by simpa using hk), List.find?_cons_of_neg (by simpa using hm), List.find?_cons_of_neg (by simpa using hm), ih]

theorem get_rename {d : Dir} {k k' k'' : DN} {e : Entry} (h : k ≠ k') (h' : k ≠ k'') : (d.rename k' k'' e).get k = d.get k := by
  unfold Dir.get Dir.rename
  induction d with
  | nil => rfl
  | cons m d ih =>
    rw [List.map_cons]
    by_cases hm : m.name = k
    · rw [if_neg (by rw [hm]; exact h)]
      simp [hm]
    · have : (if m.name = k' then (⟨k'', e⟩ : Node) else m).name ≠ k := by
        split
        · exact fun e => h' e.symm
        · exact hm
      rw [List.find?_cons_of_neg (by simpa using this), List.find?_cons_of_neg (by simpa using hm), ih]

variable {C : CaseEnv} {validate : Str → Str → Res Bool}

/-- A change that does not name the entry leaves it. -/
theorem step_get {d : Dir} {name : DN} {e : Entry} {op : Op} (h : d.get (foldDN C name) = some e) (hn : ¬ TakesAway C name op) (hn' : ¬ Edits C name op) :
    (specStep C validate base d op).2.get (foldDN C name) = some e := by
  have hh := has_of_get h
  cases op with
  | add e' =>
    unfold specStep
    dsimp only
    split
    · exact h
    · unfold specAdd specAddAt
      repeat' split
      all_goals first | exact h | skip
      show Dir.get (d ++ [_]) _ = _
      unfold Dir.get at h ⊢
      rw [List.find?_append]
      cases hf : d.find? fun n => n.name = foldDN C name with
      | none => rw [hf] at h; cases h
      | some m => rw [hf] at h; exact h
  | delete dn =>
    unfold specStep
    dsimp only
    split
    · exact h
    · rename_i n hp
      have hne : foldDN C n ≠ foldDN C name := fun e => hn ⟨n, hp, e⟩
      unfold specDelete specDeleteAt
      repeat' split
      all_goals first | exact h | skip
      rw [get_remove (fun e => hne e.symm)]
      exact h
  | modify dn cs =>
    unfold specStep
    dsimp only
    split
    · exact h
    · rename_i n hp
      have hne : foldDN C n ≠ foldDN C name := fun e => hn' ⟨n, hp, e⟩
      unfold specModify specModifyAt
      repeat' split
      all_goals first | exact h | (dsimp only; rw [get_setEntry, if_neg fun e => hne e.symm]; exact h)
  | rename r =>
    unfold specStep
    dsimp only
    split
    all_goals first | exact h | skip
    rename_i o p n t hp _
    have hne : foldDN C (o :: p) ≠ foldDN C name := fun e => hn ⟨_, hp, e⟩
    unfold specRename specRenameAt
    by_cases hk : d.has (foldDN C (n :: p)) = true
    · rw [if_pos hk]; exact h
    · rw [if_neg hk]
      repeat' split
      all_goals first | exact h | skip
      all_goals
        dsimp only
        rw [get_rename (fun e => hne e.symm) (fun e => hk (by rw [← e]; exact hh))]
        exact h
  | password r =>
    unfold specStep
    dsimp only
    split
    · exact h
    · rename_i n hp
      have hne : foldDN C n ≠ foldDN C name := fun e => hn' ⟨n, hp, e⟩
      unfold specPassword specPasswordAt
      repeat' split
      all_goals first | exact h | (dsimp only; rw [get_setEntry, if_neg fun e => hne e.symm]; exact h)

theorem run_get {name : DN} {e : Entry} : ∀ (ops : List Op) (d : Dir), d.get (foldDN C name) = some e →
    (∀ op ∈ ops, ¬ TakesAway C name op ∧ ¬ Edits C name op) → (specRun C validate base d ops).2.get (foldDN C name) = some e := by
  intro ops
  induction ops with
  | nil => intro d h _; exact h
  | cons op ops ih =>
    intro d h hn
    exact ih _ (step_get h (hn op List.mem_cons_self).1 (hn op List.mem_cons_self).2) fun o ho => hn o (List.mem_cons_of_mem _ ho)

theorem password_get {d : Dir} {name : DN} {r : PwModReq} (hp : parseDN C r.userIdentity = some name)
    (h : (specStep C validate base d (.password r)).1 = .ok ()) :
    ∃ e e', applyModify C e r.userIdentity [⟨opReplace, sUserPassword, [r.newPassword]⟩] = .ok e' ∧
      (specStep C validate base d (.password r)).2.get (foldDN C name) = some e' := by
  unfold specStep at h ⊢
  dsimp only at h ⊢
  rw [hp] at h ⊢
  dsimp only at h ⊢
  unfold specPassword specPasswordAt at h ⊢
  cases hg : d.get (foldDN C name) with
  | none => rw [hg] at h; cases h
  | some e =>
    rw [hg] at h
    dsimp only at h ⊢
    split at h
    · split at h
      · rename_i hm
        refine ⟨e, _, hm, ?_⟩
        dsimp only
        rw [get_setEntry, if_pos rfl, hg]
        rfl
      all_goals cases h
    all_goals cases h

theorem add_get {d : Dir} {name : DN} {e : Entry} (hp : parseDN C e.dn = some name)
    (h : (specStep C validate base d (.add e)).1 = .ok ()) : (specStep C validate base d (.add e)).2.get (foldDN C name) = some e := by
  unfold specStep at h ⊢
  dsimp only at h ⊢
  rw [entryPutDN_of_parse hp] at h ⊢
  dsimp only at h ⊢
  unfold specAdd specAddAt at h ⊢
  by_cases h0 : name = []
  · rw [if_pos h0] at h; cases h
  rw [if_neg h0] at h ⊢
  by_cases h1 : ¬ render base <:+ render (foldDN C name)
  · rw [if_pos h1] at h; cases h
  rw [if_neg h1] at h ⊢
  by_cases h2 : d.has (foldDN C name) = true
  · rw [if_pos h2] at h; cases h
  rw [if_neg h2] at h ⊢
  split at h
  · cases h
  split at h
  · cases h
  rename_i h3 h4
  rw [if_neg h3, if_neg h4]
  show Dir.get (d ++ [_]) _ = _
  unfold Dir.get
  rw [List.find?_append]
  cases hf : d.find? fun n => n.name = foldDN C name with
  | none => simp
  | some m => exact absurd (List.any_eq_true.2 ⟨m, List.mem_of_find?_eq_some hf, by simpa using List.find?_some hf⟩) h2

/-- If the names of the result are ASCII, the password found is the new one. -/
theorem getVal_after {C : CaseEnv} (hC : C.Lawful) {as : List Attr} {v : Str} (ha : AsciiNames (entryReplaceValues C as sUserPassword [v])) :
    getVal C (entryReplaceValues C as sUserPassword [v]) sUserPassword = v := by
  refine getVal_replaced hC ?_ v
  have loop : ∀ l : List Attr, (replaceLoop C (C.fold sUserPassword) [v] l).map (·.name) = l.map (·.name) := by
    intro l
    induction l with
    | nil => rfl
    | cons a l ih =>
      rw [replaceLoop]
      split <;> simp [ih]
  intro a hm
  have : a.name ∈ (entryReplaceValues C as sUserPassword [v]).map (·.name) := by
    unfold entryReplaceValues
    dsimp only
    have : a.name ∈ (replaceLoop C (C.fold sUserPassword) [v] as).map (·.name) := by
      rw [loop]
      exact List.mem_map_of_mem hm
    repeat' split
    · exact this
    · exact this
    · simp [List.mem_append, List.mem_map.1 this]
  obtain ⟨b, hb, e⟩ := List.mem_map.1 this
  rw [← e]
  exact ha b hb

theorem each_unique {α β : Type} {R : α → β → Prop} (hR : ∀ a b b', R a b → R a b' → b = b') : ∀ (xs : List α) (ys zs : List β),
    Each R xs ys → Each R xs zs → ys = zs := by
  intro xs
  induction xs with
  | nil =>
    intro ys zs h h'
    cases ys <;> cases zs <;> first | rfl | exact h.elim | exact h'.elim
  | cons x xs ih =>
    intro ys zs h h'
    cases ys <;> cases zs <;> first | exact h.elim | exact h'.elim | skip
    rw [hR x _ _ h.1 h'.1, ih _ _ h.2 h'.2]

theorem isAttribute_unique {p : Packet} {a b : Attr} (h : IsAttribute p a) (h' : IsAttribute p b) : a = b := by
  obtain ⟨t, v, h1, ⟨-, -, -, h2⟩, -, -, -, h3⟩ := h
  obtain ⟨t', v', k1, ⟨-, -, -, k2⟩, -, -, -, k3⟩ := h'
  rw [h1] at k1
  cases k1
  rw [h2] at k2
  cases a
  cases b
  dsimp only at h3 k3 k2
  cases k2
  rw [each_unique (fun a b b' h h' => by rw [h] at h'; cases h'; rfl) _ _ _ h3 k3]

theorem pwExop_unique {req : Packet} {v v' : Option Str} (h : IsPwExop req v) (h' : IsPwExop req v') : v = v' := by
  rcases h with ⟨o, h1, -, -, -, rfl⟩ | ⟨o, b, h1, -, -, -, -, -, rfl⟩ <;>
  rcases h' with ⟨o', k1, -, -, -, rfl⟩ | ⟨o', b', k1, -, -, -, -, -, rfl⟩ <;> rw [h1] at k1 <;> cases k1 <;> rfl

theorem pwAsks_unique {value : Option Str} {u o m u' o' m' : Str} (h : PwAsks V value u o m) (h' : PwAsks V value u' o' m') : u = u' ∧ o = o' ∧ m = m' := by
  unfold PwAsks at h h'
  split at h
  · rename_i hv
    rw [hv] at h'
    obtain ⟨rfl, rfl, rfl⟩ := h
    obtain ⟨rfl, rfl, rfl⟩ := h'
    exact ⟨rfl, rfl, rfl⟩
  · rename_i hv
    rw [hv] at h'
    obtain ⟨-, -, rfl, rfl, rfl⟩ := h
    obtain ⟨-, -, rfl, rfl, rfl⟩ := h'
    exact ⟨rfl, rfl, rfl⟩

/-- What happened after a request for a change that was answered with success. -/
theorem change_log {db : Db} {base : Str} {lives : List (Life ι)} {log : List (Made ι)} (E : ExactlyOnce V G base db lives log)
    (h : Lives V G base db lives) {k : Nat} {id : ι} {l : Life ι} {c : Nat} {p : Packet} {o : Oracle} {rs : List Resp} {t₁ t₂ : List (Seen ι)} {bound : Str}
    (hk : lives[k]? = some l) (ht : l.proc.trace = t₁ ++ Seen.arrive id (.packet c p o) :: t₂) (hb : LastBind V.C c t₁ bound)
    (ha : Seen.answer id rs ∈ l.proc.trace) (hs : Succeeded rs) (hp : AsksForChange p) :
    ∃ log₁ x log₂, log = log₁ ++ x :: log₂ ∧ AsksFor V bound p x.op ∧ ∀ y ∈ log₂, AskedSince V lives k id y.op := by
  obtain ⟨x, hx, hxl, hxi⟩ := (E.answered k l id c p o rs hk (by rw [ht]; simp) ha hp).1 hs
  obtain ⟨log₁, log₂, rfl⟩ := List.append_of_mem hx
  obtain ⟨l', u₁, c', p', o', u₂, b, k1, k2, k3, -, k4⟩ := E.asked x hx
  rw [hxl, hk] at k1
  cases k1
  rw [hxi] at k2
  obtain ⟨db', hr⟩ := lives_reach lives _ h k l hk
  have := arrive_unique hr (id := id) (e := .packet c p o) (e' := .packet c' p' o') (by rw [ht]; simp) (by rw [k2]; simp)
  cases this
  have := arrive_split hr ht k2
  subst this
  have hb' : bound = b := by
    refine lastBind_unique (V := V) (fun i e e' h1 h2 => arrive_unique hr (id := i) (by rw [ht]; simp [h1]) (by rw [ht]; simp [h2])) hb k3
  subst hb'
  refine ⟨log₁, x, log₂, rfl, k4, fun y hy => ?_⟩
  have ho := E.inOrder
  rw [List.pairwise_append] at ho
  have := (List.pairwise_cons.1 ho.2.1).1 y hy
  obtain ⟨ly, v₁, cy, py, oy, v₂, by', q1, q2, q3, -, q4⟩ := E.asked y (by simp [hy])
  refine ⟨y.life, ly, y.id, by rw [← hxl]; exact this.1, q1, ⟨v₁, cy, py, oy, v₂, by', q2, q3, q4⟩, fun he => ⟨fun e' => ?_, ?_⟩⟩
  · have h4 := (List.pairwise_append.1 E.once).2.1
    rw [List.pairwise_cons] at h4
    exact h4.1 y hy ⟨by omega, by rw [hxi, e']⟩
  have h2 := this.2 l (by rw [hxl, he]) (by rw [hxl]; exact hk)
  rw [he, hk] at q1
  cases q1
  rw [hxi] at h2
  exact h2

/-- The log of the lives, with the file as the result of one history. -/
theorem lives_hist (hC : V.C.Lawful) (hG : G.Lawful) (hb : BaseOk V.C base) (ops₀ : List Op) (hops : HistOk V.C ops₀) (lives : List (Life ι))
    (h : Lives V G (render base) (after V.C G (validatePw V.C V.K) base ops₀) lives) (hok : ∀ op, Asked V lives op → op.Ok V.C)
    (hlen : ops₀.length + (lives.map fun l => l.proc.trace.length).sum < 2 ^ 64) :
    ∃ log, ExactlyOnce V G (render base) (after V.C G (validatePw V.C V.K) base ops₀) lives log ∧
      HistOk V.C (ops₀ ++ log.map (·.op)) ∧
      fileAfter (after V.C G (validatePw V.C V.K) base ops₀) lives = after V.C G (validatePw V.C V.K) base (ops₀ ++ log.map (·.op)) ∧
      Serves V.C G (fileAfter (after V.C G (validatePw V.C V.K) base ops₀) lives) (dirAfter V.C (validatePw V.C V.K) base (ops₀ ++ log.map (·.op))) ∧
      ∀ log₁ x log₂, log = log₁ ++ x :: log₂ →
        let d := dirAfter V.C (validatePw V.C V.K) base (ops₀ ++ log₁.map (·.op))
        (specStep V.C (validatePw V.C V.K) base d x.op).1 = .ok () ∧
        dirAfter V.C (validatePw V.C V.K) base (ops₀ ++ log.map (·.op)) =
          (specRun V.C (validatePw V.C V.K) base (specStep V.C (validatePw V.C V.K) base d x.op).2 (log₂.map (·.op))).2 := by
  obtain ⟨log, E, hl, -⟩ := lives_log lives _ h
  have hok' : HistOk V.C (ops₀ ++ log.map (·.op)) := by
    refine ⟨fun op hop => ?_, by simp; omega⟩
    rcases List.mem_append.1 hop with hop | hop
    · exact hops.ok op hop
    · obtain ⟨x, hx, rfl⟩ := List.mem_map.1 hop
      obtain ⟨l, t₁, c, p, o, t₂, b, k1, k2, k3, -, k4⟩ := E.asked x hx
      exact hok _ ⟨l, List.mem_of_getElem? k1, x.id, t₁, c, p, o, t₂, b, k2, k3, k4⟩
  have hfile : fileAfter (after V.C G (validatePw V.C V.K) base ops₀) lives = after V.C G (validatePw V.C V.K) base (ops₀ ++ log.map (·.op)) := by
    have := E.file
    unfold after at this ⊢
    rw [boltRun_append, this]
  obtain ⟨ns, h1, h2, R, -⟩ := sim_run_empty (validate := validatePw V.C V.K) hC hG hb (ops₀ ++ log.map (·.op)) hok'.ok hok'.len
  refine ⟨log, E, hok', hfile, ?_, ?_⟩
  · have := serves_of_rel hC hG R
    rw [← h2] at this
    rw [hfile]
    exact this
  · intro log₁ x log₂ he d
    constructor
    · have hr : (boltRun V.C G (validatePw V.C V.K) (render base) Db.empty (ops₀ ++ log.map (·.op))).1[ops₀.length + log₁.length]? = some (.ok ()) := by
        rw [boltRun_append]
        dsimp only
        have e : (boltRun V.C G (validatePw V.C V.K) (render base) Db.empty ops₀).2 = after V.C G (validatePw V.C V.K) base ops₀ := rfl
        rw [e, E.file, List.getElem?_append_right (by rw [boltRun_length]; omega), boltRun_length, he]
        simp
      rw [h1, he, List.map_append, List.map_cons, ← List.append_assoc, specRun_append] at hr
      dsimp only at hr
      rw [List.getElem?_append_right (by rw [specRun_length]; simp), specRun_length] at hr
      simpa [specRun] using hr
    · rw [he, List.map_append, List.map_cons, ← List.append_assoc, dirAfter, specRun_append]
      rfl

/-- A search of the entry itself finds it. -/
theorem serves_get {db : Db} {d : Dir} (S : Serves C G db d) {dn : Str} {name : DN} (hp : parseDN C dn = some name) (hok : NameOk name) {e : Entry}
    (h : d.get (foldDN C name) = some e) : boltSearch C G db dn scopeBase = .ok ([e], none) := by
  obtain ⟨found, h1, h2, h3⟩ := (S dn name hp hok scopeBase).1 (has_of_get h)
  have hall : ∀ f ∈ found, f.name = foldDN C name := by
    intro f hf
    rcases ((h3 f).1 hf).2 with ⟨-, h⟩ | ⟨h, -⟩ | ⟨h, -⟩
    · exact h
    · simp [scopeBase] at h
    · simp [scopeBase] at h
  obtain ⟨m, hm, he⟩ : ∃ m ∈ found, m.entry = e := by
    unfold Dir.get at h
    cases hf : d.find? fun n => n.name = foldDN C name with
    | none => rw [hf] at h; cases h
    | some m =>
      rw [hf] at h
      exact ⟨m, (h3 m).2 ⟨List.mem_of_find?_eq_some hf, .inl ⟨rfl, by simpa using List.find?_some hf⟩⟩, Option.some.inj h⟩
  match found, h1, h2, hall, hm with
  | [f], h1, _, _, hm =>
    rw [List.mem_singleton] at hm
    rw [← he, hm]
    exact h1
  | f :: g :: _, _, h2, hall, _ =>
    have e1 := hall f (by simp)
    have e2 := hall g (by simp)
    simp [e1, e2] at h2

/-- C88, for adding: once the client was told that the entry was added, it is found as it was sent (of a type that occurs twice the last
occurrence counts, C50), after any number of crashes and restarts, unless somebody asked to delete, rename or change it, before the answer or
later. -/
theorem C88_added_as_sent_partial (hC : V.C.Lawful) (hG : G.Lawful) (hb : BaseOk V.C base) (ops₀ : List Op) (hops : HistOk V.C ops₀)
    (lives : List (Life ι)) (h : Lives V G (render base) (after V.C G (validatePw V.C V.K) base ops₀) lives)
    (hok : ∀ op, Asked V lives op → op.Ok V.C) (hlen : ops₀.length + (lives.map fun l => l.proc.trace.length).sum < 2 ^ 64)
    {k : Nat} {id : ι} {dn : Str} {as : List Attr} (ha : Acknowledged lives k id (.add dn as)) {name : DN} (hp : parseDN V.C dn = some name)
    (hkeep : ∀ op, AskedSince V lives k id op → ¬ TakesAway V.C name op ∧ ¬ Edits V.C name op) :
    ∃ e, boltSearch V.C G (fileAfter (after V.C G (validatePw V.C V.K) base ops₀) lives) dn scopeBase = .ok ([e], none) ∧ e.dn = dn ∧
      (∀ a, a ∈ e.attrs ↔ ∃ before rest, as = before ++ a :: rest ∧ ∀ b ∈ rest, b.name ≠ a.name) ∧ (e.attrs.map (·.name)).Nodup := by
  obtain ⟨log, E, hok', -, S, hstep⟩ := lives_hist hC hG hb ops₀ hops lives h hok hlen
  obtain ⟨log₁, x, log₂, w', hlog, hx, hn, ⟨req, hw, hw'⟩, hl⟩ := acknowledged_log E h ha
  have hop : w' = .add dn as := by
    cases w' <;> simp only [IsWrite] at hw hw'
    all_goals first | (exfalso; omega) | skip
    obtain ⟨-, d, l, k1, k2, -, -, -, k3⟩ := hw
    obtain ⟨-, d', l', k1', k2', -, -, -, k3'⟩ := hw'
    rw [k1] at k1'
    cases k1'
    rw [k2] at k2'
    cases k2'
    rw [each_unique (R := IsAttribute) (fun _ _ _ h h2 => isAttribute_unique h h2) _ _ _ k3 k3']
  subst hop
  obtain ⟨s1, s2⟩ := hstep log₁ x log₂ hlog
  have hname : NameOk name := by
    have := hok'.ok x.op (by rw [hlog]; simp)
    rw [hx] at this
    exact this name (entryPutDN_of_parse hp)
  rw [hx] at s1
  have hget := run_get (base := base) (validate := validatePw V.C V.K) (log₂.map (·.op)) _ (add_get (e := entryFromAddRequest dn as) hp s1) (by
    intro op hop
    obtain ⟨y, hy, rfl⟩ := List.mem_map.1 hop
    exact hkeep _ (hl y hy))
  have e : (Write.add dn as).op = .add (entryFromAddRequest dn as) := rfl
  rw [hx, e] at s2
  rw [← s2] at hget
  obtain ⟨c1, c2, c3, -⟩ := C50_last_occurrence dn as
  exact ⟨_, serves_get S hp hname hget, c1, c2, c3⟩

/-- C88, for passwords: once a client was told that the password of a user was changed, it is the one that counts, after any number of crashes and
restarts, unless somebody asked to delete, rename or change the user's entry, before the answer or later: the user can bind with it, and with
another text only if the hash of the new password accepts that too. Partial: the limits of C26. -/
theorem C88_password_partial (hC : V.C.Lawful) (hK : V.K.Lawful) (hG : G.Lawful) (hb : BaseOk V.C base) (ops₀ : List Op) (hops : HistOk V.C ops₀)
    (lives : List (Life ι)) (h : Lives V G (render base) (after V.C G (validatePw V.C V.K) base ops₀) lives)
    (hok : ∀ op, Asked V lives op → op.Ok V.C) (hlen : ops₀.length + (lives.map fun l => l.proc.trace.length).sum < 2 ^ 64)
    {k : Nat} {id : ι} {dn new : Str} (ha : PasswordSet V lives k id dn new) (hne : new ≠ []) {name : DN} (hp : parseDN V.C dn = some name)
    (hbelow : render base <:+ render (foldDN V.C name))
    (hkeep : ∀ op, AskedSince V lives k id op → ¬ TakesAway V.C name op ∧ ¬ Edits V.C name op)
    (hascii : ∀ e, boltSearch V.C G (fileAfter (after V.C G (validatePw V.C V.K) base ops₀) lives) dn scopeBase = .ok ([e], none) → AsciiNames e.attrs) :
    ∃ salt hash, hashPw V.K salt new b!"{ARGON2}" = .ok hash ∧ validatePw V.C V.K new hash = .ok true ∧
      ∀ (cfg : BoltCfg) (n : Nat) (stats : Bool), cfg.base = render base → ∀ (o : Oracle) (id : Int) (bound pw : Str), pw ≠ [] →
        let out := handlePacket V (boltSrv V G cfg n stats) o (wMsg id (wBind dn pw)) bound
          (fileAfter (after V.C G (validatePw V.C V.K) base ops₀) lives)
        (validatePw V.C V.K pw hash = .ok true → out.resps = [.result id 1 0] ∧ out.next = .go (normalize V.C name)) ∧
        (validatePw V.C V.K pw hash ≠ .ok true → ∃ code, code ≠ 0 ∧ out.resps = [.result id 1 code] ∧ out.next = .go bound) := by
  obtain ⟨log, E, hok', hfile, S, hstep⟩ := lives_hist hC hG hb ops₀ hops lives h hok hlen
  obtain ⟨l, t₁, c, p, o, t₂, bound, mid, req, rs, value, user, old, g1, g2, g3, g4, g5, g6, g7, g8, g9, g10⟩ := ha
  obtain ⟨log₁, x, log₂, hlog, hx, hl⟩ := change_log E h g1 g2 g3 g4 g5 ⟨mid, req, g6, by omega⟩
  obtain ⟨mid', req', hm', hh⟩ := hx
  obtain ⟨-, rfl⟩ := message_unique g6 hm'
  rcases hh with ⟨w, hw, -⟩ | ⟨-, value', user', old', new', pw, salt, hash, q1, q2, q3, q4, q5⟩
  · cases w <;> simp only [IsWrite] at hw <;> omega
  cases pwExop_unique g8 q1
  obtain ⟨rfl, rfl, rfl⟩ := pwAsks_unique g9 q2
  rw [← g10] at q5
  have hpw := q3 hne
  subst hpw
  have hval := C23_argon2_roundtrip hC hK pw salt hash q4
  have hhash : hash ≠ [] := by rintro rfl; rw [validatePw_nil] at hval; cases hval
  obtain ⟨s1, s2⟩ := hstep log₁ x log₂ hlog
  have hname : NameOk name := by
    have := hok'.ok x.op (by rw [hlog]; simp)
    rw [q5] at this
    exact this name hp
  rw [q5] at s1 s2
  obtain ⟨e0, e', hmod, hget'⟩ := password_get (r := ⟨dn, old, hash⟩) hp s1
  have hget := run_get (base := base) (validate := validatePw V.C V.K) (log₂.map (·.op)) _ hget' (by
    intro op hop
    obtain ⟨y, hy, rfl⟩ := List.mem_map.1 hop
    exact hkeep _ (hl y hy))
  rw [← s2] at hget
  have hasc := hascii e' (serves_get S hp hname hget)
  have hgv : getVal V.C e'.attrs sUserPassword = hash := by
    obtain ⟨rdn, rest, md, -, -, -, -, hch⟩ := applyModify_ok hmod
    obtain ⟨as1, q1, q2⟩ := applyChanges_cons hch
    simp only [applyChanges, Res.ok.injEq] at q2
    rw [← q2] at hasc ⊢
    rcases applyChange_ok q1 with ⟨h, _⟩ | ⟨_, _, rfl⟩ | ⟨h, _⟩ | ⟨_, h, _⟩
    · exact absurd h (by simp [opAdd, opReplace, opDelete])
    · exact getVal_after hC hasc
    · exact absurd h (by simp [opAdd, opReplace, opDelete])
    · exact absurd rfl h
  refine ⟨salt, hash, q4, hval, fun cfg n stats hcfg o id bound pw' hpw' => ?_⟩
  have ht : TextOk V.C dn := by
    intro m hm
    rw [hp] at hm
    cases hm
    exact hname
  obtain ⟨-, w1, w2⟩ := C22_bind_exact (n := n) (stats := stats) hC hG hb hcfg _ hok' o id bound dn pw' ht
  rw [hfile]
  constructor
  · intro hv
    obtain ⟨name', p1, p2, p3⟩ := w1 (Or.inr ⟨hpw', name, e', hash, hp, hbelow, hget, (passwordOf_iff (dn := e'.dn) hhash).2 hgv, hv⟩)
    rw [hp] at p1
    cases p1
    exact ⟨p2, p3⟩
  · intro hv
    refine w2 ?_
    rintro (⟨-, h, -⟩ | ⟨-, name', e2, h2, p1, -, p3, p4, p5⟩)
    · exact hpw' h
    · rw [hp] at p1
      cases p1
      rw [hget] at p3
      cases p3
      have hh2 : h2 ≠ [] := by rintro rfl; rw [validatePw_nil] at p5; cases p5
      have := (passwordOf_iff (dn := e'.dn) hh2).1 p4
      rw [hgv] at this
      rw [this] at hv
      exact hv p5

end
/-! ## Examples -/

/-- Non-vacuity of `C88_added_as_sent_partial`: the process is killed after the add, and the entry is found by the next one, as it was sent. -/
example : ∃ (s : Par Nat), let lives : List (Life Nat) := [⟨toyCfg, 8, false, s⟩, ⟨toyCfg, 8, true, Par.start s.disk⟩]
    Lives toyEnv gobInstance (render toyBase) (after asciiCase gobInstance (validatePw asciiCase toyCrypto) toyBase toyOps) lives ∧
    Acknowledged lives 0 1 (.add b!"uid=Bob,dc=lg" [⟨b!"uid", [b!"Bob"]⟩]) ∧
    boltSearch asciiCase gobInstance (fileAfter toyDb lives) b!"uid=Bob,dc=lg" scopeBase =
      .ok ([⟨b!"uid=Bob,dc=lg", [⟨b!"uid", [b!"Bob"]⟩]⟩], none) := by
  obtain ⟨s, hr, ht⟩ := par_add_example
  have hlives : Lives toyEnv gobInstance (render toyBase) (after asciiCase gobInstance (validatePw asciiCase toyCrypto) toyBase toyOps)
      [⟨toyCfg, 8, false, s⟩, ⟨toyCfg, 8, true, Par.start s.disk⟩] :=
    ⟨toyCfg_base, hr, toyCfg_base, .start, trivial⟩
  have hask : ∀ op, Asked toyEnv [⟨toyCfg, 8, false, s⟩, ⟨toyCfg, 8, true, Par.start s.disk⟩] op →
      ∃ as, op = .add (entryFromAddRequest b!"uid=Bob,dc=lg" as) := by
    rintro op ⟨l, hl, id, t₁, c, p, o, t₂, b, he, -, hop⟩
    have ha : Seen.arrive id (.packet c p o) ∈ l.proc.trace := by rw [he]; simp
    simp only [List.mem_cons, List.mem_nil_iff, or_false] at hl
    rcases hl with rfl | rfl
    · dsimp only at ha
      rw [ht] at ha
      simp only [List.mem_cons, List.mem_nil_iff, or_false] at ha
      rcases ha with h | h | h | h <;> cases h
      · exact (asks_bind hop).elim
      · exact asks_add hop
    · cases ha
  have hack : Acknowledged [⟨toyCfg, 8, false, s⟩, ⟨toyCfg, 8, true, Par.start s.disk⟩] 0 1
      (.add b!"uid=Bob,dc=lg" [⟨b!"uid", [b!"Bob"]⟩]) := by
    refine ⟨_, 0, parAdd.p, parAdd.o, 2, wAdd ⟨b!"uid=Bob,dc=lg", [⟨b!"uid", [b!"Bob"]⟩]⟩, [.result 2 9 0], rfl, ?_, ?_, ⟨_, rfl, rfl⟩,
      ⟨_, _, rfl, rfl, rfl⟩, rfl, _, _, rfl, rfl, ?_⟩
    · simp [ht]
    · simp [ht]
    · exact ⟨rfl, rfl, rfl, ⟨_, _, rfl, ⟨rfl, rfl, rfl, rfl⟩, rfl, rfl, rfl, rfl, trivial⟩, trivial⟩
  refine ⟨s, hlives, hack, ?_⟩
  obtain ⟨e, h1, h2, h3, h4⟩ := C88_added_as_sent_partial (V := toyEnv) asciiCase_lawful gobInstance_lawful (by decide +kernel) toyOps
    ⟨by decide +kernel, by decide +kernel⟩ _ hlives (fun op h => by
      obtain ⟨as, rfl⟩ := hask op h
      show ∀ n, entryPutDN asciiCase b!"uid=Bob,dc=lg" = some n → NameOk n
      decide +kernel) (by simp [ht, Par.start, toyOps]) hack
    (name := [[⟨b!"uid", b!"Bob"⟩], [⟨b!"dc", b!"lg"⟩]]) (by decide +kernel) (by
      rintro op ⟨k', l, id', -, hl, hop, -⟩
      obtain ⟨as, rfl⟩ := hask op ⟨l, List.mem_of_getElem? hl, id', hop⟩
      exact ⟨id, id⟩)
  refine Eq.trans h1 ?_
  obtain ⟨dn, as⟩ := e
  have hm : ∀ a, a ∈ as ↔ a = ⟨b!"uid", [b!"Bob"]⟩ := by
    intro a
    rw [h3 a]
    constructor
    · rintro ⟨bf, rest, he, -⟩
      have : a ∈ [(⟨b!"uid", [b!"Bob"]⟩ : Attr)] := by rw [he]; simp
      simpa using this
    · rintro rfl
      exact ⟨[], [], rfl, by simp⟩
  cases h2
  match as, hm, h4 with
  | [], hm, _ => exact absurd ((hm _).2 rfl) (by simp)
  | [a], hm, _ => rw [(hm a).1 (by simp)]
  | a :: b :: _, hm, h4 =>
    have e1 := (hm a).1 (by simp)
    have e2 := (hm b).1 (by simp)
    simp [e1, e2] at h4

/-- Ann binds with the password she has, and changes it. -/
def parLogin : Job Nat := ⟨0, toyOracle, wMsg 1 (wBind b!"uid=ann,dc=lg" b!"pw"), []⟩
def parNewPw : Job Nat := ⟨1, toyOracle, wMsg 2 (wPwModify ([48, 5, 130, 3] ++ b!"new")), b!"uid=ann,dc=lg"⟩

theorem asks_login {b : Str} {op : Op} (h : AsksFor toyEnv b parLogin.p op) : False := by
  obtain ⟨mid, req, ⟨m, more, h1, -, -⟩, hh⟩ := h
  cases h1
  rcases hh with ⟨w, hw, -, -⟩ | ⟨ht, -⟩
  · cases w <;> exact absurd hw.1 (by decide)
  · exact absurd ht (by decide)

theorem par_pw_example : ∃ s : Par Nat, ParReach toyEnv gobInstance toyCfg 8 false toyDb s ∧
    s.trace = [.arrive 0 (.packet 0 parLogin.p parLogin.o), .answer 0 [.result 1 1 0],
      .arrive 1 (.packet 0 parNewPw.p parNewPw.o), .answer 1 [.extended 2 0 b!"1.3.6.1.4.1.4203.1.11.1" none]] ∧
    s.disk = ((parWork parNewPw).exec toyDb).2 := by
  obtain ⟨pb, hpb⟩ := par_read (j := parLogin) (by decide +kernel)
  obtain ⟨pd, hpd⟩ := par_write (j := parNewPw) (by decide +kernel)
  have h0 : ParReach (ι := Nat) toyEnv gobInstance toyCfg 8 false toyDb (Par.start toyDb) := .start
  have h1 := ParReach.step _ _ h0 (.arrive _ 0 [] 0 parLogin.o parLogin.p rfl rfl (by simp [Par.start]))
  have h2 := ParReach.step _ _ h1 (.beginRead _ 0 parLogin pb rfl rfl hpb)
  have h3 := read_through (c := 0) (d := toyDb) h2 rfl hpb rfl (b' := b!"uid=ann,dc=lg") (by decide +kernel) (by decide +kernel)
  have h4 := ParReach.step _ _ h3 (.arrive _ 0 b!"uid=ann,dc=lg" 1 parNewPw.o parNewPw.p rfl rfl (by simp [Par.start]))
  have h7 := ParReach.step _ _ h4 (.beginWrite _ 0 parNewPw pd rfl (by simp [setStage]; rfl) hpd rfl)
  have h8 := write_through (c := 0) h7 rfl hpd rfl (b' := b!"uid=ann,dc=lg")
    (by
      show (packetEnd toyEnv toyCfg 8 false parNewPw.o parNewPw.p parNewPw.b ((parWork parNewPw).exec toyDb).1).2 = _
      decide +kernel)
  refine ⟨_, h8, ?_, ?_⟩
  · have e1 : (packetEnd toyEnv toyCfg 8 false parLogin.o parLogin.p parLogin.b ((parWork parLogin).exec toyDb).1).1 = [.result 1 1 0] := by
      decide +kernel
    have e2 : (packetEnd toyEnv toyCfg 8 false parNewPw.o parNewPw.p parNewPw.b ((parWork parNewPw).exec toyDb).1).1 =
        [.extended 2 0 b!"1.3.6.1.4.1.4203.1.11.1" none] := by
      decide +kernel
    unfold parWork at e1 e2
    simp only [Par.start, e1, e2]
    rfl
  · dsimp only [Par.start, parWork]

/-- The entry has the new password then. -/
theorem par_pw_disk : boltSearch asciiCase gobInstance ((parWork parNewPw).exec toyDb).2 b!"uid=ann,dc=lg" scopeBase =
    .ok ([⟨b!"uid=Ann,dc=lg", [⟨b!"uid", [b!"Ann"]⟩, ⟨b!"mail", [b!"a@lg"]⟩, ⟨b!"userPassword", [b!"{ARGON2}$argon2id$new"]⟩]⟩], none) := by
  decide +kernel

theorem par_pw_bound : LastBind (ι := Nat) asciiCase 0 [Seen.arrive 0 (.packet 0 parLogin.p parLogin.o), .answer 0 [.result 1 1 0]] b!"uid=ann,dc=lg" := by
  refine Or.inr ⟨[.arrive 0 (.packet 0 parLogin.p parLogin.o)], 0, [.result 1 1 0], [], parLogin.p, parLogin.o, b!"uid=ann,dc=lg", rfl, by simp, ?_, ?_,
    by decide +kernel, by simp⟩
  · exact ⟨_, List.mem_cons_self, rfl, rfl⟩
  · exact ⟨1, _, _, ⟨_, _, rfl, rfl, rfl⟩, rfl, rfl, rfl⟩

theorem par_pw_asks : PwAsks toyEnv (some ([48, 5, 130, 3] ++ b!"new")) [] [] b!"new" := by
  unfold PwAsks
  cases h : (some ([48, 5, 130, 3] ++ b!"new") : Option Str).bind toyEnv.berDecode with
  | none =>
    exfalso
    have : ((some ([48, 5, 130, 3] ++ b!"new") : Option Str).bind toyEnv.berDecode).isSome = true := by decide +kernel
    rw [h] at this
    cases this
  | some inner =>
    have h1 : ((some ([48, 5, 130, 3] ++ b!"new") : Option Str).bind toyEnv.berDecode).map (fun i => (i.kids.length, i.kids.all fun k =>
      k.cls == .context && decide (k.tag ≤ 2), pwPart 0 i.kids, pwPart 1 i.kids, pwPart 2 i.kids)) = some (1, true, [], [], b!"new") := by
      decide +kernel
    rw [h] at h1
    simp only [Option.map_some, Option.some.injEq, Prod.mk.injEq, List.all_eq_true, Bool.and_eq_true, beq_iff_eq, decide_eq_true_eq] at h1
    exact ⟨by omega, h1.2.1, h1.2.2.1.symm, h1.2.2.2.1.symm, h1.2.2.2.2.symm⟩

/-- Non-vacuity of `C88_password_partial`: the process is killed after the change, and in the next one Ann can bind with the new password and not
with the old one. -/
example : ∃ (s : Par Nat), let lives : List (Life Nat) := [⟨toyCfg, 8, false, s⟩, ⟨toyCfg, 8, true, Par.start s.disk⟩]
    Lives toyEnv gobInstance (render toyBase) (after asciiCase gobInstance (validatePw asciiCase toyCrypto) toyBase toyOps) lives ∧
    PasswordSet toyEnv lives 0 1 b!"uid=ann,dc=lg" b!"new" ∧
    (handlePacket toyEnv (boltSrv toyEnv gobInstance toyCfg 8 true) toyOracle (wMsg 1 (wBind b!"uid=ann,dc=lg" b!"new")) []
      (fileAfter toyDb lives)).resps = [.result 1 1 0] ∧
    (handlePacket toyEnv (boltSrv toyEnv gobInstance toyCfg 8 true) toyOracle (wMsg 1 (wBind b!"uid=ann,dc=lg" b!"pw")) []
      (fileAfter toyDb lives)).next = .go [] := by
  obtain ⟨s, hr, ht, hd⟩ := par_pw_example
  have hlives : Lives toyEnv gobInstance (render toyBase) (after asciiCase gobInstance (validatePw asciiCase toyCrypto) toyBase toyOps)
      [⟨toyCfg, 8, false, s⟩, ⟨toyCfg, 8, true, Par.start s.disk⟩] :=
    ⟨toyCfg_base, hr, toyCfg_base, .start, trivial⟩
  have hby : ∀ (l : Life Nat) id op, l ∈ [⟨toyCfg, 8, false, s⟩, ⟨toyCfg, 8, true, Par.start s.disk⟩] → AskedBy toyEnv l id op →
      l = ⟨toyCfg, 8, false, s⟩ ∧ id = 1 ∧ ∃ old hash, op = .password ⟨b!"uid=ann,dc=lg", old, hash⟩ := by
    rintro l id op hl ⟨t₁, c, p, o, t₂, b, he, hb, hop⟩
    simp only [List.mem_cons, List.mem_nil_iff, or_false] at hl
    rcases hl with rfl | rfl
    · dsimp only at he
      have ha : Seen.arrive id (.packet c p o) ∈ s.trace := by rw [he]; simp
      rw [ht] at ha
      simp only [List.mem_cons, List.mem_nil_iff, or_false] at ha
      rcases ha with h | h | h | h <;> cases h
      · exact (asks_login hop).elim
      · refine ⟨rfl, rfl, ?_⟩
        have := arrive_split hr he (u₁ := [Seen.arrive 0 (.packet 0 parLogin.p parLogin.o), .answer 0 [.result 1 1 0]]) ht
        subst this
        have hb' : b!"uid=ann,dc=lg" = b := by
          refine lastBind_unique (V := toyEnv) (fun i e e' h1 h2 => ?_) par_pw_bound hb
          simp only [List.mem_cons, List.mem_nil_iff, or_false, reduceCtorEq, Seen.arrive.injEq] at h1 h2
          rw [h1.2, h2.2]
        subst hb'
        obtain ⟨mid, req, ⟨m, more, h1, -, -⟩, hh⟩ := hop
        cases h1
        rcases hh with ⟨w, hw, -, -⟩ | ⟨-, value, user, old, new, pw, salt, hash, q1, q2, -, -, q5⟩
        · cases w <;> exact absurd hw.1 (by decide)
        · cases pwExop_unique (Or.inr ⟨_, _, rfl, rfl, rfl, rfl, rfl, rfl, rfl⟩) q1
          obtain ⟨rfl, rfl, rfl⟩ := pwAsks_unique par_pw_asks q2
          exact ⟨_, _, q5⟩
    · cases t₁ <;> cases he
  have hset : PasswordSet toyEnv [⟨toyCfg, 8, false, s⟩, ⟨toyCfg, 8, true, Par.start s.disk⟩] 0 1 b!"uid=ann,dc=lg" b!"new" :=
    ⟨_, _, 0, parNewPw.p, parNewPw.o, _, _, 2, wPwModify ([48, 5, 130, 3] ++ b!"new"), _, _, _, _, rfl, ht, par_pw_bound, by rw [ht]; simp; rfl, ⟨_, rfl, rfl⟩,
      ⟨_, _, rfl, rfl, rfl⟩, rfl, Or.inr ⟨_, _, rfl, rfl, rfl, rfl, rfl, rfl, rfl⟩, par_pw_asks, rfl⟩
  refine ⟨s, hlives, hset, ?_⟩
  obtain ⟨salt, hash, h1, h2, h3⟩ := C88_password_partial (V := toyEnv) asciiCase_lawful toyCrypto_lawful gobInstance_lawful (by decide +kernel) toyOps
    ⟨by decide +kernel, by decide +kernel⟩ _ hlives (by
      rintro op ⟨l, hl, id, hop⟩
      obtain ⟨-, -, old, hash, rfl⟩ := hby l id op hl hop
      exact (by decide +kernel : ∀ n, parseDN asciiCase b!"uid=ann,dc=lg" = some n → NameOk n)) (by simp [ht, Par.start, toyOps]) hset (by decide)
    (name := [[⟨b!"uid", b!"ann"⟩], [⟨b!"dc", b!"lg"⟩]]) (by decide +kernel) (by decide +kernel) (by
      rintro op ⟨k', l, id', -, hl, hop, hne⟩
      obtain ⟨rfl, rfl, -⟩ := hby l id' op (List.mem_of_getElem? hl) hop
      match k', hl, hne with
      | 0, _, hne => exact absurd rfl (hne rfl).1
      | 1, hl, _ =>
        simp only [List.getElem?_cons_succ, List.getElem?_cons_zero, Option.some.injEq, Life.mk.injEq] at hl
        exact absurd hl.2.2.1 (by decide)) (by
      intro e he
      have e1 : fileAfter (after asciiCase gobInstance (validatePw asciiCase toyCrypto) toyBase toyOps)
        [⟨toyCfg, 8, false, s⟩, ⟨toyCfg, 8, true, Par.start s.disk⟩] = s.disk := rfl
      have he' : boltSearch asciiCase gobInstance (fileAfter (after asciiCase gobInstance (validatePw asciiCase toyCrypto) toyBase toyOps)
        [⟨toyCfg, 8, false, s⟩, ⟨toyCfg, 8, true, Par.start s.disk⟩]) b!"uid=ann,dc=lg" scopeBase = .ok ([e], none) := he
      rw [e1, hd, par_pw_disk] at he'
      cases he'
      decide +kernel)
  have hh : hash = b!"{ARGON2}$argon2id$new" := by
    have e : hashPw toyCrypto salt b!"new" b!"{ARGON2}" = .ok b!"{ARGON2}$argon2id$new" := rfl
    have h1' : hashPw toyCrypto salt b!"new" b!"{ARGON2}" = .ok hash := h1
    rw [e] at h1'
    cases h1'
    rfl
  subst hh
  refine ⟨((h3 toyCfg 8 true (by decide +kernel) toyOracle 1 [] b!"new" (by decide)).1 h2).1, ?_⟩
  obtain ⟨code, -, -, h⟩ := (h3 toyCfg 8 true (by decide +kernel) toyOracle 1 [] b!"pw" (by decide)).2 (by decide +kernel)
  exact h

end Idm
