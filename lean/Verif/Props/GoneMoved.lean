import Verif.Props.ModifiedMoved
/-!
# C133: values taken away stay away when the entry is renamed
-/
namespace Idm

section
variable {C : CaseEnv} {validate : Str → Str → Res Bool} {base : DN}

/-- A renamed entry gets only the values of its new RDN. -/
theorem lacks_renamed (hC : C.Lawful) {t v : Str} {d : Dir} (hd : ∀ n ∈ d, Tidy C n.entry.attrs) {q : ModifyDNReq} (hop : (Op.rename q).Ok C) {o n : RDN}
    {p m : DN} (ho : parseDN C q.dn = some (o :: p)) (hn : parseDN C q.newRDN = some (n :: m)) (h : Lacks C t v d (foldDN C (o :: p)))
    (hk : ∀ a ∈ n, C.fold a.typ = C.fold t → C.fold a.val ≠ C.fold v)
    (hr : (specStep C validate base d (.rename q)).1 = .ok ()) : Lacks C t v (specStep C validate base d (.rename q)).2 (foldDN C (n :: p)) := by
  revert hr
  cases h1 : d.get (foldDN C (o :: p)) with
  | none =>
    simp only [specStep, ho, hn, specRename, specRenameAt, h1]
    split <;> (intro h; cases h)
  | some e =>
    simp only [specStep, ho, hn, specRename, specRenameAt, h1]
    split
    · intro h; cases h
    rename_i hhas
    split
    · intro h; cases h
    split
    · rename_i e' he'
      split
      · intro h; cases h
      intro _ e1 he1
      rw [get_rename_self h1 (by simpa using hhas)] at he1
      cases he1
      refine lacks_modify hC he' (hd _ (get_node h1)) ?_ (show ∀ w ∈ valuesOf C e.attrs t, C.fold w ≠ C.fold v from h _ h1) ?_
      · intro c hc
        rcases List.mem_append.1 hc with hc | hc
        · split at hc
          · obtain ⟨a, ha, rfl⟩ := List.mem_map.1 hc
            exact typeOk_ascii ((hop.1 _ ho o (by simp)).2 a ha)
          · simp at hc
        · obtain ⟨a, ha, rfl⟩ := List.mem_map.1 hc
          exact typeOk_ascii ((hop.2 _ hn n (by simp)).2 a ha)
      · intro c hc hop ht w hw
        rcases List.mem_append.1 hc with hc | hc
        · split at hc
          · obtain ⟨a, ha, rfl⟩ := List.mem_map.1 hc
            simp [opDelete] at hop
          · simp at hc
        · obtain ⟨a, ha, rfl⟩ := List.mem_map.1 hc
          simp at hw
          subst hw
          exact hk a ha ht
    all_goals (intro h; cases h)

/-- A value that is not there before a rename is not there after it, whatever else is done. -/
theorem lacks_moved (hC : C.Lawful) {t v : Str} {D : Dir} (hd : ∀ n ∈ D, Tidy C n.entry.attrs) {us₁ us₂ : List Op} {r : ModifyDNReq}
    (hok : ∀ op ∈ us₁ ++ .rename r :: us₂, op.Ok C) (hp : ∀ op ∈ us₁ ++ .rename r :: us₂, op.plain) (hu : ∀ op ∈ us₁ ++ .rename r :: us₂, op.distinct C)
    {k : DN} (h : Lacks C t v D k) {o n : RDN} {p q : DN} (ho : parseDN C r.dn = some (o :: p)) (hn : parseDN C r.newRDN = some (n :: q))
    (hsame : foldDN C (o :: p) = k) (hr : (specStep C validate base (specRun C validate base D us₁).2 (.rename r)).1 = .ok ())
    (hrdn : ∀ b ∈ n, C.fold b.typ = C.fold t → C.fold b.val ≠ C.fold v) (h1 : ∀ op ∈ us₁, ¬ op.brings C t v k)
    (h2 : ∀ op ∈ us₂, ¬ op.brings C t v (foldDN C (n :: p))) :
    Lacks C t v (specRun C validate base D (us₁ ++ .rename r :: us₂)).2 (foldDN C (n :: p)) := by
  have i1 : ∀ u ∈ us₁, u ∈ us₁ ++ .rename r :: us₂ := fun u hu => List.mem_append_left _ hu
  have i2 : ∀ u ∈ us₂, u ∈ us₁ ++ .rename r :: us₂ := fun u hu => List.mem_append_right _ (List.mem_cons_of_mem _ hu)
  have iy : Op.rename r ∈ us₁ ++ .rename r :: us₂ := by simp
  have l1 := lacks_run (validate := validate) (base := base) hC us₁ D hd (fun o ho => hok o (i1 o ho)) (fun o ho => hp o (i1 o ho))
    (fun o ho => hu o (i1 o ho)) h h1
  have t1 := tidy_run (validate := validate) (base := base) us₁ D hd (fun o ho => hok o (i1 o ho)) (fun o ho => hp o (i1 o ho)) fun o ho => hu o (i1 o ho)
  rw [specRun_append]
  simp only [specRun]
  generalize (specRun C validate base D us₁).2 = D₁ at l1 t1 hr ⊢
  subst hsame
  exact lacks_run hC us₂ _ (tidy_step t1 _ (hok _ iy) (hp _ iy) (hu _ iy)) (fun o ho => hok o (i2 o ho)) (fun o ho => hp o (i2 o ho))
    (fun o ho => hu o (i2 o ho)) (lacks_renamed hC t1 (hok _ iy) ho hn l1 hrdn hr) h2

theorem serves_lacks {G : GobEnv} {db : Db} {D : Dir} (S : Serves C G db D) {text : Str} {new : DN} (hp : parseDN C text = some new) (hnew : NameOk new)
    {t v : Str} (h : Lacks C t v D (foldDN C new)) {e : Entry} (he : boltSearch C G db text scopeBase = .ok ([e], none)) : ¬ HasValue C e.attrs t v := by
  rintro ⟨w, hw, hf⟩
  cases hg : D.get (foldDN C new) with
  | none =>
    have : D.has (foldDN C new) = false := by rw [has_get, hg]; rfl
    rw [(S text new hp hnew scopeBase).2 this] at he
    simp at he
  | some e1 =>
    rw [serves_get S hp hnew hg] at he
    simp at he
    subst he
    exact h e1 hg w hw hf

end

section
variable {ι : Type} {V : Env} {G : GobEnv} {base : DN}

/-- C133, for entries that are renamed: once clients were told that a modification was made that takes a value away and, of a rename sent after the answer
(in the same life of the server or a later one), that the entry was renamed, the entry does not have this value under its new name, in any spelling, after any
number of crashes and restarts, if the value is not in the new RDN and nobody else asked, since the modification, to give it to the entry or to rename another
entry to the old or new name. Missing: what is missing in `C133_gone_partial`. -/
theorem C133_moved_partial (hC : V.C.Lawful) (hG : G.Lawful) (hb : BaseOk V.C base) (ops₀ : List Op) (hops : HistOk V.C ops₀)
    (hp₀ : ∀ op ∈ ops₀, op.plain ∧ op.distinct V.C) (lives : List (Life ι))
    (h : Lives V G (render base) (after V.C G (validatePw V.C V.K) base ops₀) lives)
    (hok : ∀ op, Asked V lives op → op.Ok V.C ∧ op.plain ∧ op.distinct V.C)
    (hlen : ops₀.length + (lives.map fun l => l.proc.trace.length).sum < 2 ^ 64)
    {k : Nat} {id : ι} {dn : Str} {cs : List Change} (ha : Acknowledged lives k id (.modify dn cs)) {name : DN} (hp : parseDN V.C dn = some name)
    {k' : Nat} {id' : ι} {dn' rdn : Str} {del : Bool} (ha' : Acknowledged lives k' id' (.rename dn' rdn del)) {o n : RDN} {p q : DN}
    (ho : parseDN V.C dn' = some (o :: p)) (hn : parseDN V.C rdn = some (n :: q)) (hsame : foldDN V.C (o :: p) = foldDN V.C name)
    (hlater : k < k' ∨ k = k' ∧ ∃ l, lives[k]? = some l ∧ AnsweredBefore l.proc.trace id id')
    (c₁ c₂ : List Change) (c : Change) (hcs : cs = c₁ ++ c :: c₂) (v : Str) (hc : c.removes V.C v)
    (hlast : ∀ d ∈ c₂, V.C.fold d.typ = V.C.fold c.typ → d.op ≠ 1 ∧ ∀ w ∈ d.vals, V.C.fold w ≠ V.C.fold v)
    (hrdn : ∀ b ∈ n, V.C.fold b.typ = V.C.fold c.typ → V.C.fold b.val ≠ V.C.fold v)
    (hkeep : ∀ k₂ l id₂ op, k ≤ k₂ → lives[k₂]? = some l → AskedBy V l id₂ op → (k₂ = k → id₂ ≠ id ∧ ¬ AnsweredBefore l.proc.trace id₂ id) →
      ¬ (k₂ = k' ∧ id₂ = id') → ¬ op.brings V.C c.typ v (foldDN V.C name) ∧ ¬ op.brings V.C c.typ v (foldDN V.C (n :: p)))
    (text : Str) (new : DN) (hpn : parseDN V.C text = some new) (hnew : NameOk new) (hfold : foldDN V.C new = foldDN V.C (n :: p)) (e : Entry)
    (he : boltSearch V.C G (fileAfter (after V.C G (validatePw V.C V.K) base ops₀) lives) text scopeBase = .ok ([e], none)) :
    ¬ HasValue V.C e.attrs c.typ v := by
  obtain ⟨log, E, hok', -, S, hstep⟩ := lives_hist hC hG hb ops₀ hops lives h (fun op h => (hok op h).1) hlen
  have hpl := log_plain E hp₀ hok
  obtain ⟨x, hx, hxl, hxi, hxo⟩ := acknowledged_mem E h ha
  obtain ⟨y, hy, hyl, hyi, hyo⟩ := acknowledged_mem E h ha'
  have exo : x.op = .modify dn cs := hxo
  have eyo : y.op = .rename ⟨dn', rdn, del⟩ := hyo
  obtain ⟨log₁, log₂, hlog⟩ := List.append_of_mem hx
  have horder := E.inOrder
  have honce := E.once
  rw [hlog, List.pairwise_append] at horder honce
  obtain ⟨-, ho2, ho3⟩ := horder
  obtain ⟨-, hc2, hc3⟩ := honce
  rw [List.pairwise_cons] at ho2 hc2
  have hy2 : y ∈ log₂ := by
    rw [hlog] at hy
    rcases List.mem_append.1 hy with hy | hy
    · exfalso
      obtain ⟨g1, g2⟩ := ho3 y hy x (by simp)
      rcases hlater with h | ⟨h, l, hl, hab⟩
      · omega
      · refine g2 l (by omega) (by rw [hyl, ← h]; exact hl) ?_
        rw [hxi, hyi]
        exact hab
    · rcases List.mem_cons.1 hy with rfl | hy
      · rw [exo] at eyo
        cases eyo
      · exact hy
  obtain ⟨a₁, a₂, hlog₂⟩ := List.append_of_mem hy2
  have hmemx : x.op ∈ ops₀ ++ log.map (·.op) := by rw [hlog]; simp
  obtain ⟨s1, hdir⟩ := hstep log₁ x log₂ hlog
  obtain ⟨s2, -⟩ := hstep (log₁ ++ x :: a₁) y a₂ (by rw [hlog, hlog₂]; simp)
  have hsub : ∀ op ∈ ops₀ ++ log₁.map (·.op), op ∈ ops₀ ++ log.map (·.op) := by
    intro op hop
    rw [hlog, List.map_append, ← List.append_assoc]
    exact List.mem_append_left _ hop
  have hsub2 : ∀ op ∈ log₂.map (·.op), op ∈ ops₀ ++ log.map (·.op) := by
    intro op hop
    rw [hlog, List.map_append, List.map_cons]
    exact List.mem_append_right _ (List.mem_append_right _ (List.mem_cons_of_mem _ hop))
  have hd : ∀ n ∈ dirAfter V.C (validatePw V.C V.K) base (ops₀ ++ log₁.map (·.op)), Tidy V.C n.entry.attrs :=
    tidy_run _ [] (by simp) (fun o ho => hok'.ok o (hsub o ho)) (fun o ho => (hpl o (hsub o ho)).1) fun o ho => (hpl o (hsub o ho)).2
  have hd' := tidy_step (validate := validatePw V.C V.K) (base := base) hd x.op (hok'.ok x.op hmemx) (hpl _ hmemx).1 (hpl _ hmemx).2
  have hascii : ∀ c ∈ cs, IsAscii c.typ := by
    have := (hpl x.op hmemx).1
    rw [exo] at this
    exact this
  have hothers : ∀ z ∈ a₁ ++ a₂, ¬ (z.op).brings V.C c.typ v (foldDN V.C name) ∧ ¬ (z.op).brings V.C c.typ v (foldDN V.C (n :: p)) := by
    intro z hz
    have hz2 : z ∈ log₂ := by rw [hlog₂]; simp at hz ⊢; grind
    obtain ⟨l, t₁, cc, pp, oo, t₂, bb, k1, k2, k3, -, k4⟩ := E.asked z (by rw [hlog]; simp [hz2])
    obtain ⟨g1, g2⟩ := ho2.1 z hz2
    refine hkeep z.life l z.id _ (by omega) k1 ⟨t₁, cc, pp, oo, t₂, bb, k2, k3, k4⟩ (fun e => ⟨fun e' => ?_, ?_⟩) ?_
    · exact hc2.1 z hz2 ⟨by omega, by rw [hxi, e']⟩
    · rw [hxi] at g2
      exact g2 l (by omega) (by rw [hxl, ← e]; exact k1)
    · rintro ⟨e1, e2⟩
      have hpw := hc2.2
      rw [hlog₂, List.pairwise_append] at hpw
      obtain ⟨-, p2, p3⟩ := hpw
      rcases List.mem_append.1 hz with hz | hz
      · exact p3 z hz y (by simp) ⟨by omega, by rw [e2, hyi]⟩
      · exact (List.pairwise_cons.1 p2).1 z hz ⟨by omega, by rw [e2, hyi]⟩
  have hpre : dirAfter V.C (validatePw V.C V.K) base (ops₀ ++ (log₁ ++ x :: a₁).map (·.op)) = (specRun V.C (validatePw V.C V.K) base
      (specStep V.C (validatePw V.C V.K) base (dirAfter V.C (validatePw V.C V.K) base (ops₀ ++ log₁.map (·.op))) x.op).2 (a₁.map (·.op))).2 := by
    have : ops₀ ++ (log₁ ++ x :: a₁).map (·.op) = (ops₀ ++ log₁.map (·.op)) ++ (x.op :: a₁.map (·.op)) := by simp
    rw [this]
    generalize ops₀ ++ log₁.map (·.op) = pre
    rw [dirAfter, dirAfter, specRun_append]
    rfl
  have hh : Lacks V.C c.typ v (specStep V.C (validatePw V.C V.K) base (dirAfter V.C (validatePw V.C V.K) base (ops₀ ++ log₁.map (·.op))) x.op).2
      (foldDN V.C name) := by
    rw [exo] at s1 ⊢
    clear hd' hdir s2
    generalize dirAfter V.C (validatePw V.C V.K) base (ops₀ ++ log₁.map (·.op)) = d at s1 hd ⊢
    revert s1
    simp only [specStep, hp, specModify, specModifyAt]
    cases hg : d.get (foldDN V.C name) with
    | none => intro h; cases h
    | some e₀ =>
      dsimp only
      split
      · rename_i e' he'
        intro _ e1 he1
        rw [get_setEntry, if_pos rfl, hg] at he1
        cases he1
        rw [C15_values_partial hC e₀ e' dn cs (hd _ (get_node hg)).1 hascii (hd _ (get_node hg)).2 he' c.typ, hcs, valuesAfter, List.foldl_append,
          List.foldl_cons, if_pos rfl]
        refine valuesAfter_removed c₂ _ ?_ hlast
        intro w hw
        unfold changeValues at hw
        rcases hc with ⟨hc, hv⟩ | ⟨hc, hv⟩
        · rw [if_neg (by omega), if_neg (by omega), if_pos hc] at hw
          split at hw
          · simp at hw
          · rename_i hne
            rcases hv with hv | ⟨u, hu, huv⟩
            · exact absurd hv hne
            · have := (List.mem_filter.1 hw).2
              simp only [decide_eq_true_eq] at this
              exact huv ▸ this u hu
        · rw [if_neg (by omega), if_pos hc] at hw
          exact hv w hw
      all_goals (intro h; cases h)
  rw [hpre] at s2
  rw [hdir] at S
  have hus : log₂.map (·.op) = a₁.map (·.op) ++ y.op :: a₂.map (·.op) := by rw [hlog₂]; simp
  rw [hus] at hsub2 S
  rw [eyo] at s2 hsub2 S
  have hend := lacks_moved (validate := validatePw V.C V.K) (base := base) hC hd' (fun o ho => hok'.ok o (hsub2 o ho))
    (fun o ho => (hpl o (hsub2 o ho)).1) (fun o ho => (hpl o (hsub2 o ho)).2) hh ho hn hsame s2 hrdn (by
      intro u hu
      obtain ⟨z, hz, rfl⟩ := List.mem_map.1 hu
      exact (hothers z (by simp [hz])).1) (by
      intro u hu
      obtain ⟨z, hz, rfl⟩ := List.mem_map.1 hu
      exact (hothers z (by simp [hz])).2)
  rw [← hfold] at hend
  exact serves_lacks S hpn hnew hend he

end

/-! ## Non-vacuity -/

theorem gm_second : ∃ s : Par Nat, ParReach toyEnv gobInstance toyCfg 8 false mmDb s ∧ s.disk = ((parWork mmRen).exec mmDb).2 ∧
    s.trace = [.arrive 0 (.packet 0 parBind.p parBind.o), .answer 0 [.result 1 1 0],
      .arrive 1 (.packet 0 mmRen.p mmRen.o), .answer 1 [.result 2 13 0]] := by
  obtain ⟨pb, hpb⟩ := par_read (j := parBind) (by decide +kernel)
  obtain ⟨pd, hpd⟩ := par_write (j := mmRen) (by decide +kernel)
  have h0 : ParReach (ι := Nat) toyEnv gobInstance toyCfg 8 false mmDb (Par.start mmDb) := .start
  have h1 := ParReach.step _ _ h0 (.arrive _ 0 [] 0 parBind.o parBind.p rfl rfl (by simp [Par.start]))
  have h2 := ParReach.step _ _ h1 (.beginRead _ 0 parBind pb rfl rfl hpb)
  have h3 := read_through (c := 0) (d := mmDb) h2 rfl hpb rfl (b' := b!"uid=admin,dc=lg") (by decide +kernel) (by decide +kernel)
  have h4 := ParReach.step _ _ h3 (.arrive _ 0 b!"uid=admin,dc=lg" 1 mmRen.o mmRen.p rfl rfl (by simp [Par.start]))
  have h7 := ParReach.step _ _ h4 (.beginWrite _ 0 mmRen pd rfl (by simp [setStage]; rfl) hpd rfl)
  have h8 := write_through (c := 0) h7 rfl hpd rfl (b' := b!"uid=admin,dc=lg")
    (by
      show (packetEnd toyEnv toyCfg 8 false mmRen.o mmRen.p mmRen.b ((parWork mmRen).exec mmDb).1).2 = _
      decide +kernel)
  refine ⟨_, h8, rfl, ?_⟩
  have e1 : (packetEnd toyEnv toyCfg 8 false parBind.o parBind.p parBind.b ((parWork parBind).exec mmDb).1).1 = [.result 1 1 0] := by decide +kernel
  have e2 : (packetEnd toyEnv toyCfg 8 false mmRen.o mmRen.p mmRen.b ((parWork mmRen).exec mmDb).1).1 = [.result 2 13 0] := by
    decide +kernel
  unfold parWork at e1 e2
  simp only [Par.start, e1, e2]
  rfl

theorem gm_keeps {dn : Str} {k : DN} : ¬ (Op.modify dn suChanges).brings asciiCase b!"mail" b!"a@lg" k := by
  rintro (⟨w, -, -, c, hc, h0, h1, -⟩ | ⟨r, h, -⟩)
  · simp only [suChanges, List.mem_cons, List.mem_nil_iff, or_false] at hc
    rcases hc with rfl | rfl
    · simp at h0
    · exact absurd h1 (by decide +kernel)
  · cases h

def gmEntry : Entry := ⟨b!"uid=eve,dc=lg", [⟨b!"uid", [b!"Ann", b!"Eve"]⟩, ⟨b!"userPassword", [b!"{ARGON2}$argon2id$pw"]⟩, ⟨b!"phone", [b!"5", b!"6"]⟩]⟩

/-- The hypotheses hold: Ann loses the address in the first life and is renamed in the second; the address is not found under the new name. -/
example : ∃ s s' : Par Nat, let lives : List (Life Nat) := [⟨toyCfg, 8, false, s⟩, ⟨toyCfg, 8, false, s'⟩]
    ∃ e, boltSearch asciiCase gobInstance (fileAfter toyDb lives) b!"uid=eve,dc=lg" scopeBase = .ok ([e], none) ∧
      ¬ HasValue asciiCase e.attrs b!"mail" b!"a@lg" := by
  obtain ⟨s, hr, hd, ht⟩ := mm_first
  obtain ⟨s', hr', hd', ht'⟩ := gm_second
  have hlives : Lives toyEnv gobInstance (render toyBase) (after asciiCase gobInstance (validatePw asciiCase toyCrypto) toyBase toyOps)
      [⟨toyCfg, 8, false, s⟩, ⟨toyCfg, 8, false, s'⟩] := ⟨toyCfg_base, hr, toyCfg_base, by dsimp only; rw [hd]; exact hr', trivial⟩
  have h0 : ∀ id op, AskedBy toyEnv ⟨toyCfg, 8, false, s⟩ id op →
      op = .modify b!"uid=ANN,dc=lg" suChanges := by
    rintro id op ⟨t₁, c, p, o, t₂, b, he, -, hop⟩
    have ha : Seen.arrive id (.packet c p o) ∈ s.trace := by rw [show s.trace = _ from he]; simp
    rw [ht] at ha
    simp only [List.mem_cons, List.mem_nil_iff, or_false] at ha
    rcases ha with h | h | h | h <;> cases h
    · exact (asks_bind hop).elim
    · exact asks_suMod hop
  have h1 : ∀ id op, AskedBy toyEnv ⟨toyCfg, 8, false, s'⟩ id op → op = .rename ⟨b!"uid=ann,dc=lg", b!"uid=Eve", false⟩ ∧ id = 1 := by
    rintro id op ⟨t₁, c, p, o, t₂, b, he, -, hop⟩
    have ha : Seen.arrive id (.packet c p o) ∈ s'.trace := by rw [show s'.trace = _ from he]; simp
    rw [ht'] at ha
    simp only [List.mem_cons, List.mem_nil_iff, or_false] at ha
    rcases ha with h | h | h | h <;> cases h
    · exact (asks_bind hop).elim
    · obtain ⟨mid, req, ⟨m, more, h1, -, -⟩, hh⟩ := hop
      cases h1
      rcases hh with ⟨w, hw, -, rfl⟩ | ⟨ht, -⟩
      · cases w <;> first | exact absurd hw.1 (by decide) | skip
        obtain ⟨-, d, l, k, k1, k2, k3, k4⟩ := hw
        cases k1; cases k2; cases k3; cases k4
        exact ⟨rfl, rfl⟩
      · exact absurd ht (by decide)
  have hfound : boltSearch asciiCase gobInstance (fileAfter toyDb [⟨toyCfg, 8, false, s⟩, (⟨toyCfg, 8, false, s'⟩ : Life Nat)]) b!"uid=eve,dc=lg" scopeBase =
      .ok ([gmEntry], none) := by
    simp only [fileAfter, hd']
    decide +kernel
  refine ⟨s, s', gmEntry, hfound, C133_moved_partial (V := toyEnv) asciiCase_lawful gobInstance_lawful (by decide +kernel) toyOps ⟨by decide +kernel, by decide +kernel⟩
    (by decide +kernel) _ hlives ?_ (by simp [ht, ht', toyOps]) (k := 0) (id := 1) (cs := suChanges)
    ⟨_, 0, suMod.p, suMod.o, 2, wModify ⟨b!"uid=ANN,dc=lg", suChanges⟩, [.result 2 7 0], rfl, by simp [ht], by simp [ht], ⟨_, rfl, rfl⟩,
      ⟨_, _, rfl, rfl, rfl⟩, rfl, _, _, rfl, rfl, rfl, rfl, rfl, su_each⟩
    (name := [[⟨b!"uid", b!"ANN"⟩], [⟨b!"dc", b!"lg"⟩]]) (by decide +kernel) (k' := 1) (id' := 1) (del := false)
    ⟨_, 0, mmRen.p, mmRen.o, 2, wModifyDN ⟨b!"uid=ann,dc=lg", b!"uid=Eve", false⟩, [.result 2 13 0], rfl, by simp [ht'], by simp [ht'], ⟨_, rfl, rfl⟩,
      ⟨_, _, rfl, rfl, rfl⟩, rfl, _, _, _, rfl, rfl, rfl, rfl⟩
    (o := [⟨b!"uid", b!"ann"⟩]) (n := [⟨b!"uid", b!"Eve"⟩]) (p := [[⟨b!"dc", b!"lg"⟩]]) (q := []) (by decide +kernel) (by decide +kernel)
    (by decide +kernel) (.inl (by decide)) [] [⟨0, b!"phone", [b!"5", b!"6"]⟩] ⟨1, b!"mail", [b!"A@LG"]⟩ rfl b!"a@lg"
    (.inl ⟨rfl, .inr ⟨b!"A@LG", by simp, by decide +kernel⟩⟩) (by decide +kernel) (by decide +kernel) ?_ b!"uid=eve,dc=lg"
    [[⟨b!"uid", b!"eve"⟩], [⟨b!"dc", b!"lg"⟩]] (by decide +kernel) (by decide +kernel) (by decide +kernel) _ hfound⟩
  · rintro op ⟨l, hl, id, h⟩
    simp only [List.mem_cons, List.mem_nil_iff, or_false] at hl
    rcases hl with rfl | rfl
    · rw [h0 id op h]
      exact ⟨show ∀ n, parseDN asciiCase b!"uid=ANN,dc=lg" = some n → NameOk n by decide +kernel, by decide +kernel, trivial⟩
    · rw [(h1 id op h).1]
      exact ⟨⟨show ∀ n, parseDN asciiCase b!"uid=ann,dc=lg" = some n → NameOk n by decide +kernel,
        show ∀ n, parseDN asciiCase b!"uid=Eve" = some n → NameOk n by decide +kernel⟩, by decide +kernel, trivial⟩
  · intro k₂ l id₂ op _ hl hop _ hne
    match k₂, hl with
    | 0, hl =>
      simp only [List.getElem?_cons_zero, Option.some.injEq] at hl
      subst hl
      rw [h0 id₂ op hop]
      exact ⟨gm_keeps, gm_keeps⟩
    | 1, hl =>
      simp only [List.getElem?_cons_succ, List.getElem?_cons_zero, Option.some.injEq] at hl
      subst hl
      exact absurd ⟨rfl, (h1 id₂ op hop).2⟩ hne
    | k + 2, hl => simp at hl

end Idm
