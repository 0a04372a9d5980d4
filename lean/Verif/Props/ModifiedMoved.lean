import Verif.Props.FreshEntry
/-!
# C132: values given by a modification go along when the entry is renamed
-/
namespace Idm

section
variable {ι : Type} {V : Env} {G : GobEnv} {base : DN}

/-- C132, for entries that were modified and then renamed: once clients were told that the modification was made and, of a rename sent after the answer (in
the same life of the server or a later one), that the entry was renamed, the values that the last change of a type gave the entry (only adding to the type may
follow in the request) are found under the new name, up to case, after any number of crashes and restarts, if the rename does not ask for the value to go with
the old RDN and nobody else asked, since the modification, for the value to go, for the entry to be deleted or for it to be renamed. Missing: entries with one
attribute type in two spellings (`C129_spelling_fails`). -/
theorem C132_modified_moved_partial (hC : V.C.Lawful) (hG : G.Lawful) (hb : BaseOk V.C base) (ops₀ : List Op) (hops : HistOk V.C ops₀)
    (hp₀ : ∀ op ∈ ops₀, op.plain ∧ op.distinct V.C) (lives : List (Life ι))
    (h : Lives V G (render base) (after V.C G (validatePw V.C V.K) base ops₀) lives)
    (hok : ∀ op, Asked V lives op → op.Ok V.C ∧ op.plain ∧ op.distinct V.C)
    (hlen : ops₀.length + (lives.map fun l => l.proc.trace.length).sum < 2 ^ 64)
    {k : Nat} {id : ι} {dn : Str} {cs : List Change} (ha : Acknowledged lives k id (.modify dn cs)) {name : DN} (hp : parseDN V.C dn = some name)
    {k' : Nat} {id' : ι} {dn' rdn : Str} {del : Bool} (ha' : Acknowledged lives k' id' (.rename dn' rdn del)) {o n : RDN} {p q : DN}
    (ho : parseDN V.C dn' = some (o :: p)) (hn : parseDN V.C rdn = some (n :: q)) (hsame : foldDN V.C (o :: p) = foldDN V.C name)
    (hlater : k < k' ∨ k = k' ∧ ∃ l, lives[k]? = some l ∧ AnsweredBefore l.proc.trace id id')
    (c₁ c₂ : List Change) (c : Change) (hcs : cs = c₁ ++ c :: c₂) (hc : c.op = 0 ∨ c.op = 2) (hlast : ∀ d ∈ c₂, V.C.fold d.typ = V.C.fold c.typ → d.op = 0)
    (v : Str) (hv : v ∈ c.vals) (hdel : ¬ (del = true ∧ ∃ b ∈ o, V.C.fold b.typ = V.C.fold c.typ ∧ V.C.fold b.val = V.C.fold v))
    (hkeep : ∀ w, V.C.fold w = V.C.fold v → ∀ k₂ l id₂ op, k ≤ k₂ → lives[k₂]? = some l → AskedBy V l id₂ op →
      (k₂ = k → id₂ ≠ id ∧ ¬ AnsweredBefore l.proc.trace id₂ id) → ¬ (k₂ = k' ∧ id₂ = id') →
      ¬ op.takes V.C c.typ w (foldDN V.C name) ∧ ¬ op.takes V.C c.typ w (foldDN V.C (n :: p)))
    (text : Str) (new : DN) (hpn : parseDN V.C text = some new) (hnew : NameOk new) (hfold : foldDN V.C new = foldDN V.C (n :: p)) :
    ∃ e, boltSearch V.C G (fileAfter (after V.C G (validatePw V.C V.K) base ops₀) lives) text scopeBase = .ok ([e], none) ∧
      HasValue V.C e.attrs c.typ v := by
  obtain ⟨log, E, hok', -, S, hstep⟩ := lives_hist hC hG hb ops₀ hops lives h (fun op h => (hok op h).1) hlen
  have hpl := log_plain E hp₀ hok
  obtain ⟨x, hx, hxl, hxi, hxo⟩ := acknowledged_mem E h ha
  obtain ⟨y, hy, hyl, hyi, hyo⟩ := acknowledged_mem E h ha'
  have exo : x.op = .modify dn cs := hxo
  have eyo : y.op = .rename ⟨dn', rdn, del⟩ := hyo
  obtain ⟨log₁, log₂, hlog⟩ := List.append_of_mem hx
  have horder := E.inOrder
  have honce := E.once
  rw [hlog, List.pairwise_append] at horder honce
  obtain ⟨-, ho2, ho3⟩ := horder
  obtain ⟨-, hc2, hc3⟩ := honce
  rw [List.pairwise_cons] at ho2 hc2
  have hy2 : y ∈ log₂ := by
    rw [hlog] at hy
    rcases List.mem_append.1 hy with hy | hy
    · exfalso
      obtain ⟨g1, g2⟩ := ho3 y hy x (by simp)
      rcases hlater with h | ⟨h, l, hl, hab⟩
      · omega
      · refine g2 l (by omega) (by rw [hyl, ← h]; exact hl) ?_
        rw [hxi, hyi]
        exact hab
    · rcases List.mem_cons.1 hy with rfl | hy
      · rw [exo] at eyo
        cases eyo
      · exact hy
  obtain ⟨a₁, a₂, hlog₂⟩ := List.append_of_mem hy2
  have hmemx : x.op ∈ ops₀ ++ log.map (·.op) := by rw [hlog]; simp
  obtain ⟨s1, hdir⟩ := hstep log₁ x log₂ hlog
  obtain ⟨s2, -⟩ := hstep (log₁ ++ x :: a₁) y a₂ (by rw [hlog, hlog₂]; simp)
  have hsub : ∀ op ∈ ops₀ ++ log₁.map (·.op), op ∈ ops₀ ++ log.map (·.op) := by
    intro op hop
    rw [hlog, List.map_append, ← List.append_assoc]
    exact List.mem_append_left _ hop
  have hsub2 : ∀ op ∈ log₂.map (·.op), op ∈ ops₀ ++ log.map (·.op) := by
    intro op hop
    rw [hlog, List.map_append, List.map_cons]
    exact List.mem_append_right _ (List.mem_append_right _ (List.mem_cons_of_mem _ hop))
  have hd : ∀ n ∈ dirAfter V.C (validatePw V.C V.K) base (ops₀ ++ log₁.map (·.op)), Tidy V.C n.entry.attrs :=
    tidy_run _ [] (by simp) (fun o ho => hok'.ok o (hsub o ho)) (fun o ho => (hpl o (hsub o ho)).1) fun o ho => (hpl o (hsub o ho)).2
  have hd' := tidy_step (validate := validatePw V.C V.K) (base := base) hd x.op (hok'.ok x.op hmemx) (hpl _ hmemx).1 (hpl _ hmemx).2
  have hascii : ∀ c ∈ cs, IsAscii c.typ := by
    have := (hpl x.op hmemx).1
    rw [exo] at this
    exact this
  have hh : ∃ w, V.C.fold w = V.C.fold v ∧
      Holds V.C c.typ w (specStep V.C (validatePw V.C V.K) base (dirAfter V.C (validatePw V.C V.K) base (ops₀ ++ log₁.map (·.op))) x.op).2
      (foldDN V.C name) := by
    rw [exo] at s1 ⊢
    generalize dirAfter V.C (validatePw V.C V.K) base (ops₀ ++ log₁.map (·.op)) = d at s1 hd ⊢
    revert s1
    simp only [specStep, hp, specModify, specModifyAt]
    cases hg : d.get (foldDN V.C name) with
    | none => intro h; cases h
    | some e₀ =>
      dsimp only
      split
      · rename_i e' he'
        intro _
        have hval := C15_values_partial hC e₀ e' dn cs (hd _ (get_node hg)).1 hascii (hd _ (get_node hg)).2 he' c.typ
        have : ∃ w ∈ valuesAfter V.C c.typ (valuesOf V.C e₀.attrs c.typ) (valuesOf V.C e₀.attrs c.typ) cs, V.C.fold w = V.C.fold v := by
          rw [hcs, valuesAfter, List.foldl_append, List.foldl_cons, if_pos rfl]
          refine valuesAfter_given c₂ _ ?_ hlast
          unfold changeValues
          rcases hc with hc | hc
          · rw [if_pos hc]
            generalize c₁.foldl _ _ = cur
            by_cases hex : ∃ w ∈ cur, V.C.fold w = V.C.fold v
            · obtain ⟨w, h1, h2⟩ := hex
              exact ⟨w, List.mem_append_left _ h1, h2⟩
            · refine ⟨v, List.mem_append_right _ (List.mem_filter.2 ⟨hv, ?_⟩), rfl⟩
              simp only [decide_eq_true_eq]
              exact fun w hw he => hex ⟨w, hw, he⟩
          · rw [if_neg (by omega), if_pos hc]
            exact ⟨v, hv, rfl⟩
        obtain ⟨w, h1, h2⟩ := this
        rw [← hval] at h1
        exact ⟨w, h2, e', by rw [get_setEntry, if_pos rfl, hg]; rfl, h1⟩
      all_goals (intro h; cases h)
  obtain ⟨w, hwv, hh⟩ := hh
  have hothers : ∀ z ∈ a₁ ++ a₂, ¬ (z.op).takes V.C c.typ w (foldDN V.C name) ∧ ¬ (z.op).takes V.C c.typ w (foldDN V.C (n :: p)) := by
    intro z hz
    have hz2 : z ∈ log₂ := by rw [hlog₂]; simp at hz ⊢; grind
    obtain ⟨l, t₁, cc, pp, oo, t₂, bb, k1, k2, k3, -, k4⟩ := E.asked z (by rw [hlog]; simp [hz2])
    obtain ⟨g1, g2⟩ := ho2.1 z hz2
    refine hkeep w hwv z.life l z.id _ (by omega) k1 ⟨t₁, cc, pp, oo, t₂, bb, k2, k3, k4⟩ (fun e => ⟨fun e' => ?_, ?_⟩) ?_
    · exact hc2.1 z hz2 ⟨by omega, by rw [hxi, e']⟩
    · rw [hxi] at g2
      exact g2 l (by omega) (by rw [hxl, ← e]; exact k1)
    · rintro ⟨e1, e2⟩
      have hpw := hc2.2
      rw [hlog₂, List.pairwise_append] at hpw
      obtain ⟨-, p2, p3⟩ := hpw
      rcases List.mem_append.1 hz with hz | hz
      · exact p3 z hz y (by simp) ⟨by omega, by rw [e2, hyi]⟩
      · exact (List.pairwise_cons.1 p2).1 z hz ⟨by omega, by rw [e2, hyi]⟩
  have hpre : dirAfter V.C (validatePw V.C V.K) base (ops₀ ++ (log₁ ++ x :: a₁).map (·.op)) = (specRun V.C (validatePw V.C V.K) base
      (specStep V.C (validatePw V.C V.K) base (dirAfter V.C (validatePw V.C V.K) base (ops₀ ++ log₁.map (·.op))) x.op).2 (a₁.map (·.op))).2 := by
    have : ops₀ ++ (log₁ ++ x :: a₁).map (·.op) = (ops₀ ++ log₁.map (·.op)) ++ (x.op :: a₁.map (·.op)) := by simp
    rw [this]
    generalize ops₀ ++ log₁.map (·.op) = pre
    rw [dirAfter, dirAfter, specRun_append]
    rfl
  rw [hpre] at s2
  rw [hdir] at S
  generalize (specStep V.C (validatePw V.C V.K) base (dirAfter V.C (validatePw V.C V.K) base (ops₀ ++ log₁.map (·.op))) x.op).2 = D at hh s2 S hd'
  have hus : log₂.map (·.op) = a₁.map (·.op) ++ y.op :: a₂.map (·.op) := by rw [hlog₂]; simp
  have hS : Stays V.C c.typ w ((log₂.map (·.op)).zip (specRun V.C (validatePw V.C V.K) base D (log₂.map (·.op))).1) (foldDN V.C name)
      (foldDN V.C (n :: p)) := by
    rw [hus, specRun_append]
    simp only [specRun]
    rw [List.zip_append (by rw [specRun_length]), List.zip_cons_cons]
    refine stays_append (k' := foldDN V.C name) (stays_others _ _ ?_) ?_
    · intro u hu
      obtain ⟨z, hz, rfl⟩ := List.mem_map.1 hu
      exact (hothers z (by simp [hz])).1
    · rw [s2, eyo, ← hsame]
      refine (.renamed ho hn (by rw [hwv]; exact hdel) rfl (stays_others _ _ ?_))
      intro u hu
      obtain ⟨z, hz, rfl⟩ := List.mem_map.1 hu
      exact (hothers z (by simp [hz])).2
  obtain ⟨e, g1, g2⟩ := run_stays (validate := validatePw V.C V.K) (base := base) hC (log₂.map (·.op)) D _ _ hd' (fun o ho => hok'.ok o (hsub2 o ho))
    (fun o ho => (hpl o (hsub2 o ho)).1) (fun o ho => (hpl o (hsub2 o ho)).2) hh hS
  rw [← hfold] at g1
  exact ⟨e, serves_get S hpn hnew g1, w, g2, hwv⟩

end

/-! ## Non-vacuity -/

/-- The administrator renames Ann, who got phone numbers in an earlier life of the server. -/
def mmRen : Job Nat := ⟨1, toyOracle, wMsg 2 (wModifyDN ⟨b!"uid=ann,dc=lg", b!"uid=Eve", false⟩), b!"uid=admin,dc=lg"⟩

@[irreducible] def mmDb : Db := ((parWork suMod).exec toyDb).2

set_option maxRecDepth 20000 in
theorem mm_first : ∃ s : Par Nat, ParReach toyEnv gobInstance toyCfg 8 false toyDb s ∧ s.disk = mmDb ∧
    s.trace = [.arrive 0 (.packet 0 parBind.p parBind.o), .answer 0 [.result 1 1 0],
      .arrive 1 (.packet 0 suMod.p suMod.o), .answer 1 [.result 2 7 0]] := by
  obtain ⟨pb, hpb⟩ := par_read (j := parBind) (by decide +kernel)
  obtain ⟨pd, hpd⟩ := par_write (j := suMod) (by decide +kernel)
  have h0 : ParReach (ι := Nat) toyEnv gobInstance toyCfg 8 false toyDb (Par.start toyDb) := .start
  have h1 := ParReach.step _ _ h0 (.arrive _ 0 [] 0 parBind.o parBind.p rfl rfl (by simp [Par.start]))
  have h2 := ParReach.step _ _ h1 (.beginRead _ 0 parBind pb rfl rfl hpb)
  have h3 := read_through (c := 0) (d := toyDb) h2 rfl hpb rfl (b' := b!"uid=admin,dc=lg") (by decide +kernel) (by decide +kernel)
  have h4 := ParReach.step _ _ h3 (.arrive _ 0 b!"uid=admin,dc=lg" 1 suMod.o suMod.p rfl rfl (by simp [Par.start]))
  have h7 := ParReach.step _ _ h4 (.beginWrite _ 0 suMod pd rfl (by simp [setStage]; rfl) hpd rfl)
  have h8 := write_through (c := 0) h7 rfl hpd rfl (b' := b!"uid=admin,dc=lg")
    (by
      show (packetEnd toyEnv toyCfg 8 false suMod.o suMod.p suMod.b ((parWork suMod).exec toyDb).1).2 = _
      decide +kernel)
  refine ⟨_, h8, by unfold mmDb; rfl, ?_⟩
  have e1 : (packetEnd toyEnv toyCfg 8 false parBind.o parBind.p parBind.b ((parWork parBind).exec toyDb).1).1 = [.result 1 1 0] := by decide +kernel
  have e2 : (packetEnd toyEnv toyCfg 8 false suMod.o suMod.p suMod.b ((parWork suMod).exec toyDb).1).1 = [.result 2 7 0] := by
    decide +kernel
  unfold parWork at e1 e2
  simp only [Par.start, e1, e2]
  rfl

theorem mm_second : ∃ s : Par Nat, ParReach toyEnv gobInstance toyCfg 8 false mmDb s ∧
    s.trace = [.arrive 0 (.packet 0 parBind.p parBind.o), .answer 0 [.result 1 1 0],
      .arrive 1 (.packet 0 mmRen.p mmRen.o), .answer 1 [.result 2 13 0]] := by
  obtain ⟨pb, hpb⟩ := par_read (j := parBind) (by decide +kernel)
  obtain ⟨pd, hpd⟩ := par_write (j := mmRen) (by decide +kernel)
  have h0 : ParReach (ι := Nat) toyEnv gobInstance toyCfg 8 false mmDb (Par.start mmDb) := .start
  have h1 := ParReach.step _ _ h0 (.arrive _ 0 [] 0 parBind.o parBind.p rfl rfl (by simp [Par.start]))
  have h2 := ParReach.step _ _ h1 (.beginRead _ 0 parBind pb rfl rfl hpb)
  have h3 := read_through (c := 0) (d := mmDb) h2 rfl hpb rfl (b' := b!"uid=admin,dc=lg") (by decide +kernel) (by decide +kernel)
  have h4 := ParReach.step _ _ h3 (.arrive _ 0 b!"uid=admin,dc=lg" 1 mmRen.o mmRen.p rfl rfl (by simp [Par.start]))
  have h7 := ParReach.step _ _ h4 (.beginWrite _ 0 mmRen pd rfl (by simp [setStage]; rfl) hpd rfl)
  have h8 := write_through (c := 0) h7 rfl hpd rfl (b' := b!"uid=admin,dc=lg")
    (by
      show (packetEnd toyEnv toyCfg 8 false mmRen.o mmRen.p mmRen.b ((parWork mmRen).exec mmDb).1).2 = _
      decide +kernel)
  refine ⟨_, h8, ?_⟩
  have e1 : (packetEnd toyEnv toyCfg 8 false parBind.o parBind.p parBind.b ((parWork parBind).exec mmDb).1).1 = [.result 1 1 0] := by decide +kernel
  have e2 : (packetEnd toyEnv toyCfg 8 false mmRen.o mmRen.p mmRen.b ((parWork mmRen).exec mmDb).1).1 = [.result 2 13 0] := by
    decide +kernel
  unfold parWork at e1 e2
  simp only [Par.start, e1, e2]
  rfl

theorem asks_suMod {b : Str} {op : Op} (hop : AsksFor toyEnv b suMod.p op) : op = .modify b!"uid=ANN,dc=lg" suChanges := by
  obtain ⟨mid, req, ⟨m, more, h1, -, -⟩, hh⟩ := hop
  cases h1
  rcases hh with ⟨w, hw, -, rfl⟩ | ⟨ht, -⟩
  · cases w <;> first | exact absurd hw.1 (by decide) | skip
    obtain ⟨-, d, l, k1, k2, -, -, -, k3⟩ := hw
    cases k1
    cases k2
    rw [each_unique (R := IsChange) (fun _ _ _ h h2 => isChange_unique h h2) _ _ _ k3 su_each]
    rfl
  · exact absurd ht (by decide)

theorem mm_keeps {dn w : Str} {k : DN} : ¬ (Op.modify dn suChanges).takes asciiCase b!"phone" w k := by
  rintro ⟨-, c, hc, h1, h2⟩
  simp only [suChanges, List.mem_cons, List.mem_nil_iff, or_false] at hc
  rcases hc with rfl | rfl
  · exact absurd h1 (by decide +kernel)
  · simp at h2

/-- The hypotheses hold: Ann gets phone numbers in the first life and is renamed in the second; the numbers are found under the new name. -/
example : ∃ s s' : Par Nat, let lives : List (Life Nat) := [⟨toyCfg, 8, false, s⟩, ⟨toyCfg, 8, false, s'⟩]
    ∃ e, boltSearch asciiCase gobInstance (fileAfter toyDb lives) b!"uid=eve,dc=lg" scopeBase = .ok ([e], none) ∧
      HasValue asciiCase e.attrs b!"phone" b!"6" := by
  obtain ⟨s, hr, hd, ht⟩ := mm_first
  obtain ⟨s', hr', ht'⟩ := mm_second
  have hlives : Lives toyEnv gobInstance (render toyBase) (after asciiCase gobInstance (validatePw asciiCase toyCrypto) toyBase toyOps)
      [⟨toyCfg, 8, false, s⟩, ⟨toyCfg, 8, false, s'⟩] := ⟨toyCfg_base, hr, toyCfg_base, by dsimp only; rw [hd]; exact hr', trivial⟩
  have h0 : ∀ id op, AskedBy toyEnv ⟨toyCfg, 8, false, s⟩ id op →
      op = .modify b!"uid=ANN,dc=lg" suChanges := by
    rintro id op ⟨t₁, c, p, o, t₂, b, he, -, hop⟩
    have ha : Seen.arrive id (.packet c p o) ∈ s.trace := by rw [show s.trace = _ from he]; simp
    rw [ht] at ha
    simp only [List.mem_cons, List.mem_nil_iff, or_false] at ha
    rcases ha with h | h | h | h <;> cases h
    · exact (asks_bind hop).elim
    · exact asks_suMod hop
  have h1 : ∀ id op, AskedBy toyEnv ⟨toyCfg, 8, false, s'⟩ id op → op = .rename ⟨b!"uid=ann,dc=lg", b!"uid=Eve", false⟩ ∧ id = 1 := by
    rintro id op ⟨t₁, c, p, o, t₂, b, he, -, hop⟩
    have ha : Seen.arrive id (.packet c p o) ∈ s'.trace := by rw [show s'.trace = _ from he]; simp
    rw [ht'] at ha
    simp only [List.mem_cons, List.mem_nil_iff, or_false] at ha
    rcases ha with h | h | h | h <;> cases h
    · exact (asks_bind hop).elim
    · obtain ⟨mid, req, ⟨m, more, h1, -, -⟩, hh⟩ := hop
      cases h1
      rcases hh with ⟨w, hw, -, rfl⟩ | ⟨ht, -⟩
      · cases w <;> first | exact absurd hw.1 (by decide) | skip
        obtain ⟨-, d, l, k, k1, k2, k3, k4⟩ := hw
        cases k1; cases k2; cases k3; cases k4
        exact ⟨rfl, rfl⟩
      · exact absurd ht (by decide)
  refine ⟨s, s', C132_modified_moved_partial (V := toyEnv) asciiCase_lawful gobInstance_lawful (by decide +kernel) toyOps ⟨by decide +kernel, by decide +kernel⟩
    (by decide +kernel) _ hlives ?_ (by simp [ht, ht', toyOps]) (k := 0) (id := 1) (cs := suChanges)
    ⟨_, 0, suMod.p, suMod.o, 2, wModify ⟨b!"uid=ANN,dc=lg", suChanges⟩, [.result 2 7 0], rfl, by simp [ht], by simp [ht], ⟨_, rfl, rfl⟩,
      ⟨_, _, rfl, rfl, rfl⟩, rfl, _, _, rfl, rfl, rfl, rfl, rfl, su_each⟩
    (name := [[⟨b!"uid", b!"ANN"⟩], [⟨b!"dc", b!"lg"⟩]]) (by decide +kernel) (k' := 1) (id' := 1) (del := false)
    ⟨_, 0, mmRen.p, mmRen.o, 2, wModifyDN ⟨b!"uid=ann,dc=lg", b!"uid=Eve", false⟩, [.result 2 13 0], rfl, by simp [ht'], by simp [ht'], ⟨_, rfl, rfl⟩,
      ⟨_, _, rfl, rfl, rfl⟩, rfl, _, _, _, rfl, rfl, rfl, rfl⟩
    (o := [⟨b!"uid", b!"ann"⟩]) (n := [⟨b!"uid", b!"Eve"⟩]) (p := [[⟨b!"dc", b!"lg"⟩]]) (q := []) (by decide +kernel) (by decide +kernel)
    (by decide +kernel) (.inl (by decide)) [⟨1, b!"mail", [b!"A@LG"]⟩] [] ⟨0, b!"phone", [b!"5", b!"6"]⟩ rfl (.inl rfl)
    (by simp) b!"6" (by simp) (by simp) ?_ b!"uid=eve,dc=lg"
    [[⟨b!"uid", b!"eve"⟩], [⟨b!"dc", b!"lg"⟩]] (by decide +kernel) (by decide +kernel) (by decide +kernel)⟩
  · rintro op ⟨l, hl, id, h⟩
    simp only [List.mem_cons, List.mem_nil_iff, or_false] at hl
    rcases hl with rfl | rfl
    · rw [h0 id op h]
      exact ⟨show ∀ n, parseDN asciiCase b!"uid=ANN,dc=lg" = some n → NameOk n by decide +kernel, by decide +kernel, trivial⟩
    · rw [(h1 id op h).1]
      exact ⟨⟨show ∀ n, parseDN asciiCase b!"uid=ann,dc=lg" = some n → NameOk n by decide +kernel,
        show ∀ n, parseDN asciiCase b!"uid=Eve" = some n → NameOk n by decide +kernel⟩, by decide +kernel, trivial⟩
  · intro w _ k₂ l id₂ op _ hl hop _ hne
    match k₂, hl with
    | 0, hl =>
      simp only [List.getElem?_cons_zero, Option.some.injEq] at hl
      subst hl
      rw [h0 id₂ op hop]
      exact ⟨mm_keeps, mm_keeps⟩
    | 1, hl =>
      simp only [List.getElem?_cons_succ, List.getElem?_cons_zero, Option.some.injEq] at hl
      subst hl
      exact absurd ⟨rfl, (h1 id₂ op hop).2⟩ hne
    | k + 2, hl => simp at hl

end Idm
