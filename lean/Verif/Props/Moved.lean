import Verif.Props.Gone
/-!
# C132: values go along when their entry is renamed
-/
namespace Idm

section
variable {ι : Type} {V : Env} {G : GobEnv} {base : DN}

/-- A packet is at most one write request. -/
theorem isWrite_unique {req : Packet} {w w' : Write} (hw : IsWrite req w) (hw' : IsWrite req w') : w = w' := by
  cases w <;> cases w' <;> simp only [IsWrite] at hw hw'
  all_goals first | (exfalso; omega) | skip
  · obtain ⟨-, d, l, k1, k2, -, -, -, k3⟩ := hw
    obtain ⟨-, d', l', k1', k2', -, -, -, k3'⟩ := hw'
    rw [k1] at k1'
    cases k1'
    rw [k2] at k2'
    cases k2'
    rw [each_unique (R := IsAttribute) (fun _ _ _ h h2 => isAttribute_unique h h2) _ _ _ k3 k3']
  · rw [← hw.2.2, ← hw'.2.2]
  · obtain ⟨-, d, l, k1, k2, -, -, -, k3⟩ := hw
    obtain ⟨-, d', l', k1', k2', -, -, -, k3'⟩ := hw'
    rw [k1] at k1'
    cases k1'
    rw [k2] at k2'
    cases k2'
    rw [each_unique (R := IsChange) (fun _ _ _ h h2 => isChange_unique h h2) _ _ _ k3 k3']
  · obtain ⟨-, a, b, c, k1, k2, k3, k4⟩ := hw
    obtain ⟨-, a', b', c', k1', k2', k3', k4'⟩ := hw'
    rw [k1] at k1'
    cases k1'
    rw [k2] at k2'
    rw [k3] at k3'
    rw [k4] at k4'
    cases k2'; cases k3'; cases k4'
    rfl

/-- An acknowledged write is in the log. -/
theorem acknowledged_mem {db : Db} {base : Str} {lives : List (Life ι)} {log : List (Made ι)} (E : ExactlyOnce V G base db lives log)
    (h : Lives V G base db lives) {k : Nat} {id : ι} {w : Write} (ha : Acknowledged lives k id w) :
    ∃ x ∈ log, x.life = k ∧ x.id = id ∧ x.op = w.op := by
  obtain ⟨l, c, p, o, mid, req, rs, hk, ha1, ha2, hs, hm, hw⟩ := ha
  have htag : req.tag = 6 ∨ req.tag = 8 ∨ req.tag = 10 ∨ req.tag = 12 := by
    cases w <;> simp only [IsWrite] at hw <;> omega
  obtain ⟨x, hx, hxl, hxi⟩ := (E.answered k l id c p o rs hk ha1 ha2 ⟨mid, req, hm, by omega⟩).1 hs
  refine ⟨x, hx, hxl, hxi, ?_⟩
  obtain ⟨l', t₁, c', p', o', t₂, b, k1, k2, -, -, k3⟩ := E.asked x hx
  rw [hxl, hk] at k1
  cases k1
  obtain ⟨db', hr⟩ := lives_reach lives _ h k l hk
  have := arrive_unique hr ha1 (e' := .packet c' p' o') (by rw [k2, hxi]; simp)
  cases this
  obtain ⟨mid', req', hm', hh⟩ := k3
  obtain ⟨-, rfl⟩ := message_unique hm hm'
  rcases hh with ⟨w', hw', -, ho⟩ | ⟨ht, -⟩
  · rw [ho, isWrite_unique hw hw']
  · omega

/-- C132, for entries that were added and then renamed: once clients were told that the entry was added and, of a rename sent after the answer (in the same
life of the server or a later one), that it was renamed, each value that was sent with the add is found under the new name, byte by byte, after any number of
crashes and restarts, if the rename does not ask for the value to go with the old RDN and nobody else asked, since the add, for the value to go, for the entry
to be deleted or for it to be renamed. Missing: entries with one attribute type in two spellings (`C129_spelling_fails`). -/
theorem C132_moved_partial (hC : V.C.Lawful) (hG : G.Lawful) (hb : BaseOk V.C base) (ops₀ : List Op) (hops : HistOk V.C ops₀)
    (hp₀ : ∀ op ∈ ops₀, op.plain ∧ op.distinct V.C) (lives : List (Life ι))
    (h : Lives V G (render base) (after V.C G (validatePw V.C V.K) base ops₀) lives)
    (hok : ∀ op, Asked V lives op → op.Ok V.C ∧ op.plain ∧ op.distinct V.C)
    (hlen : ops₀.length + (lives.map fun l => l.proc.trace.length).sum < 2 ^ 64)
    {k : Nat} {id : ι} {dn : Str} {as : List Attr} (ha : Acknowledged lives k id (.add dn as)) {name : DN} (hp : parseDN V.C dn = some name)
    {k' : Nat} {id' : ι} {dn' rdn : Str} {del : Bool} (ha' : Acknowledged lives k' id' (.rename dn' rdn del)) {o n : RDN} {p q : DN}
    (ho : parseDN V.C dn' = some (o :: p)) (hn : parseDN V.C rdn = some (n :: q)) (hsame : foldDN V.C (o :: p) = foldDN V.C name)
    (hlater : k < k' ∨ k = k' ∧ ∃ l, lives[k]? = some l ∧ AnsweredBefore l.proc.trace id id')
    (before rest : List Attr) (a : Attr) (has : as = before ++ a :: rest) (hlast : ∀ b ∈ rest, b.name ≠ a.name) (v : Str) (hv : v ∈ a.vals)
    (hdel : ¬ (del = true ∧ ∃ b ∈ o, V.C.fold b.typ = V.C.fold a.name ∧ V.C.fold b.val = V.C.fold v))
    (hkeep : ∀ k₂ l id₂ op, k ≤ k₂ → lives[k₂]? = some l → AskedBy V l id₂ op → (k₂ = k → id₂ ≠ id ∧ ¬ AnsweredBefore l.proc.trace id₂ id) →
      ¬ (k₂ = k' ∧ id₂ = id') → ¬ op.takes V.C a.name v (foldDN V.C name) ∧ ¬ op.takes V.C a.name v (foldDN V.C (n :: p)))
    (text : Str) (new : DN) (hpn : parseDN V.C text = some new) (hnew : NameOk new) (hfold : foldDN V.C new = foldDN V.C (n :: p)) :
    ∃ e, boltSearch V.C G (fileAfter (after V.C G (validatePw V.C V.K) base ops₀) lives) text scopeBase = .ok ([e], none) ∧
      v ∈ valuesOf V.C e.attrs a.name := by
  obtain ⟨log, E, hok', -, S, hstep⟩ := lives_hist hC hG hb ops₀ hops lives h (fun op h => (hok op h).1) hlen
  have hpl := log_plain E hp₀ hok
  obtain ⟨x, hx, hxl, hxi, hxo⟩ := acknowledged_mem E h ha
  obtain ⟨y, hy, hyl, hyi, hyo⟩ := acknowledged_mem E h ha'
  have exo : x.op = .add (entryFromAddRequest dn as) := hxo
  have eyo : y.op = .rename ⟨dn', rdn, del⟩ := hyo
  obtain ⟨log₁, log₂, hlog⟩ := List.append_of_mem hx
  have horder := E.inOrder
  have honce := E.once
  rw [hlog, List.pairwise_append] at horder honce
  obtain ⟨-, ho2, ho3⟩ := horder
  obtain ⟨-, hc2, hc3⟩ := honce
  rw [List.pairwise_cons] at ho2 hc2
  have hy2 : y ∈ log₂ := by
    rw [hlog] at hy
    rcases List.mem_append.1 hy with hy | hy
    · exfalso
      obtain ⟨g1, g2⟩ := ho3 y hy x (by simp)
      rcases hlater with h | ⟨h, l, hl, hab⟩
      · omega
      · refine g2 l (by omega) (by rw [hyl, ← h]; exact hl) ?_
        rw [hxi, hyi]
        exact hab
    · rcases List.mem_cons.1 hy with rfl | hy
      · rw [exo] at eyo
        cases eyo
      · exact hy
  obtain ⟨a₁, a₂, hlog₂⟩ := List.append_of_mem hy2
  have hothers : ∀ z ∈ a₁ ++ a₂, ¬ (z.op).takes V.C a.name v (foldDN V.C name) ∧ ¬ (z.op).takes V.C a.name v (foldDN V.C (n :: p)) := by
    intro z hz
    have hz2 : z ∈ log₂ := by rw [hlog₂]; simp at hz ⊢; grind
    obtain ⟨l, t₁, c, p, o, t₂, b, k1, k2, k3, -, k4⟩ := E.asked z (by rw [hlog]; simp [hz2])
    obtain ⟨g1, g2⟩ := ho2.1 z hz2
    refine hkeep z.life l z.id _ (by omega) k1 ⟨t₁, c, p, o, t₂, b, k2, k3, k4⟩ (fun e => ⟨fun e' => ?_, ?_⟩) ?_
    · exact hc2.1 z hz2 ⟨by omega, by rw [hxi, e']⟩
    · rw [hxi] at g2
      exact g2 l (by omega) (by rw [hxl, ← e]; exact k1)
    · rintro ⟨e1, e2⟩
      have hpw := hc2.2
      rw [hlog₂, List.pairwise_append] at hpw
      obtain ⟨-, p2, p3⟩ := hpw
      rcases List.mem_append.1 hz with hz | hz
      · exact p3 z hz y (by simp) ⟨by omega, by rw [e2, hyi]⟩
      · exact (List.pairwise_cons.1 p2).1 z hz ⟨by omega, by rw [e2, hyi]⟩
  have hmemx : x.op ∈ ops₀ ++ log.map (·.op) := by rw [hlog]; simp
  obtain ⟨s1, hdir⟩ := hstep log₁ x log₂ hlog
  obtain ⟨s2, -⟩ := hstep (log₁ ++ x :: a₁) y a₂ (by rw [hlog, hlog₂]; simp)
  have hsub : ∀ op ∈ ops₀ ++ log₁.map (·.op), op ∈ ops₀ ++ log.map (·.op) := by
    intro op hop
    rw [hlog, List.map_append, ← List.append_assoc]
    exact List.mem_append_left _ hop
  have hsub2 : ∀ op ∈ log₂.map (·.op), op ∈ ops₀ ++ log.map (·.op) := by
    intro op hop
    rw [hlog, List.map_append, List.map_cons]
    exact List.mem_append_right _ (List.mem_append_right _ (List.mem_cons_of_mem _ hop))
  have hd : ∀ n ∈ dirAfter V.C (validatePw V.C V.K) base (ops₀ ++ log₁.map (·.op)), Tidy V.C n.entry.attrs :=
    tidy_run _ [] (by simp) (fun o ho => hok'.ok o (hsub o ho)) (fun o ho => (hpl o (hsub o ho)).1) fun o ho => (hpl o (hsub o ho)).2
  have hd' := tidy_step (validate := validatePw V.C V.K) (base := base) hd x.op (hok'.ok x.op hmemx) (hpl _ hmemx).1 (hpl _ hmemx).2
  have hh : Holds V.C a.name v (specStep V.C (validatePw V.C V.K) base (dirAfter V.C (validatePw V.C V.K) base (ops₀ ++ log₁.map (·.op))) x.op).2
      (foldDN V.C name) := by
    rw [exo] at s1 ⊢
    refine ⟨_, add_get (e := entryFromAddRequest dn as) hp s1, ?_⟩
    obtain ⟨-, c2, -, -⟩ := C50_last_occurrence dn as
    have := (c2 a).2 ⟨before, rest, has, hlast⟩
    unfold valuesOf
    exact List.mem_flatMap.2 ⟨a, List.mem_filter.2 ⟨this, by simp⟩, hv⟩
  have hpre : dirAfter V.C (validatePw V.C V.K) base (ops₀ ++ (log₁ ++ x :: a₁).map (·.op)) = (specRun V.C (validatePw V.C V.K) base
      (specStep V.C (validatePw V.C V.K) base (dirAfter V.C (validatePw V.C V.K) base (ops₀ ++ log₁.map (·.op))) x.op).2 (a₁.map (·.op))).2 := by
    have : ops₀ ++ (log₁ ++ x :: a₁).map (·.op) = (ops₀ ++ log₁.map (·.op)) ++ (x.op :: a₁.map (·.op)) := by simp
    rw [this]
    generalize ops₀ ++ log₁.map (·.op) = pre
    rw [dirAfter, dirAfter, specRun_append]
    rfl
  rw [hpre] at s2
  rw [hdir] at S
  generalize (specStep V.C (validatePw V.C V.K) base (dirAfter V.C (validatePw V.C V.K) base (ops₀ ++ log₁.map (·.op))) x.op).2 = D at hh s2 S hd'
  have hus : log₂.map (·.op) = a₁.map (·.op) ++ y.op :: a₂.map (·.op) := by rw [hlog₂]; simp
  have hS : Stays V.C a.name v ((log₂.map (·.op)).zip (specRun V.C (validatePw V.C V.K) base D (log₂.map (·.op))).1) (foldDN V.C name)
      (foldDN V.C (n :: p)) := by
    rw [hus, specRun_append]
    simp only [specRun]
    rw [List.zip_append (by rw [specRun_length]), List.zip_cons_cons]
    refine stays_append (k' := foldDN V.C name) (stays_others _ _ ?_) ?_
    · intro u hu
      obtain ⟨z, hz, rfl⟩ := List.mem_map.1 hu
      exact (hothers z (by simp [hz])).1
    · rw [s2, eyo, ← hsame]
      refine .renamed ho hn hdel rfl (stays_others _ _ ?_)
      intro u hu
      obtain ⟨z, hz, rfl⟩ := List.mem_map.1 hu
      exact (hothers z (by simp [hz])).2
  obtain ⟨e, g1, g2⟩ := run_stays (validate := validatePw V.C V.K) (base := base) hC (log₂.map (·.op)) D _ _ hd' (fun o ho => hok'.ok o (hsub2 o ho))
    (fun o ho => (hpl o (hsub2 o ho)).1) (fun o ho => (hpl o (hsub2 o ho)).2) hh hS
  rw [← hfold] at g1
  exact ⟨e, serves_get S hpn hnew g1, g2⟩

end

/-! ## Non-vacuity -/

/-- The administrator renames Bob, who was added in an earlier life of the server. -/
def mvRen : Job Nat := ⟨1, toyOracle, wMsg 2 (wModifyDN ⟨b!"uid=BOB,dc=lg", b!"uid=Eve", false⟩), b!"uid=admin,dc=lg"⟩

theorem mv_second : ∃ s : Par Nat, ParReach toyEnv gobInstance toyCfg 8 false seDb s ∧
    s.trace = [.arrive 0 (.packet 0 parBind.p parBind.o), .answer 0 [.result 1 1 0],
      .arrive 1 (.packet 0 mvRen.p mvRen.o), .answer 1 [.result 2 13 0]] := by
  obtain ⟨pb, hpb⟩ := par_read (j := parBind) (by decide +kernel)
  obtain ⟨pd, hpd⟩ := par_write (j := mvRen) (by decide +kernel)
  have h0 : ParReach (ι := Nat) toyEnv gobInstance toyCfg 8 false seDb (Par.start seDb) := .start
  have h1 := ParReach.step _ _ h0 (.arrive _ 0 [] 0 parBind.o parBind.p rfl rfl (by simp [Par.start]))
  have h2 := ParReach.step _ _ h1 (.beginRead _ 0 parBind pb rfl rfl hpb)
  have h3 := read_through (c := 0) (d := seDb) h2 rfl hpb rfl (b' := b!"uid=admin,dc=lg") (by decide +kernel) (by decide +kernel)
  have h4 := ParReach.step _ _ h3 (.arrive _ 0 b!"uid=admin,dc=lg" 1 mvRen.o mvRen.p rfl rfl (by simp [Par.start]))
  have h7 := ParReach.step _ _ h4 (.beginWrite _ 0 mvRen pd rfl (by simp [setStage]; rfl) hpd rfl)
  have h8 := write_through (c := 0) h7 rfl hpd rfl (b' := b!"uid=admin,dc=lg")
    (by
      show (packetEnd toyEnv toyCfg 8 false mvRen.o mvRen.p mvRen.b ((parWork mvRen).exec seDb).1).2 = _
      decide +kernel)
  refine ⟨_, h8, ?_⟩
  have e1 : (packetEnd toyEnv toyCfg 8 false parBind.o parBind.p parBind.b ((parWork parBind).exec seDb).1).1 = [.result 1 1 0] := by decide +kernel
  have e2 : (packetEnd toyEnv toyCfg 8 false mvRen.o mvRen.p mvRen.b ((parWork mvRen).exec seDb).1).1 = [.result 2 13 0] := by
    decide +kernel
  unfold parWork at e1 e2
  simp only [Par.start, e1, e2]
  rfl

/-- The hypotheses hold: Bob is added in the first life and renamed in the second; the old name is still a value of the entry. -/
example : ∃ s s' : Par Nat, let lives : List (Life Nat) := [⟨toyCfg, 8, false, s⟩, ⟨toyCfg, 8, false, s'⟩]
    ∃ e, boltSearch asciiCase gobInstance (fileAfter toyDb lives) b!"uid=eve,dc=lg" scopeBase = .ok ([e], none) ∧
      b!"Bob" ∈ valuesOf asciiCase e.attrs b!"uid" := by
  obtain ⟨s, hr, hd, ht⟩ := se_first
  obtain ⟨s', hr', ht'⟩ := mv_second
  have hlives : Lives toyEnv gobInstance (render toyBase) (after asciiCase gobInstance (validatePw asciiCase toyCrypto) toyBase toyOps)
      [⟨toyCfg, 8, false, s⟩, ⟨toyCfg, 8, false, s'⟩] := ⟨toyCfg_base, hr, toyCfg_base, by dsimp only; rw [hd]; exact hr', trivial⟩
  have h0 : ∀ id op, AskedBy toyEnv ⟨toyCfg, 8, false, s⟩ id op →
      op = .add (entryFromAddRequest b!"uid=Bob,dc=lg" [⟨b!"uid", [b!"Bob"]⟩]) := by
    rintro id op ⟨t₁, c, p, o, t₂, b, he, -, hop⟩
    have ha : Seen.arrive id (.packet c p o) ∈ s.trace := by rw [show s.trace = _ from he]; simp
    rw [ht] at ha
    simp only [List.mem_cons, List.mem_nil_iff, or_false] at ha
    rcases ha with h | h | h | h <;> cases h
    · exact (asks_bind hop).elim
    · exact asks_add_exact hop
  have h1 : ∀ id op, AskedBy toyEnv ⟨toyCfg, 8, false, s'⟩ id op → op = .rename ⟨b!"uid=BOB,dc=lg", b!"uid=Eve", false⟩ ∧ id = 1 := by
    rintro id op ⟨t₁, c, p, o, t₂, b, he, -, hop⟩
    have ha : Seen.arrive id (.packet c p o) ∈ s'.trace := by rw [show s'.trace = _ from he]; simp
    rw [ht'] at ha
    simp only [List.mem_cons, List.mem_nil_iff, or_false] at ha
    rcases ha with h | h | h | h <;> cases h
    · exact (asks_bind hop).elim
    · obtain ⟨mid, req, ⟨m, more, h1, -, -⟩, hh⟩ := hop
      cases h1
      rcases hh with ⟨w, hw, -, rfl⟩ | ⟨ht, -⟩
      · cases w <;> first | exact absurd hw.1 (by decide) | skip
        obtain ⟨-, d, l, k, k1, k2, k3, k4⟩ := hw
        cases k1; cases k2; cases k3; cases k4
        exact ⟨rfl, rfl⟩
      · exact absurd ht (by decide)
  refine ⟨s, s', C132_moved_partial (V := toyEnv) asciiCase_lawful gobInstance_lawful (by decide +kernel) toyOps ⟨by decide +kernel, by decide +kernel⟩
    (by decide +kernel) _ hlives ?_ (by simp [ht, ht', toyOps]) (k := 0) (id := 1) (as := [⟨b!"uid", [b!"Bob"]⟩])
    ⟨_, 0, parAdd.p, parAdd.o, 2, wAdd ⟨b!"uid=Bob,dc=lg", [⟨b!"uid", [b!"Bob"]⟩]⟩, [.result 2 9 0], rfl, by simp [ht], by simp [ht], ⟨_, rfl, rfl⟩,
      ⟨_, _, rfl, rfl, rfl⟩, rfl, _, _, rfl, rfl, rfl, rfl, rfl, ⟨_, _, rfl, ⟨rfl, rfl, rfl, rfl⟩, rfl, rfl, rfl, rfl, trivial⟩, trivial⟩
    (name := [[⟨b!"uid", b!"Bob"⟩], [⟨b!"dc", b!"lg"⟩]]) (by decide +kernel) (k' := 1) (id' := 1) (del := false)
    ⟨_, 0, mvRen.p, mvRen.o, 2, wModifyDN ⟨b!"uid=BOB,dc=lg", b!"uid=Eve", false⟩, [.result 2 13 0], rfl, by simp [ht'], by simp [ht'], ⟨_, rfl, rfl⟩,
      ⟨_, _, rfl, rfl, rfl⟩, rfl, _, _, _, rfl, rfl, rfl, rfl⟩
    (o := [⟨b!"uid", b!"BOB"⟩]) (n := [⟨b!"uid", b!"Eve"⟩]) (p := [[⟨b!"dc", b!"lg"⟩]]) (q := []) (by decide +kernel) (by decide +kernel)
    (by decide +kernel) (.inl (by decide)) [] [] ⟨b!"uid", [b!"Bob"]⟩ rfl (by simp) b!"Bob" (by simp) (by simp) ?_ b!"uid=eve,dc=lg"
    [[⟨b!"uid", b!"eve"⟩], [⟨b!"dc", b!"lg"⟩]] (by decide +kernel) (by decide +kernel) (by decide +kernel)⟩
  · rintro op ⟨l, hl, id, h⟩
    simp only [List.mem_cons, List.mem_nil_iff, or_false] at hl
    rcases hl with rfl | rfl
    · rw [h0 id op h]
      exact ⟨show ∀ n, entryPutDN asciiCase b!"uid=Bob,dc=lg" = some n → NameOk n by decide +kernel, by decide +kernel, by decide +kernel⟩
    · rw [(h1 id op h).1]
      exact ⟨⟨show ∀ n, parseDN asciiCase b!"uid=BOB,dc=lg" = some n → NameOk n by decide +kernel,
        show ∀ n, parseDN asciiCase b!"uid=Eve" = some n → NameOk n by decide +kernel⟩, by decide +kernel, trivial⟩
  · intro k₂ l id₂ op _ hl hop _ hne
    match k₂, hl with
    | 0, hl =>
      simp only [List.getElem?_cons_zero, Option.some.injEq] at hl
      subst hl
      rw [h0 id₂ op hop]
      exact ⟨fun h => h, fun h => h⟩
    | 1, hl =>
      simp only [List.getElem?_cons_succ, List.getElem?_cons_zero, Option.some.injEq] at hl
      subst hl
      exact absurd ⟨rfl, (h1 id₂ op hop).2⟩ hne
    | k + 2, hl => simp at hl

end Idm
