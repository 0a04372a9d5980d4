import Verif.Props.Ledger
import Verif.Props.DurablePw
/-!
# C88 for renames: a rename that was acknowledged outlives the process
-/
namespace Idm

/-- Which names there are after a rename. -/
theorem rename_names {C : CaseEnv} {validate : Str → Str → Res Bool} {base : DN} {d : Dir} {r : ModifyDNReq} {o n : RDN} {p q : DN}
    (ho : parseDN C r.dn = some (o :: p)) (hn : parseDN C r.newRDN = some (n :: q)) (h : (specStep C validate base d (.rename r)).1 = .ok ()) :
    foldDN C (n :: p) ≠ foldDN C (o :: p) ∧
      ∀ l, (specStep C validate base d (.rename r)).2.has l = true ↔ l = foldDN C (n :: p) ∨ l ≠ foldDN C (o :: p) ∧ d.has l = true := by
  revert h
  simp only [specStep, ho, hn, specRename, specRenameAt]
  split
  · intro h; cases h
  rename_i hhas
  split
  · intro h; cases h
  rename_i e he
  split
  · intro h; cases h
  split
  · split
    · intro h; cases h
    intro _
    have hk : d.has (foldDN C (o :: p)) = true := by rw [has_get, he]; rfl
    refine ⟨fun e => ?_, fun l => has_rename hk (by simpa using hhas) l⟩
    rw [e] at hhas
    exact hhas hk
  all_goals (intro h; cases h)

section
variable {ι : Type} {V : Env} {G : GobEnv} {base : DN}

/-- Where an acknowledged rename is in the order of the changes, and which names there were after it. -/
theorem renamed_log (hC : V.C.Lawful) (hG : G.Lawful) (hb : BaseOk V.C base) (ops₀ : List Op) (hops : HistOk V.C ops₀)
    (lives : List (Life ι)) (h : Lives V G (render base) (after V.C G (validatePw V.C V.K) base ops₀) lives)
    (hok : ∀ op, Asked V lives op → op.Ok V.C) (hlen : ops₀.length + (lives.map fun l => l.proc.trace.length).sum < 2 ^ 64)
    {k : Nat} {id : ι} {dn rdn : Str} {del : Bool} (ha : Acknowledged lives k id (.rename dn rdn del)) {o n : RDN} {p q : DN}
    (ho : parseDN V.C dn = some (o :: p)) (hn : parseDN V.C rdn = some (n :: q)) :
    ∃ (d₁ : Dir) (ops : List Op), NameOk (o :: p) ∧ (∀ op ∈ ops, AskedSince V lives k id op ∧ ∀ e, op = .add e → parseDN V.C e.dn ≠ none) ∧
      d₁.has (foldDN V.C (n :: p)) = true ∧ d₁.has (foldDN V.C (o :: p)) = false ∧
      Serves V.C G (fileAfter (after V.C G (validatePw V.C V.K) base ops₀) lives) (specRun V.C (validatePw V.C V.K) base d₁ ops).2 := by
  obtain ⟨log, E, hok', -, S, hstep⟩ := lives_hist hC hG hb ops₀ hops lives h hok hlen
  obtain ⟨log₁, x, log₂, w', hlog, hx, -, ⟨req, hw, hw'⟩, hl⟩ := acknowledged_log E h ha
  have hop : w' = .rename dn rdn del := by
    cases w' <;> simp only [IsWrite] at hw hw'
    all_goals first | (exfalso; omega) | skip
    obtain ⟨-, a, b, c, k1, k2, k3, k4⟩ := hw
    obtain ⟨-, a', b', c', k1', k2', k3', k4'⟩ := hw'
    rw [k1] at k1'
    cases k1'
    rw [k2] at k2'
    rw [k3] at k3'
    rw [k4] at k4'
    cases k2'; cases k3'; cases k4'
    rfl
  subst hop
  have hname : NameOk (o :: p) := by
    have := hok'.ok x.op (by rw [hlog]; simp)
    rw [hx] at this
    exact this.1 _ ho
  obtain ⟨s1, -⟩ := hstep log₁ x log₂ hlog
  have e : x.op = .rename ⟨dn, rdn, del⟩ := hx
  rw [e] at s1
  obtain ⟨hne, hnames⟩ := rename_names ho hn s1
  refine ⟨(specStep V.C (validatePw V.C V.K) base (dirAfter V.C (validatePw V.C V.K) base (ops₀ ++ log₁.map (·.op))) x.op).2, log₂.map (·.op), hname,
    ?_, ?_, ?_, ?_⟩
  · intro op hop
    obtain ⟨y, hy, rfl⟩ := List.mem_map.1 hop
    refine ⟨hl y hy, fun e he => ?_⟩
    obtain ⟨l, t₁, c, p, o, t₂, b, k1, k2, -, -, k3⟩ := E.asked y (by simp [hlog, hy])
    obtain ⟨mid, req', -, hh⟩ := k3
    rcases hh with ⟨w, -, hnp, ho⟩ | ⟨-, _, _, _, _, _, _, _, -, -, -, -, ho⟩
    · rw [he] at ho
      cases w <;> simp only [Write.op] at ho <;> cases ho
      exact hnp _ (by simp [Write.names, entryFromAddRequest])
    · rw [he] at ho
      cases ho
  · rw [e, hnames]
    exact .inl rfl
  · rw [e, Bool.eq_false_iff, ne_eq, hnames]
    rintro (h | ⟨h, -⟩)
    · exact hne h.symm
    · exact h rfl
  · have hd : dirAfter V.C (validatePw V.C V.K) base (ops₀ ++ log.map (·.op)) = (specRun V.C (validatePw V.C V.K) base
        (specStep V.C (validatePw V.C V.K) base (dirAfter V.C (validatePw V.C V.K) base (ops₀ ++ log₁.map (·.op))) x.op).2 (log₂.map (·.op))).2 := by
      have : ops₀ ++ log.map (·.op) = (ops₀ ++ log₁.map (·.op)) ++ (x.op :: log₂.map (·.op)) := by rw [hlog]; simp
      rw [this]
      generalize ops₀ ++ log₁.map (·.op) = pre
      rw [dirAfter, dirAfter, specRun_append]
      rfl
    rw [← hd]
    exact S

/-- C88, for renaming: once the client was told that the entry was renamed, it is found under its new name, however that is written, after any number
of crashes and restarts, unless somebody asked to delete or rename it, before the answer or later. -/
theorem C88_renamed_is_found_partial (hC : V.C.Lawful) (hG : G.Lawful) (hb : BaseOk V.C base) (ops₀ : List Op) (hops : HistOk V.C ops₀)
    (lives : List (Life ι)) (h : Lives V G (render base) (after V.C G (validatePw V.C V.K) base ops₀) lives)
    (hok : ∀ op, Asked V lives op → op.Ok V.C) (hlen : ops₀.length + (lives.map fun l => l.proc.trace.length).sum < 2 ^ 64)
    {k : Nat} {id : ι} {dn rdn : Str} {del : Bool} (ha : Acknowledged lives k id (.rename dn rdn del)) {o n : RDN} {p q : DN}
    (ho : parseDN V.C dn = some (o :: p)) (hn : parseDN V.C rdn = some (n :: q))
    (hkeep : ∀ op, AskedSince V lives k id op → ¬ TakesAway V.C (n :: p) op)
    (text : Str) (name : DN) (hp : parseDN V.C text = some name) (hname : NameOk name) (hnew : foldDN V.C name = foldDN V.C (n :: p)) :
    ∃ e, boltSearch V.C G (fileAfter (after V.C G (validatePw V.C V.K) base ops₀) lives) text scopeBase = .ok ([e], none) := by
  obtain ⟨d₁, ops, -, h1, h2, -, S⟩ := renamed_log hC hG hb ops₀ hops lives h hok hlen ha ho hn
  have := run_keeps (C := V.C) (validate := validatePw V.C V.K) (base := base) (name := n :: p) ops d₁ h2 fun op hop => hkeep op (h1 op hop).1
  rw [← hnew, has_get] at this
  obtain ⟨e, he⟩ := Option.isSome_iff_exists.1 this
  exact ⟨e, serves_get S hp hname he⟩

/-- C88, for renaming: and it is not found under its old name any more, unless somebody asked to give an entry that name. -/
theorem C88_old_name_is_gone_partial (hC : V.C.Lawful) (hG : G.Lawful) (hb : BaseOk V.C base) (ops₀ : List Op) (hops : HistOk V.C ops₀)
    (lives : List (Life ι)) (h : Lives V G (render base) (after V.C G (validatePw V.C V.K) base ops₀) lives)
    (hok : ∀ op, Asked V lives op → op.Ok V.C) (hlen : ops₀.length + (lives.map fun l => l.proc.trace.length).sum < 2 ^ 64)
    {k : Nat} {id : ι} {dn rdn : Str} {del : Bool} (ha : Acknowledged lives k id (.rename dn rdn del)) {o n : RDN} {p q : DN}
    (ho : parseDN V.C dn = some (o :: p)) (hn : parseDN V.C rdn = some (n :: q))
    (hkeep : ∀ op, AskedSince V lives k id op → ¬ GivesName V.C (o :: p) op) (scope : Nat) :
    boltSearch V.C G (fileAfter (after V.C G (validatePw V.C V.K) base ops₀) lives) dn scope = .ok ([], some .other) := by
  obtain ⟨d₁, ops, hname, h1, -, h2, S⟩ := renamed_log hC hG hb ops₀ hops lives h hok hlen ha ho hn
  exact (S dn _ ho hname scope).2 (run_keeps_out (C := V.C) (validate := validatePw V.C V.K) (base := base) (name := o :: p) ops d₁ h2
    fun op hop => ⟨hkeep op (h1 op hop).1, (h1 op hop).2⟩)

end

/-! ## Non-vacuity -/

/-- The administrator renames Ann. -/
def drRen : Job Nat := ⟨1, toyOracle, wMsg 2 (wModifyDN ⟨b!"uid=ANN,dc=lg", b!"uid=Eve", true⟩), b!"uid=admin,dc=lg"⟩

theorem dr_first : ∃ s : Par Nat, ParReach toyEnv gobInstance toyCfg 8 false toyDb s ∧
    s.trace = [.arrive 0 (.packet 0 parBind.p parBind.o), .answer 0 [.result 1 1 0],
      .arrive 1 (.packet 0 drRen.p drRen.o), .answer 1 [.result 2 13 0]] := by
  obtain ⟨pb, hpb⟩ := par_read (j := parBind) (by decide +kernel)
  obtain ⟨pd, hpd⟩ := par_write (j := drRen) (by decide +kernel)
  have h0 : ParReach (ι := Nat) toyEnv gobInstance toyCfg 8 false toyDb (Par.start toyDb) := .start
  have h1 := ParReach.step _ _ h0 (.arrive _ 0 [] 0 parBind.o parBind.p rfl rfl (by simp [Par.start]))
  have h2 := ParReach.step _ _ h1 (.beginRead _ 0 parBind pb rfl rfl hpb)
  have h3 := read_through (c := 0) (d := toyDb) h2 rfl hpb rfl (b' := b!"uid=admin,dc=lg") (by decide +kernel) (by decide +kernel)
  have h4 := ParReach.step _ _ h3 (.arrive _ 0 b!"uid=admin,dc=lg" 1 drRen.o drRen.p rfl rfl (by simp [Par.start]))
  have h7 := ParReach.step _ _ h4 (.beginWrite _ 0 drRen pd rfl (by simp [setStage]; rfl) hpd rfl)
  have h8 := write_through (c := 0) h7 rfl hpd rfl (b' := b!"uid=admin,dc=lg")
    (by
      show (packetEnd toyEnv toyCfg 8 false drRen.o drRen.p drRen.b ((parWork drRen).exec toyDb).1).2 = _
      decide +kernel)
  refine ⟨_, h8, ?_⟩
  have e1 : (packetEnd toyEnv toyCfg 8 false parBind.o parBind.p parBind.b ((parWork parBind).exec toyDb).1).1 = [.result 1 1 0] := by decide +kernel
  have e2 : (packetEnd toyEnv toyCfg 8 false drRen.o drRen.p drRen.b ((parWork drRen).exec toyDb).1).1 = [.result 2 13 0] := by
    decide +kernel
  unfold parWork at e1 e2
  simp only [Par.start, e1, e2]
  rfl

theorem dr_asked {s : Par Nat} (ht : s.trace = [.arrive 0 (.packet 0 parBind.p parBind.o), .answer 0 [.result 1 1 0],
    .arrive 1 (.packet 0 drRen.p drRen.o), .answer 1 [.result 2 13 0]]) : ∀ l ∈ [(⟨toyCfg, 8, false, s⟩ : Life Nat), ⟨toyCfg, 8, true, Par.start s.disk⟩], ∀ id op, AskedBy toyEnv l id op →
      op = .rename ⟨b!"uid=ANN,dc=lg", b!"uid=Eve", true⟩ ∧ id = 1 ∧ l = ⟨toyCfg, 8, false, s⟩ := by
  rintro l hl id op ⟨t₁, c, p, o, t₂, b, he, -, hop⟩
  have ha : Seen.arrive id (.packet c p o) ∈ l.proc.trace := by rw [he]; simp
  simp only [List.mem_cons, List.mem_nil_iff, or_false] at hl
  rcases hl with rfl | rfl
  · dsimp only at ha
    rw [ht] at ha
    simp only [List.mem_cons, List.mem_nil_iff, or_false] at ha
    rcases ha with h | h | h | h <;> cases h
    · exact (asks_bind hop).elim
    · obtain ⟨mid, req, ⟨m, more, h1, -, -⟩, hh⟩ := hop
      cases h1
      rcases hh with ⟨w, hw, -, rfl⟩ | ⟨ht, -⟩
      · cases w <;> first | exact absurd hw.1 (by decide) | skip
        obtain ⟨-, d, l, k, k1, k2, k3, k4⟩ := hw
        cases k1; cases k2; cases k3; cases k4
        exact ⟨rfl, rfl, rfl⟩
      · exact absurd ht (by decide)
  · cases ha

theorem dr_ack {s : Par Nat} (ht : s.trace = [.arrive 0 (.packet 0 parBind.p parBind.o), .answer 0 [.result 1 1 0],
    .arrive 1 (.packet 0 drRen.p drRen.o), .answer 1 [.result 2 13 0]]) :
    Acknowledged [⟨toyCfg, 8, false, s⟩, ⟨toyCfg, 8, true, Par.start s.disk⟩] 0 1 (.rename b!"uid=ANN,dc=lg" b!"uid=Eve" true) := by
    refine ⟨_, 0, drRen.p, drRen.o, 2, wModifyDN ⟨b!"uid=ANN,dc=lg", b!"uid=Eve", true⟩, [.result 2 13 0], rfl, ?_, ?_, ⟨_, rfl, rfl⟩,
      ⟨_, _, rfl, rfl, rfl⟩, rfl, _, _, _, rfl, rfl, rfl, rfl⟩ <;> simp [ht]

/-- The hypotheses hold: the process is killed after the rename, the next one finds Eve and no Ann. -/
example : ∃ s : Par Nat, let lives : List (Life Nat) := [⟨toyCfg, 8, false, s⟩, ⟨toyCfg, 8, true, Par.start s.disk⟩]
    (∃ e, boltSearch asciiCase gobInstance (fileAfter toyDb lives) b!"UID=eve,DC=LG" scopeBase = .ok ([e], none)) ∧
    boltSearch asciiCase gobInstance (fileAfter toyDb lives) b!"uid=ANN,dc=lg" scopeBase = .ok ([], some .other) := by
  obtain ⟨s, hr, ht⟩ := dr_first
  have hlives : Lives toyEnv gobInstance (render toyBase) (after asciiCase gobInstance (validatePw asciiCase toyCrypto) toyBase toyOps)
      [⟨toyCfg, 8, false, s⟩, ⟨toyCfg, 8, true, Par.start s.disk⟩] := ⟨toyCfg_base, hr, toyCfg_base, .start, trivial⟩
  have hall := dr_asked ht
  have hok : ∀ op, Asked toyEnv [⟨toyCfg, 8, false, s⟩, ⟨toyCfg, 8, true, Par.start s.disk⟩] op → op.Ok asciiCase := by
    rintro op ⟨l, hl, id, h⟩
    rw [(hall l hl id op h).1]
    exact ⟨show ∀ n, parseDN asciiCase b!"uid=ANN,dc=lg" = some n → NameOk n by decide +kernel,
      show ∀ n, parseDN asciiCase b!"uid=Eve" = some n → NameOk n by decide +kernel⟩
  have hlen : toyOps.length + ([⟨toyCfg, 8, false, s⟩, ⟨toyCfg, 8, true, Par.start s.disk⟩].map fun l : Life Nat => l.proc.trace.length).sum <
      2 ^ 64 := by
    simp [ht, Par.start, toyOps]
  have hack := dr_ack ht
  have hnone : ∀ op, ¬ AskedSince toyEnv [⟨toyCfg, 8, false, s⟩, ⟨toyCfg, 8, true, Par.start s.disk⟩] 0 1 op := by
    rintro op ⟨k', l, id', -, hl, hop, hne⟩
    obtain ⟨-, e1, e2⟩ := hall l (List.mem_of_getElem? hl) id' op hop
    match k', hl with
    | 0, hl => exact (hne rfl).1 e1
    | 1, hl =>
      simp only [List.getElem?_cons_succ, List.getElem?_cons_zero, Option.some.injEq] at hl
      rw [← hl] at e2
      exact absurd (congrArg Life.stats e2) (by simp)
    | k + 2, hl => simp at hl
  exact ⟨s, C88_renamed_is_found_partial (V := toyEnv) asciiCase_lawful gobInstance_lawful (by decide +kernel) toyOps ⟨by decide +kernel, by decide +kernel⟩
      _ hlives hok hlen hack (o := [⟨b!"uid", b!"ANN"⟩]) (n := [⟨b!"uid", b!"Eve"⟩]) (p := [[⟨b!"dc", b!"lg"⟩]]) (q := []) (by decide +kernel)
      (by decide +kernel) (fun op h => (hnone op h).elim) b!"UID=eve,DC=LG" [[⟨b!"UID", b!"eve"⟩], [⟨b!"DC", b!"LG"⟩]] (by decide +kernel)
      (by decide +kernel) (by decide +kernel),
    C88_old_name_is_gone_partial (V := toyEnv) asciiCase_lawful gobInstance_lawful (by decide +kernel) toyOps ⟨by decide +kernel, by decide +kernel⟩
      _ hlives hok hlen hack (o := [⟨b!"uid", b!"ANN"⟩]) (n := [⟨b!"uid", b!"Eve"⟩]) (p := [[⟨b!"dc", b!"lg"⟩]]) (q := []) (by decide +kernel)
      (by decide +kernel) (fun op h => (hnone op h).elim) scopeBase⟩

end Idm
