import Verif.Props.Moved
/-!
# C134: an entry with the name of one that was deleted inherits nothing
-/
namespace Idm

section
variable {ι : Type} {V : Env} {G : GobEnv} {base : DN}

/-- C134: once a client was told that an entry was deleted, whatever value an entry of that name has from then on, after any number of crashes and restarts,
somebody asked for after that (or by a request not answered before the delete was sent): for the entry to have that value, up to case, or for another entry
to get the name. Missing: entries with one attribute type in two spellings. -/
theorem C134_fresh_partial (hC : V.C.Lawful) (hG : G.Lawful) (hb : BaseOk V.C base) (ops₀ : List Op) (hops : HistOk V.C ops₀)
    (hp₀ : ∀ op ∈ ops₀, op.plain ∧ op.distinct V.C) (lives : List (Life ι))
    (h : Lives V G (render base) (after V.C G (validatePw V.C V.K) base ops₀) lives)
    (hok : ∀ op, Asked V lives op → op.Ok V.C ∧ op.plain ∧ op.distinct V.C)
    (hlen : ops₀.length + (lives.map fun l => l.proc.trace.length).sum < 2 ^ 64)
    {k : Nat} {id : ι} {dn : Str} (ha : Acknowledged lives k id (.delete dn)) {name : DN} (hp : parseDN V.C dn = some name) (e : Entry)
    (he : boltSearch V.C G (fileAfter (after V.C G (validatePw V.C V.K) base ops₀) lives) dn scopeBase = .ok ([e], none)) (t v : Str)
    (hv : HasValue V.C e.attrs t v) : ∃ op, AskedSince V lives k id op ∧ op.brings V.C t v (foldDN V.C name) := by
  obtain ⟨log, E, hok', -, S, hstep⟩ := lives_hist hC hG hb ops₀ hops lives h (fun op h => (hok op h).1) hlen
  obtain ⟨log₁, x, log₂, w', hlog, hx, hn, ⟨req, hw, hw'⟩, hl⟩ := acknowledged_log E h ha
  cases isWrite_unique hw hw'
  have hx : x.op = .delete dn := hx
  have hmemx : x.op ∈ ops₀ ++ log.map (·.op) := by rw [hlog]; simp
  have hname : NameOk name := by
    have := hok'.ok x.op hmemx
    rw [hx] at this
    exact this name hp
  obtain ⟨s1, hdir⟩ := hstep log₁ x log₂ hlog
  have hpl := log_plain E hp₀ hok
  have hsub : ∀ op ∈ ops₀ ++ log₁.map (·.op), op ∈ ops₀ ++ log.map (·.op) := by
    intro op hop
    rw [hlog, List.map_append, ← List.append_assoc]
    exact List.mem_append_left _ hop
  have hsub2 : ∀ op ∈ log₂.map (·.op), op ∈ ops₀ ++ log.map (·.op) := by
    intro op hop
    rw [hlog, List.map_append, List.map_cons]
    exact List.mem_append_right _ (List.mem_append_right _ (List.mem_cons_of_mem _ hop))
  have hd : ∀ n ∈ dirAfter V.C (validatePw V.C V.K) base (ops₀ ++ log₁.map (·.op)), Tidy V.C n.entry.attrs :=
    tidy_run _ [] (by simp) (fun o ho => hok'.ok o (hsub o ho)) (fun o ho => (hpl o (hsub o ho)).1) fun o ho => (hpl o (hsub o ho)).2
  have hd' := tidy_step (validate := validatePw V.C V.K) (base := base) hd x.op (hok'.ok x.op hmemx) (hpl _ hmemx).1 (hpl _ hmemx).2
  have hh : Lacks V.C t v (specStep V.C (validatePw V.C V.K) base (dirAfter V.C (validatePw V.C V.K) base (ops₀ ++ log₁.map (·.op))) x.op).2
      (foldDN V.C name) := by
    intro e1 he1
    have := has_of_get he1
    rw [hx] at s1 this
    rw [delete_has hp s1] at this
    cases this
  refine Classical.byContradiction fun hno => ?_
  have hend := lacks_run (validate := validatePw V.C V.K) (base := base) hC (log₂.map (·.op)) _ hd' (fun o ho => hok'.ok o (hsub2 o ho))
    (fun o ho => (hpl o (hsub2 o ho)).1) (fun o ho => (hpl o (hsub2 o ho)).2) hh (by
      intro u hu hb
      obtain ⟨y, hy, rfl⟩ := List.mem_map.1 hu
      exact hno ⟨_, hl y hy, hb⟩)
  rw [← hdir] at hend
  obtain ⟨w, hw, hf⟩ := hv
  generalize dirAfter V.C (validatePw V.C V.K) base (ops₀ ++ log.map (·.op)) = D at S hend
  cases hg : D.get (foldDN V.C name) with
  | none =>
    have : D.has (foldDN V.C name) = false := by rw [has_get, hg]; rfl
    rw [(S dn name hp hname scopeBase).2 this] at he
    simp at he
  | some e1 =>
    rw [serves_get S hp hname hg] at he
    simp at he
    subst he
    exact hend e1 hg w hw hf

end

/-! ## Non-vacuity: Ann is deleted in the first life and added again, without an address, in the second -/

def frAdd : Job Nat := ⟨1, toyOracle, wMsg 2 (wAdd ⟨b!"uid=Ann,dc=lg", [⟨b!"uid", [b!"Ann"]⟩]⟩), b!"uid=admin,dc=lg"⟩

def frDb : Db := ((parWork parDelete).exec toyDb).2

def frDb2 : Db := ((parWork frAdd).exec frDb).2

theorem fr_first : ∃ s : Par Nat, ParReach toyEnv gobInstance toyCfg 8 false toyDb s ∧ s.disk = frDb ∧
    s.trace = [.arrive 0 (.packet 0 parBind.p parBind.o), .answer 0 [.result 1 1 0],
      .arrive 1 (.packet 0 parDelete.p parDelete.o), .answer 1 [.result 2 11 0]] := by
  obtain ⟨pb, hpb⟩ := par_read (j := parBind) (by decide +kernel)
  obtain ⟨pd, hpd⟩ := par_write (j := parDelete) (by decide +kernel)
  have h0 : ParReach (ι := Nat) toyEnv gobInstance toyCfg 8 false toyDb (Par.start toyDb) := .start
  have h1 := ParReach.step _ _ h0 (.arrive _ 0 [] 0 parBind.o parBind.p rfl rfl (by simp [Par.start]))
  have h2 := ParReach.step _ _ h1 (.beginRead _ 0 parBind pb rfl rfl hpb)
  have h3 := read_through (c := 0) (d := toyDb) h2 rfl hpb rfl (b' := b!"uid=admin,dc=lg") (by decide +kernel) (by decide +kernel)
  have h4 := ParReach.step _ _ h3 (.arrive _ 0 b!"uid=admin,dc=lg" 1 parDelete.o parDelete.p rfl rfl (by simp [Par.start]))
  have h7 := ParReach.step _ _ h4 (.beginWrite _ 0 parDelete pd rfl (by simp [setStage]; rfl) hpd rfl)
  have h8 := write_through (c := 0) h7 rfl hpd rfl (b' := b!"uid=admin,dc=lg")
    (by
      show (packetEnd toyEnv toyCfg 8 false parDelete.o parDelete.p parDelete.b ((parWork parDelete).exec toyDb).1).2 = _
      decide +kernel)
  refine ⟨_, h8, rfl, ?_⟩
  have e1 : (packetEnd toyEnv toyCfg 8 false parBind.o parBind.p parBind.b ((parWork parBind).exec toyDb).1).1 = [.result 1 1 0] := by decide +kernel
  have e2 : (packetEnd toyEnv toyCfg 8 false parDelete.o parDelete.p parDelete.b ((parWork parDelete).exec toyDb).1).1 = [.result 2 11 0] := by
    decide +kernel
  unfold parWork at e1 e2
  simp only [Par.start, e1, e2]
  rfl

theorem fr_second : ∃ s : Par Nat, ParReach toyEnv gobInstance toyCfg 8 false frDb s ∧ s.disk = frDb2 ∧
    s.trace = [.arrive 0 (.packet 0 parBind.p parBind.o), .answer 0 [.result 1 1 0],
      .arrive 1 (.packet 0 frAdd.p frAdd.o), .answer 1 [.result 2 9 0]] := by
  obtain ⟨pb, hpb⟩ := par_read (j := parBind) (by decide +kernel)
  obtain ⟨pd, hpd⟩ := par_write (j := frAdd) (by decide +kernel)
  have h0 : ParReach (ι := Nat) toyEnv gobInstance toyCfg 8 false frDb (Par.start frDb) := .start
  have h1 := ParReach.step _ _ h0 (.arrive _ 0 [] 0 parBind.o parBind.p rfl rfl (by simp [Par.start]))
  have h2 := ParReach.step _ _ h1 (.beginRead _ 0 parBind pb rfl rfl hpb)
  have h3 := read_through (c := 0) (d := frDb) h2 rfl hpb rfl (b' := b!"uid=admin,dc=lg") (by decide +kernel) (by decide +kernel)
  have h4 := ParReach.step _ _ h3 (.arrive _ 0 b!"uid=admin,dc=lg" 1 frAdd.o frAdd.p rfl rfl (by simp [Par.start]))
  have h7 := ParReach.step _ _ h4 (.beginWrite _ 0 frAdd pd rfl (by simp [setStage]; rfl) hpd rfl)
  have h8 := write_through (c := 0) h7 rfl hpd rfl (b' := b!"uid=admin,dc=lg")
    (by
      show (packetEnd toyEnv toyCfg 8 false frAdd.o frAdd.p frAdd.b ((parWork frAdd).exec frDb).1).2 = _
      decide +kernel)
  refine ⟨_, h8, rfl, ?_⟩
  have e1 : (packetEnd toyEnv toyCfg 8 false parBind.o parBind.p parBind.b ((parWork parBind).exec frDb).1).1 = [.result 1 1 0] := by decide +kernel
  have e2 : (packetEnd toyEnv toyCfg 8 false frAdd.o frAdd.p frAdd.b ((parWork frAdd).exec frDb).1).1 = [.result 2 9 0] := by
    decide +kernel
  unfold parWork at e1 e2
  simp only [Par.start, e1, e2]
  rfl

theorem asks_frAdd {b : Str} {op : Op} (h : AsksFor toyEnv b frAdd.p op) :
    op = .add (entryFromAddRequest b!"uid=Ann,dc=lg" [⟨b!"uid", [b!"Ann"]⟩]) := by
  obtain ⟨mid, req, ⟨m, more, h1, -, -⟩, hh⟩ := h
  cases h1
  rcases hh with ⟨w, hw, -, rfl⟩ | ⟨ht, -⟩
  · have : IsWrite (wAdd ⟨b!"uid=Ann,dc=lg", [⟨b!"uid", [b!"Ann"]⟩]⟩) (.add b!"uid=Ann,dc=lg" [⟨b!"uid", [b!"Ann"]⟩]) :=
      ⟨rfl, _, _, rfl, rfl, rfl, rfl, rfl, ⟨_, _, rfl, ⟨rfl, rfl, rfl, rfl⟩, rfl, rfl, rfl, rfl, trivial⟩, trivial⟩
    rw [isWrite_unique hw this]
    rfl
  · exact absurd ht (by decide)

/-- The new entry is found, and the address of the old one is not in it. -/
example : ∃ s s' : Par Nat, let lives : List (Life Nat) := [⟨toyCfg, 8, false, s⟩, ⟨toyCfg, 8, false, s'⟩]
    ∃ e, boltSearch asciiCase gobInstance (fileAfter toyDb lives) b!"uid=ann,dc=lg" scopeBase = .ok ([e], none) ∧
      ¬ HasValue asciiCase e.attrs b!"mail" b!"a@lg" := by
  obtain ⟨s, hr, hd, ht⟩ := fr_first
  obtain ⟨s', hr', hd', ht'⟩ := fr_second
  have hlives : Lives toyEnv gobInstance (render toyBase) (after asciiCase gobInstance (validatePw asciiCase toyCrypto) toyBase toyOps)
      [⟨toyCfg, 8, false, s⟩, ⟨toyCfg, 8, false, s'⟩] := ⟨toyCfg_base, hr, toyCfg_base, by dsimp only; rw [hd]; exact hr', trivial⟩
  have hask : ∀ op, Asked toyEnv [⟨toyCfg, 8, false, s⟩, ⟨toyCfg, 8, false, s'⟩] op →
      op = .delete b!"uid=ann,dc=lg" ∨ op = .add (entryFromAddRequest b!"uid=Ann,dc=lg" [⟨b!"uid", [b!"Ann"]⟩]) := by
    rintro op ⟨l, hl, id, t₁, c, p, o, t₂, b, he, -, hop⟩
    have ha : Seen.arrive id (.packet c p o) ∈ l.proc.trace := by rw [he]; simp
    simp only [List.mem_cons, List.mem_nil_iff, or_false] at hl
    rcases hl with rfl | rfl
    · dsimp only at ha
      rw [ht] at ha
      simp only [List.mem_cons, List.mem_nil_iff, or_false] at ha
      rcases ha with h | h | h | h <;> cases h
      · exact (asks_bind hop).elim
      · exact .inl (asks_delete hop)
    · dsimp only at ha
      rw [ht'] at ha
      simp only [List.mem_cons, List.mem_nil_iff, or_false] at ha
      rcases ha with h | h | h | h <;> cases h
      · exact (asks_bind hop).elim
      · exact .inr (asks_frAdd hop)
  have hfound : boltSearch asciiCase gobInstance (fileAfter toyDb [⟨toyCfg, 8, false, s⟩, (⟨toyCfg, 8, false, s'⟩ : Life Nat)]) b!"uid=ann,dc=lg" scopeBase =
      .ok ([⟨b!"uid=Ann,dc=lg", [⟨b!"uid", [b!"Ann"]⟩]⟩], none) := by
    simp only [fileAfter, hd']
    decide +kernel
  refine ⟨s, s', _, hfound, fun hv => ?_⟩
  obtain ⟨op, ⟨k', l, id', -, hl, hop, -⟩, hbr⟩ := C134_fresh_partial (V := toyEnv) asciiCase_lawful gobInstance_lawful (by decide +kernel) toyOps
    ⟨by decide +kernel, by decide +kernel⟩ (by decide +kernel) _ hlives (by
      intro op h
      rcases hask op h with rfl | rfl
      · exact ⟨show ∀ n, parseDN asciiCase b!"uid=ann,dc=lg" = some n → NameOk n by decide +kernel, trivial, trivial⟩
      · exact ⟨show ∀ n, entryPutDN asciiCase b!"uid=Ann,dc=lg" = some n → NameOk n by decide +kernel, by decide +kernel, by decide +kernel⟩)
    (by simp [ht, ht', toyOps]) (k := 0) (id := 1) (dn := b!"uid=ann,dc=lg")
    ⟨_, 0, parDelete.p, parDelete.o, 2, wDelete b!"uid=ann,dc=lg", [.result 2 11 0], rfl, by simp [ht], by simp [ht], ⟨_, rfl, rfl⟩,
      ⟨_, _, rfl, rfl, rfl⟩, rfl, rfl, rfl⟩
    (name := [[⟨b!"uid", b!"ann"⟩], [⟨b!"dc", b!"lg"⟩]]) (by decide +kernel) _ hfound b!"mail" b!"a@lg" hv
  rcases hask op ⟨l, List.mem_of_getElem? hl, id', hop⟩ with rfl | rfl
  · rcases hbr with ⟨w, -, h⟩ | ⟨r, h, -⟩
    · exact h
    · cases h
  · rcases hbr with ⟨w, -, -, a, ha, hn, -⟩ | ⟨r, h, -⟩
    · have : (entryFromAddRequest b!"uid=Ann,dc=lg" [⟨b!"uid", [b!"Ann"]⟩]).attrs = [⟨b!"uid", [b!"Ann"]⟩] := by decide +kernel
      rw [this, List.mem_singleton] at ha
      subst ha
      exact absurd hn (by decide +kernel)
    · cases h

end Idm
