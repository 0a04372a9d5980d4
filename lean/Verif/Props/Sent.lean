import Verif.Spec.Sent
import Verif.Props.Origin
import Verif.Props.BoltLife
/-!
# C131: what can be read was sent by someone who may
-/
namespace Idm

section
variable {ι : Type} {V : Env} {G : GobEnv} {base : DN}

/-- Some call that was carried out gave the value. -/
theorem given_by {C : CaseEnv} {t v : Str} {h : List (Op × Res Unit)} {k : DN} (hg : Given C t v h k) :
    ∃ op n, (op, Res.ok ()) ∈ h ∧ op.gives C t v n := by
  induction hg with
  | given hg => exact ⟨_, _, List.mem_cons_self, hg⟩
  | before _ _ ih => obtain ⟨op, n, h1, h2⟩ := ih; exact ⟨op, n, List.mem_cons_of_mem _ h1, h2⟩
  | renamed _ _ _ ih => obtain ⟨op, n, h1, h2⟩ := ih; exact ⟨op, n, List.mem_cons_of_mem _ h1, h2⟩

theorem asksFor_change {bound : Str} {p : Packet} {op : Op} (h : AsksFor V bound p op) : AsksForChange p := by
  obtain ⟨id, req, hm, ⟨w, hw, -⟩ | ⟨ht, -⟩⟩ := h
  · refine ⟨id, req, hm, ?_⟩
    cases w <;> simp only [IsWrite] at hw <;> omega
  · exact ⟨id, req, hm, by omega⟩

/-- C131: a database has some history; then servers are started on it one after the other, which serve any number of clients that send whatever they like
at the same time, and end whenever it may be. Whatever value any search that was answered in any of these lives was sent was in the database in the
beginning, or was sent by a client, in this life or one before: by one who was bound as someone who may make this change, who was not told that it was
refused, and who asked not only after the search was answered. -/
theorem C131_sent (hC : V.C.Lawful) (hG : G.Lawful) (hb : BaseOk V.C base) (ops₀ : List Op) (hops : HistOk V.C ops₀) (hp₀ : ∀ op ∈ ops₀, op.plain)
    (lives : List (Life ι)) (h : Lives V G (render base) (after V.C G (validatePw V.C V.K) base ops₀) lives)
    (hok : ∀ op, Asked V lives op → op.Ok V.C ∧ op.plain) (hlen : ops₀.length + (lives.map fun l => l.proc.trace.length).sum < 2 ^ 64)
    (k : Nat) (l : Life ι) (hk : lives[k]? = some l) (id : ι) (c : Nat) (mid : Int) (b : Str) (ht : TextOk V.C b) (scope limit : Nat) (w : Packet)
    (attrs : List Str) (o : Oracle) (rs : List Resp) (ha : Answered l id c (wMsg mid (wSearch b scope limit w attrs)) o rs) (e : Entry)
    (he : Resp.entry mid e ∈ rs) (a : Attr) (hae : a ∈ e.attrs) (v : Str) (hv : v ∈ a.vals) :
    (∃ op ∈ ops₀, ∃ n, op.gives V.C a.name v n) ∨
    ∃ k' l' id' op n, k' ≤ k ∧ lives[k']? = some l' ∧ SentBy V l' id' op ∧ op.gives V.C a.name v n ∧
      (k' = k → id' ≠ id ∧ ¬ AnsweredBefore l.proc.trace id id') := by
  obtain ⟨log, E, hl, saw, F⟩ := lives_log lives _ h
  have hask : ∀ x ∈ log, Asked V lives x.op := by
    intro x hx
    obtain ⟨l, t₁, c, p, o, t₂, b, k1, k2, k3, -, k4⟩ := E.asked x hx
    exact ⟨l, List.mem_of_getElem? k1, x.id, t₁, c, p, o, t₂, b, k2, k3, k4⟩
  have hmem : ∀ op ∈ ops₀ ++ (log.take (saw k id)).map (·.op), op ∈ ops₀ ∨ ∃ x ∈ log.take (saw k id), x.op = op := by
    intro op hop
    rcases List.mem_append.1 hop with hop | hop
    · exact .inl hop
    · exact .inr (List.mem_map.1 hop)
  have hhist : HistOk V.C (ops₀ ++ (log.take (saw k id)).map (·.op)) := by
    refine ⟨fun op hop => ?_, by simp; omega⟩
    rcases hmem op hop with hop | ⟨x, hx, rfl⟩
    · exact hops.ok op hop
    · exact (hok _ (hask x (List.mem_of_mem_take hx))).1
  have hplain : ∀ op ∈ ops₀ ++ (log.take (saw k id)).map (·.op), op.plain := by
    intro op hop
    rcases hmem op hop with hop | ⟨x, hx, rfl⟩
    · exact hp₀ op hop
    · exact (hok _ (hask x (List.mem_of_mem_take hx))).2
  have hfile : after V.C G (validatePw V.C V.K) base (ops₀ ++ (log.take (saw k id)).map (·.op)) =
      (boltRun V.C G (validatePw V.C V.K) (render base) (after V.C G (validatePw V.C V.K) base ops₀) ((log.take (saw k id)).map (·.op))).2 := by
    unfold after
    rw [boltRun_append]
  obtain ⟨t₁, t₂, bound, -, -, hrs⟩ := F.answers k l id c _ o rs hk ha
  rw [← hfile] at hrs
  rw [hrs] at he
  obtain ⟨key, -, hgiven⟩ := C128_given (cfg := l.cfg) (n := l.genPwLen) (stats := l.stats) hC hG hb _ hhist hplain b ht scope limit w attrs o mid bound e he
  obtain ⟨op, n, hop, hg⟩ := given_by (hgiven a hae v hv)
  have hop := (List.of_mem_zip (List.mem_reverse.1 hop)).1
  rcases hmem op hop with hop | ⟨x, hx, rfl⟩
  · exact .inl ⟨op, hop, n, hg⟩
  · right
    obtain ⟨h1, h2⟩ := F.nothingAhead k l id c _ o rs hk ha x hx
    obtain ⟨l', t₁', c', p', o', t₂', b', k1, k2, k3, k4, k5⟩ := E.asked x (List.mem_of_mem_take hx)
    refine ⟨x.life, l', x.id, x.op, n, h1, k1, ⟨⟨t₁', c', p', o', t₂', b', k2, k3, k4, k5⟩, fun rs' hrs' => ?_⟩, hg, h2⟩
    exact (E.answered x.life l' x.id c' p' o' rs' k1 (by rw [k2]; simp) hrs' (asksFor_change k5)).2 ⟨x, List.mem_of_mem_take hx, rfl, rfl⟩

/-- C131: and a value of any other attribute than the password was there in the beginning or was sent by the administrator. -/
theorem C131_admin (hC : V.C.Lawful) (hG : G.Lawful) (hb : BaseOk V.C base) (ops₀ : List Op) (hops : HistOk V.C ops₀) (hp₀ : ∀ op ∈ ops₀, op.plain)
    (lives : List (Life ι)) (h : Lives V G (render base) (after V.C G (validatePw V.C V.K) base ops₀) lives)
    (hok : ∀ op, Asked V lives op → op.Ok V.C ∧ op.plain) (hlen : ops₀.length + (lives.map fun l => l.proc.trace.length).sum < 2 ^ 64)
    (k : Nat) (l : Life ι) (hk : lives[k]? = some l) (id : ι) (c : Nat) (mid : Int) (b : Str) (ht : TextOk V.C b) (scope limit : Nat) (w : Packet)
    (attrs : List Str) (o : Oracle) (rs : List Resp) (ha : Answered l id c (wMsg mid (wSearch b scope limit w attrs)) o rs) (e : Entry)
    (he : Resp.entry mid e ∈ rs) (a : Attr) (hae : a ∈ e.attrs) (hne : V.C.fold a.name ≠ V.C.fold b!"userPassword") (v : Str) (hv : v ∈ a.vals) :
    (∃ op ∈ ops₀, ∃ n, op.gives V.C a.name v n) ∨
    ∃ k' l' id' t₁ c' p o' t₂ op n, k' ≤ k ∧ lives[k']? = some l' ∧ l'.proc.trace = t₁ ++ Seen.arrive id' (.packet c' p o') :: t₂ ∧
      LastBind V.C c' t₁ l'.cfg.admin ∧ l'.cfg.admin ≠ [] ∧ AsksFor V l'.cfg.admin p op ∧ op.gives V.C a.name v n := by
  rcases C131_sent hC hG hb ops₀ hops hp₀ lives h hok hlen k l hk id c mid b ht scope limit w attrs o rs ha e he a hae v hv with h | h
  · exact .inl h
  · obtain ⟨k', l', id', op, n, h1, h2, ⟨⟨t₁, c', p, o', t₂, bound, k2, k3, ⟨h3, h4⟩, k5⟩, -⟩, hg, -⟩ := h
    rcases h4 with rfl | ⟨r, rfl, -⟩
    · exact .inr ⟨k', l', id', t₁, c', p, o', t₂, op, n, h1, h2, k2, k3, h3, k5, hg⟩
    · exact absurd hg.2.1.symm hne

end

/-! ## Non-vacuity -/

def seFind : Job Nat := ⟨0, toyOracle, wMsg 7 (wSearch b!"dc=lg" 2 0 (wEq b!"uid" b!"bob") []), []⟩

def seDb : Db := ((parWork parAdd).exec toyDb).2

/-- The administrator adds Bob; the server is started again, and somebody finds Bob. -/
theorem se_first : ∃ s : Par Nat, ParReach toyEnv gobInstance toyCfg 8 false toyDb s ∧ s.disk = seDb ∧
    s.trace = [.arrive 0 (.packet 0 parBind.p parBind.o), .answer 0 [.result 1 1 0],
      .arrive 1 (.packet 0 parAdd.p parAdd.o), .answer 1 [.result 2 9 0]] := by
  obtain ⟨pb, hpb⟩ := par_read (j := parBind) (by decide +kernel)
  obtain ⟨pd, hpd⟩ := par_write (j := parAdd) (by decide +kernel)
  have h0 : ParReach (ι := Nat) toyEnv gobInstance toyCfg 8 false toyDb (Par.start toyDb) := .start
  have h1 := ParReach.step _ _ h0 (.arrive _ 0 [] 0 parBind.o parBind.p rfl rfl (by simp [Par.start]))
  have h2 := ParReach.step _ _ h1 (.beginRead _ 0 parBind pb rfl rfl hpb)
  have h3 := read_through (c := 0) (d := toyDb) h2 rfl hpb rfl (b' := b!"uid=admin,dc=lg") (by decide +kernel) (by decide +kernel)
  have h4 := ParReach.step _ _ h3 (.arrive _ 0 b!"uid=admin,dc=lg" 1 parAdd.o parAdd.p rfl rfl (by simp [Par.start]))
  have h7 := ParReach.step _ _ h4 (.beginWrite _ 0 parAdd pd rfl (by simp [setStage]; rfl) hpd rfl)
  have h8 := write_through (c := 0) h7 rfl hpd rfl (b' := b!"uid=admin,dc=lg")
    (by
      show (packetEnd toyEnv toyCfg 8 false parAdd.o parAdd.p parAdd.b ((parWork parAdd).exec toyDb).1).2 = _
      decide +kernel)
  refine ⟨_, h8, rfl, ?_⟩
  have e1 : (packetEnd toyEnv toyCfg 8 false parBind.o parBind.p parBind.b ((parWork parBind).exec toyDb).1).1 = [.result 1 1 0] := by decide +kernel
  have e2 : (packetEnd toyEnv toyCfg 8 false parAdd.o parAdd.p parAdd.b ((parWork parAdd).exec toyDb).1).1 = [.result 2 9 0] := by
    decide +kernel
  unfold parWork at e1 e2
  simp only [Par.start, e1, e2]
  rfl

theorem se_second : ∃ s : Par Nat, ParReach toyEnv gobInstance toyCfg 8 false seDb s ∧
    s.trace = [.arrive 0 (.packet 0 seFind.p seFind.o),
      .answer 0 [.entry 7 ⟨b!"uid=Bob,dc=lg", [⟨b!"uid", [b!"Bob"]⟩]⟩, .searchDone 7 0 (some [])]] := by
  obtain ⟨pb, hpb⟩ := par_read (j := seFind) (by decide +kernel)
  have h0 : ParReach (ι := Nat) toyEnv gobInstance toyCfg 8 false seDb (Par.start seDb) := .start
  have h1 := ParReach.step _ _ h0 (.arrive _ 0 [] 0 seFind.o seFind.p rfl rfl (by simp [Par.start]))
  have h2 := ParReach.step _ _ h1 (.beginRead _ 0 seFind pb rfl rfl hpb)
  have h3 := read_through (c := 0) (d := seDb) h2 rfl hpb rfl (b' := []) (by decide +kernel) (by decide +kernel)
  refine ⟨_, h3, ?_⟩
  have e1 : (packetEnd toyEnv toyCfg 8 false seFind.o seFind.p seFind.b ((parWork seFind).exec seDb).1).1 =
    [.entry 7 ⟨b!"uid=Bob,dc=lg", [⟨b!"uid", [b!"Bob"]⟩]⟩, .searchDone 7 0 (some [])] := by decide +kernel
  unfold parWork at e1
  simp only [Par.start, e1]
  rfl

theorem asks_add_exact {b : Str} {op : Op} (h : AsksFor toyEnv b parAdd.p op) :
    op = .add (entryFromAddRequest b!"uid=Bob,dc=lg" [⟨b!"uid", [b!"Bob"]⟩]) := by
  obtain ⟨mid, req, ⟨m, more, h1, -, -⟩, hh⟩ := h
  cases h1
  rcases hh with ⟨w, hw, -, rfl⟩ | ⟨ht, -⟩
  · cases w <;> first | exact absurd hw.1 (by decide) | skip
    rename_i dn as
    obtain ⟨-, d, l, k1, k2, -, -, -, k3⟩ := hw
    cases k1
    cases k2
    match as, k3 with
    | [⟨t, vs⟩], ⟨⟨t', v', j1, ⟨_, _, _, j2⟩, _, _, _, j3⟩, _⟩ =>
      cases j1
      cases j2
      match vs, j3 with
      | [v], ⟨j4, _⟩ => cases j4; rfl
  · exact absurd ht (by decide)

/-- C131 applies to these lives: the value Bob that was read was there in the beginning, which it was not, or was sent by the administrator. -/
example : ∃ s s' : Par Nat, let lives : List (Life Nat) := [⟨toyCfg, 8, false, s⟩, ⟨toyCfg, 8, false, s'⟩]
    Lives toyEnv gobInstance (render toyBase) (after asciiCase gobInstance (validatePw asciiCase toyCrypto) toyBase toyOps) lives ∧
    (∀ op, Asked toyEnv lives op → op.Ok asciiCase ∧ op.plain) ∧
    ∃ k' l' id' t₁ c' p o' t₂ op n, k' ≤ 1 ∧ lives[k']? = some l' ∧ l'.proc.trace = t₁ ++ Seen.arrive id' (.packet c' p o') :: t₂ ∧
      LastBind asciiCase c' t₁ l'.cfg.admin ∧ l'.cfg.admin ≠ [] ∧ AsksFor toyEnv l'.cfg.admin p op ∧ op.gives asciiCase b!"uid" b!"Bob" n := by
  obtain ⟨s, hr, hd, ht⟩ := se_first
  obtain ⟨s', hr', ht'⟩ := se_second
  have hlives : Lives toyEnv gobInstance (render toyBase) (after asciiCase gobInstance (validatePw asciiCase toyCrypto) toyBase toyOps)
      [⟨toyCfg, 8, false, s⟩, ⟨toyCfg, 8, false, s'⟩] := ⟨toyCfg_base, hr, toyCfg_base, by dsimp only; rw [hd]; exact hr', trivial⟩
  have hok : ∀ op, Asked toyEnv [⟨toyCfg, 8, false, s⟩, ⟨toyCfg, 8, false, s'⟩] op → op.Ok asciiCase ∧ op.plain := by
    rintro op ⟨l, hl, id, t₁, c, p, o, t₂, b, he, -, hop⟩
    have ha : Seen.arrive id (.packet c p o) ∈ l.proc.trace := by rw [he]; simp
    simp only [List.mem_cons, List.mem_nil_iff, or_false] at hl
    rcases hl with rfl | rfl
    · dsimp only at ha
      rw [ht] at ha
      simp only [List.mem_cons, List.mem_nil_iff, or_false] at ha
      rcases ha with h | h | h | h <;> cases h
      · exact (asks_bind hop).elim
      · rw [asks_add_exact hop]
        exact ⟨show ∀ n, entryPutDN asciiCase b!"uid=Bob,dc=lg" = some n → NameOk n by decide +kernel, by decide +kernel⟩
    · dsimp only at ha
      rw [ht'] at ha
      simp only [List.mem_cons, List.mem_nil_iff, or_false] at ha
      rcases ha with h | h <;> cases h
      obtain ⟨mid, req, ⟨m, more, h1, -, -⟩, hh⟩ := hop
      cases h1
      rcases hh with ⟨w, hw, -, -⟩ | ⟨ht, -⟩
      · cases w <;> exact absurd hw.1 (by decide)
      · exact absurd ht (by decide)
  refine ⟨s, s', hlives, hok, ?_⟩
  rcases C131_admin (V := toyEnv) asciiCase_lawful gobInstance_lawful (by decide +kernel) toyOps ⟨by decide +kernel, by decide +kernel⟩ (by decide +kernel) _
    hlives hok (by simp [ht, ht', toyOps]) 1 _ rfl 0 0 7 b!"dc=lg" (by decide +kernel) 2 0 (wEq b!"uid" b!"bob") [] seFind.o
    [.entry 7 ⟨b!"uid=Bob,dc=lg", [⟨b!"uid", [b!"Bob"]⟩]⟩, .searchDone 7 0 (some [])] ⟨by simp [ht', seFind], by simp [ht']⟩ ⟨b!"uid=Bob,dc=lg", [⟨b!"uid", [b!"Bob"]⟩]⟩ (by simp) ⟨b!"uid", [b!"Bob"]⟩ (by simp) (by decide +kernel)
    b!"Bob" (by simp) with h | h
  · exfalso
    obtain ⟨op, hop, n, hg⟩ := h
    simp only [toyOps, List.mem_cons, List.mem_nil_iff, or_false] at hop
    rcases hop with rfl | rfl | rfl
    all_goals (obtain ⟨-, a, ha, h1, h2⟩ := hg; revert h1 h2; revert a; decide +kernel)
  · exact h

end Idm
