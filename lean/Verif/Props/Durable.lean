import Verif.Proofs.Durable
/-!
# What clients were told outlives the process
-/
namespace Idm

section
variable {V : Env} {G : GobEnv} {ι : Type}

/-! ## C88 acknowledged changes survive crashes and restarts, exactly once -/

/-- C88: whatever the clients send, on however many connections, however the requests overlap, and at whatever points the process ends and is
started again: there is an order of the changes made, such that the file is the result of making them one after the other, each was asked for
by someone who may, none was made twice, those answered with success were made and those answered otherwise were not, and a change that was
answered before another one was asked for comes before it. -/
theorem C88_exactly_once {base : Str} (db : Db) (lives : List (Life ι)) (h : Lives V G base db lives) :
    ∃ log, ExactlyOnce V G base db lives log := by
  obtain ⟨log, E, -⟩ := lives_log lives db h
  exact ⟨log, E⟩

theorem boltRun_length {C : CaseEnv} {validate : Str → Str → Res Bool} {b : Str} (ops : List Op) (db : Db) :
    (boltRun C G validate b db ops).1.length = ops.length := by
  induction ops generalizing db with
  | nil => rfl
  | cons op ops ih => simp [boltRun, ih]

theorem specRun_length {C : CaseEnv} {validate : Str → Str → Res Bool} {b : DN} (ops : List Op) (d : Dir) :
    (specRun C validate b d ops).1.length = ops.length := by
  induction ops generalizing d with
  | nil => rfl
  | cons op ops ih => simp [specRun, ih]

variable {base : DN}

theorem lives_dir (hC : V.C.Lawful) (hG : G.Lawful) (hb : BaseOk V.C base) (ops₀ : List Op) (hops : HistOk V.C ops₀) (lives : List (Life ι))
    (h : Lives V G (render base) (after V.C G (validatePw V.C V.K) base ops₀) lives) (hok : ∀ op, Asked V lives op → op.Ok V.C)
    (hlen : ops₀.length + (lives.map fun l => l.proc.trace.length).sum < 2 ^ 64) :
    ∃ log, ExactlyOnce V G (render base) (after V.C G (validatePw V.C V.K) base ops₀) lives log ∧
      (specRun V.C (validatePw V.C V.K) base (dirAfter V.C (validatePw V.C V.K) base ops₀) (log.map (·.op))).1 = log.map (fun _ => .ok ()) ∧
      Serves V.C G (fileAfter (after V.C G (validatePw V.C V.K) base ops₀) lives)
        (dirAfter V.C (validatePw V.C V.K) base (ops₀ ++ log.map (·.op))) := by
  obtain ⟨log, E, hl, -⟩ := lives_log lives _ h
  have hok' : ∀ op ∈ ops₀ ++ log.map (·.op), op.Ok V.C := by
    intro op hop
    rcases List.mem_append.1 hop with hop | hop
    · exact hops.ok op hop
    · obtain ⟨x, hx, rfl⟩ := List.mem_map.1 hop
      obtain ⟨l, t₁, c, p, o, t₂, b, k1, k2, k3, -, k4⟩ := E.asked x hx
      exact hok _ ⟨l, List.mem_of_getElem? k1, x.id, t₁, c, p, o, t₂, b, k2, k3, k4⟩
  obtain ⟨ns, h1, h2, R, -⟩ := sim_run_empty (validate := validatePw V.C V.K) hC hG hb (ops₀ ++ log.map (·.op)) hok'
    (by simp; omega)
  have hf := E.file
  rw [boltRun_append] at h1 R
  rw [specRun_append] at h1
  dsimp only at h1 R
  have e : (boltRun V.C G (validatePw V.C V.K) (render base) Db.empty ops₀).2 = after V.C G (validatePw V.C V.K) base ops₀ := rfl
  rw [e, hf] at h1 R
  refine ⟨log, E, ?_, ?_⟩
  · have hl1 := congrArg (List.drop ops₀.length) h1
    have n1 : (boltRun V.C G (validatePw V.C V.K) (render base) Db.empty ops₀).1.length = ops₀.length := boltRun_length ..
    have n2 : (specRun V.C (validatePw V.C V.K) base [] ops₀).1.length = ops₀.length := specRun_length ..
    rw [List.drop_append_of_le_length (by omega), List.drop_append_of_le_length (by omega)] at hl1
    rw [List.drop_of_length_le (by omega), List.drop_of_length_le (by omega)] at hl1
    exact hl1.symm
  · have := serves_of_rel hC hG R
    rw [← h2] at this
    exact this

/-- C88: and that is what clients see after the last restart: the file serves exactly the directory that the history before and then the
changes of the log make, whatever is searched. Partial: for names whose attribute types need no escapes (see `C04_escaped_type_fails`), and
fewer than 2^64 calls. -/
theorem C88_directory_partial (hC : V.C.Lawful) (hG : G.Lawful) (hb : BaseOk V.C base) (ops₀ : List Op) (hops : HistOk V.C ops₀)
    (lives : List (Life ι)) (h : Lives V G (render base) (after V.C G (validatePw V.C V.K) base ops₀) lives)
    (hok : ∀ op, Asked V lives op → op.Ok V.C) (hlen : ops₀.length + (lives.map fun l => l.proc.trace.length).sum < 2 ^ 64) :
    ∃ log, ExactlyOnce V G (render base) (after V.C G (validatePw V.C V.K) base ops₀) lives log ∧
      Serves V.C G (fileAfter (after V.C G (validatePw V.C V.K) base ops₀) lives)
        (dirAfter V.C (validatePw V.C V.K) base (ops₀ ++ log.map (·.op))) := by
  obtain ⟨log, E, -, S⟩ := lives_dir hC hG hb ops₀ hops lives h hok hlen
  exact ⟨log, E, S⟩

/-- What happened after an acknowledged write. -/
theorem acknowledged_log {db : Db} {base : Str} {lives : List (Life ι)} {log : List (Made ι)} (E : ExactlyOnce V G base db lives log)
    (h : Lives V G base db lives) {k : Nat} {id : ι} {w : Write} (ha : Acknowledged lives k id w) :
    ∃ log₁ x log₂ w', log = log₁ ++ x :: log₂ ∧ x.op = w'.op ∧ NamesParse V.C w' ∧ (∃ req, IsWrite req w ∧ IsWrite req w') ∧
      ∀ y ∈ log₂, AskedSince V lives k id y.op := by
  obtain ⟨l, c, p, o, mid, req, rs, hk, ha1, ha2, hs, hm, hw⟩ := ha
  have htag : req.tag = 6 ∨ req.tag = 8 ∨ req.tag = 10 ∨ req.tag = 12 := by
    cases w <;> simp only [IsWrite] at hw <;> omega
  obtain ⟨x, hx, hxl, hxi⟩ := (E.answered k l id c p o rs hk ha1 ha2 ⟨mid, req, hm, by omega⟩).1 hs
  obtain ⟨log₁, log₂, rfl⟩ := List.append_of_mem hx
  obtain ⟨l', t₁, c', p', o', t₂, b, k1, k2, -, -, k3⟩ := E.asked x hx
  rw [hxl, hk] at k1
  cases k1
  obtain ⟨db', hr⟩ := lives_reach lives _ h k l hk
  have := arrive_unique hr ha1 (e' := .packet c' p' o') (by rw [k2, hxi]; simp)
  cases this
  obtain ⟨mid', req', hm', hh⟩ := k3
  obtain ⟨-, rfl⟩ := message_unique hm hm'
  rcases hh with ⟨w', hw', hn, ho⟩ | ⟨ht, -⟩
  · refine ⟨log₁, x, log₂, w', rfl, ho, hn, ⟨req, hw, hw'⟩, fun y hy => ?_⟩
    have h1 := (List.pairwise_append.1 E.inOrder).2.1
    rw [List.pairwise_cons] at h1
    obtain ⟨h2, h3⟩ := h1.1 y hy
    obtain ⟨ly, u₁, cy, py, oy, u₂, by', q1, q2, q3, -, q4⟩ := E.asked y (by simp [hy])
    refine ⟨y.life, ly, y.id, by omega, q1, ⟨u₁, cy, py, oy, u₂, by', q2, q3, q4⟩, fun e => ⟨fun e' => ?_, ?_⟩⟩
    · have h4 := (List.pairwise_append.1 E.once).2.1
      rw [List.pairwise_cons] at h4
      exact h4.1 y hy ⟨by omega, by rw [hxi, e']⟩
    rw [hxi] at h3
    exact h3 ly (by omega) (by rw [hxl, ← e]; exact q1)
  · omega

/-- C88, for adding: once the client was told that the entry was added, it is found, after any number of crashes and restarts, unless somebody
asked to delete or rename it, before the answer or later. -/
theorem C88_added_is_found_partial (hC : V.C.Lawful) (hG : G.Lawful) (hb : BaseOk V.C base) (ops₀ : List Op) (hops : HistOk V.C ops₀)
    (lives : List (Life ι)) (h : Lives V G (render base) (after V.C G (validatePw V.C V.K) base ops₀) lives)
    (hok : ∀ op, Asked V lives op → op.Ok V.C) (hlen : ops₀.length + (lives.map fun l => l.proc.trace.length).sum < 2 ^ 64)
    {k : Nat} {id : ι} {dn : Str} {as : List Attr} (ha : Acknowledged lives k id (.add dn as)) {name : DN} (hp : parseDN V.C dn = some name)
    (hkeep : ∀ op, AskedSince V lives k id op → ¬ TakesAway V.C name op) :
    ∃ e, boltSearch V.C G (fileAfter (after V.C G (validatePw V.C V.K) base ops₀) lives) dn scopeBase = .ok ([e], none) := by
  obtain ⟨log, E, hs, S⟩ := lives_dir hC hG hb ops₀ hops lives h hok hlen
  obtain ⟨log₁, x, log₂, w', rfl, hx, hn, ⟨req, hw, hw'⟩, hl⟩ := acknowledged_log E h ha
  have hop : ∃ as', w' = .add dn as' := by
    cases w' <;> simp only [IsWrite] at hw hw'
    all_goals first | (exfalso; omega) | skip
    obtain ⟨-, d, l, k1, k2, -⟩ := hw
    obtain ⟨-, d', l', k1', k2', -⟩ := hw'
    rw [k1] at k1'
    cases k1'
    rw [k2] at k2'
    cases k2'
    exact ⟨_, rfl⟩
  obtain ⟨as', rfl⟩ := hop
  have hxok : (x.op).Ok V.C := by
    obtain ⟨l, t₁, c, p, o, t₂, b, k1, k2, k2', -, k3⟩ := E.asked x (by simp)
    exact hok _ ⟨l, List.mem_of_getElem? k1, x.id, t₁, c, p, o, t₂, b, k2, k2', k3⟩
  have hname : NameOk name := by
    rw [hx] at hxok
    exact hxok name (entryPutDN_of_parse hp)
  have hhas : (dirAfter V.C (validatePw V.C V.K) base (ops₀ ++ (log₁ ++ x :: log₂).map (·.op))).has (foldDN V.C name) = true := by
    rw [List.map_append, List.map_cons, ← List.append_assoc, dirAfter, specRun_append]
    dsimp only
    generalize hd : (specRun V.C (validatePw V.C V.K) base [] (ops₀ ++ log₁.map (·.op))).2 = d
    have hd' : (specRun V.C (validatePw V.C V.K) base (dirAfter V.C (validatePw V.C V.K) base ops₀) (log₁.map (·.op))).2 = d := by
      rw [← hd, specRun_append]
    refine run_keeps (log₂.map (·.op)) (specStep V.C (validatePw V.C V.K) base d x.op).2 ?_ ?_
    · rw [hx]
      refine add_has hp ?_
      rw [List.map_append, List.map_cons, specRun_append, hd'] at hs
      have := congrArg (fun l => l[log₁.length]?) hs
      dsimp only at this
      rw [List.getElem?_append_right (by rw [specRun_length]; simp)] at this
      simpa [specRun_length, specRun, hx, Write.op] using this
    · intro op hop
      obtain ⟨y, hy, rfl⟩ := List.mem_map.1 hop
      exact hkeep _ (hl y hy)
  obtain ⟨found, h1, h2, h3⟩ := (S dn name hp hname scopeBase).1 hhas
  obtain ⟨m, hm, e⟩ := List.any_eq_true.1 hhas
  have hall : ∀ f ∈ found, f.name = foldDN V.C name := by
    intro f hf
    rcases ((h3 f).1 hf).2 with ⟨-, h⟩ | ⟨h, -⟩ | ⟨h, -⟩
    · exact h
    · simp [scopeBase] at h
    · simp [scopeBase] at h
  have hmem : m ∈ found := (h3 m).2 ⟨hm, .inl ⟨rfl, by simpa using e⟩⟩
  match found, h1, h2, hall, hmem with
  | [f], h1, _, _, _ => exact ⟨f.entry, h1⟩
  | f :: g :: _, _, h2, hall, _ =>
    have e1 := hall f (by simp)
    have e2 := hall g (by simp)
    simp [e1, e2] at h2

/-- C88, for deleting: once the client was told that the entry was deleted, it is gone, after any number of crashes and restarts, unless
somebody asked to give an entry that name, before the answer or later. -/
theorem C88_deleted_is_gone_partial (hC : V.C.Lawful) (hG : G.Lawful) (hb : BaseOk V.C base) (ops₀ : List Op) (hops : HistOk V.C ops₀)
    (lives : List (Life ι)) (h : Lives V G (render base) (after V.C G (validatePw V.C V.K) base ops₀) lives)
    (hok : ∀ op, Asked V lives op → op.Ok V.C) (hlen : ops₀.length + (lives.map fun l => l.proc.trace.length).sum < 2 ^ 64)
    {k : Nat} {id : ι} {dn : Str} (ha : Acknowledged lives k id (.delete dn)) {name : DN} (hp : parseDN V.C dn = some name)
    (hkeep : ∀ op, AskedSince V lives k id op → ¬ GivesName V.C name op) (scope : Nat) :
    boltSearch V.C G (fileAfter (after V.C G (validatePw V.C V.K) base ops₀) lives) dn scope = .ok ([], some .other) := by
  obtain ⟨log, E, hs, S⟩ := lives_dir hC hG hb ops₀ hops lives h hok hlen
  obtain ⟨log₁, x, log₂, w', rfl, hx, hn, ⟨req, hw, hw'⟩, hl⟩ := acknowledged_log E h ha
  have hop : w' = .delete dn := by
    cases w' <;> simp only [IsWrite] at hw hw'
    all_goals first | (exfalso; omega) | skip
    rw [← hw.2.2, ← hw'.2.2]
  subst hop
  have hxok : (x.op).Ok V.C := by
    obtain ⟨l, t₁, c, p, o, t₂, b, k1, k2, k2', -, k3⟩ := E.asked x (by simp)
    exact hok _ ⟨l, List.mem_of_getElem? k1, x.id, t₁, c, p, o, t₂, b, k2, k2', k3⟩
  have hname : NameOk name := by
    rw [hx] at hxok
    exact hxok name hp
  refine (S dn name hp hname scope).2 ?_
  rw [List.map_append, List.map_cons, ← List.append_assoc, dirAfter, specRun_append]
  dsimp only
  generalize hd : (specRun V.C (validatePw V.C V.K) base [] (ops₀ ++ log₁.map (·.op))).2 = d
  have hd' : (specRun V.C (validatePw V.C V.K) base (dirAfter V.C (validatePw V.C V.K) base ops₀) (log₁.map (·.op))).2 = d := by
    rw [← hd, specRun_append]
  refine run_keeps_out (log₂.map (·.op)) (specStep V.C (validatePw V.C V.K) base d x.op).2 ?_ ?_
  · rw [hx]
    refine delete_has hp ?_
    rw [List.map_append, List.map_cons, specRun_append, hd'] at hs
    have := congrArg (fun l => l[log₁.length]?) hs
    dsimp only at this
    rw [List.getElem?_append_right (by rw [specRun_length]; simp)] at this
    simpa [specRun_length, specRun, hx, Write.op] using this
  · intro op hop
    obtain ⟨y, hy, rfl⟩ := List.mem_map.1 hop
    refine ⟨hkeep _ (hl y hy), fun e he => ?_⟩
    obtain ⟨l, t₁, c, p, o, t₂, b, k1, k2, -, -, k3⟩ := E.asked y (by simp [hy])
    obtain ⟨mid, req', -, hh⟩ := k3
    rcases hh with ⟨w, -, hnp, ho⟩ | ⟨-, _, _, _, _, _, _, _, -, -, -, -, ho⟩
    · rw [he] at ho
      cases w <;> simp only [Write.op] at ho <;> cases ho
      exact hnp _ (by simp [Write.names, entryFromAddRequest])
    · rw [he] at ho
      cases ho

end

/-! ## Example -/

theorem asks_bind {b : Str} {op : Op} (h : AsksFor toyEnv b parBind.p op) : False := by
  obtain ⟨mid, req, ⟨m, more, h1, -, -⟩, hh⟩ := h
  cases h1
  rcases hh with ⟨w, hw, -, -⟩ | ⟨ht, -⟩
  · cases w <;> exact absurd hw.1 (by decide)
  · exact absurd ht (by decide)

theorem asks_search {b : Str} {op : Op} (h : AsksFor toyEnv b parSearch.p op) : False := by
  obtain ⟨mid, req, ⟨m, more, h1, -, -⟩, hh⟩ := h
  cases h1
  rcases hh with ⟨w, hw, -, -⟩ | ⟨ht, -⟩
  · cases w <;> exact absurd hw.1 (by decide)
  · exact absurd ht (by decide)

theorem asks_delete {b : Str} {op : Op} (h : AsksFor toyEnv b parDelete.p op) : op = .delete b!"uid=ann,dc=lg" := by
  obtain ⟨mid, req, ⟨m, more, h1, -, -⟩, hh⟩ := h
  cases h1
  rcases hh with ⟨w, hw, -, rfl⟩ | ⟨ht, -⟩
  · cases w <;> first | exact absurd hw.1 (by decide) | skip
    rw [← hw.2.2]
    rfl
  · exact absurd ht (by decide)

theorem toyCfg_base : toyCfg.store = render toyBase := by decide +kernel

/-- Non-vacuity: in the first life an entry is deleted while a search runs, then the process is killed and started again, and killed again. All
hypotheses hold, and the deleted entry is gone. -/
example : ∃ (s : Par Nat), let lives : List (Life Nat) := [⟨toyCfg, 8, false, s⟩, ⟨toyCfg, 8, true, Par.start s.disk⟩]
    Lives toyEnv gobInstance (render toyBase) (after asciiCase gobInstance (validatePw asciiCase toyCrypto) toyBase toyOps) lives ∧
    (∃ log, ExactlyOnce toyEnv gobInstance (render toyBase) (after asciiCase gobInstance (validatePw asciiCase toyCrypto) toyBase toyOps) lives
      log) ∧
    (∀ op, Asked toyEnv lives op → op.Ok asciiCase) ∧ toyOps.length + (lives.map fun l => l.proc.trace.length).sum < 2 ^ 64 ∧
    Acknowledged lives 0 1 (.delete b!"uid=ann,dc=lg") ∧
    (∀ op, AskedSince toyEnv lives 0 1 op → ¬ GivesName asciiCase [[⟨b!"uid", b!"ann"⟩], [⟨b!"dc", b!"lg"⟩]] op) ∧
    boltSearch asciiCase gobInstance (fileAfter toyDb lives) b!"uid=ann,dc=lg" scopeBase = .ok ([], some .other) := by
  obtain ⟨s, hr, -, -, ht⟩ := par_example
  have hlives : Lives toyEnv gobInstance (render toyBase) (after asciiCase gobInstance (validatePw asciiCase toyCrypto) toyBase toyOps)
      [⟨toyCfg, 8, false, s⟩, ⟨toyCfg, 8, true, Par.start s.disk⟩] :=
    ⟨toyCfg_base, hr, toyCfg_base, .start, trivial⟩
  have hpk : ∀ (id : Nat) c p o, Seen.arrive id (.packet c p o) ∈ s.trace → p = parBind.p ∨ p = parDelete.p ∨ p = parSearch.p := by
    intro id c p o h
    rw [ht] at h
    simp only [List.mem_cons, List.mem_nil_iff, or_false] at h
    rcases h with h | h | h | h | h | h <;> cases h <;> simp
  have hask : ∀ op, Asked toyEnv [⟨toyCfg, 8, false, s⟩, ⟨toyCfg, 8, true, Par.start s.disk⟩] op → op = .delete b!"uid=ann,dc=lg" := by
    rintro op ⟨l, hl, id, t₁, c, p, o, t₂, b, he, -, hop⟩
    have ha : Seen.arrive id (.packet c p o) ∈ l.proc.trace := by rw [he]; simp
    simp only [List.mem_cons, List.mem_nil_iff, or_false] at hl
    rcases hl with rfl | rfl
    · rcases hpk id c p o ha with rfl | rfl | rfl
      · exact (asks_bind hop).elim
      · exact asks_delete hop
      · exact (asks_search hop).elim
    · cases ha
  have hok : ∀ op, Asked toyEnv [⟨toyCfg, 8, false, s⟩, ⟨toyCfg, 8, true, Par.start s.disk⟩] op → op.Ok asciiCase := by
    intro op h
    rw [hask op h]
    exact (by decide +kernel : (Op.delete b!"uid=ann,dc=lg").Ok asciiCase)
  have hlen : toyOps.length + ([⟨toyCfg, 8, false, s⟩, ⟨toyCfg, 8, true, Par.start s.disk⟩].map fun l : Life Nat => l.proc.trace.length).sum <
      2 ^ 64 := by
    simp [ht, Par.start, toyOps]
  have hack : Acknowledged [⟨toyCfg, 8, false, s⟩, ⟨toyCfg, 8, true, Par.start s.disk⟩] 0 1 (.delete b!"uid=ann,dc=lg") := by
    refine ⟨_, 0, parDelete.p, parDelete.o, 2, wDelete b!"uid=ann,dc=lg", [.result 2 11 0], rfl, ?_, ?_, ⟨_, rfl, rfl⟩,
      ⟨_, _, rfl, rfl, rfl⟩, rfl, rfl, rfl⟩ <;> simp [ht]
  have hkeep : ∀ op, AskedSince toyEnv [⟨toyCfg, 8, false, s⟩, ⟨toyCfg, 8, true, Par.start s.disk⟩] 0 1 op →
      ¬ GivesName asciiCase [[⟨b!"uid", b!"ann"⟩], [⟨b!"dc", b!"lg"⟩]] op := by
    rintro op ⟨k', l, id', -, hl, hop, -⟩
    rw [hask op ⟨l, List.mem_of_getElem? hl, id', hop⟩]
    exact id
  exact ⟨s, hlives, C88_exactly_once _ _ hlives, hok, hlen, hack, hkeep,
    C88_deleted_is_gone_partial (V := toyEnv) asciiCase_lawful gobInstance_lawful (by decide +kernel) toyOps ⟨by decide +kernel, by decide +kernel⟩ _ hlives hok hlen hack
      (by decide +kernel) hkeep scopeBase⟩

/-- The administrator adds an entry. -/
def parAdd : Job Nat := ⟨1, toyOracle, wMsg 2 (wAdd ⟨b!"uid=Bob,dc=lg", [⟨b!"uid", [b!"Bob"]⟩]⟩), b!"uid=admin,dc=lg"⟩

theorem asks_add {b : Str} {op : Op} (h : AsksFor toyEnv b parAdd.p op) : ∃ as, op = .add (entryFromAddRequest b!"uid=Bob,dc=lg" as) := by
  obtain ⟨mid, req, ⟨m, more, h1, -, -⟩, hh⟩ := h
  cases h1
  rcases hh with ⟨w, hw, -, rfl⟩ | ⟨ht, -⟩
  · cases w <;> first | exact absurd hw.1 (by decide) | skip
    obtain ⟨-, d, l, k1, k2, -⟩ := hw
    cases k1
    cases k2
    exact ⟨_, rfl⟩
  · exact absurd ht (by decide)

theorem par_add_example : ∃ s : Par Nat, ParReach toyEnv gobInstance toyCfg 8 false toyDb s ∧
    s.trace = [.arrive 0 (.packet 0 parBind.p parBind.o), .answer 0 [.result 1 1 0],
      .arrive 1 (.packet 0 parAdd.p parAdd.o), .answer 1 [.result 2 9 0]] := by
  obtain ⟨pb, hpb⟩ := par_read (j := parBind) (by decide +kernel)
  obtain ⟨pd, hpd⟩ := par_write (j := parAdd) (by decide +kernel)
  have h0 : ParReach (ι := Nat) toyEnv gobInstance toyCfg 8 false toyDb (Par.start toyDb) := .start
  have h1 := ParReach.step _ _ h0 (.arrive _ 0 [] 0 parBind.o parBind.p rfl rfl (by simp [Par.start]))
  have h2 := ParReach.step _ _ h1 (.beginRead _ 0 parBind pb rfl rfl hpb)
  have h3 := read_through (c := 0) (d := toyDb) h2 rfl hpb rfl (b' := b!"uid=admin,dc=lg") (by decide +kernel) (by decide +kernel)
  have h4 := ParReach.step _ _ h3 (.arrive _ 0 b!"uid=admin,dc=lg" 1 parAdd.o parAdd.p rfl rfl (by simp [Par.start]))
  have h7 := ParReach.step _ _ h4 (.beginWrite _ 0 parAdd pd rfl (by simp [setStage]; rfl) hpd rfl)
  have h8 := write_through (c := 0) h7 rfl hpd rfl (b' := b!"uid=admin,dc=lg")
    (by
      show (packetEnd toyEnv toyCfg 8 false parAdd.o parAdd.p parAdd.b ((parWork parAdd).exec toyDb).1).2 = _
      decide +kernel)
  refine ⟨_, h8, ?_⟩
  have e1 : (packetEnd toyEnv toyCfg 8 false parBind.o parBind.p parBind.b ((parWork parBind).exec toyDb).1).1 = [.result 1 1 0] := by decide +kernel
  have e2 : (packetEnd toyEnv toyCfg 8 false parAdd.o parAdd.p parAdd.b ((parWork parAdd).exec toyDb).1).1 = [.result 2 9 0] := by
    decide +kernel
  unfold parWork at e1 e2
  simp only [Par.start, e1, e2]
  rfl

/-- Non-vacuity of `C88_added_is_found_partial`: the process is killed after the add, and the entry is found by the next one. -/
example : ∃ (s : Par Nat), let lives : List (Life Nat) := [⟨toyCfg, 8, false, s⟩, ⟨toyCfg, 8, true, Par.start s.disk⟩]
    Lives toyEnv gobInstance (render toyBase) (after asciiCase gobInstance (validatePw asciiCase toyCrypto) toyBase toyOps) lives ∧
    Acknowledged lives 0 1 (.add b!"uid=Bob,dc=lg" [⟨b!"uid", [b!"Bob"]⟩]) ∧
    ∃ e, boltSearch asciiCase gobInstance (fileAfter toyDb lives) b!"uid=Bob,dc=lg" scopeBase = .ok ([e], none) := by
  obtain ⟨s, hr, ht⟩ := par_add_example
  have hlives : Lives toyEnv gobInstance (render toyBase) (after asciiCase gobInstance (validatePw asciiCase toyCrypto) toyBase toyOps)
      [⟨toyCfg, 8, false, s⟩, ⟨toyCfg, 8, true, Par.start s.disk⟩] :=
    ⟨toyCfg_base, hr, toyCfg_base, .start, trivial⟩
  have hask : ∀ op, Asked toyEnv [⟨toyCfg, 8, false, s⟩, ⟨toyCfg, 8, true, Par.start s.disk⟩] op →
      ∃ as, op = .add (entryFromAddRequest b!"uid=Bob,dc=lg" as) := by
    rintro op ⟨l, hl, id, t₁, c, p, o, t₂, b, he, -, hop⟩
    have ha : Seen.arrive id (.packet c p o) ∈ l.proc.trace := by rw [he]; simp
    simp only [List.mem_cons, List.mem_nil_iff, or_false] at hl
    rcases hl with rfl | rfl
    · dsimp only at ha
      rw [ht] at ha
      simp only [List.mem_cons, List.mem_nil_iff, or_false] at ha
      rcases ha with h | h | h | h <;> cases h
      · exact (asks_bind hop).elim
      · exact asks_add hop
    · cases ha
  have hack : Acknowledged [⟨toyCfg, 8, false, s⟩, ⟨toyCfg, 8, true, Par.start s.disk⟩] 0 1
      (.add b!"uid=Bob,dc=lg" [⟨b!"uid", [b!"Bob"]⟩]) := by
    refine ⟨_, 0, parAdd.p, parAdd.o, 2, wAdd ⟨b!"uid=Bob,dc=lg", [⟨b!"uid", [b!"Bob"]⟩]⟩, [.result 2 9 0], rfl, ?_, ?_, ⟨_, rfl, rfl⟩,
      ⟨_, _, rfl, rfl, rfl⟩, rfl, _, _, rfl, rfl, ?_⟩
    · simp [ht]
    · simp [ht]
    · exact ⟨rfl, rfl, rfl, ⟨_, _, rfl, ⟨rfl, rfl, rfl, rfl⟩, rfl, rfl, rfl, rfl, trivial⟩, trivial⟩
  refine ⟨s, hlives, hack, C88_added_is_found_partial (V := toyEnv) asciiCase_lawful gobInstance_lawful (by decide +kernel) toyOps
    ⟨by decide +kernel, by decide +kernel⟩ _ hlives (fun op h => ?_) (by simp [ht, Par.start, toyOps]) hack
    (name := [[⟨b!"uid", b!"Bob"⟩], [⟨b!"dc", b!"lg"⟩]]) (by decide +kernel) ?_⟩
  · obtain ⟨as, rfl⟩ := hask op h
    show ∀ n, entryPutDN asciiCase b!"uid=Bob,dc=lg" = some n → NameOk n
    decide +kernel
  · rintro op ⟨k', l, id', -, hl, hop, -⟩
    obtain ⟨as, rfl⟩ := hask op ⟨l, List.mem_of_getElem? hl, id', hop⟩
    exact id

end Idm
