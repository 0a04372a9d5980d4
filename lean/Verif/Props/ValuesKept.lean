import Verif.Props.Survives
import Verif.Props.DurableRename
/-!
# C132: values that were there before the server was started, and renames
-/
namespace Idm

section
variable {ι : Type} {V : Env} {G : GobEnv} {base : DN}

theorem stays_append {C : CaseEnv} {t v : Str} : ∀ {h h' : List (Op × Res Unit)} {k k' k'' : DN}, Stays C t v h k k' → Stays C t v h' k' k'' →
    Stays C t v (h ++ h') k k'' := by
  intro h h' k k' k'' s s'
  induction s with
  | done => exact s'
  | refused h1 _ ih => exact .refused h1 (ih s')
  | other h1 _ ih => exact .other h1 (ih s')
  | renamed h1 h2 h3 h4 _ ih => exact .renamed h1 h2 h3 h4 (ih s')

/-- C132, for the values that were in the database before the server was first started: they are found, byte by byte, after any number of crashes and
restarts and whatever is done to the entry, unless somebody asked for this value to go, or for the entry to be deleted or renamed. Missing: entries with
one attribute type in two spellings (`C129_spelling_fails`). -/
theorem C132_kept_partial (hC : V.C.Lawful) (hG : G.Lawful) (hb : BaseOk V.C base) (ops₀ : List Op) (hops : HistOk V.C ops₀)
    (hp₀ : ∀ op ∈ ops₀, op.plain ∧ op.distinct V.C) (lives : List (Life ι))
    (h : Lives V G (render base) (after V.C G (validatePw V.C V.K) base ops₀) lives)
    (hok : ∀ op, Asked V lives op → op.Ok V.C ∧ op.plain ∧ op.distinct V.C)
    (hlen : ops₀.length + (lives.map fun l => l.proc.trace.length).sum < 2 ^ 64)
    (dn : Str) (name : DN) (hp : parseDN V.C dn = some name) (hname : NameOk name) (e : Entry)
    (he : boltSearch V.C G (after V.C G (validatePw V.C V.K) base ops₀) dn scopeBase = .ok ([e], none)) (t v : Str) (hv : v ∈ valuesOf V.C e.attrs t)
    (hkeep : ∀ op, Asked V lives op → ¬ op.takes V.C t v (foldDN V.C name)) :
    ∃ e', boltSearch V.C G (fileAfter (after V.C G (validatePw V.C V.K) base ops₀) lives) dn scopeBase = .ok ([e'], none) ∧
      v ∈ valuesOf V.C e'.attrs t := by
  obtain ⟨log, E, hok', hfile, -, -⟩ := lives_hist hC hG hb ops₀ hops lives h (fun op h => (hok op h).1) hlen
  have hpl := log_plain E hp₀ hok
  have hS : Stays V.C t v ((log.map (·.op)).zip (boltRun V.C G (validatePw V.C V.K) (render base) (after V.C G (validatePw V.C V.K) base ops₀) (log.map (·.op))).1)
      (foldDN V.C name) (foldDN V.C name) := by
    refine stays_others _ _ ?_
    intro u hu
    obtain ⟨x, hx, rfl⟩ := List.mem_map.1 hu
    obtain ⟨l, t₁, c, p, o, t₂, b, k1, k2, k3, -, k4⟩ := E.asked x hx
    exact hkeep _ ⟨l, List.mem_of_getElem? k1, x.id, t₁, c, p, o, t₂, b, k2, k3, k4⟩
  have h1 : ∀ op ∈ ops₀ ++ log.map (·.op), op.plain := fun o ho => (hpl o ho).1
  have h2 : ∀ op ∈ ops₀ ++ log.map (·.op), op.distinct V.C := fun o ho => (hpl o ho).2
  have := C129_stays_partial (validate := validatePw V.C V.K) hC hG hb ops₀ (log.map (·.op)) hok' h1 h2 dn name hp hname e he t v hv
    dn name hp hname hS
  rw [← hfile] at this
  exact this

/-- C132, for renames: a value that was in the database before is found under the new name of its entry once a client was told that the entry was
renamed, if the rename does not ask for the value to go with the old RDN, and nobody else asked for it to go, for the entry to be deleted or for it to be
renamed. Missing as above. -/
theorem C132_renamed_partial (hC : V.C.Lawful) (hG : G.Lawful) (hb : BaseOk V.C base) (ops₀ : List Op) (hops : HistOk V.C ops₀)
    (hp₀ : ∀ op ∈ ops₀, op.plain ∧ op.distinct V.C) (lives : List (Life ι))
    (h : Lives V G (render base) (after V.C G (validatePw V.C V.K) base ops₀) lives)
    (hok : ∀ op, Asked V lives op → op.Ok V.C ∧ op.plain ∧ op.distinct V.C)
    (hlen : ops₀.length + (lives.map fun l => l.proc.trace.length).sum < 2 ^ 64)
    {k : Nat} {id : ι} {dn rdn : Str} {del : Bool} (ha : Acknowledged lives k id (.rename dn rdn del)) {o n : RDN} {p q : DN}
    (ho : parseDN V.C dn = some (o :: p)) (hn : parseDN V.C rdn = some (n :: q)) (e : Entry)
    (he : boltSearch V.C G (after V.C G (validatePw V.C V.K) base ops₀) dn scopeBase = .ok ([e], none)) (t v : Str) (hv : v ∈ valuesOf V.C e.attrs t)
    (hdel : ¬ (del = true ∧ ∃ a ∈ o, V.C.fold a.typ = V.C.fold t ∧ V.C.fold a.val = V.C.fold v))
    (hkeep : ∀ k' l id' op, lives[k']? = some l → AskedBy V l id' op → ¬ (k' = k ∧ id' = id) →
      ¬ op.takes V.C t v (foldDN V.C (o :: p)) ∧ ¬ op.takes V.C t v (foldDN V.C (n :: p)))
    (text : Str) (name : DN) (hp : parseDN V.C text = some name) (hname : NameOk name) (hnew : foldDN V.C name = foldDN V.C (n :: p)) :
    ∃ e', boltSearch V.C G (fileAfter (after V.C G (validatePw V.C V.K) base ops₀) lives) text scopeBase = .ok ([e'], none) ∧
      v ∈ valuesOf V.C e'.attrs t := by
  obtain ⟨log, E, hok', hfile, -, -⟩ := lives_hist hC hG hb ops₀ hops lives h (fun op h => (hok op h).1) hlen
  have hpl := log_plain E hp₀ hok
  obtain ⟨l, c, pk, oc, mid, req, rs, hk, ha1, ha2, hs, hm, hw⟩ := ha
  obtain ⟨x, hx, hxl, hxi⟩ := (E.answered k l id c pk oc rs hk ha1 ha2 ⟨mid, req, hm, by have := hw.1; omega⟩).1 hs
  obtain ⟨log₁, log₂, hlog⟩ := List.append_of_mem hx
  have hxop : x.op = .rename ⟨dn, rdn, del⟩ := by
    obtain ⟨l', t₁, c', p', o', t₂, b, k1, k2, -, -, k3⟩ := E.asked x hx
    rw [hxl, hk] at k1
    cases k1
    obtain ⟨db', hr⟩ := lives_reach lives _ h k l hk
    have := arrive_unique hr ha1 (e' := .packet c' p' o') (by rw [k2, hxi]; simp)
    cases this
    obtain ⟨mid', req', hm', hh⟩ := k3
    obtain ⟨-, rfl⟩ := message_unique hm hm'
    rcases hh with ⟨w', hw', -, hop⟩ | ⟨ht, -⟩
    · rw [hop]
      cases w' <;> simp only [IsWrite] at hw hw'
      all_goals first | (exfalso; omega) | skip
      obtain ⟨-, a, b, c, k1, k2, k3, k4⟩ := hw
      obtain ⟨-, a', b', c', k1', k2', k3', k4'⟩ := hw'
      rw [k1] at k1'
      cases k1'
      rw [k2] at k2'
      rw [k3] at k3'
      rw [k4] at k4'
      cases k2'; cases k3'; cases k4'
      rfl
    · have := hw.1
      omega
  have hdn : NameOk (o :: p) := by
    have := hok'.ok x.op (by rw [hlog]; simp)
    rw [hxop] at this
    exact this.1 _ ho
  have hothers : ∀ y ∈ log₁ ++ log₂, ¬ (y.op).takes V.C t v (foldDN V.C (o :: p)) ∧ ¬ (y.op).takes V.C t v (foldDN V.C (n :: p)) := by
    intro y hy
    have hyl : y ∈ log := by rw [hlog]; simp at hy ⊢; grind
    obtain ⟨l, t₁, c, p, o, t₂, b, k1, k2, k3, -, k4⟩ := E.asked y hyl
    refine hkeep y.life l y.id _ k1 ⟨t₁, c, p, o, t₂, b, k2, k3, k4⟩ ?_
    rintro ⟨e1, e2⟩
    have honce := E.once
    rw [hlog, List.pairwise_append] at honce
    obtain ⟨-, h2, h3⟩ := honce
    rcases List.mem_append.1 hy with hy | hy
    · exact h3 y hy x (by simp) ⟨by omega, by rw [e2, hxi]⟩
    · exact (List.pairwise_cons.1 h2).1 y hy ⟨by omega, by rw [e2, hxi]⟩
  have hz : (log.map (·.op)).zip (log.map fun _ => (Res.ok () : Res Unit)) =
      (log₁.map (·.op)).zip (log₁.map fun _ => (Res.ok () : Res Unit)) ++
        (.rename ⟨dn, rdn, del⟩, .ok ()) :: (log₂.map (·.op)).zip (log₂.map fun _ => (Res.ok () : Res Unit)) := by
    rw [hlog, List.map_append, List.map_append, List.zip_append (by simp), List.map_cons, List.map_cons, List.zip_cons_cons, hxop]
  have hS : Stays V.C t v ((log.map (·.op)).zip (boltRun V.C G (validatePw V.C V.K) (render base) (after V.C G (validatePw V.C V.K) base ops₀) (log.map (·.op))).1)
      (foldDN V.C (o :: p)) (foldDN V.C name) := by
    rw [E.file, hnew]
    dsimp only
    rw [hz]
    refine stays_append (k' := foldDN V.C (o :: p)) (stays_others _ _ ?_) (.renamed ho hn hdel rfl (stays_others _ _ ?_))
    · intro u hu
      obtain ⟨y, hy, rfl⟩ := List.mem_map.1 hu
      exact (hothers y (by simp [hy])).1
    · intro u hu
      obtain ⟨y, hy, rfl⟩ := List.mem_map.1 hu
      exact (hothers y (by simp [hy])).2
  have h1 : ∀ op ∈ ops₀ ++ log.map (·.op), op.plain := fun o ho => (hpl o ho).1
  have h2 : ∀ op ∈ ops₀ ++ log.map (·.op), op.distinct V.C := fun o ho => (hpl o ho).2
  have := C129_stays_partial (validate := validatePw V.C V.K) hC hG hb ops₀ (log.map (·.op)) hok' h1 h2 dn _ ho hdn e he t v hv text name hp hname hS
  rw [← hfile] at this
  exact this

end

/-! ## Non-vacuity -/

/-- Ann's entry. -/
def kpAnn : Entry := ⟨b!"uid=Ann,dc=lg", [⟨b!"uid", [b!"Ann"]⟩, ⟨b!"mail", [b!"a@lg"]⟩, ⟨b!"userPassword", [b!"{ARGON2}$argon2id$pw"]⟩]⟩

/-- The hypotheses of both theorems hold: Ann is renamed and the process killed; the address of Ann is there under the new name, and the name of the
administrator under the old one. -/
example : ∃ s : Par Nat, let lives : List (Life Nat) := [⟨toyCfg, 8, false, s⟩, ⟨toyCfg, 8, true, Par.start s.disk⟩]
    (∃ e, boltSearch asciiCase gobInstance (fileAfter toyDb lives) b!"UID=eve,DC=LG" scopeBase = .ok ([e], none) ∧
      b!"a@lg" ∈ valuesOf asciiCase e.attrs b!"MAIL") ∧
    ∃ e, boltSearch asciiCase gobInstance (fileAfter toyDb lives) b!"uid=admin,dc=lg" scopeBase = .ok ([e], none) ∧
      b!"admin" ∈ valuesOf asciiCase e.attrs b!"uid" := by
  obtain ⟨s, hr, ht⟩ := dr_first
  have hlives : Lives toyEnv gobInstance (render toyBase) (after asciiCase gobInstance (validatePw asciiCase toyCrypto) toyBase toyOps)
      [⟨toyCfg, 8, false, s⟩, ⟨toyCfg, 8, true, Par.start s.disk⟩] := ⟨toyCfg_base, hr, toyCfg_base, .start, trivial⟩
  have hall := dr_asked ht
  have hok : ∀ op, Asked toyEnv [⟨toyCfg, 8, false, s⟩, ⟨toyCfg, 8, true, Par.start s.disk⟩] op →
      op.Ok asciiCase ∧ op.plain ∧ op.distinct asciiCase := by
    rintro op ⟨l, hl, id, h⟩
    rw [(hall l hl id op h).1]
    exact ⟨⟨show ∀ n, parseDN asciiCase b!"uid=ANN,dc=lg" = some n → NameOk n by decide +kernel,
      show ∀ n, parseDN asciiCase b!"uid=Eve" = some n → NameOk n by decide +kernel⟩, by decide +kernel, trivial⟩
  have hlen : toyOps.length + ([⟨toyCfg, 8, false, s⟩, ⟨toyCfg, 8, true, Par.start s.disk⟩].map fun l : Life Nat => l.proc.trace.length).sum <
      2 ^ 64 := by
    simp [ht, Par.start, toyOps]
  refine ⟨s, C132_renamed_partial (V := toyEnv) asciiCase_lawful gobInstance_lawful (by decide +kernel) toyOps ⟨by decide +kernel, by decide +kernel⟩
      (by decide +kernel) _ hlives hok hlen (dr_ack ht) (o := [⟨b!"uid", b!"ANN"⟩]) (n := [⟨b!"uid", b!"Eve"⟩]) (p := [[⟨b!"dc", b!"lg"⟩]]) (q := [])
      (by decide +kernel) (by decide +kernel) kpAnn (by decide +kernel) b!"MAIL" b!"a@lg" (by decide +kernel) (by decide +kernel) ?_
      b!"UID=eve,DC=LG" [[⟨b!"UID", b!"eve"⟩], [⟨b!"DC", b!"LG"⟩]] (by decide +kernel) (by decide +kernel) (by decide +kernel),
    C132_kept_partial (V := toyEnv) asciiCase_lawful gobInstance_lawful (by decide +kernel) toyOps ⟨by decide +kernel, by decide +kernel⟩
      (by decide +kernel) _ hlives hok hlen b!"uid=admin,dc=lg" [[⟨b!"uid", b!"admin"⟩], [⟨b!"dc", b!"lg"⟩]] (by decide +kernel) (by decide +kernel)
      ⟨b!"uid=admin,dc=lg", [⟨b!"uid", [b!"admin"]⟩, ⟨b!"userPassword", [b!"secret"]⟩]⟩ (by decide +kernel) b!"uid" b!"admin" (by decide +kernel) ?_⟩
  · intro k' l id' op hl hop hne
    obtain ⟨-, e1, e2⟩ := hall l (List.mem_of_getElem? hl) id' op hop
    exfalso
    match k', hl with
    | 0, hl => exact hne ⟨rfl, e1⟩
    | 1, hl =>
      simp only [List.getElem?_cons_succ, List.getElem?_cons_zero, Option.some.injEq] at hl
      rw [← hl] at e2
      exact absurd (congrArg Life.stats e2) (by simp)
    | k + 2, hl => simp at hl
  · rintro op ⟨l, hl, id, h⟩
    rw [(hall l hl id op h).1]
    rintro ⟨m, hm, hf⟩
    have : m = [[⟨b!"uid", b!"ANN"⟩], [⟨b!"dc", b!"lg"⟩]] := Option.some.inj (hm.symm.trans (by decide +kernel))
    subst this
    exact absurd hf (by decide +kernel)

end Idm
