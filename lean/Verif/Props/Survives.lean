import Verif.Props.Stays
import Verif.Props.DurablePw
import Verif.Props.Sent
import Verif.Props.WellFormed
/-!
# C132: acknowledged values survive crashes, restarts and other changes
-/
namespace Idm

section
variable {ι : Type} {V : Env} {G : GobEnv} {base : DN}

theorem stays_others {C : CaseEnv} {t v : Str} {k : DN} : ∀ (us : List Op) (rs : List (Res Unit)), (∀ u ∈ us, ¬ u.takes C t v k) → Stays C t v (us.zip rs) k k
  | [], _, _ => .done
  | _ :: _, [], _ => .done
  | u :: us, _ :: rs, h => .other (h u (by simp)) (stays_others us rs fun x hx => h x (List.mem_cons_of_mem _ hx))

theorem isChange_unique {p : Packet} {a b : Change} (h : IsChange p a) (h' : IsChange p b) : a = b := by
  obtain ⟨o, x, more, y, h1, h2, h3, -, h4⟩ := h
  obtain ⟨o', x', more', y', k1, k2, k3, -, k4⟩ := h'
  rw [h1] at k1
  cases k1
  rw [h2] at k2
  cases k2
  have hop : a.op = b.op := h3.symm.trans k3
  rcases h4 with h4 | ⟨h4, t, h5, h6⟩ <;> rcases k4 with k4 | ⟨k4, t', k5, k6⟩
  · have := isAttribute_unique h4 k4
    cases a; cases b
    cases this
    cases hop
    rfl
  · obtain ⟨_, _, h, -⟩ := h4
    rw [k5] at h
    cases h
  · obtain ⟨_, _, h, -⟩ := k4
    rw [h5] at h
    cases h
  · rw [h5] at k5
    cases k5
    have := h6.2.2.2.symm.trans k6.2.2.2
    cases a; cases b
    cases this
    cases hop
    cases h4; cases k4
    rfl

/-- A value that the entry has after the change of the log stays until the end. -/
theorem survive (hC : V.C.Lawful) {ops₀ : List Op} {log : List (Made ι)} {lives : List (Life ι)} (hok' : HistOk V.C (ops₀ ++ log.map (·.op)))
    (hpl : ∀ op ∈ ops₀ ++ log.map (·.op), op.plain ∧ op.distinct V.C) {log₁ log₂ : List (Made ι)} {x : Made ι} (hlog : log = log₁ ++ x :: log₂)
    {k : Nat} {id : ι} (hl : ∀ y ∈ log₂, AskedSince V lives k id y.op) {t v : Str} {key : DN}
    (hkeep : ∀ op, AskedSince V lives k id op → ¬ op.takes V.C t v key)
    (hh : Holds V.C t v (specStep V.C (validatePw V.C V.K) base (dirAfter V.C (validatePw V.C V.K) base (ops₀ ++ log₁.map (·.op))) x.op).2 key) :
    Holds V.C t v (dirAfter V.C (validatePw V.C V.K) base (ops₀ ++ log.map (·.op))) key := by
  have hsplit : ops₀ ++ log.map (·.op) = (ops₀ ++ log₁.map (·.op) ++ [x.op]) ++ log₂.map (·.op) := by rw [hlog]; simp
  have hmem1 : ∀ op ∈ ops₀ ++ log₁.map (·.op) ++ [x.op], op ∈ ops₀ ++ log.map (·.op) := fun op h => by rw [hsplit]; exact List.mem_append_left _ h
  have hmem2 : ∀ op ∈ log₂.map (·.op), op ∈ ops₀ ++ log.map (·.op) := fun op h => by rw [hsplit]; exact List.mem_append_right _ h
  have hd : (specStep V.C (validatePw V.C V.K) base (dirAfter V.C (validatePw V.C V.K) base (ops₀ ++ log₁.map (·.op))) x.op).2 =
      dirAfter V.C (validatePw V.C V.K) base (ops₀ ++ log₁.map (·.op) ++ [x.op]) := by
    generalize ops₀ ++ log₁.map (·.op) = pre
    rw [dirAfter, dirAfter, specRun_append]; rfl
  rw [hd] at hh
  have ht : ∀ n ∈ dirAfter V.C (validatePw V.C V.K) base (ops₀ ++ log₁.map (·.op) ++ [x.op]), Tidy V.C n.entry.attrs :=
    tidy_run _ [] (by simp) (fun o ho => hok'.ok o (hmem1 o ho)) (fun o ho => (hpl o (hmem1 o ho)).1) fun o ho => (hpl o (hmem1 o ho)).2
  have := run_stays (validate := validatePw V.C V.K) (base := base) hC (log₂.map (·.op)) _ key key ht (fun o ho => hok'.ok o (hmem2 o ho))
    (fun o ho => (hpl o (hmem2 o ho)).1) (fun o ho => (hpl o (hmem2 o ho)).2) hh (stays_others _ _ (by
      intro u hu
      obtain ⟨y, hy, rfl⟩ := List.mem_map.1 hu
      exact hkeep _ (hl y hy)))
  rw [hsplit, dirAfter, specRun_append]
  exact this

theorem log_plain {db : Db} {b : Str} {ops₀ : List Op} {log : List (Made ι)} {lives : List (Life ι)} (E : ExactlyOnce V G b db lives log)
    (hp₀ : ∀ op ∈ ops₀, op.plain ∧ op.distinct V.C) (hok : ∀ op, Asked V lives op → op.Ok V.C ∧ op.plain ∧ op.distinct V.C) :
    ∀ op ∈ ops₀ ++ log.map (·.op), op.plain ∧ op.distinct V.C := by
  intro op hop
  rcases List.mem_append.1 hop with hop | hop
  · exact hp₀ op hop
  · obtain ⟨x, hx, rfl⟩ := List.mem_map.1 hop
    obtain ⟨l, t₁, c, p, o, t₂, b, k1, k2, k3, -, k4⟩ := E.asked x hx
    exact (hok _ ⟨l, List.mem_of_getElem? k1, x.id, t₁, c, p, o, t₂, b, k2, k3, k4⟩).2

/-- C132, for adding: once a client was told that an entry was added, each value that was sent is found in it, byte by byte, after any number of crashes
and restarts and whatever else is done to the entry, unless somebody asked for this value to go, for the entry to be deleted or for it to be renamed,
before the answer or later. (Of a type that occurs twice the last occurrence counts.) Missing: entries with one attribute type in two spellings
(`C129_spelling_fails`). -/
theorem C132_added_partial (hC : V.C.Lawful) (hG : G.Lawful) (hb : BaseOk V.C base) (ops₀ : List Op) (hops : HistOk V.C ops₀)
    (hp₀ : ∀ op ∈ ops₀, op.plain ∧ op.distinct V.C) (lives : List (Life ι))
    (h : Lives V G (render base) (after V.C G (validatePw V.C V.K) base ops₀) lives)
    (hok : ∀ op, Asked V lives op → op.Ok V.C ∧ op.plain ∧ op.distinct V.C)
    (hlen : ops₀.length + (lives.map fun l => l.proc.trace.length).sum < 2 ^ 64)
    {k : Nat} {id : ι} {dn : Str} {as : List Attr} (ha : Acknowledged lives k id (.add dn as)) {name : DN} (hp : parseDN V.C dn = some name)
    (before rest : List Attr) (a : Attr) (has : as = before ++ a :: rest) (hlast : ∀ b ∈ rest, b.name ≠ a.name) (v : Str) (hv : v ∈ a.vals)
    (hkeep : ∀ op, AskedSince V lives k id op → ¬ op.takes V.C a.name v (foldDN V.C name)) :
    ∃ e, boltSearch V.C G (fileAfter (after V.C G (validatePw V.C V.K) base ops₀) lives) dn scopeBase = .ok ([e], none) ∧
      v ∈ valuesOf V.C e.attrs a.name := by
  obtain ⟨log, E, hok', -, S, hstep⟩ := lives_hist hC hG hb ops₀ hops lives h (fun op h => (hok op h).1) hlen
  obtain ⟨log₁, x, log₂, w', hlog, hx, hn, ⟨req, hw, hw'⟩, hl⟩ := acknowledged_log E h ha
  have hop : w' = .add dn as := by
    cases w' <;> simp only [IsWrite] at hw hw'
    all_goals first | (exfalso; omega) | skip
    obtain ⟨-, d, l, k1, k2, -, -, -, k3⟩ := hw
    obtain ⟨-, d', l', k1', k2', -, -, -, k3'⟩ := hw'
    rw [k1] at k1'
    cases k1'
    rw [k2] at k2'
    cases k2'
    rw [each_unique (R := IsAttribute) (fun _ _ _ h h2 => isAttribute_unique h h2) _ _ _ k3 k3']
  subst hop
  have hname : NameOk name := by
    have := hok'.ok x.op (by rw [hlog]; simp)
    rw [hx] at this
    exact this name (entryPutDN_of_parse hp)
  obtain ⟨s1, -⟩ := hstep log₁ x log₂ hlog
  have e : (Write.add dn as).op = .add (entryFromAddRequest dn as) := rfl
  have hh : Holds V.C a.name v (specStep V.C (validatePw V.C V.K) base (dirAfter V.C (validatePw V.C V.K) base (ops₀ ++ log₁.map (·.op))) x.op).2
      (foldDN V.C name) := by
    rw [hx, e] at s1 ⊢
    refine ⟨_, add_get (e := entryFromAddRequest dn as) hp s1, ?_⟩
    obtain ⟨-, c2, -, -⟩ := C50_last_occurrence dn as
    have := (c2 a).2 ⟨before, rest, has, hlast⟩
    unfold valuesOf
    exact List.mem_flatMap.2 ⟨a, List.mem_filter.2 ⟨this, by simp⟩, hv⟩
  obtain ⟨e', g1, g2⟩ := survive hC hok' (log_plain E hp₀ hok) hlog hl hkeep hh
  exact ⟨e', serves_get S hp hname g1, g2⟩

/-- The last change of the request to this type gives the value, up to case; only adds to the type follow. -/
theorem valuesAfter_given {C : CaseEnv} {t v : Str} {orig : List Str} : ∀ (c₂ : List Change) (cur : List Str), (∃ w ∈ cur, C.fold w = C.fold v) →
    (∀ d ∈ c₂, C.fold d.typ = C.fold t → d.op = 0) → ∃ w ∈ valuesAfter C t orig cur c₂, C.fold w = C.fold v
  | [], _, h, _ => h
  | d :: c₂, cur, ⟨w, hw, e⟩, hd => by
    show ∃ w ∈ valuesAfter C t orig (if C.fold d.typ = C.fold t then changeValues C orig cur d else cur) c₂, _
    refine valuesAfter_given c₂ _ ⟨w, ?_, e⟩ fun x hx => hd x (List.mem_cons_of_mem _ hx)
    split
    · rename_i ht
      unfold changeValues
      rw [if_pos (hd d (by simp) ht)]
      exact List.mem_append_left _ hw
    · exact hw

/-- C132, for modifying: once a client was told that a modification was made, the values that its last change of a type added or put in place (only
adding to the type may follow in the request) are found in the entry, up to case, after any number of crashes and restarts and whatever else is
done to the entry, unless somebody asked for the value to go, for the entry to be deleted or for it to be renamed, before the answer or later. Missing:
entries with one attribute type in two spellings (`C129_spelling_fails`). -/
theorem C132_modified_partial (hC : V.C.Lawful) (hG : G.Lawful) (hb : BaseOk V.C base) (ops₀ : List Op) (hops : HistOk V.C ops₀)
    (hp₀ : ∀ op ∈ ops₀, op.plain ∧ op.distinct V.C) (lives : List (Life ι))
    (h : Lives V G (render base) (after V.C G (validatePw V.C V.K) base ops₀) lives)
    (hok : ∀ op, Asked V lives op → op.Ok V.C ∧ op.plain ∧ op.distinct V.C)
    (hlen : ops₀.length + (lives.map fun l => l.proc.trace.length).sum < 2 ^ 64)
    {k : Nat} {id : ι} {dn : Str} {cs : List Change} (ha : Acknowledged lives k id (.modify dn cs)) {name : DN} (hp : parseDN V.C dn = some name)
    (c₁ c₂ : List Change) (c : Change) (hcs : cs = c₁ ++ c :: c₂) (hc : c.op = 0 ∨ c.op = 2) (hlast : ∀ d ∈ c₂, V.C.fold d.typ = V.C.fold c.typ → d.op = 0)
    (v : Str) (hv : v ∈ c.vals)
    (hkeep : ∀ op, AskedSince V lives k id op → ∀ w, V.C.fold w = V.C.fold v → ¬ op.takes V.C c.typ w (foldDN V.C name)) :
    ∃ e, boltSearch V.C G (fileAfter (after V.C G (validatePw V.C V.K) base ops₀) lives) dn scopeBase = .ok ([e], none) ∧
      HasValue V.C e.attrs c.typ v := by
  obtain ⟨log, E, hok', -, S, hstep⟩ := lives_hist hC hG hb ops₀ hops lives h (fun op h => (hok op h).1) hlen
  obtain ⟨log₁, x, log₂, w', hlog, hx, hn, ⟨req, hw, hw'⟩, hl⟩ := acknowledged_log E h ha
  have hop : w' = .modify dn cs := by
    cases w' <;> simp only [IsWrite] at hw hw'
    all_goals first | (exfalso; omega) | skip
    obtain ⟨-, d, l, k1, k2, -, -, -, k3⟩ := hw
    obtain ⟨-, d', l', k1', k2', -, -, -, k3'⟩ := hw'
    rw [k1] at k1'
    cases k1'
    rw [k2] at k2'
    cases k2'
    rw [each_unique (R := IsChange) (fun _ _ _ h h2 => isChange_unique h h2) _ _ _ k3 k3']
  subst hop
  have e : (Write.modify dn cs).op = .modify dn cs := rfl
  rw [e] at hx
  have hname : NameOk name := by
    have := hok'.ok x.op (by rw [hlog]; simp)
    rw [hx] at this
    exact this name hp
  obtain ⟨s1, -⟩ := hstep log₁ x log₂ hlog
  have hpl := log_plain E hp₀ hok
  have hd : ∀ n ∈ dirAfter V.C (validatePw V.C V.K) base (ops₀ ++ log₁.map (·.op)), Tidy V.C n.entry.attrs := by
    have hsub : ∀ op ∈ ops₀ ++ log₁.map (·.op), op ∈ ops₀ ++ log.map (·.op) := by
      intro op hop
      rw [hlog, List.map_append, ← List.append_assoc]
      exact List.mem_append_left _ hop
    exact tidy_run _ [] (by simp) (fun o ho => hok'.ok o (hsub o ho)) (fun o ho => (hpl o (hsub o ho)).1) fun o ho => (hpl o (hsub o ho)).2
  have hascii : ∀ c ∈ cs, IsAscii c.typ := by
    have := (hpl x.op (by rw [hlog]; simp)).1
    rw [hx] at this
    exact this
  have hh : ∃ w, V.C.fold w = V.C.fold v ∧
      Holds V.C c.typ w (specStep V.C (validatePw V.C V.K) base (dirAfter V.C (validatePw V.C V.K) base (ops₀ ++ log₁.map (·.op))) x.op).2
      (foldDN V.C name) := by
    rw [hx] at s1 ⊢
    generalize dirAfter V.C (validatePw V.C V.K) base (ops₀ ++ log₁.map (·.op)) = d at s1 hd ⊢
    revert s1
    simp only [specStep, hp, specModify, specModifyAt]
    cases hg : d.get (foldDN V.C name) with
    | none => intro h; cases h
    | some e₀ =>
      dsimp only
      split
      · rename_i e' he'
        intro _
        have hval := C15_values_partial hC e₀ e' dn cs (hd _ (get_node hg)).1 hascii (hd _ (get_node hg)).2 he' c.typ
        have : ∃ w ∈ valuesAfter V.C c.typ (valuesOf V.C e₀.attrs c.typ) (valuesOf V.C e₀.attrs c.typ) cs, V.C.fold w = V.C.fold v := by
          rw [hcs, valuesAfter, List.foldl_append, List.foldl_cons, if_pos rfl]
          refine valuesAfter_given c₂ _ ?_ hlast
          unfold changeValues
          rcases hc with hc | hc
          · rw [if_pos hc]
            generalize c₁.foldl _ _ = cur
            by_cases hex : ∃ w ∈ cur, V.C.fold w = V.C.fold v
            · obtain ⟨w, h1, h2⟩ := hex
              exact ⟨w, List.mem_append_left _ h1, h2⟩
            · refine ⟨v, List.mem_append_right _ (List.mem_filter.2 ⟨hv, ?_⟩), rfl⟩
              simp only [decide_eq_true_eq]
              exact fun w hw he => hex ⟨w, hw, he⟩
          · rw [if_neg (by omega), if_pos hc]
            exact ⟨v, hv, rfl⟩
        obtain ⟨w, h1, h2⟩ := this
        rw [← hval] at h1
        exact ⟨w, h2, e', by rw [get_setEntry, if_pos rfl, hg]; rfl, h1⟩
      all_goals (intro h; cases h)
  obtain ⟨w, hwv, hh⟩ := hh
  obtain ⟨e', g1, g2⟩ := survive hC hok' hpl hlog hl (fun op ho => hkeep op ho w hwv) hh
  exact ⟨e', serves_get S hp hname g1, w, g2, hwv⟩

end
/-! ## Non-vacuity -/

/-- C132 for adding applies: the administrator adds Bob, and the server is started again. -/
example : ∃ s s' : Par Nat, let lives : List (Life Nat) := [⟨toyCfg, 8, false, s⟩, ⟨toyCfg, 8, false, s'⟩]
    ∃ e, boltSearch asciiCase gobInstance (fileAfter toyDb lives) b!"uid=Bob,dc=lg" scopeBase = .ok ([e], none) ∧
      b!"Bob" ∈ valuesOf asciiCase e.attrs b!"uid" := by
  obtain ⟨s, hr, hd, ht⟩ := se_first
  obtain ⟨s', hr', ht'⟩ := se_second
  have hlives : Lives toyEnv gobInstance (render toyBase) (after asciiCase gobInstance (validatePw asciiCase toyCrypto) toyBase toyOps)
      [⟨toyCfg, 8, false, s⟩, ⟨toyCfg, 8, false, s'⟩] := ⟨toyCfg_base, hr, toyCfg_base, by dsimp only; rw [hd]; exact hr', trivial⟩
  have hask : ∀ op, Asked toyEnv [⟨toyCfg, 8, false, s⟩, ⟨toyCfg, 8, false, s'⟩] op →
      op = .add (entryFromAddRequest b!"uid=Bob,dc=lg" [⟨b!"uid", [b!"Bob"]⟩]) := by
    rintro op ⟨l, hl, id, t₁, c, p, o, t₂, b, he, -, hop⟩
    have ha : Seen.arrive id (.packet c p o) ∈ l.proc.trace := by rw [he]; simp
    simp only [List.mem_cons, List.mem_nil_iff, or_false] at hl
    rcases hl with rfl | rfl
    · dsimp only at ha
      rw [ht] at ha
      simp only [List.mem_cons, List.mem_nil_iff, or_false] at ha
      rcases ha with h | h | h | h <;> cases h
      · exact (asks_bind hop).elim
      · exact asks_add_exact hop
    · dsimp only at ha
      rw [ht'] at ha
      simp only [List.mem_cons, List.mem_nil_iff, or_false] at ha
      rcases ha with h | h <;> cases h
      obtain ⟨mid, req, ⟨m, more, h1, -, -⟩, hh⟩ := hop
      cases h1
      rcases hh with ⟨w, hw, -, -⟩ | ⟨ht, -⟩
      · cases w <;> exact absurd hw.1 (by decide)
      · exact absurd ht (by decide)
  refine ⟨s, s', C132_added_partial (V := toyEnv) asciiCase_lawful gobInstance_lawful (by decide +kernel) toyOps ⟨by decide +kernel, by decide +kernel⟩
    (by decide +kernel) _ hlives ?_ (by simp [ht, ht', toyOps]) (k := 0) (id := 1) (as := [⟨b!"uid", [b!"Bob"]⟩])
    ⟨_, 0, parAdd.p, parAdd.o, 2, wAdd ⟨b!"uid=Bob,dc=lg", [⟨b!"uid", [b!"Bob"]⟩]⟩, [.result 2 9 0], rfl, by simp [ht], by simp [ht], ⟨_, rfl, rfl⟩,
      ⟨_, _, rfl, rfl, rfl⟩, rfl, _, _, rfl, rfl, rfl, rfl, rfl, ⟨_, _, rfl, ⟨rfl, rfl, rfl, rfl⟩, rfl, rfl, rfl, rfl, trivial⟩, trivial⟩
    (name := [[⟨b!"uid", b!"Bob"⟩], [⟨b!"dc", b!"lg"⟩]]) (by decide +kernel) [] [] ⟨b!"uid", [b!"Bob"]⟩ rfl (by simp) b!"Bob" (by simp) ?_⟩
  · intro op h
    rw [hask op h]
    exact ⟨show ∀ n, entryPutDN asciiCase b!"uid=Bob,dc=lg" = some n → NameOk n by decide +kernel, by decide +kernel, by decide +kernel⟩
  · rintro op ⟨k', l, id', -, hl, hop, -⟩
    rw [hask op ⟨l, List.mem_of_getElem? hl, id', hop⟩]
    exact id

def suChanges : List Change := [⟨1, b!"mail", [b!"A@LG"]⟩, ⟨0, b!"phone", [b!"5", b!"6"]⟩]

/-- The administrator gives Ann phone numbers. -/
def suMod : Job Nat := ⟨1, toyOracle, wMsg 2 (wModify ⟨b!"uid=ANN,dc=lg", suChanges⟩), b!"uid=admin,dc=lg"⟩

theorem su_first : ∃ s : Par Nat, ParReach toyEnv gobInstance toyCfg 8 false toyDb s ∧
    s.trace = [.arrive 0 (.packet 0 parBind.p parBind.o), .answer 0 [.result 1 1 0],
      .arrive 1 (.packet 0 suMod.p suMod.o), .answer 1 [.result 2 7 0]] := by
  obtain ⟨pb, hpb⟩ := par_read (j := parBind) (by decide +kernel)
  obtain ⟨pd, hpd⟩ := par_write (j := suMod) (by decide +kernel)
  have h0 : ParReach (ι := Nat) toyEnv gobInstance toyCfg 8 false toyDb (Par.start toyDb) := .start
  have h1 := ParReach.step _ _ h0 (.arrive _ 0 [] 0 parBind.o parBind.p rfl rfl (by simp [Par.start]))
  have h2 := ParReach.step _ _ h1 (.beginRead _ 0 parBind pb rfl rfl hpb)
  have h3 := read_through (c := 0) (d := toyDb) h2 rfl hpb rfl (b' := b!"uid=admin,dc=lg") (by decide +kernel) (by decide +kernel)
  have h4 := ParReach.step _ _ h3 (.arrive _ 0 b!"uid=admin,dc=lg" 1 suMod.o suMod.p rfl rfl (by simp [Par.start]))
  have h7 := ParReach.step _ _ h4 (.beginWrite _ 0 suMod pd rfl (by simp [setStage]; rfl) hpd rfl)
  have h8 := write_through (c := 0) h7 rfl hpd rfl (b' := b!"uid=admin,dc=lg")
    (by
      show (packetEnd toyEnv toyCfg 8 false suMod.o suMod.p suMod.b ((parWork suMod).exec toyDb).1).2 = _
      decide +kernel)
  refine ⟨_, h8, ?_⟩
  have e1 : (packetEnd toyEnv toyCfg 8 false parBind.o parBind.p parBind.b ((parWork parBind).exec toyDb).1).1 = [.result 1 1 0] := by decide +kernel
  have e2 : (packetEnd toyEnv toyCfg 8 false suMod.o suMod.p suMod.b ((parWork suMod).exec toyDb).1).1 = [.result 2 7 0] := by
    decide +kernel
  unfold parWork at e1 e2
  simp only [Par.start, e1, e2]
  rfl

theorem su_each : Each IsChange (suChanges.map wChange) suChanges := ((mods_exact _).1 _).1 (by decide +kernel)

/-- C132 for modifying applies: Ann's phone numbers are found after the server was killed and started again. -/
example : ∃ s : Par Nat, let lives : List (Life Nat) := [⟨toyCfg, 8, false, s⟩, ⟨toyCfg, 8, true, Par.start s.disk⟩]
    ∃ e, boltSearch asciiCase gobInstance (fileAfter toyDb lives) b!"uid=ANN,dc=lg" scopeBase = .ok ([e], none) ∧
      HasValue asciiCase e.attrs b!"phone" b!"6" := by
  obtain ⟨s, hr, ht⟩ := su_first
  have hlives : Lives toyEnv gobInstance (render toyBase) (after asciiCase gobInstance (validatePw asciiCase toyCrypto) toyBase toyOps)
      [⟨toyCfg, 8, false, s⟩, ⟨toyCfg, 8, true, Par.start s.disk⟩] := ⟨toyCfg_base, hr, toyCfg_base, .start, trivial⟩
  have hask : ∀ op, Asked toyEnv [⟨toyCfg, 8, false, s⟩, ⟨toyCfg, 8, true, Par.start s.disk⟩] op → op = .modify b!"uid=ANN,dc=lg" suChanges := by
    rintro op ⟨l, hl, id, t₁, c, p, o, t₂, b, he, -, hop⟩
    have ha : Seen.arrive id (.packet c p o) ∈ l.proc.trace := by rw [he]; simp
    simp only [List.mem_cons, List.mem_nil_iff, or_false] at hl
    rcases hl with rfl | rfl
    · dsimp only at ha
      rw [ht] at ha
      simp only [List.mem_cons, List.mem_nil_iff, or_false] at ha
      rcases ha with h | h | h | h <;> cases h
      · exact (asks_bind hop).elim
      · obtain ⟨mid, req, ⟨m, more, h1, -, -⟩, hh⟩ := hop
        cases h1
        rcases hh with ⟨w, hw, -, rfl⟩ | ⟨ht, -⟩
        · cases w <;> first | exact absurd hw.1 (by decide) | skip
          obtain ⟨-, d, l, k1, k2, -, -, -, k3⟩ := hw
          cases k1
          cases k2
          rw [each_unique (R := IsChange) (fun _ _ _ h h2 => isChange_unique h h2) _ _ _ k3 su_each]
          rfl
        · exact absurd ht (by decide)
    · cases ha
  refine ⟨s, C132_modified_partial (V := toyEnv) asciiCase_lawful gobInstance_lawful (by decide +kernel) toyOps ⟨by decide +kernel, by decide +kernel⟩
    (by decide +kernel) _ hlives ?_ (by simp [ht, Par.start, toyOps]) (k := 0) (id := 1) (cs := suChanges)
    ⟨_, 0, suMod.p, suMod.o, 2, wModify ⟨b!"uid=ANN,dc=lg", suChanges⟩, [.result 2 7 0], rfl, by simp [ht], by simp [ht], ⟨_, rfl, rfl⟩,
      ⟨_, _, rfl, rfl, rfl⟩, rfl, _, _, rfl, rfl, rfl, rfl, rfl, su_each⟩
    (name := [[⟨b!"uid", b!"ANN"⟩], [⟨b!"dc", b!"lg"⟩]]) (by decide +kernel) [⟨1, b!"mail", [b!"A@LG"]⟩] [] ⟨0, b!"phone", [b!"5", b!"6"]⟩ rfl (.inl rfl)
    (by simp) b!"6" (by simp) ?_⟩
  · intro op h
    rw [hask op h]
    exact ⟨show ∀ n, parseDN asciiCase b!"uid=ANN,dc=lg" = some n → NameOk n by decide +kernel, by decide +kernel, trivial⟩
  · rintro op ⟨k', l, id', -, hl, hop, -⟩ w hw
    rw [hask op ⟨l, List.mem_of_getElem? hl, id', hop⟩]
    rintro ⟨-, c, hc, h1, h2⟩
    simp only [suChanges, List.mem_cons, List.mem_nil_iff, or_false] at hc
    rcases hc with rfl | rfl
    · exact absurd h1 (by decide +kernel)
    · simp at h2

end Idm
