import Verif.Spec.Gone
import Verif.Props.ValuesKept
/-!
# C133: what was taken away stays away
-/
namespace Idm

section
variable {C : CaseEnv} {validate : Str → Str → Res Bool} {base : DN}

/-- If there is an entry `k`, it does not have the value. -/
def Lacks (C : CaseEnv) (t v : Str) (d : Dir) (k : DN) : Prop := ∀ e, d.get k = some e → ∀ w ∈ valuesOf C e.attrs t, C.fold w ≠ C.fold v

theorem valuesAfter_lacks {t v : Str} {orig : List Str} (ho : ∀ w ∈ orig, C.fold w ≠ C.fold v) : ∀ (cs : List Change) (cur : List Str),
    (∀ w ∈ cur, C.fold w ≠ C.fold v) → (∀ c ∈ cs, (c.op = 0 ∨ c.op = 2) → C.fold c.typ = C.fold t → ∀ w ∈ c.vals, C.fold w ≠ C.fold v) →
    ∀ w ∈ valuesAfter C t orig cur cs, C.fold w ≠ C.fold v
  | [], _, h, _ => h
  | c :: cs, cur, h, hc => by
    show ∀ w ∈ valuesAfter C t orig (if C.fold c.typ = C.fold t then changeValues C orig cur c else cur) cs, _
    refine valuesAfter_lacks ho cs _ ?_ fun d hd => hc d (List.mem_cons_of_mem _ hd)
    split
    · rename_i ht
      intro w hw
      unfold changeValues at hw
      split at hw
      · rename_i h0
        rcases List.mem_append.1 hw with hw | hw
        · exact h w hw
        · exact hc c (by simp) (.inl h0) ht w (List.mem_filter.1 hw).1
      · split at hw
        · rename_i h2
          exact hc c (by simp) (.inr h2) ht w hw
        · split at hw
          · split at hw
            · simp at hw
            · exact ho w (List.mem_filter.1 hw).1
          · exact h w hw
    · exact h

theorem lacks_modify (hC : C.Lawful) {t v : Str} {e e' : Entry} {s : Str} {cs : List Change} (h : applyModify C e s cs = .ok e') (hd : Tidy C e.attrs)
    (ha : ∀ c ∈ cs, IsAscii c.typ) (hv : ∀ w ∈ valuesOf C e.attrs t, C.fold w ≠ C.fold v)
    (hk : ∀ c ∈ cs, (c.op = 0 ∨ c.op = 2) → C.fold c.typ = C.fold t → ∀ w ∈ c.vals, C.fold w ≠ C.fold v) :
    ∀ w ∈ valuesOf C e'.attrs t, C.fold w ≠ C.fold v := by
  rw [C15_values_partial hC e e' s cs hd.1 ha hd.2 h t]
  exact valuesAfter_lacks hv cs _ hv hk

theorem lacks_step (hC : C.Lawful) {t v : Str} {d : Dir} (hd : ∀ n ∈ d, Tidy C n.entry.attrs) {op : Op} (hp : op.plain) {k : DN}
    (h : Lacks C t v d k) (hk : ¬ op.brings C t v k) : Lacks C t v (specStep C validate base d op).2 k := by
  by_cases hr : ¬ (specStep C validate base d op).1 = .ok ()
  · rw [step_refused hr]
    exact h
  have hr := Classical.not_not.1 hr
  by_cases hab : k ∉ op.about C
  · intro e he
    exact h e (((local_step (C := C) (validate := validate) (base := base) op).1 d k hab).symm.trans he)
  have hab := Classical.not_not.1 hab
  cases op with
  | add x =>
    simp only [Op.about, Option.mem_toList, Option.map_eq_some_iff] at hab
    obtain ⟨n, hn, rfl⟩ := hab
    revert hr
    simp only [specStep, hn, specAdd, specAddAt]
    repeat' split
    all_goals first | (intro h; cases h; done) | skip
    rename_i hhas _ _
    intro _ e he
    have hnode := get_node he
    rcases List.mem_append.1 hnode with hnode | hnode
    · exact absurd rfl (not_has hhas hnode)
    · simp at hnode
      subst hnode
      intro w hw hf
      unfold valuesOf at hw
      obtain ⟨a, ha, hwa⟩ := List.mem_flatMap.1 hw
      obtain ⟨ha, hn'⟩ := List.mem_filter.1 ha
      exact hk (.inl ⟨w, hf, ⟨n, hn, rfl⟩, a, ha, by simpa using hn', hwa⟩)
  | delete s =>
    simp only [Op.about, Option.mem_toList, Option.map_eq_some_iff] at hab
    obtain ⟨n, hn, rfl⟩ := hab
    intro e he
    have := has_of_get he
    rw [delete_has hn hr] at this
    cases this
  | modify s cs =>
    simp only [Op.about, Option.mem_toList, Option.map_eq_some_iff] at hab
    obtain ⟨n, hn, rfl⟩ := hab
    revert hr
    simp only [specStep, hn, specModify, specModifyAt]
    cases h1 : d.get (foldDN C n) with
    | none => intro h; cases h
    | some e₀ =>
      dsimp only
      split
      · rename_i e' he'
        intro _ e he
        rw [get_setEntry, if_pos rfl, h1] at he
        cases he
        exact lacks_modify hC he' (hd _ (get_node h1)) hp (h _ h1) fun c hc ho ht w hw hf => hk (.inl ⟨w, hf, ⟨n, hn, rfl⟩, c, hc, ho, ht, hw⟩)
      all_goals (intro h; cases h)
  | password r =>
    simp only [Op.about, Option.mem_toList, Option.map_eq_some_iff] at hab
    obtain ⟨n, hn, rfl⟩ := hab
    revert hr
    simp only [specStep, hn, specPassword, specPasswordAt]
    cases h1 : d.get (foldDN C n) with
    | none => intro h; cases h
    | some e₀ =>
      dsimp only
      split
      · split
        · rename_i e' he'
          intro _ e he
          rw [get_setEntry, if_pos rfl, h1] at he
          cases he
          refine lacks_modify hC he' (hd _ (get_node h1)) ?_ (h _ h1) ?_
          · intro c hc
            rw [List.mem_singleton] at hc
            subst hc
            exact (by decide +kernel : IsAscii sUserPassword)
          · intro c hc ho ht w hw hf
            rw [List.mem_singleton] at hc
            subst hc
            rw [List.mem_singleton] at hw
            exact hk (.inl ⟨w, hf, ⟨n, hn, rfl⟩, ht, hw⟩)
        all_goals (intro h; cases h)
      all_goals (intro h; cases h)
  | rename r =>
    simp only [Op.about] at hab
    split at hab
    · rename_i o p n q ho hn
      simp only [List.mem_cons, List.not_mem_nil, or_false] at hab
      rcases hab with rfl | rfl
      · intro e he
        have := ((rename_names ho hn hr).2 _).1 (has_of_get he)
        rcases this with h | ⟨h, -⟩
        · exact absurd h.symm (rename_names ho hn hr).1
        · exact absurd rfl h
      · exact absurd (.inr ⟨r, rfl, o, p, n, q, ho, hn, rfl⟩) hk
    · simp at hab

theorem lacks_run (hC : C.Lawful) {t v : Str} {k : DN} : ∀ (us : List Op) (d : Dir), (∀ n ∈ d, Tidy C n.entry.attrs) → (∀ op ∈ us, op.Ok C) →
    (∀ op ∈ us, op.plain) → (∀ op ∈ us, op.distinct C) → Lacks C t v d k → (∀ op ∈ us, ¬ op.brings C t v k) →
    Lacks C t v (specRun C validate base d us).2 k
  | [], _, _, _, _, _, h, _ => h
  | u :: us, d, hd, hok, hp, hu, h, hk => by
    simp only [specRun]
    exact lacks_run hC us _ (tidy_step (validate := validate) (base := base) hd u (hok u (by simp)) (hp u (by simp)) (hu u (by simp)))
      (fun x hx => hok x (List.mem_cons_of_mem _ hx)) (fun x hx => hp x (List.mem_cons_of_mem _ hx)) (fun x hx => hu x (List.mem_cons_of_mem _ hx))
      (lacks_step hC hd (hp u (by simp)) h (hk u (by simp))) fun x hx => hk x (List.mem_cons_of_mem _ hx)

/-- Only the last deletion of a type counts, so none may follow. -/
theorem valuesAfter_removed {t v : Str} {orig : List Str} : ∀ (cs : List Change) (cur : List Str), (∀ w ∈ cur, C.fold w ≠ C.fold v) →
    (∀ c ∈ cs, C.fold c.typ = C.fold t → c.op ≠ 1 ∧ ∀ w ∈ c.vals, C.fold w ≠ C.fold v) → ∀ w ∈ valuesAfter C t orig cur cs, C.fold w ≠ C.fold v
  | [], _, h, _ => h
  | c :: cs, cur, h, hc => by
    show ∀ w ∈ valuesAfter C t orig (if C.fold c.typ = C.fold t then changeValues C orig cur c else cur) cs, _
    refine valuesAfter_removed cs _ ?_ fun d hd => hc d (List.mem_cons_of_mem _ hd)
    split
    · rename_i ht
      obtain ⟨h1, h2⟩ := hc c (by simp) ht
      intro w hw
      unfold changeValues at hw
      rw [if_neg h1] at hw
      split at hw
      · rcases List.mem_append.1 hw with hw | hw
        · exact h w hw
        · exact h2 w (List.mem_filter.1 hw).1
      · split at hw
        · exact h2 w hw
        · exact h w hw
    · exact h

end

section
variable {ι : Type} {V : Env} {G : GobEnv} {base : DN}

/-- C133: once a client was told that a modification was made that takes a value away (by deleting it or the whole attribute, or by putting other values
in place; no deletion of the same type and nothing that gives the value may follow in the request), the entry does not have this value, in any spelling,
after any number of crashes and restarts and whatever else is done, unless somebody asked to give it to the entry or to rename another entry to its name,
before the answer or later. Missing: a further deletion of the same type in the request (`C133_two_deletes_fails`), and entries with one attribute type in
two spellings. -/
theorem C133_gone_partial (hC : V.C.Lawful) (hG : G.Lawful) (hb : BaseOk V.C base) (ops₀ : List Op) (hops : HistOk V.C ops₀)
    (hp₀ : ∀ op ∈ ops₀, op.plain ∧ op.distinct V.C) (lives : List (Life ι))
    (h : Lives V G (render base) (after V.C G (validatePw V.C V.K) base ops₀) lives)
    (hok : ∀ op, Asked V lives op → op.Ok V.C ∧ op.plain ∧ op.distinct V.C)
    (hlen : ops₀.length + (lives.map fun l => l.proc.trace.length).sum < 2 ^ 64)
    {k : Nat} {id : ι} {dn : Str} {cs : List Change} (ha : Acknowledged lives k id (.modify dn cs)) {name : DN} (hp : parseDN V.C dn = some name)
    (c₁ c₂ : List Change) (c : Change) (hcs : cs = c₁ ++ c :: c₂) (v : Str) (hc : c.removes V.C v)
    (hlast : ∀ d ∈ c₂, V.C.fold d.typ = V.C.fold c.typ → d.op ≠ 1 ∧ ∀ w ∈ d.vals, V.C.fold w ≠ V.C.fold v)
    (hkeep : ∀ op, AskedSince V lives k id op → ¬ op.brings V.C c.typ v (foldDN V.C name)) (e : Entry)
    (he : boltSearch V.C G (fileAfter (after V.C G (validatePw V.C V.K) base ops₀) lives) dn scopeBase = .ok ([e], none)) :
    ¬ HasValue V.C e.attrs c.typ v := by
  obtain ⟨log, E, hok', -, S, hstep⟩ := lives_hist hC hG hb ops₀ hops lives h (fun op h => (hok op h).1) hlen
  obtain ⟨log₁, x, log₂, w', hlog, hx, hn, ⟨req, hw, hw'⟩, hl⟩ := acknowledged_log E h ha
  have hop : w' = .modify dn cs := by
    cases w' <;> simp only [IsWrite] at hw hw'
    all_goals first | (exfalso; omega) | skip
    obtain ⟨-, d, l, k1, k2, -, -, -, k3⟩ := hw
    obtain ⟨-, d', l', k1', k2', -, -, -, k3'⟩ := hw'
    rw [k1] at k1'
    cases k1'
    rw [k2] at k2'
    cases k2'
    rw [each_unique (R := IsChange) (fun _ _ _ h h2 => isChange_unique h h2) _ _ _ k3 k3']
  subst hop
  have e0 : (Write.modify dn cs).op = .modify dn cs := rfl
  rw [e0] at hx
  have hmemx : x.op ∈ ops₀ ++ log.map (·.op) := by rw [hlog]; simp
  have hname : NameOk name := by
    have := hok'.ok x.op hmemx
    rw [hx] at this
    exact this name hp
  obtain ⟨s1, hdir⟩ := hstep log₁ x log₂ hlog
  have hpl := log_plain E hp₀ hok
  have hsub : ∀ op ∈ ops₀ ++ log₁.map (·.op), op ∈ ops₀ ++ log.map (·.op) := by
    intro op hop
    rw [hlog, List.map_append, ← List.append_assoc]
    exact List.mem_append_left _ hop
  have hsub2 : ∀ op ∈ log₂.map (·.op), op ∈ ops₀ ++ log.map (·.op) := by
    intro op hop
    rw [hlog, List.map_append, List.map_cons]
    exact List.mem_append_right _ (List.mem_append_right _ (List.mem_cons_of_mem _ hop))
  have hd : ∀ n ∈ dirAfter V.C (validatePw V.C V.K) base (ops₀ ++ log₁.map (·.op)), Tidy V.C n.entry.attrs :=
    tidy_run _ [] (by simp) (fun o ho => hok'.ok o (hsub o ho)) (fun o ho => (hpl o (hsub o ho)).1) fun o ho => (hpl o (hsub o ho)).2
  have hascii : ∀ c ∈ cs, IsAscii c.typ := by
    have := (hpl x.op hmemx).1
    rw [hx] at this
    exact this
  have hd' := tidy_step (validate := validatePw V.C V.K) (base := base) hd x.op (hok'.ok x.op hmemx) (hpl _ hmemx).1 (hpl _ hmemx).2
  have hh : Lacks V.C c.typ v (specStep V.C (validatePw V.C V.K) base (dirAfter V.C (validatePw V.C V.K) base (ops₀ ++ log₁.map (·.op))) x.op).2
      (foldDN V.C name) := by
    rw [hx] at s1 ⊢
    clear hd' hdir
    generalize dirAfter V.C (validatePw V.C V.K) base (ops₀ ++ log₁.map (·.op)) = d at s1 hd ⊢
    revert s1
    simp only [specStep, hp, specModify, specModifyAt]
    cases hg : d.get (foldDN V.C name) with
    | none => intro h; cases h
    | some e₀ =>
      dsimp only
      split
      · rename_i e' he'
        intro _ e1 he1
        rw [get_setEntry, if_pos rfl, hg] at he1
        cases he1
        rw [C15_values_partial hC e₀ e' dn cs (hd _ (get_node hg)).1 hascii (hd _ (get_node hg)).2 he' c.typ, hcs, valuesAfter, List.foldl_append,
          List.foldl_cons, if_pos rfl]
        refine valuesAfter_removed c₂ _ ?_ hlast
        intro w hw
        unfold changeValues at hw
        rcases hc with ⟨hc, hv⟩ | ⟨hc, hv⟩
        · rw [if_neg (by omega), if_neg (by omega), if_pos hc] at hw
          split at hw
          · simp at hw
          · rename_i hne
            rcases hv with hv | ⟨u, hu, huv⟩
            · exact absurd hv hne
            · have := (List.mem_filter.1 hw).2
              simp only [decide_eq_true_eq] at this
              exact huv ▸ this u hu
        · rw [if_neg (by omega), if_pos hc] at hw
          exact hv w hw
      all_goals (intro h; cases h)
  have hend := lacks_run (validate := validatePw V.C V.K) (base := base) hC (log₂.map (·.op)) _ hd' (fun o ho => hok'.ok o (hsub2 o ho))
    (fun o ho => (hpl o (hsub2 o ho)).1) (fun o ho => (hpl o (hsub2 o ho)).2) hh (by
      intro u hu
      obtain ⟨y, hy, rfl⟩ := List.mem_map.1 hu
      exact hkeep _ (hl y hy))
  rw [← hdir] at hend
  rintro ⟨w, hw, hf⟩
  generalize dirAfter V.C (validatePw V.C V.K) base (ops₀ ++ log.map (·.op)) = D at S hend
  cases hg : D.get (foldDN V.C name) with
  | none =>
    have : D.has (foldDN V.C name) = false := by rw [has_get, hg]; rfl
    rw [(S dn name hp hname scopeBase).2 this] at he
    simp at he
  | some e1 =>
    rw [serves_get S hp hname hg] at he
    simp at he
    subst he
    exact hend e1 hg w hw hf

end

/-- C133 fails of a request with two deletions of one type: the second starts from the values before the request, so what the first deleted is back. The
request is answered with success. -/
theorem C133_two_deletes_fails :
    let e : Entry := ⟨b!"cn=admins,dc=lg", [⟨b!"cn", [b!"admins"]⟩, ⟨b!"member", [b!"uid=ann", b!"uid=bob", b!"uid=eve"]⟩]⟩
    let db := after asciiCase gobInstance (validatePw asciiCase toyCrypto) toyBase (toyOps ++ [.add e])
    let r := boltRun asciiCase gobInstance (validatePw asciiCase toyCrypto) (render toyBase) db
      [.modify b!"cn=admins,dc=lg" [⟨1, b!"member", [b!"uid=ann"]⟩, ⟨1, b!"member", [b!"uid=bob"]⟩]]
    r.1 = [.ok ()] ∧ ∃ e', boltSearch asciiCase gobInstance r.2 b!"cn=admins,dc=lg" scopeBase = .ok ([e'], none) ∧
      valuesOf asciiCase e'.attrs b!"member" = [b!"uid=ann", b!"uid=eve"] := by
  refine ⟨by decide +kernel, ⟨b!"cn=admins,dc=lg", [⟨b!"cn", [b!"admins"]⟩, ⟨b!"member", [b!"uid=ann", b!"uid=eve"]⟩]⟩, by decide +kernel, by decide +kernel⟩

/-! ## Non-vacuity: the life of `su_first`, in which Ann's mail address is deleted (that Ann is found is in `Props/Survives`) -/

example : ∃ s : Par Nat, let lives : List (Life Nat) := [⟨toyCfg, 8, false, s⟩, ⟨toyCfg, 8, true, Par.start s.disk⟩]
    ∀ e, boltSearch asciiCase gobInstance (fileAfter toyDb lives) b!"uid=ANN,dc=lg" scopeBase = .ok ([e], none) →
      ¬ HasValue asciiCase e.attrs b!"mail" b!"a@lg" := by
  obtain ⟨s, hr, ht⟩ := su_first
  have hlives : Lives toyEnv gobInstance (render toyBase) (after asciiCase gobInstance (validatePw asciiCase toyCrypto) toyBase toyOps)
      [⟨toyCfg, 8, false, s⟩, ⟨toyCfg, 8, true, Par.start s.disk⟩] := ⟨toyCfg_base, hr, toyCfg_base, .start, trivial⟩
  have hask : ∀ op, Asked toyEnv [⟨toyCfg, 8, false, s⟩, ⟨toyCfg, 8, true, Par.start s.disk⟩] op → op = .modify b!"uid=ANN,dc=lg" suChanges := by
    rintro op ⟨l, hl, id, t₁, c, p, o, t₂, b, he, -, hop⟩
    have ha : Seen.arrive id (.packet c p o) ∈ l.proc.trace := by rw [he]; simp
    simp only [List.mem_cons, List.mem_nil_iff, or_false] at hl
    rcases hl with rfl | rfl
    · dsimp only at ha
      rw [ht] at ha
      simp only [List.mem_cons, List.mem_nil_iff, or_false] at ha
      rcases ha with h | h | h | h <;> cases h
      · exact (asks_bind hop).elim
      · obtain ⟨mid, req, ⟨m, more, h1, -, -⟩, hh⟩ := hop
        cases h1
        rcases hh with ⟨w, hw, -, rfl⟩ | ⟨ht, -⟩
        · cases w <;> first | exact absurd hw.1 (by decide) | skip
          obtain ⟨-, d, l, k1, k2, -, -, -, k3⟩ := hw
          cases k1
          cases k2
          rw [each_unique (R := IsChange) (fun _ _ _ h h2 => isChange_unique h h2) _ _ _ k3 su_each]
          rfl
        · exact absurd ht (by decide)
    · cases ha
  refine ⟨s, fun e he => C133_gone_partial (V := toyEnv) asciiCase_lawful gobInstance_lawful (by decide +kernel) toyOps ⟨by decide +kernel, by decide +kernel⟩
    (by decide +kernel) _ hlives ?_ (by simp [ht, Par.start, toyOps]) (k := 0) (id := 1) (cs := suChanges)
    ⟨_, 0, suMod.p, suMod.o, 2, wModify ⟨b!"uid=ANN,dc=lg", suChanges⟩, [.result 2 7 0], rfl, by simp [ht], by simp [ht], ⟨_, rfl, rfl⟩,
      ⟨_, _, rfl, rfl, rfl⟩, rfl, _, _, rfl, rfl, rfl, rfl, rfl, su_each⟩
    (name := [[⟨b!"uid", b!"ANN"⟩], [⟨b!"dc", b!"lg"⟩]]) (by decide +kernel) [] [⟨0, b!"phone", [b!"5", b!"6"]⟩] ⟨1, b!"mail", [b!"A@LG"]⟩ rfl b!"a@lg"
    (.inl ⟨rfl, .inr ⟨b!"A@LG", by simp, by decide +kernel⟩⟩) (by decide +kernel) ?_ e he⟩
  · intro op h
    rw [hask op h]
    exact ⟨show ∀ n, parseDN asciiCase b!"uid=ANN,dc=lg" = some n → NameOk n by decide +kernel, by decide +kernel, trivial⟩
  · rintro op ⟨k', l, id', -, hl, hop, -⟩
    rw [hask op ⟨l, List.mem_of_getElem? hl, id', hop⟩]
    rintro (⟨w, hw, -, c, hc, h0, ht, -⟩ | ⟨r, hr, -⟩)
    · simp only [suChanges, List.mem_cons, List.mem_nil_iff, or_false] at hc
      rcases hc with rfl | rfl
      · simp at h0
      · exact absurd ht (by decide +kernel)
    · cases hr

end Idm
