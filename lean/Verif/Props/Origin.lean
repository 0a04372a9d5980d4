import Verif.Spec.Origin
import Verif.Props.Frame
/-!
# C128: nothing is invented
-/
namespace Idm

section
variable {C : CaseEnv} {G : GobEnv} {validate : Str → Str → Res Bool} {base : DN}

theorem getVals_mem (hC : C.Lawful) {t : Str} (ht : IsAscii t) {v : Str} : ∀ {as : List Attr}, AsciiNames as → v ∈ getVals C as (C.fold t) →
    ∃ a ∈ as, C.fold a.name = C.fold t ∧ v ∈ a.vals
  | [], _, h => by simp [getVals] at h
  | a :: as, ha, h => by
    simp only [getVals] at h
    by_cases he : C.eqFold (C.fold t) a.name = true
    · rw [if_pos he] at h
      exact ⟨a, by simp, (eqFold_fold_iff hC ht (ha a (by simp))).1 he, h⟩
    · rw [if_neg he] at h
      obtain ⟨b, hb, h⟩ := getVals_mem hC ht (fun x hx => ha x (List.mem_cons_of_mem _ hx)) h
      exact ⟨b, List.mem_cons_of_mem _ hb, h⟩

theorem replaceLoop_all {Q : Str → Str → Prop} {t : Str} {vals : List Str} (hv : ∀ v ∈ vals, Q t v) : ∀ {as : List Attr},
    (∀ a ∈ as, ∀ v ∈ a.vals, Q (C.fold a.name) v) → ∀ a ∈ replaceLoop C t vals as, ∀ v ∈ a.vals, Q (C.fold a.name) v
  | [], _, a, h => by simp [replaceLoop] at h
  | b :: as, hq, a, h => by
    have ih := replaceLoop_all hv (as := as) fun x hx => hq x (List.mem_cons_of_mem _ hx)
    simp only [replaceLoop] at h
    split at h
    · rename_i hb
      split at h
      · exact ih a h
      · rcases List.mem_cons.1 h with rfl | h
        · dsimp only
          rw [hb]
          exact hv
        · exact ih a h
    · rcases List.mem_cons.1 h with rfl | h
      · exact hq a (by simp)
      · exact ih a h

theorem replace_all {Q : Str → Str → Prop} {t : Str} {vals : List Str} (hv : ∀ v ∈ vals, Q (C.fold t) v) {as : List Attr}
    (hq : ∀ a ∈ as, ∀ v ∈ a.vals, Q (C.fold a.name) v) : ∀ a ∈ entryReplaceValues C as t vals, ∀ v ∈ a.vals, Q (C.fold a.name) v := by
  intro a h
  have hl := replaceLoop_all (C := C) hv hq
  simp only [entryReplaceValues] at h
  split at h
  · exact hl a h
  · split at h
    · exact hl a h
    · rcases List.mem_append.1 h with h | h
      · exact hl a h
      · rw [List.mem_singleton] at h
        subst h
        exact hv

/-- Changes bring in their own values only. -/
theorem applyChanges_all (hC : C.Lawful) {Q : Str → Str → Prop} {rdn : RDN} {old : List Attr} (ho : AsciiNames old)
    (hqo : ∀ a ∈ old, ∀ v ∈ a.vals, Q (C.fold a.name) v) : ∀ (cs : List Change) {as as' : List Attr}, (∀ c ∈ cs, IsAscii c.typ) → AsciiNames as →
    (∀ a ∈ as, ∀ v ∈ a.vals, Q (C.fold a.name) v) → (∀ c ∈ cs, (c.op = 0 ∨ c.op = 2) → ∀ v ∈ c.vals, Q (C.fold c.typ) v) →
    applyChanges C rdn old as cs = .ok as' → AsciiNames as' ∧ ∀ a ∈ as', ∀ v ∈ a.vals, Q (C.fold a.name) v
  | [], as, as', _, ha, hq, _, h => by
    simp only [applyChanges, Res.ok.injEq] at h
    exact h ▸ ⟨ha, hq⟩
  | c :: cs, as, as', ht, ha, hq, hc, h => by
    have htc := ht c (by simp)
    have hget : ∀ {l : List Attr}, AsciiNames l → (∀ a ∈ l, ∀ v ∈ a.vals, Q (C.fold a.name) v) → ∀ v ∈ getVals C l (C.fold c.typ), Q (C.fold c.typ) v := by
      intro l hl hql v hv
      obtain ⟨a, h1, h2, h3⟩ := getVals_mem hC htc hl hv
      exact h2 ▸ hql a h1 v h3
    have key : ∀ x, applyChange C rdn old as c = .ok x → AsciiNames x ∧ ∀ a ∈ x, ∀ v ∈ a.vals, Q (C.fold a.name) v := by
      intro x hx
      unfold applyChange at hx
      split at hx
      · rename_i h0
        cases hx
        refine ⟨entryReplaceValues_ascii htc ha, replace_all ?_ hq⟩
        intro v hv
        simp only [entryApplyModAdd, List.mem_append, List.mem_filter] at hv
        rcases hv with hv | hv
        · exact hget ha hq v hv
        · exact hc c (by simp) (.inl h0) v hv.1
      · split at hx
        · rename_i h2
          split at hx
          · simp at hx
          · cases hx
            exact ⟨entryReplaceValues_ascii htc ha, replace_all (hc c (by simp) (.inr h2)) hq⟩
        · split at hx
          · split at hx
            · simp at hx
            · cases hx
              refine ⟨entryReplaceValues_ascii htc ha, replace_all ?_ hq⟩
              intro v hv
              simp only [entryApplyModDelete] at hv
              split at hv
              · simp at hv
              · exact hget ho hqo v (List.mem_filter.1 hv).1
          · cases hx
            exact ⟨ha, hq⟩
    simp only [applyChanges] at h
    cases hx : applyChange C rdn old as c with
    | ok x =>
      rw [hx] at h
      obtain ⟨h1, h2⟩ := key x hx
      exact applyChanges_all hC ho hqo cs (fun d hd => ht d (List.mem_cons_of_mem _ hd)) h1 h2 (fun d hd => hc d (List.mem_cons_of_mem _ hd)) h
    | err e => rw [hx] at h; simp [bind, Res.bind] at h
    | panic => rw [hx] at h; simp [bind, Res.bind] at h
    | hang => rw [hx] at h; simp [bind, Res.bind] at h

theorem gives_fold {t t' v : Str} (ht : C.fold t = C.fold t') {k : DN} {op : Op} (h : op.gives C t v k) : op.gives C t' v k := by
  cases op <;> simp only [Op.gives, ht] at h ⊢ <;> exact h

theorem given_fold {t t' v : Str} (ht : C.fold t = C.fold t') {l : List (Op × Res Unit)} {k : DN} (h : Given C t v l k) : Given C t' v l k := by
  induction h with
  | given h => exact .given (gives_fold ht h)
  | before _ h ih => exact .before ih h
  | renamed _ h1 h2 ih => exact .renamed ih h1 h2

/-- All values of the directory were given. -/
def AllGiven (C : CaseEnv) (l : List (Op × Res Unit)) (d : Dir) : Prop :=
  ∀ n ∈ d, AsciiNames n.entry.attrs ∧ ∀ a ∈ n.entry.attrs, ∀ v ∈ a.vals, Given C a.name v l n.name

theorem allGiven_same {l : List (Op × Res Unit)} {d : Dir} (hd : AllGiven C l d) (op : Op) {r : Res Unit} (hr : r ≠ .ok ()) : AllGiven C ((op, r) :: l) d :=
  fun n hn => ⟨(hd n hn).1, fun a ha v hv => .before ((hd n hn).2 a ha v hv) fun h => absurd h hr⟩

theorem modify_given (hC : C.Lawful) {l l' : List (Op × Res Unit)} {k k' : DN} {e e' : Entry} {s : Str} {cs : List Change}
    (h : applyModify C e s cs = .ok e') (ha : AsciiNames e.attrs) (ht : ∀ c ∈ cs, IsAscii c.typ)
    (hg : ∀ a ∈ e.attrs, ∀ v ∈ a.vals, Given C a.name v l k) (hl : ∀ t v, Given C t v l k → Given C t v l' k')
    (hc : ∀ c ∈ cs, (c.op = 0 ∨ c.op = 2) → ∀ v ∈ c.vals, Given C c.typ v l' k') :
    AsciiNames e'.attrs ∧ ∀ a ∈ e'.attrs, ∀ v ∈ a.vals, Given C a.name v l' k' := by
  obtain ⟨rdn, rest, md, -, -, -, -, h⟩ := applyModify_ok h
  have := applyChanges_all hC (Q := fun s v => ∀ t, C.fold t = s → Given C t v l' k') ha (fun a h1 v h2 t ht => given_fold ht.symm (hl _ _ (hg a h1 v h2))) cs ht ha
    (fun a h1 v h2 t ht => given_fold ht.symm (hl _ _ (hg a h1 v h2))) (fun c h1 h2 v h3 t ht => given_fold ht.symm (hc c h1 h2 v h3)) h
  exact ⟨this.1, fun a h1 v h2 => this.2 a h1 v h2 _ rfl⟩

theorem get_node {d : Dir} {k : DN} {e : Entry} (h : d.get k = some e) : ⟨k, e⟩ ∈ d := by
  unfold Dir.get at h
  obtain ⟨n, hn, he⟩ := Option.map_eq_some_iff.1 h
  have h1 := List.find?_some hn
  have h2 := List.mem_of_find?_eq_some hn
  simp at h1
  obtain ⟨a, b⟩ := n
  dsimp only at h1 he
  rw [← h1, ← he]
  exact h2

theorem not_has {d : Dir} {k : DN} (h : ¬ d.has k = true) {n : Node} (hn : n ∈ d) : n.name ≠ k :=
  fun e => h (List.any_eq_true.2 ⟨n, hn, by simp [e]⟩)

theorem step_given (hC : C.Lawful) {l : List (Op × Res Unit)} {d : Dir} (hd : AllGiven C l d) (op : Op) (hop : op.Ok C) (hp : op.plain) :
    AllGiven C ((op, (specStep C validate base d op).1) :: l) (specStep C validate base d op).2 := by
  have hset : ∀ {op : Op} {k e0 e'}, d.get k = some e0 → (∀ j, op.leaves C j) →
      (AsciiNames e'.attrs ∧ ∀ a ∈ e'.attrs, ∀ v ∈ a.vals, Given C a.name v ((op, .ok ()) :: l) k) → AllGiven C ((op, .ok ()) :: l) (d.setEntry k e') := by
    intro op k e0 e' h0 hl h n hn
    obtain ⟨m, hm, rfl⟩ := List.mem_map.1 hn
    split
    · exact h
    · exact ⟨(hd m hm).1, fun a ha v hv => .before ((hd m hm).2 a ha v hv) fun _ => hl _⟩
  have hsame : ∀ {op : Op} {r : Res Unit}, r ≠ .ok () → AllGiven C ((op, r) :: l) d := fun hr => allGiven_same hd _ hr
  cases op with
  | add e =>
    simp only [specStep]
    split
    · exact hsame (by simp)
    · rename_i name hname
      simp only [specAdd, specAddAt]
      repeat' split
      all_goals first | exact hsame (by simp) | skip
      rename_i hhas _ _
      intro n hn
      rcases List.mem_append.1 hn with hn | hn
      · refine ⟨(hd n hn).1, fun a ha v hv => .before ((hd n hn).2 a ha v hv) fun _ => ?_⟩
        simp only [Op.leaves, Op.about, hname]
        simpa using not_has hhas hn
      · simp at hn
        subst hn
        exact ⟨hp, fun a ha v hv => .given ⟨⟨name, hname, rfl⟩, a, ha, rfl, hv⟩⟩
  | delete dn =>
    simp only [specStep]
    split
    · exact hsame (by simp)
    · rename_i name hname
      simp only [specDelete, specDeleteAt]
      repeat' split
      all_goals first | exact hsame (by simp) | skip
      intro n hn
      obtain ⟨hn, hne⟩ := List.mem_filter.1 hn
      refine ⟨(hd n hn).1, fun a ha v hv => .before ((hd n hn).2 a ha v hv) fun _ => ?_⟩
      simp only [Op.leaves, Op.about, hname]
      simpa using hne
  | modify dn cs =>
    simp only [specStep]
    split
    · exact hsame (by simp)
    · rename_i name hname
      simp only [specModify, specModifyAt]
      split
      · exact hsame (by simp)
      · rename_i e0 h0
        split
        · rename_i e' he'
          obtain ⟨g1, g2⟩ := hd _ (get_node h0)
          exact hset h0 (fun _ => trivial) (modify_given hC he' g1 hp g2 (fun _ _ h => .before h fun _ => trivial)
            fun c h1 h2 v h3 => .given ⟨⟨name, hname, rfl⟩, c, h1, h2, rfl, h3⟩)
        all_goals exact hsame (by simp)
  | password req =>
    simp only [specStep]
    split
    · exact hsame (by simp)
    · rename_i name hname
      simp only [specPassword, specPasswordAt]
      split
      · exact hsame (by simp)
      · rename_i e0 h0
        split
        · split
          · rename_i e' he'
            obtain ⟨g1, g2⟩ := hd _ (get_node h0)
            refine hset h0 (fun _ => trivial) (modify_given hC he' g1 ?_ g2 (fun _ _ h => .before h fun _ => trivial) ?_)
            · intro c hc
              rw [List.mem_singleton] at hc
              subst hc
              exact (by decide +kernel : IsAscii sUserPassword)
            · intro c hc h2 v h3
              rw [List.mem_singleton] at hc
              subst hc
              rw [List.mem_singleton] at h3
              exact .given ⟨⟨name, hname, rfl⟩, rfl, h3⟩
          all_goals exact hsame (by simp)
        all_goals exact hsame (by simp)
  | rename req =>
    simp only [specStep]
    split
    · exact hsame (by simp)
    · exact hsame (by simp)
    · exact hsame (by simp)
    · exact hsame (by simp)
    · rename_i o p n q ho hn
      simp only [specRename, specRenameAt]
      split
      · exact hsame (by simp)
      rename_i hhas
      split
      · exact hsame (by simp)
      rename_i e0 h0
      split
      · exact hsame (by simp)
      split
      · rename_i e' he'
        split
        · exact hsame (by simp)
        have tok : ∀ a ∈ o, IsAscii a.typ := fun a ha => typeOk_ascii ((hop.1 _ ho o (by simp)).2 a ha)
        have tnk : ∀ a ∈ n, IsAscii a.typ := fun a ha => typeOk_ascii ((hop.2 _ hn n (by simp)).2 a ha)
        obtain ⟨g1, g2⟩ := hd _ (get_node h0)
        have hm := modify_given hC (l' := (.rename req, .ok ()) :: l) (k' := foldDN C (n :: p)) he' g1 (by
            intro c hc
            rcases List.mem_append.1 hc with hc | hc
            · split at hc
              · obtain ⟨a, ha, rfl⟩ := List.mem_map.1 hc
                exact tok a ha
              · simp at hc
            · obtain ⟨a, ha, rfl⟩ := List.mem_map.1 hc
              exact tnk a ha) g2 (fun _ _ h => .renamed h ho hn) (by
            intro c hc h2 v h3
            rcases List.mem_append.1 hc with hc | hc
            · split at hc
              · obtain ⟨a, ha, rfl⟩ := List.mem_map.1 hc
                simp [opDelete] at h2
              · simp at hc
            · obtain ⟨a, ha, rfl⟩ := List.mem_map.1 hc
              rw [List.mem_singleton] at h3
              exact .given ⟨o, p, n, q, ho, hn, rfl, a, ha, rfl, h3.symm⟩)
        intro x hx
        obtain ⟨m, hmm, rfl⟩ := List.mem_map.1 hx
        split
        · exact hm
        · rename_i hne
          refine ⟨(hd m hmm).1, fun a ha v hv => .before ((hd m hmm).2 a ha v hv) fun _ => ?_⟩
          have := not_has hhas hmm
          simp [Op.leaves, Op.about, ho, hn, hne, this]
      all_goals exact hsame (by simp)

theorem run_given (hC : C.Lawful) : ∀ (ops : List Op) (l : List (Op × Res Unit)) (d : Dir), AllGiven C l d → (∀ op ∈ ops, op.Ok C) → (∀ op ∈ ops, op.plain) →
    AllGiven C ((ops.zip (specRun C validate base d ops).1).reverse ++ l) (specRun C validate base d ops).2
  | [], _, _, hd, _, _ => hd
  | op :: ops, l, d, hd, hok, hp => by
    have := run_given hC ops _ _ (step_given (validate := validate) (base := base) hC hd op (hok op (by simp)) (hp op (by simp)))
      (fun x hx => hok x (List.mem_cons_of_mem _ hx)) fun x hx => hp x (List.mem_cons_of_mem _ hx)
    simpa [specRun] using this

/-- What is sent was found. -/
theorem searchLoop_found (fp : Packet) (r : SearchReq) : ∀ (es : List Entry) (i : Nat), ∀ e ∈ (searchLoop C fp r i es).1, ∃ x ∈ es, filterAttributes C r.attrs x = e
  | [], _, e, h => by simp [searchLoop] at h
  | x :: es, i, e, h => by
    have ih : ∀ j, e ∈ (searchLoop C fp r j es).1 → ∃ y ∈ x :: es, filterAttributes C r.attrs y = e := fun j hj => by
      obtain ⟨y, hy, h⟩ := searchLoop_found fp r es j e hj
      exact ⟨y, List.mem_cons_of_mem _ hy, h⟩
    simp only [searchLoop] at h
    repeat' split at h
    all_goals first | exact ih _ h | (simp at h; done) | skip
    rcases List.mem_cons.1 h with h | h
    · exact ⟨x, by simp, h.symm⟩
    · exact ih _ h

/-- The calls of a history with their results, the last one first. -/
def record (C : CaseEnv) (G : GobEnv) (validate : Str → Str → Res Bool) (base : DN) (ops : List Op) : List (Op × Res Unit) :=
  (ops.zip (boltRun C G validate (render base) Db.empty ops).1).reverse

end

section
variable {V : Env} {G : GobEnv} {cfg : BoltCfg} {n : Nat} {stats : Bool} {base : DN}

/-- C128: whatever happened before, every value that a search sends for an entry was given to this very entry by a call that was carried out, byte by
byte and for this type of attribute: when the entry was added, or by a modification, a change of the password or a rename since then. No value is made
up, comes from another entry, from a deleted entry of the same name or from a refused call. The search may be any, and may fail in the end. -/
theorem C128_given (hC : V.C.Lawful) (hG : G.Lawful) (hb : BaseOk V.C base) (ops : List Op) (h : HistOk V.C ops) (hp : ∀ op ∈ ops, op.plain)
    (b : Str) (ht : TextOk V.C b) (scope limit : Nat) (w : Packet) (attrs : List Str) (o : Oracle) (id : Int) (bound : Str) (e : Entry)
    (he : .entry id e ∈ (handlePacket V (boltSrv V G cfg n stats) o (wMsg id (wSearch b scope limit w attrs)) bound
      (after V.C G (validatePw V.C V.K) base ops)).resps) :
    ∃ k, (∀ name, parseDN V.C e.dn = some name → foldDN V.C name = k) ∧
      ∀ a ∈ e.attrs, ∀ v ∈ a.vals, Given V.C a.name v (record V.C G (validatePw V.C V.K) base ops) k := by
  obtain ⟨ns, r1, a1, R, -⟩ := sim_run_empty (validate := validatePw V.C V.K) hC hG hb ops h.ok h.len
  have hg := run_given (validate := validatePw V.C V.K) (base := base) hC ops [] [] (by simp [AllGiven]) h.ok hp
  rw [List.append_nil, ← r1, a1] at hg
  have htext : ∀ x ∈ dirOf ns, TextOf V.C x := a1 ▸ dirAfter_text hC ops h
  rw [wSearch_step] at he
  cases hs : decompile w with
  | none => rw [hs] at he; simp at he
  | some s =>
    rw [hs] at he
    dsimp only at he
    cases hc : compile s with
    | none => rw [hc] at he; simp at he
    | some fp =>
      rw [hc] at he
      dsimp only at he
      cases hp : parseDN V.C b with
      | none =>
        have : boltSearch V.C G (after V.C G (validatePw V.C V.K) base ops) b scope = .ok ([], some .other) := by
          simp [boltSearch, searchFuel, parseNormalize, hp]
        rw [this] at he
        simp [searchLoop, searchOut] at he
      | some k =>
        obtain ⟨s1, s2⟩ := serves_of_rel hC hG R b k hp (ht k hp) scope
        cases hh : (dirOf ns).has (foldDN V.C k) with
        | false =>
          have : boltSearch V.C G (after V.C G (validatePw V.C V.K) base ops) b scope = .ok ([], some .other) := s2 hh
          rw [this] at he
          simp [searchLoop, searchOut] at he
        | true =>
          obtain ⟨found, f1, -, f3⟩ := s1 hh
          have f1 : boltSearch V.C G (after V.C G (validatePw V.C V.K) base ops) b scope = .ok (found.map (·.entry), none) := f1
          rw [f1] at he
          dsimp only at he
          have hin : e ∈ (searchLoop V.C fp ⟨b, scope, (0 : Nat), limit, (0 : Nat), false, s, attrs, []⟩ 0 (found.map (·.entry))).1 := by
            generalize searchLoop V.C fp ⟨b, scope, (0 : Nat), limit, (0 : Nat), false, s, attrs, []⟩ 0 (found.map (·.entry)) = x at he
            obtain ⟨sent, res⟩ := x
            cases res <;> simpa [searchOut] using he
          obtain ⟨x, hx, rfl⟩ := searchLoop_found fp _ _ _ e hin
          obtain ⟨nd, hnd, rfl⟩ := List.mem_map.1 hx
          have hd := ((f3 nd).1 hnd).1
          refine ⟨nd.name, fun name hn => ?_, fun a ha v hv => (hg nd hd).2 a ((C31_selected attrs nd.entry a).2.1 ha).1 v hv⟩
          rw [(C31_selected attrs nd.entry ⟨[], []⟩).1] at hn
          exact htext nd hd name hn

end

/-- C128 applies to a history with a delete, a rename and a change of the password -/
example := fun e he => C128_given (V := toyEnv) (G := gobInstance) (cfg := toyCfg) (n := 8) (stats := false) (base := exBase) asciiCase_lawful gobInstance_lawful
  exBase_ok exOps exOps_ok (by decide +kernel) b!"dc=lg" (by decide +kernel) 2 0 (ctxStr 7 b!"uid") [] toyOracle 7 [] e he

example : (∃ e, .entry 7 e ∈ (handlePacket toyEnv (boltSrv toyEnv gobInstance toyCfg 8 false) toyOracle (wMsg 7 (wSearch b!"dc=lg" 2 0 (ctxStr 7 b!"uid") [])) []
    (after asciiCase gobInstance (validatePw asciiCase toyEnv.K) exBase exOps)).resps) :=
  ⟨⟨b!"uid=c,ou=p,dc=lg", [⟨b!"userPassword", [b!"y"]⟩, ⟨b!"mail", [b!"m"]⟩, ⟨b!"uid", [b!"C"]⟩]⟩, by decide +kernel⟩

/-- a deleted entry has given its values to nobody -/
example : ¬ Given asciiCase b!"uid" b!"b" [(.delete b!"uid=B,dc=lg", .ok ()), (.add ⟨b!"uid=b,dc=lg", [⟨b!"uid", [b!"b"]⟩]⟩, .ok ())]
    [[⟨b!"uid", b!"b"⟩], [⟨b!"dc", b!"lg"⟩]] := by
  intro h
  cases h with
  | given h => exact h
  | before _ h => exact h rfl (by decide +kernel)

end Idm
