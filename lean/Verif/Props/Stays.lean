import Verif.Spec.Stays
import Verif.Props.Origin
/-!
# C129: a value stays until it is taken away
-/
namespace Idm

section
variable {C : CaseEnv} {G : GobEnv} {validate : Str → Str → Res Bool} {base : DN}

theorem valuesAfter_stays {t v : Str} {orig : List Str} (ho : v ∈ orig) : ∀ (cs : List Change) (cur : List Str), v ∈ cur →
    (∀ c ∈ cs, C.fold c.typ = C.fold t → ¬ (c.op = 2 ∧ v ∉ c.vals ∨ c.op = 1 ∧ (c.vals = [] ∨ ∃ w ∈ c.vals, C.fold w = C.fold v))) →
    v ∈ valuesAfter C t orig cur cs
  | [], cur, hc, _ => hc
  | c :: cs, cur, hc, h => by
    have ih := valuesAfter_stays (t := t) ho cs
    show v ∈ valuesAfter C t orig (if C.fold c.typ = C.fold t then changeValues C orig cur c else cur) cs
    refine ih _ ?_ fun d hd => h d (List.mem_cons_of_mem _ hd)
    split
    · rename_i ht
      have hk := h c (by simp) ht
      unfold changeValues
      split
      · exact List.mem_append_left _ hc
      · split
        · rename_i h2
          exact Classical.byContradiction fun hn => hk (.inl ⟨h2, hn⟩)
        · split
          · rename_i h1
            split
            · rename_i he
              exact absurd (.inr ⟨h1, .inl he⟩) hk
            · refine List.mem_filter.2 ⟨ho, ?_⟩
              simp only [decide_eq_true_eq]
              exact fun w hw e => hk (.inr ⟨h1, .inr ⟨w, hw, e.symm⟩⟩)
          · exact hc
    · exact hc

/-- What holds of the attributes of all entries. -/
theorem step_attrs {P : List Attr → Prop} (hmod : ∀ e e' s cs, applyModify C e s cs = .ok e' → (∀ c ∈ cs, IsAscii c.typ) → P e.attrs → P e'.attrs)
    {d : Dir} (hd : ∀ n ∈ d, P n.entry.attrs) (op : Op) (hop : op.Ok C) (hp : op.plain) (hadd : ∀ e, op = .add e → P e.attrs) :
    ∀ n ∈ (specStep C validate base d op).2, P n.entry.attrs := by
  have hset : ∀ {k k' e'}, P e'.attrs → ∀ n ∈ d.rename k k' e', P n.entry.attrs := by
    intro k k' e' h n hn
    obtain ⟨m, hm, rfl⟩ := List.mem_map.1 hn
    split
    · exact h
    · exact hd m hm
  cases op with
  | add e =>
    simp only [specStep, specAdd, specAddAt]
    repeat' split
    all_goals first | exact hd | skip
    intro n hn
    rcases List.mem_append.1 hn with hn | hn
    · exact hd n hn
    · simp at hn
      subst hn
      exact hadd e rfl
  | delete dn =>
    simp only [specStep, specDelete, specDeleteAt]
    repeat' split
    all_goals first | exact hd | skip
    intro n hn
    exact hd n (List.mem_filter.1 hn).1
  | modify dn cs =>
    simp only [specStep, specModify, specModifyAt]
    repeat' split
    all_goals first | exact hd | skip
    rename_i e0 h0 _ e' he'
    exact hset (hmod _ _ _ _ he' hp (hd _ (get_node h0)))
  | password req =>
    simp only [specStep, specPassword, specPasswordAt]
    repeat' split
    all_goals first | exact hd | skip
    rename_i e0 h0 _ _ _ e' he'
    refine hset (hmod _ _ _ _ he' ?_ (hd _ (get_node h0)))
    intro c hc
    rw [List.mem_singleton] at hc
    subst hc
    exact (by decide +kernel : IsAscii sUserPassword)
  | rename req =>
    simp only [specStep]
    split
    · exact hd
    · exact hd
    · exact hd
    · exact hd
    · rename_i o p n q ho hn
      simp only [specRename, specRenameAt]
      repeat' split
      all_goals first | exact hd | skip
      rename_i e0 h0 _ _ e' he' _
      refine hset (hmod _ _ _ _ he' ?_ (hd _ (get_node h0)))
      intro c hc
      rcases List.mem_append.1 hc with hc | hc
      · split at hc
        · obtain ⟨a, ha, rfl⟩ := List.mem_map.1 hc
          exact typeOk_ascii ((hop.1 _ ho o (by simp)).2 a ha)
        · simp at hc
      · obtain ⟨a, ha, rfl⟩ := List.mem_map.1 hc
        exact typeOk_ascii ((hop.2 _ hn n (by simp)).2 a ha)

/-- Attribute types are ASCII and different up to case. -/
def Tidy (C : CaseEnv) (as : List Attr) : Prop := AsciiNames as ∧ UniqueNames C as

theorem tidy_modify {e e' : Entry} {s : Str} {cs : List Change} (h : applyModify C e s cs = .ok e') (ht : ∀ c ∈ cs, IsAscii c.typ)
    (hd : Tidy C e.attrs) : Tidy C e'.attrs := by
  obtain ⟨rdn, rest, md, -, -, -, -, h⟩ := applyModify_ok h
  have main : ∀ (cs : List Change) (as as' : List Attr), (∀ c ∈ cs, IsAscii c.typ) → Tidy C as → applyChanges C rdn e.attrs as cs = .ok as' → Tidy C as' := by
    intro cs
    induction cs with
    | nil => intro as as' _ h h'; simp [applyChanges] at h'; exact h' ▸ h
    | cons c cs ih =>
      intro as as' ht hd h
      obtain ⟨x, h1, h2⟩ := applyChanges_cons h
      refine ih x as' (fun d hd => ht d (List.mem_cons_of_mem _ hd)) ⟨?_, applyChange_unique h1 hd.2⟩ h2
      rcases applyChange_ok h1 with ⟨_, rfl⟩ | ⟨_, _, rfl⟩ | ⟨_, _, rfl⟩ | ⟨_, _, _, rfl⟩
      · exact entryReplaceValues_ascii (ht c (by simp)) hd.1
      · exact entryReplaceValues_ascii (ht c (by simp)) hd.1
      · exact entryReplaceValues_ascii (ht c (by simp)) hd.1
      · exact hd.1
  exact main cs _ _ ht hd h

theorem tidy_step {d : Dir} (hd : ∀ n ∈ d, Tidy C n.entry.attrs) (op : Op) (hop : op.Ok C) (hp : op.plain) (hu : op.distinct C) :
    ∀ n ∈ (specStep C validate base d op).2, Tidy C n.entry.attrs :=
  step_attrs (fun _ _ _ _ h ht hd => tidy_modify h ht hd) hd op hop hp fun _ he => by subst he; exact ⟨hp, hu⟩

theorem tidy_run : ∀ (ops : List Op) (d : Dir), (∀ n ∈ d, Tidy C n.entry.attrs) → (∀ op ∈ ops, op.Ok C) → (∀ op ∈ ops, op.plain) →
    (∀ op ∈ ops, op.distinct C) → ∀ n ∈ (specRun C validate base d ops).2, Tidy C n.entry.attrs
  | [], _, hd, _, _, _ => hd
  | op :: ops, d, hd, hok, hp, hu => tidy_run ops _ (tidy_step hd op (hok op (by simp)) (hp op (by simp)) (hu op (by simp)))
    (fun x hx => hok x (List.mem_cons_of_mem _ hx)) (fun x hx => hp x (List.mem_cons_of_mem _ hx)) fun x hx => hu x (List.mem_cons_of_mem _ hx)

/-- A call that is refused changes nothing. -/
theorem step_refused {d : Dir} {op : Op} (h : (specStep C validate base d op).1 ≠ .ok ()) : (specStep C validate base d op).2 = d := by
  cases op with
  | add e =>
    revert h
    simp only [specStep, specAdd, specAddAt]
    repeat' split
    all_goals first | exact fun _ => rfl | exact fun h => absurd rfl h
  | delete s =>
    revert h
    simp only [specStep, specDelete, specDeleteAt]
    repeat' split
    all_goals first | exact fun _ => rfl | exact fun h => absurd rfl h
  | modify s cs =>
    revert h
    simp only [specStep, specModify, specModifyAt]
    repeat' split
    all_goals first | exact fun _ => rfl | exact fun h => absurd rfl h
  | password r =>
    revert h
    simp only [specStep, specPassword, specPasswordAt]
    repeat' split
    all_goals first | exact fun _ => rfl | exact fun h => absurd rfl h
  | rename r =>
    revert h
    simp only [specStep, specRename, specRenameAt]
    repeat' split
    all_goals first | exact fun _ => rfl | exact fun h => absurd rfl h

theorem stay_modify (hC : C.Lawful) {t v : Str} {e e' : Entry} {s : Str} {cs : List Change} (h : applyModify C e s cs = .ok e') (hd : Tidy C e.attrs)
    (ha : ∀ c ∈ cs, IsAscii c.typ) (hv : v ∈ valuesOf C e.attrs t)
    (hk : ∀ c ∈ cs, C.fold c.typ = C.fold t → ¬ (c.op = 2 ∧ v ∉ c.vals ∨ c.op = 1 ∧ (c.vals = [] ∨ ∃ w ∈ c.vals, C.fold w = C.fold v))) :
    v ∈ valuesOf C e'.attrs t := by
  rw [C15_values_partial hC e e' s cs hd.1 ha hd.2 h t]
  exact valuesAfter_stays hv cs _ hv hk

/-- The entry `k` has the value. -/
def Holds (C : CaseEnv) (t v : Str) (d : Dir) (k : DN) : Prop := ∃ e, d.get k = some e ∧ v ∈ valuesOf C e.attrs t

theorem stay_other (hC : C.Lawful) {t v : Str} {d : Dir} (hd : ∀ n ∈ d, Tidy C n.entry.attrs) {op : Op} (hp : op.plain) {k : DN}
    (h : Holds C t v d k) (hk : ¬ op.takes C t v k) : Holds C t v (specStep C validate base d op).2 k := by
  by_cases hr : ¬ (specStep C validate base d op).1 = .ok ()
  · rw [step_refused hr]
    exact h
  have hr := Classical.not_not.1 hr
  by_cases hab : k ∉ op.about C
  · obtain ⟨e, h1, h2⟩ := h
    exact ⟨e, ((local_step (C := C) (validate := validate) (base := base) op).1 d k hab).trans h1, h2⟩
  have hab := Classical.not_not.1 hab
  obtain ⟨e, h1, h2⟩ := h
  have hhas : d.has k = true := by rw [has_get, h1]; rfl
  cases op with
  | add x =>
    exfalso
    simp only [Op.about, Option.mem_toList, Option.map_eq_some_iff] at hab
    obtain ⟨n, hn, rfl⟩ := hab
    revert hr
    simp only [specStep, hn, specAdd, specAddAt, hhas]
    repeat' split
    all_goals simp_all
  | delete s =>
    simp only [Op.about, Option.mem_toList, Option.map_eq_some_iff] at hab
    exact absurd hab hk
  | modify s cs =>
    simp only [Op.about, Option.mem_toList, Option.map_eq_some_iff] at hab
    obtain ⟨n, hn, rfl⟩ := hab
    revert hr
    simp only [specStep, hn, specModify, specModifyAt, h1]
    split
    · rename_i e' he'
      intro _
      refine ⟨e', by rw [get_setEntry, if_pos rfl, h1]; rfl, ?_⟩
      exact stay_modify hC he' (hd _ (get_node h1)) hp h2 fun c hc ht hx => hk ⟨⟨n, hn, rfl⟩, c, hc, ht, hx⟩
    all_goals (intro h; cases h)
  | password r =>
    simp only [Op.about, Option.mem_toList, Option.map_eq_some_iff] at hab
    obtain ⟨n, hn, rfl⟩ := hab
    revert hr
    simp only [specStep, hn, specPassword, specPasswordAt, h1]
    split
    · split
      · rename_i e' he'
        intro _
        refine ⟨e', by rw [get_setEntry, if_pos rfl, h1]; rfl, ?_⟩
        refine stay_modify hC he' (hd _ (get_node h1)) ?_ h2 ?_
        · intro c hc
          rw [List.mem_singleton] at hc
          subst hc
          exact (by decide +kernel : IsAscii sUserPassword)
        · intro c hc ht hx
          rw [List.mem_singleton] at hc
          subst hc
          rcases hx with ⟨_, hx⟩ | ⟨hx, _⟩
          · exact hk ⟨⟨n, hn, rfl⟩, ht, by simpa using hx⟩
          · simp [opReplace] at hx
      all_goals (intro h; cases h)
    all_goals (intro h; cases h)
  | rename r =>
    exfalso
    simp only [Op.about] at hab
    split at hab
    · rename_i o p n q ho hn
      simp only [List.mem_cons, List.not_mem_nil, or_false] at hab
      rcases hab with rfl | rfl
      · exact hk ⟨_, ho, rfl⟩
      · revert hr
        simp only [specStep, ho, hn, specRename, specRenameAt, hhas]
        simp
    · simp at hab

theorem stay_renamed (hC : C.Lawful) {t v : Str} {d : Dir} (hd : ∀ n ∈ d, Tidy C n.entry.attrs) {q : ModifyDNReq} (hop : (Op.rename q).Ok C) {o n : RDN} {p m : DN}
    (ho : parseDN C q.dn = some (o :: p)) (hn : parseDN C q.newRDN = some (n :: m)) (h : Holds C t v d (foldDN C (o :: p)))
    (hk : ¬ (q.deleteOldRDN = true ∧ ∃ a ∈ o, C.fold a.typ = C.fold t ∧ C.fold a.val = C.fold v))
    (hr : (specStep C validate base d (.rename q)).1 = .ok ()) : Holds C t v (specStep C validate base d (.rename q)).2 (foldDN C (n :: p)) := by
  obtain ⟨e, h1, h2⟩ := h
  revert hr
  simp only [specStep, ho, hn, specRename, specRenameAt, h1]
  split
  · intro h; cases h
  rename_i hhas
  split
  · intro h; cases h
  split
  · rename_i e' he'
    split
    · intro h; cases h
    intro _
    refine ⟨e', get_rename_self h1 (by simpa using hhas), ?_⟩
    refine stay_modify hC he' (hd _ (get_node h1)) ?_ h2 ?_
    · intro c hc
      rcases List.mem_append.1 hc with hc | hc
      · split at hc
        · obtain ⟨a, ha, rfl⟩ := List.mem_map.1 hc
          exact typeOk_ascii ((hop.1 _ ho o (by simp)).2 a ha)
        · simp at hc
      · obtain ⟨a, ha, rfl⟩ := List.mem_map.1 hc
        exact typeOk_ascii ((hop.2 _ hn n (by simp)).2 a ha)
    · intro c hc ht hx
      rcases List.mem_append.1 hc with hc | hc
      · split at hc
        · rename_i hdel
          obtain ⟨a, ha, rfl⟩ := List.mem_map.1 hc
          rcases hx with ⟨hx, _⟩ | ⟨_, hx⟩
          · simp [opDelete] at hx
          · simp at hx
            exact hk ⟨hdel, a, ha, ht, hx⟩
        · simp at hc
      · obtain ⟨a, ha, rfl⟩ := List.mem_map.1 hc
        simp [opAdd] at hx
  all_goals (intro h; cases h)

theorem run_stays (hC : C.Lawful) {t v : Str} : ∀ (us : List Op) (d : Dir) (k k' : DN), (∀ n ∈ d, Tidy C n.entry.attrs) → (∀ op ∈ us, op.Ok C) →
    (∀ op ∈ us, op.plain) → (∀ op ∈ us, op.distinct C) → Holds C t v d k → Stays C t v (us.zip (specRun C validate base d us).1) k k' →
    Holds C t v (specRun C validate base d us).2 k'
  | [], d, k, k', _, _, _, _, h, hs => by
    simp only [List.zip_nil_left] at hs
    cases hs
    exact h
  | u :: us, d, k, k', hd, hok, hp, hu, h, hs => by
    simp only [specRun, List.zip_cons_cons] at hs ⊢
    have ih := fun k hh hs => run_stays hC (t := t) (v := v) us _ k k' (tidy_step (validate := validate) (base := base) hd u (hok u (by simp)) (hp u (by simp)) (hu u (by simp)))
      (fun x hx => hok x (List.mem_cons_of_mem _ hx)) (fun x hx => hp x (List.mem_cons_of_mem _ hx)) (fun x hx => hu x (List.mem_cons_of_mem _ hx)) hh hs
    cases hs with
    | refused hr hs => exact ih k (by rw [step_refused hr]; exact h) hs
    | other hk hs => exact ih k (stay_other hC hd (hp u (by simp)) h hk) hs
    | renamed ho hn hk hr hs => exact ih _ (stay_renamed hC hd (hok _ (by simp)) ho hn h hk hr) hs

/-- C129, for histories in which no entry is added with one attribute type in two spellings: whatever happened before, a value (byte by byte) that an
entry has stays until it is taken away: after any further calls, of anybody and about anything, of which none that was carried out asked for this value
to go, the entry is found under the name it then has, and has the value. Missing: entries with one attribute type in two spellings. -/
theorem C129_stays_partial (hC : C.Lawful) (hG : G.Lawful) (hb : BaseOk C base) (ops us : List Op) (h : HistOk C (ops ++ us)) (hp : ∀ op ∈ ops ++ us, op.plain)
    (hu : ∀ op ∈ ops ++ us, op.distinct C) (text : Str) (name : DN) (hn : parseDN C text = some name) (hok : NameOk name) (e : Entry)
    (hf : boltSearch C G (after C G validate base ops) text scopeBase = .ok ([e], none)) (t v : Str) (hv : v ∈ valuesOf C e.attrs t)
    (text' : Str) (name' : DN) (hn' : parseDN C text' = some name') (hok' : NameOk name')
    (hs : Stays C t v (us.zip (boltRun C G validate (render base) (after C G validate base ops) us).1) (foldDN C name) (foldDN C name')) :
    ∃ e', boltSearch C G (after C G validate base (ops ++ us)) text' scopeBase = .ok ([e'], none) ∧ v ∈ valuesOf C e'.attrs t := by
  have hlen := h.len
  rw [List.length_append] at hlen
  have h0 : HistOk C ops := ⟨fun o ho => h.ok o (List.mem_append_left _ ho), by omega⟩
  have hg := found_get (validate := validate) hC hG hb ops h0 hn hok hf
  rw [results_spec hC hG hb ops us h] at hs
  have ht : ∀ n ∈ dirAfter C validate base ops, Tidy C n.entry.attrs :=
    tidy_run ops [] (by simp) h0.ok (fun o ho => hp o (List.mem_append_left _ ho)) fun o ho => hu o (List.mem_append_left _ ho)
  obtain ⟨e', g1, g2⟩ := run_stays (validate := validate) (base := base) hC us _ _ _ ht (fun o ho => h.ok o (List.mem_append_right _ ho))
    (fun o ho => hp o (List.mem_append_right _ ho)) (fun o ho => hu o (List.mem_append_right _ ho)) ⟨e, hg, hv⟩ hs
  obtain ⟨ns, -, b2, R, -⟩ := sim_run_empty (validate := validate) hC hG hb (ops ++ us) h.ok h.len
  refine ⟨e', serves_get (serves_of_rel hC hG R) hn' hok' ?_, g2⟩
  rw [← b2, specRun_append]
  exact g1

end

/-- An entry with an attribute type in two spellings, as an add request may have them. -/
def twoSpellings : List Op := [.add ⟨b!"dc=lg", [⟨b!"dc", [b!"lg"]⟩]⟩, .add ⟨b!"uid=a,dc=lg", [⟨b!"MAIL", [b!"x"]⟩, ⟨b!"mail", [b!"z"]⟩, ⟨b!"uid", [b!"a"]⟩]⟩]

/-- C129 fails for attribute types in two spellings: adding a value to such an entry makes it lose another one. -/
theorem C129_spelling_fails : let us : List Op := [.modify b!"uid=a,dc=lg" [⟨0, b!"mail", [b!"y"]⟩]]
    HistOk asciiCase (twoSpellings ++ us) ∧
    (boltRun asciiCase gobInstance exValidate (render exBase) (after asciiCase gobInstance exValidate exBase twoSpellings) us).1 = [.ok ()] ∧
    Stays asciiCase b!"mail" b!"z" (us.zip [.ok ()]) [[⟨b!"uid", b!"a"⟩], [⟨b!"dc", b!"lg"⟩]] [[⟨b!"uid", b!"a"⟩], [⟨b!"dc", b!"lg"⟩]] ∧
    ∃ e e', boltSearch asciiCase gobInstance (after asciiCase gobInstance exValidate exBase twoSpellings) b!"uid=a,dc=lg" scopeBase = .ok ([e], none) ∧
      b!"z" ∈ valuesOf asciiCase e.attrs b!"mail" ∧
      boltSearch asciiCase gobInstance (after asciiCase gobInstance exValidate exBase (twoSpellings ++ us)) b!"uid=a,dc=lg" scopeBase = .ok ([e'], none) ∧
      b!"z" ∉ valuesOf asciiCase e'.attrs b!"mail" :=
  ⟨by decide +kernel, by decide +kernel, .other (by rintro ⟨-, c, hc, -, h⟩; simp at hc; subst hc; simp at h) .done,
    ⟨b!"uid=a,dc=lg", [⟨b!"MAIL", [b!"x"]⟩, ⟨b!"mail", [b!"z"]⟩, ⟨b!"uid", [b!"a"]⟩]⟩,
    ⟨b!"uid=a,dc=lg", [⟨b!"MAIL", [b!"x", b!"y"]⟩, ⟨b!"mail", [b!"x", b!"y"]⟩, ⟨b!"uid", [b!"a"]⟩]⟩, by decide +kernel⟩

/-- C129 applies: the address of an entry that is renamed and gets a new password stays -/
example : ∃ e', boltSearch asciiCase gobInstance (after asciiCase gobInstance exValidate exBase (exOps.take 8 ++ exOps.drop 8)) b!"uid=c,ou=p,dc=lg" scopeBase = .ok ([e'], none) ∧
    b!"m" ∈ valuesOf asciiCase e'.attrs b!"MAIL" := by
  refine C129_stays_partial asciiCase_lawful gobInstance_lawful exBase_ok (exOps.take 8) (exOps.drop 8) (by decide +kernel) (by decide +kernel) (by decide +kernel)
    b!"uid=a,ou=p,dc=lg" [[⟨b!"uid", b!"a"⟩], [⟨b!"ou", b!"p"⟩], [⟨b!"dc", b!"lg"⟩]] (by decide +kernel) (by decide +kernel)
    ⟨b!"uid=a,ou=p,dc=lg", [⟨b!"uid", [b!"a"]⟩, ⟨b!"userPassword", [b!"x"]⟩, ⟨b!"mail", [b!"m"]⟩]⟩ (by decide +kernel) b!"MAIL" b!"m" (by decide +kernel)
    b!"uid=c,ou=p,dc=lg" [[⟨b!"uid", b!"c"⟩], [⟨b!"ou", b!"p"⟩], [⟨b!"dc", b!"lg"⟩]] (by decide +kernel) (by decide +kernel) ?_
  rw [show (boltRun asciiCase gobInstance exValidate (render exBase) (after asciiCase gobInstance exValidate exBase (exOps.take 8)) (exOps.drop 8)).1 =
    [.ok (), .ok ()] by decide +kernel]
  refine .renamed (o := [⟨b!"uid", b!"a"⟩]) (n := [⟨b!"uid", b!"C"⟩]) (p := [[⟨b!"ou", b!"p"⟩], [⟨b!"dc", b!"lg"⟩]]) (m := [])
    (by decide +kernel) (by decide +kernel) (by decide +kernel) rfl (.other ?_ .done)
  rintro ⟨-, h, -⟩
  revert h
  decide +kernel

end Idm
