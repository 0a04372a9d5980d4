import Verif.Props.BoltFind
import Verif.Proofs.Ldif
/-!
# C115: searches agree with each other
-/
namespace Idm
open Dir

section
variable {C : CaseEnv} {validate : Str → Str → Res Bool} {base : DN}

/-- If the attribute types of all names need no escapes then neither do those of the DN texts of entries. -/
theorem specStep_textOk (hC : C.Lawful) {d : Dir} (hd : ∀ n ∈ d, TextOk C n.entry.dn) (op : Op) (hop : op.Ok C) :
    ∀ n ∈ (specStep C validate base d op).2, TextOk C n.entry.dn := by
  have hget : ∀ k e, d.get k = some e → TextOk C e.dn := by
    intro k e h
    unfold Dir.get at h
    obtain ⟨n, hn, he⟩ := Option.map_eq_some_iff.1 h
    exact he ▸ hd n (List.mem_of_find?_eq_some hn)
  have hset : ∀ (k k' : DN) (e : Entry), TextOk C e.dn → ∀ n ∈ d.rename k k' e, TextOk C n.entry.dn := by
    intro k k' e he n hn
    obtain ⟨m, hm, rfl⟩ := List.mem_map.1 hn
    split
    · exact he
    · exact hd m hm
  have hmod : ∀ {e e' : Entry} {t : Str} {cs : List Change}, applyModify C e t cs = .ok e' → TextOk C e.dn → TextOk C e'.dn := by
    intro e e' t cs h
    obtain ⟨_, _, _, h1, _, _, h2, _⟩ := applyModify_ok h
    rw [h2]
    exact id
  cases op with
  | add e =>
    simp only [specStep, specAdd, specAddAt]
    repeat' split
    all_goals first
      | exact hd
      | (intro n hn
         rcases List.mem_append.1 hn with hn | hn
         · exact hd n hn
         · simp at hn
           subst hn
           intro m hm
           refine hop m ?_
           unfold parseDN at hm
           unfold entryPutDN
           cases hr : parseDNRes C e.dn with
           | fail p => rw [hr] at hm; cases hm
           | ok x => rw [hr] at hm; exact hm)
  | delete dn =>
    simp only [specStep, specDelete, specDeleteAt]
    repeat' split
    all_goals first
      | exact hd
      | (intro n hn; exact hd n (List.mem_filter.1 hn).1)
  | modify dn cs =>
    simp only [specStep, specModify, specModifyAt]
    repeat' split
    all_goals first
      | exact hd
      | (rename_i h0 _ _ h; exact hset _ _ _ (hmod h (hget _ _ h0)))
  | password req =>
    simp only [specStep, specPassword, specPasswordAt]
    repeat' split
    all_goals first
      | exact hd
      | (rename_i h0 _ _ _ _ h; exact hset _ _ _ (hmod h (hget _ _ h0)))
  | rename req =>
    simp only [specStep]
    split
    · exact hd
    · exact hd
    · exact hd
    · exact hd
    · rename_i o p n q ho hn
      simp only [specRename, specRenameAt]
      have hok : NameOk (n :: p) := by
        intro r hr
        rcases List.mem_cons.1 hr with rfl | hr
        · exact hop.2 _ hn r (by simp)
        · exact hop.1 _ ho r (by simp [hr])
      repeat' split
      all_goals first
        | exact hd
        | (rename_i h _
           refine hset _ _ _ (hmod h ?_)
           intro name hp
           dsimp only at hp
           have hk : EndOk (foldDN C (n :: p)) := Decidable.byContradiction fun hk => by
             rw [parseDN_render_blank hC _ (foldDN_nameOk hC hok) hk] at hp; cases hp
           rw [parseDN_render hC _ (foldDN_nameOk hC hok) hk] at hp
           cases hp
           exact foldDN_nameOk hC hok)

theorem dirAfter_textOk (hC : C.Lawful) (ops : List Op) (h : HistOk C ops) : ∀ n ∈ dirAfter C validate base ops, TextOk C n.entry.dn := by
  have : ∀ (ops : List Op) (d : Dir), (∀ n ∈ d, TextOk C n.entry.dn) → (∀ op ∈ ops, op.Ok C) →
      ∀ n ∈ (specRun C validate base d ops).2, TextOk C n.entry.dn := by
    intro ops
    induction ops with
    | nil => intro d hd _; exact hd
    | cons op ops ih =>
      intro d hd hok
      simp only [specRun]
      exact ih _ (specStep_textOk hC hd op (hok op (by simp))) fun x hx => hok x (by simp [hx])
  exact this ops [] (by simp) h.ok

end

section
variable {V : Env} {G : GobEnv} {cfg : BoltCfg} {n : Nat} {stats : Bool} {base : DN}

theorem entriesOf_found (id : Int) (f : Node → Entry) (found : List Node) (code : Nat) (cs : Option (List Control)) :
    entriesOf (found.map (fun x => .entry id (f x)) ++ [.searchDone id code cs]) = found.map f := by
  unfold entriesOf
  rw [List.filterMap_append]
  simp [List.filterMap_map, Function.comp_def]

/-- What any search of C33 finds, whether its base exists or not. -/
theorem sent_iff (hC : V.C.Lawful) (hG : G.Lawful) (hb : BaseOk V.C base) (ops : List Op) (h : HistOk V.C ops)
    (u : Filter → Entry → Prop)
    (hparse : ∀ x ∈ dirAfter V.C (validatePw V.C V.K) base ops, ∃ nm, parseDN V.C x.entry.dn = some nm)
    (b : Str) (name : DN) (hname : parseDN V.C b = some name) (hok : NameOk name) (hne : name ≠ []) (scope : Nat) (hs : scope ≤ 2)
    (hplain : scope ≠ 2 → ∀ x ∈ dirAfter V.C (validatePw V.C V.K) base ops,
      PlainFirst x.entry.dn ∧ ∀ nm, parseDN V.C x.entry.dn = some nm → CaseSame V.C nm name)
    (f : Filter) (w : Packet) (hw : Wire f w) (hf : FilterOk f) (hsup : Supported f) (attrs : List Str)
    (hrep : NoRepeat V.C attrs) (o : Oracle) (id : Int) (bound : Str) (e : Entry) :
    e ∈ entriesOf (handlePacket V (boltSrv V G cfg n stats) o (wMsg id (wSearch b scope 0 w attrs)) bound
        (after V.C G (validatePw V.C V.K) base ops)).resps ↔
      (dirAfter V.C (validatePw V.C V.K) base ops).has (foldDN V.C name) = true ∧
      ∃ x ∈ dirAfter V.C (validatePw V.C V.K) base ops, InScope scope (foldDN V.C name) x.name ∧ Sat V.C u x.entry (firstOnly f) ∧
        e = reduced V.C attrs x.entry := by
  cases hhas : (dirAfter V.C (validatePw V.C V.K) base ops).has (foldDN V.C name) with
  | false =>
    rw [C33_no_base_partial (cfg := cfg) (n := n) (stats := stats) hC hG hb ops h b name hname hok scope f w hw hf attrs 0 o id bound hhas]
    simp [entriesOf]
  | true =>
    obtain ⟨found, -, h2, h3⟩ := C33_search_first_partial (cfg := cfg) (n := n) (stats := stats) hC hG hb ops h u hparse b name hname hok hne
      scope hs hplain f w hw hf hsup attrs hrep o id bound hhas
    rw [h3]
    dsimp only
    rw [entriesOf_found, List.mem_map]
    constructor
    · rintro ⟨x, hx, rfl⟩
      obtain ⟨a, b, c⟩ := (h2 x).1 hx
      exact ⟨rfl, x, a, b, c, rfl⟩
    · rintro ⟨-, x, a, b, c, rfl⟩
      exact ⟨x, (h2 x).2 ⟨a, b, c⟩, rfl⟩

/-- Two entries with the same DN text are one. -/
theorem same_text (hC : V.C.Lawful) (hG : G.Lawful) (hb : BaseOk V.C base) (ops : List Op) (h : HistOk V.C ops)
    (hparse : ∀ x ∈ dirAfter V.C (validatePw V.C V.K) base ops, ∃ nm, parseDN V.C x.entry.dn = some nm)
    {x y : Node} (hx : x ∈ dirAfter V.C (validatePw V.C V.K) base ops) (hy : y ∈ dirAfter V.C (validatePw V.C V.K) base ops)
    (he : x.entry.dn = y.entry.dn) : x = y := by
  obtain ⟨nm, hnm⟩ := hparse x hx
  have h1 := dirAfter_text hC ops h x hx nm hnm
  have h2 := dirAfter_text hC ops h y hy nm (he ▸ hnm)
  have hu := (C11_names_unique (validate := validatePw V.C V.K) hC hG hb ops h).1
  exact nodup_inj hu x hx y hy (h1.symm.trans h2)

/-- C115: after any history, searches at one place with the filters `f`, `g`, `(&(f)(g))`, `(|(f)(g))` and `(&(g)(!(f)))` agree with each other:
the third finds what the first two have in common, the fourth what any of them has, the last what the second has and the first has not. (Missing: what
C33 leaves out, but substring filters of any number of components are covered.) -/
theorem C115_filters_partial (hC : V.C.Lawful) (hG : G.Lawful) (hb : BaseOk V.C base) (ops : List Op) (h : HistOk V.C ops)
    (hparse : ∀ x ∈ dirAfter V.C (validatePw V.C V.K) base ops, ∃ nm, parseDN V.C x.entry.dn = some nm)
    (b : Str) (name : DN) (hname : parseDN V.C b = some name) (hok : NameOk name) (hne : name ≠ []) (scope : Nat) (hs : scope ≤ 2)
    (hplain : scope ≠ 2 → ∀ x ∈ dirAfter V.C (validatePw V.C V.K) base ops,
      PlainFirst x.entry.dn ∧ ∀ nm, parseDN V.C x.entry.dn = some nm → CaseSame V.C nm name)
    (f g : Filter) (wf wg wand wor wdiff : Packet) (hwf : Wire f wf) (hwg : Wire g wg) (hand : Wire (.and [f, g]) wand)
    (hor : Wire (.or [f, g]) wor) (hdiff : Wire (.and [g, .not f]) wdiff) (hf : FilterOk f) (hg : FilterOk g) (hsf : Supported f) (hsg : Supported g)
    (attrs : List Str) (hrep : NoRepeat V.C attrs) (o : Oracle) (id : Int) (bound : Str) :
    let S := fun w => entriesOf (handlePacket V (boltSrv V G cfg n stats) o (wMsg id (wSearch b scope 0 w attrs)) bound
      (after V.C G (validatePw V.C V.K) base ops)).resps
    (∀ e, e ∈ S wand ↔ e ∈ S wf ∧ e ∈ S wg) ∧ (∀ e, e ∈ S wor ↔ e ∈ S wf ∨ e ∈ S wg) ∧ (∀ e, e ∈ S wdiff ↔ e ∈ S wg ∧ ¬ e ∈ S wf) := by
  intro S
  have key := fun f w hw hf hsup e => sent_iff (cfg := cfg) (n := n) (stats := stats) hC hG hb ops h (fun _ _ => False) hparse b name hname hok hne scope hs
    hplain f w hw hf hsup attrs hrep o id bound e
  have inj : ∀ x ∈ dirAfter V.C (validatePw V.C V.K) base ops, ∀ y ∈ dirAfter V.C (validatePw V.C V.K) base ops,
      reduced V.C attrs x.entry = reduced V.C attrs y.entry → x = y := fun x hx y hy he =>
    same_text hC hG hb ops h hparse hx hy (show (reduced V.C attrs x.entry).dn = (reduced V.C attrs y.entry).dn from congrArg Entry.dn he)
  have kf := key f wf hwf hf hsf
  have kg := key g wg hwg hg hsg
  refine ⟨fun e => ?_, fun e => ?_, fun e => ?_⟩
  · rw [key (.and [f, g]) wand hand ⟨hf, hg, trivial⟩ ⟨hsf, hsg, trivial⟩ e, kf, kg]
    simp only [firstOnly, firstOnlyAll, Sat, SatAll, and_true]
    constructor
    · rintro ⟨a, x, hx, b, ⟨c1, c2⟩, d⟩
      exact ⟨⟨a, x, hx, b, c1, d⟩, a, x, hx, b, c2, d⟩
    · rintro ⟨⟨a, x, hx, b, c1, d⟩, -, y, hy, -, c2, d'⟩
      have := inj x hx y hy (d.symm.trans d')
      subst this
      exact ⟨a, x, hx, b, ⟨c1, c2⟩, d⟩
  · rw [key (.or [f, g]) wor hor ⟨hf, hg, trivial⟩ ⟨hsf, hsg, trivial⟩ e, kf, kg]
    simp only [firstOnly, firstOnlyAll, Sat, SatAny, or_false]
    constructor
    · rintro ⟨a, x, hx, b, c | c, d⟩
      · exact .inl ⟨a, x, hx, b, c, d⟩
      · exact .inr ⟨a, x, hx, b, c, d⟩
    · rintro (⟨a, x, hx, b, c, d⟩ | ⟨a, x, hx, b, c, d⟩)
      · exact ⟨a, x, hx, b, .inl c, d⟩
      · exact ⟨a, x, hx, b, .inr c, d⟩
  · rw [key (.and [g, .not f]) wdiff hdiff ⟨hg, hf, trivial⟩ ⟨hsg, hsf, trivial⟩ e, kf, kg]
    simp only [firstOnly, firstOnlyAll, Sat, SatAll, and_true]
    constructor
    · rintro ⟨a, x, hx, b, ⟨c1, c2⟩, d⟩
      refine ⟨⟨a, x, hx, b, c1, d⟩, ?_⟩
      rintro ⟨-, y, hy, -, c, d'⟩
      have := inj x hx y hy (d.symm.trans d')
      subst this
      exact c2 c
    · rintro ⟨⟨a, x, hx, b, c, d⟩, hno⟩
      exact ⟨a, x, hx, b, ⟨c, fun c' => hno ⟨a, x, hx, b, c', d⟩⟩, d⟩

/-- What is between an entry and one below it is in the directory. -/
theorem between (hC : V.C.Lawful) (hG : G.Lawful) (hb : BaseOk V.C base) (ops : List Op) (h : HistOk V.C ops)
    {k : DN} (hk : (dirAfter V.C (validatePw V.C V.K) base ops).has k = true) (r : RDN) (p : DN) :
    (dirAfter V.C (validatePw V.C V.K) base ops).has (p ++ r :: k) = true →
      (dirAfter V.C (validatePw V.C V.K) base ops).has (r :: k) = true := by
  obtain ⟨ns, -, b2, R, -⟩ := sim_run_empty (G := G) (validate := validatePw V.C V.K) hC hG hb ops h.ok h.len
  rw [dirAfter, b2] at hk ⊢
  obtain ⟨n0, h0, rfl⟩ := Rel.has_iff.1 hk
  have hlen := (R.forest n0 h0).1
  induction p with
  | nil => exact id
  | cons q p ih =>
    intro hh
    refine ih ?_
    obtain ⟨m, hm, e⟩ := Rel.has_iff.1 hh
    obtain ⟨x, hx, hc, -⟩ := (R.forest m hm).2 (by rw [e]; simp; omega)
    obtain ⟨r', e'⟩ := isChild_iff.1 hc
    rw [e] at e'
    simp only [List.cons_append, List.cons.injEq] at e'
    exact Rel.has_iff.2 ⟨x, hx, e'.2.symm⟩

/-- C115: after any history, reading the tree level by level finds what a search of the subtree finds: the entry itself, and what is found below the
names that a one-level search (for whatever attributes, with the filter `(&)` that all entries satisfy) answers with. (Missing: what C33 leaves out, but
substring filters of any number of components are covered.) -/
theorem C115_walk_partial (hC : V.C.Lawful) (hG : G.Lawful) (hb : BaseOk V.C base) (ops : List Op) (h : HistOk V.C ops)
    (hparse : ∀ x ∈ dirAfter V.C (validatePw V.C V.K) base ops, ∃ nm, parseDN V.C x.entry.dn = some nm)
    (b : Str) (name : DN) (hname : parseDN V.C b = some name) (hok : NameOk name) (hne : name ≠ [])
    (hplain : ∀ x ∈ dirAfter V.C (validatePw V.C V.K) base ops,
      PlainFirst x.entry.dn ∧ ∀ nm, parseDN V.C x.entry.dn = some nm → CaseSame V.C nm name)
    (f : Filter) (wf all : Packet) (hwf : Wire f wf) (hall : Wire (.and []) all) (hf : FilterOk f) (hsf : Supported f)
    (attrs some_ : List Str) (hrep : NoRepeat V.C attrs) (hrep' : NoRepeat V.C some_) (o : Oracle) (id : Int) (bound : Str) :
    let S := fun b scope w attrs => entriesOf (handlePacket V (boltSrv V G cfg n stats) o (wMsg id (wSearch b scope 0 w attrs)) bound
      (after V.C G (validatePw V.C V.K) base ops)).resps
    ∀ e, e ∈ S b 2 wf attrs ↔ e ∈ S b 0 wf attrs ∨ ∃ c ∈ S b 1 all some_, e ∈ S c.dn 2 wf attrs := by
  intro S e
  have below : ∀ x ∈ dirAfter V.C (validatePw V.C V.K) base ops, x.name ≠ [] → ∀ e,
      e ∈ S x.entry.dn 2 wf attrs ↔ ∃ y ∈ dirAfter V.C (validatePw V.C V.K) base ops, InScope 2 x.name y.name ∧
        Sat V.C (fun _ _ => False) y.entry (firstOnly f) ∧ e = reduced V.C attrs y.entry := by
    intro x hx hxn e
    obtain ⟨nm, hnm⟩ := hparse x hx
    have ht := dirAfter_text hC ops h x hx nm hnm
    have := sent_iff (cfg := cfg) (n := n) (stats := stats) hC hG hb ops h (fun _ _ => False) hparse x.entry.dn nm hnm
      (dirAfter_textOk hC ops h x hx nm hnm) (fun e => by rw [e] at ht; exact hxn ht.symm) 2 (by omega) (fun h => absurd rfl h) f wf hwf hf hsf attrs hrep o id bound e
    rw [ht] at this
    refine this.trans ⟨fun h => h.2, fun h => ⟨?_, h⟩⟩
    exact List.any_eq_true.2 ⟨x, hx, by simp⟩
  have k2 := sent_iff (cfg := cfg) (n := n) (stats := stats) hC hG hb ops h (fun _ _ => False) hparse b name hname hok hne 2 (by omega)
    (fun h => absurd rfl h) f wf hwf hf hsf attrs hrep o id bound e
  have k0 := sent_iff (cfg := cfg) (n := n) (stats := stats) hC hG hb ops h (fun _ _ => False) hparse b name hname hok hne 0 (by omega)
    (fun _ => hplain) f wf hwf hf hsf attrs hrep o id bound e
  have k1 := sent_iff (cfg := cfg) (n := n) (stats := stats) hC hG hb ops h (fun _ _ => False) hparse b name hname hok hne 1 (by omega)
    (fun _ => hplain) (.and []) all hall trivial trivial some_ hrep' o id bound
  show e ∈ S b 2 wf attrs ↔ _
  rw [show (e ∈ S b 2 wf attrs) = _ from propext k2, show (e ∈ S b 0 wf attrs) = _ from propext k0]
  constructor
  · rintro ⟨a, x, hx, hsc, c, d⟩
    rcases hsc with ⟨h, -⟩ | ⟨h, -⟩ | ⟨-, p, hp⟩
    · simp at h
    · simp at h
    · rcases List.eq_nil_or_concat p with rfl | ⟨p, r, rfl⟩
      · exact .inl ⟨a, x, hx, .inl ⟨rfl, hp⟩, c, d⟩
      · rw [List.concat_eq_append, List.append_assoc] at hp
        have hh := between (G := G) hC hG hb ops h a r p (List.any_eq_true.2 ⟨x, hx, by simpa using hp⟩)
        obtain ⟨y, hy, hyn⟩ := List.any_eq_true.1 hh
        have hyn : y.name = r :: foldDN V.C name := by simpa using hyn
        refine .inr ⟨reduced V.C some_ y.entry, (k1 _).2 ⟨a, y, hy, .inr (.inl ⟨rfl, r, hyn⟩), ?_, rfl⟩, ?_⟩
        · simp [firstOnly, firstOnlyAll, Sat, SatAll]
        · refine (below y hy (by rw [hyn]; simp) e).2 ⟨x, hx, .inr (.inr ⟨rfl, p, ?_⟩), c, d⟩
          rw [hyn, hp]
          simp
  · rintro (⟨a, x, hx, hsc, c, d⟩ | ⟨c, hc, he⟩)
    · rcases hsc with ⟨-, hp⟩ | ⟨h, -⟩ | ⟨h, -⟩
      · exact ⟨a, x, hx, .inr (.inr ⟨rfl, [], hp⟩), c, d⟩
      · simp at h
      · simp at h
    · obtain ⟨a, y, hy, hsc, -, rfl⟩ := (k1 c).1 hc
      rcases hsc with ⟨h, -⟩ | ⟨-, r, hr⟩ | ⟨h, -⟩
      · simp at h
      · obtain ⟨x, hx, hsx, c, d⟩ := (below y hy (by rw [hr]; simp) e).1 he
        rcases hsx with ⟨h, -⟩ | ⟨h, -⟩ | ⟨-, p, hp⟩
        · simp at h
        · simp at h
        · exact ⟨a, x, hx, .inr (.inr ⟨rfl, p ++ [r], by rw [hp, hr]; simp⟩), c, d⟩
      · simp at h

/-- C115: after any history, asking for some attributes gives what is left of the entries of the same search for all attributes when the others are taken
out. (Missing: what C33 leaves out, but substring filters of any number of components are covered.) -/
theorem C115_attributes_partial (hC : V.C.Lawful) (hG : G.Lawful) (hb : BaseOk V.C base) (ops : List Op) (h : HistOk V.C ops)
    (hparse : ∀ x ∈ dirAfter V.C (validatePw V.C V.K) base ops, ∃ nm, parseDN V.C x.entry.dn = some nm)
    (b : Str) (name : DN) (hname : parseDN V.C b = some name) (hok : NameOk name) (hne : name ≠ []) (scope : Nat) (hs : scope ≤ 2)
    (hplain : scope ≠ 2 → ∀ x ∈ dirAfter V.C (validatePw V.C V.K) base ops,
      PlainFirst x.entry.dn ∧ ∀ nm, parseDN V.C x.entry.dn = some nm → CaseSame V.C nm name)
    (f : Filter) (wf : Packet) (hwf : Wire f wf) (hf : FilterOk f) (hsf : Supported f) (attrs : List Str) (hrep : NoRepeat V.C attrs)
    (hnone : attrs ≠ [] ∧ attrs ≠ [[]]) (hstar : b!"*" ∉ attrs) (o : Oracle) (id : Int) (bound : Str) :
    let S := fun attrs => entriesOf (handlePacket V (boltSrv V G cfg n stats) o (wMsg id (wSearch b scope 0 wf attrs)) bound
      (after V.C G (validatePw V.C V.K) base ops)).resps
    ∀ e, e ∈ S attrs ↔ ∃ a ∈ S [], e.dn = a.dn ∧ e.attrs = a.attrs.filter fun t => attrs.any fun r => V.C.eqFold t.name r := by
  intro S e
  have key := fun attrs hrep e => sent_iff (cfg := cfg) (n := n) (stats := stats) hC hG hb ops h (fun _ _ => False) hparse b name hname hok hne scope hs
    hplain f wf hwf hf hsf attrs hrep o id bound e
  have hall : ∀ x : Entry, reduced V.C [] x = x := by
    intro x
    have : (reduced V.C [] x).attrs = x.attrs := by
      unfold reduced
      exact List.filter_eq_self.2 fun a _ => by simp [Requested]
    show (⟨x.dn, (reduced V.C [] x).attrs⟩ : Entry) = x
    rw [this]
  have hsome : ∀ x : Entry, (reduced V.C attrs x).attrs = x.attrs.filter fun t => attrs.any fun r => V.C.eqFold t.name r := by
    intro x
    unfold reduced
    refine List.filter_congr fun a _ => ?_
    rw [Bool.eq_iff_iff, List.any_eq_true]
    refine (@decide_eq_true_iff _ (Classical.propDecidable _)).trans ⟨fun h => by
      rcases h with h | h | h | h
      · exact absurd h hnone.1
      · exact absurd h hnone.2
      · exact absurd h hstar
      · exact h, fun h => .inr (.inr (.inr h))⟩
  rw [show (e ∈ S attrs) = _ from propext (key attrs hrep e)]
  constructor
  · rintro ⟨a, x, hx, b, c, rfl⟩
    exact ⟨x.entry, (key [] (.inr ⟨by simp, .nil⟩) _).2 ⟨a, x, hx, b, c, (hall _).symm⟩, rfl, hsome _⟩
  · rintro ⟨y, hy, h1, h2⟩
    obtain ⟨a, x, hx, b, c, d⟩ := (key [] (.inr ⟨by simp, .nil⟩) _).1 hy
    rw [hall] at d
    subst d
    refine ⟨a, x, hx, b, c, ?_⟩
    cases e
    simp only at h1 h2
    rw [h1, h2, ← hsome]
    rfl

/-- C115: after any history, every entry a search finds can be read again alone: a base-object search at its DN, with the same filter and the same list of
attributes, answers with exactly that entry. (Missing: what C33 leaves out, but substring filters of any number of components are covered.) -/
theorem C115_again_partial (hC : V.C.Lawful) (hG : G.Lawful) (hb : BaseOk V.C base) (ops : List Op) (h : HistOk V.C ops)
    (hparse : ∀ x ∈ dirAfter V.C (validatePw V.C V.K) base ops, ∃ nm, parseDN V.C x.entry.dn = some nm)
    (b : Str) (name : DN) (hname : parseDN V.C b = some name) (hok : NameOk name) (hne : name ≠ []) (scope : Nat) (hs : scope ≤ 2)
    (hplain : ∀ x ∈ dirAfter V.C (validatePw V.C V.K) base ops, PlainFirst x.entry.dn ∧ ∀ nm, parseDN V.C x.entry.dn = some nm →
      CaseSame V.C nm name ∧ ∀ y ∈ dirAfter V.C (validatePw V.C V.K) base ops, ∀ nm', parseDN V.C y.entry.dn = some nm' → CaseSame V.C nm nm')
    (f : Filter) (wf : Packet) (hwf : Wire f wf) (hf : FilterOk f) (hsf : Supported f) (attrs : List Str) (hrep : NoRepeat V.C attrs)
    (o : Oracle) (id : Int) (bound : Str) :
    let S := fun b scope => entriesOf (handlePacket V (boltSrv V G cfg n stats) o (wMsg id (wSearch b scope 0 wf attrs)) bound
      (after V.C G (validatePw V.C V.K) base ops)).resps
    ∀ e, e ∈ S b scope → S e.dn 0 = [e] := by
  intro S e he
  obtain ⟨-, x, hx, hsc, hsat, rfl⟩ := (sent_iff (cfg := cfg) (n := n) (stats := stats) hC hG hb ops h (fun _ _ => False) hparse b name hname hok hne scope hs
    (fun _ y hy => ⟨(hplain y hy).1, fun nm hnm => ((hplain y hy).2 nm hnm).1⟩) f wf hwf hf hsf attrs hrep o id bound e).1 he
  obtain ⟨nm, hnm⟩ := hparse x hx
  have ht := dirAfter_text hC ops h x hx nm hnm
  have hxn : x.name ≠ [] := by
    intro e
    have hfn : foldDN V.C name = [] := by
      rcases hsc with ⟨-, h⟩ | ⟨-, r, h⟩ | ⟨-, p, h⟩
      · exact h.symm.trans e
      · rw [e] at h; cases h
      · rw [e] at h; exact (List.append_eq_nil_iff.1 h.symm).2
    unfold foldDN at hfn
    exact hne (List.map_eq_nil_iff.1 hfn)
  obtain ⟨found, h1, h2, h3⟩ := C33_search_first_partial (cfg := cfg) (n := n) (stats := stats) hC hG hb ops h (fun _ _ => False) hparse x.entry.dn nm hnm
    (dirAfter_textOk hC ops h x hx nm hnm) (fun e => by rw [e] at ht; exact hxn ht.symm) 0 (by omega)
    (fun _ y hy => ⟨(hplain y hy).1, fun nm' hnm' => ((hplain y hy).2 nm' hnm').2 x hx nm hnm⟩) f wf hwf hf hsf attrs hrep o id bound
    (List.any_eq_true.2 ⟨x, hx, by simpa using ht.symm⟩)
  rw [ht] at h2
  have hfound : found = [x] := by
    have hxf : x ∈ found := (h2 x).2 ⟨hx, .inl ⟨rfl, rfl⟩, hsat⟩
    have hall : ∀ y ∈ found, y = x := by
      intro y hy
      obtain ⟨hyd, hysc, -⟩ := (h2 y).1 hy
      have hyn : y.name = x.name := by
        rcases hysc with ⟨-, h⟩ | ⟨h, -⟩ | ⟨h, -⟩
        · exact h
        · simp at h
        · simp at h
      exact nodup_inj h1 y hy x hxf hyn
    match found, h1, hxf, hall with
    | [], _, hxf, _ => cases hxf
    | [y], _, _, hall => rw [hall y (by simp)]
    | y :: z :: l, h1, _, hall =>
      rw [hall y (by simp), hall z (by simp)] at h1
      simp at h1
  show entriesOf (handlePacket V (boltSrv V G cfg n stats) o (wMsg id (wSearch x.entry.dn 0 0 wf attrs)) bound
    (after V.C G (validatePw V.C V.K) base ops)).resps = _
  rw [h3]
  dsimp only
  rw [entriesOf_found, hfound]
  rfl

end

/-- hypotheses of C115 in the toy directory: the filters `(uid=a*)`, `(mail=*)`, their combinations, and the filter `(&)` -/
example : let f : Filter := .sub b!"uid" (some b!"a") [] none
    let g : Filter := .present b!"mail"
    let wf : Packet := .mk .context true 4 .nil [] [octet b!"uid", wSeq [ctxStr 0 b!"a"]]
    let wg : Packet := ctxStr 7 b!"mail"
    Wire f wf ∧ Wire g wg ∧ Wire (.and [f, g]) (.mk .context true 0 .nil [] [wf, wg]) ∧ Wire (.or [f, g]) (.mk .context true 1 .nil [] [wf, wg]) ∧
    Wire (.and [g, .not f]) (.mk .context true 0 .nil [] [wg, .mk .context true 2 .nil [] [wf]]) ∧ Wire (.and []) (.mk .context true 0 .nil [] []) ∧
    FilterOk f ∧ FilterOk g ∧ Supported f ∧ Supported g := by
  refine ⟨⟨rfl, _, _, rfl, rfl, rfl⟩, ⟨rfl, rfl⟩, ⟨rfl, _, _, rfl, ⟨rfl, _, _, rfl, rfl, rfl⟩, _, _, rfl, ⟨rfl, rfl⟩, rfl⟩,
    ⟨rfl, _, _, rfl, ⟨rfl, _, _, rfl, rfl, rfl⟩, _, _, rfl, ⟨rfl, rfl⟩, rfl⟩, ⟨rfl, _, _, rfl, ⟨rfl, rfl⟩, _, _, rfl, ⟨rfl, _, rfl, rfl, _, _, rfl, rfl, rfl⟩, rfl⟩,
    ⟨rfl, rfl⟩, ⟨by decide +kernel, by decide +kernel, by decide +kernel⟩, ?_, trivial, trivial⟩
  unfold FilterOk
  decide +kernel

/-- the searches of C115 in the toy directory -/
example :
    let wf : Packet := .mk .context true 4 .nil [] [octet b!"uid", wSeq [ctxStr 0 b!"a"]]
    let wg : Packet := ctxStr 7 b!"mail"
    let S := fun b s w attrs => (entriesOf (toyReq [] (wSearch b s 0 w attrs)).resps).map Entry.dn
    S b!"dc=lg" 2 wf [] = [b!"uid=admin,dc=lg", b!"uid=Ann,dc=lg"] ∧ S b!"dc=lg" 2 wg [] = [b!"uid=Ann,dc=lg"] ∧
    S b!"dc=lg" 2 (.mk .context true 0 .nil [] [wf, wg]) [] = [b!"uid=Ann,dc=lg"] ∧
    S b!"dc=lg" 2 (.mk .context true 0 .nil [] [wf, .mk .context true 2 .nil [] [wg]]) [] = [b!"uid=admin,dc=lg"] ∧
    S b!"dc=lg" 0 wf [] = [] ∧ S b!"dc=lg" 1 (.mk .context true 0 .nil [] []) [b!"1.1"] = [b!"uid=admin,dc=lg", b!"uid=Ann,dc=lg"] ∧
    S b!"uid=Ann,dc=lg" 2 wf [] = [b!"uid=Ann,dc=lg"] ∧ S b!"uid=Ann,dc=lg" 0 wf [] = [b!"uid=Ann,dc=lg"] := by
  decide +kernel

/-- hypotheses of `C115_again_partial` there -/
example : ∀ x ∈ dirAfter asciiCase (validatePw asciiCase toyCrypto) toyBase toyOps, PlainFirst x.entry.dn ∧ ∀ nm, parseDN asciiCase x.entry.dn = some nm →
    CaseSame asciiCase nm toyBase ∧ ∀ y ∈ dirAfter asciiCase (validatePw asciiCase toyCrypto) toyBase toyOps, ∀ nm', parseDN asciiCase y.entry.dn = some nm' →
      CaseSame asciiCase nm nm' := by
  have h : ∀ x ∈ dirAfter asciiCase (validatePw asciiCase toyCrypto) toyBase toyOps, PlainFirst x.entry.dn ∧
      (match parseDN asciiCase x.entry.dn with
        | none => false
        | some nm => decide (CaseSame asciiCase nm toyBase) && (dirAfter asciiCase (validatePw asciiCase toyCrypto) toyBase toyOps).all fun y =>
          match parseDN asciiCase y.entry.dn with
          | none => false
          | some nm' => decide (CaseSame asciiCase nm nm')) = true := by decide +kernel
  intro x hx
  refine ⟨(h x hx).1, fun nm hnm => ?_⟩
  have h2 := (h x hx).2
  rw [hnm] at h2
  simp only [Bool.and_eq_true, decide_eq_true_eq, List.all_eq_true] at h2
  refine ⟨h2.1, fun y hy nm' hnm' => ?_⟩
  have h3 := h2.2 y hy
  rw [hnm'] at h3
  simpa using h3

end Idm
