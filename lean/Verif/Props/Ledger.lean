import Verif.Spec.Ledger
import Verif.Props.Stays
/-!
# C130: which entries there are follows from what the clients were told
-/
namespace Idm

section
variable {C : CaseEnv} {G : GobEnv} {validate : Str → Str → Res Bool} {base : DN}

theorem has_append (d : Dir) (x : Node) (k : DN) : Dir.has (d ++ [x]) k = true ↔ x.name = k ∨ d.has k = true := by
  simp [Dir.has, or_comm]

theorem has_remove (d : Dir) (k l : DN) : (d.remove k).has l = true ↔ l ≠ k ∧ d.has l = true := by
  simp only [Dir.has, Dir.remove, List.any_filter, List.any_eq_true, Bool.and_eq_true, decide_eq_true_eq]
  constructor
  · rintro ⟨x, hx, h1, rfl⟩
    exact ⟨by simpa using h1, x, hx, rfl⟩
  · rintro ⟨h1, x, hx, rfl⟩
    exact ⟨x, hx, by simpa using h1, rfl⟩

theorem has_rename {d : Dir} {k k' : DN} {e : Entry} (hk : d.has k = true) (h' : d.has k' = false) (l : DN) :
    (d.rename k k' e).has l = true ↔ l = k' ∨ l ≠ k ∧ d.has l = true := by
  have hne : k' ≠ k := fun h => by rw [h, hk] at h'; cases h'
  by_cases h1 : l = k'
  · subst h1
    obtain ⟨x, hx⟩ := Option.isSome_iff_exists.1 ((has_get d k).symm.trans hk)
    rw [has_get, get_rename_self hx h']
    simp
  · by_cases h2 : l = k
    · subst h2
      rw [has_get, get_rename_old hne]
      simp [h1]
    · rw [has_get, get_rename_other h2 h1, ← has_get]
      simp [h1, h2]

/-- What a call does to the names that exist. -/
theorem alive_step {d : Dir} {op : Op} {l : List (Op × Res Unit)} (k : DN) (h : d.has k = true ↔ Alive C k l) :
    (specStep C validate base d op).2.has k = true ↔ Alive C k ((op, (specStep C validate base d op).1) :: l) := by
  by_cases hr : (specStep C validate base d op).1 = .ok ()
  · rw [hr]
    revert hr
    cases op with
    | add e =>
      simp only [specStep, specAdd, specAddAt, Alive]
      repeat' split
      all_goals first
        | (intro hr; cases hr; done)
        | (rename_i hn _ _ _ _ _; intro _; rw [has_append, h]; simp [hn])
    | delete s =>
      simp only [specStep, specDelete, specDeleteAt, Alive, Writes]
      repeat' split
      all_goals first
        | (intro hr; cases hr; done)
        | (rename_i hn _ _ _ _; intro _; rw [has_remove, h]; simp [hn, eq_comm])
    | modify s cs =>
      simp only [specStep, specModify, specModifyAt, Alive]
      repeat' split
      all_goals first
        | (intro hr; cases hr; done)
        | (intro _; rw [has_setEntry, h])
    | password r =>
      simp only [specStep, specPassword, specPasswordAt, Alive]
      repeat' split
      all_goals first
        | (intro hr; cases hr; done)
        | (intro _; rw [has_setEntry, h])
    | rename r =>
      simp only [specStep, Alive, Writes, NewName]
      split
      · intro hr; cases hr
      · intro hr; cases hr
      · intro hr; cases hr
      · intro hr; cases hr
      rename_i o p n q ho hn
      simp only [specRename, specRenameAt]
      split
      · intro hr; cases hr
      rename_i hhas
      split
      · intro hr; cases hr
      rename_i e he
      split
      · intro hr; cases hr
      split
      · split
        · intro hr; cases hr
        intro _
        rw [has_rename (by rw [has_get, he]; rfl) (by simpa using hhas), h]
        simp only [ho, hn, Option.some.injEq]
        constructor
        · rintro (rfl | ⟨h1, h2⟩)
          · exact .inl ⟨o, p, n, q, rfl, rfl, rfl⟩
          · refine .inr ⟨?_, h2⟩
            rintro ⟨m, rfl, hm⟩
            exact h1 hm.symm
        · rintro (⟨o', p', n', q', e1, e2, rfl⟩ | ⟨h1, h2⟩)
          · cases e1; cases e2
            exact .inl rfl
          · exact .inr ⟨fun hk => h1 ⟨_, rfl, hk.symm⟩, h2⟩
      all_goals (intro hr; cases hr)
  · rw [step_refused hr, h]
    generalize (specStep C validate base d op).1 = r at hr
    cases r <;> first | exact absurd rfl hr | (cases op <;> rfl)

theorem alive_run (k : DN) : ∀ (ops : List Op) (d : Dir) (l : List (Op × Res Unit)), (d.has k = true ↔ Alive C k l) →
    ((specRun C validate base d ops).2.has k = true ↔ Alive C k ((ops.zip (specRun C validate base d ops).1).reverse ++ l))
  | [], _, _, h => h
  | op :: ops, d, l, h => by
    have := alive_run k ops _ _ (alive_step (validate := validate) (base := base) (op := op) k h)
    simpa [specRun] using this

/-- C130: after any history, an entry is found exactly if the results that clients were given say so: some add or rename that was acknowledged gave an
entry the name, and no acknowledged delete or rename took it away since. -/
theorem C130_exists (hC : C.Lawful) (hG : G.Lawful) (hb : BaseOk C base) (ops : List Op) (h : HistOk C ops) (text : Str) (name : DN)
    (hn : parseDN C text = some name) (hok : NameOk name) :
    Found C G (after C G validate base ops) text ↔ Alive C (foldDN C name) (record C G validate base ops) := by
  obtain ⟨ns, r1, b2, R, -⟩ := sim_run_empty (validate := validate) hC hG hb ops h.ok h.len
  have := alive_run (C := C) (validate := validate) (base := base) (foldDN C name) ops [] [] (by simp [Dir.has, Alive])
  rw [List.append_nil, b2, ← r1] at this
  rw [record, ← this, found_iff hC hG R hn hok, Rel.has_iff]

/-! ## How many there are -/

theorem length_remove {k : DN} : ∀ {d : Dir}, (d.map (·.name)).Nodup → d.has k = true → (d.remove k).length + 1 = d.length
  | [], _, h => by simp [Dir.has] at h
  | x :: d, hd, h => by
    simp only [List.map_cons, List.nodup_cons] at hd
    by_cases hx : x.name = k
    · have : Dir.remove (x :: d) k = d := by
        simp only [Dir.remove, hx, ne_eq, not_true_eq_false, decide_false, Bool.false_eq_true, not_false_eq_true, List.filter_cons_of_neg]
        rw [List.filter_eq_self]
        intro y hy
        have : y.name ≠ k := fun h => hd.1 (List.mem_map.2 ⟨y, hy, h.trans hx.symm⟩)
        simpa using this
      rw [this, List.length_cons]
    · have h' : Dir.has d k = true := by simpa [Dir.has, hx] using h
      have := length_remove hd.2 h'
      have h2 : Dir.remove (x :: d) k = x :: Dir.remove d k := by simp [Dir.remove, hx]
      rw [h2, List.length_cons, List.length_cons, this]

theorem count_step {d : Dir} (hd : (d.map (·.name)).Nodup) {op : Op} {l : List (Op × Res Unit)} (h : d.length + deleted l = added l) :
    (specStep C validate base d op).2.length + deleted ((op, (specStep C validate base d op).1) :: l) =
      added ((op, (specStep C validate base d op).1) :: l) := by
  by_cases hr : (specStep C validate base d op).1 = .ok ()
  · rw [hr]
    revert hr
    cases op with
    | add e =>
      simp only [specStep, specAdd, specAddAt]
      repeat' split
      all_goals first
        | (intro hr; cases hr; done)
        | (intro _; simp [added, deleted] at h ⊢; omega)
    | delete s =>
      simp only [specStep, specDelete, specDeleteAt]
      repeat' split
      all_goals first
        | (intro hr; cases hr; done)
        | (rename_i hx _ _; intro _; have := length_remove hd (by simpa using hx); simp [added, deleted] at h ⊢; omega)
    | modify s cs =>
      simp only [specStep, specModify, specModifyAt]
      repeat' split
      all_goals first
        | (intro hr; cases hr; done)
        | (intro _; simpa [added, deleted, Dir.setEntry] using h)
    | password r =>
      simp only [specStep, specPassword, specPasswordAt]
      repeat' split
      all_goals first
        | (intro hr; cases hr; done)
        | (intro _; simpa [added, deleted, Dir.setEntry] using h)
    | rename r =>
      simp only [specStep, specRename, specRenameAt]
      repeat' split
      all_goals first
        | (intro hr; cases hr; done)
        | (intro _; simpa [added, deleted, Dir.rename] using h)
  · rw [step_refused hr]
    generalize (specStep C validate base d op).1 = r at hr
    cases r <;> first | exact absurd rfl hr | (cases op <;> simpa [added, deleted] using h)

theorem count_run (hC : C.Lawful) (hG : G.Lawful) (hb : BaseOk C base) : ∀ (us pre : List Op) (l : List (Op × Res Unit)), HistOk C (pre ++ us) →
    (dirAfter C validate base pre).length + deleted l = added l →
    (dirAfter C validate base (pre ++ us)).length + deleted ((us.zip (specRun C validate base (dirAfter C validate base pre) us).1).reverse ++ l) =
      added ((us.zip (specRun C validate base (dirAfter C validate base pre) us).1).reverse ++ l)
  | [], pre, l, _, hl => by simpa using hl
  | u :: us, pre, l, h, hl => by
    have hlen := h.len
    rw [List.length_append] at hlen
    obtain ⟨ns, -, b2, R, -⟩ := sim_run_empty (validate := validate) hC hG hb pre (fun o ho => h.ok o (List.mem_append_left _ ho)) (by omega)
    have hd : ((dirAfter C validate base pre).map (·.name)).Nodup := by rw [dirAfter, b2]; exact dirOf_nodup R
    have hs := count_step (C := C) (validate := validate) (base := base) hd (op := u) hl
    have hnext : dirAfter C validate base (pre ++ [u]) = (specStep C validate base (dirAfter C validate base pre) u).2 := by
      rw [dirAfter, specRun_append]; rfl
    rw [← hnext] at hs
    have := count_run hC hG hb us (pre ++ [u]) _ (by rw [List.append_assoc]; exact h) hs
    rw [List.append_assoc, hnext] at this
    simpa [specRun] using this

/-- C130, how many: as long as the entry of the base DN is not renamed, a search of everything below it finds as many entries as were added, to judge from
the results that clients were given, less those that were deleted. -/
theorem C130_count (hC : C.Lawful) (hG : G.Lawful) (hb : BaseOk C base) (ops : List Op) (h : HistOk C ops)
    (hren : ∀ req, Op.rename req ∈ ops → ∀ n, parseDN C req.dn = some n → foldDN C n ≠ base) (text : Str) (name : DN)
    (hn : parseDN C text = some name) (hok : NameOk name) (hbase : foldDN C name = base) (hf : Found C G (after C G validate base ops) text) :
    ∃ es, boltSearch C G (after C G validate base ops) text scopeSub = .ok (es, none) ∧
      es.length + deleted (record C G validate base ops) = added (record C G validate base ops) := by
  obtain ⟨ns, r1, b2, R, -⟩ := sim_run_empty (validate := validate) hC hG hb ops h.ok h.len
  have hc := count_run (C := C) (G := G) (validate := validate) (base := base) hC hG hb ops [] [] h (by simp [dirAfter, specRun, added, deleted])
  rw [List.append_nil, List.nil_append, show dirAfter C validate base [] = [] from rfl, ← r1] at hc
  have hh : (dirAfter C validate base ops).has (foldDN C name) = true := by
    obtain ⟨e, he⟩ := hf
    rw [has_get, found_get hC hG hb ops h hn hok he]
    rfl
  obtain ⟨found, h1, h2, h3⟩ := (C05_search_exact (validate := validate) hC hG hb ops h text name hn hok scopeSub).1 hh
  refine ⟨_, h1, ?_⟩
  have hall : ∀ n ∈ dirAfter C validate base ops, base <:+ n.name := by
    have main : ∀ (ops : List Op) (d : Dir), (∀ n ∈ d, base <:+ n.name) →
        (∀ req, Op.rename req ∈ ops → ∀ n, parseDN C req.dn = some n → foldDN C n ≠ base) →
        ∀ n ∈ (specRun C validate base d ops).2, base <:+ n.name := by
      intro ops
      induction ops with
      | nil => intro d hd _; exact hd
      | cons op ops ih =>
        intro d hd hr
        simp only [specRun]
        exact ih _ (specStep_below hd op fun req hreq => hr req (by simp [hreq])) fun req hreq => hr req (List.mem_cons_of_mem _ hreq)
    exact main ops [] (by simp) hren
  have hd : ((dirAfter C validate base ops).map (·.name)).Nodup := by rw [dirAfter, b2]; exact dirOf_nodup R
  have hp : found.Perm (dirAfter C validate base ops) := by
    refine (List.perm_ext_iff_of_nodup (nodup_of_map h2) (nodup_of_map hd)).2 fun n => ?_
    rw [h3]
    refine ⟨fun x => x.1, fun x => ⟨x, .inr (.inr ⟨rfl, ?_⟩)⟩⟩
    obtain ⟨t, ht⟩ := hall n x
    exact ⟨t, by rw [hbase, ht]⟩
  rw [List.length_map, hp.length_eq]
  exact hc

end

instance (C : CaseEnv) (s : Str) (k : DN) : Decidable (Writes C s k) := decidable_of_iff ((parseDN C s).map (foldDN C) = some k) (by simp [Writes])

instance (C : CaseEnv) (r : ModifyDNReq) (k : DN) : Decidable (NewName C r k) :=
  match ho : parseDN C r.dn, hn : parseDN C r.newRDN with
  | some (o :: p), some (n :: q) => decidable_of_iff (foldDN C (n :: p) = k) (by
    unfold NewName
    simp only [ho, hn, Option.some.injEq, List.cons.injEq]
    constructor
    · rintro rfl
      exact ⟨o, p, n, q, ⟨rfl, rfl⟩, ⟨rfl, rfl⟩, rfl⟩
    · rintro ⟨o', p', n', q', ⟨rfl, rfl⟩, ⟨rfl, rfl⟩, h⟩
      exact h)
  | none, _ => isFalse (by rintro ⟨o, p, n, q, h, -⟩; rw [ho] at h; cases h)
  | some [], _ => isFalse (by rintro ⟨o, p, n, q, h, -⟩; rw [ho] at h; cases h)
  | some (_ :: _), none => isFalse (by rintro ⟨o, p, n, q, -, h, -⟩; rw [hn] at h; cases h)
  | some (_ :: _), some [] => isFalse (by rintro ⟨o, p, n, q, -, h, -⟩; rw [hn] at h; cases h)

def aliveDec (C : CaseEnv) (k : DN) : (l : List (Op × Res Unit)) → Decidable (Alive C k l)
  | [] => isFalse id
  | (.add e, .ok ()) :: l =>
    haveI := aliveDec C k l
    haveI : Decidable (∃ n, entryPutDN C e.dn = some n ∧ foldDN C n = k) := decidable_of_iff ((entryPutDN C e.dn).map (foldDN C) = some k) (by simp)
    inferInstanceAs (Decidable ((∃ n, entryPutDN C e.dn = some n ∧ foldDN C n = k) ∨ Alive C k l))
  | (.delete s, .ok ()) :: l => haveI := aliveDec C k l; inferInstanceAs (Decidable (¬ Writes C s k ∧ Alive C k l))
  | (.rename r, .ok ()) :: l => haveI := aliveDec C k l; inferInstanceAs (Decidable (NewName C r k ∨ ¬ Writes C r.dn k ∧ Alive C k l))
  | (.modify _ _, .ok ()) :: l => aliveDec C k l
  | (.password _, .ok ()) :: l => aliveDec C k l
  | (.add _, .err _) :: l | (.delete _, .err _) :: l | (.rename _, .err _) :: l | (.modify _ _, .err _) :: l | (.password _, .err _) :: l => aliveDec C k l
  | (.add _, .panic) :: l | (.delete _, .panic) :: l | (.rename _, .panic) :: l | (.modify _ _, .panic) :: l | (.password _, .panic) :: l => aliveDec C k l
  | (.add _, .hang) :: l | (.delete _, .hang) :: l | (.rename _, .hang) :: l | (.modify _ _, .hang) :: l | (.password _, .hang) :: l => aliveDec C k l

instance (C : CaseEnv) (k : DN) (l : List (Op × Res Unit)) : Decidable (Alive C k l) := aliveDec C k l

/-- C130 applies: an entry that was renamed is there under its new name only; one that was deleted and one whose add was refused are not there -/
example : HistOk asciiCase exOps ∧
    (let l := record asciiCase gobInstance exValidate exBase exOps
    let name (s : Str) : DN := ((parseDN asciiCase s).map (foldDN asciiCase)).getD []
    Alive asciiCase (name b!"uid=c,ou=p,dc=lg") l ∧ ¬ Alive asciiCase (name b!"uid=a,ou=p,dc=lg") l ∧ ¬ Alive asciiCase (name b!"uid=b,ou=p,dc=lg") l ∧
    ¬ Alive asciiCase (name b!"uid=b,ou=q,dc=lg") l ∧ Alive asciiCase (name b!"OU=P,dc=lg") l) := by decide +kernel

example : Found asciiCase gobInstance (after asciiCase gobInstance exValidate exBase exOps) b!"uid=c,ou=p,dc=lg" :=
  (C130_exists asciiCase_lawful gobInstance_lawful exBase_ok exOps exOps_ok b!"uid=c,ou=p,dc=lg" [[⟨b!"uid", b!"c"⟩], [⟨b!"ou", b!"p"⟩], [⟨b!"dc", b!"lg"⟩]] (by decide +kernel) (by decide +kernel)).2 (by decide +kernel)

/-- C130_count applies: four were added and one was deleted, so three are found -/
example : ∃ es, boltSearch asciiCase gobInstance (after asciiCase gobInstance exValidate exBase exOps) b!"dc=lg" scopeSub = .ok (es, none) ∧ es.length + 1 = 4 := by
  obtain ⟨es, h1, h2⟩ := C130_count (validate := exValidate) asciiCase_lawful gobInstance_lawful exBase_ok exOps exOps_ok (by
    intro req hreq n hn
    simp [exOps] at hreq
    subst hreq
    have : parseDN asciiCase b!"uid=a,ou=p,dc=lg" = some [[⟨b!"uid", b!"a"⟩], [⟨b!"ou", b!"p"⟩], [⟨b!"dc", b!"lg"⟩]] := by decide +kernel
    rw [this] at hn
    cases hn
    decide +kernel) b!"dc=lg" [[⟨b!"dc", b!"lg"⟩]] (by decide +kernel) (by decide +kernel) (by decide +kernel) ⟨⟨b!"dc=lg", [⟨b!"dc", [b!"lg"]⟩]⟩, by decide +kernel⟩
  refine ⟨es, h1, ?_⟩
  rw [show deleted (record asciiCase gobInstance exValidate exBase exOps) = 1 by decide +kernel,
    show added (record asciiCase gobInstance exValidate exBase exOps) = 4 by decide +kernel] at h2
  exact h2

end Idm
