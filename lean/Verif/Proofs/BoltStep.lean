import Verif.Proofs.Bolt
/-! Every call of the store simulates the call of the abstract directory. -/
namespace Idm
open Dir Rel

variable {C : CaseEnv} {G : GobEnv} {base : DN} {db : Db} {ns : List INode}

theorem dirOf_append (k : DN) (e : Entry) (i : Nat) : dirOf (ns ++ [⟨i, k, e⟩]) = dirOf ns ++ [⟨k, e⟩] := by
  simp [dirOf, INode.node]

theorem dirOf_remove (k : DN) : dirOf (ns.filter fun n => n.name ≠ k) = (dirOf ns).remove k := by
  unfold dirOf Dir.remove
  rw [List.filter_map]
  rfl

theorem dirOf_subst (k k' : DN) (e : Entry) : dirOf (Rel.subst ns k k' e) = (dirOf ns).rename k k' e := by
  unfold dirOf Dir.rename Rel.subst
  rw [List.map_map, List.map_map]
  apply List.map_congr_left
  intro n _
  by_cases h : n.name = k
  · have h' : (INode.node n).name = k := h
    simp only [Function.comp, if_pos h, if_pos h']; rfl
  · have h' : ¬ (INode.node n).name = k := h
    simp only [Function.comp, if_neg h, if_neg h']

theorem setEntry_eq_rename (d : Dir) (k : DN) (e : Entry) : d.setEntry k e = d.rename k k e := rfl

/-- What a step has to satisfy: same result, related states, ids only grow. -/
def Sim (C : CaseEnv) (G : GobEnv) (base : DN) (db : Db) (ns : List INode) (impl : Res Unit × Db) (spec : Res Unit × Dir) : Prop :=
  ∃ ns', impl.1 = spec.1 ∧ spec.2 = dirOf ns' ∧ Rel C G base impl.2 ns' ∧ db.seq ≤ impl.2.seq ∧ impl.2.seq ≤ db.seq + 1 ∧
    (ns.length < ns'.length → ∀ n ∈ ns', n ∈ ns ∨ db.seq < n.id) ∧ ∀ n ∈ ns', (∃ m ∈ ns, m.id = n.id) ∨ db.seq < n.id

theorem Sim.same (R : Rel C G base db ns) (r : Res Unit) : Sim C G base db ns (r, db) (r, dirOf ns) :=
  ⟨ns, rfl, rfl, R, Nat.le_refl _, Nat.le_succ _, fun h => absurd h (Nat.lt_irrefl _), fun n h => .inl ⟨n, h, rfl⟩⟩

theorem foldDN_cons (r : RDN) (rest : DN) : (foldDN C (r :: rest)).tail = foldDN C rest := rfl

theorem foldDN_cons_ne (r : RDN) (rest : DN) : foldDN C (r :: rest) ≠ [] := by simp [foldDN]

theorem nameOk_cons {r : RDN} {rest : DN} (h : NameOk (r :: rest)) : NameOk rest :=
  fun x hx => h x (List.mem_cons_of_mem _ hx)

theorem update_of_err {α : Type} {p : Prog α} {e : Err} (h : p.run db = .err e) : update p db = (.err e, db) := by
  simp [update, h]

theorem update_of_ok {α : Type} {p : Prog α} {a : α} {db' : Db} (h : p.run db = .ok (a, db')) : update p db = (.ok a, db') := by
  simp [update, h]

theorem update_of_panic {α : Type} {p : Prog α} (h : p.run db = .panic) : update p db = (.panic, db) := by
  simp [update, h]

theorem update_of_hang {α : Type} {p : Prog α} (h : p.run db = .hang) : update p db = (.hang, db) := by
  simp [update, h]

/-! ## EntryPut -/

theorem sim_add (hC : C.Lawful) (hb : BaseOk C base) (R : Rel C G base db ns) (hseq : db.seq + 1 < 2 ^ 64) (e : Entry)
    (hok : ∀ n, entryPutDN C e.dn = some n → NameOk n) :
    Sim C G base db ns (entryPut C G (render base) db e)
      (match entryPutDN C e.dn with | none => (.panic, dirOf ns) | some n => specAdd C base (dirOf ns) n e) := by
  unfold entryPut
  cases hdn : entryPutDN C e.dn with
  | none => exact Sim.same R _
  | some dn =>
    cases dn with
    | nil => simp only [specAdd, if_true]; exact Sim.same R _
    | cons r rest =>
      have hn := hok _ hdn
      have hkok : NameOk (foldDN C (r :: rest)) := foldDN_nameOk hC hn
      have hkf := foldDN_idem hC (r :: rest)
      have hpok : NameOk (foldDN C rest) := foldDN_nameOk hC (nameOk_cons hn)
      have hkne := foldDN_cons_ne (C := C) r rest
      have htl := foldDN_cons (C := C) r rest
      simp only [specAdd]
      rw [if_neg (by simp : ¬ (r :: rest) = []), show normalize C (r :: rest) = render (foldDN C (r :: rest)) from rfl,
        show normalize C rest = render (foldDN C rest) from rfl]
      generalize foldDN C (r :: rest) = k at hkok hkf hkne htl ⊢
      generalize foldDN C rest = p at hpok htl ⊢
      unfold specAddAt
      have hsuf : hasSuffix (render k) (render base) = true ↔ render base <:+ render k := by
        unfold hasSuffix; exact List.isSuffixOf_iff_suffix
      by_cases h1 : render base <:+ render k
      · rw [if_neg (by simpa using hsuf.2 h1), if_neg (by simpa using h1)]
        by_cases h2 : ∃ n ∈ ns, n.name = k
        · rw [if_pos (has_iff.2 h2)]
          obtain ⟨n, hn', e'⟩ := h2
          have hg := R.run_getID hn'
          rw [e'] at hg
          rw [update_of_err (e := .exists_) (by
            simp [entryPutBody, Prog.run_bind, hg, Nat.ne_of_gt (R.pos n hn').1])]
          exact Sim.same R _
        · rw [if_neg (fun h => h2 (has_iff.1 h))]
          have hg := R.run_getID_none hkok h2
          by_cases h3 : k ≠ base ∧ ¬ (dirOf ns).has k.tail = true
          · rw [if_pos h3]
            have hnp : ¬ ∃ n ∈ ns, n.name = p := fun h => h3.2 (by rw [htl]; exact has_iff.2 h)
            have hr : render k ≠ render base := fun h => h3.1 (render_injective _ _ hkok hb.name h)
            -- the parent lookup happens after the sequence and the entry have been written
            have hg2 : ∀ (db2 : Db), db2.tbl .dn2id = db.tbl .dn2id → (getIDByDN (render p)).run db2 = .ok (0, db2) := by
              intro db2 h
              have : db.tbl .dn2id (render p) = none := by
                cases e : db.tbl .dn2id (render p) with
                | none => rfl
                | some v =>
                  obtain ⟨n, hn, e, -⟩ := (R.dn2id _ _).1 e
                  exact absurd ⟨n, hn, render_injective _ _ (R.names n hn).1 hpok e⟩ hnp
              simp [getIDByDN, Prog.run_bind, h, this]
            rw [update_of_err (e := .other) (by
              simp only [entryPutBody, Prog.run_bind, hg, Res.ok_bind, ne_eq, not_true_eq_false, if_false, hr,
                not_false_eq_true, if_true, addID2Children]
              rw [Prog.run_nextSeq! hseq]
              simp only [Res.ok_bind, Prog.run_put!_id]
              rw [hg2 _ (by funext s; rfl)]
              simp)]
            exact Sim.same R _
          · rw [if_neg h3]
            have hcase : k = base ∨ ∃ n ∈ ns, n.name = p := by
              by_cases hkb : k = base
              · exact .inl hkb
              · right
                have : (dirOf ns).has k.tail = true := by
                  apply Decidable.byContradiction; intro h; exact h3 ⟨hkb, h⟩
                rw [htl] at this
                exact has_iff.1 this
            have hkr : render k ≠ [] := render_ne_nil hkok hkne
            -- execution up to the last write
            have hexec : ∃ db1 : Db, (∀ s, db1.tbl .dn2id s = db.tbl .dn2id s) ∧ db1.seq = db.seq + 1 ∧
                (∀ s, db1.tbl .id2entry s = if s = idToBytes (db.seq + 1) then some (G.enc e) else db.tbl .id2entry s) ∧
                (∀ n ∈ ns, (db1.tbl .id2children (idToBytes n.id)).getD [] =
                  (db.tbl .id2children (idToBytes n.id)).getD [] ++ (if isChild n.name k then idToBytes (db.seq + 1) else [])) ∧
                (∀ i, db.seq < i → i < 2 ^ 64 → db1.tbl .id2children (idToBytes i) = none) ∧
                (entryPutBody G (render base) (render k) (render p) e).run db =
                  (Prog.put! .dn2id (render k) (idToBytes (db.seq + 1))).run db1 := by
              by_cases hkb : k = base
              · have hnochild : ∀ n ∈ ns, isChild n.name k = false := by
                  intro n hn
                  cases hc : isChild n.name k with
                  | false => rfl
                  | true =>
                    obtain ⟨r', e'⟩ := isChild_iff.1 hc
                    have h1 := (R.forest n hn).1
                    rw [← hkb, e', List.length_cons] at h1
                    omega
                refine ⟨({ db with seq := db.seq + 1 } : Db).set .id2entry (idToBytes (db.seq + 1)) (some (G.enc e)),
                  by intro s; rfl, rfl, ?_, ?_, ?_, ?_⟩
                · intro s; simp [Db.set_tbl]
                · intro n hn; simp [Db.set_tbl, hnochild n hn]
                · intro i hi hi'; simp [Db.set_tbl, R.fresh i hi hi']
                · subst hkb
                  simp only [entryPutBody, Prog.run_bind, hg, Res.ok_bind, ne_eq, not_true_eq_false, if_false]
                  rw [Prog.run_nextSeq! hseq]
                  simp
              · obtain ⟨pn, hpn, hpe⟩ := hcase.resolve_left hkb
                have hr : render k ≠ render base := fun h => hkb (render_injective _ _ hkok hb.name h)
                have hpc : isChild pn.name k = true := by
                  rw [isChild_iff]
                  cases hk2 : k with
                  | nil => exact absurd hk2 hkne
                  | cons a t => exact ⟨a, by rw [hpe, ← htl, hk2]; rfl⟩
                refine ⟨(({ db with seq := db.seq + 1 } : Db).set .id2entry (idToBytes (db.seq + 1)) (some (G.enc e))).set
                  .id2children (idToBytes pn.id)
                    (some ((db.tbl .id2children (idToBytes pn.id)).getD [] ++ idToBytes (db.seq + 1))),
                  by intro s; rfl, rfl, ?_, ?_, ?_, ?_⟩
                · intro s; simp [Db.set_tbl]
                · intro n hn
                  by_cases hni : n = pn
                  · subst hni; simp [Db.set_tbl, hpc]
                  · have hne : idToBytes n.id ≠ idToBytes pn.id := fun h =>
                      hni (R.id_inj hn hpn (idToBytes_inj (R.idlt hn) (R.idlt hpn) h))
                    have hnc : isChild n.name k = false := by
                      cases hc : isChild n.name k with
                      | false => rfl
                      | true =>
                        obtain ⟨r1, e1⟩ := isChild_iff.1 hc
                        obtain ⟨r2, e2⟩ := isChild_iff.1 hpc
                        rw [e1] at e2
                        exact absurd (R.name_inj hn hpn (List.cons.inj e2).2) hni
                    simp [Db.set_tbl, hne, hnc]
                · intro i hi hi'
                  have hne : idToBytes i ≠ idToBytes pn.id := fun h => by
                    have h1 := idToBytes_inj hi' (R.idlt hpn) h
                    have h2 := (R.pos pn hpn).2
                    omega
                  simp [Db.set_tbl, hne, R.fresh i hi hi']
                · have hg2 : ∀ (db2 : Db), db2.tbl .dn2id = db.tbl .dn2id → (getIDByDN (render p)).run db2 = .ok (pn.id, db2) := by
                    intro db2 h
                    have := (R.dn2id (render pn.name) (idToBytes pn.id)).2 ⟨pn, hpn, rfl, rfl⟩
                    rw [hpe] at this
                    simp [getIDByDN, Prog.run_bind, h, this, decodeId_idToBytes' (R.idlt hpn), Prog.lift]
                  simp only [entryPutBody, Prog.run_bind, hg, Res.ok_bind, ne_eq, not_true_eq_false, if_false, hr,
                    not_false_eq_true, if_true, addID2Children]
                  rw [Prog.run_nextSeq! hseq]
                  simp only [Res.ok_bind, Prog.run_put!_id]
                  rw [hg2 _ (by funext s; rfl)]
                  simp only [Res.ok_bind, Nat.ne_of_gt (R.pos pn hpn).1, if_false, Prog.run_bind, Prog.run_get!, Prog.run_put!_id]
                  rfl
            obtain ⟨db1, hx1, hx2, hx3, hx4, hx5, hx6⟩ := hexec
            by_cases h4 : (render k).length > maxName
            · rw [if_pos h4, update_of_err (e := .other) (by rw [hx6, Prog.run_put!_err (.inr h4)])]
              exact Sim.same R _
            · rw [if_neg h4, update_of_ok (a := ()) (by
                rw [hx6, Prog.run_put! hkr (by show (render k).length ≤ maxName; omega)])]
              refine ⟨ns ++ [⟨db.seq + 1, k, e⟩], rfl, (dirOf_append _ _ _).symm, ?_, by simp [hx2], by simp [hx2], ?_, ?_⟩
              · refine R.add hseq hkok hkf hkne h2 (by rw [htl]; exact hcase) (by simp [hx2]) ?_ ?_ ?_ ?_
                · intro s; simp [Db.set_tbl, hx1]
                · intro s; simp [Db.set_tbl, hx3]
                · intro n hn; simpa [Db.set_tbl] using hx4 n hn
                · intro i hi hi'; simpa [Db.set_tbl] using hx5 i hi hi'
              · intro _ n hn
                rcases List.mem_append.1 hn with hn | hn
                · exact .inl hn
                · simp at hn; subst hn; right; simp
              · intro n hn
                rcases List.mem_append.1 hn with hn | hn
                · exact .inl ⟨n, hn, rfl⟩
                · simp at hn; subst hn; right; simp
      · rw [if_pos (by simpa using fun h => h1 (hsuf.1 h)), if_pos (by simpa using h1)]
        exact Sim.same R _

/-! ## EntryDelete -/

theorem sim_delete (hC : C.Lawful) (R : Rel C G base db ns) (dn : Str)
    (hok : ∀ n, parseDN C dn = some n → NameOk n) :
    Sim C G base db ns (entryDelete C db dn)
      (match parseDN C dn with | none => (.err .other, dirOf ns) | some n => specDelete C (dirOf ns) n) := by
  unfold entryDelete
  cases hdn : parseDN C dn with
  | none => exact Sim.same R _
  | some dn' =>
    cases dn' with
    | nil => simp only [specDelete, if_true]; exact Sim.same R _
    | cons r rest =>
      have hn := hok _ hdn
      have hkok : NameOk (foldDN C (r :: rest)) := foldDN_nameOk hC hn
      have hpok : NameOk (foldDN C rest) := foldDN_nameOk hC (nameOk_cons hn)
      have hkne := foldDN_cons_ne (C := C) r rest
      have htl := foldDN_cons (C := C) r rest
      simp only [specDelete, normalize]
      rw [if_neg (by simp : ¬ (r :: rest) = [])]
      generalize foldDN C (r :: rest) = k at hkok hkne htl ⊢
      generalize foldDN C rest = p at hpok htl ⊢
      unfold specDeleteAt
      by_cases h1 : ∃ n ∈ ns, n.name = k
      · rw [if_neg (by simpa using has_iff.2 h1)]
        obtain ⟨n0, hn0, e0⟩ := h1
        have hg := R.run_getID hn0
        rw [e0] at hg
        have hpos0 := Nat.ne_of_gt (R.pos n0 hn0).1
        have hkids := R.kids n0 hn0
        rw [e0] at hkids
        by_cases h2 : ∃ n ∈ ns, isChild k n.name = true
        · rw [if_pos (hasChild_iff.2 h2)]
          have hne : childIds ns k ≠ [] := fun h => childIds_nil.1 h h2
          have hlen : ((db.tbl .id2children (idToBytes n0.id)).getD []).length ≠ 0 := by
            rw [hkids, encodeIds_length]
            have : (childIds ns k).length ≠ 0 := by simpa using hne
            unfold childIds at this
            omega
          rw [update_of_err (e := .nonLeaf) (by
            simp only [entryDeleteBody, Prog.run_bind, hg, Res.ok_bind, hpos0, if_false, Prog.run_get!, ne_eq, hlen,
              not_false_eq_true, if_true, Prog.run_fail])]
          exact Sim.same R _
        · rw [if_neg (fun h => h2 (hasChild_iff.1 h))]
          have hlen : ((db.tbl .id2children (idToBytes n0.id)).getD []).length = 0 := by
            rw [hkids, encodeIds_length]
            have := childIds_nil.2 h2
            unfold childIds at this
            rw [this]; rfl
          by_cases h3 : ∃ n ∈ ns, n.name = p
          · rw [if_neg (by rw [htl]; simpa using has_iff.2 h3)]
            obtain ⟨pn, hpn, hpe⟩ := h3
            have hgp := R.run_getID hpn
            rw [hpe] at hgp
            have hposp := Nat.ne_of_gt (R.pos pn hpn).1
            have hkp := R.kids pn hpn
            rw [update_of_ok (a := ()) (by
              simp only [entryDeleteBody, Prog.run_bind, hg, Res.ok_bind, hpos0, if_false, Prog.run_get!, ne_eq, hlen,
                not_true_eq_false, hgp, hposp, Prog.run_put!_id, Prog.run_del!]
              rfl)]
            refine ⟨ns.filter fun n => n.name ≠ k, rfl, (dirOf_remove _).symm, ?_, by simp, by simp,
              fun h => absurd h (Nat.not_lt.2 (List.length_filter_le _ _)), ?_⟩
            · have hkk : ∀ n ∈ ns, n ≠ pn → isChild n.name n0.name = false := by
                intro n hn hne
                cases hc : isChild n.name n0.name with
                | false => rfl
                | true =>
                  obtain ⟨r1, e1⟩ := isChild_iff.1 hc
                  rw [e0] at e1
                  refine absurd (R.name_inj hn hpn ?_) hne
                  rw [hpe, ← htl, e1]; rfl
              have := R.remove hn0 (db' := (((db.set .id2children (idToBytes pn.id)
                  (some (encodeIds ((decodeIds ((db.tbl .id2children (idToBytes pn.id)).getD [])).filter (· ≠ n0.id))))).set
                  .dn2id (render k) none).set .id2entry (idToBytes n0.id) none)) (by rw [e0]; exact h2) (by simp)
                (by intro s; simp [Db.set_tbl, e0]) (by intro s; simp [Db.set_tbl]) ?_ ?_
              · rw [e0] at this; exact this
              · intro n hn
                by_cases hnp : n = pn
                · subst hnp
                  simp only [Db.set_tbl, reduceCtorEq, false_and, if_false, and_self, if_true, Option.getD_some]
                  rw [hkp, ← childIds, decodeIds_encodeIds (R.childIds_lt _)]
                · have hne : idToBytes n.id ≠ idToBytes pn.id := fun h =>
                    hnp (R.id_inj hn hpn (idToBytes_inj (R.idlt hn) (R.idlt hpn) h))
                  simp only [Db.set_tbl, reduceCtorEq, false_and, if_false, hne, and_false]
                  rw [R.kids n hn, ← childIds, List.filter_eq_self.2]
                  intro i hi
                  obtain ⟨m, hm, rfl⟩ := List.mem_map.1 hi
                  have hm := List.mem_filter.1 hm
                  simp only [ne_eq, decide_eq_true_eq]
                  intro e
                  have := R.id_inj hm.1 hn0 e
                  subst this
                  rw [hkk n hn hnp] at hm
                  exact absurd hm.2 (by simp)
              · intro i hi hi'
                have hne : idToBytes i ≠ idToBytes pn.id := fun h => by
                  have h1 := idToBytes_inj hi' (R.idlt hpn) h
                  have h2 := (R.pos pn hpn).2
                  omega
                simp [Db.set_tbl, hne, R.fresh i hi hi']
            · intro n hn; exact .inl ⟨n, (List.mem_filter.1 hn).1, rfl⟩
          · rw [if_pos (by rw [htl]; simpa using fun h => h3 (has_iff.1 h))]
            have hgp := R.run_getID_none hpok h3
            rw [update_of_err (e := .notFound) (by
              simp only [entryDeleteBody, Prog.run_bind, hg, Res.ok_bind, hpos0, if_false, Prog.run_get!, ne_eq, hlen,
                not_true_eq_false, hgp, if_true, Prog.run_fail])]
            exact Sim.same R _
      · rw [if_pos (by simpa using fun h => h1 (has_iff.1 h))]
        have hg := R.run_getID_none hkok h1
        rw [update_of_err (e := .notFound) (by simp [entryDeleteBody, Prog.run_bind, hg])]
        exact Sim.same R _

/-! ## EntryModify, UpdatePassword -/

/-- Replacing the stored entry of a node. -/
theorem sim_set (R : Rel C G base db ns) {n0 : INode} (h0 : n0 ∈ ns) (e : Entry) :
    Sim C G base db ns (.ok (), db.set .id2entry (idToBytes n0.id) (some (G.enc e))) (.ok (), (dirOf ns).setEntry n0.name e) := by
  refine ⟨Rel.subst ns n0.name n0.name e, rfl, ?_, ?_, by simp, by simp, fun h => absurd h (by simp [Rel.subst]), ?_⟩
  · rw [setEntry_eq_rename, dirOf_subst]
  · have hn := R.names n0 h0
    refine R.rename h0 hn.1 hn.2.1 hn.2.2 rfl (.inl rfl) (by simp) ?_ ?_ ?_
    · intro s
      split
      · rename_i e; subst e
        simp only [Db.set_tbl, reduceCtorEq, false_and, if_false]
        exact (R.dn2id _ _).2 ⟨n0, h0, rfl, rfl⟩
      · simp [Db.set_tbl]
    · intro s; simp [Db.set_tbl]
    · intro s; simp [Db.set_tbl]
  · intro n hn
    rcases mem_subst.1 hn with ⟨m, hm, _, rfl⟩ | ⟨hn, _⟩
    · exact .inl ⟨m, hm, rfl⟩
    · exact .inl ⟨n, hn, rfl⟩

theorem sim_modify (hC : C.Lawful) (hG : G.Lawful) (R : Rel C G base db ns) (dn : Str) (cs : List Change)
    (hok : ∀ n, parseDN C dn = some n → NameOk n) :
    Sim C G base db ns (entryModify C G db dn cs)
      (match parseDN C dn with | none => (.err .other, dirOf ns) | some n => specModify C (dirOf ns) n dn cs) := by
  unfold entryModify parseNormalize
  cases hdn : parseDN C dn with
  | none => exact Sim.same R _
  | some dn' =>
    have hkok : NameOk (foldDN C dn') := foldDN_nameOk hC (hok _ hdn)
    simp only [Option.map_some, specModify, normalize]
    generalize foldDN C dn' = k at hkok ⊢
    unfold specModifyAt
    by_cases h1 : ∃ n ∈ ns, n.name = k
    · obtain ⟨n0, hn0, e0⟩ := h1
      have hg := R.run_getEntryByDN hG hn0
      have hs := R.get_some hn0
      rw [e0] at hg hs
      simp only [hs]
      cases hm : applyModify C n0.entry dn cs with
      | ok e' =>
        rw [update_of_ok (a := ()) (by
            simp only [Prog.run_bind, hg, Res.ok_bind, entryModifyWithTxn, hm, Prog.lift, Prog.run_ret,
          Prog.run_put!_id]; rfl)]
        have := sim_set R hn0 e'
        rw [e0] at this
        simpa only [hm] using this
      | err x =>
        rw [update_of_err (e := x) (by
            simp only [Prog.run_bind, hg, Res.ok_bind, entryModifyWithTxn, hm, Prog.lift, Prog.run_fail,
          Res.err_bind])]
        exact Sim.same R _
      | panic =>
        rw [update_of_panic (by
            simp only [Prog.run_bind, hg, Res.ok_bind, entryModifyWithTxn, hm, Prog.lift, Prog.run_panic,
          Res.panic_bind])]
        exact Sim.same R _
      | hang =>
        rw [update_of_hang (by
            simp only [Prog.run_bind, hg, Res.ok_bind, entryModifyWithTxn, hm, Prog.lift, Prog.run_hang,
          Res.hang_bind])]
        exact Sim.same R _
    · rw [get_none h1, update_of_err (e := .notFound) (by simp [Prog.run_bind, R.run_getEntryByDN_none hkok h1])]
      exact Sim.same R _

theorem sim_password (hC : C.Lawful) (hG : G.Lawful) (validate : Str → Str → Res Bool) (R : Rel C G base db ns) (req : PwModReq)
    (hok : ∀ n, parseDN C req.userIdentity = some n → NameOk n) :
    Sim C G base db ns (updatePassword C G validate db req)
      (match parseDN C req.userIdentity with
        | none => (.err .other, dirOf ns)
        | some n => specPassword C validate (dirOf ns) n req.userIdentity req.oldPassword req.newPassword) := by
  unfold updatePassword parseNormalize
  cases hdn : parseDN C req.userIdentity with
  | none => exact Sim.same R _
  | some dn' =>
    have hkok : NameOk (foldDN C dn') := foldDN_nameOk hC (hok _ hdn)
    simp only [Option.map_some, specPassword, normalize]
    generalize foldDN C dn' = k at hkok ⊢
    unfold specPasswordAt
    by_cases h1 : ∃ n ∈ ns, n.name = k
    · obtain ⟨n0, hn0, e0⟩ := h1
      have hg := R.run_getEntryByDN hG hn0
      have hs := R.get_some hn0
      rw [e0] at hg hs
      rw [hs]
      -- the rest after the password check
      have after : ∀ p : Prog Unit, p.run db = .ok ((), db) →
          Sim C G base db ns (update (do
            let __discr ← getEntryByDN G (render k)
            p
            match applyModify C __discr.1 req.userIdentity [⟨opReplace, sUserPassword, [req.newPassword]⟩] with
            | .ok e' => Prog.put! .id2entry (idToBytes __discr.2) (G.enc e')
            | .err _ => Prog.fail (.ldap rcOperationsError true)
            | .panic => Prog.panic
            | .hang => Prog.hang) db)
          (match applyModify C n0.entry req.userIdentity [⟨opReplace, sUserPassword, [req.newPassword]⟩] with
            | .ok e' => (.ok (), (dirOf ns).setEntry k e')
            | .err _ => (.err (.ldap rcOperationsError true), dirOf ns)
            | .panic => (.panic, dirOf ns)
            | .hang => (.hang, dirOf ns)) := by
        intro p hp
        cases hm : applyModify C n0.entry req.userIdentity [⟨opReplace, sUserPassword, [req.newPassword]⟩] with
        | ok e' =>
          rw [update_of_ok (a := ()) (by
            simp only [Prog.run_bind, hg, Res.ok_bind, hp, hm, Prog.run_put!_id]; rfl)]
          have := sim_set R hn0 e'
          rw [e0] at this
          exact this
        | err x =>
          rw [update_of_err (e := .ldap rcOperationsError true) (by
            simp only [Prog.run_bind, hg, Res.ok_bind, hp, hm, Prog.run_fail])]
          exact Sim.same R _
        | panic =>
          rw [update_of_panic (by
            simp only [Prog.run_bind, hg, Res.ok_bind, hp, hm, Prog.run_panic])]
          exact Sim.same R _
        | hang =>
          rw [update_of_hang (by
            simp only [Prog.run_bind, hg, Res.ok_bind, hp, hm, Prog.run_hang])]
          exact Sim.same R _
      unfold updatePasswordBody
      by_cases ho : req.oldPassword = []
      · simp only [ho, ne_eq, not_true_eq_false, if_false, if_true]
        exact after (pure ()) rfl
      · simp only [ho, ne_eq, not_false_eq_true, if_true, if_false]
        cases hv : validate req.oldPassword (getVal C n0.entry.attrs sUserPassword) with
        | ok b =>
          cases b with
          | true =>
            have := after (Prog.ret ()) rfl
            simp only
            cases hm : applyModify C n0.entry req.userIdentity [⟨opReplace, sUserPassword, [req.newPassword]⟩] with
            | ok e' =>
              rw [update_of_ok (a := ()) (by
            simp only [Prog.run_bind, hg, Res.ok_bind, hv, Prog.run_ret, hm, Prog.run_put!_id]; rfl)]
              have := sim_set R hn0 e'
              rw [e0] at this
              exact this
            | err x =>
              rw [update_of_err (e := .ldap rcOperationsError true) (by
                simp only [Prog.run_bind, hg, Res.ok_bind, hv, Prog.run_ret, hm, Prog.run_fail])]
              exact Sim.same R _
            | panic =>
              rw [update_of_panic (by
            simp only [Prog.run_bind, hg, Res.ok_bind, hv, Prog.run_ret, hm, Prog.run_panic])]
              exact Sim.same R _
            | hang =>
              rw [update_of_hang (by
            simp only [Prog.run_bind, hg, Res.ok_bind, hv, Prog.run_ret, hm, Prog.run_hang])]
              exact Sim.same R _
          | false =>
            rw [update_of_err (e := .ldap rcUnwillingToPerform true) (by
              simp only [Prog.run_bind, hg, Res.ok_bind, hv, Prog.run_fail, Res.err_bind])]
            exact Sim.same R _
        | err x =>
          rw [update_of_err (e := .ldap rcUnwillingToPerform true) (by
            simp only [Prog.run_bind, hg, Res.ok_bind, hv, Prog.run_fail, Res.err_bind])]
          exact Sim.same R _
        | panic =>
          rw [update_of_panic (by
            simp only [Prog.run_bind, hg, Res.ok_bind, hv, Prog.run_panic, Res.panic_bind])]
          exact Sim.same R _
        | hang =>
          rw [update_of_hang (by
            simp only [Prog.run_bind, hg, Res.ok_bind, hv, Prog.run_hang, Res.hang_bind])]
          exact Sim.same R _
    · rw [get_none h1, update_of_err (e := .notFound) (by
        simp [updatePasswordBody, Prog.run_bind, R.run_getEntryByDN_none hkok h1])]
      exact Sim.same R _

/-! ## EntryModifyDN -/

theorem sim_rename (hC : C.Lawful) (hG : G.Lawful) (R : Rel C G base db ns) (req : ModifyDNReq)
    (hok : ∀ n, parseDN C req.dn = some n → NameOk n) (hok' : ∀ n, parseDN C req.newRDN = some n → NameOk n) :
    Sim C G base db ns (entryModifyDN C G db req) 
      (match parseDN C req.dn, parseDN C req.newRDN with
        | none, _ => (.err .other, dirOf ns)
        | some _, none => (.err .other, dirOf ns)
        | some _, some [] => (.panic, dirOf ns)
        | some [], some (_ :: _) => (.panic, dirOf ns)
        | some (o :: p), some (n :: _) => specRename C (dirOf ns) o n p req.deleteOldRDN) := by
  unfold entryModifyDN
  cases hdn : parseDN C req.dn with
  | none => simp only; exact Sim.same R _
  | some old =>
    cases hnew : parseDN C req.newRDN with
    | none => cases old <;> simp only <;> exact Sim.same R _
    | some new =>
      cases new with
      | nil => cases old <;> simp only <;> exact Sim.same R _
      | cons newRDN more =>
        cases old with
        | nil => simp only; exact Sim.same R _
        | cons oldRDN rest =>
          have hn := hok _ hdn
          have hn' : NameOk (newRDN :: rest) := by
            intro r hr
            rcases List.mem_cons.1 hr with rfl | hr
            · exact hok' _ hnew r List.mem_cons_self
            · exact hn r (List.mem_cons_of_mem _ hr)
          have hkok : NameOk (foldDN C (oldRDN :: rest)) := foldDN_nameOk hC hn
          have hkok' : NameOk (foldDN C (newRDN :: rest)) := foldDN_nameOk hC hn'
          have hkne' := foldDN_cons_ne (C := C) newRDN rest
          have htl : (foldDN C (newRDN :: rest)).tail = (foldDN C (oldRDN :: rest)).tail := rfl
          have hkf' := foldDN_idem hC (newRDN :: rest)
          simp only [specRename, normalize]
          have hch : ((if req.deleteOldRDN = true then oldRDN.map fun a => (⟨opDelete, a.typ, [a.val]⟩ : Change) else []) ++
            newRDN.map fun a => ⟨opAdd, a.typ, [a.val]⟩) = renameChanges oldRDN newRDN req.deleteOldRDN := rfl
          rw [hch]
          generalize renameChanges oldRDN newRDN req.deleteOldRDN = cs
          generalize foldDN C (newRDN :: rest) = k' at hkok' hkne' htl hkf' ⊢
          generalize foldDN C (oldRDN :: rest) = k at hkok htl ⊢
          unfold specRenameAt
          by_cases h1 : ∃ n ∈ ns, n.name = k'
          · rw [if_pos (has_iff.2 h1)]
            obtain ⟨n, hn, e⟩ := h1
            have hg := R.run_getID hn
            rw [e] at hg
            rw [update_of_err (e := .exists_) (by
              simp [entryModifyDNBody, Prog.run_bind, hg, Nat.ne_of_gt (R.pos n hn).1])]
            exact Sim.same R _
          · rw [if_neg (fun h => h1 (has_iff.1 h))]
            have hg := R.run_getID_none hkok' h1
            by_cases h2 : ∃ n ∈ ns, n.name = k
            · obtain ⟨n0, hn0, e0⟩ := h2
              have hge := R.run_getEntryByDN hG hn0
              have hs := R.get_some hn0
              have hgc := R.run_getChildren hn0
              rw [e0] at hge hs hgc
              simp only [hs]
              by_cases h3 : ∃ n ∈ ns, isChild k n.name = true
              · rw [if_pos (hasChild_iff.2 h3)]
                have hlen : (childIds ns k).length > 0 := by
                  apply Nat.pos_of_ne_zero
                  have hne : childIds ns k ≠ [] := fun h => childIds_nil.1 h h3
                  simpa using hne
                rw [update_of_err (e := .nonLeaf) (by
                  simp only [entryModifyDNBody, Prog.run_bind, hg, Res.ok_bind, ne_eq, not_true_eq_false, if_false, hge, hgc, hlen,
                    if_true, Prog.run_fail])]
                exact Sim.same R _
              · rw [if_neg (fun h => h3 (hasChild_iff.1 h))]
                have hlen : ¬ (childIds ns k).length > 0 := by rw [childIds_nil.2 h3]; simp
                cases hm : applyModify C ⟨render k', n0.entry.attrs⟩ (render k') cs with
                | ok e' =>
                  have hrun : (entryModifyDNBody C G (render k) (render k') cs).run db =
                      ((Prog.put! .dn2id (render k') (idToBytes n0.id)).run
                        (db.set .id2entry (idToBytes n0.id) (some (G.enc e'))) >>= fun r =>
                        (Prog.del! .dn2id (render k)).run r.2) := by
                    simp only [entryModifyDNBody, Prog.run_bind, hg, Res.ok_bind, ne_eq, not_true_eq_false, if_false, hge, hgc, hlen,
                      entryModifyWithTxn, hm, Prog.lift, Prog.run_ret, Prog.run_put!_id]
                  simp only
                  by_cases h4 : (render k').length > maxName
                  · rw [if_pos h4, update_of_err (e := .other) (by rw [hrun, Prog.run_put!_err (.inr h4)]; rfl)]
                    exact Sim.same R _
                  · rw [if_neg h4, update_of_ok (a := ()) (by
                      rw [hrun, Prog.run_put! (render_ne_nil hkok' hkne') (by show (render k').length ≤ maxName; omega)]
                      rfl)]
                    have hkk : render k ≠ render k' := fun h =>
                      h1 ⟨n0, hn0, by rw [e0]; exact render_injective _ _ hkok hkok' h⟩
                    refine ⟨Rel.subst ns k k' e', rfl, (dirOf_subst _ _ _).symm, ?_, by simp, by simp,
                      fun h => absurd h (by simp [Rel.subst]), ?_⟩
                    · have := R.rename hn0 (k' := k') (e := e') (db' := ((db.set .id2entry (idToBytes n0.id) (some (G.enc e'))).set
                        .dn2id (render k') (some (idToBytes n0.id))).set .dn2id (render k) none) hkok' hkf' hkne'
                        (by rw [e0]; exact htl) (.inr ⟨h1, by rw [e0]; exact h3⟩) (by simp) ?_ ?_ ?_
                      · rw [e0] at this; exact this
                      · intro s
                        rw [e0]
                        by_cases hs1 : s = render k
                        · subst hs1; simp [Db.set_tbl, hkk]
                        · simp [Db.set_tbl, hs1]
                      · intro s; simp [Db.set_tbl]
                      · intro s; simp [Db.set_tbl]
                    · intro n hn
                      rcases mem_subst.1 hn with ⟨m, hm, _, rfl⟩ | ⟨hn, _⟩
                      · exact .inl ⟨m, hm, rfl⟩
                      · exact .inl ⟨n, hn, rfl⟩
                | err x =>
                  rw [update_of_err (e := x) (by
                    simp only [entryModifyDNBody, Prog.run_bind, hg, Res.ok_bind, ne_eq, not_true_eq_false, if_false, hge, hgc, hlen,
                      entryModifyWithTxn, hm, Prog.lift, Prog.run_fail, Res.err_bind])]
                  exact Sim.same R _
                | panic =>
                  rw [update_of_panic (by
                    simp only [entryModifyDNBody, Prog.run_bind, hg, Res.ok_bind, ne_eq, not_true_eq_false, if_false, hge, hgc, hlen,
                      entryModifyWithTxn, hm, Prog.lift, Prog.run_panic, Res.panic_bind])]
                  exact Sim.same R _
                | hang =>
                  rw [update_of_hang (by
                    simp only [entryModifyDNBody, Prog.run_bind, hg, Res.ok_bind, ne_eq, not_true_eq_false, if_false, hge, hgc, hlen,
                      entryModifyWithTxn, hm, Prog.lift, Prog.run_hang, Res.hang_bind])]
                  exact Sim.same R _
            · simp only [get_none h2]
              rw [update_of_err (e := .notFound) (by
                simp [entryModifyDNBody, Prog.run_bind, hg, R.run_getEntryByDN_none hkok h2])]
              exact Sim.same R _

/-- One step of a history. -/
theorem sim_step (hC : C.Lawful) (hG : G.Lawful) (hb : BaseOk C base) (validate : Str → Str → Res Bool) (R : Rel C G base db ns)
    (hseq : db.seq + 1 < 2 ^ 64) (op : Op) (hok : op.Ok C) :
    Sim C G base db ns (boltStep C G validate (render base) db op) (specStep C validate base (dirOf ns) op) := by
  cases op with
  | add e => exact sim_add hC hb R hseq e hok
  | delete dn => exact sim_delete hC R dn hok
  | modify dn cs => exact sim_modify hC hG R dn cs hok
  | rename req => exact sim_rename hC hG R req hok.1 hok.2
  | password req => exact sim_password hC hG validate R req hok

end Idm
