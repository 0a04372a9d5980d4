import Verif.Spec.Directory
import Verif.Proofs.Ids
import Verif.Proofs.DN
/-!
# Simulation between the store and the abstract directory

`Rel` says that the three buckets represent the list of nodes `ns`; every operation preserves it and gives the same result as the
specification on the list without ids.
-/
namespace Idm

/-- A stored node with its internal id. -/
structure INode where
  id : Nat
  name : DN
  entry : Entry

def INode.node (n : INode) : Node := ⟨n.name, n.entry⟩

/-- Forget the ids. -/
def dirOf (ns : List INode) : Dir := ns.map INode.node

open Dir

theorem isChild_iff {k n : DN} : isChild k n = true ↔ ∃ r, n = r :: k := by
  unfold isChild
  cases n with
  | nil => simp
  | cons r p => simp

/-- The representation invariant. -/
structure Rel (C : CaseEnv) (G : GobEnv) (base : DN) (db : Db) (ns : List INode) : Prop where
  sorted : ns.Pairwise fun a b => a.id < b.id
  pos : ∀ n ∈ ns, 0 < n.id ∧ n.id ≤ db.seq
  seqlt : db.seq < 2 ^ 64
  nodup : (ns.map (·.name)).Nodup
  names : ∀ n ∈ ns, NameOk n.name ∧ foldDN C n.name = n.name ∧ n.name ≠ []
  dn2id : ∀ s v, db.tbl .dn2id s = some v ↔ ∃ n ∈ ns, render n.name = s ∧ idToBytes n.id = v
  id2entry : ∀ s v, db.tbl .id2entry s = some v ↔ ∃ n ∈ ns, idToBytes n.id = s ∧ G.enc n.entry = v
  kids : ∀ n ∈ ns, (db.tbl .id2children (idToBytes n.id)).getD [] =
    encodeIds ((ns.filter fun m => isChild n.name m.name).map (·.id))
  fresh : ∀ i, db.seq < i → i < 2 ^ 64 → db.tbl .id2children (idToBytes i) = none
  forest : ∀ n ∈ ns, base.length ≤ n.name.length ∧
    (base.length < n.name.length → ∃ m ∈ ns, isChild m.name n.name = true ∧ m.id < n.id)

namespace Rel
variable {C : CaseEnv} {G : GobEnv} {base : DN} {db : Db} {ns : List INode}

theorem idlt (R : Rel C G base db ns) {n : INode} (h : n ∈ ns) : n.id < 2 ^ 64 :=
  Nat.lt_of_le_of_lt (R.pos n h).2 R.seqlt

theorem id_inj (R : Rel C G base db ns) {a b : INode} (ha : a ∈ ns) (hb : b ∈ ns) (h : a.id = b.id) : a = b := by
  have := R.sorted
  clear R
  induction ns with
  | nil => simp at ha
  | cons x xs ih =>
    rw [List.pairwise_cons] at this
    rcases List.mem_cons.1 ha with rfl | ha'
    · rcases List.mem_cons.1 hb with rfl | hb'
      · rfl
      · have := this.1 b hb'; omega
    · rcases List.mem_cons.1 hb with rfl | hb'
      · have := this.1 a ha'; omega
      · exact ih ha' hb' this.2

theorem name_inj (R : Rel C G base db ns) {a b : INode} (ha : a ∈ ns) (hb : b ∈ ns) (h : a.name = b.name) : a = b := by
  have := R.nodup
  clear R
  induction ns with
  | nil => simp at ha
  | cons x xs ih =>
    rw [List.map_cons, List.nodup_cons] at this
    rcases List.mem_cons.1 ha with rfl | ha'
    · rcases List.mem_cons.1 hb with rfl | hb'
      · rfl
      · exact absurd (List.mem_map_of_mem (f := (·.name)) hb') (by rw [← h]; exact this.1)
    · rcases List.mem_cons.1 hb with rfl | hb'
      · exact absurd (List.mem_map_of_mem (f := (·.name)) ha') (by rw [h]; exact this.1)
      · exact ih ha' hb' this.2

/-- The empty database represents the empty directory. -/
theorem empty : Rel C G base Db.empty [] where
  sorted := .nil
  pos := by simp
  seqlt := by simp [Db.empty]
  nodup := by simp
  names := by simp
  dn2id := by simp [Db.empty]
  id2entry := by simp [Db.empty]
  kids := by simp
  fresh := by simp [Db.empty]
  forest := by simp

/-! ## Lookups -/

theorem has_iff {k : DN} : (dirOf ns).has k = true ↔ ∃ n ∈ ns, n.name = k := by
  simp only [Dir.has, dirOf, List.any_map, List.any_eq_true, Function.comp, decide_eq_true_eq]
  rfl

theorem hasChild_iff {k : DN} : (dirOf ns).hasChild k = true ↔ ∃ n ∈ ns, isChild k n.name = true := by
  simp [Dir.hasChild, dirOf, INode.node]

theorem get_some (R : Rel C G base db ns) {n : INode} (h : n ∈ ns) : (dirOf ns).get n.name = some n.entry := by
  have := R.nodup
  clear R
  unfold Dir.get dirOf
  induction ns with
  | nil => simp at h
  | cons x xs ih =>
    rw [List.map_cons, List.nodup_cons] at this
    rw [List.map_cons, List.find?_cons]
    by_cases e : x.name = n.name
    · rcases List.mem_cons.1 h with rfl | h
      · simp [INode.node]
      · exact absurd (List.mem_map_of_mem (f := (·.name)) h) (by rw [← e]; exact this.1)
    · simp only [INode.node, e, decide_false]
      rcases List.mem_cons.1 h with rfl | h
      · exact absurd rfl e
      · exact ih h this.2

theorem get_none {k : DN} (h : ¬ ∃ n ∈ ns, n.name = k) : (dirOf ns).get k = none := by
  unfold Dir.get dirOf
  rw [Option.map_eq_none_iff, List.find?_eq_none]
  intro x hx
  obtain ⟨n, hn, rfl⟩ := List.mem_map.1 hx
  exact fun e => h ⟨n, hn, of_decide_eq_true e⟩

theorem run_getID (R : Rel C G base db ns) {n : INode} (h : n ∈ ns) :
    (getIDByDN (render n.name)).run db = .ok (n.id, db) := by
  have := (R.dn2id (render n.name) (idToBytes n.id)).2 ⟨n, h, rfl, rfl⟩
  simp [getIDByDN, Prog.run_bind, this, decodeId_idToBytes' (R.idlt h), Prog.lift]

theorem run_getID_none (R : Rel C G base db ns) {k : DN} (hk : NameOk k) (h : ¬ ∃ n ∈ ns, n.name = k) :
    (getIDByDN (render k)).run db = .ok (0, db) := by
  have : db.tbl .dn2id (render k) = none := by
    cases e : db.tbl .dn2id (render k) with
    | none => rfl
    | some v =>
      obtain ⟨n, hn, e, -⟩ := (R.dn2id _ _).1 e
      exact absurd ⟨n, hn, render_injective _ _ (R.names n hn).1 hk e⟩ h
  simp [getIDByDN, Prog.run_bind, this]

theorem run_getEntry (hG : G.Lawful) (R : Rel C G base db ns) {n : INode} (h : n ∈ ns) :
    (getEntryByID G n.id).run db = .ok (n.entry, db) := by
  have := (R.id2entry (idToBytes n.id) (G.enc n.entry)).2 ⟨n, h, rfl, rfl⟩
  simp [getEntryByID, Prog.run_bind, this, hG.dec_enc]

theorem run_getEntryByDN (hG : G.Lawful) (R : Rel C G base db ns) {n : INode} (h : n ∈ ns) :
    (getEntryByDN G (render n.name)).run db = .ok ((n.entry, n.id), db) := by
  have hp := (R.pos n h).1
  simp [getEntryByDN, Prog.run_bind, R.run_getID h, R.run_getEntry hG h, Nat.ne_of_gt hp]

theorem run_getEntryByDN_none (R : Rel C G base db ns) {k : DN} (hk : NameOk k) (h : ¬ ∃ n ∈ ns, n.name = k) :
    (getEntryByDN G (render k)).run db = .err .notFound := by
  simp [getEntryByDN, Prog.run_bind, R.run_getID_none hk h]

/-- The child ids of a node. -/
def childIds (ns : List INode) (k : DN) : List Nat := (ns.filter fun m => isChild k m.name).map (·.id)

theorem childIds_lt (R : Rel C G base db ns) (k : DN) : ∀ i ∈ childIds ns k, i < 2 ^ 64 := by
  intro i hi
  obtain ⟨m, hm, rfl⟩ := List.mem_map.1 hi
  exact R.idlt (List.mem_filter.1 hm).1

theorem run_getChildren (R : Rel C G base db ns) {n : INode} (h : n ∈ ns) :
    (getChildrenIDs n.id).run db = .ok (childIds ns n.name, db) := by
  simp only [getChildrenIDs, Prog.run_bind, Prog.run_get!, Res.ok_bind, Prog.run_ret, R.kids n h]
  rw [← childIds, decodeIds_encodeIds (R.childIds_lt _)]

theorem childIds_nil {k : DN} : childIds ns k = [] ↔ ¬ ∃ n ∈ ns, isChild k n.name = true := by
  simp [childIds, List.filter_eq_nil_iff]

/-- Nothing is stored under a name of fewer RDNs than the base. -/
theorem not_short (R : Rel C G base db ns) {k : DN} (h : k.length < base.length) : ¬ ∃ n ∈ ns, n.name = k := by
  rintro ⟨n, hn, rfl⟩
  have := (R.forest n hn).1
  omega

/-- A name that is not stored has no stored children, provided it is not shorter than the base. -/
theorem no_child_of_absent (R : Rel C G base db ns) {k : DN} (hk : base.length ≤ k.length) (h : ¬ ∃ n ∈ ns, n.name = k) :
    ¬ ∃ n ∈ ns, isChild k n.name = true := by
  rintro ⟨n, hn, hc⟩
  obtain ⟨r, e⟩ := isChild_iff.1 hc
  have hlen : base.length < n.name.length := by rw [e, List.length_cons]; omega
  obtain ⟨m, hm, hmc, -⟩ := (R.forest n hn).2 hlen
  obtain ⟨r', e'⟩ := isChild_iff.1 hmc
  rw [e] at e'
  exact h ⟨m, hm, by simpa using (List.cons.inj e').2.symm⟩

/-! ## State changes -/

theorem add (R : Rel C G base db ns) {k : DN} {e : Entry} {db' : Db} (hseq : db.seq + 1 < 2 ^ 64)
    (hk : NameOk k) (hkf : foldDN C k = k) (hne : k ≠ [])
    (habs : ¬ ∃ n ∈ ns, n.name = k)
    (hpar : (k = base) ∨ ∃ p ∈ ns, p.name = k.tail)
    (hs : db'.seq = db.seq + 1)
    (hd : ∀ s, db'.tbl .dn2id s = if s = render k then some (idToBytes (db.seq + 1)) else db.tbl .dn2id s)
    (he : ∀ s, db'.tbl .id2entry s = if s = idToBytes (db.seq + 1) then some (G.enc e) else db.tbl .id2entry s)
    (hc : ∀ n ∈ ns, (db'.tbl .id2children (idToBytes n.id)).getD [] =
      (db.tbl .id2children (idToBytes n.id)).getD [] ++ (if isChild n.name k then idToBytes (db.seq + 1) else []))
    (hf : ∀ i, db.seq < i → i < 2 ^ 64 → db'.tbl .id2children (idToBytes i) = none) :
    Rel C G base db' (ns ++ [⟨db.seq + 1, k, e⟩]) := by
  have hlen : base.length ≤ k.length := by
    rcases hpar with rfl | ⟨p, hp, e⟩
    · exact Nat.le_refl _
    · have := (R.forest p hp).1
      rw [e] at this
      exact Nat.le_trans this (by simp)
  have hnoc := R.no_child_of_absent hlen habs
  have hself : isChild k k = false := by
    cases hb : isChild k k with
    | false => rfl
    | true =>
      obtain ⟨r, e⟩ := isChild_iff.1 hb
      exact absurd (congrArg List.length e) (by simp)
  refine ⟨?_, ?_, by omega, ?_, ?_, ?_, ?_, ?_, ?_, ?_⟩
  · rw [List.pairwise_append]
    refine ⟨R.sorted, by simp, ?_⟩
    intro a ha b hb
    simp at hb; subst hb
    have := (R.pos a ha).2
    show a.id < db.seq + 1
    omega
  · intro n hn
    rcases List.mem_append.1 hn with hn | hn
    · have := R.pos n hn; omega
    · simp at hn; subst hn; show 0 < db.seq + 1 ∧ db.seq + 1 ≤ db'.seq; omega
  · rw [List.map_append, List.nodup_append]
    refine ⟨R.nodup, by simp, ?_⟩
    intro a ha b hb e
    simp at hb; subst hb
    obtain ⟨n, hn, rfl⟩ := List.mem_map.1 ha
    exact habs ⟨n, hn, e⟩
  · intro n hn
    rcases List.mem_append.1 hn with hn | hn
    · exact R.names n hn
    · simp at hn; subst hn; exact ⟨hk, hkf, hne⟩
  · intro s v
    rw [hd]
    split
    · rename_i e; subst e
      constructor
      · intro h; simp at h; exact ⟨⟨db.seq + 1, k, e⟩, by simp, rfl, h⟩
      · rintro ⟨n, hn, e1, e2⟩
        rcases List.mem_append.1 hn with hn | hn
        · exact absurd ⟨n, hn, render_injective _ _ (R.names n hn).1 hk e1⟩ habs
        · simp at hn; subst hn; rw [← e2]
    · rename_i hne
      rw [R.dn2id]
      constructor
      · rintro ⟨n, hn, h⟩; exact ⟨n, List.mem_append.2 (.inl hn), h⟩
      · rintro ⟨n, hn, e1, e2⟩
        rcases List.mem_append.1 hn with hn | hn
        · exact ⟨n, hn, e1, e2⟩
        · simp at hn; subst hn; exact absurd e1.symm hne
  · intro s v
    rw [he]
    split
    · rename_i e; subst e
      constructor
      · intro h; simp at h; exact ⟨⟨db.seq + 1, k, _⟩, by simp, rfl, h⟩
      · rintro ⟨n, hn, e1, e2⟩
        rcases List.mem_append.1 hn with hn | hn
        · have h1 := idToBytes_inj (R.idlt hn) hseq e1
          have h2 := (R.pos n hn).2
          omega
        · simp at hn; subst hn; rw [← e2]
    · rename_i hne
      rw [R.id2entry]
      constructor
      · rintro ⟨n, hn, h⟩; exact ⟨n, List.mem_append.2 (.inl hn), h⟩
      · rintro ⟨n, hn, e1, e2⟩
        rcases List.mem_append.1 hn with hn | hn
        · exact ⟨n, hn, e1, e2⟩
        · simp at hn; subst hn; exact absurd e1.symm hne
  · intro n hn
    rcases List.mem_append.1 hn with hn | hn
    · rw [hc n hn, R.kids n hn, List.filter_append, List.map_append, encodeIds_append]
      congr 1
      cases hb : isChild n.name k <;> simp [hb, encodeIds]
    · simp at hn; subst hn
      have hz : db'.tbl .id2children (idToBytes (db.seq + 1)) = none := hf _ (by omega) hseq
      simp only [hz, Option.getD_none, List.filter_append]
      rw [List.filter_eq_nil_iff.2 (fun m hm hmc => hnoc ⟨m, hm, hmc⟩)]
      simp [hself, encodeIds]
  · intro i hi hi'
    exact hf i (by omega) hi'
  · intro n hn
    rcases List.mem_append.1 hn with hn | hn
    · refine ⟨(R.forest n hn).1, fun h => ?_⟩
      obtain ⟨m, hm, h⟩ := (R.forest n hn).2 h
      exact ⟨m, List.mem_append.2 (.inl hm), h⟩
    · simp at hn; subst hn
      refine ⟨hlen, fun h => ?_⟩
      rcases hpar with rfl | ⟨p, hp, e⟩
      · exact absurd h (Nat.lt_irrefl _)
      · refine ⟨p, List.mem_append.2 (.inl hp), ?_, ?_⟩
        · rw [isChild_iff]
          cases k with
          | nil => exact absurd rfl hne
          | cons r t => exact ⟨r, by simp at e; rw [e]⟩
        · have := (R.pos p hp).2; show p.id < db.seq + 1; omega

theorem remove (R : Rel C G base db ns) {n0 : INode} (h0 : n0 ∈ ns) {db' : Db}
    (hleaf : ¬ ∃ n ∈ ns, isChild n0.name n.name = true)
    (hs : db'.seq = db.seq)
    (hd : ∀ s, db'.tbl .dn2id s = if s = render n0.name then none else db.tbl .dn2id s)
    (he : ∀ s, db'.tbl .id2entry s = if s = idToBytes n0.id then none else db.tbl .id2entry s)
    (hc : ∀ n ∈ ns, (db'.tbl .id2children (idToBytes n.id)).getD [] = encodeIds ((childIds ns n.name).filter (· ≠ n0.id)))
    (hf : ∀ i, db.seq < i → i < 2 ^ 64 → db'.tbl .id2children (idToBytes i) = none) :
    Rel C G base db' (ns.filter fun n => n.name ≠ n0.name) := by
  have hmem : ∀ {n}, n ∈ (ns.filter fun n => n.name ≠ n0.name) ↔ n ∈ ns ∧ n.name ≠ n0.name := by
    intro n; rw [List.mem_filter]; simp
  refine ⟨R.sorted.sublist List.filter_sublist, ?_, by rw [hs]; exact R.seqlt, ?_, ?_, ?_, ?_, ?_, ?_, ?_⟩
  · intro n hn; rw [hs]; exact R.pos n (hmem.1 hn).1
  · exact R.nodup.sublist (List.filter_sublist.map _)
  · intro n hn; exact R.names n (hmem.1 hn).1
  · intro s v
    rw [hd]
    split
    · rename_i e; subst e
      constructor
      · intro h; simp at h
      · rintro ⟨n, hn, e1, e2⟩
        have hn := hmem.1 hn
        exact absurd (render_injective _ _ (R.names n hn.1).1 (R.names n0 h0).1 e1) hn.2
    · rename_i hne
      rw [R.dn2id]
      constructor
      · rintro ⟨n, hn, e1, e2⟩
        exact ⟨n, hmem.2 ⟨hn, fun e => hne (by rw [← e1, e])⟩, e1, e2⟩
      · rintro ⟨n, hn, h⟩; exact ⟨n, (hmem.1 hn).1, h⟩
  · intro s v
    rw [he]
    split
    · rename_i e; subst e
      constructor
      · intro h; simp at h
      · rintro ⟨n, hn, e1, e2⟩
        have hn := hmem.1 hn
        exact absurd (congrArg INode.name (R.id_inj hn.1 h0 (idToBytes_inj (R.idlt hn.1) (R.idlt h0) e1))) hn.2
    · rename_i hne
      rw [R.id2entry]
      constructor
      · rintro ⟨n, hn, e1, e2⟩
        refine ⟨n, hmem.2 ⟨hn, fun e => hne ?_⟩, e1, e2⟩
        rw [← e1, R.name_inj hn h0 e]
      · rintro ⟨n, hn, h⟩; exact ⟨n, (hmem.1 hn).1, h⟩
  · intro n hn
    rw [hc n (hmem.1 hn).1]
    congr 1
    unfold childIds
    rw [List.filter_filter, List.filter_map, List.filter_filter]
    congr 1
    apply List.filter_congr
    intro m hm
    have : (m.id = n0.id) ↔ m.name = n0.name :=
      ⟨fun e => congrArg INode.name (R.id_inj hm h0 e), fun e => congrArg INode.id (R.name_inj hm h0 e)⟩
    simp [this, Bool.and_comm]
  · intro i hi; rw [hs] at hi; exact hf i hi
  · intro n hn
    have hn := hmem.1 hn
    refine ⟨(R.forest n hn.1).1, fun h => ?_⟩
    obtain ⟨m, hm, hmc, hlt⟩ := (R.forest n hn.1).2 h
    refine ⟨m, hmem.2 ⟨hm, fun e => ?_⟩, hmc, hlt⟩
    rw [e] at hmc
    exact hleaf ⟨n, hn.1, hmc⟩

/-- Replace name and entry of a node. -/
def subst (ns : List INode) (k k' : DN) (e : Entry) : List INode := ns.map fun n => if n.name = k then ⟨n.id, k', e⟩ else n

theorem subst_map_id (k k' : DN) (e : Entry) : (subst ns k k' e).map (·.id) = ns.map (·.id) := by
  unfold subst; rw [List.map_map]; apply List.map_congr_left; intro n _; simp only [Function.comp]; split <;> rfl

theorem mem_subst {k k' : DN} {e : Entry} {n : INode} :
    n ∈ subst ns k k' e ↔ (∃ m ∈ ns, m.name = k ∧ n = ⟨m.id, k', e⟩) ∨ (n ∈ ns ∧ n.name ≠ k) := by
  unfold subst
  rw [List.mem_map]
  constructor
  · rintro ⟨m, hm, h⟩
    split at h
    · exact .inl ⟨m, hm, by assumption, h.symm⟩
    · subst h; exact .inr ⟨hm, by assumption⟩
  · rintro (⟨m, hm, e1, rfl⟩ | ⟨hn, hne⟩)
    · exact ⟨m, hm, by simp [e1]⟩
    · exact ⟨n, hn, by simp [hne]⟩

theorem rename (R : Rel C G base db ns) {n0 : INode} (h0 : n0 ∈ ns) {k' : DN} {e : Entry} {db' : Db}
    (hk : NameOk k') (hkf : foldDN C k' = k') (hne : k' ≠ [])
    (htail : k'.tail = n0.name.tail)
    (hcase : k' = n0.name ∨ ((¬ ∃ n ∈ ns, n.name = k') ∧ ¬ ∃ n ∈ ns, isChild n0.name n.name = true))
    (hs : db'.seq = db.seq)
    (hd : ∀ s, db'.tbl .dn2id s = if s = render k' then some (idToBytes n0.id) else
        if s = render n0.name then none else db.tbl .dn2id s)
    (he : ∀ s, db'.tbl .id2entry s = if s = idToBytes n0.id then some (G.enc e) else db.tbl .id2entry s)
    (hc : ∀ s, db'.tbl .id2children s = db.tbl .id2children s) :
    Rel C G base db' (subst ns n0.name k' e) := by
  have hlen : k'.length = n0.name.length := by
    have h1 := (R.names n0 h0).2.2
    cases hk' : k' with
    | nil => exact absurd hk' hne
    | cons r t =>
      cases hn : n0.name with
      | nil => exact absurd hn h1
      | cons r' t' => rw [hk', hn] at htail; simp at htail; simp [htail]
  have hchild : ∀ p, isChild p k' = isChild p n0.name := by
    intro p
    have h1 := (R.names n0 h0).2.2
    cases hk' : k' with
    | nil => exact absurd hk' hne
    | cons r t =>
      cases hn : n0.name with
      | nil => exact absurd hn h1
      | cons r' t' => rw [hk', hn] at htail; simp at htail; simp [isChild, htail]
  have hn0 : ∀ {m}, m ∈ ns → m.name = n0.name → m = n0 := fun hm e => R.name_inj hm h0 e
  -- names of the other nodes differ from k'
  have hother : ∀ n ∈ ns, n.name ≠ n0.name → n.name ≠ k' := by
    intro n hn hne' e
    rcases hcase with h | ⟨h, _⟩
    · exact hne' (e.trans h)
    · exact h ⟨n, hn, e⟩
  refine ⟨?_, ?_, by rw [hs]; exact R.seqlt, ?_, ?_, ?_, ?_, ?_, ?_, ?_⟩
  · have h1 := R.sorted
    rw [← List.pairwise_map (f := fun n : INode => n.id) (R := (· < ·))] at h1 ⊢
    rw [subst_map_id]; exact h1
  · intro n hn
    rw [hs]
    rcases mem_subst.1 hn with ⟨m, hm, _, rfl⟩ | ⟨hn, _⟩
    · exact R.pos m hm
    · exact R.pos n hn
  · have : ∀ l : List INode, (∀ n ∈ l, n ∈ ns) → (l.map (·.name)).Nodup → ((subst l n0.name k' e).map (·.name)).Nodup := by
      intro l
      induction l with
      | nil => simp [subst]
      | cons x xs ih =>
        intro hsub hnd
        rw [List.map_cons, List.nodup_cons] at hnd
        have ih := ih (fun n hn => hsub n (List.mem_cons_of_mem _ hn)) hnd.2
        simp only [subst, List.map_cons, List.nodup_cons] at ih ⊢
        refine ⟨?_, ih⟩
        intro hmem
        obtain ⟨y, hy, ey⟩ := List.mem_map.1 hmem
        have hy' : y ∈ subst xs n0.name k' e := hy
        rcases mem_subst.1 hy' with ⟨m, hm, em, rfl⟩ | ⟨hy2, hyn⟩
        · by_cases hx : x.name = n0.name
          · exact hnd.1 (by rw [hx, ← em]; exact List.mem_map_of_mem (f := (·.name)) hm)
          · rw [if_neg hx] at ey
            exact hother x (hsub x List.mem_cons_self) hx ey.symm
        · by_cases hx : x.name = n0.name
          · rw [if_pos hx] at ey
            exact hother y (hsub y (List.mem_cons_of_mem _ hy2)) hyn ey
          · rw [if_neg hx] at ey
            exact hnd.1 (by rw [← ey]; exact List.mem_map_of_mem (f := (·.name)) hy2)
    exact this ns (fun _ h => h) R.nodup
  · intro n hn
    rcases mem_subst.1 hn with ⟨m, hm, _, rfl⟩ | ⟨hn, _⟩
    · exact ⟨hk, hkf, hne⟩
    · exact R.names n hn
  · intro s v
    rw [hd]
    split
    · rename_i es; subst es
      constructor
      · intro h; simp at h; exact ⟨⟨n0.id, k', e⟩, mem_subst.2 (.inl ⟨n0, h0, rfl, rfl⟩), rfl, h⟩
      · rintro ⟨n, hn, e1, e2⟩
        rcases mem_subst.1 hn with ⟨m, hm, em, rfl⟩ | ⟨hn, hnn⟩
        · rw [← e2, hn0 hm em]
        · exact absurd (render_injective _ _ (R.names n hn).1 hk e1) (hother n hn hnn)
    · rename_i hne1
      split
      · rename_i es; subst es
        constructor
        · intro h; simp at h
        · rintro ⟨n, hn, e1, e2⟩
          rcases mem_subst.1 hn with ⟨m, hm, em, rfl⟩ | ⟨hn, hnn⟩
          · exact absurd e1.symm hne1
          · exact absurd (render_injective _ _ (R.names n hn).1 (R.names n0 h0).1 e1) hnn
      · rename_i hne2
        rw [R.dn2id]
        constructor
        · rintro ⟨n, hn, e1, e2⟩
          exact ⟨n, mem_subst.2 (.inr ⟨hn, fun e => hne2 (by rw [← e1, e])⟩), e1, e2⟩
        · rintro ⟨n, hn, e1, e2⟩
          rcases mem_subst.1 hn with ⟨m, hm, em, rfl⟩ | ⟨hn, hnn⟩
          · exact absurd e1.symm hne1
          · exact ⟨n, hn, e1, e2⟩
  · intro s v
    rw [he]
    split
    · rename_i es; subst es
      constructor
      · intro h; simp at h; exact ⟨⟨n0.id, k', e⟩, mem_subst.2 (.inl ⟨n0, h0, rfl, rfl⟩), rfl, h⟩
      · rintro ⟨n, hn, e1, e2⟩
        rcases mem_subst.1 hn with ⟨m, hm, em, rfl⟩ | ⟨hn, hnn⟩
        · rw [← e2]
        · exact absurd (congrArg INode.name (R.id_inj hn h0 (idToBytes_inj (R.idlt hn) (R.idlt h0) e1))) hnn
    · rename_i hne1
      rw [R.id2entry]
      constructor
      · rintro ⟨n, hn, e1, e2⟩
        refine ⟨n, mem_subst.2 (.inr ⟨hn, fun e => hne1 ?_⟩), e1, e2⟩
        rw [← e1, hn0 hn e]
      · rintro ⟨n, hn, e1, e2⟩
        rcases mem_subst.1 hn with ⟨m, hm, em, rfl⟩ | ⟨hn, hnn⟩
        · refine absurd ?_ hne1; rw [← e1, hn0 hm em]
        · exact ⟨n, hn, e1, e2⟩
  · -- children
    have key : ∀ p, ((subst ns n0.name k' e).filter fun m => isChild p m.name).map (·.id) =
        ((ns.filter fun m => isChild p m.name).map (·.id)) := by
      intro p
      have : ∀ l : List INode, ((subst l n0.name k' e).filter fun m => isChild p m.name).map (·.id) =
        ((l.filter fun m => isChild p m.name).map (·.id)) := by
        intro l
        induction l with
        | nil => rfl
        | cons x xs ih =>
          simp only [subst, List.map_cons] at ih ⊢
          by_cases hx : x.name = n0.name
          · rw [if_pos hx, List.filter_cons, List.filter_cons]
            simp only [hchild p, hx]
            split <;> simp [ih]
          · rw [if_neg hx, List.filter_cons, List.filter_cons]
            split <;> simp [ih]
      exact this ns
    intro n hn
    rw [key, hc]
    rcases mem_subst.1 hn with ⟨m, hm, em, rfl⟩ | ⟨hn, hnn⟩
    · have := R.kids m hm
      simp only [this]
      congr 2
      rw [em]
      rcases hcase with h | ⟨habs, hleaf⟩
      · rw [h]
      · have habs' := R.no_child_of_absent (by rw [hlen]; exact (R.forest n0 h0).1) habs
        rw [List.filter_eq_nil_iff.2 (fun x hx hxc => hleaf ⟨x, hx, hxc⟩),
          List.filter_eq_nil_iff.2 (fun x hx hxc => habs' ⟨x, hx, hxc⟩)]
    · exact R.kids n hn
  · intro i hi; rw [hs] at hi; rw [hc]; exact R.fresh i hi
  · have par : ∀ n ∈ ns, base.length < n.name.length →
        ∃ m ∈ subst ns n0.name k' e, isChild m.name n.name = true ∧ m.id < n.id := by
      intro n hn h
      obtain ⟨m, hm, hmc, hlt⟩ := (R.forest n hn).2 h
      by_cases hmn : m.name = n0.name
      · rcases hcase with hk0 | ⟨_, hleaf⟩
        · exact ⟨⟨m.id, k', e⟩, mem_subst.2 (.inl ⟨m, hm, hmn, rfl⟩), by rw [hk0, ← hmn]; exact hmc, hlt⟩
        · exact absurd ⟨n, hn, hmn ▸ hmc⟩ hleaf
      · exact ⟨m, mem_subst.2 (.inr ⟨hm, hmn⟩), hmc, hlt⟩
    intro n hn
    rcases mem_subst.1 hn with ⟨m, hm, em, rfl⟩ | ⟨hn, hnn⟩
    · have : m = n0 := hn0 hm em
      subst this
      refine ⟨by simp only [hlen]; exact (R.forest m hm).1, ?_⟩
      simp only [hlen, hchild]
      exact par m hm
    · exact ⟨(R.forest n hn).1, par n hn⟩

end Rel
end Idm
