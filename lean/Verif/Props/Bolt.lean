import Verif.Proofs.Links
import Verif.Proofs.BoltRun
import Verif.Spec.Search
import Verif.Model.GobInstance
/-!
# C04–C08, C10–C12, C14: the store

All theorems are about databases reached by an arbitrary history of calls starting with an empty database. `validate` (password
checking), case folding `C` and the entry encoding `G` are arbitrary (lawful) functions.
-/
namespace Idm
open Dir

section
variable {C : CaseEnv} {G : GobEnv} {base : DN} {validate : Str → Str → Res Bool}

/-- The database after a history. -/
abbrev after (C : CaseEnv) (G : GobEnv) (validate : Str → Str → Res Bool) (base : DN) (ops : List Op) : Db :=
  (boltRun C G validate (render base) Db.empty ops).2

/-- The abstract directory after a history. -/
abbrev dirAfter (C : CaseEnv) (validate : Str → Str → Res Bool) (base : DN) (ops : List Op) : Dir :=
  (specRun C validate base [] ops).2

theorem search_of_rel (hC : C.Lawful) (hG : G.Lawful) {db : Db} {ns : List INode} (R : Rel C G base db ns) {text : Str} {n : DN}
    (hp : parseDN C text = some n) (hn : NameOk n) (scope fuel : Nat) (hf : db.seq < fuel) :
    (∀ m ∈ ns, m.name = foldDN C n → searchFuel C G fuel db text scope = .ok ((Rel.visited ns fuel m scope).map (·.entry), none)) ∧
    ((¬ ∃ m ∈ ns, m.name = foldDN C n) → searchFuel C G fuel db text scope = .ok ([], some .other)) := by
  constructor
  · intro m hm e
    have := R.run_search hG hm (fuel := fuel) (by omega) scope
    rw [e] at this
    simp only [searchFuel, parseNormalize, hp, Option.map_some, normalize, view, this]
  · intro h
    have := R.run_search_none (G := G) (foldDN_nameOk hC hn) h fuel scope
    simp only [searchFuel, parseNormalize, hp, Option.map_some, normalize, view, this]

theorem lookup_of_rel (hC : C.Lawful) (hG : G.Lawful) {db : Db} {ns : List INode} (R : Rel C G base db ns) {text : Str} {n : DN}
    (hp : parseDN C text = some n) (hn : NameOk n) :
    boltSearch C G db text scopeBase =
      match (dirOf ns).get (foldDN C n) with
      | some e => .ok ([e], none)
      | none => .ok ([], some .other) := by
  obtain ⟨h1, h2⟩ := search_of_rel hC hG R hp hn scopeBase (db.seq + 1) (by omega)
  by_cases h : ∃ m ∈ ns, m.name = foldDN C n
  · obtain ⟨m, hm, e⟩ := h
    have hg := R.get_some hm
    rw [e] at hg
    rw [boltSearch, h1 m hm e, hg]; rfl
  · rw [boltSearch, h2 h, Rel.get_none h]

/-! ## C04 the store is a map -/

/-- C04: any history gives the same results as on the abstract directory, and every later lookup (base search) gives the entry the
abstract directory has under that name, or the error "not found" if it has none. Names are those
whose attribute types need no escapes; all names valid by RFC 4514 are (`rfc4514_nameOk`). For others it fails, see
`C04_escaped_type_fails`. -/
theorem C04_store_is_a_map (hC : C.Lawful) (hG : G.Lawful) (hb : BaseOk C base) (ops : List Op) (h : HistOk C ops) :
    (boltRun C G validate (render base) Db.empty ops).1 = (specRun C validate base [] ops).1 ∧
    ∀ text, TextOk C text →
      boltSearch C G (after C G validate base ops) text scopeBase =
        match (parseDN C text).bind fun n => (dirAfter C validate base ops).get (foldDN C n) with
        | some e => .ok ([e], none)
        | none => .ok ([], some .other) := by
  obtain ⟨ns, h1, h2, R, -⟩ := sim_run_empty (validate := validate) hC hG hb ops h.ok h.len
  refine ⟨h1, fun text ht => ?_⟩
  cases hp : parseDN C text with
  | none => simp [boltSearch, searchFuel, parseNormalize, hp]
  | some n =>
    rw [dirAfter, h2]
    exact lookup_of_rel hC hG R hp (ht n hp)

/-! ## C05, C06 search -/

/-- What a database related to a list of nodes serves. -/
theorem serves_of_rel (hC : C.Lawful) (hG : G.Lawful) {db : Db} {ns : List INode} (R : Rel C G base db ns) :
    Serves C G db (dirOf ns) := by
  intro text name hp ht scope
  obtain ⟨h3, h4⟩ := search_of_rel hC hG R hp ht scope _ (Nat.lt_succ_self _)
  constructor
  · intro hh
    obtain ⟨m, hm, e⟩ := Rel.has_iff.1 hh
    have hsub : ∀ x ∈ Rel.visited ns (db.seq + 1) m scope, x ∈ ns := by
      intro x hx
      unfold Rel.visited at hx
      split at hx
      · simp at hx; rw [hx]; exact hm
      · split at hx
        · exact (List.mem_filter.1 hx).1
        · split at hx
          · rcases List.mem_cons.1 hx with rfl | hx
            · exact hm
            · exact (Rel.mem_subtree_sound _ _ _ hx).1
          · simp at hx
    have hnd : (Rel.visited ns (db.seq + 1) m scope).Nodup := by
      unfold Rel.visited
      split
      · simp
      · split
        · exact R.nodes_nodup.sublist List.filter_sublist
        · split
          · rw [List.nodup_cons]
            refine ⟨fun hx => ?_, R.subtree_nodup _ _⟩
            exact absurd (isBelow_length (Rel.mem_subtree_sound _ _ _ hx).2) (Nat.lt_irrefl _)
          · simp
    refine ⟨(Rel.visited ns (db.seq + 1) m scope).map INode.node, ?_, ?_, ?_⟩
    · rw [boltSearch, h3 m hm e, List.map_map]; rfl
    · rw [List.map_map, List.Nodup, List.pairwise_map]
      exact hnd.imp_of_mem fun ha hb hne en => hne (R.name_inj (hsub _ ha) (hsub _ hb) en)
    · intro n
      have key : ∀ x ∈ ns, x ∈ Rel.visited ns (db.seq + 1) m scope ↔
          InScope scope (foldDN C name) x.name := by
        intro x hx
        unfold Rel.visited InScope scopeBase scopeOne scopeSub
        rw [← e]
        by_cases s0 : scope = 0
        · rw [if_pos s0, List.mem_singleton]
          constructor
          · rintro rfl; exact .inl ⟨s0, rfl⟩
          · rintro (⟨-, h⟩ | ⟨h, -⟩ | ⟨h, -⟩)
            · exact R.name_inj hx hm h
            · omega
            · omega
        · rw [if_neg s0]
          by_cases s1 : scope = 1
          · rw [if_pos s1, List.mem_filter, isChild_iff]
            constructor
            · rintro ⟨-, h⟩; exact .inr (.inl ⟨s1, h⟩)
            · rintro (⟨h, -⟩ | ⟨-, h⟩ | ⟨h, -⟩)
              · omega
              · exact ⟨hx, h⟩
              · omega
          · rw [if_neg s1]
            by_cases s2 : scope = 2
            · rw [if_pos s2, List.mem_cons]
              constructor
              · intro hs
                refine .inr (.inr ⟨s2, ?_⟩)
                rcases hs with rfl | hs
                · exact ⟨[], rfl⟩
                · obtain ⟨r, t, e1, p, e2⟩ := isBelow_iff.1 (Rel.mem_subtree_sound _ _ _ hs).2
                  exact ⟨r :: p, by rw [e1, ← e2]; rfl⟩
              · rintro (⟨h, -⟩ | ⟨h, -⟩ | ⟨-, p, e1⟩)
                · omega
                · omega
                · cases p with
                  | nil => exact .inl (R.name_inj hx hm e1)
                  | cons r p =>
                    refine .inr (R.mem_subtree_complete _ m x hm (Nat.lt_of_lt_of_le (Nat.lt_succ_self _) (Nat.le_add_left _ _)) hx ?_)
                    exact isBelow_iff.2 ⟨r, p ++ m.name, e1, p, rfl⟩
            · rw [if_neg s2]
              constructor
              · intro h; exact absurd h (by simp)
              · rintro (⟨h, -⟩ | ⟨h, -⟩ | ⟨h, -⟩) <;> omega
      constructor
      · intro hn
        obtain ⟨x, hx, rfl⟩ := List.mem_map.1 hn
        exact ⟨List.mem_map_of_mem (hsub x hx), (key x (hsub x hx)).1 hx⟩
      · rintro ⟨hn, hsc⟩
        obtain ⟨x, hx, rfl⟩ := List.mem_map.1 hn
        exact List.mem_map_of_mem ((key x hx).2 hsc)
  · intro hh
    refine h4 fun ⟨m, hm, e⟩ => ?_
    rw [Rel.has_iff.2 ⟨m, hm, e⟩] at hh
    exact absurd hh (by simp)

/-- C05: a search at a stored name returns exactly the stored entries in scope, none twice; a search elsewhere returns none. -/
theorem C05_search_exact (hC : C.Lawful) (hG : G.Lawful) (hb : BaseOk C base) (ops : List Op) (h : HistOk C ops)
    (text : Str) (name : DN) (hp : parseDN C text = some name) (ht : NameOk name) (scope : Nat) :
    let d := dirAfter C validate base ops
    (d.has (foldDN C name) = true →
      ∃ found : List Node,
        boltSearch C G (after C G validate base ops) text scope = .ok (found.map (·.entry), none) ∧
        (found.map (·.name)).Nodup ∧
        ∀ n, n ∈ found ↔ n ∈ d ∧ InScope scope (foldDN C name) n.name) ∧
    (d.has (foldDN C name) = false → boltSearch C G (after C G validate base ops) text scope = .ok ([], some .other)) := by
  obtain ⟨ns, -, h2, R, -⟩ := sim_run_empty (validate := validate) hC hG hb ops h.ok h.len
  intro d
  have hd : d = dirOf ns := h2
  rw [hd]
  exact serves_of_rel hC hG R text name hp ht scope

/-- C06: a subtree search returns the search base first, and every other entry after its parent. Names as in C04. -/
theorem C06_parents_first (hC : C.Lawful) (hG : G.Lawful) (hb : BaseOk C base) (ops : List Op) (h : HistOk C ops)
    (text : Str) (name : DN) (hp : parseDN C text = some name) (ht : NameOk name)
    (hh : (dirAfter C validate base ops).has (foldDN C name) = true) :
    ∃ found : List Node,
      boltSearch C G (after C G validate base ops) text scopeSub = .ok (found.map (·.entry), none) ∧
      (∀ n ∈ found, n ∈ dirAfter C validate base ops) ∧
      found.head?.map (·.name) = some (foldDN C name) ∧
      ∀ before n later, found = before ++ n :: later → before ≠ [] → ∃ p ∈ before, ∃ r, n.name = r :: p.name := by
  obtain ⟨ns, -, h2, R, -⟩ := sim_run_empty (validate := validate) hC hG hb ops h.ok h.len
  rw [dirAfter, h2] at hh ⊢
  obtain ⟨h3, -⟩ := search_of_rel hC hG R hp ht scopeSub _ (Nat.lt_succ_self _)
  obtain ⟨m, hm, e⟩ := Rel.has_iff.1 hh
  have hv : Rel.visited ns ((after C G validate base ops).seq + 1) m scopeSub =
      m :: Rel.subtree ns ((after C G validate base ops).seq + 1) m.name := rfl
  refine ⟨(m :: Rel.subtree ns ((after C G validate base ops).seq + 1) m.name).map INode.node, ?_, ?_, ?_, ?_⟩
  · rw [boltSearch, h3 m hm e, hv, List.map_map]; rfl
  · intro n hn
    obtain ⟨x, hx, rfl⟩ := List.mem_map.1 hn
    refine List.mem_map_of_mem ?_
    rcases List.mem_cons.1 hx with rfl | hx
    · exact hm
    · exact (Rel.mem_subtree_sound _ _ _ hx).1
  · simp [INode.node, e]
  · intro before n later hsplit hne
    obtain ⟨b', rest, heq, hb', hrest⟩ := List.map_eq_append_iff.1 hsplit
    obtain ⟨x, later', rfl, hx, -⟩ := List.map_eq_cons_iff.1 hrest
    cases b' with
    | nil => simp at hb'; exact absurd hb'.symm (by simpa using hne)
    | cons y ys =>
      simp only [List.cons_append, List.cons.injEq] at heq
      obtain ⟨rfl, heq⟩ := heq
      have hpf := Rel.subtree_parentsFirst ns ((after C G validate base ops).seq + 1) m [m] (by simp)
      obtain ⟨p, hp', hc⟩ := hpf.split heq
      obtain ⟨r, er⟩ := isChild_iff.1 hc
      refine ⟨p.node, ?_, r, by rw [← hx]; exact er⟩
      rw [← hb']
      exact List.mem_map_of_mem (by simpa using hp')

/-! ## C07 termination -/

/-- C07: the recursion of a search ends: with every bound on the depth above the number of calls made so far, the search gives the same
answer, and it is an answer (not "endless recursion"). For all names and all histories of fewer than 2^64 calls (ids are 64 bit). -/
theorem C07_search_terminates (ops : List Op) (h : ops.length < 2 ^ 64) (text : Str) (scope : Nat) :
    ∃ answer, ∀ depth, ops.length < depth →
      searchFuel C G depth (after C G validate base ops) text scope = .ok answer := by
  obtain ⟨L, hs⟩ := Links.run C G validate (render base) ops Db.empty Links.empty (by simpa [Db.empty] using h)
  obtain ⟨answer, ha⟩ := L.search C G text scope
  exact ⟨answer, fun depth hd => ha depth (Nat.lt_of_le_of_lt hs (by show 0 + ops.length < depth; omega))⟩

/-- C07 on the links themselves: a name leads to an id `p`, and every child recorded for `p` has a larger id, so no chain of child links
comes back to where it started. -/
theorem C07_no_cycle (ops : List Op) (h : ops.length < 2 ^ 64) (p : Nat) (hp : p < 2 ^ 64) (v : Str)
    (hv : (after C G validate base ops).tbl .id2children (idToBytes p) = some v) : ∀ c ∈ decodeIds v, p < c := by
  obtain ⟨L, -⟩ := Links.run C G validate (render base) ops Db.empty Links.empty (by simpa [Db.empty] using h)
  obtain ⟨-, cs, h2, h3⟩ := L.links p v hp hv
  rw [h2, decodeIds_encodeIds fun n hn => Nat.lt_of_le_of_lt (h3 n hn).2 L.lt]
  exact fun c hc => (h3 c hc).1

/-! ## C08 refused operations -/

/-- C08: on every database whatsoever, a call that does not report success leaves it unchanged. -/
theorem C08_refused_changes_nothing (base : Str) (db : Db) (op : Op)
    (h : (boltStep C G validate base db op).1 ≠ .ok ()) : (boltStep C G validate base db op).2 = db := by
  have upd : ∀ p : Prog Unit, (update p db).1 ≠ .ok () → (update p db).2 = db := by
    intro p hp
    unfold update at hp ⊢
    split
    · rename_i a db' e; rw [e] at hp; exact absurd rfl hp
    all_goals rfl
  cases op with
  | add e =>
    simp only [boltStep, entryPut] at h ⊢
    split at h <;> try rfl
    split at h
    · rename_i h'; simp [h']
    · rename_i h'; simp only [h'] at h ⊢; exact upd _ h
  | delete dn =>
    simp only [boltStep, entryDelete] at h ⊢
    split at h <;> try rfl
    exact upd _ h
  | modify dn cs =>
    simp only [boltStep, entryModify] at h ⊢
    split at h <;> try rfl
    exact upd _ h
  | rename req =>
    simp only [boltStep, entryModifyDN] at h ⊢
    split at h <;> try rfl
    split at h <;> try rfl
    split at h <;> try rfl
    exact upd _ h
  | password req =>
    simp only [boltStep, updatePassword] at h ⊢
    split at h <;> try rfl
    exact upd _ h

/-! ## C10–C12 -/

/-- A lookup of that name finds an entry. -/
def Found (C : CaseEnv) (G : GobEnv) (db : Db) (text : Str) : Prop := ∃ e, boltSearch C G db text scopeBase = .ok ([e], none)

theorem found_iff (hC : C.Lawful) (hG : G.Lawful) {db : Db} {ns : List INode} (R : Rel C G base db ns) {text : Str} {n : DN}
    (hp : parseDN C text = some n) (hn : NameOk n) : Found C G db text ↔ ∃ m ∈ ns, m.name = foldDN C n := by
  unfold Found
  rw [lookup_of_rel hC hG R hp hn]
  constructor
  · rintro ⟨e, he⟩
    apply Decidable.byContradiction
    intro h
    rw [Rel.get_none h] at he
    simp at he
  · rintro ⟨m, hm, e⟩
    have := R.get_some hm
    rw [e] at this
    exact ⟨m.entry, by rw [this]⟩

/-- C10 no orphans: if an entry is found under a name that has more components than the base DN, then its parent is found. Names as in C04. -/
theorem C10_parent_exists (hC : C.Lawful) (hG : G.Lawful) (hb : BaseOk C base) (ops : List Op) (h : HistOk C ops)
    (text ptext : Str) (r : RDN) (p : DN) (hp : parseDN C text = some (r :: p)) (hpp : parseDN C ptext = some p)
    (ht : NameOk (r :: p)) (hlong : base.length < (r :: p).length)
    (hf : Found C G (after C G validate base ops) text) : Found C G (after C G validate base ops) ptext := by
  obtain ⟨ns, -, -, R, -⟩ := sim_run_empty (validate := validate) hC hG hb ops h.ok h.len
  obtain ⟨m, hm, e⟩ := (found_iff hC hG R hp ht).1 hf
  obtain ⟨q, hq, hc, -⟩ := (R.forest m hm).2 (by rw [e, foldDN_length]; exact hlong)
  refine (found_iff hC hG R hpp (nameOk_cons ht)).2 ⟨q, hq, ?_⟩
  obtain ⟨r', e'⟩ := isChild_iff.1 hc
  rw [e] at e'
  have := congrArg List.tail e'
  rw [foldDN_cons] at this
  exact this.symm

/-- C10: an entry with a child can neither be deleted nor renamed. Names as in C04. -/
theorem C10_nonleaf_kept (hC : C.Lawful) (hG : G.Lawful) (hb : BaseOk C base) (ops : List Op) (h : HistOk C ops)
    (ctext ptext : Str) (r : RDN) (p : DN) (hc : parseDN C ctext = some (r :: p)) (hpp : parseDN C ptext = some p)
    (ht : NameOk (r :: p)) (hf : Found C G (after C G validate base ops) ctext) :
    (boltStep C G validate (render base) (after C G validate base ops) (.delete ptext)).1 ≠ .ok () ∧
    ∀ newRDN del, TextOk C newRDN →
      (boltStep C G validate (render base) (after C G validate base ops) (.rename ⟨ptext, newRDN, del⟩)).1 ≠ .ok () := by
  obtain ⟨ns, -, -, R, -⟩ := sim_run_empty (validate := validate) hC hG hb ops h.ok h.len
  obtain ⟨m, hm, e⟩ := (found_iff hC hG R hc ht).1 hf
  have hch : (dirOf ns).hasChild (foldDN C p) = true := by
    refine Rel.hasChild_iff.2 ⟨m, hm, isChild_iff.2 ⟨(foldDN C (r :: p)).head (foldDN_cons_ne r p), ?_⟩⟩
    rw [e]; rfl
  have hpok : TextOk C ptext := by
    intro n hn; rw [hpp] at hn; cases hn; exact nameOk_cons ht
  constructor
  · obtain ⟨ns', h1, -⟩ := sim_delete (C := C) (G := G) (base := base) hC R ptext hpok
    show (entryDelete C (after C G validate base ops) ptext).1 ≠ .ok ()
    rw [h1, hpp]
    simp only [specDelete]
    split
    · simp
    · simp only [specDeleteAt]
      split
      · simp
      · simp [hch]
  · intro newRDN del hnew
    obtain ⟨ns', h1, -⟩ := sim_rename (C := C) (G := G) (base := base) hC hG R ⟨ptext, newRDN, del⟩ hpok hnew
    show (entryModifyDN C G (after C G validate base ops) ⟨ptext, newRDN, del⟩).1 ≠ .ok ()
    rw [h1]
    simp only [hpp]
    cases hq : parseDN C newRDN with
    | none => simp
    | some q =>
      cases q with
      | nil => simp
      | cons n q =>
        cases p with
        | nil => simp
        | cons o p =>
          simp only [specRename, specRenameAt, hch, if_true]
          split
          · simp
          · split <;> simp

/-- C11: the stored names are pairwise different, and adding or renaming onto a stored name is refused with "entry already exists"
(the add only if the name passes the check that it ends in the base DN). Names as in C04. -/
theorem C11_names_unique (hC : C.Lawful) (hG : G.Lawful) (hb : BaseOk C base) (ops : List Op) (h : HistOk C ops) :
    ((dirAfter C validate base ops).map (·.name)).Nodup ∧
    (∀ (e : Entry) (n : DN), parseDN C e.dn = some n → NameOk n → n ≠ [] → render base <:+ render (foldDN C n) →
      Found C G (after C G validate base ops) e.dn →
      (boltStep C G validate (render base) (after C G validate base ops) (.add e)).1 = .err .exists_) ∧
    (∀ (req : ModifyDNReq) (o n : RDN) (p q : DN) (target : Str), parseDN C req.dn = some (o :: p) →
      parseDN C req.newRDN = some (n :: q) → NameOk (o :: p) → NameOk (n :: q) → parseDN C target = some (n :: p) →
      Found C G (after C G validate base ops) target →
      (boltStep C G validate (render base) (after C G validate base ops) (.rename req)).1 = .err .exists_) := by
  obtain ⟨ns, -, h2, R, hs⟩ := sim_run_empty (validate := validate) hC hG hb ops h.ok h.len
  refine ⟨?_, ?_, ?_⟩
  · rw [dirAfter, h2, dirOf, List.map_map]; exact R.nodup
  · intro e n hp hn hne hsuf hf
    have hh := Rel.has_iff.2 ((found_iff hC hG R hp hn).1 hf)
    have hput : entryPutDN C e.dn = some n := by
      unfold entryPutDN
      unfold parseDN at hp
      split at hp <;> simp_all
    cases n with
    | nil => exact absurd rfl hne
    | cons r rest =>
      obtain ⟨m, hm, em⟩ := (found_iff hC hG R hp hn).1 hf
      have hg := R.run_getID hm
      rw [em] at hg
      show (entryPut C G (render base) (after C G validate base ops) e).1 = _
      simp only [entryPut, hput]
      have hs' : hasSuffix (normalize C (r :: rest)) (render base) = true := by
        unfold hasSuffix; exact List.isSuffixOf_iff_suffix.2 hsuf
      simp only [hs', Bool.not_true, Bool.false_eq_true, if_false]
      rw [update_of_err (e := .exists_)]
      simp only [normalize]
      simp [entryPutBody, Prog.run_bind, hg, Nat.ne_of_gt (R.pos m hm).1]
  · intro req o n p q target ho hn' hok hok' htgt hf
    have hnok : NameOk (n :: p) := by
      intro r hr
      rcases List.mem_cons.1 hr with rfl | hr
      · exact hok' r List.mem_cons_self
      · exact hok r (List.mem_cons_of_mem _ hr)
    have hh := Rel.has_iff.2 ((found_iff hC hG R htgt hnok).1 hf)
    obtain ⟨ns', h1, -⟩ := sim_rename (C := C) (G := G) (base := base) hC hG R req
      (by intro m hm; rw [ho] at hm; cases hm; exact hok) (by intro m hm; rw [hn'] at hm; cases hm; exact hok')
    show (entryModifyDN C G (after C G validate base ops) req).1 = _
    rw [h1]
    simp [ho, hn', specRename, specRenameAt, hh]

/-! ## C12 -/

theorem specStep_below {d : Dir} (hd : ∀ n ∈ d, base <:+ n.name) (op : Op)
    (hop : ∀ req, op = .rename req → ∀ n, parseDN C req.dn = some n → foldDN C n ≠ base) :
    ∀ n ∈ (specStep C validate base d op).2, base <:+ n.name := by
  have hget : ∀ k e, d.get k = some e → base <:+ k := by
    intro k e h
    unfold Dir.get at h
    obtain ⟨n, hn, -⟩ := Option.map_eq_some_iff.1 h
    have h1 := List.find?_some hn
    have h2 := hd n (List.mem_of_find?_eq_some hn)
    simp at h1
    rwa [h1] at h2
  have hhas : ∀ k, d.has k = true → base <:+ k := by
    intro k h
    unfold Dir.has at h
    obtain ⟨n, hn, e⟩ := List.any_eq_true.1 h
    simp at e
    rw [← e]; exact hd n hn
  have hset : ∀ k e, (∃ e0, d.get k = some e0) → ∀ n ∈ d.setEntry k e, base <:+ n.name := by
    rintro k e ⟨e0, h0⟩ n hn
    obtain ⟨m, hm, rfl⟩ := List.mem_map.1 hn
    split
    · exact hget k e0 h0
    · exact hd m hm
  cases op with
  | add e =>
    simp only [specStep]
    split
    · exact hd
    · rename_i name _
      simp only [specAdd]
      split
      · exact hd
      · simp only [specAddAt]
        split
        · exact hd
        · split
          · exact hd
          · split
            · exact hd
            · split
              · exact hd
              · rename_i hpar _
                intro n hn
                rcases List.mem_append.1 hn with hn | hn
                · exact hd n hn
                · simp at hn
                  subst hn
                  rcases Decidable.em (foldDN C name = base) with hk | hk
                  · rw [hk]; exact List.suffix_refl _
                  · have h1 := Decidable.byContradiction fun h => hpar ⟨hk, h⟩
                    exact (hhas _ h1).trans (List.tail_suffix _)
  | delete dn =>
    simp only [specStep]
    split
    · exact hd
    · simp only [specDelete]
      split
      · exact hd
      · simp only [specDeleteAt]
        split
        · exact hd
        · split
          · exact hd
          · split
            · exact hd
            · intro n hn; exact hd n (List.mem_filter.1 hn).1
  | modify dn cs =>
    simp only [specStep]
    split
    · exact hd
    · simp only [specModify, specModifyAt]
      split
      · exact hd
      · rename_i e0 h0
        split
        · exact hset _ _ ⟨e0, h0⟩
        all_goals exact hd
  | password req =>
    simp only [specStep]
    split
    · exact hd
    · simp only [specPassword, specPasswordAt]
      split
      · exact hd
      · rename_i e0 h0
        split
        · split
          · exact hset _ _ ⟨e0, h0⟩
          all_goals exact hd
        all_goals exact hd
  | rename req =>
    simp only [specStep]
    split
    · exact hd
    · exact hd
    · exact hd
    · exact hd
    · rename_i o p n q ho hn
      simp only [specRename, specRenameAt]
      split
      · exact hd
      · split
        · exact hd
        · rename_i e0 h0
          split
          · exact hd
          · split
            · split
              · exact hd
              · intro m hm
                obtain ⟨x, hx, rfl⟩ := List.mem_map.1 hm
                split
                · have h1 := hget _ _ h0
                  have h2 := hop req rfl _ ho
                  obtain ⟨pre, hpre⟩ := h1
                  cases pre with
                  | nil => exact absurd hpre.symm h2
                  | cons r pre =>
                    have := congrArg List.tail hpre
                    rw [foldDN_cons] at this
                    refine ⟨(foldDN C (n :: p)).head (foldDN_cons_ne n p) :: pre, ?_⟩
                    simp only [List.cons_append, List.tail_cons] at this ⊢
                    rw [this]; rfl
                · exact hd x hx
            all_goals exact hd

/-- C12: if no call of the history renames the base entry itself, every name found ends in the base DN. (Missing: a rename of the base
entry, which the code permits, see `C12_below_base_fails`; and as in C04.) -/
theorem C12_below_base_partial (hC : C.Lawful) (hG : G.Lawful) (hb : BaseOk C base) (ops : List Op) (h : HistOk C ops)
    (hren : ∀ req, Op.rename req ∈ ops → ∀ n, parseDN C req.dn = some n → foldDN C n ≠ base)
    (text : Str) (name : DN) (hp : parseDN C text = some name) (ht : NameOk name)
    (hf : Found C G (after C G validate base ops) text) : ∃ above, foldDN C name = above ++ base := by
  obtain ⟨ns, -, h2, R, -⟩ := sim_run_empty (validate := validate) hC hG hb ops h.ok h.len
  obtain ⟨m, hm, e⟩ := (found_iff hC hG R hp ht).1 hf
  have main : ∀ (ops : List Op) (d : Dir), (∀ n ∈ d, base <:+ n.name) →
      (∀ req, Op.rename req ∈ ops → ∀ n, parseDN C req.dn = some n → foldDN C n ≠ base) →
      ∀ n ∈ (specRun C validate base d ops).2, base <:+ n.name := by
    intro ops
    induction ops with
    | nil => intro d hd _; exact hd
    | cons op ops ih =>
      intro d hd hr
      simp only [specRun]
      exact ih _ (specStep_below hd op fun req hreq => hr req (by simp [hreq])) fun req hreq => hr req (List.mem_cons_of_mem _ hreq)
  have := main ops [] (by simp) hren m.node (by rw [h2]; exact List.mem_map_of_mem hm)
  obtain ⟨t, ht⟩ := this
  exact ⟨t, by rw [← e]; exact ht.symm⟩

/-! ## C14 -/

/-- The internal id under which an entry is stored. -/
def storedId (C : CaseEnv) (db : Db) (text : Str) : Option Nat :=
  (parseNormalize C text).bind fun k =>
    match (getIDByDN k).run db with
    | .ok (i, _) => if i = 0 then none else some i
    | _ => none

theorem storedId_iff (hC : C.Lawful) {db : Db} {ns : List INode} (R : Rel C G base db ns) {text : Str} {n : DN}
    (hp : parseDN C text = some n) (hn : NameOk n) (i : Nat) :
    storedId C db text = some i ↔ ∃ m ∈ ns, m.name = foldDN C n ∧ m.id = i := by
  unfold storedId parseNormalize
  rw [hp]
  simp only [Option.map_some, Option.bind_some, normalize]
  by_cases h : ∃ m ∈ ns, m.name = foldDN C n
  · obtain ⟨m, hm, e⟩ := h
    have hg := R.run_getID hm
    rw [e] at hg
    rw [hg]
    simp only [Nat.ne_of_gt (R.pos m hm).1, if_false, Option.some.injEq]
    constructor
    · intro h; exact ⟨m, hm, e, h⟩
    · rintro ⟨m', hm', e', h⟩
      rw [← h, R.name_inj hm hm' (e.trans e'.symm)]
  · rw [R.run_getID_none (foldDN_nameOk hC hn) h]
    simp only [if_true]
    constructor
    · simp
    · rintro ⟨m, hm, e, -⟩; exact absurd ⟨m, hm, e⟩ h

/-- C14: after a successful add, and so also after a delete and an add of the same name, a lookup gives exactly the entry added, the
entry has no children, and its internal id is larger than any id that any entry had at any earlier point of the history. Names as
in C04. -/
theorem C14_fresh_start (hC : C.Lawful) (hG : G.Lawful) (hb : BaseOk C base) (ops : List Op) (e : Entry)
    (h : HistOk C (ops ++ [.add e])) (name : DN) (hp : parseDN C e.dn = some name)
    (hok : (boltStep C G validate (render base) (after C G validate base ops) (.add e)).1 = .ok ()) :
    let db := after C G validate base (ops ++ [.add e])
    boltSearch C G db e.dn scopeBase = .ok ([e], none) ∧
    boltSearch C G db e.dn scopeOne = .ok ([], none) ∧
    boltSearch C G db e.dn scopeSub = .ok ([e], none) ∧
    ∃ i, storedId C db e.dn = some i ∧
      ∀ earlier rest text n j, ops = earlier ++ rest → parseDN C text = some n → NameOk n →
        storedId C (after C G validate base earlier) text = some j → j < i := by
  have hokops : ∀ op ∈ ops, op.Ok C := fun op ho => h.ok op (by simp [ho])
  have hlen : ops.length + 1 < 2 ^ 64 := by have := h.len; simpa using this
  obtain ⟨ns, -, -, R, hs⟩ := sim_run_empty (validate := validate) hC hG hb ops hokops (by omega)
  have hput : entryPutDN C e.dn = some name := by
    unfold entryPutDN
    unfold parseDN at hp
    split at hp <;> simp_all
  have hnok : NameOk name := h.ok (.add e) (by simp) name hput
  intro db
  have hdb : db = (entryPut C G (render base) (boltRun C G validate (render base) Db.empty ops).2 e).2 := by
    show (boltRun C G validate (render base) Db.empty (ops ++ [.add e])).2 = _
    rw [boltRun_append]; rfl
  obtain ⟨ns', h1, h2, R', hs1, hs2, hids, -⟩ := sim_add hC hb R (by omega) e
    (fun n hn => by rw [hput] at hn; cases hn; exact hnok)
  have hok' : (entryPut C G (render base) (boltRun C G validate (render base) Db.empty ops).2 e).1 = .ok () := hok
  rw [hok', hput] at h1
  rw [hput] at h2
  rw [← hdb] at R' hs1 hs2
  simp only [specAdd] at h1 h2
  split at h1
  · simp at h1
  · rename_i hne
    rw [if_neg hne] at h2
    have hk := foldDN_idem hC name
    generalize hkk : foldDN C name = k at h1 h2 hk
    unfold specAddAt at h1 h2
    split at h1
    · simp at h1
    · rename_i c1
      rw [if_neg c1] at h2
      split at h1
      · simp at h1
      · rename_i c2
        rw [if_neg c2] at h2
        split at h1
        · simp at h1
        · rename_i c3
          rw [if_neg c3] at h2
          split at h1
          · simp at h1
          · rename_i c4
            rw [if_neg c4] at h2
            simp only at h2
            -- the new node
            have hmem : (⟨k, e⟩ : Node) ∈ dirOf ns' := by rw [← h2]; simp
            obtain ⟨m, hm, hme⟩ := List.mem_map.1 hmem
            have hmn : m.name = k := congrArg Node.name hme
            have hmE : m.entry = e := congrArg Node.entry hme
            have hlenk : base.length ≤ k.length := by rw [← hmn]; exact (R'.forest m hm).1
            have hnoch : ∀ x ∈ ns', isChild k x.name = false := by
              intro x hx
              cases hc : isChild k x.name with
              | false => rfl
              | true =>
                have hx' : x.node ∈ dirOf ns' := List.mem_map_of_mem hx
                rw [← h2] at hx'
                rcases List.mem_append.1 hx' with hx' | hx'
                · obtain ⟨y, hy, hye⟩ := List.mem_map.1 hx'
                  have : y.name = x.name := congrArg Node.name hye
                  have hab : ¬ ∃ n ∈ ns, n.name = k := fun hh => c2 (Rel.has_iff.2 hh)
                  exact absurd ⟨y, hy, by rw [this]; exact hc⟩ (R.no_child_of_absent hlenk hab)
                · simp only [List.mem_singleton] at hx'
                  have : x.name = k := congrArg Node.name hx'
                  rw [this] at hc
                  obtain ⟨r, er⟩ := isChild_iff.1 hc
                  exact absurd (congrArg List.length er) (by simp)
            have hfilter : ns'.filter (fun x => isChild m.name x.name) = [] := by
              rw [List.filter_eq_nil_iff]
              intro x hx
              rw [hmn, hnoch x hx]; simp
            have S := fun scope => (search_of_rel hC hG R' hp hnok scope (db.seq + 1) (Nat.lt_succ_self _)).1 m hm (by rw [hmn, hkk])
            refine ⟨?_, ?_, ?_, m.id, ?_, ?_⟩
            · rw [boltSearch, S]; simp [Rel.visited, hmE]
            · rw [boltSearch, S]
              simp only [Rel.visited, hfilter]
              rfl
            · rw [boltSearch, S]
              simp only [Rel.visited, scopeSub, scopeBase, scopeOne, Rel.subtree, hfilter]
              simp [hmE]
            · exact (storedId_iff hC R' hp hnok _).2 ⟨m, hm, by rw [hmn, hkk], rfl⟩
            · intro earlier rest text n j hsplit hpt hnt hj
              have hl : ns'.length = ns.length + 1 := by
                have := congrArg List.length h2
                simpa [dirOf] using this.symm
              have hseq : (boltRun C G validate (render base) Db.empty ops).2.seq < m.id :=
                (hids (by omega) m hm).resolve_left fun hin => c2 (Rel.has_iff.2 ⟨m, hin, hmn⟩)
              obtain ⟨ns0, -, -, R0, hs0⟩ := sim_run_empty (validate := validate) hC hG hb earlier
                (fun op ho => hokops op (by rw [hsplit]; simp [ho])) (by rw [hsplit] at hlen; simp at hlen; omega)
              obtain ⟨ns1, -, -, -, hle, -⟩ := sim_run (validate := validate) hC hG hb rest _ ns0 R0
                (fun op ho => hokops op (by rw [hsplit]; simp [ho])) (by rw [hsplit] at hlen; simp at hlen; omega)
              have hrun : (boltRun C G validate (render base) Db.empty ops).2 =
                  (boltRun C G validate (render base) (boltRun C G validate (render base) Db.empty earlier).2 rest).2 := by
                rw [hsplit, boltRun_append]
              obtain ⟨x, hx, -, ex⟩ := (storedId_iff hC R0 hpt hnt j).1 hj
              have := (R0.pos x hx).2
              rw [hrun] at hseq
              omega

end

/-! ## Concrete cases meeting the hypotheses -/

/-- A password check for the examples: equality. -/
def exValidate (pw stored : Str) : Res Bool := .ok (pw == stored)

def exBase : DN := [[⟨b!"dc", b!"lg"⟩]]

/-- Two organisational units, two users, one delete, one rename, one refused add. -/
def exOps : List Op :=
  [.add ⟨b!"dc=lg", [⟨b!"dc", [b!"lg"]⟩]⟩,
   .add ⟨b!"ou=p,dc=lg", [⟨b!"ou", [b!"p"]⟩]⟩,
   .add ⟨b!"uid=a,ou=p,dc=lg", [⟨b!"uid", [b!"a"]⟩, ⟨b!"userPassword", [b!"x"]⟩]⟩,
   .add ⟨b!"uid=b,ou=p,dc=lg", [⟨b!"uid", [b!"b"]⟩]⟩,
   .add ⟨b!"uid=b,ou=q,dc=lg", []⟩,
   .delete b!"UID=b,OU=p,DC=lg",
   .delete b!"ou=p,dc=lg",
   .modify b!"uid=a,ou=p,dc=lg" [⟨opAdd, b!"mail", [b!"m"]⟩],
   .rename ⟨b!"uid=a,ou=p,dc=lg", b!"uid=C", true⟩,
   .password ⟨b!"uid=c,ou=p,dc=lg", b!"x", b!"y"⟩]

theorem exBase_ok : BaseOk asciiCase exBase := by decide +kernel
theorem exOps_ok : HistOk asciiCase exOps := by decide +kernel

/-- The history is not trivial: eight calls succeed, two are refused. -/
example : (boltRun asciiCase gobInstance exValidate b!"dc=lg" Db.empty exOps).1 =
    [.ok (), .ok (), .ok (), .ok (), .err .other, .ok (), .err .nonLeaf, .ok (), .ok (), .ok ()] := by decide +kernel

example : boltSearch asciiCase gobInstance (after asciiCase gobInstance exValidate exBase exOps) b!"UID=c,ou=P,dc=lg" scopeBase =
    .ok ([⟨b!"uid=c,ou=p,dc=lg", [⟨b!"userPassword", [b!"y"]⟩, ⟨b!"mail", [b!"m"]⟩, ⟨b!"uid", [b!"C"]⟩]⟩], none) := by decide +kernel

/-- hypotheses of C04–C07 -/
example : BaseOk asciiCase exBase ∧ HistOk asciiCase exOps ∧ TextOk asciiCase b!"dc=LG" ∧
    parseDN asciiCase b!"dc=LG" = some [[⟨b!"dc", b!"LG"⟩]] ∧
    (dirAfter asciiCase exValidate exBase exOps).has (foldDN asciiCase [[⟨b!"dc", b!"LG"⟩]]) = true := by
  decide +kernel

example : (dirAfter asciiCase exValidate exBase exOps).length = 3 := by decide +kernel

/-- hypotheses of C08 -/
example : (boltStep asciiCase gobInstance exValidate b!"dc=lg" (after asciiCase gobInstance exValidate exBase exOps)
    (.delete b!"ou=p,dc=lg")).1 ≠ .ok () := by decide +kernel

/-- hypotheses of C10 -/
example : parseDN asciiCase b!"uid=c,ou=p,dc=lg" = some [[⟨b!"uid", b!"c"⟩], [⟨b!"ou", b!"p"⟩], [⟨b!"dc", b!"lg"⟩]] ∧
    parseDN asciiCase b!"ou=p,dc=lg" = some [[⟨b!"ou", b!"p"⟩], [⟨b!"dc", b!"lg"⟩]] ∧
    exBase.length < [[(⟨b!"uid", b!"c"⟩ : AVA)], [⟨b!"ou", b!"p"⟩], [⟨b!"dc", b!"lg"⟩]].length := by decide +kernel

example : Found asciiCase gobInstance (after asciiCase gobInstance exValidate exBase exOps) b!"uid=c,ou=p,dc=lg" :=
  ⟨⟨b!"uid=c,ou=p,dc=lg", [⟨b!"userPassword", [b!"y"]⟩, ⟨b!"mail", [b!"m"]⟩, ⟨b!"uid", [b!"C"]⟩]⟩, by decide +kernel⟩

/-- hypotheses of C11 (add, rename) -/
example : Found asciiCase gobInstance (after asciiCase gobInstance exValidate exBase exOps) b!"OU=P,dc=lg" ∧
    render exBase <:+ render (foldDN asciiCase [[⟨b!"OU", b!"P"⟩], [⟨b!"dc", b!"lg"⟩]]) :=
  ⟨⟨⟨b!"ou=p,dc=lg", [⟨b!"ou", [b!"p"]⟩]⟩, by decide +kernel⟩, by decide +kernel⟩

/-- hypothesis of C12 -/
example : ∀ req, Op.rename req ∈ exOps → ∀ n, parseDN asciiCase req.dn = some n → foldDN asciiCase n ≠ exBase := by
  intro req h
  have : req = ⟨b!"uid=a,ou=p,dc=lg", b!"uid=C", true⟩ := by simpa [exOps] using h
  subst this
  intro n hn
  have h2 : parseDN asciiCase b!"uid=a,ou=p,dc=lg" = some [[⟨b!"uid", b!"a"⟩], [⟨b!"ou", b!"p"⟩], [⟨b!"dc", b!"lg"⟩]] := by decide +kernel
  rw [h2] at hn
  cases hn
  decide +kernel

/-- hypotheses of C14: uid=b was deleted before -/
example : HistOk asciiCase (exOps ++ [.add ⟨b!"uid=b,ou=p,dc=lg", [⟨b!"mail", [b!"n"]⟩]⟩]) ∧
    (boltStep asciiCase gobInstance exValidate (render exBase) (after asciiCase gobInstance exValidate exBase exOps)
      (.add ⟨b!"uid=b,ou=p,dc=lg", [⟨b!"mail", [b!"n"]⟩]⟩)).1 = .ok () ∧
    storedId asciiCase (after asciiCase gobInstance exValidate exBase (exOps.take 4)) b!"uid=b,ou=p,dc=lg" = some 4 := by
  decide +kernel

/-! ## Where the full properties fail -/

/-- C04 fails for names whose attribute types contain escaped separators: they share their key with another name. The lookup of a name
never added returns another entry. -/
theorem C04_escaped_type_fails :
    ∃ (ops : List Op) (text : Str) (n : DN) (e : Entry), HistOk asciiCase ops ∧ parseDN asciiCase text = some n ∧
      (dirAfter asciiCase exValidate exBase ops).get (foldDN asciiCase n) = none ∧
      boltSearch asciiCase gobInstance (after asciiCase gobInstance exValidate exBase ops) text scopeBase = .ok ([e], none) :=
  ⟨[.add ⟨b!"dc=lg", []⟩, .add ⟨b!"ou=x,dc=lg", []⟩, .add ⟨b!"uid=a,ou=x,dc=lg", []⟩], b!"uid\\=a\\,ou=x,dc=lg",
    [[⟨b!"uid=a,ou", b!"x"⟩], [⟨b!"dc", b!"lg"⟩]], ⟨b!"uid=a,ou=x,dc=lg", []⟩,
    by decide +kernel, by decide +kernel, by decide +kernel, by decide +kernel⟩

/-- C12 fails: the base entry can be renamed (while it is a leaf), and then lies outside the base DN. -/
theorem C12_below_base_fails :
    ∃ (ops : List Op) (text : Str) (n : DN), HistOk asciiCase ops ∧ parseDN asciiCase text = some n ∧ NameOk n ∧
      Found asciiCase gobInstance (after asciiCase gobInstance exValidate exBase ops) text ∧
      ¬ exBase <:+ foldDN asciiCase n :=
  ⟨[.add ⟨b!"dc=lg", [⟨b!"dc", [b!"lg"]⟩]⟩, .rename ⟨b!"dc=lg", b!"dc=evil", true⟩], b!"dc=evil", [[⟨b!"dc", b!"evil"⟩]],
    by decide +kernel, by decide +kernel, by decide +kernel,
    ⟨⟨b!"dc=evil", [⟨b!"dc", [b!"evil"]⟩]⟩, by decide +kernel⟩, by decide +kernel⟩

end Idm
