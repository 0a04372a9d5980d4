import Verif.Proofs.Load
import Verif.Props.LdifFormat
import Verif.Spec.Toy
/-!
# Properties C48, C49, C63: `idm boltdb load` and `idm boltdb export`
-/
namespace Idm
open Dir

section
variable {C : CaseEnv} {G : GobEnv} {L : LdifLib} {validate : Str → Str → Res Bool} {base : DN}

/-! ## C49 -/

/-- C49: a file that cannot be read (or makes reading crash) changes nothing, and load does not report success. -/
theorem C49_unreadable (baseText text : Str) (db : Db) (hr : ∀ es, ldifRead L text ≠ .ok es) :
    (loadLDIF C G L baseText db text).1 ≠ .ok () ∧ (loadLDIF C G L baseText db text).2 = db := by
  unfold loadLDIF
  cases h : ldifRead L text with
  | ok es => exact absurd h (hr es)
  | err e => simp
  | panic => simp
  | hang => simp

/-- C49: whatever the database and the list of entries read from the file, loading adds an initial part of the list, one entry after the
other, all with success, and nothing else. If it adds all of them it reports success; otherwise it reports what adding the next entry to
the database so obtained reports, which is not success. -/
theorem C49_load_stops (baseText text : Str) (db : Db) (es : List Entry) (hr : ldifRead L text = .ok es) :
    ∃ pre rest, es = pre ++ rest ∧
      (∀ r ∈ (boltRun C G validate (configuredBase C baseText) db (pre.map .add)).1, r = .ok ()) ∧
      (loadLDIF C G L baseText db text).2 = (boltRun C G validate (configuredBase C baseText) db (pre.map .add)).2 ∧
      (rest = [] → (loadLDIF C G L baseText db text).1 = .ok ()) ∧
      (∀ e rest', rest = e :: rest' →
        (loadLDIF C G L baseText db text).1 = (entryPut C G (configuredBase C baseText) (loadLDIF C G L baseText db text).2 e).1 ∧
        (loadLDIF C G L baseText db text).1 ≠ .ok ()) := by
  obtain ⟨pre, rest, h1, h2, h3, h4⟩ := loadEntries_spec (C := C) (G := G) (validate := validate) (configuredBase C baseText) es db
  have h : loadLDIF C G L baseText db text = loadEntries C G (configuredBase C baseText) db es := by simp [loadLDIF, hr]
  refine ⟨pre, rest, h1, h2, by rw [h, h3], ?_, ?_⟩
  · rintro rfl; rw [h, h3]
  · rintro e rest' rfl
    rw [h, h3]
    exact ⟨rfl, h4 e rest' rfl⟩

/-- C49 on the abstract directory: loaded into the store after any history, the entries are added to the directory in order up to the
first one the directory refuses, and load succeeds exactly if none is refused. -/
theorem C49_load_directory_partial (hC : C.Lawful) (hG : G.Lawful) (hb : BaseOk C base) (ops : List Op) (baseText text : Str)
    (es : List Entry) (b : DN) (hbt : parseDN C baseText = some b) (hbf : foldDN C b = base) (hr : ldifRead L text = .ok es)
    (h : HistOk C (ops ++ es.map .add)) :
    ∃ pre rest, es = pre ++ rest ∧
      (∀ r ∈ (specRun C validate base (dirAfter C validate base ops) (pre.map .add)).1, r = .ok ()) ∧
      Serves C G (loadLDIF C G L baseText (after C G validate base ops) text).2 (dirAfter C validate base (ops ++ pre.map .add)) ∧
      (∀ e rest', rest = e :: rest' → (specStep C validate base (dirAfter C validate base (ops ++ pre.map .add)) (.add e)).1 ≠ .ok ()) ∧
      ((loadLDIF C G L baseText (after C G validate base ops) text).1 = .ok () ↔ rest = []) := by
  obtain ⟨pre, rest, h1, h2, h3, h4, h5⟩ := C49_load_stops (C := C) (G := G) (L := L) (validate := validate) baseText text
    (after C G validate base ops) es hr
  have hcb : configuredBase C baseText = render base := by
    simp [configuredBase, parseNormalize, hbt, normalize, hbf]
  rw [hcb] at h2 h3 h5
  have hokp : ∀ op ∈ ops ++ pre.map .add, op.Ok C := by
    intro op hop
    refine h.ok op ?_
    rw [h1]
    rw [List.map_append, ← List.append_assoc]
    exact List.mem_append_left _ hop
  have hlenp : (ops ++ pre.map Op.add).length < 2 ^ 64 := by
    have := h.len
    rw [h1] at this
    simp only [List.length_append, List.length_map] at this ⊢
    omega
  obtain ⟨ns0, -, g2, R0, g4⟩ := sim_run_empty (validate := validate) hC hG hb ops (fun o ho => h.ok o (by simp [ho]))
    (by have := h.len; rw [List.length_append] at this; omega)
  obtain ⟨ns1, k1, k2, R1, -, k5, -⟩ := sim_run (validate := validate) hC hG hb (pre.map .add) _ ns0 R0
    (fun o ho => hokp o (by simp [ho])) (by rw [List.length_append] at hlenp; omega)
  rw [← g2] at k1 k2
  have hdir : dirAfter C validate base (ops ++ pre.map .add) = dirOf ns1 := by
    rw [dirAfter, specRun_append]; exact k2
  refine ⟨pre, rest, h1, ?_, ?_, ?_, ?_⟩
  · rw [dirAfter, ← k1]; exact h2
  · rw [h3, hdir]
    exact serves_of_rel hC hG R1
  · rintro e rest' rfl
    obtain ⟨h6, h7⟩ := h5 e rest' rfl
    rw [h6, h3] at h7
    have hlen := h.len
    rw [h1] at hlen
    simp only [List.length_append, List.length_map, List.length_cons] at hlen k5
    obtain ⟨_, s1, -⟩ := sim_step hC hG hb validate R1 (by omega) (.add e) (h.ok _ (by rw [h1]; simp))
    rw [hdir]
    simp only [boltStep] at s1
    rw [← s1]
    exact h7
  · cases rest with
    | nil => simp [h4 rfl]
    | cons e rest => simp [(h5 e rest rfl).2]

/-! ## C48 -/

theorem serves_perm {db : Db} {d d' : Dir} (hp : ∀ n, n ∈ d ↔ n ∈ d') (h : Serves C G db d) : Serves C G db d' := by
  have hh : ∀ k, d'.has k = d.has k := by
    intro k
    rw [Bool.eq_iff_iff]
    simp only [Dir.has, List.any_eq_true]
    exact ⟨fun ⟨n, hn, e⟩ => ⟨n, (hp n).2 hn, e⟩, fun ⟨n, hn, e⟩ => ⟨n, (hp n).1 hn, e⟩⟩
  intro text name hn ho scope
  obtain ⟨h1, h2⟩ := h text name hn ho scope
  rw [hh]
  refine ⟨fun hk => ?_, h2⟩
  obtain ⟨found, f1, f2, f3⟩ := h1 hk
  exact ⟨found, f1, f2, fun n => by rw [f3 n, hp n]⟩

theorem get_map_entry (f : Entry → Entry) (d : Dir) (k : DN) :
    Dir.get (d.map fun n => ⟨n.name, f n.entry⟩) k = (d.get k).map f := by
  simp [Dir.get, List.find?_map, Function.comp_def]

theorem sameDir_readBack (d : Dir) : SameDir d (d.map fun n => ⟨n.name, readBack n.entry⟩) := by
  intro k
  rw [get_map_entry]
  cases d.get k with
  | none => trivial
  | some e => exact readBack_same e

/-- C48: after any history in which the base entry was not renamed, if the base entry is there and LDIF can express every entry, then
export succeeds; loading the exported text into an empty database succeeds; and the new database serves a directory with the same names
and the same data as the exported one. (Missing for the full property: histories that rename the base entry, see
`C48_renamed_base_fails`; stores without a base entry, see `C48_empty_fails`; entries without any value, see
`C48_no_value_fails`, and values that begin with a space, see `C48_space_fails`; and names whose attribute types need escapes.) -/
theorem C48_export_load_partial (hC : C.Lawful) (hG : G.Lawful) (hL : L.Lawful) (hb : BaseOk C base) (ops : List Op) (h : HistOk C ops)
    (hren : ∀ req, Op.rename req ∈ ops → ∀ n, parseDN C req.dn = some n → foldDN C n ≠ base)
    (baseText : Str) (b : DN) (hbt : parseDN C baseText = some b) (hbn : NameOk b) (hbf : foldDN C b = base)
    (hbase : (dirAfter C validate base ops).has base = true)
    (hw : ∀ n ∈ dirAfter C validate base ops, Writable n.entry) :
    ∃ text db' d', exportLDIF C G L baseText (after C G validate base ops) = .ok text ∧
      loadLDIF C G L baseText Db.empty text = (.ok (), db') ∧ Serves C G db' d' ∧ SameDir (dirAfter C validate base ops) d' := by
  obtain ⟨ns, h1, h2, R, h4⟩ := sim_run_empty (validate := validate) hC hG hb ops h.ok h.len
  have hbel := specRun_below (C := C) (validate := validate) (base := base) ops [] (by simp) hren
  have hload := specRun_loadable (C := C) (validate := validate) (base := base) hC ops [] (by simp) h.ok
  rw [dirAfter, h2] at hbase hw
  rw [h2] at hbel hload
  replace hbel : ∀ n ∈ ns, base <:+ n.name := fun n hn => hbel n.node (List.mem_map_of_mem hn)
  obtain ⟨m, hm, em⟩ := Rel.has_iff.1 hbase
  let l := m :: Rel.subtree ns ((after C G validate base ops).seq + 1) m.name
  have hls : ∀ x ∈ l, x ∈ ns := by
    intro x hx
    rcases List.mem_cons.1 hx with rfl | hx
    · exact hm
    · exact (Rel.mem_subtree_sound _ _ _ hx).1
  have hlc : ∀ x ∈ ns, x ∈ l := by
    intro x hx
    obtain ⟨t, et⟩ := hbel x hx
    cases t with
    | nil =>
      have : x = m := R.name_inj hx hm (by rw [em, ← et]; rfl)
      rw [this]; exact List.mem_cons_self
    | cons r t =>
      refine List.mem_cons_of_mem _ (R.mem_subtree_complete _ m x hm (by show (after C G validate base ops).seq < _; omega) hx ?_)
      rw [em]
      exact isBelow_iff.2 ⟨r, t ++ base, by rw [← et]; rfl, List.suffix_append _ _⟩
  have hlnd : l.Nodup := by
    rw [List.nodup_cons]
    refine ⟨fun hx => ?_, R.subtree_nodup _ _⟩
    exact absurd (isBelow_length (Rel.mem_subtree_sound _ _ _ hx).2) (Nat.lt_irrefl _)
  have hperm : l.Perm ns := perm_of_nodup hlnd R.nodes_nodup fun x => ⟨hls x, hlc x⟩
  have hnames : (l.map (·.name)).Nodup := by
    rw [List.Nodup, List.pairwise_map]
    exact hlnd.imp_of_mem fun ha hb hne en => hne (R.name_inj (hls _ ha) (hls _ hb) en)
  -- export
  have hsearch : boltSearch C G (after C G validate base ops) baseText scopeSub = .ok (l.map (·.entry), none) := by
    obtain ⟨h3, -⟩ := search_of_rel hC hG R hbt hbn scopeSub _ (Nat.lt_succ_self _)
    exact h3 m hm (by rw [em, hbf])
  have t2 := ldifRead_write hL (l.map (·.entry)) (by
    intro e he
    obtain ⟨x, hx, rfl⟩ := List.mem_map.1 he
    exact hw x.node (List.mem_map_of_mem (hls x hx)))
  -- load
  have hcb : configuredBase C baseText = render base := by
    simp [configuredBase, parseNormalize, hbt, normalize, hbf]
  have hlo : ∀ n ∈ l.map INode.node, Loadable C n := by
    intro n hn
    obtain ⟨x, hx, rfl⟩ := List.mem_map.1 hn
    exact hload x.node (List.mem_map_of_mem (hls x hx))
  have hord : AddOrder base [] (l.map INode.node) := by
    refine ⟨rfl, .inl em, hbel m hm, ?_⟩
    rw [List.map_cons, List.nodup_cons] at hnames
    refine addOrder_of_parentsFirst _ [m] _ (Rel.subtree_parentsFirst ns _ m [m] (by simp)) ?_ ?_ hnames.2
      fun x hx => hbel x (hls x (List.mem_cons_of_mem _ hx))
    · intro x hx
      simp at hx
      subst hx
      simp [Dir.has, INode.node]
    · intro x hx
      simp only [Dir.has, List.nil_append, List.any_cons, List.any_nil, Bool.or_false, decide_eq_false_iff_not]
      intro e
      exact hnames.1 (List.mem_map.2 ⟨x, hx, e.symm⟩)
  have hspec := specRun_adds (C := C) (validate := validate) (base := base) (f := readBack) (fun _ => rfl) hb.endOk hb.ne (l.map INode.node) []
    hlo hord
  have hops : (l.map INode.node).map (fun n => Op.add (readBack n.entry)) = ((l.map (·.entry)).map readBack).map Op.add := by
    simp [List.map_map, Function.comp_def, INode.node]
  rw [hops] at hspec
  simp only [List.map_nil, List.nil_append] at hspec
  have hok : ∀ op ∈ ((l.map (·.entry)).map readBack).map Op.add, op.Ok C := by
    intro op hop
    rw [← hops] at hop
    obtain ⟨n, hn, rfl⟩ := List.mem_map.1 hop
    obtain ⟨x, hx, rfl⟩ := List.mem_map.1 hn
    have hend : EndOk x.name := by
      obtain ⟨t, e⟩ := hbel x (hls x hx)
      have hend := hb.endOk
      unfold EndOk at hend ⊢
      rw [← e, List.getLast?_append]
      cases hl : base.getLast? with
      | none => exact absurd (List.getLast?_eq_none_iff.1 hl) hb.ne
      | some r => rw [hl] at hend; exact hend
    obtain ⟨-, hn⟩ := hlo _ hn
    obtain ⟨nm, e1, e2, -, -⟩ := hn hend
    intro nm' h'
    have : entryPutDN C x.entry.dn = some nm' := h'
    rw [show INode.node x = ⟨x.name, x.entry⟩ from rfl] at e1
    dsimp only at e1
    rw [e1] at this
    cases this
    exact e2
  have hlen : (((l.map (·.entry)).map readBack).map Op.add).length < 2 ^ 64 := by
    simp only [List.length_map]
    have := sorted_length ns 0 _ R.sorted R.pos
    rw [hperm.length_eq]
    have := R.seqlt
    omega
  obtain ⟨ns', g1, g2, R', -⟩ := sim_run_empty (validate := validate) hC hG hb _ hok hlen
  rw [hspec] at g1 g2
  refine ⟨ldifWrite L (l.map (·.entry)), (boltRun C G validate (render base) Db.empty (((l.map (·.entry)).map readBack).map Op.add)).2, (dirOf ns).map fun n => ⟨n.name, readBack n.entry⟩, ?_, ?_, ?_, ?_⟩
  · simp only [exportLDIF, hsearch]
  · simp only [loadLDIF, t2, hcb]
    refine loadEntries_ok (validate := validate) _ _ _ ?_
    intro r hr
    rw [g1] at hr
    obtain ⟨_, _, rfl⟩ := List.mem_map.1 hr
    rfl
  · have := serves_of_rel hC hG R'
    rw [← g2] at this
    refine serves_perm (fun n => ?_) this
    dsimp only
    exact ((hperm.map INode.node).map _).mem_iff
  · rw [dirAfter, h2]; exact sameDir_readBack _

/-- What is exported. -/
theorem export_written (hC : C.Lawful) (hG : G.Lawful) (hb : BaseOk C base) (ops : List Op) (h : HistOk C ops)
    (hren : ∀ req, Op.rename req ∈ ops → ∀ n, parseDN C req.dn = some n → foldDN C n ≠ base)
    (baseText : Str) (b : DN) (hbt : parseDN C baseText = some b) (hbn : NameOk b) (hbf : foldDN C b = base)
    (hbase : (dirAfter C validate base ops).has base = true) :
    ∃ (es : List Entry), exportLDIF C G L baseText (after C G validate base ops) = .ok (ldifWrite L es) ∧
      es.Perm ((dirAfter C validate base ops).map (·.entry)) := by
  obtain ⟨ns, h1, h2, R, h4⟩ := sim_run_empty (validate := validate) hC hG hb ops h.ok h.len
  have hbel := specRun_below (C := C) (validate := validate) (base := base) ops [] (by simp) hren
  rw [dirAfter, h2] at hbase
  rw [h2] at hbel
  replace hbel : ∀ n ∈ ns, base <:+ n.name := fun n hn => hbel n.node (List.mem_map_of_mem hn)
  obtain ⟨m, hm, em⟩ := Rel.has_iff.1 hbase
  let l := m :: Rel.subtree ns ((after C G validate base ops).seq + 1) m.name
  have hls : ∀ x ∈ l, x ∈ ns := by
    intro x hx
    rcases List.mem_cons.1 hx with rfl | hx
    · exact hm
    · exact (Rel.mem_subtree_sound _ _ _ hx).1
  have hlc : ∀ x ∈ ns, x ∈ l := by
    intro x hx
    obtain ⟨t, et⟩ := hbel x hx
    cases t with
    | nil =>
      have : x = m := R.name_inj hx hm (by rw [em, ← et]; rfl)
      rw [this]; exact List.mem_cons_self
    | cons r t =>
      refine List.mem_cons_of_mem _ (R.mem_subtree_complete _ m x hm (by show (after C G validate base ops).seq < _; omega) hx ?_)
      rw [em]
      exact isBelow_iff.2 ⟨r, t ++ base, by rw [← et]; rfl, List.suffix_append _ _⟩
  have hlnd : l.Nodup := by
    rw [List.nodup_cons]
    refine ⟨fun hx => ?_, R.subtree_nodup _ _⟩
    exact absurd (isBelow_length (Rel.mem_subtree_sound _ _ _ hx).2) (Nat.lt_irrefl _)
  have hperm : l.Perm ns := perm_of_nodup hlnd R.nodes_nodup fun x => ⟨hls x, hlc x⟩
  have hsearch : boltSearch C G (after C G validate base ops) baseText scopeSub = .ok (l.map (·.entry), none) := by
    obtain ⟨h3, -⟩ := search_of_rel hC hG R hbt hbn scopeSub _ (Nat.lt_succ_self _)
    exact h3 m hm (by rw [em, hbf])
  refine ⟨l.map (·.entry), by simp only [exportLDIF, hsearch], ?_⟩
  rw [dirAfter, h2]
  refine (hperm.map (·.entry)).trans ?_
  rw [dirOf, List.map_map]
  exact List.Perm.refl _

/-- C91: under the conditions of `C48_export_load_partial` the exported text is an LDIF file without a version whose records are exactly the
entries of the directory, each once, with all their values. (Missing for the full property: see there.) -/
theorem C91_export_partial (hC : C.Lawful) (hG : G.Lawful) (hL : L.Lawful) (hb : BaseOk C base) (ops : List Op) (h : HistOk C ops)
    (hren : ∀ req, Op.rename req ∈ ops → ∀ n, parseDN C req.dn = some n → foldDN C n ≠ base)
    (baseText : Str) (b : DN) (hbt : parseDN C baseText = some b) (hbn : NameOk b) (hbf : foldDN C b = base)
    (hbase : (dirAfter C validate base ops).has base = true)
    (hw : ∀ n ∈ dirAfter C validate base ops, Writable n.entry) :
    ∃ (text : Str) (es : List Entry), exportLDIF C G L baseText (after C G validate base ops) = .ok text ∧
      es.Perm ((dirAfter C validate base ops).map (·.entry)) ∧ LdifBody text (es.map recordOf) := by
  obtain ⟨es, h1, h2⟩ := export_written (L := L) (validate := validate) hC hG hb ops h hren baseText b hbt hbn hbf hbase
  refine ⟨_, es, h1, h2, (C91_write hL _ fun e he => ?_).1⟩
  obtain ⟨x, hx, rfl⟩ := List.mem_map.1 (h2.mem_iff.1 he)
  exact hw x hx

/-! ## C63 -/

theorem specRun_only_adds : ∀ (es : List Entry) (d : Dir), (∀ r ∈ (specRun C validate base d (es.map .add)).1, r = .ok ()) →
    ∃ new : Dir, (specRun C validate base d (es.map .add)).2 = d ++ new ∧ new.map (·.entry) = es ∧
      (∀ n ∈ new, d.has n.name = false) ∧ ∀ n ∈ new, ∃ name, entryPutDN C n.entry.dn = some name ∧ foldDN C name = n.name
  | [], d, _ => ⟨[], by simp [specRun]⟩
  | e :: es, d, h => by
    simp only [List.map_cons, specRun] at h ⊢
    have h0 := h (specStep C validate base d (.add e)).1 (by simp)
    have hstep : ∃ name, entryPutDN C e.dn = some name ∧ d.has (foldDN C name) = false ∧
        (specStep C validate base d (.add e)).2 = d ++ [⟨foldDN C name, e⟩] := by
      simp only [specStep] at h0 ⊢
      cases hp : entryPutDN C e.dn with
      | none => simp [hp] at h0
      | some name =>
        rw [hp] at h0
        refine ⟨name, rfl, ?_⟩
        simp only [specAdd] at h0 ⊢
        by_cases hn : name = []
        · simp [hn] at h0
        · rw [if_neg hn] at h0 ⊢
          simp only [specAddAt] at h0 ⊢
          repeat' split at h0
          all_goals first
            | (simp at h0; done)
            | (rename_i h1 h2 h3 h4
               rw [if_neg h1, if_neg h2, if_neg h3, if_neg h4]
               exact ⟨by simpa using h2, rfl⟩)
    obtain ⟨name, hn, hh, e2⟩ := hstep
    rw [e2] at h ⊢
    obtain ⟨new, g1, g2, g3, g4⟩ := specRun_only_adds es (d ++ [⟨foldDN C name, e⟩]) fun r hr => h r (by simp [hr])
    refine ⟨⟨foldDN C name, e⟩ :: new, by rw [g1]; simp, by simp [g2], ?_, ?_⟩
    · intro n hn'
      rcases List.mem_cons.1 hn' with rfl | hn'
      · exact hh
      · have := g3 n hn'
        simp only [Dir.has, List.any_append, Bool.or_eq_false_iff] at this
        exact this.1
    · intro n hn'
      rcases List.mem_cons.1 hn' with rfl | hn'
      · exact ⟨name, hn, rfl⟩
      · exact g4 n hn'

/-- C63, what load does to a database that already exists: it keeps all the entries and adds an initial part of those in the file, each
under the name it gives; it reports success exactly if it added all of them. (Missing for the full property: the help text says that the
database will be overwritten, which is false, see `C63_overwrite_fails`.) -/
theorem C63_load_keeps_partial (hC : C.Lawful) (hG : G.Lawful) (hb : BaseOk C base) (ops : List Op) (baseText text : Str)
    (es : List Entry) (b : DN) (hbt : parseDN C baseText = some b) (hbf : foldDN C b = base) (hr : ldifRead L text = .ok es)
    (h : HistOk C (ops ++ es.map .add)) :
    ∃ new : Dir, Serves C G (loadLDIF C G L baseText (after C G validate base ops) text).2 (dirAfter C validate base ops ++ new) ∧
      new.map (·.entry) <+: es ∧
      (∀ n ∈ new, (dirAfter C validate base ops).has n.name = false) ∧
      (∀ n ∈ new, ∃ name, entryPutDN C n.entry.dn = some name ∧ foldDN C name = n.name) ∧
      ((loadLDIF C G L baseText (after C G validate base ops) text).1 = .ok () ↔ new.map (·.entry) = es) := by
  obtain ⟨pre, rest, h1, h2, h3, -, h5⟩ := C49_load_directory_partial (G := G) (L := L) (validate := validate) hC hG hb ops baseText text es b hbt hbf hr h
  obtain ⟨new, g1, g2, g3, g4⟩ := specRun_only_adds pre _ h2
  refine ⟨new, ?_, ?_, g3, g4, ?_⟩
  · rw [dirAfter, specRun_append] at h3
    rw [← g1]; exact h3
  · rw [g2, h1]; exact List.prefix_append _ _
  · rw [h5, g2, h1]; simp

end

/-! ## Concrete cases -/

/-- A text with these entries. -/
def exText (es : List Entry) : Str := ldifWrite goLdif es

/-- C49 fails in one respect: an entry whose name is not a DN makes load crash instead of reporting an error. -/
theorem C49_bad_name_fails : ∃ text es, ldifRead goLdif text = .ok es ∧
    (loadLDIF asciiCase gobInstance goLdif b!"dc=lg" Db.empty text).1 = .panic :=
  ⟨exText [⟨b!"dc=lg", [⟨b!"dc", [b!"lg"]⟩]⟩, ⟨b!"no name", [⟨b!"cn", [b!"x"]⟩]⟩], _, rfl, by decide +kernel⟩

/-- C49 fails in a further respect: an entry whose name is not a DN may be added without an error, under the part of the name that could be read.
Here `uid=a,dc=lg,oops` is found as `uid=a,dc=lg`. -/
theorem C49_cut_name_fails : ∃ text e, ldifRead goLdif text = .ok [⟨b!"dc=lg", [⟨b!"dc", [b!"lg"]⟩]⟩, e] ∧ parseDN asciiCase e.dn = none ∧
    (loadLDIF asciiCase gobInstance goLdif b!"dc=lg" Db.empty text).1 = .ok () ∧
    boltSearch asciiCase gobInstance (loadLDIF asciiCase gobInstance goLdif b!"dc=lg" Db.empty text).2 b!"uid=a,dc=lg" 0 = .ok ([e], none) :=
  ⟨exText [⟨b!"dc=lg", [⟨b!"dc", [b!"lg"]⟩]⟩, ⟨b!"uid=a,dc=lg,oops", [⟨b!"cn", [b!"x"]⟩]⟩], ⟨b!"uid=a,dc=lg,oops", [⟨b!"cn", [b!"x"]⟩]⟩, by decide +kernel,
    by decide +kernel, by decide +kernel, by decide +kernel⟩

/-- C49 fails in another respect, if `AllEntries` of go-ldap/ldif does not pass over nil records (the code of the LDIF server says that
they happen, server/handler/ldif/ldif.go:149-151): load crashes on a file in which an empty line follows the version, although that is an
LDIF file. -/
theorem C49_version_fails : ∃ text rs, LdifSays text rs ∧ rs ≠ [] ∧
    (∀ r ∈ rs, (parseDN asciiCase r.dn).isSome = true) ∧
    ∀ L : LdifLib, L.Lawful → L.skipNil = false → (loadLDIF asciiCase gobInstance L b!"dc=lg" Db.empty text).1 = .panic := by
  have hl : HasLines [b!"version: 1", [], b!"dn: dc=lg", b!"dc: lg"] b!"version: 1\n\ndn: dc=lg\ndc: lg\n" := hasLines_lf _ (by decide)
  have hf : FileLines [[b!"version: 1"], [b!"dn: dc=lg", b!"dc: lg"]] [b!"version: 1", [], b!"dn: dc=lg", b!"dc: lg"] := by
    refine .record [b!"version: 1"] [b!"version: 1"] _ [b!"dn: dc=lg", b!"dc: lg"] (by simp) ?_ (.last _ _ (by simp) ?_)
    · exact .line _ [b!"version: 1"] [] [] ⟨_, [], rfl, rfl, by decide⟩ .done
    · exact .line _ [b!"dn: dc=lg"] _ [b!"dc: lg"] ⟨_, [], rfl, rfl, by decide⟩
        (.line _ [b!"dc: lg"] [] [] ⟨_, [], rfl, rfl, by decide⟩ .done)
  have hm : Matched RecordSays [⟨b!"dc=lg", [(b!"dc", b!"lg")]⟩] [[b!"dn: dc=lg", b!"dc: lg"]] := by
    refine .cons _ _ _ _ ?_ .nil
    exact .mk _ _ _ (.plain b!"dn" b!"dc=lg" 1 (by decide) (by decide)) (by simp)
      (.cons _ _ _ _ ⟨.plain b!"dc" b!"lg" 1 (by decide) (by decide), by decide, by decide, by decide⟩ .nil)
  refine ⟨_, _, ⟨_, _, hl, hf, .version _ _ 1 hm⟩, by simp, by decide +kernel, ?_⟩
  intro L hL hn
  have := ldifUnmarshal_version (n := 1) hL hl hf hm
  rw [loadLDIF, ldifRead, this]
  simp [hn]

/-- C48 fails for a store without entries: export reports an error. -/
theorem C48_empty_fails : exportLDIF asciiCase gobInstance goLdif b!"dc=lg" Db.empty = .err .other := by decide +kernel

/-- C48 fails after a rename of the base entry: the entry is there, but export reports an error. -/
theorem C48_renamed_base_fails :
    ∃ ops, HistOk asciiCase ops ∧ (∀ n ∈ dirAfter asciiCase exValidate exBase ops, Writable n.entry) ∧
      Found asciiCase gobInstance (after asciiCase gobInstance exValidate exBase ops) b!"dc=evil" ∧
      exportLDIF asciiCase gobInstance goLdif b!"dc=lg" (after asciiCase gobInstance exValidate exBase ops) = .err .other :=
  ⟨[.add ⟨b!"dc=lg", [⟨b!"dc", [b!"lg"]⟩]⟩, .rename ⟨b!"dc=lg", b!"dc=evil", true⟩], by decide +kernel, by decide +kernel,
    ⟨⟨b!"dc=evil", [⟨b!"dc", [b!"evil"]⟩]⟩, by decide +kernel⟩, by decide +kernel⟩

/-- C48 fails for an entry without values: export succeeds, but load refuses the file. -/
theorem C48_no_value_fails :
    ∃ ops text, HistOk asciiCase ops ∧ (dirAfter asciiCase exValidate exBase ops).has exBase = true ∧
      exportLDIF asciiCase gobInstance goLdif b!"dc=lg" (after asciiCase gobInstance exValidate exBase ops) = .ok text ∧
      (loadLDIF asciiCase gobInstance goLdif b!"dc=lg" Db.empty text).1 = .err .other :=
  ⟨[.add ⟨b!"dc=lg", []⟩], b!"dn: dc=lg\n\n", by decide +kernel⟩

/-- C48 fails for a value that begins with a space and has no other special byte: the space is lost. -/
theorem C48_space_fails :
    ∃ ops text db', HistOk asciiCase ops ∧
      exportLDIF asciiCase gobInstance goLdif b!"dc=lg" (after asciiCase gobInstance exValidate exBase ops) = .ok text ∧
      loadLDIF asciiCase gobInstance goLdif b!"dc=lg" Db.empty text = (.ok (), db') ∧
      boltSearch asciiCase gobInstance (after asciiCase gobInstance exValidate exBase ops) b!"dc=lg" scopeBase =
        .ok ([⟨b!"dc=lg", [⟨b!"description", [b!" x"]⟩]⟩], none) ∧
      boltSearch asciiCase gobInstance db' b!"dc=lg" scopeBase = .ok ([⟨b!"dc=lg", [⟨b!"description", [b!"x"]⟩]⟩], none) :=
  ⟨[.add ⟨b!"dc=lg", [⟨b!"description", [b!" x"]⟩]⟩], b!"dn: dc=lg\ndescription:  x\n\n", _, by decide +kernel, by decide +kernel, rfl,
    by decide +kernel, by decide +kernel⟩

/-- C63 fails: loading a file with the base entry into a database that has one is refused, and an entry that is not in the file stays. -/
theorem C63_overwrite_fails :
    ∃ ops text es, HistOk asciiCase (ops ++ es.map .add) ∧ ldifRead goLdif text = .ok es ∧ (∀ e ∈ es, e.dn ≠ b!"dc=a,dc=lg") ∧
      (loadLDIF asciiCase gobInstance goLdif b!"dc=lg" (after asciiCase gobInstance exValidate exBase ops) text).1 = .err .exists_ ∧
      Found asciiCase gobInstance
        (loadLDIF asciiCase gobInstance goLdif b!"dc=lg" (after asciiCase gobInstance exValidate exBase ops) text).2 b!"dc=a,dc=lg" :=
  ⟨[.add ⟨b!"dc=lg", [⟨b!"dc", [b!"lg"]⟩]⟩, .add ⟨b!"dc=a,dc=lg", [⟨b!"dc", [b!"a"]⟩]⟩],
    exText [⟨b!"dc=lg", [⟨b!"dc", [b!"lg"]⟩]⟩], [⟨b!"dc=lg", [⟨b!"dc", [b!"lg"]⟩]⟩], by decide +kernel, by decide +kernel, by decide +kernel,
    by decide +kernel, ⟨⟨b!"dc=a,dc=lg", [⟨b!"dc", [b!"a"]⟩]⟩, by decide +kernel⟩⟩

/-- A history with a rename, a delete and entries on three levels. -/
def loadOps : List Op :=
  [.add ⟨b!"dc=lg", [⟨b!"dc", [b!"lg"]⟩]⟩,
   .add ⟨b!"ou=A,dc=lg", [⟨b!"ou", [b!"A"]⟩]⟩,
   .add ⟨b!"uid=x,ou=a,dc=lg", [⟨b!"uid", [b!"x"]⟩, ⟨b!"mail", [b!"x@lg", b!"y@lg"]⟩]⟩,
   .add ⟨b!"ou=b,dc=lg", [⟨b!"ou", [b!"b"]⟩]⟩,
   .rename ⟨b!"uid=x,ou=a,dc=lg", b!"uid=z", true⟩,
   .delete b!"ou=b,dc=lg"]

-- the hypotheses of C48 are met by a history that leaves three entries, one of them renamed
example : HistOk asciiCase loadOps ∧
    (∀ req, Op.rename req ∈ loadOps → ∀ n, parseDN asciiCase req.dn = some n → foldDN asciiCase n ≠ exBase) ∧
    parseDN asciiCase b!"DC=lg" = some [[⟨b!"DC", b!"lg"⟩]] ∧ NameOk [[⟨b!"DC", b!"lg"⟩]] ∧ foldDN asciiCase [[⟨b!"DC", b!"lg"⟩]] = exBase ∧
    (dirAfter asciiCase exValidate exBase loadOps).has exBase = true ∧
    (∀ n ∈ dirAfter asciiCase exValidate exBase loadOps, Writable n.entry) ∧ (dirAfter asciiCase exValidate exBase loadOps).length = 3 := by
  refine ⟨by decide +kernel, ?_, by decide +kernel⟩
  intro req h n hn
  simp [loadOps] at h
  subst h
  have : parseDN asciiCase b!"uid=x,ou=a,dc=lg" = some [[⟨b!"uid", b!"x"⟩], [⟨b!"ou", b!"a"⟩], [⟨b!"dc", b!"lg"⟩]] := by decide +kernel
  rw [this] at hn
  cases hn
  decide +kernel

-- the hypotheses of C49 and C63: a file whose second entry is refused
example : ldifRead goLdif (exText [⟨b!"ou=c,dc=lg", [⟨b!"ou", [b!"c"]⟩]⟩, ⟨b!"ou=a,dc=lg", [⟨b!"ou", [b!"a"]⟩]⟩, ⟨b!"ou=d,dc=lg", [⟨b!"ou", [b!"d"]⟩]⟩]) =
      .ok [⟨b!"ou=c,dc=lg", [⟨b!"ou", [b!"c"]⟩]⟩, ⟨b!"ou=a,dc=lg", [⟨b!"ou", [b!"a"]⟩]⟩, ⟨b!"ou=d,dc=lg", [⟨b!"ou", [b!"d"]⟩]⟩] ∧
    (loadLDIF asciiCase gobInstance goLdif b!"dc=lg" (after asciiCase gobInstance exValidate exBase loadOps)
      (exText [⟨b!"ou=c,dc=lg", [⟨b!"ou", [b!"c"]⟩]⟩, ⟨b!"ou=a,dc=lg", [⟨b!"ou", [b!"a"]⟩]⟩, ⟨b!"ou=d,dc=lg", [⟨b!"ou", [b!"d"]⟩]⟩])).1 = .err .exists_ ∧
    HistOk asciiCase (loadOps ++ [⟨b!"ou=c,dc=lg", [⟨b!"ou", [b!"c"]⟩]⟩, ⟨b!"ou=a,dc=lg", [⟨b!"ou", [b!"a"]⟩]⟩,
      ⟨b!"ou=d,dc=lg", [⟨b!"ou", [b!"d"]⟩]⟩].map .add) := by decide +kernel

-- the assumption about go-ldap/ldif is satisfiable
example : goLdif.Lawful := goLdif_lawful

end Idm
