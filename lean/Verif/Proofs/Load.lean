import Verif.Model.Load
import Verif.Spec.Load
import Verif.Proofs.LdifFormat
import Verif.Proofs.EntryText
/-!
# Lemmas for load and export
-/
namespace Idm
open Dir

section
variable {C : CaseEnv} {G : GobEnv} {validate : Str → Str → Res Bool} {base : DN}

/-- The entry can be added again under the name of its node. -/
def Loadable (C : CaseEnv) (n : Node) : Prop :=
  (render n.name).length ≤ maxName ∧ (EndOk n.name → ∃ nm, entryPutDN C n.entry.dn = some nm ∧ NameOk nm ∧ nm ≠ [] ∧ foldDN C nm = n.name)

theorem specStep_loadable (hC : C.Lawful) {d : Dir} (hd : ∀ n ∈ d, Loadable C n) (op : Op) (hop : op.Ok C) :
    ∀ n ∈ (specStep C validate base d op).2, Loadable C n := by
  have hget : ∀ k e, d.get k = some e → Loadable C ⟨k, e⟩ := by
    intro k e h
    unfold Dir.get at h
    obtain ⟨n, hn, he⟩ := Option.map_eq_some_iff.1 h
    have h1 := List.find?_some hn
    have h2 := hd n (List.mem_of_find?_eq_some hn)
    simp at h1
    rw [← h1, ← he]
    exact h2
  have hset : ∀ k e e0, d.get k = some e0 → e.dn = e0.dn → ∀ n ∈ d.setEntry k e, Loadable C n := by
    intro k e e0 h0 hdn n hn
    obtain ⟨m, hm, rfl⟩ := List.mem_map.1 hn
    split
    · have := hget k e0 h0
      unfold Loadable at this ⊢
      dsimp only at this ⊢
      rw [hdn]
      exact this
    · exact hd m hm
  cases op with
  | add e =>
    simp only [specStep]
    split
    · exact hd
    · rename_i name hname
      simp only [specAdd]
      split
      · exact hd
      · rename_i hne
        simp only [specAddAt]
        split
        · exact hd
        · split
          · exact hd
          · split
            · exact hd
            · split
              · exact hd
              · rename_i hlen
                intro n hn
                rcases List.mem_append.1 hn with hn | hn
                · exact hd n hn
                · simp at hn
                  subst hn
                  exact ⟨Nat.le_of_not_gt hlen, fun _ => ⟨name, hname, hop name hname, hne, rfl⟩⟩
  | delete dn =>
    simp only [specStep, specDelete, specDeleteAt]
    repeat' split
    all_goals first
      | exact hd
      | (intro n hn; exact hd n (List.mem_filter.1 hn).1)
  | modify dn cs =>
    simp only [specStep]
    split
    · exact hd
    · simp only [specModify, specModifyAt]
      split
      · exact hd
      · rename_i e0 h0
        split
        · rename_i e' he'
          obtain ⟨_, _, _, _, _, _, hdn, _⟩ := applyModify_ok he'
          exact hset _ _ e0 h0 hdn
        all_goals exact hd
  | password req =>
    simp only [specStep]
    split
    · exact hd
    · simp only [specPassword, specPasswordAt]
      split
      · exact hd
      · rename_i e0 h0
        split
        · split
          · rename_i e' he'
            obtain ⟨_, _, _, _, _, _, hdn, _⟩ := applyModify_ok he'
            exact hset _ _ e0 h0 hdn
          all_goals exact hd
        all_goals exact hd
  | rename req =>
    simp only [specStep]
    split
    · exact hd
    · exact hd
    · exact hd
    · exact hd
    · rename_i o p n q ho hn
      simp only [specRename, specRenameAt]
      split
      · exact hd
      · split
        · exact hd
        · rename_i e0 h0
          split
          · exact hd
          · split
            · rename_i e' he'
              obtain ⟨_, _, _, _, _, _, hdn, _⟩ := applyModify_ok he'
              split
              · exact hd
              · rename_i hlen
                intro m hm
                obtain ⟨x, hx, rfl⟩ := List.mem_map.1 hm
                split
                · have hok : NameOk (n :: p) := by
                    intro r hr
                    rcases List.mem_cons.1 hr with rfl | hr
                    · exact hop.2 _ hn r (by simp)
                    · exact hop.1 _ ho r (by simp [hr])
                  refine ⟨Nat.le_of_not_gt hlen, fun hk => ?_⟩
                  dsimp only at hk hdn ⊢
                  rw [hdn]
                  have := parseDNRes_render hC _ (foldDN_nameOk hC hok) hk
                  exact ⟨_, by simp [entryPutDN, this], foldDN_nameOk hC hok, foldDN_cons_ne n p, foldDN_idem hC _⟩
                · exact hd x hx
            all_goals exact hd

theorem specRun_loadable (hC : C.Lawful) : ∀ (ops : List Op) (d : Dir), (∀ n ∈ d, Loadable C n) → (∀ op ∈ ops, op.Ok C) →
    ∀ n ∈ (specRun C validate base d ops).2, Loadable C n := by
  intro ops
  induction ops with
  | nil => intro d hd _; exact hd
  | cons op ops ih =>
    intro d hd hok
    simp only [specRun]
    exact ih _ (specStep_loadable hC hd op (hok op (by simp))) fun x hx => hok x (by simp [hx])

theorem specRun_below : ∀ (ops : List Op) (d : Dir), (∀ n ∈ d, base <:+ n.name) →
    (∀ req, Op.rename req ∈ ops → ∀ n, parseDN C req.dn = some n → foldDN C n ≠ base) →
    ∀ n ∈ (specRun C validate base d ops).2, base <:+ n.name := by
  intro ops
  induction ops with
  | nil => intro d hd _; exact hd
  | cons op ops ih =>
    intro d hd hr
    simp only [specRun]
    exact ih _ (specStep_below hd op fun req hreq => hr req (by simp [hreq])) fun req hreq => hr req (List.mem_cons_of_mem _ hreq)

/-- Loading stops at the first entry that is refused. -/
theorem loadEntries_spec (b : Str) : ∀ (es : List Entry) (db : Db), ∃ pre rest, es = pre ++ rest ∧
    (∀ r ∈ (boltRun C G validate b db (pre.map .add)).1, r = .ok ()) ∧
    loadEntries C G b db es = ((match rest with | [] => .ok () | e :: _ => (entryPut C G b (boltRun C G validate b db (pre.map .add)).2 e).1),
      (boltRun C G validate b db (pre.map .add)).2) ∧
    ∀ e rest', rest = e :: rest' → (entryPut C G b (boltRun C G validate b db (pre.map .add)).2 e).1 ≠ .ok ()
  | [], db => ⟨[], [], rfl, by simp [boltRun], rfl, by simp⟩
  | e :: es, db => by
    have hch := C08_refused_changes_nothing (C := C) (G := G) (validate := validate) b db (.add e)
    simp only [boltStep] at hch
    generalize he : entryPut C G b db e = x at hch
    obtain ⟨r, db'⟩ := x
    by_cases hr : r = .ok ()
    · subst hr
      obtain ⟨pre, rest, h1, h2, h3, h4⟩ := loadEntries_spec b es db'
      refine ⟨e :: pre, rest, by simp [h1], ?_, ?_, ?_⟩
      · simp only [List.map_cons, boltRun, boltStep, he]
        intro r hr
        rcases List.mem_cons.1 hr with rfl | hr
        · rfl
        · exact h2 r hr
      · simp only [List.map_cons, boltRun, boltStep, he, loadEntries]
        exact h3
      · simp only [List.map_cons, boltRun, boltStep, he]
        exact h4
    · have := hch hr
      dsimp only at this
      subst this
      refine ⟨[], e :: es, rfl, by simp [boltRun], ?_, ?_⟩
      · simp only [List.map_nil, boltRun, loadEntries, he]
      · intro e' rest' h
        cases h
        simp only [List.map_nil, boltRun, he]
        exact hr

theorem renderFrom_sep (sep : Str) (d : DN) : renderFrom [] d <:+ renderFrom sep d := by
  cases d with
  | nil => exact List.suffix_refl _
  | cons r rs =>
    cases r with
    | nil => exact List.suffix_refl _
    | cons a as => exact ⟨sep, by simp [renderFrom, renderRDN]⟩

theorem renderFrom_append (b : DN) : ∀ (t : DN) (sep : Str), render b <:+ renderFrom sep (t ++ b)
  | [], sep => renderFrom_sep sep b
  | r :: t, sep => (renderFrom_append b t [chComma]).trans (List.suffix_append _ _)

theorem render_suffix {b n : DN} (h : b <:+ n) : render b <:+ render n := by
  obtain ⟨t, rfl⟩ := h
  exact renderFrom_append b t []

/-- Nodes that may be added one after the other. -/
def AddOrder (base : DN) (d : Dir) : List Node → Prop
  | [] => True
  | n :: l => d.has n.name = false ∧ (n.name = base ∨ d.has n.name.tail = true) ∧ base <:+ n.name ∧ AddOrder base (d ++ [n]) l

theorem specRun_adds {f : Entry → Entry} (hf : ∀ e, (f e).dn = e.dn) (hend : EndOk base) (hbne : base ≠ []) : ∀ (l : List Node) (d : Dir),
    (∀ n ∈ l, Loadable C n) → AddOrder base d l →
    specRun C validate base (d.map fun n => ⟨n.name, f n.entry⟩) (l.map fun n => .add (f n.entry)) =
      (l.map fun _ => .ok (), (d ++ l).map fun n => ⟨n.name, f n.entry⟩)
  | [], d, _, _ => by simp [specRun]
  | n :: l, d, hl, ho => by
    obtain ⟨h1, h2, h3, h4⟩ := ho
    have hhas : ∀ (d : Dir) k, Dir.has (d.map fun n => ⟨n.name, f n.entry⟩) k = d.has k := by
      intro d k; simp [Dir.has, List.any_map, Function.comp_def]
    have he : EndOk n.name := by
      obtain ⟨t, e⟩ := h3
      unfold EndOk at hend ⊢
      rw [← e, List.getLast?_append]
      cases hl : base.getLast? with
      | none => exact absurd (List.getLast?_eq_none_iff.1 hl) hbne
      | some r => rw [hl] at hend; exact hend
    obtain ⟨hlen, hn⟩ := hl n (by simp)
    obtain ⟨nm, e1, -, e3, e4⟩ := hn he
    have hstep : specStep C validate base (d.map fun n => ⟨n.name, f n.entry⟩) (.add (f n.entry)) =
        (.ok (), (d ++ [n]).map fun n => ⟨n.name, f n.entry⟩) := by
      simp only [specStep, hf, e1, specAdd, if_neg e3, specAddAt, e4, hhas, h1]
      have hsuf : render base <:+ render n.name := render_suffix h3
      rw [if_neg (by simpa using hsuf), if_neg (by simp), if_neg (by rcases h2 with h | h <;> simp [h]), if_neg (by omega)]
      simp
    simp only [List.map_cons, specRun, hstep]
    rw [specRun_adds hf hend hbne l (d ++ [n]) (fun m hm => hl m (by simp [hm])) h4]
    simp

theorem addOrder_of_parentsFirst : ∀ (l S : List INode) (d : Dir), Rel.ParentsFirst S l → (∀ x ∈ S, d.has x.name = true) →
    (∀ x ∈ l, d.has x.name = false) → (l.map (·.name)).Nodup → (∀ x ∈ l, base <:+ x.name) → AddOrder base d (l.map INode.node)
  | [], _, _, _, _, _, _, _ => trivial
  | n :: l, S, d, ⟨⟨p, hp, hc⟩, h⟩, hS, hd, hnd, hb => by
    obtain ⟨r, er⟩ := isChild_iff.1 hc
    rw [List.map_cons, List.nodup_cons] at hnd
    refine ⟨hd n (by simp), .inr ?_, hb n (by simp), addOrder_of_parentsFirst l (n :: S) _ h ?_ ?_ hnd.2 fun x hx => hb x (by simp [hx])⟩
    · show d.has n.name.tail = true
      rw [er]; exact hS p hp
    · intro x hx
      simp only [Dir.has, List.any_append, Bool.or_eq_true]
      rcases List.mem_cons.1 hx with rfl | hx
      · right; simp [INode.node]
      · left; exact hS x hx
    · intro x hx
      simp only [Dir.has, List.any_append, Bool.or_eq_false_iff]
      refine ⟨hd x (by simp [hx]), ?_⟩
      simp only [List.any_cons, List.any_nil, Bool.or_false, decide_eq_false_iff_not]
      intro e
      exact hnd.1 (List.mem_map.2 ⟨x, hx, e.symm⟩)

theorem sorted_length : ∀ (l : List INode) (lo hi : Nat), (l.Pairwise fun a b => a.id < b.id) → (∀ n ∈ l, lo < n.id ∧ n.id ≤ hi) →
    lo + l.length ≤ max lo hi
  | [], _, _, _, _ => by simp; omega
  | n :: l, lo, hi, h, hn => by
    rw [List.pairwise_cons] at h
    have h0 := hn n (by simp)
    have := sorted_length l n.id hi h.2 fun m hm => ⟨h.1 m hm, (hn m (by simp [hm])).2⟩
    rw [List.length_cons]
    omega

theorem loadEntries_ok (b : Str) : ∀ (es : List Entry) (db : Db), (∀ r ∈ (boltRun C G validate b db (es.map .add)).1, r = .ok ()) →
    loadEntries C G b db es = (.ok (), (boltRun C G validate b db (es.map .add)).2)
  | [], _, _ => rfl
  | e :: es, db, h => by
    simp only [List.map_cons, boltRun, boltStep] at h ⊢
    generalize he : entryPut C G b db e = x at h ⊢
    obtain ⟨r, db'⟩ := x
    have h0 : r = .ok () := h r (by simp)
    subst h0
    rw [loadEntries, he]
    exact loadEntries_ok b es db' fun r hr => h r (by simp [hr])

/-! ## What is read back -/

/-- What is read of an entry that was written. -/
def readBack (e : Entry) : Entry := ⟨e.dn, gather [] (recordOf e).values⟩

theorem readBack_same (e : Entry) : SameData e (readBack e) := by
  refine ⟨rfl, fun t => ?_⟩
  rw [readBack, (gather_spec _ [] List.Pairwise.nil (by simp)).2.2 t]
  show typeValues t e.attrs = typeValues t [] ++ _
  simp only [recordOf, typeValues, List.flatMap_nil, List.nil_append]
  induction e.attrs with
  | nil => rfl
  | cons a as ih =>
    rw [List.flatMap_cons, List.flatMap_cons, List.filter_append, List.map_append, ih]
    congr 1
    by_cases h : a.name = t
    · rw [if_pos h, List.filter_eq_self.2 (by simp [h]), List.map_map]
      exact (List.map_id _).symm
    · rw [if_neg h, List.filter_eq_nil_iff.2 (by simp [h])]
      rfl

theorem ldifRead_write {L : LdifLib} (hL : L.Lawful) (es : List Entry) (h : ∀ e ∈ es, Writable e) :
    ldifRead L (ldifWrite L es) = .ok (es.map readBack) := by
  obtain ⟨recs, lines, h1, h2, h3, h4⟩ := ldifWrite_says hL es h
  have hu := ldifUnmarshal_plain hL (text := ldifWrite L es) (by rw [h1]; exact hasLines_lf lines fun x hx => ⟨(h4 x hx).1, (h4 x hx).2.1⟩) h2 h3
  rw [ldifRead, hu]
  have hc : ((es.map recordOf).map fun r => some (Entry.mk r.dn (gather [] r.values))).contains none = false := by
    rw [← Bool.not_eq_true, List.contains_iff_mem]
    simp
  simp only [hc, Bool.false_and, Bool.false_eq_true, if_false]
  rw [List.map_map, List.filterMap_map]
  simp only [Function.comp_def, id, List.filterMap_eq_map']
  rfl

end
end Idm
