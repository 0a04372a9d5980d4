import Verif.Spec.Loaded
import Verif.Proofs.Durable
import Verif.Props.Commands
import Verif.Props.Startup
import Verif.Props.Served
import Verif.Props.BoltFind
import Verif.Props.BoltBind
/-!
# C100: what is loaded into the database is what the database server answers
-/
namespace Idm

section
variable {C : CaseEnv} {validate : Str → Str → Res Bool} {base : DN}

/-! ## Adding the records of a file -/

/-- `TopDown` for the rest of a file, after records with the names `seen`. -/
def TopDownFrom (base : DN) (seen names : List DN) : Prop :=
  ∀ before k after, names = before ++ k :: after →
    k ∉ seen ++ before ∧ (k = base ∨ ∃ rdn above, k = rdn :: above ∧ above ∈ seen ++ before) ∧ (render k).length ≤ 32768

/-- A record of that name can be next. -/
def Fits (base : DN) (seen : List DN) (k : DN) : Prop :=
  k ∉ seen ∧ (k = base ∨ ∃ rdn above, k = rdn :: above ∧ above ∈ seen) ∧ (render k).length ≤ 32768

theorem topDownFrom_cons {seen : List DN} {k : DN} {ks : List DN} : TopDownFrom base seen (k :: ks) ↔
    Fits base seen k ∧ TopDownFrom base (seen ++ [k]) ks := by
  constructor
  · intro h
    refine ⟨by simpa [Fits] using h [] k ks rfl, ?_⟩
    intro before x after e
    have := h (k :: before) x after (by rw [e]; rfl)
    simpa using this
  · rintro ⟨h1, h2⟩ before x after e
    cases before with
    | nil => cases e; simpa [Fits] using h1
    | cons y ys =>
      cases e
      simpa using h2 ys x after rfl

theorem topDown_from {names : List DN} : TopDown base names ↔ TopDownFrom base [] names := by
  simp [TopDown, TopDownFrom]

theorem mem_has {d : Dir} {k : DN} : d.has k = true ↔ k ∈ d.map (·.name) := by
  simp [Dir.has, List.any_eq_true]

/-- One record: it is added exactly if the file is sorted so far. -/
theorem add_sorted (d : Dir) (hd : ∀ x ∈ d, base <:+ x.name) (hbase : base ≠ []) (e : Entry) (n : DN) (hp : parseDN C e.dn = some n) :
    ((specStep C validate base d (.add e)).1 = .ok () ↔ Fits base (d.map (·.name)) (foldDN C n)) ∧
    (Fits base (d.map (·.name)) (foldDN C n) → (specStep C validate base d (.add e)).2 = d ++ [⟨foldDN C n, e⟩] ∧ base <:+ foldDN C n) := by
  have hstep : specStep C validate base d (.add e) = specAdd C base d n e := by
    simp only [specStep, entryPutDN_of_parse hp]
  rw [hstep]
  unfold specAdd
  by_cases hn : n = []
  · have hk : foldDN C n = [] := by rw [hn]; rfl
    have hno : ¬ Fits base (d.map (·.name)) (foldDN C n) := by
      rintro ⟨-, h, -⟩
      rw [hk] at h
      rcases h with h | ⟨_, _, h, -⟩
      · exact hbase h.symm
      · cases h
    rw [if_pos hn]
    exact ⟨⟨fun h => (by cases h), fun h => absurd h hno⟩, fun h => absurd h hno⟩
  · rw [if_neg hn]
    have hkne : foldDN C n ≠ [] := by simpa [foldDN] using hn
    generalize hk : foldDN C n = k at *
    have hsuf : Fits base (d.map (·.name)) k → base <:+ k := by
      rintro ⟨-, h | ⟨rdn, above, h, hm⟩, -⟩
      · rw [h]; exact List.suffix_refl _
      · obtain ⟨x, hx, e⟩ := List.mem_map.1 hm
        rw [h, ← e]
        exact (hd x hx).trans (List.suffix_cons _ _)
    unfold specAddAt
    have hcond : Fits base (d.map (·.name)) k → render base <:+ render k ∧ ¬ d.has k = true ∧ ¬ (k ≠ base ∧ ¬ d.has k.tail = true) ∧ ¬ (render k).length > maxName := by
      intro ho
      refine ⟨render_suffix (hsuf ho), fun h => ho.1 (mem_has.1 h), ?_, Nat.not_lt.2 ho.2.2⟩
      rintro ⟨h1, h2⟩
      rcases ho.2.1 with h | ⟨rdn, above, h, hm⟩
      · exact h1 h
      · exact h2 (mem_has.2 (by rw [h]; exact hm))
    refine ⟨⟨fun h => ?_, fun ho => ?_⟩, fun ho => ?_⟩
    · by_cases h1 : ¬ render base <:+ render k
      · rw [if_pos h1] at h; cases h
      rw [if_neg h1] at h
      by_cases h2 : d.has k = true
      · rw [if_pos h2] at h; cases h
      rw [if_neg h2] at h
      by_cases h3 : k ≠ base ∧ ¬ d.has k.tail = true
      · rw [if_pos h3] at h; cases h
      rw [if_neg h3] at h
      by_cases h4 : (render k).length > maxName
      · rw [if_pos h4] at h; cases h
      refine ⟨fun hm => h2 (mem_has.2 hm), ?_, Nat.not_lt.1 h4⟩
      by_cases hb : k = base
      · exact .inl hb
      · right
        cases k with
        | nil => exact absurd rfl hkne
        | cons rdn above =>
          refine ⟨rdn, above, rfl, mem_has.1 ?_⟩
          apply Classical.byContradiction
          intro hx
          exact h3 ⟨hb, hx⟩
    · obtain ⟨h1, h2, h3, h4⟩ := hcond ho
      rw [if_neg (fun h => h h1), if_neg h2, if_neg h3, if_neg h4]
    · obtain ⟨h1, h2, h3, h4⟩ := hcond ho
      rw [if_neg (fun h => h h1), if_neg h2, if_neg h3, if_neg h4]
      exact ⟨rfl, hsuf ho⟩

/-- All records are added exactly if the file is sorted; then the directory has exactly these new entries under their names. -/
theorem adds_sorted (hbase : base ≠ []) {names : List DN} {es : List Entry}
    (hm : Matched (fun (k : DN) (e : Entry) => ∃ n, parseDN C e.dn = some n ∧ foldDN C n = k) names es) :
    ∀ d : Dir, (∀ x ∈ d, base <:+ x.name) →
    ((∀ r ∈ (specRun C validate base d (es.map .add)).1, r = .ok ()) ↔ TopDownFrom base (d.map (·.name)) names) ∧
    (TopDownFrom base (d.map (·.name)) names → ∃ new : Dir, (specRun C validate base d (es.map .add)).2 = d ++ new ∧
      (∀ x ∈ d ++ new, base <:+ x.name) ∧ new.map (·.name) = names ∧ new.map (·.entry) = es) := by
  induction hm with
  | nil =>
    intro d hd
    refine ⟨⟨fun _ => ?_, fun _ => by simp [specRun]⟩, fun _ => ⟨[], by simp [specRun], by simpa using hd, rfl, rfl⟩⟩
    intro before k after e
    simp at e
  | cons k e ks es hk _ ih =>
    intro d hd
    obtain ⟨n, hp, rfl⟩ := hk
    obtain ⟨h1, h2⟩ := add_sorted (C := C) (validate := validate) d hd hbase e n hp
    rw [topDownFrom_cons]
    simp only [List.map_cons, specRun, List.forall_mem_cons]
    rw [h1]
    have hd' : Fits base (d.map (·.name)) (foldDN C n) → ∀ x ∈ d ++ [(⟨foldDN C n, e⟩ : Node)], base <:+ x.name := by
      intro hok x hx
      rcases List.mem_append.1 hx with hx | hx
      · exact hd x hx
      · rw [List.mem_singleton.1 hx]; exact (h2 hok).2
    have hmap : (d ++ [(⟨foldDN C n, e⟩ : Node)]).map (·.name) = d.map (·.name) ++ [foldDN C n] := by simp
    refine ⟨and_congr_right fun hok => ?_, fun ⟨hok, hrest⟩ => ?_⟩
    · obtain ⟨i1, -⟩ := ih _ (hd' hok)
      rw [(h2 hok).1, i1, hmap]
    · obtain ⟨-, i2⟩ := ih _ (hd' hok)
      obtain ⟨new, n1, n2, n3, n4⟩ := i2 (by rw [hmap]; exact hrest)
      refine ⟨⟨foldDN C n, e⟩ :: new, ?_, ?_, by simp [n3], by simp [n4]⟩
      · rw [(h2 hok).1, n1]; simp
      · simpa using n2

theorem topDown_nodup {names : List DN} (h : TopDown base names) : names.Nodup := by
  have key : ∀ (seen names : List DN), seen.Nodup → TopDownFrom base seen names → (seen ++ names).Nodup := by
    intro seen names
    induction names generalizing seen with
    | nil => intro h _; simpa using h
    | cons k ks ih =>
      intro hs ht
      obtain ⟨h1, h2⟩ := topDownFrom_cons.1 ht
      have := ih (seen ++ [k]) (by
        rw [List.nodup_append]
        exact ⟨hs, by simp, fun a ha b hb e => h1.1 (by rw [← List.mem_singleton.1 hb, ← e]; exact ha)⟩) h2
      simpa using this
  simpa using key [] names (by simp) (topDown_from.1 h)

theorem input_read {L : LdifLib} (hL : L.Lawful) {text : Str} {rs : List LdifRecord} (h : LdifInput L text rs) :
    ∃ es, ldifRead L text = .ok es ∧ Matched EntrySays rs es := by
  rcases h with ⟨lines, recs, h1, h2, h3⟩ | ⟨h1, h2⟩
  · refine ⟨rs.map fun r => ⟨r.dn, gather [] r.values⟩, ?_, matched_map _ entrySays_gather rs⟩
    rw [ldifRead, ldifUnmarshal_plain hL h1 h2 h3]
    dsimp only
    rw [if_neg (by simp), filterMap_some_map]
  · obtain ⟨recs, h3, h4⟩ := C90_read_partial hL h1
    refine ⟨recs.filterMap id, ?_, h4⟩
    rw [ldifRead, h3]
    simp [h2]

theorem says_named {rs : List LdifRecord} {es : List Entry} (h : Matched EntrySays rs es) : ∀ {names : List DN},
    Matched (LdifRecord.Named C) rs names →
    Matched (fun (k : DN) (e : Entry) => ∃ n, parseDN C e.dn = some n ∧ foldDN C n = k) names es ∧
    ∀ e ∈ es, ∃ n, parseDN C e.dn = some n ∧ NameOk n := by
  induction h with
  | nil => intro names h; cases h; exact ⟨.nil, by simp⟩
  | cons r e rs es hr _ ih =>
    intro names h
    cases h with
    | cons _ k _ ks hk h =>
      obtain ⟨n, h1, h2, h3⟩ := hk
      obtain ⟨i1, i2⟩ := ih h
      have he : parseDN C e.dn = some n := by rw [hr.1]; exact h1
      refine ⟨.cons _ _ _ _ ⟨n, he, h3⟩ i1, ?_⟩
      intro x hx
      rcases List.mem_cons.1 hx with rfl | hx
      · exact ⟨n, he, h2⟩
      · exact i2 x hx

theorem matched_length {α β : Type} {R : α → β → Prop} {as : List α} {bs : List β} (h : Matched R as bs) : as.length = bs.length := by
  induction h with
  | nil => rfl
  | cons _ _ _ _ _ _ ih => simp [ih]

/-- Names, records and nodes. -/
theorem says_nodes {rs : List LdifRecord} {es : List Entry} (h : Matched EntrySays rs es) : ∀ {names : List DN} {new : Dir},
    Matched (LdifRecord.Named C) rs names → new.map (·.name) = names → new.map (·.entry) = es →
    Matched (fun (r : LdifRecord) (x : Node) => r.Named C x.name ∧ EntrySays r x.entry) rs new := by
  induction h with
  | nil => intro names new h _ h2; cases new with
    | nil => exact .nil
    | cons x xs => cases h2
  | cons r e rs es hr _ ih =>
    intro names new h h1 h2
    cases new with
    | nil => cases h2
    | cons x xs =>
      cases h with
      | cons _ k _ ks hk h =>
        simp only [List.map_cons, List.cons.injEq] at h1 h2
        exact .cons _ _ _ _ ⟨h1.1 ▸ hk, h2.1 ▸ hr⟩ (ih h h1.2 h2.2)

variable {G : GobEnv} {L : LdifLib} {levelOk : Str → Bool}

theorem named_fun {r : LdifRecord} {k k' : DN} (h : r.Named C k) (h' : r.Named C k') : k = k' := by
  obtain ⟨n, a1, -, a3⟩ := h
  obtain ⟨n', b1, -, b3⟩ := h'
  rw [a1] at b1
  cases b1
  rw [← a3, ← b3]

/-- Different records have different names. -/
theorem named_inj {rs : List LdifRecord} {names : List DN} (hn : Matched (LdifRecord.Named C) rs names) (hnd : names.Nodup) :
    ∀ r ∈ rs, ∀ r' ∈ rs, ∀ k, r.Named C k → r'.Named C k → r = r' := by
  induction hn with
  | nil => intro r hr; cases hr
  | cons a j as js ha hm ih =>
    intro r hr r' hr' k hk hk'
    have hout : ∀ x ∈ as, x.Named C k → a.Named C k → False := by
      intro x hx hxk hak
      obtain ⟨k', hk', hxk'⟩ := matched_mem_left hm x hx
      have e1 := named_fun hxk hxk'
      have e2 := named_fun hak ha
      exact (List.nodup_cons.1 hnd).1 (by rw [← e2, e1]; exact hk')
    rcases List.mem_cons.1 hr with e | hr
    · rcases List.mem_cons.1 hr' with e' | hr'
      · rw [e, e']
      · exact (hout r' hr' hk' (e ▸ hk)).elim
    · rcases List.mem_cons.1 hr' with e' | hr'
      · exact (hout r hr hk (e' ▸ hk')).elim
      · exact ih (List.nodup_cons.1 hnd).2 r hr r' hr' k hk hk'

/-- What `boltdb load` leaves in a new database. -/
theorem load_new (hC : C.Lawful) (hG : G.Lawful) (hL : L.Lawful) (hB : BaseOk C base) (o : BoltdbOpts) (w : FileWorld)
    (input baseText text : Str) (b : DN) (hi : o.inputFile = some input) (hb : o.baseDN = some baseText)
    (hl : levelOk o.logLevel = true) (hf : (w.dbs o.boltdbFile).content = some Db.empty) (hk : w.locks o.boltdbFile = .free)
    (ht : w.texts input = some (.whole text)) (hbt : parseDN C baseText = some b) (hbf : foldDN C b = base)
    (rs : List LdifRecord) (hr : LdifInput L text rs) (names : List DN) (hn : Matched (LdifRecord.Named C) rs names) (hlen : rs.length < 2 ^ 64) :
    ∃ es : List Entry, Matched EntrySays rs es ∧ HistOk C (es.map .add) ∧
      ((loadCmd C G L levelOk o w).1.exitCode = some 0 ↔ TopDown base names) ∧
      (TopDown base names → (loadCmd C G L levelOk o w).2.dbs o.boltdbFile = .ready (after C G validate base (es.map .add)) ∧
        Matched (fun (r : LdifRecord) (x : Node) => r.Named C x.name ∧ EntrySays r x.entry) rs (dirAfter C validate base (es.map .add)) ∧
        (∀ x ∈ dirAfter C validate base (es.map .add), base <:+ x.name) ∧ ((dirAfter C validate base (es.map .add)).map (·.name)).Nodup) := by
  obtain ⟨es, he, hes⟩ := input_read hL hr
  obtain ⟨hm, hnok⟩ := says_named hes hn
  have hH : HistOk C (es.map .add) := by
    refine ⟨?_, by rw [List.length_map, ← matched_length hes]; exact hlen⟩
    intro op hop
    obtain ⟨e, he, rfl⟩ := List.mem_map.1 hop
    obtain ⟨n, h1, h2⟩ := hnok e he
    intro n' hn'
    rw [entryPutDN_of_parse h1] at hn'
    cases hn'
    exact h2
  obtain ⟨a1, a2⟩ := adds_sorted (C := C) (validate := validate) hB.ne hm [] (by simp)
  obtain ⟨pre, rest, h1, h2, h3, h4, h5⟩ := C49_load_directory_partial (G := G) (L := L) (validate := validate) hC hG hB [] baseText text es b
    hbt hbf he (by simpa using hH)
  have hexit : (loadCmd C G L levelOk o w).1.exitCode = some 0 ↔ TopDown base names := by
    rw [loadCmd_run o w hi hb hl hf hk ht]
    have : (loadLDIF C G L baseText Db.empty text).1.exitCode = some 0 ↔ (loadLDIF C G L baseText Db.empty text).1 = .ok () := by
      cases (loadLDIF C G L baseText Db.empty text).1 <;> simp [Res.exitCode]
    rw [this, topDown_from]
    refine Iff.trans h5 (Iff.trans ?_ a1)
    constructor
    · rintro rfl
      rw [List.append_nil] at h1
      rw [h1]
      exact h2
    · intro hall
      cases rest with
      | nil => rfl
      | cons e rest =>
        exfalso
        refine h4 e rest rfl (hall _ ?_)
        rw [h1, List.map_append, specRun_append]
        refine List.mem_append_right _ ?_
        simp only [List.map_cons, specRun, List.nil_append]
        exact List.mem_cons_self
  refine ⟨es, hes, hH, hexit, fun htd => ?_⟩
  obtain ⟨new, n1, n2, n3, n4⟩ := a2 (topDown_from.1 htd)
  have hd : dirAfter C validate base (es.map .add) = new := n1
  refine ⟨?_, ?_, ?_, ?_⟩
  · obtain ⟨pre, rest, g1, g2, g3, -, g5⟩ := C49_load_stops (C := C) (G := G) (L := L) (validate := validate) baseText text Db.empty es he
    have hok : (loadLDIF C G L baseText Db.empty text).1 = .ok () := by
      have := hexit.2 htd
      rw [loadCmd_run o w hi hb hl hf hk ht] at this
      revert this
      cases (loadLDIF C G L baseText Db.empty text).1 <;> simp [Res.exitCode]
    have : rest = [] := by
      cases rest with
      | nil => rfl
      | cons e rest => exact absurd hok (g5 e rest rfl).2
    subst this
    rw [List.append_nil] at g1
    rw [loadCmd_run o w hi hb hl hf hk ht]
    simp only [FileWorld.put, if_true]
    rw [g3, ← g1]
    have : configuredBase C baseText = render base := by simp [configuredBase, parseNormalize, hbt, normalize, hbf]
    rw [this]
  · rw [hd]; exact says_nodes hes hn n3 n4
  · rw [hd]; simpa using n2
  · rw [hd, n3]; exact topDown_nodup htd

end

/-! ## Records and entries -/

section
variable {C : CaseEnv}

/-- Whatever can be said about names and values alike holds of the entry if it holds of the record. -/
theorem whole_pairs {r : LdifRecord} {e : Entry} (h : EntrySays r e) (P : Str → Str → Prop) :
    (∃ a ∈ e.attrs, ∃ v ∈ a.vals, P a.name v) ↔ ∃ a ∈ r.whole.attrs, ∃ v ∈ a.vals, P a.name v := by
  constructor
  · rintro ⟨a, ha, v, hv, hp⟩
    exact ⟨⟨a.name, [v]⟩, List.mem_map.2 ⟨(a.name, v), (says_mem h).1 ⟨a, ha, rfl, hv⟩, rfl⟩, v, by simp, hp⟩
  · rintro ⟨a, ha, v, hv, hp⟩
    obtain ⟨⟨t, w⟩, h1, rfl⟩ := List.mem_map.1 ha
    obtain rfl : v = w := by simpa using hv
    obtain ⟨b, hb, hb1, hb2⟩ := (says_mem h).2 h1
    exact ⟨b, hb, v, hb2, by rw [hb1]; exact hp⟩

theorem whole_vals (r : LdifRecord) : ∀ a ∈ r.whole.attrs, a.vals ≠ [] := by
  intro a ha
  obtain ⟨tv, -, rfl⟩ := List.mem_map.1 ha
  simp

mutual
/-- An entry satisfies a filter exactly if the record does. -/
theorem whole_sat {r : LdifRecord} {e : Entry} (h : EntrySays r e) (u : Filter → Entry → Prop) :
    ∀ f, Supported f → (Sat C u e f ↔ Sat C u r.whole f)
  | .and fs, hs => by rw [Sat, Sat]; exact whole_satAll h u fs hs
  | .or fs, hs => by rw [Sat, Sat]; exact whole_satAny h u fs hs
  | .not f, hs => by rw [Sat, Sat, whole_sat h u f hs]
  | .eq a v, _ => by
    rw [Sat, Sat, attr_vals _ (fun n => C.eqFold n a = true), attr_vals _ (fun n => C.eqFold n a = true)]
    exact whole_pairs h fun n w => C.eqFold n a = true ∧ C.eqFold w v = true
  | .sub a i m f, _ => by
    rw [Sat, Sat, attr_vals _ (fun n => C.eqFold n a = true), attr_vals _ (fun n => C.eqFold n a = true)]
    exact whole_pairs h fun n w => C.eqFold n a = true ∧ MatchSub (i.map C.fold) (m.map C.fold) (f.map C.fold) (C.fold w)
  | .present a, _ => by
    rw [Sat, Sat, names_pairs h.2.2.2.1 fun n => C.eqFold n a = true, names_pairs (whole_vals r) fun n => C.eqFold n a = true]
    exact whole_pairs h fun n _ => C.eqFold n a = true
  | .cmp .., hs => hs.elim
  | .ext .., hs => hs.elim
theorem whole_satAll {r : LdifRecord} {e : Entry} (h : EntrySays r e) (u : Filter → Entry → Prop) :
    ∀ fs, SupportedAll fs → (SatAll C u e fs ↔ SatAll C u r.whole fs)
  | [], _ => Iff.rfl
  | f :: fs, hs => by rw [SatAll, SatAll, whole_sat h u f hs.1, whole_satAll h u fs hs.2]
theorem whole_satAny {r : LdifRecord} {e : Entry} (h : EntrySays r e) (u : Filter → Entry → Prop) :
    ∀ fs, SupportedAll fs → (SatAny C u e fs ↔ SatAny C u r.whole fs)
  | [], _ => Iff.rfl
  | f :: fs, hs => by rw [SatAny, SatAny, whole_sat h u f hs.1, whole_satAny h u fs hs.2]
end

theorem whole_sent {r : LdifRecord} {e : Entry} (h : EntrySays r e) (attrs : List Str) : SentWhole C attrs r (reduced C attrs e) := by
  obtain ⟨h1, h2, h3, h4, h5⟩ := h
  refine ⟨h1, fun t ht => ?_, fun a ha => ?_, h3.sublist (List.filter_sublist.map _), h5.sublist (List.filter_sublist.map _)⟩
  · show typeValues t (List.filter _ e.attrs) = _
    rw [typeValues_keep (fun n => @decide _ (Classical.propDecidable (Requested C attrs n))) t (by simpa using ht)]
    exact h2 t
  · obtain ⟨a1, a2⟩ := List.mem_filter.1 ha
    exact ⟨by simpa using a2, h4 a a1⟩

/-- Which password of a record is that of its entry. -/
theorem whole_first {r : LdifRecord} {e : Entry} (h : EntrySays r e) (p : Str) :
    PasswordOf C e p ↔ ∃ t more, C.eqFold b!"userPassword" t = true ∧ r.under t = p :: more ∧
      ∀ tv ∈ r.values, C.eqFold b!"userPassword" tv.1 = true → ByteLe t tv.1 := by
  have hsort := List.pairwise_map.1 h.2.2.2.2
  constructor
  · rintro ⟨before, a, after, more, g1, g2, g3, g4⟩
    have ha : a ∈ e.attrs := by rw [g1]; simp
    refine ⟨a.name, more, g3, by rw [← says_vals h ha, g4], fun tv htv hl => ?_⟩
    obtain ⟨b, hb, e1, -⟩ := (says_mem (t := tv.1) (v := tv.2) h).2 htv
    rw [← e1] at hl ⊢
    rw [g1] at hb hsort
    rcases List.mem_append.1 hb with hb | hb
    · have := g2 b hb
      rw [show sUserPassword = b!"userPassword" from rfl, hl] at this
      cases this
    · rcases List.mem_cons.1 hb with rfl | hb
      · exact byteLe_refl _
      · exact (List.pairwise_cons.1 (List.pairwise_append.1 hsort).2.1).1 b hb
  · rintro ⟨t, more, h1, h2, h3⟩
    obtain ⟨a, ha, rfl⟩ := says_type h h2
    obtain ⟨before, after, hs⟩ := List.append_of_mem ha
    refine ⟨before, a, after, more, hs, fun b hb => ?_, h1, by rw [says_vals h ha, h2]⟩
    cases hbx : C.eqFold sUserPassword b.name with
    | false => rfl
    | true =>
      exfalso
      have hbm : b ∈ e.attrs := by rw [hs]; simp [hb]
      obtain ⟨v, hv⟩ := List.exists_mem_of_ne_nil _ (h.2.2.2.1 b hbm)
      have k1 := h3 _ ((says_mem h).1 ⟨b, hbm, rfl, hv⟩) hbx
      rw [hs] at hsort
      have k2 := (List.pairwise_append.1 hsort).2.2 b hb a (by simp)
      have hnd := h.2.2.1
      rw [hs, List.map_append, List.nodup_append] at hnd
      exact hnd.2.2 b.name (List.mem_map_of_mem hb) a.name (by simp) (byteLe_antisymm k2 k1)

/-- With one way of writing userPassword the first password counts. -/
theorem admits_first {K : CryptoEnv} {r : LdifRecord} (h1 : OnePassword C r) (pw : Str) : r.admitsFirst C K pw ↔ r.admits C K pw := by
  have hsame : ∀ t p, (t, p) ∈ r.values → C.eqFold b!"userPassword" t = true →
      r.values.filter (fun tv => C.eqFold b!"userPassword" tv.1) = r.values.filter fun tv => tv.1 = t := by
    intro t p hm hx
    refine List.filter_congr fun tv htv => ?_
    rw [Bool.eq_iff_iff, decide_eq_true_eq]
    exact ⟨fun hl => h1 tv htv _ hm hl hx, fun e => by rw [e]; exact hx⟩
  unfold LdifRecord.admitsFirst LdifRecord.admits LdifRecord.under
  constructor
  · rintro ⟨t, h, more, k1, k2, -, k4⟩
    cases hl : r.values.filter fun tv => tv.1 = t with
    | nil => rw [hl] at k2; cases k2
    | cons x rest =>
      have hx : x ∈ r.values.filter fun tv => tv.1 = t := by rw [hl]; simp
      obtain ⟨hx1, hx2⟩ := List.mem_filter.1 hx
      obtain ⟨t', p⟩ := x
      have e1 : t' = t := by simpa using hx2
      subst e1
      rw [hl] at k2
      simp only [List.map_cons, List.cons.injEq] at k2
      rw [k2.1] at hl hx1
      exact ⟨t', h, rest, by rw [hsame t' h hx1 k1, hl], k4⟩
  · rintro ⟨t, h, rest, hl, k4⟩
    have hx : (t, h) ∈ r.values.filter fun tv => C.eqFold b!"userPassword" tv.1 := by rw [hl]; simp
    obtain ⟨hx1, hx2⟩ := List.mem_filter.1 hx
    refine ⟨t, h, rest.map (·.2), hx2, by rw [← hsame t h hx1 hx2, hl]; rfl, fun tv htv hl => ?_, k4⟩
    rw [h1 tv htv _ hx1 hl hx2]
    exact byteLe_refl _

end

/-! ## C100 -/

section
variable {V : Env} {G : GobEnv} {H : Host} {L : LdifLib} {levelOk : Str → Bool} {loopback : Bool} {env : Str → Str} {flags : List Flag} {base : DN}

/-- C100: `boltdb load` of an LDIF file into a database that is new or empty ends with exit code 0 exactly if the file is correctly sorted. (Missing:
files with a record whose name does not parse, `C49_bad_name_fails`, or has escapes in an attribute type.) -/
theorem C100_loads_partial {C : CaseEnv} (hC : C.Lawful) (hG : G.Lawful) (hL : L.Lawful) (hB : BaseOk C base) (o : BoltdbOpts) (w : FileWorld)
    (input baseText text : Str) (b : DN) (hi : o.inputFile = some input) (hb : o.baseDN = some baseText)
    (hl : levelOk o.logLevel = true) (hf : (w.dbs o.boltdbFile).content = some Db.empty) (hk : w.locks o.boltdbFile = .free)
    (ht : w.texts input = some (.whole text)) (hbt : parseDN C baseText = some b) (hbf : foldDN C b = base)
    (rs : List LdifRecord) (hr : LdifInput L text rs) (names : List DN) (hn : Matched (LdifRecord.Named C) rs names) (hlen : rs.length < 2 ^ 64) :
    (loadCmd C G L levelOk o w).1.exitCode = some 0 ↔ TopDown base names := by
  obtain ⟨_, -, -, h, -⟩ := load_new (validate := fun _ _ => .hang) hC hG hL hB o w input baseText text b hi hb hl hf hk ht hbt hbf rs hr names hn hlen
  exact h

/-- The base DN of the server that is started. -/
theorem launched_base (s : Started) (hs : launch V H loopback env flags = .serves s) {file : Str} {cfg : BoltCfg} (hbk : s.backend = .bolt file cfg)
    {b : DN} (hb : parseDN V.C (optBase.value env flags) = some b) (hbf : foldDN V.C b = base) : cfg.base = render base := by
  obtain ⟨hk, -, -⟩ := C80_options s hs
  rw [hbk] at hk
  rcases hk with ⟨⟨-, -, -, name, ad, h1, -, -, h3⟩, -⟩ | ⟨⟨-, -, -, _, _, _, _, _, -, -, -, -, -, h3⟩, -⟩
  · rw [hb] at h1
    cases h1
    cases h3
    show render (foldDN V.C b) = _
    rw [hbf]
  · rcases h3 with ⟨-, h3⟩ | ⟨-, -, _, _, -, -, h3⟩ <;> cases h3

/-- C100: an LDIF file that says `rs` has been loaded into a new database, with exit code 0, and the server is started on that database. A search
is answered by the records that are in scope and satisfy the filter, all of them and none twice, each with its name as written and the values asked
for, in the order of the file, passwords among them; then success. Of substring filters only the first component counts. (Missing: the other
components, see `C29_substring_fails`. The conditions on the names and the filter are those of C33.) -/
theorem C100_search_first_partial (hC : V.C.Lawful) (hG : G.Lawful) (hL : L.Lawful) (hB : BaseOk V.C base) (o : BoltdbOpts) (w w' : FileWorld)
    (input baseText text : Str) (b : DN) (hi : o.inputFile = some input) (hb : o.baseDN = some baseText)
    (hl : levelOk o.logLevel = true) (hf : (w.dbs o.boltdbFile).content = some Db.empty) (hk : w.locks o.boltdbFile = .free)
    (ht : w.texts input = some (.whole text)) (hbt : parseDN V.C baseText = some b) (hbf : foldDN V.C b = base)
    (rs : List LdifRecord) (hr : LdifInput L text rs) (names : List DN) (hn : Matched (LdifRecord.Named V.C) rs names) (hlen : rs.length < 2 ^ 64)
    (hload : loadCmd V.C G L levelOk o w = (.ok (), w'))
    (s : Started) (hs : launch V H loopback env flags = .serves s) (cfg : BoltCfg) (hbk : s.backend = .bolt o.boltdbFile cfg)
    (db : Db) (hdb : w'.dbs o.boltdbFile = .ready db)
    (at_ : Str) (name : DN) (hname : parseDN V.C at_ = some name) (hok : NameOk name) (hne : name ≠ []) (scope : Nat) (hsc : scope ≤ 2)
    (hplain : scope ≠ 2 → ∀ r ∈ rs, PlainFirst r.dn ∧ ∀ nm, parseDN V.C r.dn = some nm → CaseSame V.C nm name)
    (f : Filter) (wf : Packet) (hw : Wire f wf) (hff : FilterOk f) (hsup : Supported f) (attrs : List Str)
    (hrep : NoRepeat V.C attrs) (or : Oracle) (id : Int) (bound : Str)
    (hthere : ∃ r ∈ rs, r.Named V.C (foldDN V.C name)) :
    ∃ (found : List LdifRecord) (sent : List Entry), found.Nodup ∧
      (∀ r, r ∈ found ↔ r ∈ rs ∧ (∃ k, r.Named V.C k ∧ InScope scope (foldDN V.C name) k) ∧ Sat V.C (fun _ _ => False) r.whole (firstOnly f)) ∧
      Matched (SentWhole V.C attrs) found sent ∧
      handlePacket V (boltSrv V G cfg s.genPwLen s.stats) or (wMsg id (wSearch at_ scope 0 wf attrs)) bound db =
        ⟨sent.map (.entry id) ++ [.searchDone id 0 (some [])], .go bound, db⟩ := by
  obtain ⟨es, hes, hH, h2, h3⟩ := load_new (validate := validatePw V.C V.K) hC hG hL hB o w input baseText text b hi hb hl hf hk ht hbt hbf rs hr names hn hlen
  have htd : TopDown base names := h2.1 (by rw [hload]; rfl)
  obtain ⟨g1, g2, g3, g4⟩ := h3 htd
  rw [hload] at g1
  dsimp only at g1
  rw [hdb] at g1
  cases g1
  obtain ⟨found, f1, f2, f3⟩ := C33_search_first_partial (cfg := cfg) (n := s.genPwLen) (stats := s.stats) hC hG hB (es.map .add) hH (fun _ _ => False)
    (fun x hx => by
      obtain ⟨r, hr, ⟨n, a1, -, -⟩, hre⟩ := matched_mem_right g2 x hx
      exact ⟨n, by rw [hre.1]; exact a1⟩)
    at_ name hname hok hne scope hsc
    (fun hx x hxm => by
      obtain ⟨r, hr, -, hre⟩ := matched_mem_right g2 x hxm
      have := hplain hx r hr
      rw [hre.1]
      exact this)
    f wf hw hff hsup attrs hrep or id bound
    (by
      obtain ⟨r, hr, hrn⟩ := hthere
      obtain ⟨x, hx, hxn, -⟩ := matched_mem_left g2 r hr
      rw [mem_has, named_fun hrn hxn]
      exact List.mem_map_of_mem hx)
  obtain ⟨rf, r1, r2⟩ := exists_left (R := fun (r : LdifRecord) (x : Node) => r.Named V.C x.name ∧ EntrySays r x.entry) (as := rs) found
    fun x hx => matched_mem_right g2 x ((f2 x).1 hx).1
  have hinj : ∀ r ∈ rs, ∀ r' ∈ rs, ∀ k, r.Named V.C k → r'.Named V.C k → r = r' := by
    exact named_inj hn (topDown_nodup htd)
  refine ⟨rf, found.map fun x => reduced V.C attrs x.entry, ?_, fun r => ?_, ?_, ?_⟩
  · clear r2 f3 f2 hthere
    induction r1 with
    | nil => simp
    | cons r x rs' xs hrx hm ih =>
      simp only [List.map_cons, List.nodup_cons] at f1
      refine List.nodup_cons.2 ⟨fun hr => ?_, ih f1.2⟩
      obtain ⟨y, hy, hyn, -⟩ := matched_mem_left hm r hr
      exact f1.1 (by rw [named_fun hrx.1 hyn]; exact List.mem_map_of_mem hy)
  · constructor
    · intro hr
      obtain ⟨x, hx, hxn, hre⟩ := matched_mem_left r1 r hr
      obtain ⟨-, q2, q3⟩ := (f2 x).1 hx
      exact ⟨r2 r hr, ⟨x.name, hxn, q2⟩, (whole_sat hre _ (firstOnly f) ((firstOnly_supported f).2 hsup)).1 q3⟩
    · rintro ⟨hr, ⟨k, hk, q2⟩, q3⟩
      obtain ⟨x, hx, hxn, hre⟩ := matched_mem_left g2 r hr
      have hxf : x ∈ found := (f2 x).2 ⟨hx, named_fun hk hxn ▸ q2, (whole_sat hre _ (firstOnly f) ((firstOnly_supported f).2 hsup)).2 q3⟩
      obtain ⟨r', hr', hxn', -⟩ := matched_mem_right r1 x hxf
      rw [hinj r hr r' (r2 r' hr') x.name hxn hxn']
      exact hr'
  · clear r2 f3 f2 f1 hthere
    induction r1 with
    | nil => exact .nil
    | cons r x rs' xs hrx _ ih => exact .cons _ _ _ _ (whole_sent hrx.2 attrs) ih
  · rw [f3, List.map_map]
    rfl

/-- C100: an LDIF file that says `rs` has been loaded into a new database, with exit code 0, and the server is started on that database. A search
is answered by the records that are in scope and satisfy the filter, all of them and none twice, each with its name as written and the values asked
for, in the order of the file, passwords among them; then success. The conditions on the names and the filter are those of C33. -/
theorem C100_search_partial (hC : V.C.Lawful) (hG : G.Lawful) (hL : L.Lawful) (hB : BaseOk V.C base) (o : BoltdbOpts) (w w' : FileWorld)
    (input baseText text : Str) (b : DN) (hi : o.inputFile = some input) (hb : o.baseDN = some baseText)
    (hl : levelOk o.logLevel = true) (hf : (w.dbs o.boltdbFile).content = some Db.empty) (hk : w.locks o.boltdbFile = .free)
    (ht : w.texts input = some (.whole text)) (hbt : parseDN V.C baseText = some b) (hbf : foldDN V.C b = base)
    (rs : List LdifRecord) (hr : LdifInput L text rs) (names : List DN) (hn : Matched (LdifRecord.Named V.C) rs names) (hlen : rs.length < 2 ^ 64)
    (hload : loadCmd V.C G L levelOk o w = (.ok (), w'))
    (s : Started) (hs : launch V H loopback env flags = .serves s) (cfg : BoltCfg) (hbk : s.backend = .bolt o.boltdbFile cfg)
    (db : Db) (hdb : w'.dbs o.boltdbFile = .ready db)
    (at_ : Str) (name : DN) (hname : parseDN V.C at_ = some name) (hok : NameOk name) (hne : name ≠ []) (scope : Nat) (hsc : scope ≤ 2)
    (hplain : scope ≠ 2 → ∀ r ∈ rs, PlainFirst r.dn ∧ ∀ nm, parseDN V.C r.dn = some nm → CaseSame V.C nm name)
    (f : Filter) (wf : Packet) (hw : Wire f wf) (hff : FilterOk f) (h1 : OneComponent f) (hsup : Supported f) (attrs : List Str)
    (hrep : NoRepeat V.C attrs) (or : Oracle) (id : Int) (bound : Str)
    (hthere : ∃ r ∈ rs, r.Named V.C (foldDN V.C name)) :
    ∃ (found : List LdifRecord) (sent : List Entry), found.Nodup ∧
      (∀ r, r ∈ found ↔ r ∈ rs ∧ (∃ k, r.Named V.C k ∧ InScope scope (foldDN V.C name) k) ∧ Sat V.C (fun _ _ => False) r.whole f) ∧
      Matched (SentWhole V.C attrs) found sent ∧
      handlePacket V (boltSrv V G cfg s.genPwLen s.stats) or (wMsg id (wSearch at_ scope 0 wf attrs)) bound db =
        ⟨sent.map (.entry id) ++ [.searchDone id 0 (some [])], .go bound, db⟩ := by
  have := C100_search_first_partial hC hG hL hB o w w' input baseText text b hi hb hl hf hk ht hbt hbf rs hr names hn hlen hload s hs cfg hbk db hdb
    at_ name hname hok hne scope hsc hplain f wf hw hff hsup attrs hrep or id bound hthere
  rwa [firstOnly_id f h1] at this

/-- C100: an LDIF file that says `rs` has been loaded into a new database, with exit code 0, and the server is started on that database with the
same base DN. A bind succeeds exactly if it is anonymous and that is enabled, or if there is a record of that name whose password the given one
matches; otherwise it is refused and the connection keeps its identity. If userPassword is written in several ways in a record, the way that comes
first in the order of bytes counts, and the first value written in that way. (Missing: what C22 and C90 leave out.) -/
theorem C100_bind_exact_partial (hC : V.C.Lawful) (hG : G.Lawful) (hL : L.Lawful) (hB : BaseOk V.C base) (o : BoltdbOpts) (w w' : FileWorld)
    (input baseText text : Str) (b : DN) (hi : o.inputFile = some input) (hb : o.baseDN = some baseText)
    (hl : levelOk o.logLevel = true) (hf : (w.dbs o.boltdbFile).content = some Db.empty) (hk : w.locks o.boltdbFile = .free)
    (ht : w.texts input = some (.whole text)) (hbt : parseDN V.C baseText = some b) (hbf : foldDN V.C b = base)
    (rs : List LdifRecord) (hr : LdifInput L text rs) (names : List DN) (hn : Matched (LdifRecord.Named V.C) rs names) (hlen : rs.length < 2 ^ 64)
    (hload : loadCmd V.C G L levelOk o w = (.ok (), w'))
    (s : Started) (hs : launch V H loopback env flags = .serves s) (cfg : BoltCfg) (hbk : s.backend = .bolt o.boltdbFile cfg)
    (b' : DN) (hb' : parseDN V.C (optBase.value env flags) = some b') (hbf' : foldDN V.C b' = base)
    (db : Db) (hdb : w'.dbs o.boltdbFile = .ready db)
    (dn pw : Str) (htext : TextOk V.C dn) (or : Oracle) (id : Int) (bound : Str) :
    let out := handlePacket V (boltSrv V G cfg s.genPwLen s.stats) or (wMsg id (wBind dn pw)) bound db
    let accepted := (dn = [] ∧ pw = [] ∧ wantsAnon flags = true) ∨
      (pw ≠ [] ∧ ∃ name, parseDN V.C dn = some name ∧ ∃ r ∈ rs, r.Named V.C (foldDN V.C name) ∧ r.admitsFirst V.C V.K pw)
    out.st = db ∧
    (accepted → ∃ name, parseDN V.C dn = some name ∧ out.resps = [.result id 1 0] ∧ out.next = .go (normalize V.C name)) ∧
    (¬ accepted → ∃ code, code ≠ 0 ∧ out.resps = [.result id 1 code] ∧ out.next = .go bound) := by
  intro out accepted
  obtain ⟨es, hes, hH, h2, h3⟩ := load_new (validate := validatePw V.C V.K) hC hG hL hB o w input baseText text b hi hb hl hf hk ht hbt hbf rs hr names hn hlen
  have htd : TopDown base names := h2.1 (by rw [hload]; rfl)
  obtain ⟨g1, g2, g3, g4⟩ := h3 htd
  rw [hload] at g1
  dsimp only at g1
  rw [hdb] at g1
  cases g1
  have hanon : cfg.anon = wantsAnon flags := by
    obtain ⟨hk, -, -⟩ := C80_options s hs
    rw [hbk] at hk
    rcases hk with ⟨⟨-, -, -, _, _, -, -, -, h3⟩, -⟩ | ⟨⟨-, -, -, _, _, _, _, _, -, -, -, -, -, h3⟩, -⟩
    · injection h3 with _ h3
      rw [h3]
    · rcases h3 with ⟨-, h3⟩ | ⟨-, -, _, _, -, -, h3⟩ <;> cases h3
  have hmay : MayBind V.C V.K cfg.anon base (dirAfter V.C (validatePw V.C V.K) base (es.map .add)) dn pw ↔ accepted := by
    unfold MayBind
    rw [hanon]
    refine or_congr Iff.rfl (and_congr_right fun _ => ?_)
    constructor
    · rintro ⟨name, e, p, q1, -, q3, q4, q5⟩
      simp only [Dir.get, Option.map_eq_some_iff] at q3
      obtain ⟨x, hx, rfl⟩ := q3
      have hxk : x.name = foldDN V.C name := by simpa using List.find?_some hx
      obtain ⟨r, hr, hrn, hre⟩ := matched_mem_right g2 x (List.mem_of_find?_eq_some hx)
      obtain ⟨t, more, hpw1, hpw2, hpw3⟩ := (whole_first hre p).1 q4
      exact ⟨name, q1, r, hr, hxk ▸ hrn, t, p, more, hpw1, hpw2, hpw3, q5⟩
    · rintro ⟨name, q1, r, hr, hrn, t, p, more, hpw1, hpw2, hpw3, q5⟩
      obtain ⟨x, hx, hxn, hre⟩ := matched_mem_left g2 r hr
      have hxk : x.name = foldDN V.C name := named_fun hxn hrn
      refine ⟨name, x.entry, p, q1, render_suffix (hxk ▸ g3 x hx), ?_, (whole_first hre p).2 ⟨t, more, hpw1, hpw2, hpw3⟩, q5⟩
      simp only [Dir.get, Option.map_eq_some_iff]
      cases hfd : (dirAfter V.C (validatePw V.C V.K) base (es.map .add)).find? fun y => y.name = foldDN V.C name with
      | none =>
        have := List.find?_eq_none.1 hfd x hx
        simp [hxk] at this
      | some y =>
        refine ⟨y, rfl, ?_⟩
        have hy : y.name = foldDN V.C name := by simpa using List.find?_some hfd
        rw [nodup_inj g4 y (List.mem_of_find?_eq_some hfd) x hx (by rw [hy, hxk])]
  have := C22_bind_exact (cfg := cfg) (n := s.genPwLen) (stats := s.stats) hC hG hB (launched_base s hs hbk hb' hbf') (es.map .add) hH or id bound dn pw htext
  dsimp only at this
  rw [hmay] at this
  exact this

/-- C100: an LDIF file that says `rs` has been loaded into a new database, with exit code 0, and the server is started on that database with the
same base DN. A bind succeeds exactly if it is anonymous and that is enabled, or if there is a record of that name whose first password the given one
matches; otherwise it is refused and the connection keeps its identity. (Missing: records in which userPassword is written in more than one way, see
`C100_bind_exact_partial`.) -/
theorem C100_bind_partial (hC : V.C.Lawful) (hG : G.Lawful) (hL : L.Lawful) (hB : BaseOk V.C base) (o : BoltdbOpts) (w w' : FileWorld)
    (input baseText text : Str) (b : DN) (hi : o.inputFile = some input) (hb : o.baseDN = some baseText)
    (hl : levelOk o.logLevel = true) (hf : (w.dbs o.boltdbFile).content = some Db.empty) (hk : w.locks o.boltdbFile = .free)
    (ht : w.texts input = some (.whole text)) (hbt : parseDN V.C baseText = some b) (hbf : foldDN V.C b = base)
    (rs : List LdifRecord) (hr : LdifInput L text rs) (names : List DN) (hn : Matched (LdifRecord.Named V.C) rs names) (hlen : rs.length < 2 ^ 64)
    (hload : loadCmd V.C G L levelOk o w = (.ok (), w'))
    (s : Started) (hs : launch V H loopback env flags = .serves s) (cfg : BoltCfg) (hbk : s.backend = .bolt o.boltdbFile cfg)
    (b' : DN) (hb' : parseDN V.C (optBase.value env flags) = some b') (hbf' : foldDN V.C b' = base)
    (db : Db) (hdb : w'.dbs o.boltdbFile = .ready db) (hone : ∀ r ∈ rs, OnePassword V.C r)
    (dn pw : Str) (htext : TextOk V.C dn) (or : Oracle) (id : Int) (bound : Str) :
    let out := handlePacket V (boltSrv V G cfg s.genPwLen s.stats) or (wMsg id (wBind dn pw)) bound db
    let accepted := (dn = [] ∧ pw = [] ∧ wantsAnon flags = true) ∨
      (pw ≠ [] ∧ ∃ name, parseDN V.C dn = some name ∧ ∃ r ∈ rs, r.Named V.C (foldDN V.C name) ∧ r.admits V.C V.K pw)
    out.st = db ∧
    (accepted → ∃ name, parseDN V.C dn = some name ∧ out.resps = [.result id 1 0] ∧ out.next = .go (normalize V.C name)) ∧
    (¬ accepted → ∃ code, code ≠ 0 ∧ out.resps = [.result id 1 code] ∧ out.next = .go bound) := by
  have := C100_bind_exact_partial hC hG hL hB o w w' input baseText text b hi hb hl hf hk ht hbt hbf rs hr names hn hlen hload s hs cfg hbk b' hb' hbf'
    db hdb dn pw htext or id bound
  dsimp only at this ⊢
  have e : (∃ name, parseDN V.C dn = some name ∧ ∃ r ∈ rs, r.Named V.C (foldDN V.C name) ∧ r.admitsFirst V.C V.K pw) ↔
      ∃ name, parseDN V.C dn = some name ∧ ∃ r ∈ rs, r.Named V.C (foldDN V.C name) ∧ r.admits V.C V.K pw := by
    constructor
    · rintro ⟨name, h1, r, h2, h3, h4⟩
      exact ⟨name, h1, r, h2, h3, (admits_first (hone r h2) pw).1 h4⟩
    · rintro ⟨name, h1, r, h2, h3, h4⟩
      exact ⟨name, h1, r, h2, h3, (admits_first (hone r h2) pw).2 h4⟩
  rw [e] at this
  exact this

end

/-! ## Examples -/

/-- A world with an LDIF file and no database. -/
def loWorld (text : Str) : FileWorld := ⟨fun _ => .missing, fun _ => .free, fun p => if p = b!"in.ldif" then some (.whole text) else none, .whole []⟩

def loOpts : BoltdbOpts := { boltdbFile := b!"idmbolt.db", inputFile := some b!"in.ldif", baseDN := some b!"DC=lg" }

/-- What the load makes of a text. -/
def loAfter (text : Str) : Res Unit × FileWorld := loadCmd asciiCase gobInstance goLdif (· == b!"info") loOpts (loWorld text)

/-- The database in the world. -/
def FileWorld.db (w : FileWorld) (path : Str) : Db := match w.dbs path with
  | .ready db => db
  | _ => Db.empty

def loNames : List DN := [[[⟨b!"dc", b!"lg"⟩]], [[⟨b!"uid", b!"bob"⟩], [⟨b!"dc", b!"lg"⟩]]]

theorem loNamed : Matched (LdifRecord.Named asciiCase) svRecords loNames :=
  .cons _ _ _ _ ⟨[[⟨b!"dc", b!"lg"⟩]], by decide +kernel, by decide +kernel, by decide +kernel⟩
    (.cons _ _ _ _ ⟨[[⟨b!"uid", b!"Bob"⟩], [⟨b!"dc", b!"lg"⟩]], by decide +kernel, by decide +kernel, by decide +kernel⟩ .nil)

theorem loBase : BaseOk asciiCase toyBase := by decide +kernel

theorem loAfter_ok : loAfter svText = (.ok (), (loAfter svText).2) := Prod.ext (by decide +kernel) rfl

theorem loAfter_db : (loAfter svText).2.dbs b!"idmbolt.db" = .ready ((loAfter svText).2.db b!"idmbolt.db") := by
  have : (match (loAfter svText).2.dbs b!"idmbolt.db" with | .ready _ => true | _ => false) = true := by decide +kernel
  unfold FileWorld.db
  cases h : (loAfter svText).2.dbs b!"idmbolt.db" <;> rw [h] at this <;> simp at this ⊢

def loFlags : List Flag := [.str b!"ldap-handler" b!"boltdb", .str b!"ldap-base-dn" b!"dc=LG", .str b!"ldap-admin-dn" b!"uid=admin,dc=lg"]

def loCfg : BoltCfg := ⟨b!"dc=lg", b!"uid=admin,dc=lg", false, b!"dc=lg"⟩

theorem loLaunch : ∃ s, launch toyEnv toyHost true (fun _ => []) loFlags = .serves s ∧ s.backend = .bolt b!"idmbolt.db" loCfg := ⟨_, rfl, rfl⟩

/-- The file can be loaded: the names are sorted. -/
example : TopDown toyBase loNames :=
  (C100_loads_partial asciiCase_lawful gobInstance_lawful goLdif_lawful loBase loOpts (loWorld svText) b!"in.ldif" b!"DC=lg" svText
    [[⟨b!"DC", b!"lg"⟩]] rfl rfl rfl rfl rfl rfl (by decide +kernel) (by decide +kernel) svRecords (.inl svText_body) loNames loNamed (by decide)).1
    (show (loAfter svText).1.exitCode = some 0 by decide +kernel)

/-- With the user before the base the load fails. -/
example : ¬ TopDown toyBase loNames.reverse ∧ (loAfter b!"dn: uid=Bob,dc=lg\nuid: Bob\n\ndn: dc=lg\ndc: lg\n").1.exitCode = some 1 := by
  refine ⟨fun h => ?_, by decide +kernel⟩
  obtain ⟨-, h | ⟨_, above, h1, h2⟩, -⟩ := h [] [[⟨b!"uid", b!"bob"⟩], [⟨b!"dc", b!"lg"⟩]] [[[⟨b!"dc", b!"lg"⟩]]] (by decide)
  · exact absurd h (by decide)
  · simp at h2

/-- C100 applies to a search for `(cn=robert)` -/
example (s : Started) (h1 : launch toyEnv toyHost true (fun _ => []) loFlags = .serves s) (h2 : s.backend = .bolt b!"idmbolt.db" loCfg) :=
  C100_search_partial (V := toyEnv) (levelOk := (· == b!"info")) asciiCase_lawful gobInstance_lawful goLdif_lawful loBase loOpts (loWorld svText) _ b!"in.ldif" b!"DC=lg" svText
    [[⟨b!"DC", b!"lg"⟩]] rfl rfl rfl rfl rfl rfl (by decide +kernel) (by decide +kernel) svRecords (.inl svText_body) loNames loNamed (by decide)
    loAfter_ok s h1 loCfg h2 _ loAfter_db b!"dc=lg" [[⟨b!"dc", b!"lg"⟩]] (by decide +kernel) (by decide +kernel) (by decide) 2 (by omega)
    (fun h => absurd rfl h) (.eq b!"cn" b!"robert") _ (wEq_wire _ _) (by decide +kernel : AttrText b!"cn") trivial trivial [b!"cn", b!"userPassword"]
    (by decide +kernel) toyOracle 7 [] ⟨_, List.mem_cons_self, ⟨[[⟨b!"dc", b!"lg"⟩]], by decide +kernel, by decide +kernel, rfl⟩⟩

/-- its answer, to a client that is not bound -/
example : (handlePacket toyEnv (boltSrv toyEnv gobInstance loCfg 16 false) toyOracle
      (wMsg 7 (wSearch b!"dc=lg" 2 0 (wEq b!"cn" b!"robert") [b!"cn", b!"userPassword"])) [] ((loAfter svText).2.db b!"idmbolt.db")).resps =
    [.entry 7 ⟨b!"uid=Bob,dc=lg", [⟨b!"cn", [b!"Bob", b!"Robert"]⟩, ⟨b!"userPassword", [b!"secret"]⟩]⟩, .searchDone 7 0 (some [])] := by decide +kernel

/-- C100 applies to a bind as the user -/
example (s : Started) (h1 : launch toyEnv toyHost true (fun _ => []) loFlags = .serves s) (h2 : s.backend = .bolt b!"idmbolt.db" loCfg) :=
  C100_bind_partial (V := toyEnv) (levelOk := (· == b!"info")) asciiCase_lawful gobInstance_lawful goLdif_lawful loBase loOpts (loWorld svText) _ b!"in.ldif" b!"DC=lg" svText
    [[⟨b!"DC", b!"lg"⟩]] rfl rfl rfl rfl rfl rfl (by decide +kernel) (by decide +kernel) svRecords (.inl svText_body) loNames loNamed (by decide)
    loAfter_ok s h1 loCfg h2 [[⟨b!"dc", b!"LG"⟩]] (by decide +kernel) (by decide +kernel) _ loAfter_db (by decide +kernel)
    b!"UID=bob,dc=lg" b!"secret" (by decide +kernel) toyOracle 7 []

example (s : Started) (h1 : launch toyEnv toyHost true (fun _ => []) loFlags = .serves s) (h2 : s.backend = .bolt b!"idmbolt.db" loCfg) :=
  C100_bind_exact_partial (V := toyEnv) (levelOk := (· == b!"info")) asciiCase_lawful gobInstance_lawful goLdif_lawful loBase loOpts (loWorld svText) _ b!"in.ldif" b!"DC=lg" svText
    [[⟨b!"DC", b!"lg"⟩]] rfl rfl rfl rfl rfl rfl (by decide +kernel) (by decide +kernel) svRecords (.inl svText_body) loNames loNamed (by decide)
    loAfter_ok s h1 loCfg h2 [[⟨b!"dc", b!"LG"⟩]] (by decide +kernel) (by decide +kernel) _ loAfter_db
    b!"UID=bob,dc=lg" b!"secret" (by decide +kernel) toyOracle 7 []

/-- The records of the counterexamples below and in Props/Served: the password that counts. -/
example : (⟨b!"dc=lg", [(b!"userpassword", b!"a"), (b!"userPassword", b!"b")]⟩ : LdifRecord).admitsFirst asciiCase toyCrypto b!"b" ∧
    (⟨b!"dc=lg", [(b!"userPassword", b!"a"), (b!"userpassword", b!"b")]⟩ : LdifRecord).opensLast asciiCase toyCrypto b!"b" :=
  ⟨⟨b!"userPassword", b!"b", [], by decide +kernel, by decide +kernel, by decide +kernel, by decide +kernel⟩,
    ⟨b!"userpassword", b!"b", [], by decide +kernel, by decide +kernel, by decide +kernel, by decide +kernel⟩⟩

/-- both outcomes -/
example : let bind := fun pw => (handlePacket toyEnv (boltSrv toyEnv gobInstance loCfg 16 false) toyOracle (wMsg 7 (wBind b!"UID=bob,dc=lg" pw)) []
      ((loAfter svText).2.db b!"idmbolt.db")).resps
    bind b!"secret" = [.result 7 1 0] ∧ bind b!"other" = [.result 7 1 49] := by decide +kernel

/-! ## A counterexample -/

/-- C100 is false of records with two spellings of userPassword: the first password in the file is not accepted, the other one is. -/
theorem C100_spelling_fails : ∃ (text : Str) (r : LdifRecord), LdifBody text [r] ∧ r.dn = b!"dc=lg" ∧ r.admits asciiCase toyCrypto b!"a" ∧
    (loAfter text).1 = .ok () ∧
    let bind := fun pw => (handlePacket toyEnv (boltSrv toyEnv gobInstance loCfg 16 false) toyOracle (wMsg 7 (wBind b!"dc=lg" pw)) []
      ((loAfter text).2.db b!"idmbolt.db")).resps
    bind b!"a" = [.result 7 1 49] ∧ bind b!"b" = [.result 7 1 0] := by
  refine ⟨b!"dn: dc=lg\nuserpassword: a\nuserPassword: b\n", ⟨b!"dc=lg", [(b!"userpassword", b!"a"), (b!"userPassword", b!"b")]⟩, ?_, rfl, ?_,
    by decide +kernel, by decide +kernel, by decide +kernel⟩
  · refine ⟨[b!"dn: dc=lg", b!"userpassword: a", b!"userPassword: b"],
      [[b!"dn: dc=lg", b!"userpassword: a", b!"userPassword: b"]], hasLines_lf [b!"dn: dc=lg", b!"userpassword: a", b!"userPassword: b"] (by decide), ?_, ?_⟩
    · exact .last _ _ (by simp) (.line _ [b!"dn: dc=lg"] _ _ ⟨_, [], rfl, rfl, by decide⟩ (.line _ [b!"userpassword: a"] _ _ ⟨_, [], rfl, rfl, by decide⟩
        (.line _ [b!"userPassword: b"] [] [] ⟨_, [], rfl, rfl, by decide⟩ .done)))
    · exact .cons _ _ _ _ (.mk _ _ _ (.plain b!"dn" b!"dc=lg" 1 (by decide) (by decide)) (by simp)
        (.cons _ _ _ _ ⟨.plain b!"userpassword" b!"a" 1 (by decide) (by decide), by decide, by decide, by decide⟩
        (.cons _ _ _ _ ⟨.plain b!"userPassword" b!"b" 1 (by decide) (by decide), by decide, by decide, by decide⟩ .nil))) .nil
  · exact ⟨b!"userpassword", b!"a", [(b!"userPassword", b!"b")], by decide +kernel, by decide +kernel⟩

end Idm
