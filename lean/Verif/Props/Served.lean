import Verif.Spec.Served
import Verif.Props.LdifSearch
import Verif.Props.Login
/-!
# C95: what LDIF files say is what the server answers
-/
namespace Idm

section
variable {C : CaseEnv} {L : LdifLib}

/-! ## Entries and records -/

theorem mem_typeValues {t v : Str} {as : List Attr} : v ∈ typeValues t as ↔ ∃ a ∈ as, a.name = t ∧ v ∈ a.vals := by
  rw [typeValues_filter]
  simp only [List.mem_flatMap, List.mem_filter, decide_eq_true_eq]
  exact ⟨fun ⟨a, ⟨h1, h2⟩, h3⟩ => ⟨a, h1, h2, h3⟩, fun ⟨a, h1, h2, h3⟩ => ⟨a, ⟨h1, h2⟩, h3⟩⟩

theorem mem_under {r : LdifRecord} {t v : Str} : v ∈ r.under t ↔ (t, v) ∈ r.values := by
  unfold LdifRecord.under
  simp only [List.mem_map, List.mem_filter, decide_eq_true_eq]
  constructor
  · rintro ⟨⟨a, b⟩, ⟨h, rfl⟩, rfl⟩; exact h
  · intro h; exact ⟨(t, v), ⟨h, rfl⟩, rfl⟩

theorem says_mem {r : LdifRecord} {e : Entry} (h : EntrySays r e) {t v : Str} : (∃ a ∈ e.attrs, a.name = t ∧ v ∈ a.vals) ↔ (t, v) ∈ r.values := by
  rw [← mem_typeValues, h.2.1 t]
  exact mem_under

/-- Whatever can be said about names and values alike holds of what is shown of the entry if it holds of the record. -/
theorem seen_pairs {r : LdifRecord} {e : Entry} (h : EntrySays r e) (P : Str → Str → Prop) :
    (∃ a ∈ (publicView C e).attrs, ∃ v ∈ a.vals, P a.name v) ↔ ∃ a ∈ (r.seen C).attrs, ∃ v ∈ a.vals, P a.name v := by
  constructor
  · rintro ⟨a, ha, v, hv, hp⟩
    obtain ⟨h1, h2⟩ := List.mem_filter.1 ha
    refine ⟨⟨a.name, [v]⟩, List.mem_map.2 ⟨(a.name, v), List.mem_filter.2 ⟨(says_mem h).1 ⟨a, h1, rfl, hv⟩, h2⟩, rfl⟩, v, by simp, hp⟩
  · rintro ⟨a, ha, v, hv, hp⟩
    obtain ⟨⟨t, w⟩, h1, rfl⟩ := List.mem_map.1 ha
    obtain ⟨h2, h3⟩ := List.mem_filter.1 h1
    obtain rfl : v = w := by simpa using hv
    obtain ⟨b, hb, hb1, hb2⟩ := (says_mem h).2 h2
    exact ⟨b, List.mem_filter.2 ⟨hb, by rw [hb1]; exact h3⟩, v, hb2, by rw [hb1]; exact hp⟩

theorem view_vals {r : LdifRecord} {e : Entry} (h : EntrySays r e) : ∀ a ∈ (publicView C e).attrs, a.vals ≠ [] :=
  fun a ha => h.2.2.2.1 a (List.mem_filter.1 ha).1

theorem seen_vals (r : LdifRecord) : ∀ a ∈ (r.seen C).attrs, a.vals ≠ [] := by
  intro a ha
  obtain ⟨tv, -, rfl⟩ := List.mem_map.1 ha
  simp

theorem names_pairs {e : Entry} (hne : ∀ a ∈ e.attrs, a.vals ≠ []) (P : Str → Prop) :
    (∃ a ∈ e.attrs, P a.name) ↔ ∃ a ∈ e.attrs, ∃ v ∈ a.vals, P a.name :=
  ⟨fun ⟨a, ha, hp⟩ => by
    obtain ⟨v, hv⟩ := List.exists_mem_of_ne_nil _ (hne a ha)
    exact ⟨a, ha, v, hv, hp⟩, fun ⟨a, ha, _, _, hp⟩ => ⟨a, ha, hp⟩⟩

theorem attr_vals (e : Entry) (P : Str → Prop) (Q : Str → Prop) :
    (∃ x ∈ e.attrs, P x.name ∧ ∃ w ∈ x.vals, Q w) ↔ ∃ x ∈ e.attrs, ∃ w ∈ x.vals, P x.name ∧ Q w :=
  ⟨fun ⟨x, hx, hp, w, hw, hq⟩ => ⟨x, hx, w, hw, hp, hq⟩, fun ⟨x, hx, w, hw, hp, hq⟩ => ⟨x, hx, hp, w, hw, hq⟩⟩

mutual
/-- An entry satisfies a filter exactly if the record does. -/
theorem says_sat {r : LdifRecord} {e : Entry} (h : EntrySays r e) (u : Filter → Entry → Prop) :
    ∀ f, Supported f → (Sat C u (publicView C e) f ↔ Sat C u (r.seen C) f)
  | .and fs, hs => by rw [Sat, Sat]; exact says_satAll h u fs hs
  | .or fs, hs => by rw [Sat, Sat]; exact says_satAny h u fs hs
  | .not f, hs => by rw [Sat, Sat, says_sat h u f hs]
  | .eq a v, _ => by
    rw [Sat, Sat, attr_vals _ (fun n => C.eqFold n a = true), attr_vals _ (fun n => C.eqFold n a = true)]
    exact seen_pairs h fun n w => C.eqFold n a = true ∧ C.eqFold w v = true
  | .sub a i m f, _ => by
    rw [Sat, Sat, attr_vals _ (fun n => C.eqFold n a = true), attr_vals _ (fun n => C.eqFold n a = true)]
    exact seen_pairs h fun n w => C.eqFold n a = true ∧ MatchSub (i.map C.fold) (m.map C.fold) (f.map C.fold) (C.fold w)
  | .present a, _ => by
    rw [Sat, Sat, names_pairs (view_vals h) fun n => C.eqFold n a = true, names_pairs (seen_vals r) fun n => C.eqFold n a = true]
    exact seen_pairs h fun n _ => C.eqFold n a = true
  | .cmp .., hs => hs.elim
  | .ext .., hs => hs.elim
theorem says_satAll {r : LdifRecord} {e : Entry} (h : EntrySays r e) (u : Filter → Entry → Prop) :
    ∀ fs, SupportedAll fs → (SatAll C u (publicView C e) fs ↔ SatAll C u (r.seen C) fs)
  | [], _ => Iff.rfl
  | f :: fs, hs => by rw [SatAll, SatAll, says_sat h u f hs.1, says_satAll h u fs hs.2]
theorem says_satAny {r : LdifRecord} {e : Entry} (h : EntrySays r e) (u : Filter → Entry → Prop) :
    ∀ fs, SupportedAll fs → (SatAny C u (publicView C e) fs ↔ SatAny C u (r.seen C) fs)
  | [], _ => Iff.rfl
  | f :: fs, hs => by rw [SatAny, SatAny, says_sat h u f hs.1, says_satAny h u fs hs.2]
end

theorem says_caseAgrees {r : LdifRecord} {e : Entry} (h : EntrySays r e) {f : Filter} (ha : CaseAgrees C (r.seen C) f) :
    CaseAgrees C (publicView C e) f := by
  intro w hw a ha'
  have key : ∀ v ∈ a.vals, (⟨a.name, [v]⟩ : Attr) ∈ (r.seen C).attrs := by
    intro v hv
    obtain ⟨h1, h2⟩ := List.mem_filter.1 ha'
    exact List.mem_map.2 ⟨(a.name, v), List.mem_filter.2 ⟨(says_mem h).1 ⟨a, h1, rfl, hv⟩, h2⟩, rfl⟩
  refine ⟨?_, fun v hv => (ha w hw _ (key v hv)).2 v (by simp)⟩
  obtain ⟨v, hv⟩ := List.exists_mem_of_ne_nil _ (view_vals h a ha')
  exact (ha w hw _ (key v hv)).1

theorem says_endsAgree {r : LdifRecord} {e : Entry} (h : EntrySays r e) {f : Filter} (ha : EndsAgree C (r.seen C) f) :
    EndsAgree C (publicView C e) f := by
  intro p hp a ha' hn v hv
  obtain ⟨h1, h2⟩ := List.mem_filter.1 ha'
  exact ha p hp ⟨a.name, [v]⟩ (List.mem_map.2 ⟨(a.name, v), List.mem_filter.2 ⟨(says_mem h).1 ⟨a, h1, rfl, hv⟩, h2⟩, rfl⟩) hn v (by simp)

theorem typeValues_keep (P : Str → Bool) (t : Str) (ht : P t = true) : ∀ as : List Attr, typeValues t (as.filter fun a => P a.name) = typeValues t as
  | [] => rfl
  | a :: as => by
    rw [typeValues_cons, List.filter_cons]
    by_cases h : P a.name = true
    · rw [if_pos h, typeValues_cons, typeValues_keep P t ht as]
    · rw [if_neg h, typeValues_keep P t ht as, if_neg (fun e : a.name = t => h (e ▸ ht))]
      simp

/-- What is sent for the entry of a record. -/
theorem says_sent {r : LdifRecord} {e : Entry} (h : EntrySays r e) (attrs : List Str) : SentFor C attrs r (reduced C attrs (publicView C e)) := by
  obtain ⟨h1, h2, h3, h4, h5⟩ := h
  refine ⟨congrArg C.lower h1, fun t ht hp => ?_, fun a ha => ?_, ?_, ?_⟩
  · show typeValues t (List.filter _ (List.filter _ e.attrs)) = _
    rw [typeValues_keep (fun n => @decide _ (Classical.propDecidable (Requested C attrs n))) t (by simpa using ht),
      typeValues_keep (fun n => decide (C.lower n ≠ b!"userpassword")) t (by simpa using hp)]
    exact h2 t
  · obtain ⟨a1, a2⟩ := List.mem_filter.1 ha
    obtain ⟨a3, a4⟩ := List.mem_filter.1 a1
    exact ⟨by simpa using a2, by simpa using a4, h4 a a3⟩
  · exact (h3.sublist ((List.filter_sublist.map _))).sublist (List.filter_sublist.map _)
  · exact (h5.sublist ((List.filter_sublist.map _))).sublist (List.filter_sublist.map _)

/-! ## What is read -/

/-- What is read from files that say `rs` are its records. -/
theorem dataOf_says (hL : L.Lawful) {rs : List LdifRecord} {recs : List (Option Entry)} (h : DataOf L rs recs) :
    Matched EntrySays rs (entriesIn recs) := by
  have single : ∀ (vars : List (Str × Str)) (start : UInt64) (text : Str), LdifSays text rs →
      parseLDIFFile L none vars start (some (.whole text)) = some recs → Matched EntrySays rs (entriesIn recs) := by
    intro vars start text h e
    obtain ⟨recs', h1, h2⟩ := C90_read_partial hL h
    have : parseLDIFFile L none vars start (some (.whole text)) = some recs' := h1
    rw [this] at e
    cases e
    exact h2
  cases h with
  | file vars start text _ _ h e => exact single vars start text h e
  | template run vars start text _ _ hrun h ht e =>
    obtain ⟨lines, h1, h2, h3, h4⟩ := ht
    refine single vars start text h ?_
    rw [← e]
    exact (C65_engine_partial hrun vars start h1 (hasLines_short h1 h2) h3 h4).symm
  | directory vars start read names files rs _ h hp hs e =>
    obtain ⟨files', recs', k1, k2, k3, k4⟩ := C72_entries_partial hL none vars start read names rs (by
      intro n hn hx
      obtain ⟨t, h1, h2⟩ := h n hn hx
      exact ⟨t, by rw [h1]; rfl, h2⟩)
    rw [k3] at e
    cases e
    have : files = files' := List.Perm.eq_of_pairwise (fun a b _ _ h1 h2 => strLe_antisymm (strLe_iff.2 h1) (strLe_iff.2 h2)) hs k2 (hp.trans k1.symm)
    rw [this]
    exact k4
  | templates run vars start read names files rs _ hrun h hp hs e =>
    obtain ⟨files', recs', k1, k2, k3, k4⟩ := C72_templates_partial hL hrun vars start read names rs h
    rw [k3] at e
    cases e
    have : files = files' := List.Perm.eq_of_pairwise (fun a b _ _ h1 h2 => strLe_antisymm (strLe_iff.2 h1) (strLe_iff.2 h2)) hs k2 (hp.trans k1.symm)
    rw [this]
    exact k4

theorem matched_mem_left {α β : Type} {R : α → β → Prop} {as : List α} {bs : List β} (h : Matched R as bs) : ∀ a ∈ as, ∃ b ∈ bs, R a b := by
  intro a ha
  obtain ⟨i, hi⟩ := List.mem_iff_getElem?.1 ha
  obtain ⟨b, hb, hr⟩ := matched_get h i a hi
  exact ⟨b, List.mem_of_getElem? hb, hr⟩

theorem matched_mem_right {α β : Type} {R : α → β → Prop} {as : List α} {bs : List β} (h : Matched R as bs) : ∀ b ∈ bs, ∃ a ∈ as, R a b := by
  induction h with
  | nil => intro b hb; cases hb
  | cons a b as bs h1 _ ih =>
    intro x hx
    rcases List.mem_cons.1 hx with rfl | hx
    · exact ⟨a, by simp, h1⟩
    · obtain ⟨y, hy, hr⟩ := ih x hx
      exact ⟨y, by simp [hy], hr⟩

theorem says_names {rs : List LdifRecord} {es : List Entry} (h : Matched EntrySays rs es) :
    es.map (fun e => C.lower e.dn) = rs.map fun r => C.lower r.dn := by
  induction h with
  | nil => rfl
  | cons r e rs es hr _ ih => rw [List.map_cons, List.map_cons, ih, hr.1]

theorem exists_left {α β : Type} {R : α → β → Prop} {as : List α} : ∀ bs : List β, (∀ b ∈ bs, ∃ a ∈ as, R a b) → ∃ l : List α, Matched R l bs ∧ ∀ a ∈ l, a ∈ as
  | [], _ => ⟨[], .nil, by simp⟩
  | b :: bs, h => by
    obtain ⟨l, h1, h2⟩ := exists_left bs fun x hx => h x (by simp [hx])
    obtain ⟨a, ha, hr⟩ := h b (by simp)
    exact ⟨a :: l, .cons _ _ _ _ hr h1, fun x hx => (List.mem_cons.1 hx).elim (fun e => e ▸ ha) (h2 x)⟩

end

section
variable {V : Env} {W : WalkOrd} {cfg : LdifCfg} {g : Nat} {stats : Bool} {L : LdifLib}

/-! ## C95 -/

/-- C95: what is read from LDIF files is loaded exactly if no two records have the same name up to case. -/
theorem C95_loads (hL : L.Lawful) {rs : List LdifRecord} {recs : List (Option Entry)} (hd : DataOf L rs recs) :
    (∃ m, treeFromLDIF V.C cfg.idx recs = some m) ↔ (rs.map fun r => V.C.lower r.dn).Nodup := by
  rw [(treeFromLDIF_spec V.C cfg.idx recs).1]
  rw [← says_names (C := V.C) (dataOf_says hL hd)]
  exact Iff.rfl

/-- C95 for filters with any number of substring components: as `C95_search_partial`, for what is left of the filter when all components but
the first are taken out of every substring filter. -/
theorem C95_search_first_partial (hC : V.C.Lawful) (hW : W.Lawful) (hL : L.Lawful) {rs : List LdifRecord} {recs older} (hd : DataOf L rs recs)
    {st : LdifSt} (h : LdifReach V W cfg g stats (recs :: older) st) (bound : Str) (hread : MayRead V.C cfg bound)
    (b : Str) (nb : DN) (hb : parseDN V.C b = some nb) (hbase : hasSuffix (V.C.lower b) cfg.base = true)
    (scope : Nat) (hs : scope ≤ 2) (hroot : scope = 1 → nb ≠ [])
    (hdn : ∀ r ∈ rs, TextTells V.C scope b r.dn)
    (f : Filter) (w : Packet) (hw : Wire f w) (hf : FilterOk f) (hsup : Supported f)
    (ends : Bool) (hlost : NoneLost V.C cfg.idx ends f = true)
    (hagree : ∀ r ∈ rs, CaseAgrees V.C (r.seen V.C) f ∧ (ends = true → EndsAgree V.C (r.seen V.C) f))
    (attrs : List Str) (hrep : NoRepeat V.C attrs) (o : Oracle) (id : Int) :
    ∃ (found : List LdifRecord) (sent : List Entry), found.Nodup ∧
      (∀ r, r ∈ found ↔ r ∈ rs ∧ TextInScope V.C scope b r.dn ∧ Sat V.C (fun _ _ => False) (r.seen V.C) (firstOnly f)) ∧
      Matched (SentFor V.C attrs) found sent ∧
      handlePacket V (ldifSrv V W cfg g stats) o (wMsg id (wSearch b scope 0 w attrs)) bound st =
        ⟨sent.map (.entry id) ++ [.searchDone id 0 (some [])], .go bound, st⟩ := by
  have hm := dataOf_says hL hd
  obtain ⟨⟨_, _, e, htree⟩, -⟩ := reach_inv hW h
  cases e
  have hnd := (C95_loads (V := V) (cfg := cfg) hL hd).1 ⟨_, htree⟩
  have hinj : ∀ r ∈ rs, ∀ r' ∈ rs, r.dn = r'.dn → r = r' := fun r hr r' hr' e => nodup_inj hnd r hr r' hr' (by rw [e])
  obtain ⟨found, f1, f2, f3⟩ := C39_search_first_partial (g := g) (stats := stats) hC hW h (fun _ _ => False) bound hread b nb hb hbase scope hs hroot
    (fun e he => by
      obtain ⟨r, hr, hre⟩ := matched_mem_right hm e he
      rw [hre.1]
      exact hdn r hr)
    f w hw hf hsup ends hlost
    (fun e he => by
      obtain ⟨r, hr, hre⟩ := matched_mem_right hm e he
      exact ⟨says_caseAgrees hre (hagree r hr).1, fun hx => says_endsAgree hre ((hagree r hr).2 hx)⟩)
    attrs hrep o id
  obtain ⟨rf, r1, r2⟩ := exists_left (R := EntrySays) (as := rs) found fun e he => matched_mem_right hm e ((f2 e).1 he).1
  refine ⟨rf, found.map fun e => reduced V.C attrs (publicView V.C e), ?_, fun r => ?_, ?_, ?_⟩
  · have := says_names (C := V.C) r1
    rw [this] at f1
    exact List.Pairwise.of_map (fun r => V.C.lower r.dn) (fun a b hab e => hab (by rw [e])) f1
  · constructor
    · intro hr
      obtain ⟨e, he, hre⟩ := matched_mem_left r1 r hr
      obtain ⟨-, g2, g3⟩ := (f2 e).1 he
      exact ⟨r2 r hr, hre.1 ▸ g2, (says_sat hre _ (firstOnly f) ((firstOnly_supported f).2 hsup)).1 g3⟩
    · rintro ⟨hr, g2, g3⟩
      obtain ⟨e, he, hre⟩ := matched_mem_left hm r hr
      have hef : e ∈ found := (f2 e).2 ⟨he, hre.1.symm ▸ g2, (says_sat hre _ (firstOnly f) ((firstOnly_supported f).2 hsup)).2 g3⟩
      obtain ⟨r', hr', hre'⟩ := matched_mem_right r1 e hef
      rw [hinj r hr r' (r2 r' hr') (by rw [← hre.1, hre'.1])]
      exact hr'
  · clear r2 f3 f2 f1
    induction r1 with
    | nil => exact .nil
    | cons r e rs es hre _ ih => exact .cons _ _ _ _ (says_sent hre attrs) ih
  · rw [f3, List.map_map]
    rfl

/-- C95: the data loaded last were read from LDIF files that say `rs`. A search is answered by the records that are in scope and satisfy the
filter, all of them and none twice, each with its name and the values asked for, in the order of the file and without passwords; then
success. The conditions on the client, the names and the filter are those of C39. -/
theorem C95_search_partial (hC : V.C.Lawful) (hW : W.Lawful) (hL : L.Lawful) {rs : List LdifRecord} {recs older} (hd : DataOf L rs recs)
    {st : LdifSt} (h : LdifReach V W cfg g stats (recs :: older) st) (bound : Str) (hread : MayRead V.C cfg bound)
    (b : Str) (nb : DN) (hb : parseDN V.C b = some nb) (hbase : hasSuffix (V.C.lower b) cfg.base = true)
    (scope : Nat) (hs : scope ≤ 2) (hroot : scope = 1 → nb ≠ [])
    (hdn : ∀ r ∈ rs, TextTells V.C scope b r.dn)
    (f : Filter) (w : Packet) (hw : Wire f w) (hf : FilterOk f) (h1 : OneComponent f) (hsup : Supported f)
    (ends : Bool) (hlost : NoneLost V.C cfg.idx ends f = true)
    (hagree : ∀ r ∈ rs, CaseAgrees V.C (r.seen V.C) f ∧ (ends = true → EndsAgree V.C (r.seen V.C) f))
    (attrs : List Str) (hrep : NoRepeat V.C attrs) (o : Oracle) (id : Int) :
    ∃ (found : List LdifRecord) (sent : List Entry), found.Nodup ∧
      (∀ r, r ∈ found ↔ r ∈ rs ∧ TextInScope V.C scope b r.dn ∧ Sat V.C (fun _ _ => False) (r.seen V.C) f) ∧
      Matched (SentFor V.C attrs) found sent ∧
      handlePacket V (ldifSrv V W cfg g stats) o (wMsg id (wSearch b scope 0 w attrs)) bound st =
        ⟨sent.map (.entry id) ++ [.searchDone id 0 (some [])], .go bound, st⟩ := by
  have := C95_search_first_partial (g := g) (stats := stats) hC hW hL hd h bound hread b nb hb hbase scope hs hroot hdn f w hw hf hsup ends hlost
    hagree attrs hrep o id
  rwa [firstOnly_id f h1] at this

theorem byteLe_refl (s : Str) : ByteLe s s := strLe_iff.1 (strLe_refl s)

theorem byteLe_antisymm {s t : Str} (h : ByteLe s t) (h' : ByteLe t s) : s = t := strLe_antisymm (strLe_iff.2 h) (strLe_iff.2 h')

/-- The values of an attribute of the entry of a record. -/
theorem says_vals {r : LdifRecord} {e : Entry} (h : EntrySays r e) {a : Attr} (ha : a ∈ e.attrs) : a.vals = r.under a.name := by
  have := h.2.1 a.name
  rw [typeValues_filter] at this
  rcases filter_name_le_one a.name h.2.2.1 with h0 | ⟨b, h0⟩
  · have := List.filter_eq_nil_iff.1 h0 a ha
    simp at this
  · have hb : a ∈ e.attrs.filter fun x => x.name = a.name := List.mem_filter.2 ⟨ha, by simp⟩
    rw [h0] at this hb
    have hab : a = b := by simpa using hb
    rw [hab] at this ⊢
    unfold LdifRecord.under
    rw [← this]
    simp

/-- Every type of a record is that of an attribute. -/
theorem says_type {r : LdifRecord} {e : Entry} (h : EntrySays r e) {t : Str} {v : Str} {more : List Str} (hu : r.under t = v :: more) :
    ∃ a ∈ e.attrs, a.name = t := by
  have : v ∈ r.under t := by rw [hu]; simp
  unfold LdifRecord.under at this
  obtain ⟨tv, h1, rfl⟩ := List.mem_map.1 this
  obtain ⟨h1, h2⟩ := List.mem_filter.1 h1
  obtain ⟨a, ha, e1, -⟩ := (says_mem (t := tv.1) (v := tv.2) h).2 h1
  exact ⟨a, ha, by rw [e1]; simpa using h2⟩

/-- Which password of a record is that of its entry. -/
theorem passwordOf_last {C : CaseEnv} {r : LdifRecord} {e : Entry} (h : EntrySays r e) (p : Str) :
    passwordOf C e = some p ↔ ∃ t more, C.lower t = b!"userpassword" ∧ r.under t = p :: more ∧
      ∀ tv ∈ r.values, C.lower tv.1 = b!"userpassword" → ByteLe tv.1 t := by
  have hsort : (e.attrs.filter fun a => C.lower a.name = b!"userpassword").Pairwise fun a b => ByteLe a.name b.name :=
    (List.pairwise_map.1 h.2.2.2.2).sublist List.filter_sublist
  have hlast : ∀ a, (e.attrs.filter fun a => C.lower a.name = b!"userpassword").getLast? = some a →
      (a ∈ e.attrs ∧ C.lower a.name = b!"userpassword") ∧ ∀ b ∈ e.attrs, C.lower b.name = b!"userpassword" → ByteLe b.name a.name := by
    intro a ha
    have hm := List.mem_of_getLast? ha
    refine ⟨by simpa using List.mem_filter.1 hm, fun b hb hl => ?_⟩
    have hbm : b ∈ e.attrs.filter fun a => C.lower a.name = b!"userpassword" := List.mem_filter.2 ⟨hb, by simpa using hl⟩
    obtain ⟨ys, hys⟩ := List.getLast?_eq_some_iff.1 ha
    rw [hys] at hbm hsort
    rcases List.mem_append.1 hbm with hbm | hbm
    · exact (List.pairwise_append.1 hsort).2.2 b hbm a (by simp)
    · rw [List.mem_singleton.1 hbm]; exact byteLe_refl _
  have hall : ∀ tv ∈ r.values, ∃ a ∈ e.attrs, a.name = tv.1 := fun tv htv => by
    obtain ⟨a, ha, e1, -⟩ := (says_mem (t := tv.1) (v := tv.2) h).2 htv
    exact ⟨a, ha, e1⟩
  unfold passwordOf
  constructor
  · intro hp
    obtain ⟨a, ha, hv⟩ := Option.bind_eq_some_iff.1 hp
    obtain ⟨⟨h1, h2⟩, h3⟩ := hlast a ha
    cases hvs : a.vals with
    | nil => rw [hvs] at hv; cases hv
    | cons x more =>
      rw [hvs] at hv
      cases hv
      refine ⟨a.name, more, h2, by rw [← says_vals h h1, hvs], fun tv htv hl => ?_⟩
      obtain ⟨b, hb, e1⟩ := hall tv htv
      rw [← e1] at hl ⊢
      exact h3 b hb hl
  · rintro ⟨t, more, h1, h2, h3⟩
    obtain ⟨a, ha, rfl⟩ := says_type h h2
    cases hg : (e.attrs.filter fun a => C.lower a.name = b!"userpassword").getLast? with
    | none =>
      have : a ∈ e.attrs.filter fun a => C.lower a.name = b!"userpassword" := List.mem_filter.2 ⟨ha, by simpa using h1⟩
      rw [List.getLast?_eq_none_iff.1 hg] at this
      cases this
    | some b =>
      obtain ⟨⟨k1, k2⟩, k3⟩ := hlast b hg
      obtain ⟨v, hv⟩ := List.exists_mem_of_ne_nil _ (h.2.2.2.1 b k1)
      have e1 : b.name = a.name := byteLe_antisymm (h3 _ ((says_mem h).1 ⟨b, k1, rfl, hv⟩) k2) (k3 a ha h1)
      rw [Option.bind_some, says_vals h k1, e1, h2]
      rfl

theorem opens_last {C : CaseEnv} {K : CryptoEnv} {r : LdifRecord} {e : Entry} (h : EntrySays r e) (pw : Str) : Opens C K e pw ↔ r.opensLast C K pw := by
  unfold Opens LdifRecord.opensLast
  constructor
  · rintro ⟨p, hp, hv⟩
    obtain ⟨t, more, h1, h2, h3⟩ := (passwordOf_last h p).1 hp
    exact ⟨t, p, more, h1, h2, h3, hv⟩
  · rintro ⟨t, p, more, h1, h2, h3, hv⟩
    exact ⟨p, (passwordOf_last h p).2 ⟨t, more, h1, h2, h3⟩, hv⟩

/-- The password of the entry of a record. -/
theorem passwordOf_says {C : CaseEnv} {r : LdifRecord} {e : Entry} (h : EntrySays r e) (h1 : OneSpelling C r) :
    passwordOf C e = ((r.values.filter fun tv => C.lower tv.1 = b!"userpassword").head?).map (·.2) := by
  cases hv : r.values.filter fun tv => C.lower tv.1 = b!"userpassword" with
  | nil =>
    have : (e.attrs.filter fun a => C.lower a.name = b!"userpassword") = [] := by
      rw [List.filter_eq_nil_iff]
      intro a ha hx
      obtain ⟨v, hv'⟩ := List.exists_mem_of_ne_nil _ (h.2.2.2.1 a ha)
      have := List.filter_eq_nil_iff.1 hv (a.name, v) ((says_mem h).1 ⟨a, ha, rfl, hv'⟩)
      exact this hx
    unfold passwordOf
    rw [this]
    rfl
  | cons x rest =>
    obtain ⟨t, p⟩ := x
    have hx : (t, p) ∈ r.values.filter fun tv => C.lower tv.1 = b!"userpassword" := by rw [hv]; simp
    obtain ⟨hx1, hx2⟩ := List.mem_filter.1 hx
    have hx2 : C.lower t = b!"userpassword" := by simpa using hx2
    have hsame : ∀ tv ∈ r.values, (C.lower tv.1 = b!"userpassword" ↔ tv.1 = t) :=
      fun tv htv => ⟨fun hl => h1 tv htv (t, p) hx1 hl hx2, fun e => by rw [e]; exact hx2⟩
    have hfil : (e.attrs.filter fun a => C.lower a.name = b!"userpassword") = e.attrs.filter fun a => a.name = t := by
      refine List.filter_congr fun a ha => ?_
      obtain ⟨v, hv'⟩ := List.exists_mem_of_ne_nil _ (h.2.2.2.1 a ha)
      simp only [hsame _ ((says_mem h).1 ⟨a, ha, rfl, hv'⟩)]
    have hfil' : (r.values.filter fun tv => C.lower tv.1 = b!"userpassword") = r.values.filter fun tv => tv.1 = t := by
      refine List.filter_congr fun tv htv => ?_
      simp only [hsame tv htv]
    have ht := h.2.1 t
    rw [← hfil', hv, typeValues_filter] at ht
    unfold passwordOf
    rw [hfil]
    rcases filter_name_le_one t h.2.2.1 with h0 | ⟨a, h0⟩
    · rw [h0] at ht; cases ht
    · rw [h0] at ht ⊢
      simp at ht
      simp [ht]

/-- C95: the data loaded last were read from LDIF files that say `rs`, and no config file is used. A bind as a name with a password succeeds
exactly if the name ends in the base and there is a record of that name (up to case) whose password the given one matches: if userPassword is
written in several ways, the way that comes last in the order of bytes counts, and the first value written in that way. Otherwise the bind is
refused and the connection keeps its identity. -/
theorem C95_bind (hconf : cfg.conf = false) (hW : W.Lawful) (hL : L.Lawful) {rs : List LdifRecord} {recs older}
    (hd : DataOf L rs recs) {st : LdifSt} (h : LdifReach V W cfg g stats (recs :: older) st)
    (dn name pw : Str) (hdn : V.C.lower dn ≠ []) (hname : parseNormalize V.C dn = some name)
    (hpw : pw ≠ []) (o : Oracle) (id : Int) (bound : Str) :
    let out := handlePacket V (ldifSrv V W cfg g stats) o (wMsg id (wBind dn pw)) bound st
    let accepted := cfg.base <:+ V.C.lower dn ∧ ∃ r ∈ rs, V.C.lower r.dn = V.C.lower dn ∧ r.opensLast V.C V.K pw
    (accepted → out.resps = [.result id 1 0] ∧ out.next = .go name) ∧
    (¬ accepted → ∃ code, code ≠ 0 ∧ out.resps = [.result id 1 code] ∧ out.next = .go bound) := by
  intro out accepted
  have hm := dataOf_says hL hd
  have hmay : LdifMayBind V.C V.K cfg recs dn pw ↔ accepted := by
    rw [C44_named hdn, hasSuffix_iff]
    simp only [hpw, ne_eq, not_false_eq_true, true_and]
    refine and_congr_right fun _ => ?_
    constructor
    · rintro ⟨e, he, hl, ho⟩
      obtain ⟨r, hr, hre⟩ := matched_mem_right hm e he
      exact ⟨r, hr, by rw [← hre.1]; exact hl, (opens_last hre pw).1 ho⟩
    · rintro ⟨r, hr, hl, ho⟩
      obtain ⟨e, he, hre⟩ := matched_mem_left hm r hr
      exact ⟨e, he, by rw [hre.1]; exact hl, (opens_last hre pw).2 ho⟩
  obtain ⟨-, k1, -, k3⟩ := C44_bind_exact hconf hW h o id bound dn pw
  exact ⟨fun ha => k1 (hmay.2 ha) name hname, fun ha => k3 fun hm => ha (hmay.1 hm)⟩

/-- C95: the data loaded last were read from LDIF files that say `rs`, and no config file is used. A bind as a name below the base with a
password succeeds exactly if there is a record of that name (up to case) whose first password the given one matches; otherwise it is refused
and the connection keeps its identity. (Missing: records in which userPassword is written in more than one way, see `C95_bind`.) -/
theorem C95_bind_partial (hconf : cfg.conf = false) (hW : W.Lawful) (hL : L.Lawful) {rs : List LdifRecord} {recs older}
    (hd : DataOf L rs recs) {st : LdifSt} (h : LdifReach V W cfg g stats (recs :: older) st) (hone : ∀ r ∈ rs, OneSpelling V.C r)
    (dn name pw : Str) (hdn : V.C.lower dn ≠ []) (hbase : hasSuffix (V.C.lower dn) cfg.base = true) (hname : parseNormalize V.C dn = some name)
    (hpw : pw ≠ []) (o : Oracle) (id : Int) (bound : Str) :
    let out := handlePacket V (ldifSrv V W cfg g stats) o (wMsg id (wBind dn pw)) bound st
    let accepted := ∃ r ∈ rs, V.C.lower r.dn = V.C.lower dn ∧ r.opens V.C V.K pw
    (accepted → out.resps = [.result id 1 0] ∧ out.next = .go name) ∧
    (¬ accepted → ∃ code, code ≠ 0 ∧ out.resps = [.result id 1 code] ∧ out.next = .go bound) := by
  intro out accepted
  have hm := dataOf_says hL hd
  have hop : ∀ r ∈ rs, ∀ e, EntrySays r e → (Opens V.C V.K e pw ↔ r.opens V.C V.K pw) := by
    intro r hr e hre
    unfold Opens LdifRecord.opens
    rw [passwordOf_says hre (hone r hr)]
    constructor
    · rintro ⟨p, hp, hv⟩
      cases hl : r.values.filter (fun tv => V.C.lower tv.1 = b!"userpassword") with
      | nil => rw [hl] at hp; cases hp
      | cons x rest => rw [hl] at hp; cases hp; exact ⟨x.1, x.2, rest, rfl, hv⟩
    · rintro ⟨t, p, rest, hl, hv⟩
      exact ⟨p, by rw [hl]; rfl, hv⟩
  have hmay : LdifMayBind V.C V.K cfg recs dn pw ↔ accepted := by
    rw [C44_named hdn]
    simp only [hbase, hpw, ne_eq, not_false_eq_true, true_and]
    constructor
    · rintro ⟨e, he, hl, ho⟩
      obtain ⟨r, hr, hre⟩ := matched_mem_right hm e he
      exact ⟨r, hr, by rw [← hre.1]; exact hl, (hop r hr e hre).1 ho⟩
    · rintro ⟨r, hr, hl, ho⟩
      obtain ⟨e, he, hre⟩ := matched_mem_left hm r hr
      exact ⟨e, he, by rw [hre.1]; exact hl, (hop r hr e hre).2 ho⟩
  obtain ⟨-, k1, -, k3⟩ := C44_bind_exact hconf hW h o id bound dn pw
  exact ⟨fun ha => k1 (hmay.2 ha) name hname, fun ha => k3 fun hm => ha (hmay.1 hm)⟩

end

/-! ## Examples -/

/-- The lines of an LDIF file: a base entry and a user, with a value in base64, a folded line and a password. -/
def svLines : List Str :=
  [b!"# the base", b!"dn: dc=lg", b!"dc: lg", [], b!"dn: uid=Bob,d", b!" c=lg", b!"uid: Bob", b!"cn:: Qm9i", b!"userPassword: secret", b!"cn: Robert"]

def svText : Str := b!"# the base\ndn: dc=lg\ndc: lg\n\ndn: uid=Bob,d\n c=lg\nuid: Bob\ncn:: Qm9i\nuserPassword: secret\ncn: Robert\n"

def svRecords : List LdifRecord := [⟨b!"dc=lg", [(b!"dc", b!"lg")]⟩,
  ⟨b!"uid=Bob,dc=lg", [(b!"uid", b!"Bob"), (b!"cn", b!"Bob"), (b!"userPassword", b!"secret"), (b!"cn", b!"Robert")]⟩]

theorem svText_body : LdifBody svText svRecords := by
  refine ⟨svLines, [[b!"dn: dc=lg", b!"dc: lg"], [b!"dn: uid=Bob,dc=lg", b!"uid: Bob", b!"cn:: Qm9i", b!"userPassword: secret", b!"cn: Robert"]],
    hasLines_lf svLines (by decide), ?_, ?_⟩
  · refine .record _ [b!"# the base", b!"dn: dc=lg", b!"dc: lg"] _ [b!"dn: uid=Bob,d", b!" c=lg", b!"uid: Bob", b!"cn:: Qm9i", b!"userPassword: secret",
      b!"cn: Robert"] (by simp) ?_ (.last _ _ (by simp) ?_)
    · exact .comment b!" the base" [] _ _ (.line _ [b!"dn: dc=lg"] _ _ ⟨_, [], rfl, rfl, by decide⟩
        (.line _ [b!"dc: lg"] [] [] ⟨_, [], rfl, rfl, by decide⟩ .done))
    · exact .line _ [b!"dn: uid=Bob,d", b!" c=lg"] _ _ ⟨b!"dn: uid=Bob,d", [b!"c=lg"], rfl, rfl, by decide⟩
        (.line _ [b!"uid: Bob"] _ _ ⟨_, [], rfl, rfl, by decide⟩ (.line _ [b!"cn:: Qm9i"] _ _ ⟨_, [], rfl, rfl, by decide⟩
        (.line _ [b!"userPassword: secret"] _ _ ⟨_, [], rfl, rfl, by decide⟩ (.line _ [b!"cn: Robert"] [] [] ⟨_, [], rfl, rfl, by decide⟩ .done))))
  · exact (.cons _ _ _ _ (.mk _ _ _ (.plain b!"dn" b!"dc=lg" 1 (by decide) (by decide)) (by simp)
        (.cons _ _ _ _ ⟨.plain b!"dc" b!"lg" 1 (by decide) (by decide), by decide, by decide, by decide⟩ .nil))
      (.cons _ _ _ _ (.mk _ _ _ (.plain b!"dn" b!"uid=Bob,dc=lg" 1 (by decide) (by decide)) (by simp)
        (.cons _ _ _ _ ⟨.plain b!"uid" b!"Bob" 1 (by decide) (by decide), by decide, by decide, by decide⟩
        (.cons _ _ _ _ ⟨.base64 b!"cn" b!"Bob" 1, by decide, by decide, by decide⟩
        (.cons _ _ _ _ ⟨.plain b!"userPassword" b!"secret" 1 (by decide) (by decide), by decide, by decide, by decide⟩
        (.cons _ _ _ _ ⟨.plain b!"cn" b!"Robert" 1 (by decide) (by decide), by decide, by decide, by decide⟩ .nil))))) .nil))

theorem svText_says : LdifSays svText svRecords := by
  obtain ⟨lines, recs, h1, h2, h3⟩ := svText_body
  exact ⟨lines, recs, h1, h2, .plain _ _ h3⟩

/-- What is read from it. -/
def svRecs : List (Option Entry) := [some ⟨b!"dc=lg", [⟨b!"dc", [b!"lg"]⟩]⟩,
  some ⟨b!"uid=Bob,dc=lg", [⟨b!"cn", [b!"Bob", b!"Robert"]⟩, ⟨b!"uid", [b!"Bob"]⟩, ⟨b!"userPassword", [b!"secret"]⟩]⟩]

theorem svData : DataOf goLdif svRecords svRecs := .file [] 0 svText _ _ svText_says (by decide +kernel)

theorem svText_plain : PlainTemplate svText := ⟨svLines, hasLines_lf svLines (by decide), by decide, by decide, by decide +kernel⟩

/-- as a template, with an engine that leaves everything as it is -/
example : DataOf goLdif svRecords svRecs :=
  .template (fun _ _ t => some t) [] 0 svText _ _ (fun _ _ _ _ => rfl) svText_says svText_plain (by decide +kernel)

/-- a directory with one LDIF file -/
example : DataOf goLdif svRecords svRecs :=
  .directory [] 0 (fun n => if n = b!"a.ldif" then some (.whole svText) else none) [b!"readme", b!"a.ldif"] [b!"a.ldif"] (fun _ => svRecords) _
    (by
      intro n hn hx
      have : n = b!"a.ldif" := by
        simp at hn
        rcases hn with rfl | rfl
        · exact absurd hx (by decide)
        · rfl
      subst this
      exact ⟨svText, rfl, svText_body⟩)
    (by decide) (by decide) (by decide +kernel)

/-- the same with the template engine -/
example : DataOf goLdif svRecords svRecs :=
  .templates (fun _ _ t => some t) [] 0 (fun n => if n = b!"a.ldif" then some (.whole svText) else none) [b!"readme", b!"a.ldif"] [b!"a.ldif"]
    (fun _ => svRecords) _ (fun _ _ _ _ => rfl)
    (by
      intro n hn hx
      have : n = b!"a.ldif" := by
        simp at hn
        rcases hn with rfl | rfl
        · exact absurd hx (by decide)
        · rfl
      subst this
      exact ⟨svText, rfl, svText_body, svText_plain⟩)
    (by decide) (by decide) (by decide +kernel)

theorem sv_reach : LdifReach ldEnv ldOrd { ldCfg with conf := false } 8 false [svRecs] (ldStart svRecs) :=
  .start _ _ _ _ _ _ (ldMemI_loads (by decide +kernel))

/-- The names of the file. -/
theorem sv_plain : ∀ r ∈ svRecords, TextTells asciiCase 2 b!"dc=lg" r.dn := by
  simp only [svRecords, List.forall_mem_cons, List.not_mem_nil, false_implies, implies_true, and_true]
  have hb : PlainDN asciiCase b!"dc=lg" [⟨b!"dc", b!"lg"⟩] := by decide +kernel
  exact ⟨C39_plain_names asciiCase_lawful hb (by simp) (ns := [⟨b!"dc", b!"lg"⟩]) (by decide +kernel) (by decide +kernel) 2 (by decide +kernel),
    C39_plain_names asciiCase_lawful hb (by simp) (ns := [⟨b!"uid", b!"Bob"⟩, ⟨b!"dc", b!"lg"⟩]) (by decide +kernel) (by decide +kernel) 2 (by decide +kernel)⟩

/-- C95 applies to a search for `(cn=robert)` -/
example := C95_search_partial (V := ldEnv) asciiCase_lawful ldOrd_lawful goLdif_lawful svData sv_reach [] (Or.inl ⟨rfl, rfl, rfl⟩)
  b!"dc=lg" [[⟨b!"dc", b!"lg"⟩]] (by decide +kernel) (by decide +kernel) 2 (by omega) (by decide) sv_plain (.eq b!"cn" b!"robert") _ (wEq_wire _ _)
  (by decide +kernel : AttrText b!"cn") trivial trivial false (by decide +kernel) (fun r _ => ⟨ascii_agrees _ _, fun h => by cases h⟩) [b!"cn"]
  (by decide +kernel) toyOracle 7

/-- its answer -/
example : (handlePacket ldEnv (ldifSrv ldEnv ldOrd { ldCfg with conf := false } 8 false) toyOracle
      (wMsg 7 (wSearch b!"dc=lg" 2 0 (wEq b!"cn" b!"robert") [b!"cn"])) [] (ldStart svRecs)).resps =
    [.entry 7 ⟨b!"uid=bob,dc=lg", [⟨b!"cn", [b!"Bob", b!"Robert"]⟩]⟩, .searchDone 7 0 (some [])] := by decide +kernel

/-- C95 applies to a bind as the user -/
example := C95_bind_partial (V := ldEnv) rfl ldOrd_lawful goLdif_lawful svData sv_reach (by decide +kernel) b!"UID=bob,dc=lg" b!"uid=bob,dc=lg" b!"secret"
  (by decide +kernel) (by decide +kernel) (by decide +kernel) (by decide) toyOracle 7 []

example := C95_bind (V := ldEnv) rfl ldOrd_lawful goLdif_lawful svData sv_reach b!"UID=bob,dc=lg" b!"uid=bob,dc=lg" b!"secret"
  (by decide +kernel) (by decide +kernel) (by decide) toyOracle 7 []

/-- the record is opened by its password and by no other -/
example : (svRecords.map fun r => r.values.filter fun tv => asciiCase.lower tv.1 = b!"userpassword") = [[], [(b!"userPassword", b!"secret")]] ∧
    validatePw asciiCase toyCrypto b!"secret" b!"secret" = .ok true ∧ validatePw asciiCase toyCrypto b!"other" b!"secret" ≠ .ok true := by decide +kernel

/-! ## A counterexample -/

/-- C95 is false of records with two spellings of userPassword: the first password in the file is not accepted, the other one is. -/
theorem C95_spelling_fails : ∃ (rs : List LdifRecord) (recs : List (Option Entry)) (r : LdifRecord), DataOf goLdif rs recs ∧ r ∈ rs ∧
    r.dn = b!"dc=lg" ∧ r.opens asciiCase toyCrypto b!"a" ∧
    LdifReach ldEnv ldOrd { ldCfg with conf := false } 8 false [recs] (ldStart recs) ∧
    let bind := fun pw => (handlePacket ldEnv (ldifSrv ldEnv ldOrd { ldCfg with conf := false } 8 false) toyOracle (wMsg 7 (wBind b!"dc=lg" pw)) []
      (ldStart recs)).resps
    bind b!"a" = [.result 7 1 49] ∧ bind b!"b" = [.result 7 1 0] := by
  refine ⟨[⟨b!"dc=lg", [(b!"userPassword", b!"a"), (b!"userpassword", b!"b")]⟩],
    [some ⟨b!"dc=lg", [⟨b!"userPassword", [b!"a"]⟩, ⟨b!"userpassword", [b!"b"]⟩]⟩], _, ?_, List.mem_singleton_self _, rfl, ?_,
    .start _ _ _ _ _ _ (ldMemI_loads (by decide +kernel)), by decide +kernel, by decide +kernel⟩
  · refine .file [] 0 b!"dn: dc=lg\nuserPassword: a\nuserpassword: b\n" _ _ ⟨[b!"dn: dc=lg", b!"userPassword: a", b!"userpassword: b"],
      [[b!"dn: dc=lg", b!"userPassword: a", b!"userpassword: b"]], hasLines_lf [b!"dn: dc=lg", b!"userPassword: a", b!"userpassword: b"] (by decide), ?_, ?_⟩
      (by decide +kernel)
    · exact .last _ _ (by simp) (.line _ [b!"dn: dc=lg"] _ _ ⟨_, [], rfl, rfl, by decide⟩ (.line _ [b!"userPassword: a"] _ _ ⟨_, [], rfl, rfl, by decide⟩
        (.line _ [b!"userpassword: b"] [] [] ⟨_, [], rfl, rfl, by decide⟩ .done)))
    · exact .plain _ _ (.cons _ _ _ _ (.mk _ _ _ (.plain b!"dn" b!"dc=lg" 1 (by decide) (by decide)) (by simp)
        (.cons _ _ _ _ ⟨.plain b!"userPassword" b!"a" 1 (by decide) (by decide), by decide, by decide, by decide⟩
        (.cons _ _ _ _ ⟨.plain b!"userpassword" b!"b" 1 (by decide) (by decide), by decide, by decide, by decide⟩ .nil))) .nil)
  · exact ⟨b!"userPassword", b!"a", [(b!"userpassword", b!"b")], by decide +kernel, by decide +kernel⟩

end Idm
