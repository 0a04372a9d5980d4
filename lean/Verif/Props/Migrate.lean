import Verif.Spec.Migrate
import Verif.Props.Launch
import Verif.Props.Load
import Verif.Props.BoltFind
import Verif.Props.BoltBind
import Verif.Props.BoltLife
/-!
# C109: a directory that is moved from the database to an LDIF file
-/
namespace Idm

section
variable {C : CaseEnv}

theorem mem_splitOn {sep : UInt8} : ∀ {s : Str} {c : UInt8}, c ∈ s → c ≠ sep → ∃ p ∈ splitOn sep s, c ∈ p := by
  intro s
  induction s with
  | nil => simp
  | cons d s ih =>
    intro c hc hne
    by_cases hd : d = sep
    · subst hd
      rw [splitOn_cons_sep]
      rcases List.mem_cons.1 hc with rfl | hc
      · exact absurd rfl hne
      · obtain ⟨p, hp, hcp⟩ := ih hc hne
        exact ⟨p, by simp [hp], hcp⟩
    · obtain ⟨q, qs, hs, e⟩ := splitOn_cons_ne hd s
      rw [e]
      rcases List.mem_cons.1 hc with rfl | hc
      · exact ⟨_, List.mem_cons_self, by simp⟩
      · obtain ⟨p, hp, hcp⟩ := ih hc hne
        rw [hs] at hp
        rcases List.mem_cons.1 hp with rfl | hp
        · exact ⟨_, List.mem_cons_self, by simp [hcp]⟩
        · exact ⟨p, by simp [hp], hcp⟩

theorem ldifType_ascii {t : Str} (h : ldifType t = true) : IsAscii t := by
  intro c hc
  simp only [ldifType, Bool.or_eq_true] at h
  rcases h with h | h
  · cases t with
    | nil => simp at hc
    | cons d r =>
      simp only [Bool.and_eq_true, Bool.or_eq_true, List.all_eq_true, decide_eq_true_eq] at h
      have key : ∀ c : UInt8, ((((65 ≤ c ∧ c ≤ 90) ∨ 97 ≤ c ∧ c ≤ 122) ∨ 48 ≤ c ∧ c ≤ 57) ∨ c = 45) ∨ c = 59 → c < 128 := by decide +kernel
      rcases List.mem_cons.1 hc with rfl | hc
      · exact key _ (Or.inl (Or.inl (Or.inl h.1)))
      · exact key _ (h.2 c hc)
  · by_cases hd : c = 46
    · subst hd; decide
    · obtain ⟨p, hp, hcp⟩ := mem_splitOn hc hd
      have := List.all_eq_true.1 h p hp
      simp only [Bool.and_eq_true, List.all_eq_true, decide_eq_true_eq] at this
      have key : ∀ c : UInt8, 48 ≤ c ∧ c ≤ 57 → c < 128 := by decide +kernel
      exact key c (this.2 c hcp)

theorem isPassword_iff (hC : C.Lawful) {t : Str} (h : ldifType t = true) : C.eqFold b!"userPassword" t = true ↔ C.lower t = b!"userpassword" := by
  rw [hC.eqFold_ascii _ _ (by decide +kernel : IsAscii b!"userPassword") (ldifType_ascii h), lower_ascii hC (ldifType_ascii h)]
  rw [show (b!"userPassword").map lowerByte = b!"userpassword" by decide +kernel]
  exact ⟨Eq.symm, Eq.symm⟩

theorem mem_recordOf {e : Entry} {t v : Str} : (t, v) ∈ (recordOf e).values ↔ ∃ a ∈ e.attrs, a.name = t ∧ v ∈ a.vals := by
  simp only [recordOf, List.mem_flatMap, List.mem_map, Prod.mk.injEq]
  exact ⟨fun ⟨a, ha, w, hw, h1, h2⟩ => ⟨a, ha, h1, h2 ▸ hw⟩, fun ⟨a, ha, h1, h2⟩ => ⟨a, ha, v, h2, h1, rfl⟩⟩

theorem under_recordOf (e : Entry) (t : Str) : (recordOf e).under t = typeValues t e.attrs := by
  obtain ⟨-, h⟩ := readBack_same e
  rw [h t, readBack, (gather_spec _ [] List.Pairwise.nil (by simp)).2.2 t]
  simp [LdifRecord.under, typeValues]

theorem moved_pairs (hC : C.Lawful) {e : Entry} (hw : Writable e) {a : Str} (ha : C.eqFold b!"userPassword" a = false) (Q : Str → Prop) :
    (∃ x ∈ e.attrs, ∃ v ∈ x.vals, C.eqFold x.name a = true ∧ Q v) ↔
      ∃ x ∈ ((recordOf e).seen C).attrs, ∃ v ∈ x.vals, C.eqFold x.name a = true ∧ Q v := by
  constructor
  · rintro ⟨x, hx, v, hv, h1, h2⟩
    refine ⟨⟨x.name, [v]⟩, List.mem_map.2 ⟨(x.name, v), List.mem_filter.2 ⟨mem_recordOf.2 ⟨x, hx, rfl, hv⟩, ?_⟩, rfl⟩, v, by simp, h1, h2⟩
    simp only [ne_eq, decide_not, Bool.not_eq_true', decide_eq_false_iff_not]
    intro hl
    have := (isPassword_iff hC (hw.2.2 x hx v hv).1).2 hl
    rw [hC.eqFold_trans _ _ _ this h1] at ha
    cases ha
  · rintro ⟨x, hx, v, hv, h1, h2⟩
    obtain ⟨⟨t, u⟩, h3, rfl⟩ := List.mem_map.1 hx
    obtain rfl : v = u := by simpa using hv
    obtain ⟨b, hb, rfl, hb2⟩ := mem_recordOf.1 (List.mem_filter.1 h3).1
    exact ⟨b, hb, v, hb2, h1, h2⟩

mutual
/-- An entry whose attributes have values satisfies a filter that is not about passwords exactly if what is shown of its record does. -/
theorem moved_sat (hC : C.Lawful) {e : Entry} (hw : Writable e) (hv : ∀ a ∈ e.attrs, a.vals ≠ []) (u : Filter → Entry → Prop) :
    ∀ f, Supported f → (∀ a ∈ filterTypes f, C.eqFold b!"userPassword" a = false) → (Sat C u e f ↔ Sat C u ((recordOf e).seen C) f)
  | .and fs, hs, hn => by rw [Sat, Sat]; exact moved_satAll hC hw hv u fs hs hn
  | .or fs, hs, hn => by rw [Sat, Sat]; exact moved_satAny hC hw hv u fs hs hn
  | .not f, hs, hn => by rw [Sat, Sat, moved_sat hC hw hv u f hs hn]
  | .eq a v, _, hn => by
    rw [Sat, Sat, attr_vals _ (fun n => C.eqFold n a = true), attr_vals _ (fun n => C.eqFold n a = true)]
    exact moved_pairs hC hw (hn a (by simp [filterTypes])) fun w => C.eqFold w v = true
  | .sub a i m f, _, hn => by
    rw [Sat, Sat, attr_vals _ (fun n => C.eqFold n a = true), attr_vals _ (fun n => C.eqFold n a = true)]
    exact moved_pairs hC hw (hn a (by simp [filterTypes])) fun w => MatchSub (i.map C.fold) (m.map C.fold) (f.map C.fold) (C.fold w)
  | .present a, _, hn => by
    rw [Sat, Sat, names_pairs hv fun n => C.eqFold n a = true, names_pairs (seen_vals _) fun n => C.eqFold n a = true]
    have := moved_pairs hC hw (hn a (by simp [filterTypes])) fun _ => True
    simpa only [and_true] using this
  | .cmp .., hs, _ => hs.elim
  | .ext .., hs, _ => hs.elim
theorem moved_satAll (hC : C.Lawful) {e : Entry} (hw : Writable e) (hv : ∀ a ∈ e.attrs, a.vals ≠ []) (u : Filter → Entry → Prop) :
    ∀ fs, SupportedAll fs → (∀ a ∈ filterTypesAll fs, C.eqFold b!"userPassword" a = false) → (SatAll C u e fs ↔ SatAll C u ((recordOf e).seen C) fs)
  | [], _, _ => Iff.rfl
  | f :: fs, hs, hn => by
    rw [SatAll, SatAll, moved_sat hC hw hv u f hs.1 fun a ha => hn a (by simp [filterTypesAll, ha]),
      moved_satAll hC hw hv u fs hs.2 fun a ha => hn a (by simp [filterTypesAll, ha])]
theorem moved_satAny (hC : C.Lawful) {e : Entry} (hw : Writable e) (hv : ∀ a ∈ e.attrs, a.vals ≠ []) (u : Filter → Entry → Prop) :
    ∀ fs, SupportedAll fs → (∀ a ∈ filterTypesAll fs, C.eqFold b!"userPassword" a = false) → (SatAny C u e fs ↔ SatAny C u ((recordOf e).seen C) fs)
  | [], _, _ => Iff.rfl
  | f :: fs, hs, hn => by
    rw [SatAny, SatAny, moved_sat hC hw hv u f hs.1 fun a ha => hn a (by simp [filterTypesAll, ha]),
      moved_satAny hC hw hv u fs hs.2 fun a ha => hn a (by simp [filterTypesAll, ha])]
end

/-! ## Scope -/

theorem foldDN_of_sameDn {p q : DN} (hb : CaseBoth C p q) (hone : ∀ r ∈ q, r.length = 1) (h : SameDn C p q) : foldDN C p = foldDN C q := by
  induction p generalizing q with
  | nil =>
    cases q with
    | nil => rfl
    | cons s q => exact absurd h.1 (by simp)
  | cons r p ih =>
    cases q with
    | nil => exact absurd h.1 (by simp)
    | cons s q =>
      obtain ⟨h1, h2⟩ := h
      have hrs := h2 0 r s rfl rfl
      have ih' := ih (q := q) (fun r' hr' a ha s' hs' b hb' => hb r' (by simp [hr']) a ha s' (by simp [hs']) b hb') (fun r' hr' => hone r' (by simp [hr']))
        ⟨by simpa using h1, fun i r' s' hr' hs' => h2 (i + 1) r' s' (by simpa using hr') (by simpa using hs')⟩
      have hs1 := hone s (by simp)
      obtain ⟨k1, k2, -⟩ := hrs
      match s, hs1 with
      | [b], _ =>
        match r, k1 with
        | [a], _ =>
          obtain ⟨b', hb', e1, e2⟩ := k2 a (by simp)
          obtain rfl : b' = b := by simpa using hb'
          obtain ⟨g1, g2⟩ := hb [a] (by simp) a (by simp) [b'] (by simp) b' (by simp)
          simp only [foldDN, List.map_cons, List.map_nil] at ih' ⊢
          rw [ih', g1.2 e1, g2.2 e2]

theorem caseSame_of_both {p q : DN} (hb : CaseBoth C p q) : CaseSame C p q :=
  fun r hr a ha s hs b hb' => ⟨(hb r hr a ha s hs b hb').1.1, (hb r hr a ha s hs b hb').2.1⟩

/-- Both ways to tell what is in scope agree. -/
theorem scope_both (hC : C.Lawful) {scope : Nat} {b dn : Str} {nb nm : DN} (hb : parseDN C b = some nb) (hd : parseDN C dn = some nm)
    (hcase : CaseBoth C nm nb) (hone : ∀ r ∈ nb, r.length = 1) : TextInScope C scope b dn ↔ InScope scope (foldDN C nb) (foldDN C nm) := by
  have htext : TextInScope C scope b dn ↔ InScopeFold C scope nb nm :=
    ⟨fun ⟨_, _, h1, h2, h⟩ => by rw [hb] at h1; rw [hd] at h2; cases h1; cases h2; exact h, fun h => ⟨nb, nm, hb, hd, h⟩⟩
  rw [htext]
  constructor
  · rintro (⟨rfl, h⟩ | ⟨rfl, r, p, rfl, h⟩ | ⟨rfl, q, p, rfl, h⟩)
    · exact Or.inl ⟨rfl, foldDN_of_sameDn hcase hone h⟩
    · refine Or.inr (Or.inl ⟨rfl, (foldDN C (r :: p)).headD [], ?_⟩)
      · rw [← foldDN_of_sameDn (fun r' hr' => hcase r' (by simp [hr'])) hone h]
        rfl
    · refine Or.inr (Or.inr ⟨rfl, foldDN C q, ?_⟩)
      rw [← foldDN_of_sameDn (fun r' hr' => hcase r' (by simp [hr'])) hone h]
      simp [foldDN]
  · rintro (⟨rfl, h⟩ | ⟨rfl, r, h⟩ | ⟨rfl, p, h⟩)
    · exact Or.inl ⟨rfl, sameDn_of_fold hC (caseSame_of_both hcase) h⟩
    · cases nm with
      | nil => simp [foldDN] at h
      | cons r0 p =>
        simp only [foldDN, List.map_cons, List.cons.injEq] at h
        exact Or.inr (Or.inl ⟨rfl, r0, p, rfl, sameDn_of_fold hC (fun x hx => caseSame_of_both hcase x (by simp [hx])) h.2⟩)
    · refine Or.inr (Or.inr ⟨rfl, nm.take p.length, nm.drop p.length, (List.take_append_drop _ _).symm, ?_⟩)
      refine sameDn_of_fold hC (fun x hx => caseSame_of_both hcase x (List.mem_of_mem_drop hx)) ?_
      have : (foldDN C nm).drop p.length = foldDN C nb := by rw [h]; simp
      rw [← this]
      simp [foldDN, List.map_drop]

end

section
variable {V : Env} {G : GobEnv} {base : DN} {cfg : BoltCfg} {n : Nat} {stats : Bool} {H : Host} {loopback : Bool} {env : Str → Str} {flags : List Flag}

theorem matched_of_map {α β γ : Type} {R : β → γ → Prop} (g : α → β) : ∀ {l : List α} {m : List γ}, Matched R (l.map g) m → Matched (fun a c => R (g a) c) l m
  | [], _, h => by cases h; exact .nil
  | a :: l, _, h => by
    cases h with
    | cons _ c _ cs h1 h2 => exact .cons _ _ _ _ h1 (matched_of_map g h2)

theorem matched_to_map {α β γ : Type} {R : α → γ → Prop} {S : β → γ → Prop} (g : α → β) : ∀ {l : List α} {m : List γ}, Matched R l m →
    (∀ a ∈ l, ∀ c, R a c → S (g a) c) → Matched S (l.map g) m
  | [], _, h, _ => by cases h; exact .nil
  | a :: l, _, h, k => by
    cases h with
    | cons _ c _ cs h1 h2 => exact .cons _ _ _ _ (k a (by simp) c h1) (matched_to_map g h2 fun b hb => k b (by simp [hb]))

theorem exists_preimage {α β : Type} (g : α → β) (P : α → Prop) : ∀ (l : List β), (∀ b ∈ l, ∃ a, P a ∧ g a = b) → ∃ l' : List α, l'.map g = l ∧ ∀ a ∈ l', P a
  | [], _ => ⟨[], rfl, by simp⟩
  | b :: l, h => by
    obtain ⟨a, ha, rfl⟩ := h b (by simp)
    obtain ⟨l', rfl, hl⟩ := exists_preimage g P l fun b hb => h b (by simp [hb])
    exact ⟨a :: l', rfl, fun x hx => by
      rcases List.mem_cons.1 hx with rfl | hx
      · exact ha
      · exact hl x hx⟩

theorem sent_shown {C : CaseEnv} {attrs : List Str} {e e' : Entry} (h : SentFor C attrs (recordOf e) e') : SameButShown C (reduced C attrs e) e' := by
  obtain ⟨h1, h2, h3, -, -⟩ := h
  refine ⟨h1, fun t ht => ?_, fun a ha => (h3 a ha).2.1⟩
  by_cases hr : Requested C attrs t
  · rw [h2 t hr ht, under_recordOf]
    exact (typeValues_keep (fun n => @decide _ (Classical.propDecidable (Requested C attrs n))) t (by simpa using hr) e.attrs).symm
  · have e1 : typeValues t e'.attrs = [] := typeValues_absent fun a ha (e : a.name = t) => hr (e ▸ (h3 a ha).1)
    have e2 : typeValues t (reduced C attrs e).attrs = [] := typeValues_absent fun a ha (e : a.name = t) => by
      have := (List.mem_filter.1 ha).2
      exact hr (e ▸ (by simpa using this : Requested C attrs a.name))
    rw [e1, e2]

/-- The text that is exported from the database is an LDIF file an LDIF server can read: if it contains no actions for the template engine, and lines
are folded before they are 64 KiB long. Its records are the entries. -/
theorem C109_served_partial (hC : V.C.Lawful) (hG : G.Lawful) (hL : H.lib.Lawful) (hb : BaseOk V.C base) (ops : List Op) (h : HistOk V.C ops)
    (hren : ∀ req, Op.rename req ∈ ops → ∀ n, parseDN V.C req.dn = some n → foldDN V.C n ≠ base)
    (b0 : DN) (hbt : parseDN V.C (optBase.value env flags) = some b0) (hbn : NameOk b0) (hbf : foldDN V.C b0 = base)
    (hbase : (dirAfter V.C (validatePw V.C V.K) base ops).has base = true)
    (hw : ∀ x ∈ dirAfter V.C (validatePw V.C V.K) base ops, Writable x.entry)
    (text : Str) (hex : exportLDIF V.C G H.lib (optBase.value env flags) (after V.C G (validatePw V.C V.K) base ops) = .ok text)
    (path : Str) (hdir : H.isDir path = some false) (hread : H.read path = some (.whole text)) (hrun : ∀ dir, PlainEngine (H.engine dir))
    (hplain : contains text b!"{{" = false) (hwidth : H.lib.width + 1 < 65536) (vars : List (Str × Str)) :
    ∃ es : List Entry, es.Perm ((dirAfter V.C (validatePw V.C V.K) base ops).map (·.entry)) ∧ FilesSay H vars path (es.map recordOf) := by
  obtain ⟨es, h1, h2⟩ := export_written (L := H.lib) (validate := validatePw V.C V.K) hC hG hb ops h hren _ b0 hbt hbn hbf hbase
  rw [h1] at hex
  cases hex
  have hw' : ∀ e ∈ es, Writable e := by
    intro e he
    obtain ⟨x, hx, rfl⟩ := List.mem_map.1 (h2.mem_iff.1 he)
    exact hw x hx
  obtain ⟨recs, lines, k1, k2, k3, k4⟩ := ldifWrite_says hL es hw'
  have hl : HasLines lines (ldifWrite H.lib es) := by rw [k1]; exact hasLines_lf lines fun x hx => ⟨(k4 x hx).1, (k4 x hx).2.1⟩
  refine ⟨es, h2, (filesSay_plain hrun vars).1 _ _ hdir hread ⟨lines, recs, hl, k2, .plain _ _ k3⟩ ⟨lines, hl, fun l hl' => ?_, ?_, hplain⟩⟩
  · have := (k4 l hl').2.2.1
    omega
  · exact noStray_file k2 (fun x hx => (k4 x hx).2.2.2) false

/-- C109: the text exported from a database is served by an LDIF server with the same base DN. Then a client that may read gets the same answer to a
search from both: the same entries, though perhaps in another order, the names in lower case, the same values in the same order under each
attribute type, but no passwords; then success. (Missing, each false in general: see the theorems `C109_…_fails`, C33 and C39.) -/
theorem C109_search_partial (hC : V.C.Lawful) (hG : G.Lawful) {W : WalkOrd} (hW : W.Lawful) (hL : H.lib.Lawful) (hb : BaseOk V.C base)
    (ops : List Op) (h : HistOk V.C ops)
    (hren : ∀ req, Op.rename req ∈ ops → ∀ n, parseDN V.C req.dn = some n → foldDN V.C n ≠ base)
    (b0 : DN) (hbt : parseDN V.C (optBase.value env flags) = some b0) (hbn : NameOk b0) (hbf : foldDN V.C b0 = base)
    (hw : ∀ x ∈ dirAfter V.C (validatePw V.C V.K) base ops, Writable x.entry ∧ ∀ a ∈ x.entry.attrs, a.vals ≠ [])
    (text : Str) (hex : exportLDIF V.C G H.lib (optBase.value env flags) (after V.C G (validatePw V.C V.K) base ops) = .ok text)
    (hcwd : isAbsPath H.cwd = true) (hdir : H.isDir (absPath H.cwd (optMain.value env flags)) = some false)
    (hread : H.read (absPath H.cwd (optMain.value env flags)) = some (.whole text)) (hrun : ∀ dir, PlainEngine (H.engine dir))
    (hplain : contains text b!"{{" = false) (hwidth : H.lib.width + 1 < 65536)
    (hh : optHandler.value env flags = b!"ldif") (s : Started) (hs : launch V H loopback env flags = .serves s) (st : LdifSt)
    (hst : NotReloaded V W s st) (bound : Str) (hmay : MayRead V.C (askedCfg V.C env flags loopback b0) bound)
    (b : Str) (name : DN) (hname : parseDN V.C b = some name) (hok : NameOk name) (hne : name ≠ []) (hone : ∀ r ∈ name, r.length = 1)
    (hsuf : hasSuffix (V.C.lower b) (normalize V.C b0) = true) (scope : Nat) (hsc : scope ≤ 2)
    (hdn : ∀ x ∈ dirAfter V.C (validatePw V.C V.K) base ops, (∃ nm, parseDN V.C x.entry.dn = some nm ∧ CaseBoth V.C nm name) ∧
      TextTells V.C scope b x.entry.dn ∧ (scope ≠ 2 → PlainFirst x.entry.dn))
    (f : Filter) (w : Packet) (hwf : Wire f w) (hfo : FilterOk f) (h1 : OneComponent f) (hsup : Supported f) (hpw : NotOnPasswords V.C f)
    (ends : Bool) (hlost : NoneLost V.C defaultIdx ends f = true)
    (hagree : ∀ x ∈ dirAfter V.C (validatePw V.C V.K) base ops, CaseAgrees V.C ((recordOf x.entry).seen V.C) f ∧
      (ends = true → EndsAgree V.C ((recordOf x.entry).seen V.C) f))
    (attrs : List Str) (hrep : NoRepeat V.C attrs) (o o' : Oracle) (id : Int) (bound' : Str)
    (hhas : (dirAfter V.C (validatePw V.C V.K) base ops).has (foldDN V.C name) = true) :
    let db := after V.C G (validatePw V.C V.K) base ops
    ∃ sent sent' : List Entry,
      handlePacket V (boltSrv V G cfg n stats) o (wMsg id (wSearch b scope 0 w attrs)) bound' db =
        ⟨sent.map (.entry id) ++ [.searchDone id 0 (some [])], .go bound', db⟩ ∧
      handlePacket V (ldifSrv V W (askedCfg V.C env flags loopback b0) s.genPwLen s.stats) o' (wMsg id (wSearch b scope 0 w attrs)) bound st =
        ⟨sent'.map (.entry id) ++ [.searchDone id 0 (some [])], .go bound, st⟩ ∧
      ∃ order, order.Perm sent ∧ Matched (SameButShown V.C) order sent' := by
  intro db
  have hbase : (dirAfter V.C (validatePw V.C V.K) base ops).has base = true := by
    cases hx : (dirAfter V.C (validatePw V.C V.K) base ops).has base with
    | true => rfl
    | false =>
      have hserv := (C05_search_exact (validate := validatePw V.C V.K) hC hG hb ops h) _ b0 hbt hbn scopeSub
      rw [hbf] at hserv
      have := hserv.2 hx
      rw [exportLDIF, this] at hex
      cases hex
  obtain ⟨es, hperm, hfiles⟩ := C109_served_partial hC hG hL hb ops h hren b0 hbt hbn hbf hbase (fun x hx => (hw x hx).1) text hex _ hdir hread hrun hplain
    hwidth (askedVars env flags)
  have hmem : ∀ r, r ∈ es.map recordOf ↔ ∃ x ∈ dirAfter V.C (validatePw V.C V.K) base ops, recordOf x.entry = r := by
    intro r
    rw [List.mem_map]
    constructor
    · rintro ⟨e, he, rfl⟩
      obtain ⟨x, hx, rfl⟩ := List.mem_map.1 (hperm.mem_iff.1 he)
      exact ⟨x, hx, rfl⟩
    · rintro ⟨x, hx, rfl⟩
      exact ⟨x.entry, hperm.mem_iff.2 (List.mem_map_of_mem hx), rfl⟩
  obtain ⟨found, k1, k2, k3⟩ := C33_search_exact_partial (G := G) (cfg := cfg) (n := n) (stats := stats) hC hG hb ops h (fun _ _ => False)
    (fun x hx => by obtain ⟨nm, h1, -⟩ := (hdn x hx).1; exact ⟨nm, h1⟩) b name hname hok hne scope hsc
    (fun h2 x hx => ⟨(hdn x hx).2.2 h2, fun nm hnm => by
      obtain ⟨nm', e1, e2⟩ := (hdn x hx).1
      rw [hnm] at e1
      cases e1
      exact caseSame_of_both e2⟩) f w hwf hfo h1 hsup attrs hrep o id bound' hhas
  obtain ⟨found', sent', g1, g2, g3, g4⟩ := C99_search_partial hC hW hL hcwd hfiles hh s hs b0 hbt st hst bound hmay b name hname hsuf scope hsc
    (fun _ => hne) (fun r hr => by obtain ⟨x, hx, rfl⟩ := (hmem r).1 hr; exact (hdn x hx).2.1) f w hwf hfo h1 hsup ends hlost
    (fun r hr => by obtain ⟨x, hx, rfl⟩ := (hmem r).1 hr; exact hagree x hx) attrs hrep o' id
  have hiff : ∀ x ∈ dirAfter V.C (validatePw V.C V.K) base ops, x ∈ found ↔ recordOf x.entry ∈ found' := by
    intro x hx
    obtain ⟨nm, e1, e2⟩ := (hdn x hx).1
    rw [k2, g2, hmem, show (recordOf x.entry).dn = x.entry.dn from rfl, scope_both hC hname e1 e2 hone,
      dirAfter_text hC ops h x hx nm e1, moved_sat hC (hw x hx).1 (hw x hx).2 _ f hsup hpw]
    exact ⟨fun ⟨_, h2⟩ => ⟨⟨x, hx, rfl⟩, h2⟩, fun ⟨_, h2⟩ => ⟨hx, h2⟩⟩
  have hinj : ∀ x ∈ found, ∀ y ∈ found, recordOf x.entry = recordOf y.entry → x = y := by
    intro x hx y hy e
    have hxd := ((k2 x).1 hx).1
    have hyd := ((k2 y).1 hy).1
    obtain ⟨nm, e1, -⟩ := (hdn x hxd).1
    have e' : x.entry.dn = y.entry.dn := congrArg LdifRecord.dn e
    refine nodup_inj k1 x hx y hy ?_
    rw [← dirAfter_text hC ops h x hxd nm e1, dirAfter_text hC ops h y hyd nm (e' ▸ e1)]
  obtain ⟨l, hl, hl'⟩ := exists_preimage (fun x : Node => recordOf x.entry) (· ∈ found) found' (by
    intro r hr
    obtain ⟨x, hx, rfl⟩ := (hmem r).1 ((g2 r).1 hr).1
    exact ⟨x, (hiff x hx).2 hr, rfl⟩)
  have hlnd : l.Nodup := by
    rw [← hl] at g1
    exact (List.pairwise_map.1 g1).imp fun h e => h (by rw [e])
  have hfnd : found.Nodup := (List.pairwise_map.1 k1).imp fun h e => h (by rw [e])
  have hlp : l.Perm found := by
    refine perm_of_nodup hlnd hfnd fun x => ⟨hl' x, fun hx => ?_⟩
    have : recordOf x.entry ∈ l.map fun x : Node => recordOf x.entry := by
      rw [hl]
      exact (hiff x ((k2 x).1 hx).1).1 hx
    obtain ⟨y, hy, e⟩ := List.mem_map.1 this
    rw [← hinj y (hl' y hy) x hx e]
    exact hy
  refine ⟨found.map fun x => reduced V.C attrs x.entry, sent', ?_, g4, l.map fun x => reduced V.C attrs x.entry, hlp.map _, ?_⟩
  · rw [k3, List.map_map]
    rfl
  · rw [← hl] at g3
    exact matched_to_map _ (matched_of_map _ g3) fun x _ c hc => sent_shown hc

theorem password_first {C : CaseEnv} (hC : C.Lawful) (p : Str) : ∀ as : List Attr, (∀ a ∈ as, a.vals ≠ [] ∧ ldifType a.name = true) →
    ((∃ before a after more, as = before ++ a :: after ∧ (∀ b ∈ before, C.eqFold sUserPassword b.name = false) ∧
      C.eqFold sUserPassword a.name = true ∧ a.vals = p :: more) ↔
    ∃ t rest, (as.flatMap fun a => a.vals.map fun v => (a.name, v)).filter (fun tv => C.lower tv.1 = b!"userpassword") = (t, p) :: rest)
  | [], _ => by simp
  | a :: as, h => by
    obtain ⟨hne, ht⟩ := h a (by simp)
    have ih := password_first hC p as fun b hb => h b (by simp [hb])
    have hpw := isPassword_iff hC ht
    rw [List.flatMap_cons, List.filter_append]
    by_cases hl : C.lower a.name = b!"userpassword"
    · rw [List.filter_eq_self.2 (by simp [hl])]
      cases hv : a.vals with
      | nil => exact absurd hv hne
      | cons v vs =>
        simp only [List.map_cons, List.cons_append, List.cons.injEq, Prod.mk.injEq]
        constructor
        · rintro ⟨before, a', after, more, e, h1, h2, h3⟩
          cases before with
          | nil =>
            cases e
            rw [hv] at h3
            cases h3
            exact ⟨_, _, ⟨rfl, rfl⟩, rfl⟩
          | cons b before =>
            cases e
            have := h1 a (by simp)
            rw [show C.eqFold sUserPassword a.name = true from hpw.2 hl] at this
            cases this
        · rintro ⟨t, rest, ⟨-, rfl⟩, -⟩
          exact ⟨[], a, as, vs, rfl, by simp, hpw.2 hl, hv⟩
    · rw [List.filter_eq_nil_iff.2 (by simp [hl]), List.nil_append, ← ih]
      have hf : C.eqFold sUserPassword a.name = false := by
        cases hx : C.eqFold sUserPassword a.name with
        | false => rfl
        | true => exact absurd (hpw.1 hx) hl
      constructor
      · rintro ⟨before, a', after, more, e, h1, h2, h3⟩
        cases before with
        | nil => cases e; rw [hf] at h2; cases h2
        | cons b before => cases e; exact ⟨before, a', after, more, rfl, fun b hb => h1 b (by simp [hb]), h2, h3⟩
      · rintro ⟨before, a', after, more, e, h1, h2, h3⟩
        exact ⟨a :: before, a', after, more, by rw [e]; rfl, fun b hb => by
          rcases List.mem_cons.1 hb with rfl | hb
          · exact hf
          · exact h1 b hb, h2, h3⟩

/-- C109: the text exported from a database is served by an LDIF server with the same base DN and without a config file. Then a bind with a name below
the base, written as the name of the entry is in the database, up to case, is answered alike by both: it is accepted by both or by none, and the
connection then acts under the same name. (Missing: names written in another way, which only the database server knows
(`C109_spelling_fails`); entries with userPassword written in several ways, see C95.) -/
theorem C109_bind_partial (hC : V.C.Lawful) (hG : G.Lawful) {W : WalkOrd} (hW : W.Lawful) (hL : H.lib.Lawful) (hb : BaseOk V.C base)
    (ops : List Op) (h : HistOk V.C ops)
    (hren : ∀ req, Op.rename req ∈ ops → ∀ n, parseDN V.C req.dn = some n → foldDN V.C n ≠ base)
    (b0 : DN) (hbt : parseDN V.C (optBase.value env flags) = some b0) (hbn : NameOk b0) (hbf : foldDN V.C b0 = base)
    (hw : ∀ x ∈ dirAfter V.C (validatePw V.C V.K) base ops, Writable x.entry ∧ (∀ a ∈ x.entry.attrs, a.vals ≠ []) ∧ OneSpelling V.C (recordOf x.entry))
    (text : Str) (hex : exportLDIF V.C G H.lib (optBase.value env flags) (after V.C G (validatePw V.C V.K) base ops) = .ok text)
    (hcwd : isAbsPath H.cwd = true) (hdir : H.isDir (absPath H.cwd (optMain.value env flags)) = some false)
    (hread : H.read (absPath H.cwd (optMain.value env flags)) = some (.whole text)) (hrun : ∀ dir, PlainEngine (H.engine dir))
    (hplain : contains text b!"{{" = false) (hwidth : H.lib.width + 1 < 65536)
    (hh : optHandler.value env flags = b!"ldif") (hconf : optConfig.value env flags = []) (s : Started)
    (hs : launch V H loopback env flags = .serves s) (st : LdifSt) (hst : NotReloaded V W s st)
    (hcfg : cfg.base = render base) (dn pw : Str) (nm : DN) (hdn : dn ≠ []) (hnm : parseDN V.C dn = some nm) (hok : NameOk nm)
    (hin : render base <:+ render (foldDN V.C nm)) (hin' : hasSuffix (V.C.lower dn) (normalize V.C b0) = true)
    (hspell : ∀ x ∈ dirAfter V.C (validatePw V.C V.K) base ops, V.C.lower x.entry.dn = V.C.lower dn ↔ x.name = foldDN V.C nm)
    (hpw : pw ≠ []) (o o' : Oracle) (id : Int) (bound : Str) :
    let bolt := handlePacket V (boltSrv V G cfg n stats) o (wMsg id (wBind dn pw)) bound (after V.C G (validatePw V.C V.K) base ops)
    let ldif := handlePacket V (ldifSrv V W (askedCfg V.C env flags loopback b0) s.genPwLen s.stats) o' (wMsg id (wBind dn pw)) bound st
    (bolt.resps = [.result id 1 0] ↔ ldif.resps = [.result id 1 0]) ∧ bolt.next = ldif.next := by
  intro bolt ldif
  have hbase : (dirAfter V.C (validatePw V.C V.K) base ops).has base = true := by
    cases hx : (dirAfter V.C (validatePw V.C V.K) base ops).has base with
    | true => rfl
    | false =>
      have hserv := (C05_search_exact (validate := validatePw V.C V.K) hC hG hb ops h) _ b0 hbt hbn scopeSub
      rw [hbf] at hserv
      have := hserv.2 hx
      rw [exportLDIF, this] at hex
      cases hex
  obtain ⟨es, hperm, hfiles⟩ := C109_served_partial hC hG hL hb ops h hren b0 hbt hbn hbf hbase (fun x hx => (hw x hx).1) text hex _ hdir hread hrun hplain
    hwidth (askedVars env flags)
  have hmem : ∀ r, r ∈ es.map recordOf ↔ ∃ x ∈ dirAfter V.C (validatePw V.C V.K) base ops, recordOf x.entry = r := by
    intro r
    rw [List.mem_map]
    constructor
    · rintro ⟨e, he, rfl⟩
      obtain ⟨x, hx, rfl⟩ := List.mem_map.1 (hperm.mem_iff.1 he)
      exact ⟨x, hx, rfl⟩
    · rintro ⟨x, hx, rfl⟩
      exact ⟨x.entry, hperm.mem_iff.2 (List.mem_map_of_mem hx), rfl⟩
  obtain ⟨-, b1, b2⟩ := C22_bind_exact (G := G) (cfg := cfg) (n := n) (stats := stats) hC hG hb hcfg ops h o id bound dn pw
    (fun n' hn' => by rw [hnm] at hn'; cases hn'; exact hok)
  obtain ⟨l1, l2⟩ := C99_bind_partial hW hL hcwd hfiles hh hconf s hs b0 hbt st hst
    (fun r hr => by obtain ⟨x, hx, rfl⟩ := (hmem r).1 hr; exact (hw x hx).2.2) dn (normalize V.C nm) pw
    (fun e => hdn (hC.lower_eq_nil _ e)) hin' (by rw [parseNormalize, hnm]; rfl) hpw o' id bound
  have hget : ∀ e, (dirAfter V.C (validatePw V.C V.K) base ops).get (foldDN V.C nm) = some e ↔
      ∃ x ∈ dirAfter V.C (validatePw V.C V.K) base ops, x.name = foldDN V.C nm ∧ x.entry = e := by
    intro e
    obtain ⟨ns, -, h2, R, -⟩ := sim_run_empty (validate := validatePw V.C V.K) hC hG hb ops h.ok h.len
    rw [dirAfter, h2]
    constructor
    · intro hg
      exact ⟨_, get_mem hg, rfl, rfl⟩
    · rintro ⟨x, hx, hxn, rfl⟩
      obtain ⟨y, hy, rfl⟩ := List.mem_map.1 hx
      rw [← hxn]
      exact R.get_some hy
  have hiff : MayBind V.C V.K cfg.anon base (dirAfter V.C (validatePw V.C V.K) base ops) dn pw ↔
      ∃ r ∈ es.map recordOf, V.C.lower r.dn = V.C.lower dn ∧ r.opens V.C V.K pw := by
    have hpo : ∀ x ∈ dirAfter V.C (validatePw V.C V.K) base ops, ∀ p, PasswordOf V.C x.entry p ↔ ∃ t rest,
        (recordOf x.entry).values.filter (fun tv => V.C.lower tv.1 = b!"userpassword") = (t, p) :: rest := by
      intro x hx p
      refine password_first hC p x.entry.attrs fun a ha => ⟨(hw x hx).2.1 a ha, ?_⟩
      obtain ⟨v, hv⟩ := List.exists_mem_of_ne_nil _ ((hw x hx).2.1 a ha)
      exact ((hw x hx).1.2.2 a ha v hv).1
    constructor
    · rintro (⟨e, -⟩ | ⟨-, name, e, p, e1, -, e3, e4, e5⟩)
      · exact absurd e hdn
      · rw [hnm] at e1
        cases e1
        obtain ⟨x, hx, hxn, rfl⟩ := (hget e).1 e3
        obtain ⟨t, rest, e6⟩ := (hpo x hx p).1 e4
        exact ⟨_, (hmem _).2 ⟨x, hx, rfl⟩, (hspell x hx).2 hxn, t, p, rest, e6, e5⟩
    · rintro ⟨r, hr, hd, t, p, rest, e6, e5⟩
      obtain ⟨x, hx, rfl⟩ := (hmem r).1 hr
      exact Or.inr ⟨hpw, nm, x.entry, p, hnm, hin, (hget _).2 ⟨x, hx, (hspell x hx).1 hd, rfl⟩, (hpo x hx p).2 ⟨t, rest, e6⟩, e5⟩
  by_cases hacc : ∃ r ∈ es.map recordOf, V.C.lower r.dn = V.C.lower dn ∧ r.opens V.C V.K pw
  · obtain ⟨name, e1, e2, e3⟩ := b1 (hiff.2 hacc)
    obtain ⟨g1, g2⟩ := l1 hacc
    rw [hnm] at e1
    cases e1
    exact ⟨⟨fun _ => g1, fun _ => e2⟩, e3.trans g2.symm⟩
  · obtain ⟨c, c1, c2, c3⟩ := b2 fun hm => hacc (hiff.1 hm)
    obtain ⟨c', c1', c2', c3'⟩ := l2 hacc
    refine ⟨⟨fun e => ?_, fun e => ?_⟩, c3.trans c3'.symm⟩
    · rw [show bolt.resps = _ from c2] at e
      simp only [List.cons.injEq, Resp.result.injEq, and_true, true_and] at e
      exact absurd e c1
    · rw [show ldif.resps = _ from c2'] at e
      simp only [List.cons.injEq, Resp.result.injEq, and_true, true_and] at e
      exact absurd e c1'

end
/-! ## Examples -/

/-- The entries: the base, Ann with a password, and Bob, who is deleted. -/
def mgOps : List Op := [.add ⟨b!"dc=lg", [⟨b!"dc", [b!"lg"]⟩]⟩,
  .add ⟨b!"uid=Ann,dc=lg", [⟨b!"uid", [b!"Ann"]⟩, ⟨b!"userPassword", [b!"pw"]⟩, ⟨b!"cn", [b!"Ann", b!"Anna"]⟩]⟩,
  .add ⟨b!"uid=bob,dc=lg", [⟨b!"uid", [b!"bob"]⟩, ⟨b!"cn", [b!"Bob"]⟩]⟩, .delete b!"uid=bob,dc=lg"]

/-- The directory in the end. -/
def mgDir : Dir := [⟨[[⟨b!"dc", b!"lg"⟩]], ⟨b!"dc=lg", [⟨b!"dc", [b!"lg"]⟩]⟩⟩,
  ⟨[[⟨b!"uid", b!"ann"⟩], [⟨b!"dc", b!"lg"⟩]], ⟨b!"uid=Ann,dc=lg", [⟨b!"uid", [b!"Ann"]⟩, ⟨b!"userPassword", [b!"pw"]⟩, ⟨b!"cn", [b!"Ann", b!"Anna"]⟩]⟩⟩]

def mgText : Str := b!"dn: dc=lg\ndc: lg\n\ndn: uid=Ann,dc=lg\nuid: Ann\nuserPassword: pw\ncn: Ann\ncn: Anna\n\n"

/-- The database server after the calls. -/
def mgDb (ops : List Op) : Db := after asciiCase gobInstance (validatePw asciiCase toyCrypto) toyBase ops

/-- A host that has the text as its only file, and a template engine that refuses all actions. -/
def mgHost (text : Str) : Host where
  levelOk := fun l => l = b!"info"
  boltOpens := fun _ _ => false
  cwd := b!"/srv"
  isDir := fun p => if p = b!"/srv/a.ldif" then some false else none
  list := fun _ => []
  read := fun p => if p = b!"/srv/a.ldif" then some (.whole text) else none
  engine := fun _ _ _ text => if contains text b!"{{" then none else some text
  lib := goLdif

def mgEnv : Str → Str := fun _ => []

theorem mgEngine (text : Str) : ∀ dir, PlainEngine ((mgHost text).engine dir) := by
  intro dir vars start t h
  simp [mgHost, h]

theorem mg_dir : dirAfter asciiCase (validatePw asciiCase toyCrypto) toyBase mgOps = mgDir := by decide +kernel

theorem mg_hist : HistOk asciiCase mgOps := by decide +kernel

theorem mg_ren : ∀ req, Op.rename req ∈ mgOps → ∀ n, parseDN asciiCase req.dn = some n → foldDN asciiCase n ≠ toyBase := by
  intro req h
  simp [mgOps] at h

theorem mg_base : BaseOk asciiCase toyBase := by constructor <;> decide +kernel

theorem mg_export : exportLDIF asciiCase gobInstance goLdif (optBase.value mgEnv (svFlags b!"a.ldif")) (mgDb mgOps) = .ok mgText := by decide +kernel

theorem mg_starts {text : Str} {rs : List LdifRecord} (hf : FilesSay (mgHost text) (askedVars mgEnv (svFlags b!"a.ldif")) b!"/srv/a.ldif" rs)
    (hn : (rs.map fun r => asciiCase.lower r.dn).Nodup) : ∃ s, launch ldEnv (mgHost text) true mgEnv (svFlags b!"a.ldif") = .serves s := by
  refine (C99_starts (V := ldEnv) (H := mgHost text) (rs := rs) goLdif_lawful (show isAbsPath b!"/srv" = true by decide) ?_ ?_ ?_ ?_ ?_ ?_ ?_ ?_
    (base := [[⟨b!"DC", b!"lg"⟩]]) (admin := []) ?_ ?_ ?_).2 hn
  · have : absPath (mgHost text).cwd (optMain.value mgEnv (svFlags b!"a.ldif")) = b!"/srv/a.ldif" := by
      show absPath b!"/srv" _ = _
      decide +kernel
    rw [this]
    exact hf
  any_goals decide +kernel
  · exact (setFlags_known _ initialVars).1 ⟨_, rfl⟩
  · exact Or.inl (by decide +kernel)
  · show decide (optLevel.value mgEnv (svFlags b!"a.ldif") = b!"info") = true
    decide +kernel

theorem mg_plain : ∀ x ∈ mgDir, TextTells asciiCase 2 b!"dc=lg" x.entry.dn := by
  simp only [mgDir, List.forall_mem_cons, List.not_mem_nil, false_implies, implies_true, and_true]
  have hb : PlainDN asciiCase b!"dc=lg" [⟨b!"dc", b!"lg"⟩] := by decide +kernel
  exact ⟨C39_plain_names asciiCase_lawful hb (by simp) (ns := [⟨b!"dc", b!"lg"⟩]) (by decide +kernel) (by decide +kernel) 2 (by decide +kernel),
    C39_plain_names asciiCase_lawful hb (by simp) (ns := [⟨b!"uid", b!"Ann"⟩, ⟨b!"dc", b!"lg"⟩]) (by decide +kernel) (by decide +kernel) 2 (by decide +kernel)⟩

theorem mg_path (text : Str) : absPath (mgHost text).cwd (optMain.value mgEnv (svFlags b!"a.ldif")) = b!"/srv/a.ldif" := by
  show absPath b!"/srv" _ = _
  decide +kernel

/-- The exported text is served. -/
example : ∃ es : List Entry, es.Perm (mgDir.map (·.entry)) ∧
    FilesSay (mgHost mgText) (askedVars mgEnv (svFlags b!"a.ldif")) b!"/srv/a.ldif" (es.map recordOf) :=
  mg_dir ▸ C109_served_partial (V := ldEnv) (G := gobInstance) (H := mgHost mgText) (env := mgEnv) (flags := svFlags b!"a.ldif") asciiCase_lawful
    gobInstance_lawful goLdif_lawful mg_base mgOps mg_hist mg_ren [[⟨b!"DC", b!"lg"⟩]] (by decide +kernel) (by decide +kernel) (by decide +kernel)
    (by decide +kernel) (by decide +kernel) mgText mg_export b!"/srv/a.ldif" (by decide +kernel) (by decide +kernel) (mgEngine _)
    (by decide +kernel) (by decide +kernel) _

/-- C109 applies to a search for `(cn=anna)` -/
example (s : Started) (hs : launch ldEnv (mgHost mgText) true mgEnv (svFlags b!"a.ldif") = .serves s) (st : LdifSt) (hst : NotReloaded ldEnv ldOrd s st) :=
  C109_search_partial (V := ldEnv) (G := gobInstance) (H := mgHost mgText) (cfg := toyCfg) (n := 16) (stats := false) asciiCase_lawful gobInstance_lawful
    ldOrd_lawful goLdif_lawful mg_base mgOps mg_hist mg_ren [[⟨b!"DC", b!"lg"⟩]] (by decide +kernel) (by decide +kernel) (by decide +kernel)
    (by decide +kernel) mgText mg_export (by decide +kernel) (by rw [mg_path]; decide +kernel) (by rw [mg_path]; decide +kernel) (mgEngine _)
    (by decide +kernel) (by decide +kernel) (by decide +kernel) s hs st hst [] (Or.inl ⟨rfl, by decide +kernel, rfl⟩)
    b!"dc=lg" [[⟨b!"dc", b!"lg"⟩]] (by decide +kernel) (by decide +kernel) (by decide) (by decide) (by decide +kernel) 2 (by omega)
    (by
      show ∀ x ∈ dirAfter asciiCase (validatePw asciiCase toyCrypto) toyBase mgOps, _
      rw [mg_dir]
      intro x hx
      refine ⟨?_, mg_plain x hx, fun h => absurd rfl h⟩
      revert x
      simp only [mgDir, List.forall_mem_cons, List.not_mem_nil, false_implies, implies_true, and_true]
      exact ⟨⟨[[⟨b!"dc", b!"lg"⟩]], by decide +kernel⟩, ⟨[[⟨b!"uid", b!"Ann"⟩], [⟨b!"dc", b!"lg"⟩]], by decide +kernel⟩⟩)
    (.eq b!"cn" b!"anna") _ (wEq_wire _ _) (by decide +kernel : AttrText b!"cn") trivial trivial
    (by simp only [NotOnPasswords, filterTypes, List.forall_mem_singleton]; decide +kernel) false (by decide +kernel)
    (fun r _ => ⟨ascii_agrees _ _, fun h => by cases h⟩) [b!"cn"] (by decide +kernel) toyOracle toyOracle 7 [] (by decide +kernel)

/-- C109 applies to binds as Ann -/
example (s : Started) (hs : launch ldEnv (mgHost mgText) true mgEnv (svFlags b!"a.ldif") = .serves s) (st : LdifSt) (hst : NotReloaded ldEnv ldOrd s st)
    (pw : Str) (hpw : pw ≠ []) :=
  C109_bind_partial (V := ldEnv) (G := gobInstance) (H := mgHost mgText) (cfg := toyCfg) (n := 16) (stats := false) asciiCase_lawful gobInstance_lawful
    ldOrd_lawful goLdif_lawful mg_base mgOps mg_hist mg_ren [[⟨b!"DC", b!"lg"⟩]] (by decide +kernel) (by decide +kernel) (by decide +kernel)
    (by decide +kernel) mgText mg_export (by decide +kernel) (by rw [mg_path]; decide +kernel) (by rw [mg_path]; decide +kernel) (mgEngine _)
    (by decide +kernel) (by decide +kernel) (by decide +kernel) (by decide +kernel) s hs st hst (by decide +kernel) b!"UID=ann,dc=lg" pw
    [[⟨b!"UID", b!"ann"⟩], [⟨b!"dc", b!"lg"⟩]] (by decide) (by decide +kernel) (by decide +kernel) (by decide +kernel) (by decide +kernel) (by decide +kernel)
    hpw toyOracle toyOracle 7 []

/-- and with one password it is accepted, by both -/
example : (handlePacket ldEnv (boltSrv ldEnv gobInstance toyCfg 16 false) toyOracle (wMsg 7 (wBind b!"UID=ann,dc=lg" b!"pw")) [] (mgDb mgOps)).resps =
    [.result 7 1 0] := by decide +kernel

theorem mg_served {ops : List Op} {text : Str} (h : HistOk asciiCase ops)
    (hren : ∀ req, Op.rename req ∈ ops → ∀ n, parseDN asciiCase req.dn = some n → foldDN asciiCase n ≠ toyBase)
    (hbase : (dirAfter asciiCase (validatePw asciiCase toyCrypto) toyBase ops).has toyBase = true)
    (hw : ∀ x ∈ dirAfter asciiCase (validatePw asciiCase toyCrypto) toyBase ops, Writable x.entry)
    (hex : exportLDIF asciiCase gobInstance goLdif b!"DC=lg" (mgDb ops) = .ok text) (hplain : contains text b!"{{" = false)
    (hn : ((dirAfter asciiCase (validatePw asciiCase toyCrypto) toyBase ops).map fun x => asciiCase.lower x.entry.dn).Nodup) :
    ∃ rs : List LdifRecord, FilesSay (mgHost text) (askedVars mgEnv (svFlags b!"a.ldif")) (absPath (mgHost text).cwd (optMain.value mgEnv (svFlags b!"a.ldif"))) rs ∧
      (∀ r, r ∈ rs ↔ ∃ x ∈ dirAfter asciiCase (validatePw asciiCase toyCrypto) toyBase ops, recordOf x.entry = r) ∧
      ∃ s, launch ldEnv (mgHost text) true mgEnv (svFlags b!"a.ldif") = .serves s := by
  obtain ⟨es, h1, h2⟩ := C109_served_partial (V := ldEnv) (G := gobInstance) (H := mgHost text) (env := mgEnv) (flags := svFlags b!"a.ldif") asciiCase_lawful
    gobInstance_lawful goLdif_lawful mg_base ops h hren [[⟨b!"DC", b!"lg"⟩]] (by decide +kernel) (by decide +kernel) (by decide +kernel)
    hbase hw text (by rw [show optBase.value mgEnv (svFlags b!"a.ldif") = b!"DC=lg" by decide +kernel]; exact hex) b!"/srv/a.ldif"
    (show (if b!"/srv/a.ldif" = b!"/srv/a.ldif" then some false else none) = some false by rw [if_pos rfl])
    (show (if b!"/srv/a.ldif" = b!"/srv/a.ldif" then some (FileRead.whole text) else none) = _ by rw [if_pos rfl]) (mgEngine _)
    hplain (show 76 + 1 < 65536 by omega) (askedVars mgEnv (svFlags b!"a.ldif"))
  refine ⟨_, by rw [mg_path]; exact h2, fun r => ?_, mg_starts h2 ?_⟩
  · rw [List.mem_map]
    constructor
    · rintro ⟨e, he, rfl⟩
      obtain ⟨x, hx, rfl⟩ := List.mem_map.1 (h1.mem_iff.1 he)
      exact ⟨x, hx, rfl⟩
    · rintro ⟨x, hx, rfl⟩
      exact ⟨x.entry, h1.mem_iff.2 (List.mem_map_of_mem hx), rfl⟩
  · have := (h1.map recordOf).map fun r => asciiCase.lower r.dn
    refine this.nodup_iff.2 ?_
    rw [List.map_map, List.map_map]
    exact hn

/-- C109 is false of names that are written in another way than in the database: `UID=ann, dc=lg`, with a blank after the comma, is accepted by the
database server and refused by the LDIF server. -/
theorem C109_spelling_fails : ∃ ops text dn pw, exportLDIF asciiCase gobInstance goLdif b!"DC=lg" (mgDb ops) = .ok text ∧
    (handlePacket ldEnv (boltSrv ldEnv gobInstance toyCfg 16 false) toyOracle (wMsg 7 (wBind dn pw)) [] (mgDb ops)).resps = [.result 7 1 0] ∧
    (∃ s, launch ldEnv (mgHost text) true mgEnv (svFlags b!"a.ldif") = .serves s) ∧
    ∀ s st, launch ldEnv (mgHost text) true mgEnv (svFlags b!"a.ldif") = .serves s → NotReloaded ldEnv ldOrd s st →
      (handlePacket ldEnv (ldifSrv ldEnv ldOrd (askedCfg asciiCase mgEnv (svFlags b!"a.ldif") true [[⟨b!"DC", b!"lg"⟩]]) s.genPwLen s.stats)
        toyOracle (wMsg 7 (wBind dn pw)) [] st).resps ≠ [.result 7 1 0] := by
  obtain ⟨rs, h1, h2, h3⟩ := mg_served (ops := mgOps) (text := mgText) mg_hist mg_ren (by decide +kernel) (by decide +kernel) (by decide +kernel)
    (by decide +kernel) (by decide +kernel)
  refine ⟨mgOps, mgText, b!"UID=ann, dc=lg", b!"pw", by decide +kernel, by decide +kernel, h3, fun s st hs hst => ?_⟩
  have := (C99_bind_partial (V := ldEnv) (W := ldOrd) ldOrd_lawful (H := mgHost mgText) goLdif_lawful (by decide +kernel) h1 (by decide +kernel)
    (by decide +kernel) s hs [[⟨b!"DC", b!"lg"⟩]] (by decide +kernel) st hst (by
      intro r hr
      obtain ⟨x, hx, rfl⟩ := (h2 r).1 hr
      clear hr
      revert x
      decide +kernel) b!"UID=ann, dc=lg" b!"uid=ann,dc=lg" b!"pw" (by decide +kernel) (by decide +kernel) (by decide +kernel) (by decide) toyOracle 7 []).2 (by
    rintro ⟨r, hr, e, -⟩
    obtain ⟨x, hx, rfl⟩ := (h2 r).1 hr
    clear hr
    revert e
    revert x
    decide +kernel)
  obtain ⟨code, c1, c2, -⟩ := this
  intro e
  have e' := c2.symm.trans e
  simp only [List.cons.injEq, Resp.result.injEq, and_true, true_and] at e'
  exact c1 e'

/-- Entries with a value that looks like an action of the template engine. -/
def mgActionOps : List Op := [.add ⟨b!"dc=lg", [⟨b!"dc", [b!"lg"]⟩, ⟨b!"description", [b!"{{lg}}"]⟩]⟩]

/-- C109 is false of values that look like actions of the template engine: the text is exported, but an LDIF server whose engine does not know the
action does not start. -/
theorem C109_action_fails : ∃ ops text, HistOk asciiCase ops ∧ exportLDIF asciiCase gobInstance goLdif b!"DC=lg" (mgDb ops) = .ok text ∧
    (∀ x ∈ dirAfter asciiCase (validatePw asciiCase toyCrypto) toyBase ops, Writable x.entry) ∧
    ∀ s, launch ldEnv (mgHost text) true mgEnv (svFlags b!"a.ldif") ≠ .serves s := by
  refine ⟨mgActionOps, b!"dn: dc=lg\ndc: lg\ndescription: {{lg}}\n\n", by decide +kernel, by decide +kernel, by decide +kernel, fun s hs => ?_⟩
  have : (match launch ldEnv (mgHost b!"dn: dc=lg\ndc: lg\ndescription: {{lg}}\n\n") true mgEnv (svFlags b!"a.ldif") with
    | .serves _ => true
    | _ => false) = false := by decide +kernel
  rw [hs] at this
  cases this

/-- C109 is false of filters on passwords: a search for `(userPassword=pw)` finds Ann in the database, and nobody at the LDIF server. -/
theorem C109_password_fails : ∃ ops text, exportLDIF asciiCase gobInstance goLdif b!"DC=lg" (mgDb ops) = .ok text ∧
    (∃ s, launch ldEnv (mgHost text) true mgEnv (svFlags b!"a.ldif") = .serves s) ∧
    (∃ e, (handlePacket ldEnv (boltSrv ldEnv gobInstance toyCfg 16 false) toyOracle
      (wMsg 7 (wSearch b!"dc=lg" 2 0 (wEq b!"userPassword" b!"pw") [b!"uid"])) [] (mgDb ops)).resps = [.entry 7 e, .searchDone 7 0 (some [])]) ∧
    ∀ s st, launch ldEnv (mgHost text) true mgEnv (svFlags b!"a.ldif") = .serves s → NotReloaded ldEnv ldOrd s st →
      (handlePacket ldEnv (ldifSrv ldEnv ldOrd (askedCfg asciiCase mgEnv (svFlags b!"a.ldif") true [[⟨b!"DC", b!"lg"⟩]]) s.genPwLen s.stats)
        toyOracle (wMsg 7 (wSearch b!"dc=lg" 2 0 (wEq b!"userPassword" b!"pw") [b!"uid"])) [] st).resps = [.searchDone 7 0 (some [])] := by
  obtain ⟨rs, h1, h2, h3⟩ := mg_served (ops := mgOps) (text := mgText) mg_hist mg_ren (by decide +kernel) (by decide +kernel) (by decide +kernel)
    (by decide +kernel) (by decide +kernel)
  refine ⟨mgOps, mgText, by decide +kernel, h3, ⟨⟨b!"uid=Ann,dc=lg", [⟨b!"uid", [b!"Ann"]⟩]⟩, by decide +kernel⟩, fun s st hs hst => ?_⟩
  obtain ⟨found, sent, -, k2, k3, k4⟩ := C99_search_partial (V := ldEnv) asciiCase_lawful ldOrd_lawful (H := mgHost mgText) goLdif_lawful (by decide +kernel) h1
    (by decide +kernel) s hs [[⟨b!"DC", b!"lg"⟩]] (by decide +kernel) st hst [] (Or.inl ⟨rfl, by decide +kernel, rfl⟩)
    b!"dc=lg" [[⟨b!"dc", b!"lg"⟩]] (by decide +kernel) (by decide +kernel) 2 (by omega) (by decide) (by
      intro r hr
      obtain ⟨x, hx, rfl⟩ := (h2 r).1 hr
      rw [mg_dir] at hx
      exact mg_plain x hx)
    (.eq b!"userPassword" b!"pw") _ (wEq_wire _ _) (by decide +kernel : AttrText b!"userPassword") trivial trivial false (by decide +kernel)
    (fun r _ => ⟨ascii_agrees _ _, fun h => by cases h⟩) [b!"uid"] (by decide +kernel) toyOracle 7
  have hnone : found = [] := by
    rw [List.eq_nil_iff_forall_not_mem]
    intro r hr
    obtain ⟨hr1, -, hr3⟩ := (k2 r).1 hr
    obtain ⟨x, hx, rfl⟩ := (h2 r).1 hr1
    rw [Sat] at hr3
    clear hr hr1
    revert hr3
    revert x
    decide +kernel
  subst hnone
  cases k3
  exact congrArg Out.resps k4

end Idm
