import Verif.Proofs.NewUsers
import Verif.Props.Password

/-!
# C55, C56, C66, C67, C68: the generators of idmd
-/
namespace Idm

/-! ## C56: malformed lines -/

/-- C56. When no line has five or six fields, newusers takes the file exactly if every user has all seven fields and no
weak password, and otherwise reports an error; the users it takes are those of the file, in order. -/
theorem C56_reported_partial (strong : Str → Bool) (text : Str)
    (h56 : ∀ l ∈ scanLines text, ∀ fs, userFields l = some fs → fs.length ≠ 5 ∧ fs.length ≠ 6) :
    ((∀ l ∈ scanLines text, GoodLine strong l) ∧ ∃ es, parsePasswdFile strong text = .ok es ∧
      es.map PwEntry.fields = (scanLines text).filterMap fun l => (userFields l).map (·.take 7)) ∨
    ((∃ l ∈ scanLines text, ¬ GoodLine strong l) ∧ parsePasswdFile strong text = .err .other) := by
  unfold parsePasswdFile
  generalize scanLines text = ls at *
  suffices ∀ n, ((∀ l ∈ ls, GoodLine strong l) ∧ ∃ es, parsePwLines strong n ls = .ok es ∧
      es.map PwEntry.fields = ls.filterMap fun l => (userFields l).map (·.take 7)) ∨
    ((∃ l ∈ ls, ¬ GoodLine strong l) ∧ parsePwLines strong n ls = .err .other) from this 0
  induction ls with
  | nil => intro n; exact Or.inl ⟨by simp, [], rfl, rfl⟩
  | cons l ls ih =>
    intro n
    by_cases hg : GoodLine strong l
    · rcases ih (fun l' hl => h56 l' (by simp [hl])) (n + 1) with ⟨h1, _⟩ | ⟨⟨b, hb, hnb⟩, h2⟩
      · have hall : ∀ l' ∈ l :: ls, GoodLine strong l' := fun l' hl => by
          rcases List.mem_cons.1 hl with rfl | hl
          · exact hg
          · exact h1 l' hl
        exact Or.inl ⟨hall, parsePwLines_ok strong _ n hall⟩
      · refine Or.inr ⟨⟨b, by simp [hb], hnb⟩, ?_⟩
        obtain ⟨o, ho, _⟩ := (goodLine_iff strong (n + 1) l).1 hg
        rw [parsePwLines, ho, Res.ok_bind, h2]
        rfl
    · refine Or.inr ⟨⟨l, by simp, hg⟩, ?_⟩
      have hf := h56 l (by simp)
      have : ∀ m, parsePwLine strong m l = .err .other := by
        intro m
        rcases parsePwLine_cases strong m l with ⟨h1, h2⟩ | ⟨fs, h1, h⟩
        · exact absurd (fun fs h => by rw [h1] at h; cases h) hg
        · rcases h with ⟨_, h2⟩ | ⟨ha, hb, h2⟩ | ⟨e, hn, he, hl, ⟨_, _, h2⟩ | ⟨hs, h2⟩⟩
          · exact h2
          · have := hf fs h1
            omega
          · exact h2
          · refine absurd ((goodLine_iff strong m l).2 ⟨some e, h2, by rw [h1]; simp [he], ?_⟩) hg
            intro e' he'
            cases he'
            exact hn
      exact parsePwLines_first strong l ls [] n (by simp) this

/-- C56. A line with fewer than five fields, after lines in order, is an error. -/
theorem C56_too_few (strong : Str → Bool) (text : Str) (pre rest : List Str) (bad : Str) (fs : List Str)
    (ht : scanLines text = pre ++ bad :: rest) (hpre : ∀ l ∈ pre, GoodLine strong l)
    (hf : userFields bad = some fs) (h5 : fs.length < 5) : parsePasswdFile strong text = .err .other := by
  rw [parsePasswdFile, ht]
  refine parsePwLines_first strong bad rest pre 0 hpre fun m => ?_
  rcases parsePwLine_cases strong m bad with ⟨h1, _⟩ | ⟨fs', h1, h⟩
  · rw [h1] at hf; cases hf
  · rw [h1] at hf
    cases hf
    rcases h with ⟨_, h2⟩ | ⟨_, _, _⟩ | ⟨_, _, _, _, _⟩
    · exact h2
    · omega
    · omega

/-- C56 is false for five and six fields: newusers panics. -/
theorem C56_five_fields_fails (strong : Str → Bool) (text : Str) (pre rest : List Str) (bad : Str) (fs : List Str)
    (ht : scanLines text = pre ++ bad :: rest) (hpre : ∀ l ∈ pre, GoodLine strong l)
    (hf : userFields bad = some fs) (h56 : fs.length = 5 ∨ fs.length = 6) : parsePasswdFile strong text = .panic := by
  rw [parsePasswdFile, ht]
  refine parsePwLines_panic strong bad rest pre 0 hpre fun m => ?_
  rcases parsePwLine_cases strong m bad with ⟨h1, _⟩ | ⟨fs', h1, h⟩
  · rw [h1] at hf; cases hf
  · rw [h1] at hf
    cases hf
    rcases h with ⟨_, _⟩ | ⟨_, _, h2⟩ | ⟨_, _, _, _, _⟩
    · omega
    · exact h2
    · omega

example : parsePasswdFile (fun _ => true) b!"# users\nbob:pw:1:1:Bob\n" = .panic ∧
    parsePasswdFile (fun _ => true) b!"# users\nbob:pw:1:1\n" = .err .other ∧
    (parsePasswdFile (fun _ => true) b!"# users\nbob:pw:1:1:Bob:/:/bin/sh\n\n" =
      .ok [⟨2, b!"bob", b!"pw", b!"1", b!"1", b!"Bob", b!"/", b!"/bin/sh"⟩]) := by decide +kernel

example : userFields b!"bob:pw:1:1" = some [b!"bob", b!"pw", b!"1", b!"1"] := by decide +kernel

/-! ## C55 and C66: numbers -/

/-- What a run of newusers is made of. -/
theorem outputLDIF_parts {strong : Str → Bool} {hash : Str → Option Str} {md text : Str} {es : List PwEntry}
    {recs : List UserRec} {fin : Bool} (hes : parsePasswdFile strong text = .ok es)
    (h : outputLDIF strong hash md text = .ok (recs, fin)) :
    ∃ ds last, preprocess 1000 es = some (ds, last) ∧ genUsers hash md last 1000 (es.zip ds) = (recs, fin) := by
  unfold outputLDIF at h
  rw [hes] at h
  simp only at h
  cases hp : preprocess 1000 es with
  | none => rw [hp] at h; cases h
  | some q =>
    obtain ⟨ds, last⟩ := q
    rw [hp] at h
    simp only [Res.ok.injEq] at h
    exact ⟨ds, last, rfl, h⟩

theorem zip_get {α β : Type} {es : List α} {ds : List β} {i : Nat} {e : α} (hl : ds.length = es.length)
    (he : es[i]? = some e) : ∃ d, (es.zip ds)[i]? = some (e, d) := by
  have hi : i < es.length := (List.getElem?_eq_some_iff.1 he).1
  have hd : ds[i]? = some ds[i] := List.getElem?_eq_getElem (by omega)
  refine ⟨ds[i], ?_⟩
  rw [List.getElem?_zip_eq_some]
  exact ⟨he, hd⟩

theorem countP_take_mono {α : Type} (p : α → Bool) (l : List α) {i j : Nat} (h : i ≤ j) :
    (l.take i).countP p ≤ (l.take j).countP p := by
  rw [← List.take_append_drop i (l.take j), List.take_take, Nat.min_eq_left h, List.countP_append]
  omega

theorem countP_take_strict {α : Type} (p : α → Bool) (l : List α) {i j : Nat} {x : α} (h : i < j) (hj : l[j]? = some x)
    (hx : p x = true) : (l.take (i + 1)).countP p < (l.take (j + 1)).countP p := by
  have hm := countP_take_mono p l (show i + 1 ≤ j from h)
  rw [List.take_succ (i := j), List.countP_append, hj]
  simp only [Option.toList_some, List.countP_singleton, hx, if_true]
  omega

/-- The numbers printed for the users, when the counter does not reach the end of its range. -/
theorem output_numbers {strong : Str → Bool} {hash : Str → Option Str} {md text : Str} {es : List PwEntry}
    {recs : List UserRec} {fin : Bool} (hes : parsePasswdFile strong text = .ok es)
    (h : outputLDIF strong hash md text = .ok (recs, fin)) (hroom : ∀ n ∈ givenNumbers es, n + es.length < 2 ^ 63)
    (hsmall : 1000 + es.length < 2 ^ 63) :
    ∃ (last : Int) (k : Nat → Nat), 1000 ≤ last ∧ (∀ n ∈ givenNumbers es, n ≤ last) ∧
      (last = 1000 ∨ last ∈ givenNumbers es) ∧
      (∀ i, k i = ((es.take (i + 1)).countP lacksNumber)) ∧
      ∀ (i : Nat) (e : PwEntry) (r : UserRec), es[i]? = some e → recs[i]? = some r →
        r.name = e.name ∧ r.line = e.line ∧
        (e.uid = [] → r.uidNumber = last + k i) ∧ (e.gid = [] → r.gidNumber = some (last + k i)) ∧
        (∀ u, givenNumber e.uid = some u → u ≠ 0 → r.uidNumber = u) ∧
        (∀ g, givenNumber e.gid = some g → r.gidNumber = if g = 0 then none else some g) ∧
        (e.uid ≠ [] → ∃ u, givenNumber e.uid = some u) ∧ (e.gid ≠ [] → ∃ g, givenNumber e.gid = some g) := by
  obtain ⟨ds, last, hp, hg⟩ := outputLDIF_parts hes h
  obtain ⟨h1, h2, h3, h4, h5⟩ := preprocess_spec es 1000 ds last hp
  refine ⟨last, fun i => (es.take (i + 1)).countP lacksNumber, h3, h4, h5, fun _ => rfl, ?_⟩
  have hb : last + (es.zip ds).length < 2 ^ 63 := by
    rw [List.length_zip, h1, Nat.min_self]
    rcases h5 with h5 | h5
    · omega
    · exact hroom last h5
  have hn : ∀ p ∈ es.zip ds, p.1.uid ≠ [] → p.1.gid ≠ [] → p.2.1 ≠ none ∧ p.2.2 ≠ none := by
    intro p hp hu hg
    obtain ⟨_, _, e1, e2⟩ := entryNumbers_spec (h2 p hp)
    exact ⟨fun h => hu (e1.1 h), fun h => hg (e2.1 h)⟩
  intro i e r he hr
  obtain ⟨d, hd⟩ := zip_get h1 he
  obtain ⟨e1, e2, e3, e4⟩ := entryNumbers_spec (h2 (e, d) (List.mem_of_getElem? hd))
  have hr' : (genUsers hash md last 1000 (es.zip ds)).1[i]? = some r := by rw [hg]; exact hr
  obtain ⟨g1, g2, g3, g4, g5, g6⟩ := genUsers_get hash md (es.zip ds) last 1000 hb h3 hn i (e, d) r hd hr'
  have hc : ((es.zip ds).take (i + 1)).countP (fun q => lacksNumber q.1) = (es.take (i + 1)).countP lacksNumber := by
    have : ((es.zip ds).take (i + 1)).map Prod.fst = es.take (i + 1) := by
      rw [List.map_take, List.map_fst_zip (by omega)]
    rw [← this, List.countP_map]
    rfl
  rw [hc] at g3 g4
  have hsome : ∀ o : Option Int, o ≠ none → ∃ u, o = some u := by
    intro o ho
    cases o with
    | none => exact absurd rfl ho
    | some u => exact ⟨u, rfl⟩
  refine ⟨g1, g2, fun h => g3 (e3.2 h), fun h => g4 (e4.2 h), fun u hu => g5 u (by rw [e1]; exact hu),
    fun g hg => g6 g (by rw [e2]; exact hg), fun h => ?_, fun h => ?_⟩
  · exact hsome _ (by rw [← e1]; exact fun h' => h (e3.1 h'))
  · exact hsome _ (by rw [← e2]; exact fun h' => h (e4.1 h'))

/-- C55. The number given to a user without one differs from every number in the input and from the numbers of all other
users and groups printed. Missing: an explicit user number of 0, and numbers at the end of the range of 64 bits. -/
theorem C55_unused_partial (strong : Str → Bool) (hash : Str → Option Str) (md text : Str) (es : List PwEntry)
    (recs : List UserRec) (fin : Bool) (hes : parsePasswdFile strong text = .ok es)
    (h : outputLDIF strong hash md text = .ok (recs, fin))
    (hzero : ∀ e ∈ es, givenNumber e.uid ≠ some 0)
    (hroom : ∀ n ∈ givenNumbers es, n + es.length < 2 ^ 63) (hsmall : 1000 + es.length < 2 ^ 63)
    (i : Nat) (e : PwEntry) (r : UserRec) (he : es[i]? = some e) (hr : recs[i]? = some r) :
    (e.uid = [] → r.uidNumber ∉ givenNumbers es ∧
      ∀ j r', j ≠ i → recs[j]? = some r' → r'.uidNumber ≠ r.uidNumber ∧ r'.gidNumber ≠ some r.uidNumber) ∧
    (e.gid = [] → ∃ g, r.gidNumber = some g ∧ g ∉ givenNumbers es ∧
      ∀ j r', j ≠ i → recs[j]? = some r' → r'.gidNumber ≠ some g ∧ r'.uidNumber ≠ g) := by
  obtain ⟨last, k, h1, h2, h3, hk, hall⟩ := output_numbers hes h hroom hsmall
  obtain ⟨ds, last', hp, hg⟩ := outputLDIF_parts hes h
  have hlen : recs.length ≤ es.length := by
    have : ∀ (ps : List (PwEntry × (Option Int × Option Int))) (a : Int) (t : UInt64),
        (genUsers hash md a t ps).1.length ≤ ps.length := by
      intro ps
      induction ps with
      | nil => intro _ _; exact Nat.le_refl _
      | cons p ps ih =>
        intro a t
        obtain ⟨e, d⟩ := p
        rw [genUsers]
        cases genUser hash md a t e d with
        | none => simp
        | some q => simp only [List.length_cons]; exact Nat.succ_le_succ (ih _ _)
    have h' := this (es.zip ds) last' 1000
    rw [hg, List.length_zip] at h'
    simp only at h'
    omega
  have hfresh : lacksNumber e = true → last + k i ∉ givenNumbers es := by
    intro hl hm
    have := h2 _ hm
    have hk1 : 1 ≤ k i := by
      rw [hk]
      have : e ∈ es.take (i + 1) := List.mem_of_getElem? (i := i) (by rw [List.getElem?_take]; simpa using he)
      exact List.countP_pos_iff.2 ⟨e, this, hl⟩
    omega
  have hgiven : ∀ (j : Nat) (e' : PwEntry) (n : Int), es[j]? = some e' →
      givenNumber e'.uid = some n ∨ givenNumber e'.gid = some n → n ∈ givenNumbers es := by
    intro j e' n he' hn
    refine List.mem_flatMap.2 ⟨e', List.mem_of_getElem? he', ?_⟩
    rcases hn with hn | hn <;> simp [hn]
  have hother : lacksNumber e = true → ∀ j r', j ≠ i → recs[j]? = some r' →
      r'.uidNumber ≠ last + k i ∧ r'.gidNumber ≠ some (last + k i) := by
    intro hl j r' hj hr'
    have hjl : j < es.length := by
      have := (List.getElem?_eq_some_iff.1 hr').1
      omega
    obtain ⟨e', he'⟩ : ∃ e', es[j]? = some e' := ⟨es[j], List.getElem?_eq_getElem hjl⟩
    obtain ⟨_, _, a3, a4, a5, a6, a7, a8⟩ := hall j e' r' he' hr'
    have hkj : lacksNumber e' = true → k j ≠ k i := by
      intro hl'
      rw [hk, hk]
      rcases Nat.lt_or_gt_of_ne hj with hlt | hgt
      · exact Nat.ne_of_lt (countP_take_strict lacksNumber es hlt he hl)
      · exact Nat.ne_of_gt (countP_take_strict lacksNumber es hgt he' hl')
    constructor
    · by_cases hu : e'.uid = []
      · rw [a3 hu]
        have := hkj (by simp [lacksNumber, hu])
        omega
      · obtain ⟨u, hu'⟩ := a7 hu
        have h0 : u ≠ 0 := by
          rintro rfl
          exact hzero e' (List.mem_of_getElem? he') hu'
        rw [a5 u hu' h0]
        intro e0
        exact hfresh hl (e0 ▸ hgiven j e' u he' (Or.inl hu'))
    · by_cases hgd : e'.gid = []
      · rw [a4 hgd]
        have := hkj (by simp [lacksNumber, hgd])
        intro e0
        simp only [Option.some.injEq] at e0
        omega
      · obtain ⟨g, hg'⟩ := a8 hgd
        rw [a6 g hg']
        split
        · simp
        · intro e0
          cases e0
          exact hfresh hl (hgiven j e' _ he' (Or.inr hg'))
  obtain ⟨_, _, b3, b4, _⟩ := hall i e r he hr
  constructor
  · intro hu
    have hl : lacksNumber e = true := by simp [lacksNumber, hu]
    rw [b3 hu]
    exact ⟨hfresh hl, hother hl⟩
  · intro hgd
    have hl : lacksNumber e = true := by simp [lacksNumber, hgd]
    refine ⟨last + k i, b4 hgd, hfresh hl, fun j r' hj hr' => ?_⟩
    exact ⟨(hother hl j r' hj hr').2, (hother hl j r' hj hr').1⟩

/-- C55. The numbers are handed out one after the other, from the largest number in the input on, at least from 1001 on. -/
theorem C55_consecutive_partial (strong : Str → Bool) (hash : Str → Option Str) (md text : Str) (es : List PwEntry)
    (recs : List UserRec) (fin : Bool) (hes : parsePasswdFile strong text = .ok es)
    (h : outputLDIF strong hash md text = .ok (recs, fin))
    (hroom : ∀ n ∈ givenNumbers es, n + es.length < 2 ^ 63) (hsmall : 1000 + es.length < 2 ^ 63) :
    ∃ largest : Int, 1000 ≤ largest ∧ (∀ n ∈ givenNumbers es, n ≤ largest) ∧
      (largest = 1000 ∨ largest ∈ givenNumbers es) ∧
      ∀ (i : Nat) (e : PwEntry) (r : UserRec), es[i]? = some e → recs[i]? = some r →
        (e.uid = [] → r.uidNumber = largest + ((es.take (i + 1)).countP lacksNumber)) ∧
        (e.gid = [] → r.gidNumber = some (largest + ((es.take (i + 1)).countP lacksNumber))) := by
  obtain ⟨last, k, h1, h2, h3, hk, hall⟩ := output_numbers hes h hroom hsmall
  refine ⟨last, h1, h2, h3, fun i e r he hr => ?_⟩
  obtain ⟨_, _, b3, b4, _⟩ := hall i e r he hr
  rw [← hk]
  exact ⟨b3, b4⟩

/-- C55 is false when a user number of 0 is given: that user is printed with a number of the template's counter, which is
also the number given to the next user. -/
theorem C55_zero_fails : ∃ (text : Str) (es : List PwEntry) (recs : List UserRec) (e : PwEntry) (r r' : UserRec),
    parsePasswdFile (fun _ => true) text = .ok es ∧ outputLDIF (fun _ => true) some b!"" text = .ok (recs, true) ∧
    es[1]? = some e ∧ recs[1]? = some r ∧ recs[0]? = some r' ∧ e.uid = [] ∧ r'.uidNumber = r.uidNumber := by
  refine ⟨b!"root:x:0:0:Root:/:sh\nbob:x:::Bob:/:sh\n",
    [⟨1, b!"root", b!"x", b!"0", b!"0", b!"Root", b!"/", b!"sh"⟩, ⟨2, b!"bob", b!"x", [], [], b!"Bob", b!"/", b!"sh"⟩],
    [⟨1, b!"root", 1001, none, some b!"x", [], b!"Root", none, none⟩,
      ⟨2, b!"bob", 1001, some 1001, some b!"x", [], b!"Bob", none, none⟩], _, _, _,
    by decide +kernel, by decide +kernel, rfl, rfl, rfl, rfl, rfl⟩

/-- C55 is false at the end of the range: after the largest 64-bit number newusers goes on with the smallest one, which may
be in the input. -/
theorem C55_wrap_fails : ∃ (text : Str) (es : List PwEntry) (recs : List UserRec) (e : PwEntry) (r : UserRec),
    parsePasswdFile (fun _ => true) text = .ok es ∧ outputLDIF (fun _ => true) some b!"" text = .ok (recs, true) ∧
    es[2]? = some e ∧ recs[2]? = some r ∧ e.uid = [] ∧ r.uidNumber ∈ givenNumbers es := by
  refine ⟨b!"a:x:9223372036854775807:5:A:/:sh\nb:x:-9223372036854775808:5:B:/:sh\nc:x::5:C:/:sh\n",
    [⟨1, b!"a", b!"x", b!"9223372036854775807", b!"5", b!"A", b!"/", b!"sh"⟩,
      ⟨2, b!"b", b!"x", b!"-9223372036854775808", b!"5", b!"B", b!"/", b!"sh"⟩,
      ⟨3, b!"c", b!"x", [], b!"5", b!"C", b!"/", b!"sh"⟩],
    [⟨1, b!"a", 9223372036854775807, some 5, some b!"x", [], b!"A", none, none⟩,
      ⟨2, b!"b", -9223372036854775808, some 5, some b!"x", [], b!"B", none, none⟩,
      ⟨3, b!"c", -9223372036854775808, some 5, some b!"x", [], b!"C", none, none⟩], _, _,
    by decide +kernel, by decide +kernel, rfl, rfl, rfl, by decide +kernel⟩

/-- C66. Numbers given in the input are printed unchanged, unless they are 0. -/
theorem C66_kept_partial (strong : Str → Bool) (hash : Str → Option Str) (md text : Str) (es : List PwEntry)
    (recs : List UserRec) (fin : Bool) (hes : parsePasswdFile strong text = .ok es)
    (h : outputLDIF strong hash md text = .ok (recs, fin))
    (hroom : ∀ n ∈ givenNumbers es, n + es.length < 2 ^ 63) (hsmall : 1000 + es.length < 2 ^ 63)
    (i : Nat) (e : PwEntry) (r : UserRec) (he : es[i]? = some e) (hr : recs[i]? = some r) :
    r.name = e.name ∧ (∀ u, givenNumber e.uid = some u → u ≠ 0 → r.uidNumber = u) ∧
      (∀ g, givenNumber e.gid = some g → g ≠ 0 → r.gidNumber = some g) := by
  obtain ⟨last, k, h1, h2, h3, hk, hall⟩ := output_numbers hes h hroom hsmall
  obtain ⟨b1, _, _, _, b5, b6, _⟩ := hall i e r he hr
  exact ⟨b1, b5, fun g hg h0 => by rw [b6 g hg, if_neg h0]⟩

/-- C66 is false for 0: the user number is replaced and the group number left out. -/
theorem C66_zero_fails : ∃ (text : Str) (es : List PwEntry) (recs : List UserRec) (e : PwEntry) (r : UserRec),
    parsePasswdFile (fun _ => true) text = .ok es ∧ outputLDIF (fun _ => true) some b!"" text = .ok (recs, true) ∧
    es[0]? = some e ∧ recs[0]? = some r ∧ givenNumber e.uid = some 0 ∧ givenNumber e.gid = some 0 ∧
    r.uidNumber = 1001 ∧ r.gidNumber = none := by
  refine ⟨b!"root:x:0:0:Root:/:sh\n", [⟨1, b!"root", b!"x", b!"0", b!"0", b!"Root", b!"/", b!"sh"⟩],
    [⟨1, b!"root", 1001, none, some b!"x", [], b!"Root", none, none⟩], _, _,
    by decide +kernel, by decide +kernel, rfl, rfl, by decide +kernel, by decide +kernel, rfl, rfl⟩

/-- C66. When newusers ends without an error it has printed one record for every user. -/
theorem C66_all_printed (strong : Str → Bool) (hash : Str → Option Str) (md text : Str) (es : List PwEntry)
    (recs : List UserRec) (hes : parsePasswdFile strong text = .ok es)
    (h : outputLDIF strong hash md text = .ok (recs, true)) : recs.length = es.length := by
  obtain ⟨ds, last, hp, hg⟩ := outputLDIF_parts hes h
  have hl := (preprocess_spec es 1000 ds last hp).1
  have := genUsers_length hash md (es.zip ds) last 1000 (by rw [hg])
  rw [hg, List.length_zip] at this
  simp only at this
  omega

/-- A run that meets the hypotheses: two users without number, one with. -/
def nuText : Str := b!"# users\nann:x:::Ann Lee,ann@x.org:/:sh\nbob:x:2000:7:Bob:/:sh\ncyd::::Cyd:/:sh\n"

example : (parsePasswdFile (fun _ => true) nuText = .ok
      [⟨2, b!"ann", b!"x", [], [], b!"Ann Lee,ann@x.org", b!"/", b!"sh"⟩,
       ⟨3, b!"bob", b!"x", b!"2000", b!"7", b!"Bob", b!"/", b!"sh"⟩,
       ⟨4, b!"cyd", [], [], [], b!"Cyd", b!"/", b!"sh"⟩]) ∧
    outputLDIF (fun _ => true) some b!"x.org" nuText = .ok
      ([⟨2, b!"ann", 2001, some 2001, some b!"x", [b!"ann@{{.MailDomain}}"], b!"Ann Lee", some b!"Ann", some b!"Lee"⟩,
        ⟨3, b!"bob", 2000, some 7, some b!"x", [], b!"Bob", none, none⟩,
        ⟨4, b!"cyd", 2002, some 2002, some b!"cyd", [], b!"Cyd", none, none⟩], true) := by decide +kernel

/-! ## C67: passwords -/

/-- The password of every record is the one newusers computes for the user. -/
theorem genUsers_password (hash : Str → Option Str) (md : Str) :
    ∀ (ps : List (PwEntry × (Option Int × Option Int))) (auto : Int) (tpl : UInt64) (i : Nat)
      (p : PwEntry × (Option Int × Option Int)) (r : UserRec), ps[i]? = some p →
      (genUsers hash md auto tpl ps).1[i]? = some r → ∃ pw, newPassword hash p.1 = some pw ∧ r.userPassword = nonEmpty pw := by
  intro ps
  induction ps with
  | nil => intro _ _ i p r h; cases h
  | cons p ps ih =>
    intro auto tpl i p' r hp hr
    obtain ⟨e, d⟩ := p
    rw [genUsers] at hr
    cases hg : genUser hash md auto tpl e d with
    | none => rw [hg] at hr; cases hr
    | some q =>
      obtain ⟨r0, auto', tpl'⟩ := q
      rw [hg] at hr
      simp only at hr
      cases i with
      | zero =>
        simp only [List.getElem?_cons_zero, Option.some.injEq] at hp hr
        subst hp
        subst hr
        unfold genUser at hg
        simp only [Option.bind_eq_bind] at hg
        generalize hpw : newPassword hash e = o at hg
        cases o with
        | none => cases hg
        | some pw =>
          simp only [Option.bind_some, Option.some.injEq, Prod.mk.injEq] at hg
          refine ⟨pw, rfl, ?_⟩
          rw [← hg.1]
      | succ i =>
        simp only [List.getElem?_cons_succ] at hp hr
        exact ih _ _ i p' r hp hr

theorem output_password {strong : Str → Bool} {hash : Str → Option Str} {md text : Str} {es : List PwEntry}
    {recs : List UserRec} {fin : Bool} (hes : parsePasswdFile strong text = .ok es)
    (h : outputLDIF strong hash md text = .ok (recs, fin)) {i : Nat} {e : PwEntry} {r : UserRec}
    (he : es[i]? = some e) (hr : recs[i]? = some r) :
    ∃ pw, newPassword hash e = some pw ∧ r.userPassword = nonEmpty pw := by
  obtain ⟨ds, last, hp, hg⟩ := outputLDIF_parts hes h
  obtain ⟨d, hd⟩ := zip_get (preprocess_spec es 1000 ds last hp).1 he
  exact genUsers_password hash md _ last 1000 i (e, d) r hd (by rw [hg]; exact hr)

/-- `ldappassword.Hash` with a salt for every password, as newusers uses it. -/
def hashFor (K : CryptoEnv) (salt : Str → Str) (alg : Str) (p : Str) : Option Str :=
  match hashPw K (salt p) p alg with
  | .ok h => some h
  | _ => none

/-- C67. With the scheme `{ARGON2}` the password printed for a user accepts the password of the input. -/
theorem C67_given_password (C : CaseEnv) (K : CryptoEnv) (hC : C.Lawful) (hK : K.Lawful) (salt : Str → Str)
    (strong : Str → Bool) (md text : Str) (es : List PwEntry) (recs : List UserRec) (fin : Bool)
    (hes : parsePasswdFile strong text = .ok es)
    (h : outputLDIF strong (hashFor K salt b!"{ARGON2}") md text = .ok (recs, fin))
    (i : Nat) (e : PwEntry) (r : UserRec) (he : es[i]? = some e) (hr : recs[i]? = some r) (hp : e.passwd ≠ []) :
    ∃ stored, r.userPassword = some stored ∧ validatePw C K e.passwd stored = .ok true := by
  obtain ⟨pw, h1, h2⟩ := output_password hes h he hr
  rw [newPassword, if_pos hp, hashFor] at h1
  cases hh : hashPw K (salt e.passwd) e.passwd b!"{ARGON2}" with
  | ok x =>
    rw [hh] at h1
    simp only [Option.some.injEq] at h1
    subst h1
    have hv := C23_argon2_roundtrip (C := C) hC hK _ _ _ hh
    refine ⟨x, ?_, hv⟩
    rw [h2, nonEmpty, if_neg]
    rintro rfl
    cases hv
  | err _ => rw [hh] at h1; cases h1
  | panic => rw [hh] at h1; cases h1
  | hang => rw [hh] at h1; cases h1

/-- C67. With the scheme `{CLEARTEXT}` the password printed accepts the password of the input and no other, unless that looks like a scheme
followed by a hash (`C23_cleartext_brace_fails`). -/
theorem C67_cleartext_partial (C : CaseEnv) (K : CryptoEnv) (hC : C.Lawful) (salt : Str → Str)
    (strong : Str → Bool) (md text : Str) (es : List PwEntry) (recs : List UserRec) (fin : Bool)
    (hes : parsePasswdFile strong text = .ok es)
    (h : outputLDIF strong (hashFor K salt b!"{CLEARTEXT}") md text = .ok (recs, fin))
    (i : Nat) (e : PwEntry) (r : UserRec) (he : es[i]? = some e) (hr : recs[i]? = some r) (hp : e.passwd ≠ []) (hn : ¬ HasScheme e.passwd) :
    ∃ stored, r.userPassword = some stored ∧ ∀ p, validatePw C K p stored = .ok true ↔ p = e.passwd := by
  obtain ⟨pw, h1, h2⟩ := output_password hes h he hr
  rw [newPassword, if_pos hp, hashFor, hashPw, if_pos (.inr rfl)] at h1
  cases h1
  exact ⟨e.passwd, by rw [h2, nonEmpty, if_neg hp], fun p => C23_cleartext hC p e.passwd hp hn⟩

theorem genUsers_count (hash : Str → Option Str) (md : Str) : ∀ (l : List (PwEntry × (Option Int × Option Int))) (auto : Int) (tpl : UInt64),
    (genUsers hash md auto tpl l).1.length = (l.takeWhile fun p => decide (p.1.passwd = [] ∨ hash p.1.passwd ≠ none)).length ∧
    ((genUsers hash md auto tpl l).2 = true ↔ ∀ p ∈ l, p.1.passwd = [] ∨ hash p.1.passwd ≠ none)
  | [], _, _ => ⟨rfl, by simp [genUsers]⟩
  | (e, d) :: rest, auto, tpl => by
    rw [genUsers]
    by_cases hc : e.passwd = [] ∨ hash e.passwd ≠ none
    · obtain ⟨pw, hpw⟩ : ∃ pw, newPassword hash e = some pw := by
        rw [newPassword]
        by_cases he : e.passwd = []
        · exact ⟨_, if_neg (not_not_intro he)⟩
        · rw [if_pos he]
          cases hh : hash e.passwd with
          | none => exact absurd hh (hc.resolve_left he)
          | some x => exact ⟨x, rfl⟩
      obtain ⟨r, auto', tpl', hg⟩ : ∃ r auto' tpl', genUser hash md auto tpl e d = some (r, auto', tpl') := by
        rw [genUser, hpw]
        exact ⟨_, _, _, rfl⟩
      obtain ⟨ih1, ih2⟩ := genUsers_count hash md rest auto' tpl'
      rw [hg]
      refine ⟨?_, ?_⟩
      · rw [List.takeWhile_cons, if_pos (decide_eq_true hc), List.length_cons, List.length_cons, ih1]
      · exact ih2.trans ⟨fun h p hp => by
          rcases List.mem_cons.1 hp with rfl | hp
          · exact hc
          · exact h p hp, fun h p hp => h p (List.mem_cons_of_mem _ hp)⟩
    · have hg : genUser hash md auto tpl e d = none := by
        rw [genUser, newPassword, if_pos (fun h => hc (.inl h))]
        cases hh : hash e.passwd with
        | none => rfl
        | some x => exact absurd (.inr (by rw [hh]; exact fun h => by cases h)) hc
      rw [hg]
      refine ⟨?_, ?_⟩
      · rw [List.takeWhile_cons, if_neg (by rw [decide_eq_true_eq]; exact hc)]; rfl
      · exact ⟨(fun h => by cases h), fun h => absurd (h _ List.mem_cons_self) hc⟩

theorem takeWhile_zip_fst {α β : Type} (p : α → Bool) : ∀ (l : List α) (m : List β), m.length = l.length →
    ((l.zip m).takeWhile fun x => p x.1).length = (l.takeWhile p).length
  | [], _, _ => by simp
  | a :: l, [], h => by simp at h
  | a :: l, b :: m, h => by
    have ih := takeWhile_zip_fst p l m (by simpa using h)
    rw [List.zip_cons_cons, List.takeWhile_cons, List.takeWhile_cons]
    by_cases hp : p a = true
    · simp only [hp, if_true, List.length_cons, ih]
    · simp only [hp, Bool.false_eq_true, if_false, List.length_nil]

/-- C67. Users are printed up to the first whose password cannot be hashed; there the command stops with an error. -/
theorem C67_printed (strong : Str → Bool) (hash : Str → Option Str) (md text : Str) (es : List PwEntry) (recs : List UserRec) (fin : Bool)
    (hes : parsePasswdFile strong text = .ok es) (h : outputLDIF strong hash md text = .ok (recs, fin)) :
    recs.length = (es.takeWhile fun e => decide (e.passwd = [] ∨ hash e.passwd ≠ none)).length ∧
    (fin = true ↔ ∀ e ∈ es, e.passwd = [] ∨ hash e.passwd ≠ none) := by
  obtain ⟨ds, last, hp, hg⟩ := outputLDIF_parts hes h
  have hl := (preprocess_spec es 1000 ds last hp).1
  obtain ⟨h1, h2⟩ := genUsers_count hash md (es.zip ds) last 1000
  rw [hg] at h1 h2
  refine ⟨h1.trans (takeWhile_zip_fst (fun e : PwEntry => decide (e.passwd = [] ∨ hash e.passwd ≠ none)) es ds hl), h2.trans ⟨fun h e he => ?_, fun h p hp => h _ (List.of_mem_zip (a := p.1) (b := p.2) hp).1⟩⟩
  obtain ⟨i, hi⟩ := List.mem_iff_getElem?.1 he
  obtain ⟨d, hd⟩ := zip_get hl hi
  exact h _ (List.mem_of_getElem? hd)

/-- C67. With a scheme other than `{ARGON2}`, `{CLEARTEXT}` and none, no user with a password is printed, and none after one. -/
theorem C67_unknown_scheme (K : CryptoEnv) (salt : Str → Str) (alg : Str) (halg : alg ≠ [] ∧ alg ≠ b!"{CLEARTEXT}" ∧ alg ≠ b!"{ARGON2}")
    (strong : Str → Bool) (md text : Str) (es : List PwEntry) (recs : List UserRec) (fin : Bool)
    (hes : parsePasswdFile strong text = .ok es) (h : outputLDIF strong (hashFor K salt alg) md text = .ok (recs, fin)) :
    recs.length = (es.takeWhile fun e => e.passwd.isEmpty).length ∧ (fin = true ↔ ∀ e ∈ es, e.passwd = []) := by
  obtain ⟨h1, h2⟩ := C67_printed strong _ md text es recs fin hes h
  have hn : ∀ p, hashFor K salt alg p = none := by
    intro p
    rw [hashFor, hashPw, if_neg (fun h => h.elim halg.1 halg.2.1), if_neg halg.2.2]
  have hx : (fun e : PwEntry => decide (e.passwd = [] ∨ hashFor K salt alg e.passwd ≠ none)) = fun e => e.passwd.isEmpty := by
    funext e
    cases hp : e.passwd <;> simp [hn]
  rw [hx] at h1
  refine ⟨h1, h2.trans ⟨fun h e he => (h e he).resolve_right (fun h => h (hn _)), fun h e he => .inl (h e he)⟩⟩

/-- C67 is false of `{CLEARTEXT}` and a password that looks like a scheme and a hash: the user cannot log in with it. -/
theorem C67_cleartext_fails : ∃ recs stored, outputLDIF (fun _ => true) (hashFor toyCrypto (fun _ => []) b!"{CLEARTEXT}") b!"x.org" b!"ann:{x}pw:7:8:Ann:/:sh\n" = .ok (recs, true) ∧
    (∃ r ∈ recs, r.userPassword = some stored) ∧ validatePw asciiCase toyCrypto b!"{x}pw" stored ≠ .ok true := by
  refine ⟨[⟨1, b!"ann", 7, some 8, some b!"{x}pw", [], b!"Ann", none, none⟩], b!"{x}pw", by decide +kernel, ⟨_, List.mem_cons_self, rfl⟩, by decide +kernel⟩

-- the hypotheses of C67_cleartext_partial and C67_unknown_scheme are met
example : ∃ es r, parsePasswdFile (fun _ => true) b!"ann:pw:7:8:Ann:/:sh\nbob::7:8:Bob:/:sh\n" = .ok es ∧ (es[0]?.map (·.passwd)) = some b!"pw" ∧ ¬ HasScheme b!"pw" ∧
    outputLDIF (fun _ => true) (hashFor toyCrypto (fun _ => []) b!"{CLEARTEXT}") b!"x.org" b!"ann:pw:7:8:Ann:/:sh\nbob::7:8:Bob:/:sh\n" = .ok ([r, ⟨2, b!"bob", 7, some 8, some b!"bob", [], b!"Bob", none, none⟩], true) ∧
    outputLDIF (fun _ => true) (hashFor toyCrypto (fun _ => []) b!"{SSHA}") b!"x.org" b!"bob::7:8:Bob:/:sh\nann:pw:7:8:Ann:/:sh\n" = .ok ([⟨1, b!"bob", 7, some 8, some b!"bob", [], b!"Bob", none, none⟩], false) := by
  refine ⟨[⟨1, b!"ann", b!"pw", b!"7", b!"8", b!"Ann", b!"/", b!"sh"⟩, ⟨2, b!"bob", [], b!"7", b!"8", b!"Bob", b!"/", b!"sh"⟩], ⟨1, b!"ann", 7, some 8, some b!"pw", [], b!"Ann", none, none⟩, by decide +kernel, by decide +kernel, ?_, by decide +kernel, by decide +kernel⟩
  rintro ⟨s, t, h⟩
  cases h

/-- C67. A user without password in the input is printed with the name as password: anybody who knows the name can log
in. -/
theorem C67_no_password_fails (C : CaseEnv) (K : CryptoEnv) (hC : C.Lawful) (hash : Str → Option Str)
    (strong : Str → Bool) (md text : Str) (es : List PwEntry) (recs : List UserRec) (fin : Bool)
    (hes : parsePasswdFile strong text = .ok es) (h : outputLDIF strong hash md text = .ok (recs, fin))
    (i : Nat) (e : PwEntry) (r : UserRec) (he : es[i]? = some e) (hr : recs[i]? = some r) (hp : e.passwd = [])
    (hne : e.name ≠ []) (hn : ¬ HasScheme e.name) :
    r.userPassword = some e.name ∧ validatePw C K e.name e.name = .ok true := by
  obtain ⟨pw, h1, h2⟩ := output_password hes h he hr
  rw [newPassword, if_neg (by simp [hp])] at h1
  cases h1
  exact ⟨by rw [h2, nonEmpty, if_neg hne], (C23_cleartext hC _ _ hne hn).2 rfl⟩

example : (outputLDIF (fun _ => true) (hashFor toyCrypto (fun _ => []) b!"{ARGON2}") b!"x.org" nuText) = .ok
      ([⟨2, b!"ann", 2001, some 2001, some b!"{ARGON2}$argon2id$x", [b!"ann@{{.MailDomain}}"], b!"Ann Lee", some b!"Ann",
          some b!"Lee"⟩,
        ⟨3, b!"bob", 2000, some 7, some b!"{ARGON2}$argon2id$x", [], b!"Bob", none, none⟩,
        ⟨4, b!"cyd", 2002, some 2002, some b!"cyd", [], b!"Cyd", none, none⟩], true) := by decide +kernel

/-! ## C68: gen passwd -/

/-- C68. With `{ARGON2}` what is printed accepts the secret; a hash contains no percent sign. -/
theorem C68_argon2 (C : CaseEnv) (K : CryptoEnv) (hC : C.Lawful) (hK : K.Lawful)
    (strong : Str → Bool) (salt secret out : Str)
    (hchars : ∀ h, K.argonCreate secret salt = some h → (37 : UInt8) ∉ h)
    (h : passwdTool K strong salt secret b!"{ARGON2}" = .ok out) : validatePw C K secret out = .ok true := by
  unfold passwdTool at h
  split at h
  · cases h
  split at h
  · cases h
  cases hh : hashPw K salt secret b!"{ARGON2}" with
  | ok x =>
    rw [hh] at h
    simp only [Res.ok.injEq] at h
    have hx : (37 : UInt8) ∉ x := by
      unfold hashPw at hh
      rw [if_neg (by decide), if_pos rfl] at hh
      cases hc : K.argonCreate secret salt with
      | none => rw [hc] at hh; cases hh
      | some y =>
        rw [hc] at hh
        simp only [Res.ok.injEq] at hh
        subst hh
        intro hm
        rcases List.mem_append.1 hm with hm | hm
        · revert hm; decide
        · exact hchars _ hc hm
    rw [printf, printfGo_plain x _ hx (Nat.le_refl _)] at h
    subst h
    exact C23_argon2_roundtrip hC hK _ _ _ hh
  | err _ => rw [hh] at h; cases h
  | panic => rw [hh] at h; cases h
  | hang => rw [hh] at h; cases h

/-- C68 for cleartext, missing: secrets with a percent sign, and those of the form `{..}..`. -/
theorem C68_cleartext_partial (C : CaseEnv) (K : CryptoEnv) (hC : C.Lawful) (strong : Str → Bool) (salt secret alg out : Str)
    (halg : alg = [] ∨ alg = b!"{CLEARTEXT}") (hp : (37 : UInt8) ∉ secret) (hn : ¬ HasScheme secret)
    (h : passwdTool K strong salt secret alg = .ok out) : validatePw C K secret out = .ok true := by
  unfold passwdTool at h
  split at h
  · cases h
  rename_i hne
  split at h
  · cases h
  have hs : secret ≠ [] := by
    rintro rfl
    exact hne rfl
  rw [hashPw, if_pos halg] at h
  simp only [Res.ok.injEq] at h
  rw [printf, printfGo_plain secret _ hp (Nat.le_refl _)] at h
  subst h
  exact (C23_cleartext hC _ _ hs hn).2 rfl

/-- C68 is false: the hash is used as a format, so a percent sign in a cleartext secret, given or generated, is printed
wrongly. -/
theorem C68_percent_fails : passwdTool toyCrypto (fun _ => true) [] b!"w9%%-Xy2" b!"{CLEARTEXT}" = .ok b!"w9%-Xy2" ∧
    passwdTool toyCrypto (fun _ => true) [] b!"w9%-Xy2" b!"{CLEARTEXT}" = .ok b!"w9%!X(MISSING)y2" ∧
    validatePw asciiCase toyCrypto b!"w9%%-Xy2" b!"w9%-Xy2" ≠ .ok true := by decide +kernel

example : ∀ h, toyCrypto.argonCreate b!"secret" [] = some h → (37 : UInt8) ∉ h := by
  intro h e
  simp only [toyCrypto, Option.some.injEq] at e
  subst e
  decide

example : passwdTool toyCrypto (fun _ => true) [] b!"secret" b!"{ARGON2}" = .ok b!"{ARGON2}$argon2id$secret" := by
  decide +kernel

end Idm
