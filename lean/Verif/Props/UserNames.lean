import Verif.Spec.UserNames
import Verif.Props.NewUsers
/-!
# C94: names and mail addresses of newusers
-/
namespace Idm

/-! ## The regular expression -/

theorem rx_set (p : UInt8 → Bool) (s : Str) : (Rx.set p).Matches s ↔ ∃ c, s = [c] ∧ p c = true := by
  constructor
  · rintro ⟨⟩; exact ⟨_, rfl, by assumption⟩
  · rintro ⟨c, rfl, h⟩; exact .set p c h

theorem rx_seq (a b : Rx) (s : Str) : (Rx.seq a b).Matches s ↔ ∃ x y, s = x ++ y ∧ a.Matches x ∧ b.Matches y := by
  constructor
  · intro h
    cases h with
    | seq _ _ x y h1 h2 => exact ⟨x, y, rfl, h1, h2⟩
  · rintro ⟨x, y, rfl, h1, h2⟩; exact .seq a b x y h1 h2

theorem rx_upTo_set (p : UInt8 → Bool) : ∀ (n : Nat) (s : Str), (Rx.upTo n (.set p)).Matches s ↔ s.length ≤ n ∧ s.all p = true := by
  intro n
  induction n with
  | zero =>
    intro s
    constructor
    · intro h; cases h; simp
    · rintro ⟨h, -⟩
      have : s = [] := List.length_eq_zero_iff.1 (by omega)
      subst this
      exact .upToNone _ _
  | succ n ih =>
    intro s
    constructor
    · intro h
      cases h with
      | upToNone => simp
      | upToMore _ _ x t h1 h2 =>
        obtain ⟨c, rfl, hc⟩ := (rx_set p x).1 h1
        obtain ⟨h3, h4⟩ := (ih t).1 h2
        simp only [List.singleton_append, List.length_cons, List.all_cons, hc, h4, Bool.and_self, and_true]
        omega
    · rintro ⟨h1, h2⟩
      cases s with
      | nil => exact .upToNone _ _
      | cons c t =>
        simp only [List.length_cons, List.all_cons, Bool.and_eq_true] at h1 h2
        exact .upToMore n _ [c] t (.set p c h2.1) ((ih t).2 ⟨by omega, h2.2⟩)

theorem rx_many_set (p : UInt8 → Bool) : ∀ (s : Str), (Rx.many (.set p)).Matches s ↔ s.all p = true := by
  intro s
  constructor
  · intro h
    generalize hr : Rx.many (.set p) = r at h
    induction h with
    | manyNone => rfl
    | manyMore a x t h1 _ _ ih =>
      cases hr
      obtain ⟨c, rfl, hc⟩ := (rx_set p x).1 h1
      simp [hc, ih rfl]
    | set | seq | upToNone | upToMore => cases hr
  · intro h
    induction s with
    | nil => exact .manyNone _
    | cons c t ih =>
      simp only [List.all_cons, Bool.and_eq_true] at h
      exact .manyMore _ [c] t (.set p c h.1) (ih h.2)

theorem rx_upTo_one (a : Rx) (s : Str) : (Rx.upTo 1 a).Matches s ↔ s = [] ∨ a.Matches s := by
  constructor
  · intro h
    cases h with
    | upToNone => exact .inl rfl
    | upToMore _ _ x t h1 h2 => cases h2; right; simpa using h1
  · rintro (rfl | h)
    · exact .upToNone _ _
    · have := Rx.Matches.upToMore 0 a s [] h (.upToNone _ _)
      simpa using this

theorem rxAlnum_eq (more : Str) : rxAlnum more = .set fun c => isAlnumByte c || more.contains c := by
  unfold rxAlnum
  congr 1
  funext c
  have : ∀ c : UInt8, ((97 ≤ c && c ≤ 122) || (65 ≤ c && c ≤ 90) || (48 ≤ c && c ≤ 57)) = isAlnumByte c := by decide +kernel
  rw [this]

theorem rxAlnum_nil : rxAlnum [] = .set isAlnumByte := by
  rw [rxAlnum_eq]
  congr 1
  funext c
  simp

theorem rx_label (s : Str) : rxLabel.Matches s ↔ isMailLabel s = true := by
  unfold rxLabel
  rw [rx_seq]
  rw [rxAlnum_nil, rxAlnum_eq]
  simp only [rx_upTo_one, rx_seq, rx_upTo_set, rx_set]
  have hm : ∀ c : UInt8, (b!"-").contains c = (c == chMinus) := by decide +kernel
  simp only [hm]
  unfold isMailLabel
  constructor
  · rintro ⟨_, y, rfl, ⟨c, rfl, hc⟩, rfl | ⟨mid, _, rfl, ⟨h1, h2⟩, z, rfl, hz⟩⟩
    · simp [hc]
    · have : (c :: (mid ++ [z])).getLast? = some z := by
        rw [show c :: (mid ++ [z]) = (c :: mid) ++ [z] by simp, List.getLast?_append]; simp
      rw [List.singleton_append, this]
      simp only [List.isEmpty_cons, Bool.not_false, List.length_cons, List.length_append, List.length_nil, List.all_cons, List.all_append,
        List.head?_cons, Option.all_some, hc, hz, h2, Bool.true_or, Bool.true_and, Bool.and_true, List.all_nil, decide_eq_true_eq]
      omega
  · intro h
    simp only [Bool.and_eq_true, decide_eq_true_eq] at h
    obtain ⟨⟨⟨⟨h1, h2⟩, h3⟩, h4⟩, h5⟩ := h
    cases s with
    | nil => simp at h1
    | cons c t =>
      refine ⟨[c], t, rfl, ⟨c, rfl, by simpa using h4⟩, ?_⟩
      rcases List.eq_nil_or_concat t with rfl | ⟨mid, z, rfl⟩
      · exact .inl rfl
      · right
        rw [List.concat_eq_append] at *
        have hl : (c :: (mid ++ [z])).getLast? = some z := by
          rw [show c :: (mid ++ [z]) = (c :: mid) ++ [z] by simp, List.getLast?_append]; simp
        rw [hl] at h5
        simp only [List.all_cons, List.all_append, Bool.and_eq_true] at h3
        simp only [List.length_cons, List.length_append, List.length_nil] at h2
        exact ⟨mid, [z], rfl, ⟨by omega, h3.2.1⟩, z, rfl, by simpa using h5⟩

theorem label_no_dot {s : Str} (h : isMailLabel s = true) : 46 ∉ s ∧ 64 ∉ s := by
  unfold isMailLabel at h
  simp only [Bool.and_eq_true] at h
  have h3 := List.all_eq_true.1 h.1.1.2
  constructor <;> (intro hm; have := h3 _ hm; revert this; decide)

/-- The rest of the domain. -/
theorem rx_labels (s : Str) : (Rx.many (.seq (.set (· == 46)) rxLabel)).Matches s ↔
    ∃ ls : List Str, (∀ l ∈ ls, isMailLabel l = true) ∧ s = ls.flatMap (46 :: ·) := by
  constructor
  · intro h
    generalize hr : Rx.many (.seq (.set (· == 46)) rxLabel) = r at h
    induction h with
    | manyNone => exact ⟨[], by simp, rfl⟩
    | manyMore a x t h1 _ _ ih =>
      cases hr
      obtain ⟨d, l, rfl, hd, hl⟩ := (rx_seq _ _ _).1 h1
      obtain ⟨c, rfl, hc⟩ := (rx_set _ _).1 hd
      obtain ⟨ls, h3, rfl⟩ := ih rfl
      have hc : c = 46 := by simpa using hc
      subst hc
      refine ⟨l :: ls, ?_, by simp⟩
      intro x hx
      rcases List.mem_cons.1 hx with rfl | hx
      · exact (rx_label _).1 hl
      · exact h3 x hx
    | set | seq | upToNone | upToMore => cases hr
  · rintro ⟨ls, h, rfl⟩
    induction ls with
    | nil => exact .manyNone _
    | cons l ls ih =>
      rw [List.flatMap_cons]
      exact .manyMore _ _ _ (.seq _ _ [46] l (.set _ _ (by decide)) ((rx_label l).2 (h l (by simp)))) (ih fun x hx => h x (by simp [hx]))

theorem joinWith_flatMap (sep : UInt8) (p : Str) (ps : List Str) : joinWith sep (p :: ps) = p ++ ps.flatMap (sep :: ·) := by
  induction ps generalizing p with
  | nil => simp [joinWith]
  | cons q qs ih => rw [joinWith_cons_ne p (by simp), ih]; simp

theorem rx_domain (d : Str) : (Rx.seq rxLabel (.many (.seq (.set (· == 46)) rxLabel))).Matches d ↔ (splitOn chDot d).all isMailLabel = true := by
  rw [rx_seq]
  constructor
  · rintro ⟨l, y, rfl, h1, h2⟩
    obtain ⟨ls, h3, rfl⟩ := (rx_labels y).1 h2
    have h1 := (rx_label l).1 h1
    have hall : ∀ x ∈ l :: ls, isMailLabel x = true := by
      intro x hx
      rcases List.mem_cons.1 hx with rfl | hx
      · exact h1
      · exact h3 x hx
    rw [← joinWith_flatMap, show (46 : UInt8) = chDot from rfl, splitOn_joinWith (sep := chDot) (by simp) fun p hp => (label_no_dot (hall p hp)).1]
    exact List.all_eq_true.2 hall
  · intro h
    have e := joinWith_splitOn chDot d
    cases hs : splitOn chDot d with
    | nil => exact absurd hs (splitOn_ne_nil _ _)
    | cons l ls =>
      rw [hs] at h e
      have h := List.all_eq_true.1 h
      refine ⟨l, ls.flatMap (46 :: ·), ?_, (rx_label l).2 (h l (by simp)), (rx_labels _).2 ⟨ls, fun x hx => h x (by simp [hx]), rfl⟩⟩
      rw [← e, joinWith_flatMap]; rfl

/-- C94: the test for mail addresses is the expression of the HTML standard. -/
theorem C94_address (s : Str) : isValidEmail s = true ↔ rxMail.Matches s := by
  have hlocal : ∀ c : UInt8, (isAlnumByte c || (b!".!#$%&'*+/=?^_`{|}~-").contains c) = isMailLocal c := by decide +kernel
  unfold rxMail
  rw [rx_seq]
  have hl : ∀ l : Str, (Rx.seq (rxAlnum b!".!#$%&'*+/=?^_`{|}~-") (.many (rxAlnum b!".!#$%&'*+/=?^_`{|}~-"))).Matches l ↔ l ≠ [] ∧ l.all isMailLocal = true := by
    intro l
    rw [rx_seq]
    rw [rxAlnum_eq]
    simp only [rx_many_set, rx_set, hlocal]
    constructor
    · rintro ⟨_, y, rfl, ⟨c, rfl, hc⟩, hy⟩
      simp only [List.singleton_append, ne_eq, reduceCtorEq, not_false_eq_true, List.all_cons, hc, hy, Bool.and_self, and_self]
    · rintro ⟨hne, ha⟩
      cases l with
      | nil => exact absurd rfl hne
      | cons c t =>
        simp only [List.all_cons, Bool.and_eq_true] at ha
        exact ⟨[c], t, rfl, ⟨c, rfl, ha.1⟩, ha.2⟩
  have hat : ∀ l : Str, l.all isMailLocal = true → 64 ∉ l := by
    intro l h hm
    have := List.all_eq_true.1 h _ hm
    revert this; decide
  constructor
  · intro h
    unfold isValidEmail at h
    split at h
    · rename_i l d hs
      simp only [Bool.and_eq_true, Bool.not_eq_true'] at h
      have e := joinWith_splitOn chAt s
      rw [hs] at e
      refine ⟨l, 64 :: d, ?_, (hl l).2 ⟨?_, h.1.2⟩, ?_⟩
      · rw [← e]; rfl
      · intro he; rw [he] at h; simp at h
      · exact .seq _ _ [64] d (.set _ _ (by decide)) ((rx_domain d).2 h.2)
    · cases h
  · rintro ⟨l, y, rfl, h1, h2⟩
    obtain ⟨a, d, rfl, h3, h4⟩ := (rx_seq _ _ _).1 h2
    obtain ⟨c, rfl, hc⟩ := (rx_set _ _).1 h3
    have hc : c = 64 := by simpa using hc
    subst hc
    obtain ⟨hne, ha⟩ := (hl l).1 h1
    have hd := (rx_domain d).1 h4
    have hdat : 64 ∉ d := by
      intro hm
      have e := joinWith_splitOn chDot d
      rw [← e] at hm
      have : ∀ (ps : List Str), 64 ∈ joinWith chDot ps → ∃ p ∈ ps, 64 ∈ p := by
        intro ps
        cases ps with
        | nil => intro h; cases h
        | cons p ps =>
          rw [joinWith_flatMap]
          intro h
          rcases List.mem_append.1 h with h | h
          · exact ⟨p, by simp, h⟩
          · obtain ⟨q, hq, h⟩ := List.mem_flatMap.1 h
            rcases List.mem_cons.1 h with h | h
            · exact absurd h (by decide)
            · exact ⟨q, by simp [hq], h⟩
      obtain ⟨p, hp, hm⟩ := this _ hm
      exact (label_no_dot (List.all_eq_true.1 hd p hp)).2 hm
    unfold isValidEmail
    rw [show l ++ ([64] ++ d) = joinWith chAt [l, d] by simp [joinWith, chAt],
      splitOn_joinWith (by simp) (by intro p hp; simp only [List.mem_cons, List.not_mem_nil, or_false] at hp; rcases hp with rfl | rfl; exact hat _ ha; exact hdat)]
    simp only [Bool.and_eq_true, Bool.not_eq_true']
    exact ⟨⟨by cases l; exact absurd rfl hne; rfl, ha⟩, hd⟩

instance (s : Str) : Decidable (rxMail.Matches s) := decidable_of_iff _ (C94_address s)

/-! ## The users -/

theorem genUsers_user (hash : Str → Option Str) (md : Str) :
    ∀ (ps : List (PwEntry × (Option Int × Option Int))) (auto : Int) (tpl : UInt64) (i : Nat)
      (p : PwEntry × (Option Int × Option Int)) (r : UserRec), ps[i]? = some p →
      (genUsers hash md auto tpl ps).1[i]? = some r → ∃ auto' tpl' x, genUser hash md auto' tpl' p.1 p.2 = some (r, x) := by
  intro ps
  induction ps with
  | nil => intro _ _ i p r h; cases h
  | cons p ps ih =>
    intro auto tpl i p' r hp hr
    obtain ⟨e, d⟩ := p
    rw [genUsers] at hr
    cases hg : genUser hash md auto tpl e d with
    | none => rw [hg] at hr; cases hr
    | some q =>
      obtain ⟨r0, auto', tpl'⟩ := q
      rw [hg] at hr
      simp only at hr
      cases i with
      | zero =>
        simp only [List.getElem?_cons_zero, Option.some.injEq] at hp hr
        subst hp
        subst hr
        exact ⟨auto, tpl, _, hg⟩
      | succ i =>
        simp only [List.getElem?_cons_succ] at hp hr
        exact ih _ _ i p' r hp hr

theorem splitOn_first (sep : UInt8) : ∀ s : Str, (splitOn sep s).headD [] = s.takeWhile (· ≠ sep)
  | [] => by simp [splitOn]
  | c :: cs => by
    by_cases h : c = sep
    · subst h; rw [splitOn_cons_sep, List.takeWhile_cons_of_neg (by simp)]; rfl
    · obtain ⟨p, ps, e1, e2⟩ := splitOn_cons_ne h cs
      have := splitOn_first sep cs
      rw [e1] at this
      rw [e2, List.takeWhile_cons_of_pos (by simp [h]), ← this]
      rfl

theorem mem_takeWhile_sat {p : UInt8 → Bool} {c : UInt8} : ∀ {l : Str}, c ∈ l.takeWhile p → p c = true
  | [], h => by cases h
  | d :: l, h => by
    rw [List.takeWhile_cons] at h
    split at h
    · rcases List.mem_cons.1 h with rfl | h
      · assumption
      · exact mem_takeWhile_sat h
    · cases h

theorem nameParts_spec (cn : Str) : nameParts cn = none ∧ 32 ∉ cn ∨ ∃ a b, nameParts cn = some (a, b) ∧ cn = a ++ 32 :: b ∧ 32 ∉ a := by
  unfold nameParts
  by_cases h : cn.contains 32 = true
  · right
    rw [if_pos h]
    refine ⟨_, _, rfl, ?_, ?_⟩
    · have hd : cn.dropWhile (· ≠ 32) = 32 :: (cn.dropWhile (· ≠ 32)).drop 1 := by
        cases hd : cn.dropWhile (· ≠ 32) with
        | nil =>
          have hm : (32 : UInt8) ∈ cn := by simpa using h
          have e := List.takeWhile_append_dropWhile (p := fun c : UInt8 => decide (c ≠ 32)) (l := cn)
          rw [hd, List.append_nil] at e
          rw [← e] at hm
          have := mem_takeWhile_sat hm
          simp at this
        | cons c t =>
          have := List.head?_dropWhile_not (fun c : UInt8 => decide (c ≠ 32)) cn
          rw [hd] at this
          simp at this
          simp [this]
      rw [← hd]
      exact (List.takeWhile_append_dropWhile).symm
    · intro hm
      have := mem_takeWhile_sat hm
      simp at this
  · left
    rw [if_neg h]
    exact ⟨rfl, by simpa using h⟩

theorem gecosMail_own (md v : Str) : OwnDomain md v (gecosMail md v) := by
  unfold gecosMail
  split
  · rename_i h
    obtain ⟨h1, h2⟩ := h
    obtain ⟨w, rfl⟩ := List.isSuffixOf_iff_suffix.1 h2
    have : (w ++ chAt :: md).take ((w ++ chAt :: md).length - (md.length + 1)) = w := by simp
    rw [this]
    exact .own w h1
  · rename_i h
    refine .other v fun hm => ?_
    rintro ⟨w, rfl⟩
    exact h ⟨hm, List.isSuffixOf_iff_suffix.2 ⟨w, rfl⟩⟩

/-- C94: every user keeps the name, and gets the full name of the comment field, cut at the first space into given name and last name (if they
are not empty), and the mail addresses of the comment field. -/
theorem C94_names (strong : Str → Bool) (hash : Str → Option Str) (md text : Str) (es : List PwEntry) (recs : List UserRec) (fin : Bool)
    (hes : parsePasswdFile strong text = .ok es) (h : outputLDIF strong hash md text = .ok (recs, fin)) (i : Nat) (e : PwEntry) (r : UserRec)
    (he : es[i]? = some e) (hr : recs[i]? = some r) :
    r.name = e.name ∧ r.line = e.line ∧ r.cn = fullName e ∧
    (∀ g, r.givenName = some g ↔ g ≠ [] ∧ e.gecos ≠ [] ∧ 32 ∉ g ∧ ∃ rest, fullName e = g ++ 32 :: rest) ∧
    (∀ l, r.sn = some l ↔ l ≠ [] ∧ e.gecos ≠ [] ∧ ∃ first, 32 ∉ first ∧ fullName e = first ++ 32 :: l) ∧
    Matched (OwnDomain md) (furtherMails e) r.mails := by
  obtain ⟨ds, last, hp, hg⟩ := outputLDIF_parts hes h
  obtain ⟨d, hd⟩ := zip_get (preprocess_spec es 1000 ds last hp).1 he
  obtain ⟨auto', tpl', x, hu⟩ := genUsers_user hash md _ last 1000 i (e, d) r hd (by rw [hg]; exact hr)
  unfold genUser at hu
  simp only [Option.bind_eq_bind] at hu
  cases hpw : newPassword hash e with
  | none => rw [hpw] at hu; cases hu
  | some pw =>
    rw [hpw] at hu
    simp only [Option.bind_some, Option.some.injEq, Prod.mk.injEq] at hu
    obtain ⟨rfl, -⟩ := hu
    have hcn : (if e.gecos ≠ [] then (splitOn 44 e.gecos).headD [] else e.name) = fullName e := by
      unfold fullName
      by_cases hge : e.gecos = []
      · rw [if_neg (by simp [hge]), if_pos hge]
      · rw [if_pos hge, if_neg hge, splitOn_first]
    have uniq : ∀ {a b a' b' : Str}, a ++ 32 :: b = a' ++ 32 :: b' → 32 ∉ a → 32 ∉ a' → a = a' ∧ b = b' := by
      intro a
      induction a with
      | nil =>
        intro b a' b' e h1 h2
        cases a' with
        | nil => simpa using e
        | cons c a' => simp at e h2; exact absurd e.1.symm (fun h => h2.1 h.symm)
      | cons c a ih =>
        intro b a' b' e h1 h2
        cases a' with
        | nil => simp at e h1; exact absurd e.1.symm h1.1
        | cons c' a' =>
          simp only [List.cons_append, List.cons.injEq] at e
          simp only [List.mem_cons, not_or] at h1 h2
          obtain ⟨r1, r2⟩ := ih e.2 h1.2 h2.2
          exact ⟨by rw [e.1, r1], r2⟩
    have hne : ∀ s g : Str, nonEmpty s = some g ↔ g ≠ [] ∧ s = g := by
      intro s g
      unfold nonEmpty
      split
      · rename_i h0; subst h0
        constructor
        · intro h; cases h
        · rintro ⟨h1, rfl⟩; exact absurd rfl h1
      · rename_i h0
        constructor
        · intro h; cases h; exact ⟨h0, rfl⟩
        · rintro ⟨_, rfl⟩; rfl
    refine ⟨rfl, rfl, hcn, ?_, ?_, ?_⟩ <;> dsimp only
    · intro g
      rw [hcn]
      by_cases hge : e.gecos = []
      · simp [hge]
      · rw [if_pos hge]
        rcases nameParts_spec (fullName e) with ⟨hn, h32⟩ | ⟨a, b, hn, hab, ha⟩
        · rw [hn]
          constructor
          · intro h; cases h
          · rintro ⟨_, _, _, rest, h⟩; rw [h] at h32; simp at h32
        · rw [hn, Option.bind_some, hne]
          constructor
          · rintro ⟨h1, rfl⟩; exact ⟨h1, hge, ha, b, hab⟩
          · rintro ⟨h1, _, h2, rest, h3⟩
            exact ⟨h1, (uniq (hab.symm.trans h3) ha h2).1⟩
    · intro g
      rw [hcn]
      by_cases hge : e.gecos = []
      · simp [hge]
      · rw [if_pos hge]
        rcases nameParts_spec (fullName e) with ⟨hn, h32⟩ | ⟨a, b, hn, hab, ha⟩
        · rw [hn]
          constructor
          · intro h; cases h
          · rintro ⟨_, _, first, _, h⟩; rw [h] at h32; simp at h32
        · rw [hn, Option.bind_some, hne]
          constructor
          · rintro ⟨h1, rfl⟩; exact ⟨h1, hge, a, ha, hab⟩
          · rintro ⟨h1, _, first, h2, h3⟩
            exact ⟨h1, (uniq (hab.symm.trans h3) ha h2).2⟩
    · unfold furtherMails
      by_cases hge : e.gecos = []
      · rw [if_pos hge, if_neg (by simp [hge])]; exact .nil
      · rw [if_neg hge, if_pos hge]
        have : (fun v => decide (rxMail.Matches v)) = isValidEmail := by
          funext v
          rw [Bool.eq_iff_iff, decide_eq_true_eq, C94_address]
        rw [this]
        generalize ((splitOn 44 e.gecos).drop 1).filter isValidEmail = l
        induction l with
        | nil => exact .nil
        | cons v l ih => exact .cons _ _ _ _ (gecosMail_own md v) ih

/-- Non-vacuity of C94: two of the four parts are addresses, one of them at the own domain. -/
example : ∃ e recs, parsePasswdFile (fun _ => true) b!"ann:pw:7::Ann M. Lee,a@lg.io,room 1,x@b-c.org,a@-b:/:sh\n" = .ok [e] ∧
    outputLDIF (fun _ => true) some b!"lg.io" b!"ann:pw:7::Ann M. Lee,a@lg.io,room 1,x@b-c.org,a@-b:/:sh\n" = .ok (recs, true) ∧
    fullName e = b!"Ann M. Lee" ∧ furtherMails e = [b!"a@lg.io", b!"x@b-c.org"] ∧
    recs.map (fun r => (r.givenName, r.sn, r.mails)) = [(some b!"Ann", some b!"M. Lee", [b!"a@{{.MailDomain}}", b!"x@b-c.org"])] := by
  refine ⟨⟨1, b!"ann", b!"pw", b!"7", [], b!"Ann M. Lee,a@lg.io,room 1,x@b-c.org,a@-b", b!"/", b!"sh"⟩,
    [⟨1, b!"ann", 7, some 1001, some b!"pw", [b!"a@{{.MailDomain}}", b!"x@b-c.org"], b!"Ann M. Lee", some b!"Ann", some b!"M. Lee"⟩], ?_⟩
  decide +kernel

end Idm
