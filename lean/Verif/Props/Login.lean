import Verif.Spec.Login
import Verif.Props.NewUsersText
import Verif.Props.UserNames
import Verif.Props.LdifFormat
import Verif.Props.LdifBind
import Verif.Spec.LdifToy
/-!
# C93: users made by newusers can log in at the LDIF server
-/
namespace Idm

/-! ## Text without actions -/

theorem braces_cons (c : UInt8) (t : Str) :
    contains (c :: t) b!"{{" = (((c == 123) && (t.head? == some 123)) || contains t b!"{{") := by
  rw [contains]
  cases t with
  | nil => simp [List.isPrefixOf]
  | cons d t =>
    show (((123 : UInt8) == c && ((123 : UInt8) == d && true)) || _) = _
    rw [BEq.comm (a := (123 : UInt8)) (b := c), BEq.comm (a := (123 : UInt8)) (b := d)]
    simp

theorem braces_append : ∀ {a b : Str}, contains a b!"{{" = false → contains b b!"{{" = false →
    (a.getLast? ≠ some 123 ∨ b.head? ≠ some 123) → contains (a ++ b) b!"{{" = false
  | [], _, _, hb, _ => hb
  | c :: a, b, ha, hb, h => by
    rw [braces_cons, Bool.or_eq_false_iff] at ha
    rw [List.cons_append, braces_cons, Bool.or_eq_false_iff]
    cases a with
    | nil =>
      refine ⟨?_, hb⟩
      simp only [List.getLast?_singleton, ne_eq, Option.some.injEq] at h
      rcases h with h | h
      · simp [h]
      · simp only [List.nil_append, Bool.and_eq_false_iff]; right; simpa using h
    | cons d a =>
      refine ⟨ha.1, braces_append ha.2 hb ?_⟩
      simpa [List.getLast?_cons_cons] using h

theorem braces_infix {v w : Str} (h : contains v b!"{{" = false) (hw : w <:+: v) : contains w b!"{{" = false := by
  rw [contains_false] at h ⊢
  rintro ⟨x, y, rfl⟩
  obtain ⟨s, t, e⟩ := hw
  exact h ⟨s ++ x, y ++ t, by rw [← e]; simp⟩

theorem Inert.infix {v w : Str} (h : Inert v) (hw : w <:+: v) : Inert w :=
  ⟨fun hm => h.1 (hw.subset hm), braces_infix h.2 hw⟩

theorem braces_none {v : Str} (h : 123 ∉ v) : contains v b!"{{" = false := by
  rw [contains_false]
  rintro ⟨x, y, rfl⟩
  exact h (by simp)

/-! ## Templates line by line -/

section
variable {vars : List (Str × Str)}

/-- Text without actions in front. -/
theorem Renders.prepend {s a a' : Str} (hs : contains s b!"{{" = false) (hl : s.getLast? ≠ some 123) (h : Renders vars a a') :
    Renders vars (s ++ a) (s ++ a') := by
  have last : ∀ t : Str, t.getLast? ≠ some 123 → (s ++ t).getLast? ≠ some 123 := by
    intro t ht
    rw [List.getLast?_append]
    cases hg : t.getLast? with
    | none => simpa using hl
    | some c => rw [hg] at ht; simpa using ht
  cases h with
  | text _ h => exact .text _ (braces_append hs h (.inl hl))
  | var t n v rest out h1 h2 h3 h4 h5 h6 =>
    have := Renders.var (s ++ t) n v rest out (braces_append hs h1 (.inl hl)) (last t h2) h3 h4 h5 h6
    simpa [List.append_assoc] using this

/-- Two templates with something in between that is not a brace. -/
theorem Renders.join {a a' b b' : Str} {c : UInt8} (hc : c ≠ 123) (h : Renders vars a a') (h' : Renders vars b b') :
    Renders vars (a ++ c :: b) (a' ++ c :: b') := by
  induction h with
  | text s hs =>
    have := Renders.prepend (s := s ++ [c]) (braces_append hs (by rw [braces_cons]; simp; rfl) (.inr (by simpa using hc)))
      (by simpa using hc) h'
    simpa using this
  | var s n v rest out h1 h2 h3 h4 h5 _ ih =>
    have := Renders.var s n v (rest ++ c :: b) (out ++ c :: b') h1 h2 h3 h4 h5 ih
    simpa [List.append_assoc] using this

theorem Renders.lines {ls ls' : List Str} (h : Matched (Renders vars) ls ls') : Renders vars (joinWith 10 ls) (joinWith 10 ls') := by
  induction h with
  | nil => exact .text [] rfl
  | cons a b as bs h1 h2 ih =>
    cases h2 with
    | nil => exact h1
    | cons a' b' as' bs' _ _ => exact h1.join (by decide) ih

/-- One variable at the end. -/
theorem Renders.oneVar {s n v : Str} (hs : contains s b!"{{" = false) (hl : s.getLast? ≠ some 123) (hn : n.head?.any (fun c => !isDigitByte c) = true) (ha : n.all isAlnumByte = true)
    (hv : varValue vars n = some v) : Renders vars (s ++ b!"{{." ++ n ++ b!"}}") (s ++ v) := by
  have := Renders.var s n v [] [] hs hl hn ha hv (.text [] rfl)
  simpa using this

end

/-! ## What the users consist of -/

theorem natTextGo_digits : ∀ (fuel n : Nat), ∀ c ∈ natTextGo fuel n, isDigitByte c = true
  | 0, _, c, h => by cases h
  | fuel + 1, n, c, h => by
    have dig : ∀ k, k < 10 → isDigitByte (UInt8.ofNat (48 + k)) = true := by decide
    rw [natTextGo] at h
    split at h
    · rename_i hn
      rw [List.mem_singleton.1 h]
      exact dig n hn
    · rcases List.mem_append.1 h with h | h
      · exact natTextGo_digits fuel _ c h
      · rw [List.mem_singleton.1 h]
        exact dig _ (Nat.mod_lt _ (by decide))

theorem intText_inert (n : Int) : Inert (intText n) := by
  have h : ∀ c ∈ intText n, c = 45 ∨ isDigitByte c = true := by
    intro c hc
    unfold intText at hc
    split at hc
    · rcases List.mem_cons.1 hc with h | h
      · exact .inl h
      · exact .inr (natTextGo_digits _ _ c h)
    · exact .inr (natTextGo_digits _ _ c hc)
  refine ⟨fun hm => ?_, braces_none fun hm => ?_⟩ <;> (have := h _ hm; revert this; decide)

theorem splitOn_infix {sep : UInt8} : ∀ {s p : Str}, p ∈ splitOn sep s → p <:+: s
  | [], p, h => by simp [splitOn] at h; subst h; exact List.infix_refl _
  | c :: cs, p, h => by
    by_cases hc : c = sep
    · subst hc
      rw [splitOn_cons_sep] at h
      rcases List.mem_cons.1 h with rfl | h
      · exact List.nil_infix
      · exact (splitOn_infix h).trans (List.suffix_cons c cs).isInfix
    · obtain ⟨q, qs, e1, e2⟩ := splitOn_cons_ne hc cs
      rw [e2] at h
      rcases List.mem_cons.1 h with rfl | h
      · have hq : q <+: cs := by
          have := splitOn_head_prefix (sep := sep) cs
          rw [e1] at this
          simpa using this
        exact (List.prefix_cons_inj c |>.2 hq).isInfix
      · have := splitOn_infix (s := cs) (p := p) (by rw [e1]; exact List.mem_cons_of_mem _ h)
        exact this.trans (List.suffix_cons c cs).isInfix
where
  splitOn_head_prefix {sep : UInt8} : ∀ (s : Str), (splitOn sep s).headD [] <+: s
    | [] => by simp [splitOn]
    | c :: cs => by
      by_cases hc : c = sep
      · subst hc; rw [splitOn_cons_sep]; simp
      · obtain ⟨q, qs, e1, e2⟩ := splitOn_cons_ne hc cs
        have := splitOn_head_prefix (sep := sep) cs
        rw [e1] at this
        rw [e2]
        exact List.prefix_cons_inj c |>.2 this

/-- All parts of the user can be put into a template. -/
structure InertUser (r : UserRec) : Prop where
  name : Inert r.name
  password : ∀ v, r.userPassword = some v → Inert v
  mails : ∀ m ∈ r.mails, Inert m ∨ ∃ w, m = w ++ b!"@{{.MailDomain}}" ∧ Inert w
  cn : Inert r.cn
  givenName : ∀ v, r.givenName = some v → Inert v
  sn : ∀ v, r.sn = some v → Inert v

theorem genUser_inert {hash : Str → Option Str} (hh : ∀ p h, hash p = some h → Inert h) {md : Str} {auto auto' : Int} {tpl tpl' : UInt64}
    {e : PwEntry} {d : Option Int × Option Int} {r : UserRec} (h : genUser hash md auto tpl e d = some (r, auto', tpl'))
    (hf : ∀ f ∈ e.fields, Inert f) : InertUser r := by
  unfold genUser at h
  simp only [Option.bind_eq_bind] at h
  cases hpw : newPassword hash e with
  | none => rw [hpw] at h; cases h
  | some pw =>
    rw [hpw] at h
    simp only [Option.bind_some, Option.some.injEq, Prod.mk.injEq] at h
    obtain ⟨rfl, rfl, rfl⟩ := h
    have hname : Inert e.name := hf _ (by simp [PwEntry.fields])
    have hgecos : Inert e.gecos := hf _ (by simp [PwEntry.fields])
    have hpass : Inert pw := by
      unfold newPassword at hpw
      split at hpw
      · exact hh _ _ hpw
      · cases hpw; exact hname
    have hpart : ∀ q ∈ splitOn 44 e.gecos, Inert q := fun q hq => hgecos.infix (splitOn_infix hq)
    have hcn : Inert (if e.gecos ≠ [] then (splitOn 44 e.gecos).headD [] else e.name) := by
      split
      · cases hs : splitOn 44 e.gecos with
        | nil => exact ⟨by simp, rfl⟩
        | cons q qs => exact hpart q (by rw [hs]; simp)
      · exact hname
    generalize (if e.gecos ≠ [] then (splitOn 44 e.gecos).headD [] else e.name) = cn at hcn
    refine ⟨hname, ?_, ?_, hcn, ?_, ?_⟩
    · intro v hv
      rw [nonEmpty_some hv]; exact hpass
    · intro m hm
      dsimp only at hm
      split at hm
      · obtain ⟨v, hv, rfl⟩ := List.mem_map.1 hm
        have hv1 := hpart v (List.mem_of_mem_drop (List.mem_filter.1 hv).1)
        unfold gecosMail
        split
        · exact .inr ⟨_, rfl, hv1.infix (List.take_prefix _ _).isInfix⟩
        · exact .inl hv1
      · cases hm
    all_goals
      intro v hv
      dsimp only at hv
      obtain ⟨nm, h1, h2⟩ := Option.bind_eq_some_iff.1 hv
      rw [nonEmpty_some h2]
      split at h1
      · unfold nameParts at h1
        split at h1
        · cases h1
          first
          | exact hcn.infix (List.takeWhile_prefix _).isInfix
          | exact hcn.infix ((List.drop_suffix _ _).trans (List.dropWhile_suffix _)).isInfix
        · cases h1
      · cases h1

theorem genUsers_inert {hash : Str → Option Str} (hh : ∀ p h, hash p = some h → Inert h) (md : Str) :
    ∀ (ps : List (PwEntry × (Option Int × Option Int))) (auto : Int) (tpl : UInt64), (∀ p ∈ ps, ∀ f ∈ p.1.fields, Inert f) →
      ∀ r ∈ (genUsers hash md auto tpl ps).1, InertUser r := by
  intro ps
  induction ps with
  | nil => intro _ _ _ r hr; cases hr
  | cons p ps ih =>
    intro auto tpl hf r hr
    obtain ⟨e, d⟩ := p
    rw [genUsers] at hr
    cases hg : genUser hash md auto tpl e d with
    | none => rw [hg] at hr; cases hr
    | some q =>
      obtain ⟨r0, auto', tpl'⟩ := q
      rw [hg] at hr
      rcases List.mem_cons.1 hr with rfl | hr
      · exact genUser_inert hh hg (hf (e, d) (by simp))
      · exact ih auto' tpl' (fun p hp => hf p (by simp [hp])) r hr

theorem outputLDIF_inert {strong : Str → Bool} {hash : Str → Option Str} (hh : ∀ p h, hash p = some h → Inert h) {md text : Str}
    {es : List PwEntry} (hes : parsePasswdFile strong text = .ok es) (hf : ∀ e ∈ es, ∀ f ∈ e.fields, Inert f)
    {recs : List UserRec} {fin : Bool} (h : outputLDIF strong hash md text = .ok (recs, fin)) : ∀ r ∈ recs, InertUser r := by
  obtain ⟨ds, last, hp, hg⟩ := outputLDIF_parts hes h
  have := genUsers_inert hh md (es.zip ds) last 1000 fun p hp => hf p.1 (List.of_mem_zip hp).1
  rw [hg] at this
  exact this

/-! ## The text the template engine makes of it -/

/-- The attributes of a user with all variables filled in. -/
def filledAttrs (company base domain : Str) (r : UserRec) : List (Str × Str) :=
  [(b!"dn", b!"uid=" ++ r.name ++ b!",ou=Users,ou=" ++ company ++ b!"," ++ base), (b!"objectClass", b!"posixAccount"), (b!"objectClass", b!"top"),
    (b!"objectClass", b!"inetOrgPerson"), (b!"uid", r.name), (b!"uidNumber", intText r.uidNumber)] ++
  (r.gidNumber.map fun g => (b!"gidNumber", intText g)).toList ++
  (r.userPassword.map fun v => (b!"userPassword", v)).toList ++
  [(b!"mail", r.name ++ b!"@" ++ domain)] ++
  r.mails.map (fun v => (b!"mailAlternateAddress", atDomain domain v)) ++
  [(b!"cn", r.cn)] ++
  (r.givenName.map fun v => (b!"givenName", v)).toList ++
  (r.sn.map fun v => (b!"sn", v)).toList

section
variable {vars : List (Str × Str)} {company base domain : Str}

/-- The value is rendered; nothing but the values of the variables comes in. -/
def Fills (vars : List (Str × Str)) (company base domain : Str) (p q : Str × Str) : Prop :=
  p.1 = q.1 ∧ Renders vars p.2 q.2 ∧ ∀ x, x ∉ p.2 → x ∉ company → x ∉ base → x ∉ domain → x ∉ q.2

theorem fills_inert (t : Str) {v : Str} (h : Inert v) : Fills vars company base domain (t, v) (t, v) :=
  ⟨rfl, .text _ h.2, fun _ hx _ _ _ => hx⟩

theorem fills_opt (t : Str) {o : Option Str} (h : ∀ v, o = some v → Inert v) :
    Matched (Fills vars company base domain) (o.map fun v => (t, v)).toList (o.map fun v => (t, v)).toList := by
  cases o with
  | none => exact .nil
  | some v => exact .cons _ _ _ _ (fills_inert t (h v rfl)) .nil

theorem fills_mail (hd : varValue vars b!"MailDomain" = some domain) (t : Str) {w : Str} (h : Inert w) :
    Fills vars company base domain (t, w ++ b!"@{{.MailDomain}}") (t, w ++ b!"@" ++ domain) := by
  refine ⟨rfl, ?_, fun x hx _ _ h3 => ?_⟩
  · have := Renders.oneVar (vars := vars) (s := w ++ b!"@") (n := b!"MailDomain") (v := domain)
      (braces_append h.2 (by decide) (.inr (by decide))) (by simp) (by decide) (by decide) hd
    simpa [List.append_assoc] using this
  · simp only [List.mem_append, not_or] at hx ⊢
    refine ⟨⟨hx.1, fun hm => hx.2 ?_⟩, h3⟩
    rw [List.mem_singleton.1 hm]
    decide

theorem atDomain_inert {v : Str} (h : Inert v) : atDomain domain v = v := by
  unfold atDomain
  rw [if_neg]
  intro hs
  obtain ⟨w, rfl⟩ := List.isSuffixOf_iff_suffix.1 hs
  have := h.2
  rw [contains_false] at this
  exact this ⟨w ++ b!"@", b!".MailDomain}}", by simp⟩

theorem atDomain_var (w : Str) : atDomain domain (w ++ b!"@{{.MailDomain}}") = w ++ b!"@" ++ domain := by
  unfold atDomain
  have : hasSuffix (w ++ b!"@{{.MailDomain}}") b!"@{{.MailDomain}}" = true := List.isSuffixOf_iff_suffix.2 ⟨w, rfl⟩
  rw [if_pos this]
  simp

theorem attrs_fill (hc : varValue vars b!"Company" = some company) (hb : varValue vars b!"BaseDN" = some base)
    (hd : varValue vars b!"MailDomain" = some domain) {r : UserRec} (h : InertUser r) :
    Matched (Fills vars company base domain) (r.attrs newUsersBase) (filledAttrs company base domain r) := by
  unfold UserRec.attrs filledAttrs
  refine matched_append (matched_append (matched_append (matched_append (matched_append (matched_append (matched_append ?_ ?_) ?_) ?_) ?_) ?_) ?_) ?_
  · refine .cons _ _ _ _ ⟨rfl, ?_, ?_⟩ <| .cons _ _ _ _ (fills_inert _ (by decide)) <| .cons _ _ _ _ (fills_inert _ (by decide)) <|
      .cons _ _ _ _ (fills_inert _ (by decide)) <| .cons _ _ _ _ (fills_inert _ h.name) <| .cons _ _ _ _ (fills_inert _ (intText_inert _)) .nil
    · have h1 := Renders.oneVar (vars := vars) (s := b!",") (n := b!"BaseDN") (v := base) (by decide) (by decide) (by decide) (by decide) hb
      have h2 := Renders.var (vars := vars) (b!"uid=" ++ r.name ++ b!",ou=Users,ou=") b!"Company" company _ _
        (braces_append (braces_append (by decide) h.name.2 (.inl (by decide))) (by decide) (.inr (by decide))) (by rw [List.getLast?_append]; simp) (by decide) (by decide) hc h1
      have e : b!"uid=" ++ r.name ++ b!"," ++ newUsersBase =
          b!"uid=" ++ r.name ++ b!",ou=Users,ou=" ++ b!"{{." ++ b!"Company" ++ b!"}}" ++ (b!"," ++ b!"{{." ++ b!"BaseDN" ++ b!"}}") := by
        simp [newUsersBase]
      dsimp only
      rw [e]
      simpa [List.append_assoc] using h2
    · intro x hx h1 h2 _
      dsimp only at hx ⊢
      simp only [List.mem_append, not_or] at hx ⊢
      obtain ⟨⟨⟨x1, x2⟩, x3⟩, x4⟩ := hx
      refine ⟨⟨⟨⟨⟨x1, x2⟩, fun hm => x4 ?_⟩, h1⟩, x3⟩, h2⟩
      revert hm
      have : ∀ x ∈ b!",ou=Users,ou=", x ∈ newUsersBase := by decide +kernel
      exact this x
  · cases r.gidNumber with
    | none => exact .nil
    | some g => exact .cons _ _ _ _ (fills_inert _ (intText_inert _)) .nil
  · exact fills_opt _ h.password
  · exact .cons _ _ _ _ (fills_mail hd _ h.name) .nil
  · refine matched_map' _ _ _ fun m hm => ?_
    rcases h.mails m hm with hi | ⟨w, rfl, hw⟩
    · rw [atDomain_inert hi]; exact fills_inert _ hi
    · rw [atDomain_var]; exact fills_mail hd _ hw
  · exact .cons _ _ _ _ (fills_inert _ h.cn) .nil
  · exact fills_opt _ h.givenName
  · exact fills_opt _ h.sn

theorem matched_lines (t : Str × Str → Str × Str → Prop) (R : Str → Str → Prop) (f : Str × Str → Str) {ps qs : List (Str × Str)}
    (h : Matched t ps qs) (hf : ∀ p q, t p q → R (f p) (f q)) : Matched R (ps.map f) (qs.map f) := by
  induction h with
  | nil => exact .nil
  | cons a b as bs h1 _ ih => exact .cons _ _ _ _ (hf a b h1) ih

theorem fills_line {p q : Str × Str} (hp : contains p.1 b!"{{" = false ∧ p.1.getLast? ≠ some 123) (h : Fills vars company base domain p q) :
    Renders vars (attrLine p) (attrLine q) := by
  obtain ⟨h1, h2, -⟩ := h
  unfold attrLine
  rw [← h1, List.append_assoc, List.append_assoc, ← List.append_assoc, ← List.append_assoc]
  exact Renders.prepend (braces_append hp.1 (by decide) (.inr (by decide))) (by rw [List.getLast?_append]; simp) h2

theorem attrs_plain (b : Str) (r : UserRec) : ∀ p ∈ r.attrs b, contains p.1 b!"{{" = false ∧ p.1.getLast? ≠ some 123 := by
  intro p hp
  rw [attrs_head] at hp
  rcases List.mem_cons.1 hp with rfl | hp
  · dsimp only; decide
  · have := attrs_names b r p hp
    revert this
    generalize p.1 = t
    revert t
    decide

theorem matched_mem {α β : Type} {R : α → β → Prop} {as : List α} {bs : List β} (h : Matched R as bs) :
    ∀ b ∈ bs, ∃ a ∈ as, R a b := by
  induction h with
  | nil => intro b hb; cases hb
  | cons a b as bs h1 _ ih =>
    intro x hx
    rcases List.mem_cons.1 hx with rfl | hx
    · exact ⟨a, by simp, h1⟩
    · obtain ⟨y, hy, hr⟩ := ih x hx
      exact ⟨y, by simp [hy], hr⟩

theorem matched_mono {α β : Type} {R S : α → β → Prop} {as : List α} {bs : List β} (h : Matched R as bs) (hs : ∀ a ∈ as, ∀ b, R a b → S a b) :
    Matched S as bs := by
  induction h with
  | nil => exact .nil
  | cons a b as bs h1 _ ih => exact .cons _ _ _ _ (hs a (by simp) b h1) (ih fun x hx => hs x (by simp [hx]))

theorem rawLines_lf (ls : List Str) (h : ∀ l ∈ ls, 10 ∉ l) : rawLines (lfText ls) = ls := by
  have e : ∀ ls : List Str, (∀ l ∈ ls, 10 ∉ l) → splitOn 10 (lfText ls) = ls ++ [[]] := by
    intro ls
    induction ls with
    | nil => intro _; rfl
    | cons l ls ih =>
      intro h
      rw [show lfText (l :: ls) = l ++ 10 :: lfText ls by simp [lfText], splitOn_append_sep (h l (by simp)), ih fun x hx => h x (by simp [hx])]
      rfl
  unfold rawLines
  simp [e ls h]

/-- What is left of the text of newusers without comments. -/
theorem templateText_users {recs : List UserRec} (hv : ∀ r ∈ recs, ∀ p ∈ r.attrs newUsersBase, (10 : UInt8) ∉ p.2)
    (hcr : ∀ r ∈ recs, ∀ p ∈ r.attrs newUsersBase, (13 : UInt8) ∉ p.2) (hl : ∀ r ∈ recs, r.line < 10 ^ 20)
    (hlen : ∀ l ∈ rawLines (printUsers recs), l.length < 65536) :
    templateText (printUsers recs) = joinWith 10 (recs.flatMap fun r => (r.attrs newUsersBase).map attrLine ++ [[]]) := by
  have hno : ∀ x, (x = 10 ∨ x = 13) → ∀ l ∈ recs.flatMap (fun r => userLines r ++ [[]]), x ∉ l := by
    intro x hx l hm
    obtain ⟨r, hr, hm⟩ := List.mem_flatMap.1 hm
    have hval : ∀ p ∈ r.attrs newUsersBase, x ∉ p.2 := by
      rcases hx with rfl | rfl
      · exact hv r hr
      · exact hcr r hr
    rcases List.mem_append.1 hm with hm | hm
    · simp only [userLines, List.mem_cons, List.mem_map] at hm
      rcases hm with rfl | ⟨p, hp, rfl⟩
      · have h1 : x ∉ natText r.line := by
          intro hm
          have := natTextGo_digits 20 r.line x hm
          rcases hx with rfl | rfl <;> exact absurd this (by decide)
        have h2 : x ∉ trimSpace r.name := fun h => hval (b!"uid", r.name) (by simp [UserRec.attrs]) (trimSpace_sub h)
        rcases hx with rfl | rfl <;> simp [h1, h2]
      · have h1 := (attrs_types newUsersBase r p hp).2.1
        have h2 := (attrs_first newUsersBase r p hp).2.2.2
        have h3 := hval p hp
        rcases hx with rfl | rfl <;> simp [attrLine, h1, h2, h3]
    · rw [List.mem_singleton] at hm
      subst hm
      simp
  have hraw : rawLines (printUsers recs) = recs.flatMap fun r => userLines r ++ [[]] := by
    rw [printUsers_lf]
    exact rawLines_lf _ (hno 10 (.inl rfl))
  unfold templateText scanLines
  rw [hraw] at hlen ⊢
  rw [takeWhile_all (p := fun l => decide (List.length l < maxToken)) fun l hl => decide_eq_true (hlen l hl)]
  have hcr' : (recs.flatMap fun r => userLines r ++ [[]]).map dropCR = recs.flatMap fun r => userLines r ++ [[]] := by
    rw [List.map_congr_left (g := id), List.map_id]
    intro l hm
    unfold dropCR
    rw [if_neg, id]
    intro e
    exact hno 13 (.inr rfl) l hm (List.mem_of_getLast? e)
  rw [hcr']
  congr 1
  clear hv hl hlen hno hraw hcr hcr'
  induction recs with
  | nil => rfl
  | cons r recs ih =>
    rw [List.flatMap_cons, List.flatMap_cons, List.filter_append, ih]
    congr 1
    rw [userLines, List.cons_append, List.filter_cons_of_neg (by simp [isComment, hasPrefix, List.isPrefixOf]), List.filter_append]
    congr 1
    rw [List.filter_eq_self]
    intro l hm
    obtain ⟨p, hp, rfl⟩ := List.mem_map.1 hm
    obtain ⟨-, -, c, cs, e, hc⟩ := attrs_types newUsersBase r p hp
    rw [attrLine, e]
    simp [isComment, hasPrefix, List.isPrefixOf, Ne.symm hc]

theorem flatMap_renders {recs : List UserRec} {f g : UserRec → List Str} (h : ∀ r ∈ recs, Matched (Renders vars) (f r) (g r)) :
    Matched (Renders vars) (recs.flatMap f) (recs.flatMap g) := by
  induction recs with
  | nil => exact .nil
  | cons r recs ih =>
    rw [List.flatMap_cons, List.flatMap_cons]
    exact matched_append (h r (by simp)) (ih fun x hx => h x (by simp [hx]))

theorem filled_types {r : UserRec} : (filledAttrs company base domain r).map (·.1) = (r.attrs newUsersBase).map (·.1) := by
  unfold filledAttrs UserRec.attrs
  cases r.gidNumber <;> cases r.userPassword <;> cases r.givenName <;> cases r.sn <;> simp

theorem filled_type {r : UserRec} {q : Str × Str} (hq : q ∈ filledAttrs company base domain r) : ∃ p ∈ r.attrs newUsersBase, p.1 = q.1 := by
  have : q.1 ∈ (filledAttrs company base domain r).map (·.1) := List.mem_map.2 ⟨q, hq, rfl⟩
  rw [filled_types] at this
  obtain ⟨p, hp, e⟩ := List.mem_map.1 this
  exact ⟨p, hp, e⟩

theorem filled_drop_type {r : UserRec} {q : Str × Str} (hq : q ∈ (filledAttrs company base domain r).drop 1) : ∃ p ∈ (r.attrs newUsersBase).drop 1, p.1 = q.1 := by
  have : q.1 ∈ ((filledAttrs company base domain r).drop 1).map (·.1) := List.mem_map.2 ⟨q, hq, rfl⟩
  rw [List.map_drop, filled_types, ← List.map_drop] at this
  obtain ⟨p, hp, e⟩ := List.mem_map.1 this
  exact ⟨p, hp, e⟩

theorem filled_head (r : UserRec) : filledAttrs company base domain r =
    (b!"dn", b!"uid=" ++ r.name ++ b!",ou=Users,ou=" ++ company ++ b!"," ++ base) :: (filledAttrs company base domain r).drop 1 := by
  simp [filledAttrs]

/-- What newusers printed, with the variables filled in. -/
theorem users_filled (hc : varValue vars b!"Company" = some company) (hb : varValue vars b!"BaseDN" = some base) (hd : varValue vars b!"MailDomain" = some domain)
    (hvars : ∀ x, (x = 10 ∨ x = 13) → x ∉ company ∧ x ∉ base ∧ x ∉ domain)
    (strong : Str → Bool) (hash : Str → Option Str) (hh : ∀ p h, hash p = some h → 10 ∉ h ∧ Inert h) (md text : Str)
    (ht : text.length < 2 ^ 64) (es : List PwEntry) (hes : parsePasswdFile strong text = .ok es) (hf : ∀ e ∈ es, ∀ f ∈ e.fields, Inert f)
    (recs : List UserRec) (fin : Bool) (h : outputLDIF strong hash md text = .ok (recs, fin)) :
    (∀ r ∈ recs, ∀ p ∈ r.attrs newUsersBase, 10 ∉ p.2 ∧ 13 ∉ p.2) ∧ (∀ r ∈ recs, r.line < 10 ^ 20) ∧
    (∀ r ∈ recs, InertUser r ∧ Matched (Renders vars) ((r.attrs newUsersBase).map attrLine) ((filledAttrs company base domain r).map attrLine)) ∧
    (∀ l ∈ (recs.flatMap fun r => (filledAttrs company base domain r).map attrLine ++ [[]]), 10 ∉ l ∧ 13 ∉ l) ∧
    FileLines (recs.map fun r => (filledAttrs company base domain r).map attrLine) (recs.flatMap fun r => (filledAttrs company base domain r).map attrLine ++ [[]]) ∧
    (recs ≠ [] → ∃ lines, (recs.flatMap fun r => (filledAttrs company base domain r).map attrLine ++ [[]]) = lines ++ [[]] ∧ FileLines (recs.map fun r => (filledAttrs company base domain r).map attrLine) lines) ∧
    Matched RecordSays (recs.map (userRecord company base domain)) (recs.map fun r => (filledAttrs company base domain r).map attrLine) := by
  obtain ⟨hv, hl⟩ := outputLDIF_clean (fun p x hx => (hh p x hx).1) ht h
  have hin := outputLDIF_inert (fun p x hx => (hh p x hx).2) hes hf h
  have hfill : ∀ r ∈ recs, Matched (Fills vars company base domain) (r.attrs newUsersBase) (filledAttrs company base domain r) :=
    fun r hr => attrs_fill hc hb hd (hin r hr)
  have hcr : ∀ r ∈ recs, ∀ p ∈ r.attrs newUsersBase, (13 : UInt8) ∉ p.2 := by
    intro r hr p hp
    have hi := hin r hr
    simp only [UserRec.attrs, List.mem_append, List.mem_cons, List.not_mem_nil, or_false, Option.mem_toList, Option.map_eq_some_iff, List.mem_map] at hp
    rcases hp with (((((((rfl | rfl | rfl | rfl | rfl | rfl) | ⟨g, hg, rfl⟩) | ⟨g, hg, rfl⟩) | rfl) | ⟨g, hg, rfl⟩) | rfl) | ⟨g, hg, rfl⟩) | ⟨g, hg, rfl⟩ <;> dsimp only
    · simp only [List.mem_append, not_or]; exact ⟨⟨⟨by decide, hi.name.1⟩, by decide⟩, by decide⟩
    · decide
    · decide
    · decide
    · exact hi.name.1
    · exact (intText_inert _).1
    · exact (intText_inert _).1
    · exact (hi.password _ hg).1
    · simp only [List.mem_append, not_or]; exact ⟨hi.name.1, by decide⟩
    · rcases hi.mails g hg with hm | ⟨w, rfl, hm⟩
      · exact hm.1
      · simp only [List.mem_append, not_or]; exact ⟨hm.1, by decide⟩
    · exact hi.cn.1
    · exact (hi.givenName _ hg).1
    · exact (hi.sn _ hg).1
  have hR : ∀ r ∈ recs, InertUser r ∧ Matched (Renders vars) ((r.attrs newUsersBase).map attrLine) ((filledAttrs company base domain r).map attrLine) := by
    intro r hr
    refine ⟨hin r hr, ?_⟩
    exact matched_lines _ _ _ (matched_mono (hfill r hr) (S := fun p q => (contains p.1 b!"{{" = false ∧ p.1.getLast? ≠ some 123) ∧ Fills vars company base domain p q)
      fun p hp q hpq => ⟨attrs_plain _ r p hp, hpq⟩) fun p q hpq => fills_line hpq.1 hpq.2
  have hclean : ∀ l ∈ recs.flatMap (fun r => (filledAttrs company base domain r).map attrLine ++ [[]]), 10 ∉ l ∧ 13 ∉ l := by
    intro l hm
    obtain ⟨r, hr, hm⟩ := List.mem_flatMap.1 hm
    rcases List.mem_append.1 hm with hm | hm
    · obtain ⟨q, hq, rfl⟩ := List.mem_map.1 hm
      obtain ⟨p, hp, e, -, hx⟩ := matched_mem (hfill r hr) q hq
      have h1 := (attrs_types newUsersBase r p hp).2.1
      have h2 := (attrs_first newUsersBase r p hp).2.2.2
      have x1 := hx 10 (hv r hr p hp) (hvars 10 (.inl rfl)).1 (hvars 10 (.inl rfl)).2.1 (hvars 10 (.inl rfl)).2.2
      have x2 := hx 13 (hcr r hr p hp) (hvars 13 (.inr rfl)).1 (hvars 13 (.inr rfl)).2.1 (hvars 13 (.inr rfl)).2.2
      rw [e] at h1 h2
      simp [attrLine, h1, h2, x1, x2]
    · rw [List.mem_singleton] at hm
      subst hm
      simp
  have hfile : FileLines (recs.map fun r => (filledAttrs company base domain r).map attrLine)
      (recs.flatMap fun r => (filledAttrs company base domain r).map attrLine ++ [[]]) := by
    clear hv hl hin hfill hcr hR hclean h
    induction recs with
    | nil => exact .done
    | cons r recs ih =>
      rw [List.flatMap_cons, List.append_assoc]
      refine .record _ _ _ _ (by dsimp only; rw [filled_head]; simp) (recordLines_attrs _ fun q hq => ?_) ih
      obtain ⟨p, hp, e⟩ := filled_type hq
      have := attrs_first newUsersBase r p hp
      rw [e] at this
      exact ⟨this.1, this.2.1, this.2.2.1⟩
  have hsays : Matched RecordSays (recs.map (userRecord company base domain)) (recs.map fun r => (filledAttrs company base domain r).map attrLine) := by
    refine matched_map' _ _ _ fun r _ => ?_
    rw [filled_head]
    refine .mk _ _ _ ?_ (by simp [userRecord]) ?_
    · have := says_blanks b!"dn" (b!"uid=" ++ r.name ++ b!",ou=Users,ou=" ++ company ++ b!"," ++ base)
      rwa [show (b!"uid=" ++ r.name ++ b!",ou=Users,ou=" ++ company ++ b!"," ++ base).dropWhile (· = 32) =
        b!"uid=" ++ r.name ++ b!",ou=Users,ou=" ++ company ++ b!"," ++ base by simp [List.dropWhile]] at this
    · have e : (userRecord company base domain r).values = ((filledAttrs company base domain r).drop 1).map fun p => (p.1, p.2.dropWhile (· = 32)) := by
        simp [userRecord, filledAttrs]
      rw [e]
      refine matched_map' _ _ _ fun q hq => ⟨says_blanks _ _, ?_⟩
      obtain ⟨p, hp, e⟩ := filled_drop_type hq
      have := attrs_ldif _ r p hp
      rw [e] at this
      exact this
  refine ⟨fun r hr p hp => ⟨hv r hr p hp, hcr r hr p hp⟩, hl, hR, hclean, hfile, ?_, hsays⟩
  clear hv hl hin hfill hcr hR hclean h hfile hsays
  intro hne
  have hrec : ∀ r : UserRec, RecordLines ((filledAttrs company base domain r).map attrLine) ((filledAttrs company base domain r).map attrLine) := by
    intro r
    refine recordLines_attrs _ fun q hq => ?_
    obtain ⟨p, hp, e⟩ := filled_type hq
    have := attrs_first newUsersBase r p hp
    rw [e] at this
    exact ⟨this.1, this.2.1, this.2.2.1⟩
  have hnil : ∀ r : UserRec, (filledAttrs company base domain r).map attrLine ≠ [] := by
    intro r
    rw [filled_head]
    simp
  induction recs with
  | nil => exact absurd rfl hne
  | cons r recs ih =>
    by_cases he : recs = []
    · subst he
      exact ⟨_, by simp only [List.flatMap_cons, List.flatMap_nil, List.append_nil], .last _ _ (hnil r) (hrec r)⟩
    · obtain ⟨lines, e, hl⟩ := ih he
      refine ⟨(filledAttrs company base domain r).map attrLine ++ [] :: lines, ?_, .record _ _ _ _ (hnil r) (hrec r) hl⟩
      rw [List.flatMap_cons, e]
      simp

/-- What newusers printed, as the text given to the template engine and what that becomes. -/
theorem users_text (hc : varValue vars b!"Company" = some company) (hb : varValue vars b!"BaseDN" = some base) (hd : varValue vars b!"MailDomain" = some domain)
    (hvars : ∀ x, (x = 10 ∨ x = 13) → x ∉ company ∧ x ∉ base ∧ x ∉ domain)
    (strong : Str → Bool) (hash : Str → Option Str) (hh : ∀ p h, hash p = some h → 10 ∉ h ∧ Inert h) (md text : Str)
    (ht : text.length < 2 ^ 64) (es : List PwEntry) (hes : parsePasswdFile strong text = .ok es) (hf : ∀ e ∈ es, ∀ f ∈ e.fields, Inert f)
    (recs : List UserRec) (fin : Bool) (h : outputLDIF strong hash md text = .ok (recs, fin))
    (hlen : ∀ l ∈ rawLines (printUsers recs), l.length < 65536) :
    (∀ r ∈ recs, ∀ p ∈ r.attrs newUsersBase, 10 ∉ p.2 ∧ 13 ∉ p.2) ∧ (∀ r ∈ recs, r.line < 10 ^ 20) ∧
    Renders vars (templateText (printUsers recs)) (joinWith 10 (recs.flatMap fun r => (filledAttrs company base domain r).map attrLine ++ [[]])) ∧
    (∀ l ∈ (recs.flatMap fun r => (filledAttrs company base domain r).map attrLine ++ [[]]), 10 ∉ l ∧ 13 ∉ l) ∧
    FileLines (recs.map fun r => (filledAttrs company base domain r).map attrLine) (recs.flatMap fun r => (filledAttrs company base domain r).map attrLine ++ [[]]) ∧
    (recs ≠ [] → ∃ lines, (recs.flatMap fun r => (filledAttrs company base domain r).map attrLine ++ [[]]) = lines ++ [[]] ∧ FileLines (recs.map fun r => (filledAttrs company base domain r).map attrLine) lines) ∧
    Matched RecordSays (recs.map (userRecord company base domain)) (recs.map fun r => (filledAttrs company base domain r).map attrLine) := by
  obtain ⟨hv, hl, hR, hclean, hfile, hlast, hsays⟩ := users_filled hc hb hd hvars strong hash hh md text ht es hes hf recs fin h
  refine ⟨hv, hl, ?_, hclean, hfile, hlast, hsays⟩
  rw [templateText_users (fun r hr p hp => (hv r hr p hp).1) (fun r hr p hp => (hv r hr p hp).2) hl hlen]
  exact Renders.lines (flatMap_renders fun r hr => matched_append (hR r hr).2 (.cons _ _ _ _ (.text [] rfl) .nil))

/-- C93, the file: a server with the template engine that is given what newusers printed reads one entry per user, in order, with the
attributes of that user; the variables have got their values. -/
theorem C93_file_partial {L : LdifLib} (hL : L.Lawful) {run : List (Str × Str) → UInt64 → Str → Option Str} (hrun : TemplateEngine run) (start : UInt64)
    (hc : varValue vars b!"Company" = some company) (hb : varValue vars b!"BaseDN" = some base) (hd : varValue vars b!"MailDomain" = some domain)
    (hvars : ∀ x, (x = 10 ∨ x = 13) → x ∉ company ∧ x ∉ base ∧ x ∉ domain)
    (strong : Str → Bool) (hash : Str → Option Str) (hh : ∀ p h, hash p = some h → 10 ∉ h ∧ Inert h) (md text : Str)
    (ht : text.length < 2 ^ 64) (es : List PwEntry) (hes : parsePasswdFile strong text = .ok es) (hf : ∀ e ∈ es, ∀ f ∈ e.fields, Inert f)
    (recs : List UserRec) (fin : Bool) (h : outputLDIF strong hash md text = .ok (recs, fin))
    (hlen : ∀ l ∈ rawLines (printUsers recs), l.length < 65536) :
    ∃ file, parseLDIFFile L (some run) vars start (some (.whole (printUsers recs))) = some file ∧
      Matched EntrySays (recs.map (userRecord company base domain)) (entriesIn file) := by
  obtain ⟨-, -, hR, hclean, hfile, -, hsays⟩ := users_text hc hb hd hvars strong hash hh md text ht es hes hf recs fin h hlen
  have hun : ldifUnmarshal L (joinWith 10 (recs.flatMap fun r => (filledAttrs company base domain r).map attrLine ++ [[]])) =
      some ((recs.map (userRecord company base domain)).map fun r => some ⟨r.dn, gather [] r.values⟩) := by
    by_cases hne : recs = []
    · subst hne
      exact ldifUnmarshal_file hL (lines := []) (tail := [[]]) rfl (.inr rfl) .done .nil
    · refine ldifUnmarshal_file hL (tail := []) ?_ (.inl rfl) hfile hsays
      rw [splitOn_joinWith ?_ fun l hm => (hclean l hm).1, List.append_nil, List.map_congr_left (g := id), List.map_id]
      · intro l hm
        exact trimEOL_self (hclean l hm).1 (hclean l hm).2
      · cases recs with
        | nil => exact absurd rfl hne
        | cons r recs => simp
  refine ⟨(recs.map (userRecord company base domain)).map fun r => some ⟨r.dn, gather [] r.values⟩, ?_, ?_⟩
  · show (fileText (some run) vars start (.whole (printUsers recs))).bind (ldifUnmarshal L) = _
    rw [fileText, hrun _ _ _ _ hR, Option.bind_some]
    exact hun
  · rw [entriesIn, filterMap_some_map]
    exact matched_map _ entrySays_gather _

/-! ## Logging in -/

theorem typeValues_filter (t : Str) : ∀ as : List Attr, typeValues t as = (as.filter fun a => a.name = t).flatMap (·.vals)
  | [] => rfl
  | a :: as => by
    rw [typeValues_cons, typeValues_filter t as]
    by_cases h : a.name = t <;> simp [h]

theorem filter_name_le_one (t : Str) : ∀ {as : List Attr}, (as.map (·.name)).Nodup →
    as.filter (fun a => a.name = t) = [] ∨ ∃ a, as.filter (fun a => a.name = t) = [a]
  | [], _ => .inl rfl
  | a :: as, h => by
    rw [List.map_cons, List.nodup_cons] at h
    by_cases e : a.name = t
    · right
      refine ⟨a, ?_⟩
      rw [List.filter_cons_of_pos (by simp [e]), List.filter_eq_nil_iff.2]
      intro x hx hxt
      simp only [decide_eq_true_eq] at hxt
      exact h.1 (List.mem_map.2 ⟨x, hx, by rw [hxt, e]⟩)
    · rw [List.filter_cons_of_neg (by simp [e])]
      exact filter_name_le_one t h.2

/-- The password of the entry of a user. -/
theorem passwordOf_user {C : CaseEnv} (hC : C.Lawful) {r : UserRec} {e : Entry} (h : EntrySays (userRecord company base domain r) e) :
    passwordOf C e = r.userPassword.map fun v => v.dropWhile (· = 32) := by
  obtain ⟨-, hv, hnd, hne, -⟩ := h
  have hnames : ∀ a ∈ e.attrs, (C.lower a.name = b!"userpassword" ↔ a.name = b!"userPassword") := by
    intro a ha
    have hm : ∃ tv ∈ (userRecord company base domain r).values, tv.1 = a.name := by
      have := hv a.name
      cases hvals : a.vals with
      | nil => exact absurd hvals (hne a ha)
      | cons v vs =>
        have hv' : v ∈ typeValues a.name e.attrs := List.mem_flatMap.2 ⟨a, ha, by simp [hvals]⟩
        rw [this] at hv'
        obtain ⟨tv, h1, -⟩ := List.mem_map.1 hv'
        have h1 := List.mem_filter.1 h1
        exact ⟨tv, h1.1, by simpa using h1.2⟩
    obtain ⟨tv, h1, h2⟩ := hm
    have h3 : ∃ p ∈ (r.attrs newUsersBase).drop 1, p.1 = a.name := by
      have e : (userRecord company base domain r).values = ((filledAttrs company base domain r).drop 1).map fun p => (p.1, p.2.dropWhile (· = 32)) := by
        simp [userRecord, filledAttrs]
      rw [e] at h1
      obtain ⟨q, hq, rfl⟩ := List.mem_map.1 h1
      obtain ⟨p, hp, e⟩ := filled_drop_type hq
      exact ⟨p, hp, by rw [e]; exact h2⟩
    obtain ⟨p, hp, e⟩ := h3
    have := attrs_names _ r p hp
    rw [e] at this
    generalize a.name = t at this
    have hl : ∀ t ∈ [b!"objectClass", b!"uid", b!"uidNumber", b!"gidNumber", b!"userPassword", b!"mail", b!"mailAlternateAddress", b!"cn",
      b!"givenName", b!"sn"], IsAscii t ∧ (t.map lowerByte = b!"userpassword" ↔ t = b!"userPassword") := by decide +kernel
    rw [lower_ascii hC (hl t this).1]
    exact (hl t this).2
  have hfil : (e.attrs.filter fun a => C.lower a.name = b!"userpassword") = e.attrs.filter fun a => a.name = b!"userPassword" := by
    refine List.filter_congr fun a ha => ?_
    simp only [hnames a ha]
  have hval : ((userRecord company base domain r).values.filter fun tv => tv.1 = b!"userPassword").map (·.2) =
      (r.userPassword.map fun v => v.dropWhile (· = 32)).toList := by
    unfold userRecord
    cases r.gidNumber <;> cases r.userPassword <;> cases r.givenName <;> cases r.sn <;> simp [List.filter_map, Function.comp_def]
  unfold passwordOf
  rw [hfil]
  have ht := hv b!"userPassword"
  rw [hval, typeValues_filter] at ht
  rcases filter_name_le_one b!"userPassword" hnd with h0 | ⟨a, h0⟩
  · rw [h0] at ht ⊢
    cases hu : r.userPassword with
    | none => rfl
    | some v => rw [hu] at ht; cases ht
  · rw [h0] at ht ⊢
    have hvs := hne a (List.mem_filter.1 (h0 ▸ List.mem_singleton_self a : a ∈ e.attrs.filter fun a => a.name = b!"userPassword")).1
    cases hu : r.userPassword with
    | none => rw [hu] at ht; simp at ht; exact absurd ht hvs
    | some v => rw [hu] at ht; simp at ht; simp [ht]

theorem matched_get {α β : Type} {R : α → β → Prop} {as : List α} {bs : List β} (h : Matched R as bs) :
    ∀ (i : Nat) (a : α), as[i]? = some a → ∃ b, bs[i]? = some b ∧ R a b := by
  induction h with
  | nil => intro i a h; simp at h
  | cons a b as bs h1 _ ih =>
    intro i x hx
    cases i with
    | zero => simp at hx; subst hx; exact ⟨b, by simp, h1⟩
    | succ i => simp at hx; simpa using ih i x hx

/-- C93: a server with the template engine has loaded what newusers printed. A bind as one of the users (the name may be spelled in any case)
succeeds exactly with the passwords that the value printed for this user accepts. -/
theorem C93_exact_partial {V : Env} {W : WalkOrd} {cfg : LdifCfg} {g : Nat} {stats : Bool} (hC : V.C.Lawful) (hconf : cfg.conf = false) (hW : W.Lawful)
    {L : LdifLib} (hL : L.Lawful) {run : List (Str × Str) → UInt64 → Str → Option Str} (hrun : TemplateEngine run) (start : UInt64)
    (hc : varValue vars b!"Company" = some company) (hb : varValue vars b!"BaseDN" = some base) (hd : varValue vars b!"MailDomain" = some domain)
    (hvars : ∀ x, (x = 10 ∨ x = 13) → x ∉ company ∧ x ∉ base ∧ x ∉ domain)
    (strong : Str → Bool) (hash : Str → Option Str) (hh : ∀ p h, hash p = some h → 10 ∉ h ∧ Inert h) (md text : Str)
    (ht : text.length < 2 ^ 64) (es : List PwEntry) (hes : parsePasswdFile strong text = .ok es) (hf : ∀ e ∈ es, ∀ f ∈ e.fields, Inert f)
    (recs : List UserRec) (fin : Bool) (h : outputLDIF strong hash md text = .ok (recs, fin))
    (hlen : ∀ l ∈ rawLines (printUsers recs), l.length < 65536)
    (file : List (Option Entry)) (hfile : parseLDIFFile L (some run) vars start (some (.whole (printUsers recs))) = some file)
    {older} {st : LdifSt} (hst : LdifReach V W cfg g stats (file :: older) st)
    (r : UserRec) (hr : r ∈ recs) (dn name pw : Str)
    (hdn : V.C.lower dn = V.C.lower (b!"uid=" ++ r.name ++ b!",ou=Users,ou=" ++ company ++ b!"," ++ base))
    (hbase : hasSuffix (V.C.lower dn) cfg.base = true) (hname : parseNormalize V.C dn = some name) (hpw : pw ≠ []) (o : Oracle) (id : Int) (bound : Str) :
    let out := handlePacket V (ldifSrv V W cfg g stats) o (wMsg id (wBind dn pw)) bound st
    let accepted := ∃ stored, r.userPassword = some stored ∧ validatePw V.C V.K pw (stored.dropWhile (· = 32)) = .ok true
    (accepted → out.resps = [.result id 1 0] ∧ out.next = .go name) ∧
    (¬ accepted → ∃ code, code ≠ 0 ∧ out.resps = [.result id 1 code] ∧ out.next = .go bound) := by
  intro out accepted
  obtain ⟨file', e1, hsays⟩ := C93_file_partial hL hrun start hc hb hd hvars strong hash hh md text ht es hes hf recs fin h hlen
  rw [hfile] at e1
  cases e1
  obtain ⟨⟨_, _, e2, hm⟩, -⟩ := reach_inv hW hst
  cases e2
  have hne : V.C.lower dn ≠ [] := by
    rw [hdn]
    have : b!"uid=" ++ r.name ++ b!",ou=Users,ou=" ++ company ++ b!"," ++ base = [] ++ 117 :: (b!"id=" ++ r.name ++ b!",ou=Users,ou=" ++ company ++ b!"," ++ base) := by simp
    rw [this, hC.lower_split _ _ _ (by decide)]
    simp
  have hmay : LdifMayBind V.C V.K cfg file dn pw ↔ accepted := by
    rw [C44_named hne]
    simp only [hbase, hpw, ne_eq, not_false_eq_true, true_and]
    obtain ⟨i, hi⟩ := List.mem_iff_getElem?.1 hr
    obtain ⟨e, he, hes'⟩ := matched_get hsays i (userRecord company base domain r) (by simp [hi])
    have hedn : V.C.lower e.dn = V.C.lower dn := by rw [hdn, hes'.1]; rfl
    have hpwd := passwordOf_user (C := V.C) hC hes'
    have hop : Opens V.C V.K e pw ↔ accepted := by
      unfold Opens
      rw [hpwd]
      constructor
      · rintro ⟨x, hx, hv⟩
        obtain ⟨v, hv1, rfl⟩ := Option.map_eq_some_iff.1 hx
        exact ⟨v, hv1, hv⟩
      · rintro ⟨v, hv1, hv⟩
        exact ⟨_, by rw [hv1]; rfl, hv⟩
    have hemem : e ∈ entriesIn file := List.mem_of_getElem? he
    rcases treeGet_recs hm (V.C.lower dn) with ⟨-, hno⟩ | ⟨-, x, -, -, -, hu⟩
    · exact absurd ⟨e, hemem, hedn⟩ hno
    · constructor
      · rintro ⟨e', he', hl', ho⟩
        rw [hu e' he' hl', ← hu e hemem hedn] at ho
        exact hop.1 ho
      · intro ha
        exact ⟨e, hemem, hedn, hop.2 ha⟩
  obtain ⟨-, k1, -, k3⟩ := C44_bind_exact hconf hW hst o id bound dn pw
  exact ⟨fun ha => k1 (hmay.2 ha) name hname, fun ha => k3 fun hm => ha (hmay.1 hm)⟩

theorem argon_inert {K : CryptoEnv} (hK : ∀ p salt h, K.argonCreate p salt = some h → 10 ∉ h ∧ Inert h) (salt : Str → Str) :
    ∀ p h, hashFor K salt b!"{ARGON2}" p = some h → 10 ∉ h ∧ Inert h := by
  intro p h hh
  have : hashPw K (salt p) p b!"{ARGON2}" = match K.argonCreate p (salt p) with
    | none => .err .other
    | some h => .ok (b!"{ARGON2}" ++ h) := rfl
  unfold hashFor at hh
  rw [this] at hh
  cases hc : K.argonCreate p (salt p) with
  | none => rw [hc] at hh; cases hh
  | some x =>
    rw [hc] at hh
    cases hh
    obtain ⟨h1, h2, h3⟩ := hK _ _ _ hc
    refine ⟨?_, ?_, braces_append (by decide) h3 (.inl (by decide))⟩ <;>
      (simp only [List.mem_append, not_or]; exact ⟨by decide, by assumption⟩)

/-- What newusers printed for a user whose password is given. -/
theorem printed_password {V : Env} (hC : V.C.Lawful) (hK : V.K.Lawful) (strong : Str → Bool) (salt : Str → Str) (md text : Str)
    (es : List PwEntry) (hes : parsePasswdFile strong text = .ok es)
    (recs : List UserRec) (h : outputLDIF strong (hashFor V.K salt b!"{ARGON2}") md text = .ok (recs, true)) (e : PwEntry) (he : e ∈ es) (hpw : e.passwd ≠ []) :
    ∃ r stored, r ∈ recs ∧ r.name = e.name ∧ r.userPassword = some stored ∧ stored.dropWhile (· = 32) = stored ∧
      validatePw V.C V.K e.passwd stored = .ok true := by
  obtain ⟨i, hi⟩ := List.mem_iff_getElem?.1 he
  have hlen' := C66_all_printed strong _ md text es recs hes h
  have hex : ∃ r, recs[i]? = some r := by
    have : i < es.length := (List.getElem?_eq_some_iff.1 hi).1
    exact ⟨_, List.getElem?_eq_getElem (by omega)⟩
  obtain ⟨r, hri⟩ := hex
  have hrn := (C94_names strong _ md text es recs true hes h i e r hi hri).1
  obtain ⟨stored, hs, hv⟩ := C67_given_password V.C V.K hC hK salt strong md text es recs true hes h i e r hi hri hpw
  have hst' : stored.dropWhile (· = 32) = stored := by
    obtain ⟨pw, h1, h2⟩ := output_password hes h hi hri
    rw [newPassword, if_pos hpw] at h1
    rw [hs] at h2
    have e2 := nonEmpty_some h2.symm
    subst e2
    unfold hashFor hashPw at h1
    simp only [show (b!"{ARGON2}" = [] ∨ b!"{ARGON2}" = b!"{CLEARTEXT}") ↔ False by decide, if_false, if_true] at h1
    cases hcr : V.K.argonCreate e.passwd (salt e.passwd) with
    | none => rw [hcr] at h1; cases h1
    | some x => rw [hcr] at h1; cases h1; simp [List.dropWhile]
  exact ⟨r, stored, List.mem_of_getElem? hri, hrn, hs, hst', hv⟩

/-- C93: a user whose password is given in the input of newusers can log in with it at the server that has loaded what newusers printed. -/
theorem C93_login_partial {V : Env} {W : WalkOrd} {cfg : LdifCfg} {g : Nat} {stats : Bool} (hC : V.C.Lawful) (hK : V.K.Lawful)
    (hargon : ∀ p salt h, V.K.argonCreate p salt = some h → 10 ∉ h ∧ Inert h) (hconf : cfg.conf = false) (hW : W.Lawful)
    {L : LdifLib} (hL : L.Lawful) {run : List (Str × Str) → UInt64 → Str → Option Str} (hrun : TemplateEngine run) (start : UInt64)
    (hc : varValue vars b!"Company" = some company) (hb : varValue vars b!"BaseDN" = some base) (hd : varValue vars b!"MailDomain" = some domain)
    (hvars : ∀ x, (x = 10 ∨ x = 13) → x ∉ company ∧ x ∉ base ∧ x ∉ domain)
    (strong : Str → Bool) (salt : Str → Str) (md text : Str)
    (ht : text.length < 2 ^ 64) (es : List PwEntry) (hes : parsePasswdFile strong text = .ok es) (hf : ∀ e ∈ es, ∀ f ∈ e.fields, Inert f)
    (recs : List UserRec) (h : outputLDIF strong (hashFor V.K salt b!"{ARGON2}") md text = .ok (recs, true))
    (hlen : ∀ l ∈ rawLines (printUsers recs), l.length < 65536)
    (file : List (Option Entry)) (hfile : parseLDIFFile L (some run) vars start (some (.whole (printUsers recs))) = some file)
    {older} {st : LdifSt} (hst : LdifReach V W cfg g stats (file :: older) st)
    (e : PwEntry) (he : e ∈ es) (hpw : e.passwd ≠ []) (dn name : Str)
    (hdn : V.C.lower dn = V.C.lower (b!"uid=" ++ e.name ++ b!",ou=Users,ou=" ++ company ++ b!"," ++ base))
    (hbase : hasSuffix (V.C.lower dn) cfg.base = true) (hname : parseNormalize V.C dn = some name) (o : Oracle) (id : Int) (bound : Str) :
    let out := handlePacket V (ldifSrv V W cfg g stats) o (wMsg id (wBind dn e.passwd)) bound st
    out.resps = [.result id 1 0] ∧ out.next = .go name := by
  obtain ⟨r, stored, hm, hrn, hs, hst', hv⟩ := printed_password hC hK strong salt md text es hes recs h e he hpw
  refine (C93_exact_partial hC hconf hW hL hrun start hc hb hd hvars strong _ (argon_inert hargon salt) md text ht es hes hf recs true h hlen file hfile
    hst r hm dn name e.passwd (by rw [hdn, hrn]) hbase hname hpw o id bound).1 ⟨stored, hs, by rw [hst']; exact hv⟩

end

/-! ## An engine -/

/-- A template engine for variables; it fails for all other actions. -/
def tinyGo (vars : List (Str × Str)) : Nat → Str → Option Str
  | 0, _ => some []
  | _ + 1, [] => some []
  | f + 1, c :: cs =>
    if hasPrefix (c :: cs) b!"{{" then
      let n := (cs.drop 2).takeWhile isAlnumByte
      let rest := (cs.drop 2).dropWhile isAlnumByte
      if hasPrefix (c :: cs) b!"{{." && n.head?.any (fun c => !isDigitByte c) && hasPrefix rest b!"}}" then
        match varValue vars n with
        | some v => (tinyGo vars f (rest.drop 2)).map (v ++ ·)
        | none => none
      else none
    else (tinyGo vars f cs).map (c :: ·)

def tinyEngine (vars : List (Str × Str)) (_ : UInt64) (text : Str) : Option Str := tinyGo vars text.length text

theorem braces_prefix {s : Str} (h : contains s b!"{{" = false) : hasPrefix s b!"{{" = false := by
  cases s with
  | nil => rfl
  | cons c t =>
    rw [braces_cons, Bool.or_eq_false_iff] at h
    unfold hasPrefix
    cases t with
    | nil => simp [List.isPrefixOf]
    | cons d t =>
      have := h.1
      simp only [Bool.and_eq_false_iff, beq_eq_false_iff_ne, ne_eq, List.head?_cons, Option.some.injEq] at this
      simp only [List.isPrefixOf, Bool.and_true, Bool.and_eq_false_iff, beq_eq_false_iff_ne, ne_eq]
      rcases this with h | h
      · exact .inl fun e => h e.symm
      · exact .inr fun e => h e.symm

/-- Text without actions in front of anything else. -/
theorem tinyGo_text (vars : List (Str × Str)) : ∀ (s x : Str) (f : Nat), contains s b!"{{" = false → (s.getLast? ≠ some 123 ∨ x.head? ≠ some 123) →
    tinyGo vars (s.length + f) (s ++ x) = (tinyGo vars f x).map (s ++ ·)
  | [], x, f, _, _ => by simp
  | c :: s, x, f, h, hl => by
    have hn : hasPrefix (c :: s ++ x) b!"{{" = false := by
      cases s with
      | nil =>
        cases x with
        | nil => simp [hasPrefix, List.isPrefixOf]
        | cons d x =>
          simp only [List.getLast?_singleton, ne_eq, Option.some.injEq, List.head?_cons] at hl
          simp only [hasPrefix, List.singleton_append, List.isPrefixOf, Bool.and_true, Bool.and_eq_false_iff, beq_eq_false_iff_ne, ne_eq]
          rcases hl with h | h
          · exact .inl fun e => h e.symm
          · exact .inr fun e => h e.symm
      | cons d s =>
        have := braces_prefix h
        simpa [hasPrefix, List.isPrefixOf] using this
    rw [braces_cons, Bool.or_eq_false_iff] at h
    have ih := tinyGo_text vars s x f h.2 (by
      cases s with
      | nil => exact .inl (by simp)
      | cons d s => simpa [List.getLast?_cons_cons] using hl)
    rw [show (c :: s).length + f = (s.length + f) + 1 by simp; omega]
    rw [List.cons_append] at hn ⊢
    rw [tinyGo, if_neg (by simp [hn]), ih]
    cases tinyGo vars f x <;> simp

theorem alnum_name : ∀ {n : Str} (x : Str), n.all isAlnumByte = true → x.head?.all (fun c => !isAlnumByte c) = true →
    (n ++ x).takeWhile isAlnumByte = n ∧ (n ++ x).dropWhile isAlnumByte = x
  | [], x, _, h => by
    cases x with
    | nil => simp
    | cons c x => simp at h; simp [h]
  | c :: n, x, h, hx => by
    simp only [List.all_cons, Bool.and_eq_true] at h
    obtain ⟨h1, h2⟩ := alnum_name x h.2 hx
    rw [List.cons_append, List.takeWhile_cons_of_pos h.1, List.dropWhile_cons_of_pos h.1, h1, h2]
    exact ⟨rfl, rfl⟩

/-- The engine does what is asked of engines. -/
theorem tinyEngine_ok : TemplateEngine tinyEngine := by
  intro vars start text out h
  unfold tinyEngine
  have key : ∀ f, text.length ≤ f → tinyGo vars f text = some out := by
    induction h with
    | text s hs =>
      intro f hf
      have := tinyGo_text vars s [] (f - s.length) hs (.inr (by simp))
      rw [List.append_nil, show s.length + (f - s.length) = f by omega] at this
      rw [this]
      cases (f - s.length) <;> simp [tinyGo]
    | var s n v rest out h1 h2 h3 h4 h5 _ ih =>
      intro f hf
      obtain ⟨a1, a2⟩ := alnum_name (b!"}}" ++ rest) h4 (by simp; decide)
      simp only [List.length_append, List.length_cons, List.length_nil] at hf
      have := tinyGo_text vars s (b!"{{." ++ n ++ b!"}}" ++ rest) (f - s.length) h1 (.inl h2)
      rw [show s.length + (f - s.length) = f by omega] at this
      rw [show s ++ b!"{{." ++ n ++ b!"}}" ++ rest = s ++ (b!"{{." ++ n ++ b!"}}" ++ rest) by simp, this]
      obtain ⟨f', hf'⟩ : ∃ f', f - s.length = f' + 1 := ⟨f - s.length - 1, by omega⟩
      rw [hf', show b!"{{." ++ n ++ b!"}}" ++ rest = 123 :: (b!"{." ++ (n ++ (b!"}}" ++ rest))) by simp, tinyGo,
        if_pos (by simp [hasPrefix, List.isPrefixOf])]
      simp only [show (b!"{." ++ (n ++ (b!"}}" ++ rest))).drop 2 = n ++ (b!"}}" ++ rest) from rfl, a1, a2]
      rw [if_pos (by simp only [h3]; simp [hasPrefix, List.isPrefixOf]), h5]
      simp only [show (b!"}}" ++ rest).drop 2 = rest from rfl]
      rw [ih f' (by omega)]
      simp
  exact key _ (Nat.le_refl _)

theorem Renders.cons {vars : List (Str × Str)} {c : UInt8} {t out : Str} (hn : hasPrefix (c :: t) b!"{{" = false) (h : Renders vars t out) :
    Renders vars (c :: t) (c :: out) := by
  have hb : ∀ (s x : Str), hasPrefix (c :: (s ++ x)) b!"{{" = false → contains s b!"{{" = false → contains (c :: s) b!"{{" = false := by
    intro s x h1 h2
    rw [braces_cons, h2, Bool.or_false]
    cases s with
    | nil => simp
    | cons d s =>
      simp only [hasPrefix, List.cons_append, List.isPrefixOf, Bool.and_true, Bool.and_eq_false_iff, beq_eq_false_iff_ne, ne_eq] at h1
      simp only [List.head?_cons, Bool.and_eq_false_iff, beq_eq_false_iff_ne, ne_eq, Option.some.injEq]
      rcases h1 with h | h
      · exact .inl fun e => h e.symm
      · exact .inr fun e => h e.symm
  cases h with
  | text _ h => exact .text _ (hb t [] (by simpa using hn) h)
  | var s n v rest out h1 h2 h3 h4 h5 h6 =>
    refine .var (c :: s) n v rest out (hb s (b!"{{." ++ n ++ b!"}}" ++ rest) (by simpa using hn) h1) ?_ h3 h4 h5 h6
    cases s with
    | nil =>
      intro e
      simp only [List.getLast?_singleton, Option.some.injEq] at e
      subst e
      simp [hasPrefix, List.isPrefixOf] at hn
    | cons d s => simpa [List.getLast?_cons_cons] using h2

/-- What the engine makes of a text is what the text stands for. -/
theorem tinyEngine_renders {vars : List (Str × Str)} {text out : Str} {start : UInt64} (h : tinyEngine vars start text = some out) : Renders vars text out := by
  have key : ∀ (f : Nat) (text out : Str), text.length ≤ f → tinyGo vars f text = some out → Renders vars text out := by
    intro f
    induction f with
    | zero =>
      intro text out hl h
      have : text = [] := List.length_eq_zero_iff.1 (by omega)
      subst this
      cases h
      exact .text [] rfl
    | succ f ih =>
      intro text out hl h
      cases text with
      | nil => cases h; exact .text [] rfl
      | cons c cs =>
        rw [tinyGo] at h
        by_cases hp : hasPrefix (c :: cs) b!"{{" = true
        · rw [if_pos hp] at h
          dsimp only at h
          split at h
          · rename_i hc
            simp only [Bool.and_eq_true] at hc
            obtain ⟨⟨hc1, hc2⟩, hc3⟩ := hc
            split at h
            · rename_i v hv
              obtain ⟨o, ho, rfl⟩ := Option.map_eq_some_iff.1 h
              obtain ⟨t, et⟩ := List.isPrefixOf_iff_prefix.1 hc1
              have ecs : cs = b!"{." ++ cs.drop 2 := by
                rw [List.cons_append] at et
                obtain ⟨-, et⟩ := List.cons.inj et
                rw [← et]; rfl
              obtain ⟨u, eu⟩ := List.isPrefixOf_iff_prefix.1 hc3
              have er : (cs.drop 2).dropWhile isAlnumByte = b!"}}" ++ ((cs.drop 2).dropWhile isAlnumByte).drop 2 := by rw [← eu]; rfl
              have ec : c = 123 := by
                rw [List.cons_append] at et
                exact (List.cons.inj et).1.symm
              have hlen : (((cs.drop 2).dropWhile isAlnumByte).drop 2).length ≤ f := by
                have h1 := (List.dropWhile_suffix (l := cs.drop 2) isAlnumByte).length_le
                simp only [List.length_drop, List.length_cons] at hl h1 ⊢
                omega
              have := Renders.var (vars := vars) [] _ v _ o rfl (by simp) hc2
                (List.all_eq_true.2 fun x hx => mem_takeWhile_sat hx) hv (ih _ o hlen ho)
              rw [List.nil_append, List.nil_append, List.append_assoc, List.append_assoc, ← er, List.takeWhile_append_dropWhile] at this
              rw [ec, ecs]
              exact this
            · cases h
          · cases h
        · rw [if_neg hp] at h
          obtain ⟨o, ho, rfl⟩ := Option.map_eq_some_iff.1 h
          exact (ih cs o (by simpa using hl) ho).cons (by simpa using hp)
  exact key _ _ _ (Nat.le_refl _) h

/-! ## Examples and failures -/

/-- Hashes without line breaks and braces. -/
def hexOf (p : Str) : Str := p.map fun c => if c = 10 ∨ c = 13 ∨ c = 123 then 65 else c

def hexCrypto : CryptoEnv := { toyCrypto with argonCreate := fun p _ => some (hexOf p), argonCompare := fun p h => .ok (h = hexOf p) }

theorem hexCrypto_lawful : hexCrypto.Lawful where
  argon := by intro p salt h; simp only [hexCrypto, Option.some.injEq]; rintro rfl; simp

theorem hexCrypto_inert : ∀ p salt h, hexCrypto.argonCreate p salt = some h → 10 ∉ h ∧ Inert h := by
  intro p salt h e
  simp only [hexCrypto, Option.some.injEq] at e
  subst e
  have : ∀ x ∈ hexOf p, x ≠ 10 ∧ x ≠ 13 ∧ x ≠ 123 := by
    intro x hx
    obtain ⟨c, -, rfl⟩ := List.mem_map.1 hx
    split
    · decide
    · rename_i h; simpa [not_or] using h
  exact ⟨fun h => (this _ h).1 rfl, fun h => (this _ h).2.1 rfl, braces_none fun h => (this _ h).2.2 rfl⟩

def loginEnv : Env := { ldEnv with K := hexCrypto }

def loginVars : List (Str × Str) := [(b!"Company", b!"Acme"), (b!"BaseDN", b!"dc=lg"), (b!"MailDomain", b!"lg.io")]

def loginText : Str := b!"# users\nann:pw:7::Ann Lee,a@lg.io:/:sh\nbob:::::/:sh\n"

def loginEntries : List PwEntry := [⟨2, b!"ann", b!"pw", b!"7", [], b!"Ann Lee,a@lg.io", b!"/", b!"sh"⟩, ⟨3, b!"bob", [], [], [], [], b!"/", b!"sh"⟩]

def loginUsers : List UserRec := [⟨2, b!"ann", 7, some 1001, some b!"{ARGON2}pw", [b!"a@{{.MailDomain}}"], b!"Ann Lee", some b!"Ann", some b!"Lee"⟩,
  ⟨3, b!"bob", 1002, some 1002, some b!"bob", [], b!"bob", none, none⟩]

def loginFile : List (Option Entry) :=
  [some ⟨b!"uid=ann,ou=Users,ou=Acme,dc=lg", [⟨b!"cn", [b!"Ann Lee"]⟩, ⟨b!"gidNumber", [b!"1001"]⟩, ⟨b!"givenName", [b!"Ann"]⟩, ⟨b!"mail", [b!"ann@lg.io"]⟩,
      ⟨b!"mailAlternateAddress", [b!"a@lg.io"]⟩, ⟨b!"objectClass", [b!"posixAccount", b!"top", b!"inetOrgPerson"]⟩, ⟨b!"sn", [b!"Lee"]⟩, ⟨b!"uid", [b!"ann"]⟩,
      ⟨b!"uidNumber", [b!"7"]⟩, ⟨b!"userPassword", [b!"{ARGON2}pw"]⟩]⟩,
   some ⟨b!"uid=bob,ou=Users,ou=Acme,dc=lg", [⟨b!"cn", [b!"bob"]⟩, ⟨b!"gidNumber", [b!"1002"]⟩, ⟨b!"mail", [b!"bob@lg.io"]⟩,
      ⟨b!"objectClass", [b!"posixAccount", b!"top", b!"inetOrgPerson"]⟩, ⟨b!"uid", [b!"bob"]⟩, ⟨b!"uidNumber", [b!"1002"]⟩, ⟨b!"userPassword", [b!"bob"]⟩]⟩]

theorem loginFile_loads : treeFromLDIF asciiCase defaultIdx loginFile = some (ldMem loginFile) := ldMemI_loads (by decide +kernel)

/-- Non-vacuity of C93: ann logs in. -/
example (o : Oracle) : (handlePacket loginEnv (ldifSrv loginEnv ldOrd { ldCfg with conf := false } 8 false) o
    (wMsg 7 (wBind b!"UID=ann,ou=users,ou=acme,dc=lg" b!"pw")) [] (ldStart loginFile)).resps = [.result 7 1 0] :=
  (C93_login_partial (vars := loginVars) (company := b!"Acme") (base := b!"dc=lg") (domain := b!"lg.io") (V := loginEnv) (W := ldOrd)
    (cfg := { ldCfg with conf := false }) (g := 8) (stats := false) asciiCase_lawful hexCrypto_lawful hexCrypto_inert rfl ldOrd_lawful goLdif_lawful
    tinyEngine_ok 1000 (by decide +kernel) (by decide +kernel) (by decide +kernel) (by rintro x (rfl | rfl) <;> decide +kernel) (fun _ => true) (fun _ => [])
    b!"lg.io" loginText (by decide +kernel) loginEntries (by decide +kernel) (by decide +kernel) loginUsers (by decide +kernel) (by decide +kernel)
    loginFile (by decide +kernel) (.start _ _ _ _ _ _ loginFile_loads) loginEntries[0] (by simp [loginEntries]) (by decide +kernel)
    b!"UID=ann,ou=users,ou=acme,dc=lg" b!"uid=ann,ou=users,ou=acme,dc=lg" (by decide +kernel) (by decide +kernel) (by decide +kernel) o 7 []).1

/-- C93 does not keep others out: bob, for whom the input has no password, logs in with the name as password. -/
theorem C93_no_password_fails (o : Oracle) : outputLDIF (fun _ => true) (hashFor hexCrypto (fun _ => []) b!"{ARGON2}") b!"lg.io" loginText = .ok (loginUsers, true) ∧
    (handlePacket loginEnv (ldifSrv loginEnv ldOrd { ldCfg with conf := false } 8 false) o
      (wMsg 7 (wBind b!"uid=bob,ou=Users,ou=Acme,dc=lg" b!"bob")) [] (ldStart loginFile)).resps = [.result 7 1 0] :=
  ⟨by decide +kernel, ((C93_exact_partial (vars := loginVars) (company := b!"Acme") (base := b!"dc=lg") (domain := b!"lg.io") (V := loginEnv) (W := ldOrd)
    (cfg := { ldCfg with conf := false }) (g := 8) (stats := false) asciiCase_lawful rfl ldOrd_lawful goLdif_lawful
    tinyEngine_ok 1000 (by decide +kernel) (by decide +kernel) (by decide +kernel) (by rintro x (rfl | rfl) <;> decide +kernel) (fun _ => true)
    (hashFor hexCrypto (fun _ => []) b!"{ARGON2}") (argon_inert hexCrypto_inert _)
    b!"lg.io" loginText (by decide +kernel) loginEntries (by decide +kernel) (by decide +kernel) loginUsers true (by decide +kernel) (by decide +kernel)
    loginFile (by decide +kernel) (.start _ _ _ _ _ _ loginFile_loads) loginUsers[1] (by simp [loginUsers])
    b!"uid=bob,ou=Users,ou=Acme,dc=lg" b!"uid=bob,ou=users,ou=acme,dc=lg" b!"bob" (by decide +kernel) (by decide +kernel) (by decide +kernel) (by decide) o 7 []).1
      ⟨b!"bob", rfl, by decide +kernel⟩).1⟩

/-- C93 fails for fields with `{{`: newusers does not protect them, and the server takes them for actions. The full name of this user is
`{{.BaseDN}}` according to the input and to the file, but every server with the template engine gives the base DN for it. -/
theorem C93_template_fails : ∃ (text : Str) (recs : List UserRec), outputLDIF (fun _ => true) some b!"lg.io" text = .ok (recs, true) ∧
    recs.map (·.cn) = [b!"{{.BaseDN}}"] ∧
    ∀ (L : LdifLib) run start, L.Lawful → TemplateEngine run → ∃ file, parseLDIFFile L (some run) loginVars start (some (.whole (printUsers recs))) = some file ∧
      (entriesIn file).map (fun e => typeValues b!"cn" e.attrs) = [[b!"dc=lg"]] := by
  refine ⟨b!"bob:pw:1:1:{{.BaseDN}}:/:sh\n", [⟨1, b!"bob", 1, some 1, some b!"pw", [], b!"{{.BaseDN}}", none, none⟩], by decide +kernel, by decide +kernel, ?_⟩
  intro L run start hL hrun
  have hr := tinyEngine_renders (vars := loginVars) (start := 0) (text := templateText (printUsers [⟨1, b!"bob", 1, some 1, some b!"pw", [], b!"{{.BaseDN}}", none, none⟩]))
    (out := b!"dn: uid=bob,ou=Users,ou=Acme,dc=lg\nobjectClass: posixAccount\nobjectClass: top\nobjectClass: inetOrgPerson\nuid: bob\nuidNumber: 1\ngidNumber: 1\nuserPassword: pw\nmail: bob@lg.io\ncn: dc=lg\n")
    (by decide +kernel)
  have e := hrun loginVars start _ _ hr
  refine ⟨[some ⟨b!"uid=bob,ou=Users,ou=Acme,dc=lg", gather [] [(b!"objectClass", b!"posixAccount"), (b!"objectClass", b!"top"), (b!"objectClass", b!"inetOrgPerson"),
    (b!"uid", b!"bob"), (b!"uidNumber", b!"1"), (b!"gidNumber", b!"1"), (b!"userPassword", b!"pw"), (b!"mail", b!"bob@lg.io"), (b!"cn", b!"dc=lg")]⟩], ?_, by decide +kernel⟩
  unfold parseLDIFFile fileText
  rw [Option.bind_some]
  dsimp only
  rw [e, Option.bind_some]
  have hs := fun (t v : Str) => says_blanks t v
  refine ldifUnmarshal_plain hL (rs := [⟨b!"uid=bob,ou=Users,ou=Acme,dc=lg", [(b!"objectClass", b!"posixAccount"), (b!"objectClass", b!"top"), (b!"objectClass", b!"inetOrgPerson"),
    (b!"uid", b!"bob"), (b!"uidNumber", b!"1"), (b!"gidNumber", b!"1"), (b!"userPassword", b!"pw"), (b!"mail", b!"bob@lg.io"), (b!"cn", b!"dc=lg")]⟩])
    (lines := ([(b!"dn", b!"uid=bob,ou=Users,ou=Acme,dc=lg"), (b!"objectClass", b!"posixAccount"), (b!"objectClass", b!"top"), (b!"objectClass", b!"inetOrgPerson"),
    (b!"uid", b!"bob"), (b!"uidNumber", b!"1"), (b!"gidNumber", b!"1"), (b!"userPassword", b!"pw"), (b!"mail", b!"bob@lg.io"), (b!"cn", b!"dc=lg")]).map attrLine)
    (recs := [([(b!"dn", b!"uid=bob,ou=Users,ou=Acme,dc=lg"), (b!"objectClass", b!"posixAccount"), (b!"objectClass", b!"top"), (b!"objectClass", b!"inetOrgPerson"),
    (b!"uid", b!"bob"), (b!"uidNumber", b!"1"), (b!"gidNumber", b!"1"), (b!"userPassword", b!"pw"), (b!"mail", b!"bob@lg.io"), (b!"cn", b!"dc=lg")]).map attrLine]) ?_ ?_ ?_
  · exact hasLines_lf _ (by decide +kernel)
  · exact .last _ _ (by simp) (recordLines_attrs _ (by decide +kernel))
  · refine .cons _ _ _ _ (.mk _ _ _ (hs b!"dn" b!"uid=bob,ou=Users,ou=Acme,dc=lg") (by simp) ?_) .nil
    have := matched_map' (R := fun (tv : Str × Str) (l : Str) => LineSays tv.1 tv.2 l ∧ ldifType tv.1 = true ∧ tv.1 ≠ b!"control" ∧ tv.1 ≠ b!"changetype")
      (fun p : Str × Str => (p.1, p.2.dropWhile (· = 32))) attrLine [(b!"objectClass", b!"posixAccount"), (b!"objectClass", b!"top"), (b!"objectClass", b!"inetOrgPerson"),
        (b!"uid", b!"bob"), (b!"uidNumber", b!"1"), (b!"gidNumber", b!"1"), (b!"userPassword", b!"pw"), (b!"mail", b!"bob@lg.io"), (b!"cn", b!"dc=lg")]
      fun p hp => ⟨hs _ _, by revert p; decide +kernel⟩
    exact this

end Idm
