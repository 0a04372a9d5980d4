import Verif.Spec.WellFormed
import Verif.Proofs.Session
import Verif.Props.BoltWrite
import Verif.Props.BoltBind
import Verif.Props.BoltPw
import Verif.Props.Crash
import Verif.Props.Wire
import Verif.Spec.LdifPaging
/-!
# C79: only well-formed requests are carried out
-/
namespace Idm

theorem strVals_exact (ks : List Packet) : (∀ vs, strVals ks = .ok vs ↔ Each (fun k v => k.val = .str v) ks vs) ∧
    ((∃ vs, strVals ks = .ok vs) ∨ strVals ks = .err (.ldap 2 true)) := by
  induction ks with
  | nil =>
    refine ⟨fun vs => ?_, Or.inl ⟨[], rfl⟩⟩
    cases vs <;> simp [strVals, Each]
  | cons k ks ih =>
    rw [strVals]
    cases hk : k.str? with
    | none =>
      refine ⟨fun vs => ?_, Or.inr rfl⟩
      constructor
      · intro h; cases h
      · intro h
        cases vs with
        | nil => exact h.elim
        | cons v vs => rw [str?_iff.2 h.1] at hk; cases hk
    | some s =>
      have hs := str?_iff.1 hk
      dsimp only
      rcases ih.2 with ⟨us, hu⟩ | he
      · rw [hu]
        refine ⟨fun vs => ?_, Or.inl ⟨s :: us, rfl⟩⟩
        constructor
        · intro h
          cases h
          exact ⟨hs, (ih.1 us).1 hu⟩
        · intro h
          cases vs with
          | nil => exact h.elim
          | cons v vs =>
            have h1 := (ih.1 vs).2 h.2
            rw [hu] at h1
            cases h1
            have := h.1.symm.trans hs
            cases this
            rfl
      · rw [he]
        refine ⟨fun vs => ?_, Or.inr rfl⟩
        constructor
        · intro h; cases h
        · intro h
          cases vs with
          | nil => exact h.elim
          | cons v vs =>
            have h1 := (ih.1 vs).2 h.2
            rw [he] at h1
            cases h1

theorem values_exact (p : Packet) : (∀ vs, parseAttributeValues p = .ok vs ↔ IsValues p vs) ∧
    ((∃ vs, parseAttributeValues p = .ok vs) ∨ parseAttributeValues p = .err (.ldap 2 true)) := by
  unfold parseAttributeValues
  by_cases h : p.cls ≠ .universal ∨ p.cons = false ∨ p.tag ≠ tagSet
  · rw [if_pos h]
    refine ⟨fun vs => ⟨(fun h => by cases h), fun hv => ?_⟩, Or.inr rfl⟩
    obtain ⟨h1, h2, h3, -⟩ := hv
    rcases h with h | h | h
    · exact absurd h1 h
    · rw [h2] at h; cases h
    · exact absurd h3 h
  · rw [if_neg h]
    obtain ⟨a, b⟩ := strVals_exact p.kids
    refine ⟨fun vs => ⟨fun e => ⟨?_, ?_, ?_, (a vs).1 e⟩, fun hv => (a vs).2 hv.2.2.2⟩, b⟩
    · exact Classical.byContradiction fun e => h (Or.inl e)
    · cases hc : p.cons
      · exact absurd (Or.inr (Or.inl hc)) h
      · rfl
    · exact Classical.byContradiction fun e => h (Or.inr (Or.inr e))

/-- What `parseAttribute` accepts. -/
def AttrShape (part : Bool) (p : Packet) (a : Attr) : Prop :=
  IsAttribute p a ∨ part = true ∧ a.vals = [] ∧ ∃ t, p.kids = [t] ∧ IsDescription t a.name

theorem attribute_exact (p : Packet) (part : Bool) : (∀ a, parseAttribute p part = .ok a ↔ AttrShape part p a) ∧
    ((∃ a, parseAttribute p part = .ok a) ∨ parseAttribute p part = .err (.ldap 2 true)) := by
  have no : ∀ {t u}, (∀ a : Attr, ¬ AttrShape part p a) → parseAttribute p part = .err (.ldap t u) → t = 2 → u = true →
      (∀ a, parseAttribute p part = .ok a ↔ AttrShape part p a) ∧
      ((∃ a, parseAttribute p part = .ok a) ∨ parseAttribute p part = .err (.ldap 2 true)) := by
    rintro t u h e rfl rfl
    refine ⟨fun a => ⟨(fun h => by rw [e] at h; cases h), fun ha => absurd ha (h a)⟩, Or.inr e⟩
  have desc : ∀ (t : Packet) (s : Str), IsDescription t s ↔ ¬ (t.cls ≠ .universal ∨ t.cons = true ∨ t.tag ≠ tagOctetString) ∧ t.str? = some s := by
    intro t s
    rw [str?_iff]
    unfold IsDescription tagOctetString
    cases hc : t.cons <;> simp [and_assoc]
  match hk : p.kids with
  | [] =>
    refine no (t := 2) (u := true) (fun a ha => ?_) ?_ rfl rfl
    · rcases ha with ⟨t, v, h, -⟩ | ⟨-, -, t, h, -⟩ <;> rw [hk] at h <;> cases h
    · unfold parseAttribute
      rw [hk]
      cases part <;> rfl
  | [t] =>
    cases part with
    | false =>
      refine no (t := 2) (u := true) (fun a ha => ?_) ?_ rfl rfl
      · rcases ha with ⟨t, v, h, -⟩ | ⟨h, -⟩
        · rw [hk] at h; cases h
        · cases h
      · unfold parseAttribute
        rw [hk]
        rfl
    | true =>
      have e : parseAttribute p true = if t.cls ≠ .universal ∨ t.cons = true ∨ t.tag ≠ tagOctetString then ldapErr rcProtocolError
          else match t.str? with
            | none => ldapErr rcProtocolError
            | some s => .ok ⟨s, []⟩ := by
        unfold parseAttribute
        rw [hk]
        rfl
      rw [e]
      have sh : ∀ a, AttrShape true p a ↔ a.vals = [] ∧ IsDescription t a.name := by
        intro a
        constructor
        · rintro (⟨t, v, h, -⟩ | ⟨-, h1, t', h2, h3⟩)
          · rw [hk] at h; cases h
          · rw [hk] at h2; cases h2
            exact ⟨h1, h3⟩
        · intro h
          exact Or.inr ⟨rfl, h.1, t, hk, h.2⟩
      by_cases h : t.cls ≠ .universal ∨ t.cons = true ∨ t.tag ≠ tagOctetString
      · rw [if_pos h]
        refine ⟨fun a => ⟨(fun h => by cases h), fun ha => absurd h ((desc _ _).1 ((sh a).1 ha).2).1⟩, Or.inr rfl⟩
      · rw [if_neg h]
        cases hs : t.str? with
        | none =>
          refine ⟨fun a => ⟨(fun h => by cases h), fun ha => ?_⟩, Or.inr rfl⟩
          have := ((desc _ _).1 ((sh a).1 ha).2).2
          rw [hs] at this; cases this
        | some s =>
          refine ⟨fun a => ?_, Or.inl ⟨_, rfl⟩⟩
          rw [sh, desc, hs]
          constructor
          · intro e; cases e; exact ⟨rfl, h, rfl⟩
          · rintro ⟨h1, -, h2⟩
            cases a
            cases h2
            subst h1
            rfl
  | [t, v] =>
    have e : parseAttribute p part = if t.cls ≠ .universal ∨ t.cons = true ∨ t.tag ≠ tagOctetString then ldapErr rcProtocolError
        else match t.str? with
          | none => ldapErr rcProtocolError
          | some s => (parseAttributeValues v).bind fun vals => .ok ⟨s, vals⟩ := by
      unfold parseAttribute
      rw [hk]
      cases part <;> rfl
    rw [e]
    have sh : ∀ a, AttrShape part p a ↔ IsDescription t a.name ∧ IsValues v a.vals := by
      intro a
      constructor
      · rintro (⟨t, v, h, h1⟩ | ⟨-, h1, t', h2, h3⟩)
        · rw [hk] at h; cases h
          exact h1
        · rw [hk] at h2; cases h2
      · intro h
        exact Or.inl ⟨t, v, hk, h⟩
    by_cases h : t.cls ≠ .universal ∨ t.cons = true ∨ t.tag ≠ tagOctetString
    · rw [if_pos h]
      refine ⟨fun a => ⟨(fun h => by cases h), fun ha => absurd h ((desc _ _).1 ((sh a).1 ha).1).1⟩, Or.inr rfl⟩
    · rw [if_neg h]
      cases hs : t.str? with
      | none =>
        refine ⟨fun a => ⟨(fun h => by cases h), fun ha => ?_⟩, Or.inr rfl⟩
        have := ((desc _ _).1 ((sh a).1 ha).1).2
        rw [hs] at this; cases this
      | some s =>
        dsimp only
        obtain ⟨va, vb⟩ := values_exact v
        rcases vb with ⟨vs, hv⟩ | hv
        · rw [hv]
          refine ⟨fun a => ?_, Or.inl ⟨_, rfl⟩⟩
          rw [sh, desc, hs, ← va, hv]
          constructor
          · intro e; cases e; exact ⟨⟨h, rfl⟩, rfl⟩
          · rintro ⟨⟨-, h1⟩, h2⟩
            cases a
            cases h1
            cases h2
            rfl
        · rw [hv]
          refine ⟨fun a => ⟨(fun h => by cases h), fun ha => ?_⟩, Or.inr rfl⟩
          have := (va _).2 ((sh a).1 ha).2
          rw [hv] at this; cases this
  | t :: v :: w :: more =>
    refine no (t := 2) (u := true) (fun a ha => ?_) ?_ rfl rfl
    · rcases ha with ⟨t, v, h, -⟩ | ⟨-, -, t, h, -⟩ <;> rw [hk] at h <;> cases h
    · unfold parseAttribute
      rw [hk]
      have : (t :: v :: w :: more).length = more.length + 3 := rfl
      rw [this]
      cases part
      · rw [if_neg (by simp), if_pos (by simp)]
        rfl
      · rw [if_pos (by simp)]
        rfl

theorem attrs_exact (ks : List Packet) : (∀ as, parseAttrs ks = .ok as ↔ Each IsAttribute ks as) ∧
    ((∃ as, parseAttrs ks = .ok as) ∨ parseAttrs ks = .err (.ldap 2 true)) := by
  have sh : ∀ p a, AttrShape false p a ↔ IsAttribute p a := fun p a => by simp [AttrShape]
  induction ks with
  | nil =>
    refine ⟨fun vs => ?_, Or.inl ⟨[], rfl⟩⟩
    cases vs <;> simp [parseAttrs, Each]
  | cons k ks ih =>
    rw [parseAttrs]
    obtain ⟨a1, a2⟩ := attribute_exact k false
    rcases a2 with ⟨a, ha⟩ | ha
    · rw [ha]
      rcases ih.2 with ⟨us, hu⟩ | he
      · rw [hu]
        refine ⟨fun vs => ?_, Or.inl ⟨a :: us, rfl⟩⟩
        constructor
        · intro h
          cases h
          exact ⟨(sh _ _).1 ((a1 _).1 ha), (ih.1 us).1 hu⟩
        · intro h
          cases vs with
          | nil => exact h.elim
          | cons v vs =>
            have h1 := (ih.1 vs).2 h.2
            have h2 := (a1 v).2 ((sh _ _).2 h.1)
            rw [hu] at h1
            rw [ha] at h2
            cases h1
            cases h2
            rfl
      · rw [he]
        refine ⟨fun vs => ⟨(fun h => by cases h), fun h => ?_⟩, Or.inr rfl⟩
        cases vs with
        | nil => exact h.elim
        | cons v vs =>
          have h1 := (ih.1 vs).2 h.2
          rw [he] at h1
          cases h1
    · rw [ha]
      refine ⟨fun vs => ⟨(fun h => by cases h), fun h => ?_⟩, Or.inr rfl⟩
      cases vs with
      | nil => exact h.elim
      | cons v vs =>
        have h2 := (a1 v).2 ((sh _ _).2 h.1)
        rw [ha] at h2
        cases h2

/-- Refused or crashed (a change without parts). -/
def Refused {α : Type} (r : Res α) : Prop := r = .err (.ldap 2 true) ∨ r = .err (.ldap 84 true) ∨ r = .panic

theorem mods_exact (ks : List Packet) : (∀ cs, parseMods ks = .ok cs ↔ Each IsChange ks cs) ∧
    ((∃ cs, parseMods ks = .ok cs) ∨ Refused (parseMods ks)) := by
  induction ks with
  | nil =>
    refine ⟨fun vs => ?_, Or.inl ⟨[], rfl⟩⟩
    cases vs <;> simp [parseMods, Each]
  | cons k ks ih =>
    rw [parseMods]
    have no : ∀ {r : Res (List Change)}, Refused r → (∀ c, ¬ IsChange k c) → (∀ cs, r = .ok cs ↔ Each IsChange (k :: ks) cs) ∧
        ((∃ cs, r = .ok cs) ∨ Refused r) := by
      intro r hr hn
      refine ⟨fun cs => ⟨fun h => ?_, fun h => ?_⟩, Or.inr hr⟩
      · rcases hr with e | e | e <;> rw [e] at h <;> cases h
      · cases cs with
        | nil => exact h.elim
        | cons c cs => exact absurd h.1 (hn c)
    cases h0 : k.kids[0]? with
    | none =>
      refine no (Or.inr (Or.inr rfl)) fun c ⟨o, a, more, b, h, _⟩ => ?_
      rw [h] at h0; cases h0
    | some o =>
      dsimp only
      cases hb : o.data[0]? with
      | none =>
        refine no (Or.inr (Or.inr rfl)) fun c ⟨o', a, more, b, h, h', _⟩ => ?_
        rw [h] at h0; cases h0
        rw [List.head?_eq_getElem?, hb] at h'; cases h'
      | some b =>
        dsimp only
        by_cases hop : b.toNat ≠ opAdd ∧ b.toNat ≠ opReplace ∧ b.toNat ≠ opDelete
        · rw [if_pos hop]
          refine no (Or.inr (Or.inl rfl)) fun c ⟨o', a, more, b', h, h', h1, h2, _⟩ => ?_
          rw [h] at h0; cases h0
          rw [List.head?_eq_getElem?, hb] at h'; cases h'
          simp only [opAdd, opReplace, opDelete] at hop
          omega
        · rw [if_neg hop]
          have hop' : b.toNat ≤ 2 := by simp only [opAdd, opReplace, opDelete] at hop; omega
          cases h1 : k.kids[1]? with
          | none =>
            refine no (Or.inr (Or.inr rfl)) fun c ⟨o', a, more, b', h, _⟩ => ?_
            rw [h] at h1; cases h1
          | some a =>
            dsimp only
            have hk : ∃ more, k.kids = o :: a :: more := by
              match hm : k.kids with
              | [] => rw [hm] at h0; cases h0
              | [x] => rw [hm] at h1; cases h1
              | x :: y :: more => rw [hm] at h0 h1; cases h0; cases h1; exact ⟨more, rfl⟩
            obtain ⟨more, hk⟩ := hk
            have sh : ∀ c, IsChange k c ↔ c.op = b.toNat ∧ AttrShape true a ⟨c.typ, c.vals⟩ := by
              intro c
              constructor
              · rintro ⟨o', a', more', b', h, h', h1, h2, h3⟩
                rw [hk] at h; cases h
                rw [List.head?_eq_getElem?, hb] at h'; cases h'
                exact ⟨h1.symm, h3.imp id fun h => ⟨rfl, h⟩⟩
              · rintro ⟨h1, h2⟩
                exact ⟨o, a, more, b, hk, by rw [List.head?_eq_getElem?, hb], h1.symm, by omega, h2.imp id fun h => h.2⟩
            obtain ⟨a1, a2⟩ := attribute_exact a true
            rcases a2 with ⟨x, hx⟩ | hx
            · rw [hx]
              rcases ih.2 with ⟨us, hu⟩ | he
              · rw [hu]
                refine ⟨fun vs => ?_, Or.inl ⟨_, rfl⟩⟩
                constructor
                · intro h
                  cases h
                  exact ⟨(sh _).2 ⟨rfl, (a1 _).1 hx⟩, (ih.1 us).1 hu⟩
                · intro h
                  cases vs with
                  | nil => exact h.elim
                  | cons v vs =>
                    have e1 := (ih.1 vs).2 h.2
                    obtain ⟨e2, e3⟩ := (sh v).1 h.1
                    have e4 := (a1 _).2 e3
                    rw [hu] at e1
                    rw [hx] at e4
                    cases e1
                    cases e4
                    cases v
                    dsimp only at e2
                    subst e2
                    rfl
              · refine ⟨fun vs => ⟨fun h => ?_, fun h => ?_⟩, Or.inr ?_⟩
                · rcases he with e | e | e <;> rw [e] at h <;> cases h
                · cases vs with
                  | nil => exact h.elim
                  | cons v vs =>
                    have e1 := (ih.1 vs).2 h.2
                    rcases he with e | e | e <;> rw [e] at e1 <;> cases e1
                · rcases he with e | e | e <;> rw [e]
                  · exact Or.inl rfl
                  · exact Or.inr (Or.inl rfl)
                  · exact Or.inr (Or.inr rfl)
            · rw [hx]
              refine no (Or.inl rfl) fun c hc => ?_
              have := (a1 _).2 ((sh c).1 hc).2
              rw [hx] at this; cases this

theorem seq_exact {α : Type} {R : Packet → α → Prop} {f : List Packet → Res (List α)} (p : Packet)
    (h : (∀ as, f p.kids = .ok as ↔ Each R p.kids as) ∧ ((∃ as, f p.kids = .ok as) ∨ Refused (f p.kids))) :
    let r := if p.cls ≠ .universal ∨ p.cons = false ∨ p.tag ≠ tagSequence then ldapErr rcProtocolError else f p.kids
    (∀ as, r = .ok as ↔ IsSeqOf R p as) ∧ ((∃ as, r = .ok as) ∨ Refused r) := by
  dsimp only
  by_cases hc : p.cls ≠ .universal ∨ p.cons = false ∨ p.tag ≠ tagSequence
  · rw [if_pos hc]
    refine ⟨fun vs => ⟨(fun h => by cases h), fun hv => ?_⟩, Or.inr (Or.inl rfl)⟩
    obtain ⟨h1, h2, h3, -⟩ := hv
    rcases hc with h | h | h
    · exact absurd h1 h
    · rw [h2] at h; cases h
    · exact absurd h3 h
  · rw [if_neg hc]
    refine ⟨fun vs => ⟨fun e => ⟨?_, ?_, ?_, (h.1 vs).1 e⟩, fun hv => (h.1 vs).2 hv.2.2.2⟩, h.2⟩
    · exact Classical.byContradiction fun e => hc (Or.inl e)
    · cases hc' : p.cons
      · exact absurd (Or.inr (Or.inl hc')) hc
      · rfl
    · exact Classical.byContradiction fun e => hc (Or.inr (Or.inr e))

theorem list_exact {α ρ : Type} {R : Packet → α → Prop} {l : Packet} {r : Res (List α)} (mk : List α → ρ)
    (h : (∀ as, r = .ok as ↔ IsSeqOf R l as) ∧ ((∃ as, r = .ok as) ∨ Refused r)) :
    (∃ as, IsSeqOf R l as ∧ (r.bind fun as => .ok (mk as)) = .ok (mk as)) ∨
    ((∀ as, ¬ IsSeqOf R l as) ∧ Refused (r.bind fun as => .ok (mk as))) := by
  rcases h.2 with ⟨as, ha⟩ | hr
  · exact Or.inl ⟨as, (h.1 as).1 ha, by rw [ha]; rfl⟩
  · refine Or.inr ⟨fun as ha => ?_, ?_⟩
    · have := (h.1 as).2 ha
      rcases hr with e | e | e <;> rw [e] at this <;> cases this
    · rcases hr with e | e | e <;> rw [e]
      · exact Or.inl rfl
      · exact Or.inr (Or.inl rfl)
      · exact Or.inr (Or.inr rfl)

/-- The requests with two parts: a name and a list. -/
theorem two_exact {α ρ : Type} {R : Packet → α → Prop} (C : CaseEnv) (req : Packet) (f : Packet → Res (List α)) (mk : Str → List α → ρ)
    (h : ∀ l, (∀ as, f l = .ok as ↔ IsSeqOf R l as) ∧ ((∃ as, f l = .ok as) ∨ Refused (f l))) (r : Res ρ)
    (hr : r = match req.kids with
      | [d, l] => match d.str? with
        | none => ldapErr rcProtocolError
        | some dn => match parseDN C dn with
          | none => ldapErr rcProtocolError
          | some _ => (f l).bind fun al => .ok (mk dn al)
      | _ => ldapErr rcProtocolError) :
    (∃ dn as d l, req.kids = [d, l] ∧ d.val = .str dn ∧ parseDN C dn ≠ none ∧ IsSeqOf R l as ∧ r = .ok (mk dn as)) ∨
    ((∀ dn as d l, req.kids = [d, l] → d.val = .str dn → parseDN C dn ≠ none → ¬ IsSeqOf R l as) ∧ Refused r) := by
  subst hr
  have bad : ∀ {P : Prop}, P → P ∧ Refused (ldapErr rcProtocolError : Res ρ) := fun h => ⟨h, Or.inl rfl⟩
  match hk : req.kids with
  | [] => exact Or.inr (bad fun dn as d l h => by cases h)
  | [_] => exact Or.inr (bad fun dn as d l h => by cases h)
  | _ :: _ :: _ :: _ => exact Or.inr (bad fun dn as d l h => by cases h)
  | [d, l] =>
    dsimp only
    cases hs : d.str? with
    | none =>
      refine Or.inr (bad fun dn as d' l' h h' => ?_)
      cases h
      rw [str?_iff.2 h'] at hs; cases hs
    | some dn =>
      dsimp only
      have hd := str?_iff.1 hs
      cases hp : parseDN C dn with
      | none =>
        refine Or.inr (bad fun dn' as d' l' h h' h'' => ?_)
        cases h
        cases hd.symm.trans h'
        exact absurd hp h''
      | some nm =>
        dsimp only
        rcases list_exact (mk dn) (h l) with ⟨as, h1, h2⟩ | ⟨h1, h2⟩
        · exact Or.inl ⟨dn, as, d, l, rfl, hd, by rw [hp]; simp, h1, h2⟩
        · refine Or.inr ⟨fun dn' as d' l' h h' h'' => ?_, h2⟩
          cases h
          exact h1 as

variable {σ : Type}

/-- No control of the message makes go-ldap's `DecodeControl` panic (C27) or block. -/
def CalmControls (V : Env) (p : Packet) : Prop := ∀ q ∈ controlsOf p, V.control q ≠ .panic ∧ V.control q ≠ .hang

theorem calm_controls {V : Env} {p m req : Packet} {more : List Packet} (hk : p.kids = m :: req :: more) (h : CalmControls V p) :
    ∃ cs, decodeControls V ((more.head?.map Packet.kids).getD []) = .ok cs := by
  have e : (more.head?.map Packet.kids).getD [] = controlsOf p := by
    unfold controlsOf
    rw [hk]
    cases more <;> rfl
  rw [e]
  obtain ⟨h1, h2, h3⟩ := decodeControls_calm V (controlsOf p)
  cases hd : decodeControls V (controlsOf p) with
  | ok cs => exact ⟨cs, rfl⟩
  | err e => exact absurd hd (h1 e)
  | panic =>
    obtain ⟨q, hq, hp⟩ := h2 hd
    exact absurd hp (h q hq).1
  | hang =>
    obtain ⟨q, hq, hp⟩ := h3 hd
    exact absurd hp (h q hq).2

theorem write_message (V : Env) {srv : Srv σ} (o : Oracle) {p : Packet} {id : Int} {req : Packet} (hm : Message p id req)
    (hc : CalmControls V p) (bound : Str) (st : σ) :
    (srv.stats = false → req.tag = 8 → handlePacket V srv o p bound st = reply id 9 bound (handleAdd V srv bound req st)) ∧
    (req.tag = 10 → handlePacket V srv o p bound st = reply id 11 bound (handleDelete V srv bound req st)) ∧
    (req.tag = 6 → handlePacket V srv o p bound st = reply id 7 bound (handleModify V srv bound req st)) ∧
    (req.tag = 12 → handlePacket V srv o p bound st = reply id 13 bound (handleModifyDN V srv bound req st)) := by
  obtain ⟨m, more, hk, hi, hcl⟩ := hm
  obtain ⟨cs, hcs⟩ := calm_controls hk hc
  refine ⟨fun hs ht => ?_, fun ht => ?_, fun ht => ?_, fun ht => ?_⟩ <;>
  · unfold handlePacket
    rw [hk]
    simp only [int?_iff.2 hi, hcl, ne_eq, not_true_eq_false, if_false, hcs, ht]
    simp [appAddRequest, appBindRequest, appCompareRequest, appDelRequest, appExtendedRequest, appModifyDNRequest, appModifyRequest, *,
      appAddResponse, appModifyResponse, appDelResponse, appModifyDNResponse]

theorem other_message (V : Env) (srv : Srv σ) (o : Oracle) {p : Packet} {id : Int} {req : Packet} (hm : Message p id req)
    (hc : CalmControls V p) (bound : Str) (st : σ) :
    (req.tag = 0 → handlePacket V srv o p bound st = stepBind V srv id bound req st) ∧
    (req.tag = 23 → handlePacket V srv o p bound st = stepExtended V srv o id bound req st) := by
  obtain ⟨m, more, hk, hi, hcl⟩ := hm
  obtain ⟨cs, hcs⟩ := calm_controls hk hc
  refine ⟨?_, ?_⟩ <;> intro ht <;>
  · unfold handlePacket
    rw [hk]
    simp only [int?_iff.2 hi, hcl, ne_eq, not_true_eq_false, if_false, hcs, ht]
    simp [appAddRequest, appBindRequest, appCompareRequest, appDelRequest, appExtendedRequest, appModifyDNRequest, appModifyRequest]

theorem each_ops : ∀ (ks : List Packet) (cs : List Change), Each IsChange ks cs → ∀ c ∈ cs, c.op ≤ 2
  | [], [], _, c, hc => by cases hc
  | k :: ks, d :: cs, h, c, hc => by
    rcases List.mem_cons.1 hc with rfl | hc
    · obtain ⟨⟨_, _, _, _, _, _, _, h, _⟩, _⟩ := h
      exact h
    · exact each_ops ks cs h.2 c hc

theorem rename_exact (C : CaseEnv) (req : Packet) :
    (∃ dn rdn del d n b, req.kids = [d, n, b] ∧ d.val = .str dn ∧ n.val = .str rdn ∧ b.val = .bool del ∧ parseDN C dn ≠ none ∧ parseDN C rdn ≠ none ∧
      parseModifyDNRequest C req = .ok ⟨dn, rdn, del⟩) ∨
    ((∀ dn rdn del d n b, req.kids = [d, n, b] → d.val = .str dn → n.val = .str rdn → b.val = .bool del → parseDN C dn ≠ none →
      parseDN C rdn = none) ∧ (parseModifyDNRequest C req = ldapErr 2 ∨ parseModifyDNRequest C req = ldapErr 53)) := by
  have bool_iff : ∀ {p : Packet} {b : Bool}, p.bool? = some b ↔ p.val = .bool b := by
    intro p b
    unfold Packet.bool?
    cases h : p.val <;> simp
  have big : ∀ ks : List Packet, ks.length ≠ 3 → ∀ d n b : Packet, ks ≠ [d, n, b] := fun ks h d n b e => h (by rw [e]; rfl)
  unfold parseModifyDNRequest
  by_cases hl : req.kids.length < 3 ∨ req.kids.length > 4
  · rw [if_pos hl]
    exact Or.inr ⟨fun _ _ _ d n b h => absurd h (big _ (by omega) d n b), Or.inl rfl⟩
  · rw [if_neg hl]
    match hk : req.kids with
    | [] => rw [hk] at hl; exact absurd (Or.inl (by decide)) hl
    | [_] => rw [hk] at hl; exact absurd (Or.inl (by simp)) hl
    | [_, _] => rw [hk] at hl; exact absurd (Or.inl (by simp)) hl
    | d :: n :: b :: more =>
      dsimp only
      have eq3 : ∀ {d' n' b'}, d :: n :: b :: more = [d', n', b'] → d' = d ∧ n' = n ∧ b' = b ∧ more = [] := by
        intro d' n' b' h
        cases h
        exact ⟨rfl, rfl, rfl, rfl⟩
      cases hd : d.str? with
      | none =>
        refine Or.inr ⟨fun dn rdn del d' n' b' h h1 => ?_, Or.inl rfl⟩
        obtain ⟨rfl, rfl, rfl, -⟩ := eq3 h
        rw [str?_iff.2 h1] at hd; cases hd
      | some dn =>
        dsimp only
        cases hp : parseDN C dn with
        | none =>
          refine Or.inr ⟨fun dn' rdn del d' n' b' h h1 h2 h3 h4 => ?_, Or.inl rfl⟩
          obtain ⟨rfl, rfl, rfl, -⟩ := eq3 h
          cases (str?_iff.1 hd).symm.trans h1
          exact absurd hp h4
        | some nm =>
          dsimp only
          cases hn : n.str? with
          | none =>
            refine Or.inr ⟨fun dn rdn del d' n' b' h h1 h2 => ?_, Or.inl rfl⟩
            obtain ⟨rfl, rfl, rfl, -⟩ := eq3 h
            rw [str?_iff.2 h2] at hn; cases hn
          | some rdn =>
            dsimp only
            cases hp' : parseDN C rdn with
            | none =>
              refine Or.inr ⟨fun dn' rdn' del d' n' b' h h1 h2 h3 h4 => ?_, Or.inl rfl⟩
              obtain ⟨rfl, rfl, rfl, -⟩ := eq3 h
              cases (str?_iff.1 hn).symm.trans h2
              exact hp'
            | some nm' =>
              dsimp only
              cases hb : b.bool? with
              | none =>
                refine Or.inr ⟨fun dn rdn del d' n' b' h h1 h2 h3 => ?_, Or.inl rfl⟩
                obtain ⟨rfl, rfl, rfl, -⟩ := eq3 h
                rw [bool_iff.2 h3] at hb; cases hb
              | some del =>
                dsimp only
                cases more with
                | nil =>
                  refine Or.inl ⟨dn, rdn, del, d, n, b, rfl, str?_iff.1 hd, str?_iff.1 hn, bool_iff.1 hb, by rw [hp]; simp, by rw [hp']; simp, ?_⟩
                  rfl
                | cons x more =>
                  refine Or.inr ⟨fun dn' rdn' del d' n' b' h => absurd (eq3 h).2.2.2 (by simp), ?_⟩
                  by_cases h4 : (d :: n :: b :: x :: more).length = 4
                  · rw [if_pos h4]
                    exact Or.inr rfl
                  · rw [hk] at hl
                    simp only [List.length_cons] at hl h4
                    omega

/-- C79: a write request is served as the request that it is, or, if it is none, it changes nothing and is refused with protocolError (2),
unwillingToPerform (53, a rename with a new superior) or decodingError (84); a change of a modify request without its parts ends the process
(C27). For every server, every packet and every identity; for adds only if the server does not count (C52). What `IsWrite` takes for a request is more than
RFC 4511 does (see there). -/
theorem C79_writes_partial (V : Env) {srv : Srv σ} (o : Oracle) {p : Packet} {id : Int} {req : Packet}
    (hm : Message p id req) (hs : srv.stats = false ∨ req.tag ≠ 8) (hc : CalmControls V p) (ht : req.tag = 6 ∨ req.tag = 8 ∨ req.tag = 10 ∨ req.tag = 12) {bound : Str} (hb : bound ≠ [])
    (st : σ) :
    (∃ w, IsWrite req w ∧ NamesParse V.C w ∧ handlePacket V srv o p bound st = handlePacket V srv o (wMsg id w.packet) bound st) ∨
    ((¬ ∃ w, IsWrite req w ∧ NamesParse V.C w) ∧
      ((∃ code, (code = 2 ∨ code = 84 ∨ code = 53 ∧ req.tag = 12) ∧ handlePacket V srv o p bound st = ⟨[.result id (req.tag + 1) code], .go bound, st⟩) ∨
        req.tag = 6 ∧ handlePacket V srv o p bound st = ⟨[], .crash, st⟩)) := by
  obtain ⟨w8, w10, w6, w12⟩ := write_message V (srv := srv) o hm hc bound st
  have np : ∀ {dn}, parseDN V.C dn ≠ none → ∃ nm, parseDN V.C dn = some nm := fun {dn} h => by
    cases e : parseDN V.C dn with
    | none => exact absurd e h
    | some nm => exact ⟨nm, rfl⟩
  rcases ht with ht | ht | ht | ht
  · rw [w6 ht, ht]
    have hp := two_exact (R := IsChange) V.C req parseModList ModifyReq.mk (fun l => seq_exact l (mods_exact l.kids)) (parseModifyRequest V.C req) rfl
    unfold handleModify
    rw [if_neg hb]
    rcases hp with ⟨dn, cs, d, l, h1, h2, h3, h4, h5⟩ | ⟨h1, h2⟩
    · obtain ⟨nm, hn⟩ := np h3
      refine Or.inl ⟨.modify dn cs, ⟨ht, d, l, h1, h2, h4⟩, fun s hs' => ?_, ?_⟩
      · simp only [Write.names, List.mem_singleton] at hs'
        subst hs'; exact h3
      · rw [h5, write_packet V srv _ (.inr (by nofun))]
        simp only [Write.respTag, handleModify, if_neg hb, Write.packet, parseModify_wire V.C dn cs hn (each_ops _ _ h4.2.2.2)]
    · refine Or.inr ⟨?_, ?_⟩
      · rintro ⟨w, hw, hn⟩
        cases w with
        | modify dn cs =>
          obtain ⟨-, d, l, e1, e2, e3⟩ := hw
          exact h1 dn cs d l e1 e2 (hn dn (by simp [Write.names])) e3
        | add => have := hw.1; omega
        | delete => have := hw.1; omega
        | rename => have := hw.1; omega
      · rcases h2 with e | e | e <;> rw [e]
        · exact Or.inl ⟨2, Or.inl rfl, rfl⟩
        · exact Or.inl ⟨84, Or.inr (Or.inl rfl), rfl⟩
        · exact Or.inr ⟨rfl, rfl⟩
  · have hs := hs.resolve_right fun h => h ht
    rw [w8 hs ht, ht]
    have hp := two_exact (R := IsAttribute) V.C req parseAttributeList AddReq.mk
      (fun l => seq_exact l ⟨(attrs_exact l.kids).1, (attrs_exact l.kids).2.imp (fun h => h) Or.inl⟩) (parseAddRequest V.C req) rfl
    unfold handleAdd
    rw [if_neg hb]
    rcases hp with ⟨dn, cs, d, l, h1, h2, h3, h4, h5⟩ | ⟨h1, h2⟩
    · obtain ⟨nm, hn⟩ := np h3
      refine Or.inl ⟨.add dn cs, ⟨ht, d, l, h1, h2, h4⟩, fun s hs' => ?_, ?_⟩
      · simp only [Write.names, List.mem_singleton] at hs'
        subst hs'; exact h3
      · rw [h5, write_packet V srv _ (.inl hs)]
        simp only [Write.respTag, handleAdd, if_neg hb, Write.packet, parseAdd_wire V.C dn cs hn]
    · have hnp : parseAddRequest V.C req ≠ .panic := by
        have hl : ∀ l, parseAttributeList l ≠ .panic := fun l => by
          unfold parseAttributeList
          split
          · simp
          · rcases (attrs_exact l.kids).2 with ⟨x, h⟩ | h <;> rw [h] <;> simp
        have hb : ∀ l dn, (do let al ← parseAttributeList l; Res.ok (AddReq.mk dn al)) ≠ .panic := fun l dn => by
          cases hx : parseAttributeList l with
          | panic => exact absurd hx (hl l)
          | ok x => simp
          | err e => simp
          | hang => simp
        unfold parseAddRequest
        split
        · split
          · simp
          · split
            · simp
            · exact hb _ _
        · simp
      refine Or.inr ⟨?_, ?_⟩
      · rintro ⟨w, hw, hn⟩
        cases w with
        | add dn cs =>
          obtain ⟨-, d, l, e1, e2, e3⟩ := hw
          exact h1 dn cs d l e1 e2 (hn dn (by simp [Write.names])) e3
        | modify => have := hw.1; omega
        | delete => have := hw.1; omega
        | rename => have := hw.1; omega
      · rcases h2 with e | e | e
        · rw [e]; exact Or.inl ⟨2, Or.inl rfl, rfl⟩
        · rw [e]; exact Or.inl ⟨84, Or.inr (Or.inl rfl), rfl⟩
        · exact absurd e hnp
  · rw [w10 ht, ht]
    unfold handleDelete
    rw [if_neg hb]
    have other : (¬ (req.kids = [] ∧ parseDN V.C req.data ≠ none)) → ¬ ∃ w, IsWrite req w ∧ NamesParse V.C w := by
      rintro h ⟨w, hw, hn⟩
      cases w with
      | delete dn =>
        obtain ⟨-, e1, rfl⟩ := hw
        exact h ⟨e1, hn _ (by simp [Write.names])⟩
      | modify => have := hw.1; omega
      | add => have := hw.1; omega
      | rename => have := hw.1; omega
    by_cases hk : req.kids = []
    · cases hd : parseDN V.C req.data with
      | none =>
        refine Or.inr ⟨other fun h => h.2 hd, Or.inl ⟨2, Or.inl rfl, ?_⟩⟩
        have e : parseDeleteRequest V.C req = ldapErr rcProtocolError := by simp [parseDeleteRequest, hk, hd]
        rw [e]
        rfl
      | some nm =>
        refine Or.inl ⟨.delete req.data, ⟨ht, hk, rfl⟩, fun s hs' => ?_, ?_⟩
        · simp only [Write.names, List.mem_singleton] at hs'
          subst hs'; rw [hd]; simp
        · have e : parseDeleteRequest V.C req = .ok req.data := by simp [parseDeleteRequest, hk, hd]
          rw [e, write_packet V srv _ (.inr (by nofun))]
          simp only [Write.respTag, handleDelete, if_neg hb, Write.packet, parseDelete_wire V.C req.data hd]
    · refine Or.inr ⟨other fun h => hk h.1, Or.inl ⟨2, Or.inl rfl, ?_⟩⟩
      have e : parseDeleteRequest V.C req = ldapErr rcProtocolError := by simp [parseDeleteRequest, hk]
      rw [e]
      rfl
  · rw [w12 ht, ht]
    unfold handleModifyDN
    rw [if_neg hb]
    rcases rename_exact V.C req with ⟨dn, rdn, del, d, n, b, h1, h2, h3, h4, h5, h6, h7⟩ | ⟨h1, h2⟩
    · obtain ⟨nm, hn⟩ := np h5
      obtain ⟨nm', hn'⟩ := np h6
      refine Or.inl ⟨.rename dn rdn del, ⟨ht, d, n, b, h1, h2, h3, h4⟩, fun s hs' => ?_, ?_⟩
      · simp only [Write.names, List.mem_cons, List.not_mem_nil, or_false] at hs'
        rcases hs' with rfl | rfl
        · exact h5
        · exact h6
      · rw [h7, write_packet V srv _ (.inr (by nofun))]
        simp only [Write.respTag, handleModifyDN, if_neg hb, Write.packet, parseModifyDN_wire V.C dn rdn del hn hn']
    · refine Or.inr ⟨?_, ?_⟩
      · rintro ⟨w, hw, hn⟩
        cases w with
        | rename dn rdn del =>
          obtain ⟨-, d, n, b, e1, e2, e3, e4⟩ := hw
          exact hn rdn (by simp [Write.names]) (h1 dn rdn del d n b e1 e2 e3 e4 (hn dn (by simp [Write.names])))
        | modify => have := hw.1; omega
        | add => have := hw.1; omega
        | delete => have := hw.1; omega
      · rcases h2 with e | e
        · rw [e]; exact Or.inl ⟨2, Or.inl rfl, rfl⟩
        · rw [e]; exact Or.inl ⟨53, Or.inr (Or.inr ⟨rfl, rfl⟩), rfl⟩

/-- C79: a bind is served as the simple bind that it is, or, if it is none, it is refused (operationsError 1, protocolError 2 or
inappropriateAuthentication 48), changes nothing, and the connection keeps its identity. -/
theorem C79_bind (V : Env) (srv : Srv σ) (o : Oracle) {p : Packet} {id : Int} {req : Packet} (hm : Message p id req) (hc : CalmControls V p)
    (ht : req.tag = 0) (bound : Str) (st : σ) :
    (∃ dn pw, IsBind req dn pw ∧ handlePacket V srv o p bound st = handlePacket V srv o (wMsg id (wBind dn pw)) bound st) ∨
    ((¬ ∃ dn pw, IsBind req dn pw) ∧
      ∃ code, (code = 1 ∨ code = 2 ∨ code = 48) ∧ handlePacket V srv o p bound st = ⟨[.result id 1 code], .go bound, st⟩) := by
  rw [(other_message V srv o hm hc bound st).1 ht]
  have hstep : ∀ code, code ≠ 0 → handleBind srv req st = (.ok code, st) → stepBind V srv id bound req st = ⟨[.result id 1 code], .go bound, st⟩ := by
    intro code h0 h
    unfold stepBind
    rw [h]
    dsimp only
    rw [if_neg (show ¬ code = rcSuccess from h0)]
    rfl
  have hno : ∀ r code, bindBody srv req st = (r, st) → (r = .ok code ∧ (code = 2 ∨ code = 48) ∨ r = .panic ∧ code = 1) →
      ∃ code, (code = 1 ∨ code = 2 ∨ code = 48) ∧ stepBind V srv id bound req st = ⟨[.result id 1 code], .go bound, st⟩ := by
    intro r code h hr
    refine ⟨code, by omega, hstep code (by omega) ?_⟩
    unfold handleBind
    rw [h]
    rcases hr with ⟨rfl, -⟩ | ⟨rfl, rfl⟩ <;> rfl
  by_cases hs : ∃ dn pw, IsBind req dn pw
  · obtain ⟨dn, pw, h⟩ := hs
    refine Or.inl ⟨dn, pw, h, ?_⟩
    obtain ⟨v, d, a, hk, hv, hd, ha, rfl⟩ := h
    rw [wBind_packet]
    have hbody : bindBody srv req st = bindBody srv (wBind dn a.data) st := by
      have hk' : (wBind dn a.data).kids = [berInt 3, octet dn, ctxStr 0 a.data] := rfl
      unfold bindBody
      rw [hk, hk']
      simp only [List.getElem?_cons_zero, List.getElem?_cons_succ, int?_iff.2 hv, str?_iff.2 hd, ha, List.length_cons, List.length_nil]
      rfl
    have hh : handleBind srv req st = handleBind srv (wBind dn a.data) st := by unfold handleBind; rw [hbody]
    unfold stepBind
    rw [hh]
    have e1 : req.kids[1]? = some d := by rw [hk]; rfl
    have e2 : (wBind dn a.data).kids[1]? = some (octet dn) := rfl
    have e3 : (octet dn).str? = some dn := rfl
    rw [e1, e2]
    dsimp only
    rw [str?_iff.2 hd, e3]
  · refine Or.inr ⟨hs, ?_⟩
    cases h0 : req.kids[0]? with
    | none => exact hno _ 1 (by unfold bindBody; rw [h0]) (Or.inr ⟨rfl, rfl⟩)
    | some v =>
      cases hv : v.int? with
      | none => exact hno _ 2 (by unfold bindBody; rw [h0]; dsimp only; rw [hv]; rfl) (Or.inl ⟨rfl, Or.inl rfl⟩)
      | some ver =>
        by_cases h3 : ver ≠ 3
        · exact hno _ 48 (by unfold bindBody; rw [h0]; dsimp only; rw [hv]; dsimp only; rw [if_pos h3]; rfl) (Or.inl ⟨rfl, Or.inr rfl⟩)
        · cases h1 : req.kids[1]? with
          | none => exact hno _ 1 (by unfold bindBody; rw [h0]; dsimp only; rw [hv]; dsimp only; rw [if_neg h3, h1]) (Or.inr ⟨rfl, rfl⟩)
          | some d =>
            cases hd : d.str? with
            | none =>
              exact hno _ 2 (by unfold bindBody; rw [h0]; dsimp only; rw [hv]; dsimp only; rw [if_neg h3, h1]; dsimp only; rw [hd]; rfl)
                (Or.inl ⟨rfl, Or.inl rfl⟩)
            | some dn =>
              cases h2 : req.kids[2]? with
              | none =>
                exact hno _ 1 (by unfold bindBody; rw [h0]; dsimp only; rw [hv]; dsimp only; rw [if_neg h3, h1]; dsimp only; rw [hd]; dsimp only; rw [h2])
                  (Or.inr ⟨rfl, rfl⟩)
              | some a =>
                have body : ∃ x, bindBody srv req st =
                    if a.tag = authSimple then if req.kids.length = 3 then x else (.ok rcInappropriateAuthentication, st)
                    else (.ok rcInappropriateAuthentication, st) := by
                  unfold bindBody
                  rw [h0]; dsimp only; rw [hv]; dsimp only; rw [if_neg h3, h1]; dsimp only; rw [hd]; dsimp only; rw [h2]
                  exact ⟨_, rfl⟩
                obtain ⟨x, body⟩ := body
                by_cases ht0 : a.tag = authSimple
                · by_cases hl : req.kids.length = 3
                  · refine absurd ⟨dn, a.data, v, d, a, ?_, ?_, str?_iff.1 hd, ht0, rfl⟩ hs
                    · match hk : req.kids with
                      | [] => rw [hk] at h0; cases h0
                      | [_] => rw [hk] at h1; cases h1
                      | [_, _] => rw [hk] at h2; cases h2
                      | [_, _, _] => rw [hk] at h0 h1 h2; cases h0; cases h1; cases h2; rfl
                      | _ :: _ :: _ :: _ :: _ => rw [hk] at hl; simp at hl
                    · rw [int?_iff.1 hv, Decidable.not_not.1 h3]
                  · exact hno _ 48 (by rw [body, if_pos ht0, if_neg hl]; rfl) (Or.inl ⟨rfl, Or.inr rfl⟩)
                · exact hno _ 48 (by rw [body, if_neg ht0]; rfl) (Or.inl ⟨rfl, Or.inr rfl⟩)

theorem pwPart_cons (d : Str) (t : Nat) (k : Packet) (ks : List Packet) :
    ((((k :: ks).filter fun k => k.tag = t).getLast?).map Packet.data).getD d =
      (((ks.filter fun k => k.tag = t).getLast?).map Packet.data).getD (if k.tag = t then k.data else d) := by
  by_cases h : k.tag = t
  · rw [List.filter_cons, if_pos (by simpa using h), if_pos h, List.getLast?_cons]
    cases (ks.filter fun k => k.tag = t).getLast? <;> rfl
  · rw [List.filter_cons, if_neg (by simpa using h), if_neg h]

theorem pwKids_exact (ks : List Packet) (r : PwModReq) :
    ((∀ k ∈ ks, k.cls = .context ∧ k.tag ≤ 2) ∧ pwKids r ks = .ok ⟨(((ks.filter fun k => k.tag = 0).getLast?).map Packet.data).getD r.userIdentity,
      (((ks.filter fun k => k.tag = 1).getLast?).map Packet.data).getD r.oldPassword,
      (((ks.filter fun k => k.tag = 2).getLast?).map Packet.data).getD r.newPassword⟩) ∨
    ((¬ ∀ k ∈ ks, k.cls = .context ∧ k.tag ≤ 2) ∧ pwKids r ks = ldapErr 84) := by
  induction ks generalizing r with
  | nil => exact Or.inl ⟨by simp, rfl⟩
  | cons k ks ih =>
    rw [pwKids]
    by_cases hc : k.cls ≠ .context
    · rw [if_pos hc]
      exact Or.inr ⟨fun h => hc (h k (by simp)).1, rfl⟩
    · rw [if_neg hc]
      have hc' : k.cls = .context := Decidable.not_not.1 hc
      have step : ∀ r' : PwModReq, k.tag ≤ 2 → r'.userIdentity = (if k.tag = 0 then k.data else r.userIdentity) →
          r'.oldPassword = (if k.tag = 1 then k.data else r.oldPassword) → r'.newPassword = (if k.tag = 2 then k.data else r.newPassword) →
          ((∀ k' ∈ k :: ks, k'.cls = .context ∧ k'.tag ≤ 2) ∧ pwKids r' ks =
            .ok ⟨((((k :: ks).filter fun k => k.tag = 0).getLast?).map Packet.data).getD r.userIdentity,
              ((((k :: ks).filter fun k => k.tag = 1).getLast?).map Packet.data).getD r.oldPassword,
              ((((k :: ks).filter fun k => k.tag = 2).getLast?).map Packet.data).getD r.newPassword⟩) ∨
          ((¬ ∀ k' ∈ k :: ks, k'.cls = .context ∧ k'.tag ≤ 2) ∧ pwKids r' ks = ldapErr 84) := by
        intro r' hk e1 e2 e3
        rw [pwPart_cons, pwPart_cons, pwPart_cons, ← e1, ← e2, ← e3]
        rcases ih r' with ⟨h1, h2⟩ | ⟨h1, h2⟩
        · refine Or.inl ⟨fun k' hk' => ?_, h2⟩
          rcases List.mem_cons.1 hk' with rfl | hk'
          · exact ⟨hc', hk⟩
          · exact h1 k' hk'
        · exact Or.inr ⟨fun h => h1 fun k' hk' => h k' (by simp [hk']), h2⟩
      by_cases h0 : k.tag = 0
      · rw [if_pos h0]
        exact step _ (by omega) (by rw [if_pos h0]) (by rw [if_neg (by omega)]) (by rw [if_neg (by omega)])
      · rw [if_neg h0]
        by_cases h1 : k.tag = 1
        · rw [if_pos h1]
          exact step _ (by omega) (by rw [if_neg (by omega)]) (by rw [if_pos h1]) (by rw [if_neg (by omega)])
        · rw [if_neg h1]
          by_cases h2 : k.tag = 2
          · rw [if_pos h2]
            exact step _ (by omega) (by rw [if_neg (by omega)]) (by rw [if_neg (by omega)]) (by rw [if_pos h2])
          · rw [if_neg h2]
            exact Or.inr ⟨fun h => by have := (h k (by simp)).2; omega, rfl⟩

theorem pwModify_exact (V : Env) (body : Option Packet) :
    (∃ user old new, PwAsks V (body.map Packet.data) user old new ∧ parsePwModify V body = .ok ⟨user, old, new⟩) ∨
    ((¬ ∃ user old new, PwAsks V (body.map Packet.data) user old new) ∧ parsePwModify V body = ldapErr 84) := by
  unfold PwAsks parsePwModify
  cases body with
  | none => exact Or.inl ⟨[], [], [], ⟨rfl, rfl, rfl⟩, rfl⟩
  | some b =>
    have e : (Option.map Packet.data (some b)).bind V.berDecode = V.berDecode b.data := rfl
    rw [e]
    dsimp only
    cases hd : V.berDecode b.data with
    | none => exact Or.inl ⟨[], [], [], ⟨rfl, rfl, rfl⟩, rfl⟩
    | some inner =>
      dsimp only
      by_cases hl : inner.kids.length > 3
      · rw [if_pos hl]
        refine Or.inr ⟨?_, rfl⟩
        rintro ⟨user, old, new, h, -⟩
        omega
      · rw [if_neg hl]
        rcases pwKids_exact inner.kids ⟨[], [], []⟩ with ⟨h1, h2⟩ | ⟨h1, h2⟩
        · exact Or.inl ⟨_, _, _, ⟨by omega, h1, rfl, rfl, rfl⟩, h2⟩
        · refine Or.inr ⟨?_, h2⟩
          rintro ⟨user, old, new, -, h, -⟩
          exact h1 h

theorem exop_exact (req : Packet) :
    (∃ body oid, parseExtendedRequest req = .ok (oid, body) ∧ (oid = pwmodOID → IsPwExop req (body.map Packet.data)) ∧
      (oid ≠ pwmodOID → ¬ ∃ value, IsPwExop req value) ∧ ∀ value, IsPwExop req value → value = body.map Packet.data) ∨
    ((¬ ∃ value, IsPwExop req value) ∧ ∃ e, parseExtendedRequest req = .err e) := by
  unfold parseExtendedRequest
  match hk : req.kids with
  | [] =>
    refine Or.inr ⟨?_, _, rfl⟩
    rintro ⟨v, ⟨o, h, -⟩ | ⟨o, b, h, -⟩⟩ <;> rw [hk] at h <;> cases h
  | [o] =>
    dsimp only
    have sh : ∀ v, IsPwExop req v ↔ o.cls = .context ∧ o.tag = 0 ∧ o.data = pwmodOID ∧ v = none := by
      intro v
      constructor
      · rintro (⟨o', h, h1, h2, h3, h4⟩ | ⟨o', b, h, -⟩)
        · rw [hk] at h; cases h; exact ⟨h1, h2, h3, h4⟩
        · rw [hk] at h; cases h
      · rintro ⟨h1, h2, h3, h4⟩
        exact Or.inl ⟨o, hk, h1, h2, h3, h4⟩
    by_cases ho : o.cls ≠ .context ∨ o.tag ≠ 0
    · rw [if_pos ho]
      refine Or.inr ⟨?_, _, rfl⟩
      rintro ⟨v, h⟩
      obtain ⟨h1, h2, -⟩ := (sh v).1 h
      rcases ho with ho | ho
      · exact ho h1
      · exact ho h2
    · rw [if_neg ho]
      have h1 : o.cls = .context := Classical.byContradiction fun h => ho (Or.inl h)
      have h2 : o.tag = 0 := Classical.byContradiction fun h => ho (Or.inr h)
      refine Or.inl ⟨none, o.data, rfl, fun h => (sh _).2 ⟨h1, h2, h, rfl⟩, ?_, fun v hv => ((sh v).1 hv).2.2.2⟩
      rintro h ⟨v, hv⟩
      exact h ((sh v).1 hv).2.2.1
  | [o, b] =>
    dsimp only
    have sh : ∀ v, IsPwExop req v ↔ o.cls = .context ∧ o.tag = 0 ∧ o.data = pwmodOID ∧ b.cls = .context ∧ b.tag = 1 ∧ v = some b.data := by
      intro v
      constructor
      · rintro (⟨o', h, -⟩ | ⟨o', b', h, h1⟩)
        · rw [hk] at h; cases h
        · rw [hk] at h; cases h; exact h1
      · intro h1
        exact Or.inr ⟨o, b, hk, h1⟩
    by_cases ho : o.cls ≠ .context ∨ o.tag ≠ 0
    · rw [if_pos ho]
      refine Or.inr ⟨?_, _, rfl⟩
      rintro ⟨v, h⟩
      obtain ⟨h1, h2, -⟩ := (sh v).1 h
      rcases ho with ho | ho
      · exact ho h1
      · exact ho h2
    · rw [if_neg ho]
      have h1 : o.cls = .context := Classical.byContradiction fun h => ho (Or.inl h)
      have h2 : o.tag = 0 := Classical.byContradiction fun h => ho (Or.inr h)
      by_cases hb : b.cls ≠ .context ∨ b.tag ≠ 1
      · rw [if_pos hb]
        refine Or.inr ⟨?_, _, rfl⟩
        rintro ⟨v, h⟩
        obtain ⟨-, -, -, h1, h2, -⟩ := (sh v).1 h
        rcases hb with ho | ho
        · exact ho h1
        · exact ho h2
      · rw [if_neg hb]
        have h3 : b.cls = .context := Classical.byContradiction fun h => hb (Or.inl h)
        have h4 : b.tag = 1 := Classical.byContradiction fun h => hb (Or.inr h)
        refine Or.inl ⟨some b, o.data, rfl, fun h => (sh _).2 ⟨h1, h2, h, h3, h4, rfl⟩, ?_, fun v hv => ((sh v).1 hv).2.2.2.2.2⟩
        rintro h ⟨v, hv⟩
        exact h ((sh v).1 hv).2.2.1
  | _ :: _ :: _ :: _ =>
    refine Or.inr ⟨?_, _, rfl⟩
    rintro ⟨v, ⟨o, h, -⟩ | ⟨o, b, h, -⟩⟩ <;> rw [hk] at h <;> cases h

/-- The parts of a password change in the form of `PwBody`. -/
theorem pwBody_parse {V : Env} {body : Str} {user old new : Option Str} (h : PwBody V body user old new) (tag : Nat) :
    parsePwModify V (some (ctxStr tag body)) = .ok ⟨user.getD [], old.getD [], new.getD []⟩ := by
  obtain ⟨p, hd, hk⟩ := h
  have e : (ctxStr tag body).data = body := rfl
  unfold parsePwModify
  dsimp only
  rw [e, hd]
  dsimp only
  rw [hk]
  cases user <;> cases old <;> cases new <;> rfl

/-- C79: an extended request of a bound client is served as the password change that it is, or, if it is none, it changes nothing and is refused
(operationsError 1 or decodingError 84). -/
theorem C79_password_partial (V : Env) (srv : Srv σ) (o : Oracle) {p : Packet} {id : Int} {req : Packet} (hm : Message p id req) (hc : CalmControls V p)
    (ht : req.tag = 23) {bound : Str} (hb : bound ≠ []) (st : σ) :
    (∃ value user old new, IsPwExop req value ∧ PwAsks V value user old new ∧ ∀ body u o' n, PwBody V body u o' n → u.getD [] = user →
      o'.getD [] = old → n.getD [] = new → handlePacket V srv o p bound st = handlePacket V srv o (wMsg id (wPwModify body)) bound st) ∨
    ((¬ ∃ value user old new, IsPwExop req value ∧ PwAsks V value user old new) ∧
      (handlePacket V srv o p bound st = ⟨[.result id 24 1], .go bound, st⟩ ∨
       handlePacket V srv o p bound st = ⟨[.extended id 84 pwmodOID none], .go bound, st⟩)) := by
  rw [(other_message V srv o hm hc bound st).2 ht]
  rcases exop_exact req with ⟨body, oid, h1, h2, h3, h4⟩ | ⟨h1, e, h2⟩
  · by_cases ho : oid = pwmodOID
    · subst ho
      rcases pwModify_exact V body with ⟨user, old, new, k1, k2⟩ | ⟨k1, k2⟩
      · refine Or.inl ⟨_, user, old, new, h2 rfl, k1, fun body' u o' n hp hu ho hn => ?_⟩
        rw [wPwModify_packet]
        have e : handlePwModify V srv o bound body st = handlePwModify V srv o bound (some (ctxStr 1 body')) st := by
          unfold handlePwModify
          rw [if_neg hb, if_neg hb, k2, pwBody_parse hp, hu, ho, hn]
        unfold stepExtended handleExtended
        rw [h1, wPwModify_parse]
        dsimp only
        rw [e]
      · refine Or.inr ⟨?_, Or.inr ?_⟩
        · rintro ⟨value, user, old, new, hv, ha⟩
          rw [h4 value hv] at ha
          exact k1 ⟨user, old, new, ha⟩
        · unfold stepExtended handleExtended
          rw [h1]
          dsimp only
          rw [if_pos rfl]
          unfold handlePwModify
          rw [if_neg hb, k2]
    · refine Or.inr ⟨?_, Or.inl ?_⟩
      · rintro ⟨value, user, old, new, hv, ha⟩
        exact h3 ho ⟨value, hv⟩
      · unfold stepExtended handleExtended
        rw [h1]
        dsimp only
        rw [if_neg ho]
        rfl
  · refine Or.inr ⟨?_, Or.inl ?_⟩
    · rintro ⟨value, user, old, new, hv, ha⟩
      exact h1 ⟨value, hv⟩
    · unfold stepExtended handleExtended
      rw [h2]
      rfl

/-! ## Searches -/

theorem decompileExt_taken : ∀ (ks : List Packet) (a r v : Str) (d : Bool),
    decompileExt a r v d ks ≠ none ↔ ∀ k ∈ ks, k.tag = 4 → ∃ b, k.val = .bool b
  | [], a, r, v, d => by simp [decompileExt]
  | c :: cs, a, r, v, d => by
    rw [decompileExt]
    by_cases h1 : c.tag = 1
    · rw [if_pos h1, decompileExt_taken cs]
      simp [h1]
    · rw [if_neg h1]
      by_cases h2 : c.tag = 2
      · rw [if_pos h2, decompileExt_taken cs]
        simp [h2]
      · rw [if_neg h2]
        by_cases h3 : c.tag = 3
        · rw [if_pos h3, decompileExt_taken cs]
          simp [h3]
        · rw [if_neg h3]
          by_cases h4 : c.tag = 4
          · rw [if_pos h4]
            cases hv : c.val with
            | bool b =>
              dsimp only
              rw [decompileExt_taken cs]
              simp [hv]
            | _ => simp [h4, hv]
          · rw [if_neg h4, decompileExt_taken cs]
            simp [h4]

mutual
theorem decompile_taken : ∀ p : Packet, decompile p ≠ none ↔ TakenFilter p
  | .mk c k tag v data kids => by
    rw [decompile.eq_def, TakenFilter]
    dsimp only
    by_cases h0 : tag = 0
    · subst h0
      simp only [if_true, true_or, true_implies]
      rw [← decompileAll_taken kids]
      cases decompileAll kids <;> simp
    rw [if_neg h0]
    by_cases h1 : tag = 1
    · subst h1
      simp only [if_true, or_true, true_implies]
      rw [← decompileAll_taken kids]
      cases decompileAll kids <;> simp
    rw [if_neg h1]
    by_cases h2 : tag = 2
    · subst h2
      cases kids with
      | nil => simp [TakenFirst]
      | cons q qs =>
        simp only [if_true, true_implies, TakenFirst]
        rw [← decompile_taken q]
        cases decompile q <;> simp
    rw [if_neg h2]
    by_cases h4 : tag = 4
    · subst h4
      rw [if_pos rfl]
      rcases kids with _ | ⟨a, _ | ⟨b, l⟩⟩ <;> simp
    rw [if_neg h4]
    by_cases h3 : tag = 3
    · subst h3
      rw [if_pos rfl]
      rcases kids with _ | ⟨a, _ | ⟨b, l⟩⟩ <;> simp
    rw [if_neg h3]
    by_cases h5 : tag = 5
    · subst h5
      rw [if_pos rfl]
      rcases kids with _ | ⟨a, _ | ⟨b, l⟩⟩ <;> simp
    rw [if_neg h5]
    by_cases h6 : tag = 6
    · subst h6
      rw [if_pos rfl]
      rcases kids with _ | ⟨a, _ | ⟨b, l⟩⟩ <;> simp
    rw [if_neg h6]
    by_cases h7 : tag = 7
    · subst h7; simp
    rw [if_neg h7]
    by_cases h8 : tag = 8
    · subst h8
      rw [if_pos rfl]
      rcases kids with _ | ⟨a, _ | ⟨b, l⟩⟩ <;> simp
    rw [if_neg h8]
    by_cases h9 : tag = 9
    · subst h9
      simp only [if_true, true_implies]
      rw [← decompileExt_taken kids [] [] [] false]
      cases decompileExt [] [] [] false kids <;> simp
    rw [if_neg h9]
    simp [h0, h1, h2, h3, h4, h5, h6, h8, h9]
theorem decompileAll_taken : ∀ ps : List Packet, decompileAll ps ≠ none ↔ TakenFilters ps
  | [] => by simp [decompileAll, TakenFilters]
  | p :: ps => by
    rw [decompileAll, TakenFilters, ← decompile_taken p, ← decompileAll_taken ps]
    cases decompile p <;> cases decompileAll ps <;> simp
end

theorem attrNames_exact : ∀ (ks : List Packet) (vs : List Str), parseAttrNames ks = some vs ↔ Each (fun k v => k.val = .str v) ks vs
  | [], vs => by cases vs <;> simp [parseAttrNames, Each]
  | k :: ks, vs => by
    rw [parseAttrNames]
    cases hk : k.str? with
    | none =>
      constructor
      · intro h; cases h
      · intro h
        cases vs with
        | nil => exact h.elim
        | cons v vs => rw [str?_iff.2 h.1] at hk; cases hk
    | some s =>
      have hs := str?_iff.1 hk
      cases vs with
      | nil =>
        simp only [Each, iff_false]
        intro h
        cases hp : parseAttrNames ks <;> rw [hp] at h <;> simp at h
      | cons v vs =>
        rw [Each, ← attrNames_exact ks vs, hs]
        cases hp : parseAttrNames ks <;> simp

theorem search_exact (req : Packet) (controls : List Control) :
    (∃ base scope deref size time types filter attrs text, IsSearch req base scope deref size time types filter attrs ∧
      decompile filter = some text ∧ parseSearchRequest req controls = some ⟨base, scope, deref, size, time, types, text, attrs, controls⟩) ∨
    ((¬ ∃ base scope deref size time types filter attrs, IsSearch req base scope deref size time types filter attrs) ∧
      parseSearchRequest req controls = none) := by
  unfold parseSearchRequest
  match hk : req.kids with
  | [b, s, d, z, t, y, f, a] =>
    have no : (∀ base scope deref size time types attrs, b.val = .str base → s.val = .int scope → d.val = .int deref → z.val = .int size →
        t.val = .int time → (y.val = .bool types ∨ y.val = .nil ∧ types = false) → TakenFilter f →
        Each (fun k v => k.val = .str v) a.kids attrs → False) →
        ¬ ∃ base scope deref size time types filter attrs, IsSearch req base scope deref size time types filter attrs := by
      rintro h ⟨base, scope, deref, size, time, types, filter, attrs, b', s', d', z', t', y', a', e, h1, h2, h3, h4, h5, h6, h7, h8⟩
      rw [hk] at e
      cases e
      exact h _ _ _ _ _ _ _ h1 h2 h3 h4 h5 h6 h7 h8
    dsimp only
    cases hb : b.str? with
    | none => exact Or.inr ⟨no fun _ _ _ _ _ _ _ h _ _ _ _ _ _ _ => (by rw [str?_iff.2 h] at hb; cases hb), rfl⟩
    | some base =>
    cases hs : s.int? with
    | none => exact Or.inr ⟨no fun _ _ _ _ _ _ _ _ h _ _ _ _ _ _ => (by rw [int?_iff.2 h] at hs; cases hs), rfl⟩
    | some scope =>
    cases hd : d.int? with
    | none => exact Or.inr ⟨no fun _ _ _ _ _ _ _ _ _ h _ _ _ _ _ => (by rw [int?_iff.2 h] at hd; cases hd), rfl⟩
    | some deref =>
    cases hz : z.int? with
    | none => exact Or.inr ⟨no fun _ _ _ _ _ _ _ _ _ _ h _ _ _ _ => (by rw [int?_iff.2 h] at hz; cases hz), rfl⟩
    | some size =>
    cases ht : t.int? with
    | none => exact Or.inr ⟨no fun _ _ _ _ _ _ _ _ _ _ _ h _ _ _ => (by rw [int?_iff.2 h] at ht; cases ht), rfl⟩
    | some time =>
    have hy : (∃ types, (y.val = .bool types ∨ y.val = .nil ∧ types = false) ∧ (if y.val = .nil then some false else y.bool?) = some types) ∨
        ((¬ ∃ types, (y.val = .bool types ∨ y.val = .nil ∧ types = false)) ∧ (if y.val = .nil then some false else y.bool?) = none) := by
      unfold Packet.bool?
      cases hv : y.val with
      | bool v => exact .inl ⟨v, by simp⟩
      | nil => exact .inl ⟨false, by simp⟩
      | int i => exact .inr (by simp)
      | str s => exact .inr (by simp)
      | other => exact .inr (by simp)
    have hr : ∀ g : Bool → Option SearchReq, (if y.val = .nil then (some false >>= g) else (y.bool? >>= g)) =
        ((if y.val = .nil then some false else y.bool?) >>= g) := by intro g; split <;> rfl
    simp only [hr]
    rcases hy with ⟨types, hy1, hy2⟩ | ⟨hy1, hy2⟩
    case inr => rw [hy2]; exact Or.inr ⟨no fun _ _ _ _ _ types _ _ _ _ _ _ h _ _ => hy1 ⟨types, h⟩, rfl⟩
    rw [hy2]
    cases hf : decompile f with
    | none => exact Or.inr ⟨no fun _ _ _ _ _ _ _ _ _ _ _ _ _ h _ => (decompile_taken f).2 h hf, rfl⟩
    | some text =>
    cases ha : parseAttrNames a.kids with
    | none => exact Or.inr ⟨no fun _ _ _ _ _ _ _ _ _ _ _ _ _ _ h => (by rw [(attrNames_exact _ _).2 h] at ha; cases ha), rfl⟩
    | some attrs =>
      refine Or.inl ⟨base, scope, deref, size, time, types, f, attrs, text, ⟨b, s, d, z, t, y, a, hk, str?_iff.1 hb, int?_iff.1 hs, int?_iff.1 hd,
        int?_iff.1 hz, int?_iff.1 ht, hy1, (decompile_taken f).1 (by simp [hf]), (attrNames_exact _ _).1 ha⟩, hf, rfl⟩
  | [] | [_] | [_, _] | [_, _, _] | [_, _, _, _] | [_, _, _, _, _] | [_, _, _, _, _, _] | [_, _, _, _, _, _, _] | _ :: _ :: _ :: _ :: _ :: _ :: _ :: _ :: _ :: _ =>
    refine Or.inr ⟨?_, rfl⟩
    rintro ⟨base, scope, deref, size, time, types, filter, attrs, b', s', d', z', t', y', a', e, -⟩
    rw [hk] at e
    cases e

/-- C79 for searches: a packet with the tag of a search is either a search request, and then treated like the one that says the same in the
form of RFC 4511 and has the same controls, or refused (operationsError) and the connection closed. -/
theorem C79_search_partial (V : Env) (srv : Srv σ) (o : Oracle) {p m req : Packet} {more : List Packet} {id : Int} (hk : p.kids = m :: req :: more)
    (hi : m.val = .int id) (hcl : req.cls = .application) (hc : CalmControls V p) (ht : req.tag = 3) (bound : Str) (st : σ) :
    (∃ base scope deref size time types filter attrs, IsSearch req base scope deref size time types filter attrs ∧
      handlePacket V srv o p bound st =
        handlePacket V srv o (wSeq (berInt id :: wSearchAll base scope deref size time types filter attrs :: more)) bound st) ∨
    ((¬ ∃ base scope deref size time types filter attrs, IsSearch req base scope deref size time types filter attrs) ∧
      handlePacket V srv o p bound st = ⟨[.searchDone id 1 none], .closed, srv.close bound st⟩) := by
  obtain ⟨cs, hcs⟩ := calm_controls hk hc
  have step : ∀ (p' m' req' : Packet), p'.kids = m' :: req' :: more → m'.val = .int id → req'.cls = .application → req'.tag = 3 →
      handlePacket V srv o p' bound st = stepSearch V srv id bound req' cs st := by
    intro p' m' req' hk hi hcl ht
    unfold handlePacket
    rw [hk]
    simp only [int?_iff.2 hi, hcl, ne_eq, not_true_eq_false, if_false, hcs, ht]
    simp [appAddRequest, appBindRequest, appCompareRequest, appDelRequest, appExtendedRequest, appModifyDNRequest, appModifyRequest, appSearchRequest]
  rw [step p m req hk hi hcl ht]
  rcases search_exact req cs with ⟨base, scope, deref, size, time, types, filter, attrs, text, h1, h2, h3⟩ | ⟨h1, h2⟩
  · refine Or.inl ⟨base, scope, deref, size, time, types, filter, attrs, h1, ?_⟩
    rw [step _ (berInt id) (wSearchAll base scope deref size time types filter attrs) rfl rfl rfl rfl]
    have hp : parseSearchRequest (wSearchAll base scope deref size time types filter attrs) cs =
        some ⟨base, scope, deref, size, time, types, text, attrs, cs⟩ := by
      have ha : parseAttrNames (wSeq (attrs.map octet)).kids = some attrs := by
        rw [attrNames_exact]
        show Each _ (attrs.map octet) attrs
        clear h1 h3
        induction attrs with
        | nil => trivial
        | cons a l ih => exact ⟨rfl, ih⟩
      unfold parseSearchRequest wSearchAll wReq
      simp only [Packet.kids] at ha ⊢
      have hb : (octet base).str? = some base := rfl
      have hw : ¬ (wBool types).val = .nil := by simp [wBool, Packet.val]
      have hv : (wBool types).bool? = some types := rfl
      rw [hb]
      simp only [if_neg hw]
      rw [hv, h2, ha]
      rfl
    unfold stepSearch handleSearch
    rw [h3, hp]
  · refine Or.inr ⟨h1, ?_⟩
    unfold stepSearch handleSearch
    rw [h2]
    rfl

/-! ## Examples -/

/-- A search with seven parts is refused; one whose scope is 7 and whose `typesOnly` has no value is taken. -/
example : (toyReq [] (wReq 3 [octet b!"dc=lg", wEnum 2, wEnum 0, berInt 0, berInt 0, wBool false, ctxStr 7 b!"cn"])).resps = [.searchDone 7 1 none] ∧
    IsSearch (wReq 3 [octet b!"dc=lg", berInt 7, wEnum 0, berInt 0, berInt (-1), ctxStr 1 [], ctxStr 7 b!"cn", wSeq [octet b!"mail"]])
      b!"dc=lg" 7 0 0 (-1) false (ctxStr 7 b!"cn") [b!"mail"] := by
  refine ⟨by decide +kernel, _, _, _, _, _, _, _, rfl, rfl, rfl, rfl, rfl, rfl, .inr ⟨rfl, rfl⟩, ?_, rfl, trivial⟩
  simp [ctxStr, TakenFilter]

/-- An add with an attribute of three parts is refused, without it performed. -/
def oddAdd : Packet := wReq 8 [octet b!"uid=x,dc=lg", wSeq [wSeq [octet b!"uid", wSet [octet b!"x"], octet b!"y"]]]

example : Message (wMsg 7 oddAdd) 7 oddAdd ∧ oddAdd.tag = 8 ∧ CalmControls toyEnv (wMsg 7 oddAdd) ∧
    (toyReq b!"uid=admin,dc=lg" oddAdd).resps = [.result 7 9 2] ∧
    (toyReq b!"uid=admin,dc=lg" (wAdd ⟨b!"uid=x,dc=lg", [⟨b!"uid", [b!"x"]⟩]⟩)).resps = [.result 7 9 0] :=
  ⟨⟨_, [], rfl, rfl, rfl⟩, rfl, fun q hq => (by cases hq), by decide +kernel, by decide +kernel⟩

/-- A bind with SASL is refused; a password change with four parts too. -/
example : (toyReq [] (wReq 0 [berInt 3, octet b!"uid=ann,dc=lg", ctxStr 3 b!"pw"])).resps = [.result 7 1 48] ∧
    (handlePacket wireToy wireSrv toyOracle (wMsg 7 (wPwModify [48, 8, 128, 0, 129, 0, 130, 0, 130, 0])) b!"uid=ann,dc=lg" toyDb).resps =
      [.extended 7 84 pwmodOID none] := by decide +kernel

/-- C79 is false in the strict sense of RFC 4511: the kind of a change is taken from the first byte of its encoding. A change of kind 517 (two
bytes, 2 and 5) is carried out as a replace (2). -/
theorem C79_kind_fails :
    let p := wReq 6 [octet b!"uid=ann,dc=lg", wSeq [wSeq [.mk .universal false 10 (.int 517) [2, 5] [], wAttr ⟨b!"mail", [b!"x"]⟩]]]
    (toyReq b!"uid=admin,dc=lg" p).resps = [.result 7 7 0] ∧
    boltSearch asciiCase gobInstance (toyReq b!"uid=admin,dc=lg" p).st b!"uid=ann,dc=lg" scopeBase =
      boltSearch asciiCase gobInstance (toyReq b!"uid=admin,dc=lg" (wModify ⟨b!"uid=ann,dc=lg", [⟨2, b!"mail", [b!"x"]⟩]⟩)).st b!"uid=ann,dc=lg" scopeBase := by
  decide +kernel

/-- C79 is false for password changes: one whose value breaks off (a sequence of five bytes of which two are there: old password, length
missing) is answered with success, and the user has a new password that nobody knows. -/
theorem C79_password_fails :
    let out := handlePacket wireToy wireSrv toyOracle (wMsg 7 (wPwModify [48, 5, 129])) b!"uid=ann,dc=lg" toyDb
    out.resps = [.extended 7 0 pwmodOID (some b!"{ARGON2}$argon2id$01234567")] ∧
    (handlePacket wireToy wireSrv toyOracle (wMsg 8 (wBind b!"uid=ann,dc=lg" b!"pw")) [] toyDb).resps = [.result 8 1 0] ∧
    (handlePacket wireToy wireSrv toyOracle (wMsg 8 (wBind b!"uid=ann,dc=lg" b!"pw")) [] out.st).resps = [.result 8 1 49] := by
  decide +kernel

end Idm
