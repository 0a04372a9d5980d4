import Verif.Props.BoltFind
import Verif.Spec.Crash
/-!
# Panics: in transaction bodies, filters and request parsing
-/
namespace Idm
open Dir

/-! ## Transaction bodies -/

/-- The body neither panics nor runs forever, and ends with `Q` if it returns. -/
def Calm {α : Type} (p : Prog α) (db : Db) (Q : α → Db → Prop) : Prop :=
  match p.run db with
  | .ok (a, db') => Q a db'
  | .err _ => True
  | .panic => False
  | .hang => False

theorem Calm.bind {α β : Type} {p : Prog α} {f : α → Prog β} {db : Db} {Q : β → Db → Prop}
    (h : Calm p db fun a db' => Calm (f a) db' Q) : Calm (p >>= f) db Q := by
  unfold Calm at h ⊢
  rw [Prog.run_bind]
  cases hp : p.run db with
  | ok x => rw [hp] at h; exact h
  | err e => simp
  | panic => rw [hp] at h; exact h.elim
  | hang => rw [hp] at h; exact h.elim

theorem Calm.ret {α : Type} {a : α} {db : Db} {Q : α → Db → Prop} (h : Q a db) : Calm (.ret a) db Q := h
theorem Calm.fail {α : Type} {e : Err} {db : Db} {Q : α → Db → Prop} : Calm (.fail e) db Q := trivial
theorem Calm.get {b : Bkt} {k : Str} {db : Db} {Q : Option Str → Db → Prop} (h : Q (db.tbl b k) db) : Calm (Prog.get! b k) db Q := h
theorem Calm.del {b : Bkt} {k : Str} {db : Db} {Q : Unit → Db → Prop} (h : Q () (db.set b k none)) : Calm (Prog.del! b k) db Q := h
theorem Calm.put {b : Bkt} {k v : Str} {db : Db} {Q : Unit → Db → Prop} (h : Q () (db.set b k (some v))) : Calm (Prog.put! b k v) db Q := by
  unfold Calm Prog.put!
  simp only [Prog.run]
  by_cases hk : k = [] ∨ k.length > maxKeySize
  · rw [if_pos hk]; trivial
  · rw [if_neg hk]; exact h
theorem Calm.nextSeq {db : Db} {Q : Nat → Db → Prop} (h : ∀ n, Q n { db with seq := n }) : Calm Prog.nextSeq! db Q := h _

theorem Calm.update {α : Type} {p : Prog α} {db : Db} {Q : α → Db → Prop} (h : Calm p db Q) :
    (update p db).1 ≠ .panic ∧ (update p db).1 ≠ .hang := by
  unfold Calm at h
  unfold Idm.update
  cases hp : p.run db with
  | ok x => simp
  | err e => simp
  | panic => rw [hp] at h; exact h.elim
  | hang => rw [hp] at h; exact h.elim

/-- Every value in dn2id is an id. -/
def IdsOk (db : Db) : Prop := ∀ k v, db.tbl .dn2id k = some v → ∃ i, decodeId v = .ok i

/-- No stored entry has the root DN. -/
def EntOk (C : CaseEnv) (G : GobEnv) (db : Db) : Prop := ∀ k e, G.dec ((db.tbl .id2entry k).getD []) = some e → parseDN C e.dn ≠ some []

theorem IdsOk.set {db : Db} (h : IdsOk db) {b : Bkt} (hb : b ≠ .dn2id) (k : Str) (v : Option Str) : IdsOk (db.set b k v) := by
  intro k' v' h'
  simp only [Db.set] at h'
  rw [if_neg (fun e => hb e.1.symm)] at h'
  exact h k' v' h'

section
variable {C : CaseEnv} {G : GobEnv}

theorem calm_getID {db : Db} (h : IdsOk db) (s : Str) : Calm (getIDByDN s) db fun _ db' => db' = db := by
  unfold getIDByDN
  refine Calm.bind (Calm.get ?_)
  cases hv : db.tbl .dn2id s with
  | none => exact Calm.ret rfl
  | some v =>
    obtain ⟨i, hi⟩ := h s v hv
    dsimp only
    rw [hi]
    exact Calm.ret rfl

theorem Calm.mono {α : Type} {p : Prog α} {db : Db} {Q R : α → Db → Prop} (h : Calm p db Q) (hq : ∀ a d, Q a d → R a d) : Calm p db R := by
  unfold Calm at h ⊢
  cases hp : p.run db with
  | ok x => rw [hp] at h; exact hq _ _ h
  | err e => trivial
  | panic => rw [hp] at h; exact h.elim
  | hang => rw [hp] at h; exact h.elim

theorem calm_getEntry {db : Db} (h : IdsOk db) (he : EntOk C G db) (s : Str) :
    Calm (getEntryByDN G s) db fun x db' => db' = db ∧ parseDN C x.1.dn ≠ some [] ∧ ∃ k, G.dec ((db.tbl .id2entry k).getD []) = some x.1 := by
  unfold getEntryByDN
  refine Calm.bind ((calm_getID h s).mono ?_)
  rintro i _ rfl
  split
  · exact Calm.fail
  · unfold getEntryByID
    refine Calm.bind (Calm.bind (Calm.get ?_))
    cases hd : G.dec ((Db.tbl _ .id2entry (idToBytes i)).getD []) with
    | none => exact Calm.fail
    | some e => exact ⟨rfl, he _ e hd, _, hd⟩

theorem calm_put {db : Db} (h : IdsOk db) (base nDN np : Str) (e : Entry) : Calm (entryPutBody G base nDN np e) db fun _ _ => True := by
  unfold entryPutBody
  refine Calm.bind ((calm_getID h nDN).mono ?_)
  rintro i _ rfl
  split
  · exact Calm.fail
  · refine Calm.bind (Calm.nextSeq fun n => Calm.bind (Calm.put ?_))
    have h2 := (IdsOk.set (db := { (_ : Db) with seq := n }) h (b := .id2entry) (by decide) (idToBytes n) (some (G.enc e)))
    split
    · refine Calm.bind ?_
      unfold addID2Children
      refine Calm.bind ((calm_getID h2 np).mono ?_)
      rintro j _ rfl
      split
      · exact Calm.fail
      · exact Calm.bind (Calm.get (Calm.put (Calm.put trivial)))
    · exact Calm.put trivial

theorem calm_delete {db : Db} (h : IdsOk db) (nDN np : Str) : Calm (entryDeleteBody nDN np) db fun _ _ => True := by
  unfold entryDeleteBody
  refine Calm.bind ((calm_getID h nDN).mono ?_)
  rintro i _ rfl
  split
  · exact Calm.fail
  · refine Calm.bind (Calm.get ?_)
    split
    · exact Calm.fail
    · refine Calm.bind ((calm_getID h np).mono ?_)
      rintro j _ rfl
      split
      · exact Calm.fail
      · exact Calm.bind (Calm.get (Calm.bind (Calm.put (Calm.bind (Calm.del (Calm.del trivial))))))

theorem applyChanges_calm (rdn : RDN) (old : List Attr) : ∀ (cs : List Change) (as : List Attr),
    applyChanges C rdn old as cs ≠ .panic ∧ applyChanges C rdn old as cs ≠ .hang
  | [], as => by simp [applyChanges]
  | c :: cs, as => by
    rw [applyChanges]
    have : (∃ x, applyChange C rdn old as c = .ok x) ∨ ∃ e, applyChange C rdn old as c = .err e := by
      unfold applyChange
      repeat' split
      all_goals first | exact Or.inl ⟨_, rfl⟩ | exact Or.inr ⟨_, rfl⟩
    rcases this with ⟨x, h⟩ | ⟨e, h⟩
    · rw [h]; exact applyChanges_calm rdn old cs x
    · rw [h]; simp

theorem applyModify_calm {e : Entry} (h : parseDN C e.dn ≠ some []) (dn : Str) (cs : List Change) :
    applyModify C e dn cs ≠ .panic ∧ applyModify C e dn cs ≠ .hang := by
  unfold applyModify
  split
  · simp
  · contradiction
  · rename_i rdn rest hp
    split
    · simp
    · split
      · have := applyChanges_calm (C := C) rdn e.attrs cs e.attrs
        cases hx : applyChanges C rdn e.attrs e.attrs cs with
        | ok x => simp
        | err x => simp
        | panic => exact absurd hx this.1
        | hang => exact absurd hx this.2
      · simp

theorem calm_lift_modify {e : Entry} (h : parseDN C e.dn ≠ some []) (dn : Str) (cs : List Change) (db : Db) (Q : Entry → Db → Prop)
    (hq : ∀ e', Q e' db) : Calm (Prog.lift (applyModify C e dn cs)) db Q := by
  have := applyModify_calm h dn cs
  cases hx : applyModify C e dn cs with
  | ok x => exact hq x
  | err x => exact Calm.fail
  | panic => exact absurd hx this.1
  | hang => exact absurd hx this.2

theorem entryModify_calm {db : Db} (h : IdsOk db) (he : EntOk C G db) (dn : Str) (cs : List Change) :
    (entryModify C G db dn cs).1 ≠ .panic ∧ (entryModify C G db dn cs).1 ≠ .hang := by
  unfold entryModify
  split
  · simp
  · apply Calm.update (Q := fun _ _ => True)
    refine Calm.bind ((calm_getEntry h he _).mono ?_)
    rintro ⟨e, id⟩ _ ⟨rfl, h1, -⟩
    unfold entryModifyWithTxn
    exact Calm.bind (calm_lift_modify h1 _ _ _ _ fun e' => Calm.put trivial)

theorem render_has_eq {r : RDN} (hr : r ≠ []) (rest : DN) : chEq ∈ render (r :: rest) := by
  cases r with
  | nil => contradiction
  | cons a as => simp [render, renderFrom, renderRDN]

theorem parseDN_root {s : Str} : parseDN C s = some [] ↔ C.trimSpace s = [] := by
  unfold parseDN parseDNRes
  by_cases h : C.trimSpace s = []
  · simp [h]
  · simp only [if_neg h, iff_false, h]
    intro hc
    unfold scanFinish at hc
    cases hs : scan C {} (C.trimSpace s) with
    | error p => rw [hs] at hc; simp at hc
    | ok st =>
      rw [hs] at hc
      unfold scanEnd at hc
      dsimp only at hc
      by_cases ht : st.typ = []
      · rw [if_pos ht] at hc; cases hc
      · rw [if_neg ht] at hc
        cases hv : decodeValue C st.cur with
        | none => rw [hv] at hc; cases hc
        | some v => rw [hv] at hc; simp at hc

theorem normalize_not_root (hC : C.Lawful) {r : RDN} (hr : r ≠ []) (rest : DN) : parseDN C (normalize C (r :: rest)) ≠ some [] := by
  rw [Ne, parseDN_root]
  apply hC.trimSpace_keeps _ chEq _ (by decide) (by decide)
  unfold normalize foldDN
  rw [List.map_cons]
  exact render_has_eq (by simpa using hr) _

theorem entryModifyDN_calm (hC : C.Lawful) {db : Db} (h : IdsOk db) (he : EntOk C G db) (r : ModifyDNReq) :
    (entryModifyDN C G db r).1 ≠ .hang ∧ ((entryModifyDN C G db r).1 = .panic → IsRoot C r.dn ∨ IsRoot C r.newRDN) := by
  unfold entryModifyDN
  split
  · simp
  · rename_i old hold
    split
    · simp
    · rename_i hn
      exact ⟨by simp, fun _ => Or.inr hn⟩
    · rename_i newRDN x hn
      have hne : newRDN ≠ [] := by
        have := parseDN_shape hn
        exact (this newRDN (by simp)).1
      split
      · exact ⟨by simp, fun _ => Or.inl hold⟩
      · rename_i oldRDN rest
        have key := Calm.update (p := entryModifyDNBody C G (normalize C (oldRDN :: rest)) (normalize C (newRDN :: rest))
          (renameChanges oldRDN newRDN r.deleteOldRDN)) (db := db) (Q := fun _ _ => True) (by
            unfold entryModifyDNBody
            refine Calm.bind ((calm_getID h _).mono ?_)
            rintro i _ rfl
            split
            · exact Calm.fail
            · refine Calm.bind ((calm_getEntry h he _).mono ?_)
              rintro ⟨e, id⟩ _ ⟨rfl, h1, -⟩
              unfold getChildrenIDs
              refine Calm.bind (Calm.bind (Calm.get (Calm.ret ?_)))
              split
              · exact Calm.fail
              · unfold entryModifyWithTxn
                exact Calm.bind (Calm.bind (calm_lift_modify (normalize_not_root hC hne rest) _ _ _ _ fun e' =>
                  Calm.put (Calm.bind (Calm.put (Calm.del trivial))))))
        exact ⟨key.2, fun e => absurd e key.1⟩

theorem entryPut_calm {db : Db} (h : IdsOk db) (base : Str) (e : Entry) {name : DN} (hp : parseDN C e.dn = some name) :
    (entryPut C G base db e).1 ≠ .hang ∧ ((entryPut C G base db e).1 = .panic → IsRoot C e.dn) := by
  have hd : entryPutDN C e.dn = some name := by
    unfold parseDN at hp
    unfold entryPutDN
    split at hp <;> simp_all
  unfold entryPut
  rw [hd]
  cases name with
  | nil => exact ⟨by simp, fun _ => hp⟩
  | cons r rest =>
    dsimp only
    split
    · simp
    · have := Calm.update (calm_put (G := G) h base (normalize C (r :: rest)) (normalize C rest) e)
      exact ⟨this.2, fun e => absurd e this.1⟩

theorem entryDelete_calm {db : Db} (h : IdsOk db) (dn : Str) :
    (entryDelete C db dn).1 ≠ .hang ∧ ((entryDelete C db dn).1 = .panic → IsRoot C dn) := by
  unfold entryDelete
  split
  · simp
  · rename_i hp; exact ⟨by simp, fun _ => hp⟩
  · rename_i r rest hp
    have := Calm.update (calm_delete h (normalize C (r :: rest)) (normalize C rest))
    exact ⟨this.2, fun e => absurd e this.1⟩

theorem validatePw_not_hang (K : CryptoEnv) (p h : Str) : validatePw C K p h ≠ .hang := by
  unfold validatePw
  dsimp only
  repeat' split
  all_goals simp

theorem updatePassword_calm {K : CryptoEnv} {db : Db} (h : IdsOk db) (he : EntOk C G db) (r : PwModReq) :
    (updatePassword C G (validatePw C K) db r).1 ≠ .hang ∧
    ((updatePassword C G (validatePw C K) db r).1 = .panic → r.oldPassword ≠ [] ∧
      ∃ k e, G.dec ((db.tbl .id2entry k).getD []) = some e ∧ validatePw C K r.oldPassword (getVal C e.attrs sUserPassword) = .panic) := by
  unfold updatePassword
  cases hn : parseNormalize C r.userIdentity with
  | none => simp
  | some nDN =>
    dsimp only
    by_cases hx : r.oldPassword ≠ [] ∧
      ∃ k e, G.dec ((db.tbl .id2entry k).getD []) = some e ∧ validatePw C K r.oldPassword (getVal C e.attrs sUserPassword) = .panic
    · refine ⟨?_, fun _ => hx⟩
      unfold Idm.update updatePasswordBody
      rw [Prog.run_bind]
      have h1 := calm_getEntry h he nDN
      unfold Calm at h1
      cases hg : (getEntryByDN G nDN).run db with
      | err e => simp
      | panic => simp
      | hang => rw [hg] at h1; exact h1.elim
      | ok x =>
        rw [hg] at h1
        obtain ⟨⟨e, id⟩, db'⟩ := x
        obtain ⟨rfl, h2, -⟩ := h1
        simp only [Res.ok_bind]
        rw [if_pos hx.1]
        have h3 := validatePw_not_hang (C := C) K r.oldPassword (getVal C e.attrs sUserPassword)
        have h4 := applyModify_calm h2 r.userIdentity [⟨opReplace, sUserPassword, [r.newPassword]⟩]
        cases hv : validatePw C K r.oldPassword (getVal C e.attrs sUserPassword) with
        | hang => exact absurd hv h3
        | panic => simp [Prog.run_bind]
        | err x => simp [Prog.run_bind]
        | ok b =>
          cases b with
          | false => simp [Prog.run_bind]
          | true =>
            simp only [Prog.run_bind, Prog.run_ret, Res.ok_bind]
            cases hm : applyModify C e r.userIdentity [⟨opReplace, sUserPassword, [r.newPassword]⟩] with
            | hang => exact absurd hm h4.2
            | panic => exact absurd hm h4.1
            | err x => simp
            | ok x => simp
    · have key := Calm.update (p := updatePasswordBody C G (validatePw C K) nDN r) (db := db) (Q := fun _ _ => True) (by
        unfold updatePasswordBody
        refine Calm.bind ((calm_getEntry h he _).mono ?_)
        rintro ⟨e, id⟩ _ ⟨rfl, h1, k, h2⟩
        have h4 := applyModify_calm h1 r.userIdentity [⟨opReplace, sUserPassword, [r.newPassword]⟩]
        have rest : ∀ d : Db, Calm (match applyModify C e r.userIdentity [⟨opReplace, sUserPassword, [r.newPassword]⟩] with
            | .ok e' => Prog.put! .id2entry (idToBytes id) (G.enc e')
            | .err _ => .fail (.ldap rcOperationsError true)
            | .panic => .panic
            | .hang => .hang) d fun _ _ => True := by
          intro d
          cases hm : applyModify C e r.userIdentity [⟨opReplace, sUserPassword, [r.newPassword]⟩] with
          | hang => exact absurd hm h4.2
          | panic => exact absurd hm h4.1
          | err x => exact Calm.fail
          | ok x => exact Calm.put trivial
        dsimp only
        by_cases ho : r.oldPassword ≠ []
        · simp only [if_pos ho]
          cases hv : validatePw C K r.oldPassword (getVal C e.attrs sUserPassword) with
          | hang => exact absurd hv (validatePw_not_hang K _ _)
          | panic => exact absurd ⟨ho, k, e, h2, hv⟩ hx
          | err x => exact Calm.bind Calm.fail
          | ok b =>
            cases b with
            | false => exact Calm.bind Calm.fail
            | true => exact Calm.bind (Calm.ret (rest _))
        · simp only [if_neg ho]
          exact rest _)
      exact ⟨key.2, fun e => absurd e key.1⟩

/-! ## The databases of histories -/

theorem Rel.idsOk {base : DN} {db : Db} {ns : List INode} (R : Rel C G base db ns) : IdsOk db := by
  intro k v h
  obtain ⟨n, hn, -, rfl⟩ := (R.dn2id k v).1 h
  exact ⟨n.id, decodeId_idToBytes' (R.idlt hn)⟩

theorem Rel.entry_of {base : DN} {db : Db} {ns : List INode} (hG : G.Lawful) (R : Rel C G base db ns) {k : Str} {e : Entry}
    (h : G.dec ((db.tbl .id2entry k).getD []) = some e) : ∃ n ∈ ns, n.entry = e := by
  cases hv : db.tbl .id2entry k with
  | none => rw [hv] at h; simp [hG.dec_nil] at h
  | some v =>
    obtain ⟨n, hn, -, rfl⟩ := (R.id2entry k v).1 hv
    rw [hv] at h
    simp [hG.dec_enc] at h
    exact ⟨n, hn, h⟩

/-- A search of any text never panics, fails or runs forever. -/
theorem Rel.search_calm {base : DN} {db : Db} {ns : List INode} (hG : G.Lawful) (R : Rel C G base db ns) (s : Str) (scope : Nat) :
    ∃ x, boltSearch C G db s scope = .ok x := by
  unfold boltSearch searchFuel
  split
  · exact ⟨_, rfl⟩
  · rename_i nDN hp
    by_cases h : ∃ n ∈ ns, render n.name = nDN
    · obtain ⟨n, hn, rfl⟩ := h
      have := R.run_search hG hn (fuel := db.seq + 1) (by omega) scope
      exact ⟨_, by simp only [view, this]; rfl⟩
    · have := run_getID_text_none R h
      refine ⟨([], some .other), ?_⟩
      simp only [view, searchBody, Prog.run_bind, this, Res.ok_bind, if_true, Prog.run_ret]

theorem specStep_noRoot (hC : C.Lawful) {validate : Str → Str → Res Bool} {base : DN} {d : Dir}
    (hd : ∀ n ∈ d, parseDN C n.entry.dn ≠ some []) (op : Op) :
    ∀ n ∈ (specStep C validate base d op).2, parseDN C n.entry.dn ≠ some [] := by
  have hget : ∀ k e, d.get k = some e → parseDN C e.dn ≠ some [] := by
    intro k e h
    unfold Dir.get at h
    obtain ⟨n, hn, he⟩ := Option.map_eq_some_iff.1 h
    rw [← he]
    exact hd n (List.mem_of_find?_eq_some hn)
  have hset : ∀ k e, parseDN C e.dn ≠ some [] → ∀ n ∈ d.setEntry k e, parseDN C n.entry.dn ≠ some [] := by
    intro k e h0 n hn
    obtain ⟨m, hm, rfl⟩ := List.mem_map.1 hn
    split
    · exact h0
    · exact hd m hm
  cases op with
  | add e =>
    unfold specStep
    dsimp only
    split
    · exact hd
    · rename_i name hp
      unfold specAdd
      split
      · exact hd
      · rename_i hne
        unfold specAddAt
        repeat' split
        all_goals first | exact hd | skip
        intro n hn
        rcases List.mem_append.1 hn with hn | hn
        · exact hd n hn
        · simp only [List.mem_singleton] at hn
          subst hn
          intro h
          unfold parseDN at h
          unfold entryPutDN at hp
          split at h
          · rename_i hx; rw [hx] at hp; simp at hp h; exact hne (hp.symm.trans h)
          · cases h
  | delete dn =>
    unfold specStep
    dsimp only
    split
    · exact hd
    · unfold specDelete
      split
      · exact hd
      · unfold specDeleteAt
        repeat' split
        all_goals first | exact hd | skip
        intro n hn
        exact hd n (List.mem_filter.1 hn).1
  | modify dn cs =>
    unfold specStep
    dsimp only
    split
    · exact hd
    · unfold specModify specModifyAt
      split
      · exact hd
      · rename_i e hg
        split
        · rename_i e' ha
          apply hset
          have : e'.dn = e.dn := by obtain ⟨_, _, _, _, _, _, h5, _⟩ := applyModify_ok ha; exact h5
          rw [this]
          exact hget _ e hg
        all_goals exact hd
  | rename r =>
    unfold specStep
    dsimp only
    split
    · exact hd
    · exact hd
    · exact hd
    · exact hd
    · rename_i o p nr x h1 h2
      have hne : nr ≠ [] := (parseDN_shape h2 nr (by simp)).1
      unfold specRename specRenameAt
      split
      · exact hd
      · split
        · exact hd
        · split
          · exact hd
          · split
            · rename_i e' ha
              split
              · exact hd
              · intro n hn
                obtain ⟨m, hm, rfl⟩ := List.mem_map.1 hn
                split
                · have : e'.dn = render (foldDN C (nr :: p)) := by obtain ⟨_, _, _, _, _, _, h5, _⟩ := applyModify_ok ha; exact h5
                  dsimp only
                  rw [this]
                  exact normalize_not_root hC hne p
                · exact hd m hm
            all_goals exact hd
  | password r =>
    unfold specStep
    dsimp only
    split
    · exact hd
    · unfold specPassword specPasswordAt
      split
      · exact hd
      · rename_i e hg
        split
        · split
          · rename_i e' ha
            apply hset
            have : e'.dn = e.dn := by obtain ⟨_, _, _, _, _, _, h5, _⟩ := applyModify_ok ha; exact h5
            rw [this]
            exact hget _ e hg
          all_goals exact hd
        all_goals exact hd

theorem specRun_noRoot (hC : C.Lawful) {validate : Str → Str → Res Bool} {base : DN} : ∀ (ops : List Op) (d : Dir),
    (∀ n ∈ d, parseDN C n.entry.dn ≠ some []) → ∀ n ∈ (specRun C validate base d ops).2, parseDN C n.entry.dn ≠ some []
  | [], d, h => h
  | op :: ops, d, h => by
    simp only [specRun]
    exact specRun_noRoot hC ops _ (specStep_noRoot hC h op)

end
end Idm
