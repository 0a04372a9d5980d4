import Verif.Proofs.Ids
import Verif.Spec.Directory
/-! The child links of the store lead to larger ids, whatever the names. -/
namespace Idm
open Prog

/-- If the body succeeds, the result and the database afterwards satisfy `Q`. -/
def Post {α : Type} (p : Prog α) (db : Db) (Q : α → Db → Prop) : Prop := ∀ a db', p.run db = .ok (a, db') → Q a db'

section
variable {α β : Type} {db : Db}

theorem Post.bind {p : Prog α} {f : α → Prog β} {Q : β → Db → Prop} (h : Post p db fun a d => Post (f a) d Q) : Post (p >>= f) db Q := by
  intro b db' hb
  rw [run_bind] at hb
  cases hp : p.run db with
  | ok r => rw [hp] at hb; exact h r.1 r.2 hp b db' hb
  | err e => rw [hp] at hb; simp [Bind.bind, Res.bind] at hb
  | panic => rw [hp] at hb; simp [Bind.bind, Res.bind] at hb
  | hang => rw [hp] at hb; simp [Bind.bind, Res.bind] at hb

theorem Post.ret {a : α} {Q : α → Db → Prop} (h : Q a db) : Post (.ret a) db Q := by
  intro b db' hb; simp at hb; rw [← hb.1, ← hb.2]; exact h

theorem Post.pure {a : α} {Q : α → Db → Prop} (h : Q a db) : Post (Pure.pure a) db Q := Post.ret h

theorem Post.fail {e : Err} {Q : α → Db → Prop} : Post (.fail e) db Q := by intro b db' hb; simp at hb
theorem Post.panic {Q : α → Db → Prop} : Post .panic db Q := by intro b db' hb; simp at hb
theorem Post.hang {Q : α → Db → Prop} : Post .hang db Q := by intro b db' hb; simp at hb

theorem Post.get {b : Bkt} {k : Str} {Q : Option Str → Db → Prop} (h : Q (db.tbl b k) db) : Post (get! b k) db Q := by
  intro a db' ha; simp at ha; rw [← ha.1, ← ha.2]; exact h

theorem Post.put {b : Bkt} {k v : Str} {Q : Unit → Db → Prop} (h : Q () (db.set b k (some v))) : Post (put! b k v) db Q := by
  intro a db' ha
  by_cases hk : k = [] ∨ k.length > maxKeySize
  · rw [run_put!_err hk] at ha; simp at ha
  · rw [run_put! (fun e => hk (.inl e)) (by omega)] at ha
    simp at ha; rw [← ha]; exact h

theorem Post.del {b : Bkt} {k : Str} {Q : Unit → Db → Prop} (h : Q () (db.set b k none)) : Post (del! b k) db Q := by
  intro a db' ha; simp at ha; rw [← ha]; exact h

theorem Post.lift {r : Res α} {Q : α → Db → Prop} (h : ∀ a, r = .ok a → Q a db) : Post (.lift r) db Q := by
  cases r with
  | ok a => exact Post.ret (h a rfl)
  | err e => exact Post.fail
  | panic => exact Post.panic
  | hang => exact Post.hang

theorem Post.mono {p : Prog α} {Q Q' : α → Db → Prop} (h : Post p db Q) (hq : ∀ a d, Q a d → Q' a d) : Post p db Q' :=
  fun a d hr => hq a d (h a d hr)

end

/-- Names lead to ids given out before, and child links lead to larger ids given out before. -/
structure Links (db : Db) : Prop where
  lt : db.seq < 2 ^ 64
  ids : ∀ k v, db.tbl .dn2id k = some v → ∃ i, i ≤ db.seq ∧ v = idToBytes i
  links : ∀ p v, p < 2 ^ 64 → db.tbl .id2children (idToBytes p) = some v →
    p ≤ db.seq ∧ ∃ cs, v = encodeIds cs ∧ ∀ c ∈ cs, p < c ∧ c ≤ db.seq

namespace Links
variable {db : Db}

theorem empty : Links Db.empty where
  lt := by decide
  ids := by intro k v h; simp [Db.empty] at h
  links := by intro p v _ h; simp [Db.empty] at h

theorem setEntry (L : Links db) (k : Str) (v : Option Str) : Links (db.set .id2entry k v) where
  lt := L.lt
  ids := by intro k' v' h; rw [Db.set_tbl, if_neg (by simp)] at h; exact L.ids k' v' h
  links := by intro p v' hp h; rw [Db.set_tbl, if_neg (by simp)] at h; exact L.links p v' hp h

theorem setName (L : Links db) (k : Str) {v : Option Str} (hv : ∀ w, v = some w → ∃ i, i ≤ db.seq ∧ w = idToBytes i) :
    Links (db.set .dn2id k v) where
  lt := L.lt
  ids := by
    intro k' v' h
    rw [Db.set_tbl] at h
    by_cases e : (Bkt.dn2id = Bkt.dn2id ∧ k' = k)
    · rw [if_pos e] at h; exact hv v' h
    · rw [if_neg e] at h; exact L.ids k' v' h
  links := by intro p v' hp h; rw [Db.set_tbl, if_neg (by simp)] at h; exact L.links p v' hp h

theorem setChildren (L : Links db) {p : Nat} (hp : p ≤ db.seq) {cs : List Nat} (hcs : ∀ c ∈ cs, p < c ∧ c ≤ db.seq) :
    Links (db.set .id2children (idToBytes p) (some (encodeIds cs))) where
  lt := L.lt
  ids := by intro k' v' h; rw [Db.set_tbl, if_neg (by simp)] at h; exact L.ids k' v' h
  links := by
    intro q v' hq h
    rw [Db.set_tbl] at h
    by_cases e : (Bkt.id2children = Bkt.id2children ∧ idToBytes q = idToBytes p)
    · rw [if_pos e] at h
      have : q = p := idToBytes_inj hq (Nat.lt_of_le_of_lt hp L.lt) e.2
      subst this
      refine ⟨hp, cs, (Option.some.inj h).symm, hcs⟩
    · rw [if_neg e] at h; exact L.links q v' hq h

theorem next (L : Links db) (h : db.seq + 1 < 2 ^ 64) : Links { db with seq := db.seq + 1 } where
  lt := h
  ids := by intro k v hv; obtain ⟨i, h1, h2⟩ := L.ids k v hv; exact ⟨i, Nat.le_succ_of_le h1, h2⟩
  links := by
    intro p v hp hv
    obtain ⟨h1, cs, h2, h3⟩ := L.links p v hp hv
    exact ⟨Nat.le_succ_of_le h1, cs, h2, fun c hc => ⟨(h3 c hc).1, Nat.le_succ_of_le (h3 c hc).2⟩⟩

theorem run_getID (L : Links db) (k : Str) : ∃ i, i ≤ db.seq ∧ (getIDByDN k).run db = .ok (i, db) := by
  unfold getIDByDN
  simp only [run_bind, run_get!]
  cases h : db.tbl .dn2id k with
  | none => exact ⟨0, Nat.zero_le _, rfl⟩
  | some v =>
    obtain ⟨i, h1, h2⟩ := L.ids k v h
    refine ⟨i, h1, ?_⟩
    have := decodeId_idToBytes' (Nat.lt_of_le_of_lt h1 L.lt)
    simp [Bind.bind, Res.bind, h2, this, lift, run]

theorem getID (L : Links db) (k : Str) {Q : Nat → Db → Prop} (h : ∀ i, i ≤ db.seq → Q i db) : Post (getIDByDN k) db Q := by
  obtain ⟨i, h1, h2⟩ := L.run_getID k
  intro a d hr
  rw [h2] at hr; simp at hr
  rw [← hr.1, ← hr.2]; exact h i h1

/-- The children of an id that was given out. -/
theorem children (L : Links db) {p : Nat} (hp : p ≤ db.seq) :
    ∃ cs, (db.tbl .id2children (idToBytes p)).getD [] = encodeIds cs ∧ (∀ c ∈ cs, p < c ∧ c ≤ db.seq) ∧
      decodeIds ((db.tbl .id2children (idToBytes p)).getD []) = cs := by
  cases h : db.tbl .id2children (idToBytes p) with
  | none => exact ⟨[], rfl, by simp, rfl⟩
  | some v =>
    obtain ⟨-, cs, h2, h3⟩ := L.links p v (Nat.lt_of_le_of_lt hp L.lt) h
    refine ⟨cs, h2, h3, ?_⟩
    rw [Option.getD_some, h2]
    exact decodeIds_encodeIds fun n hn => Nat.lt_of_le_of_lt (h3 n hn).2 L.lt

/-- What each call keeps. -/
def Kept (db db' : Db) : Prop := Links db' ∧ db.seq ≤ db'.seq ∧ db'.seq ≤ db.seq + 1

theorem Kept.same (L : Links db) : Kept db db := ⟨L, Nat.le_refl _, Nat.le_succ _⟩

theorem put_body (L : Links db) (G : GobEnv) (hseq : db.seq + 1 < 2 ^ 64) (base nDN nParent : Str) (e : Entry) :
    Post (entryPutBody G base nDN nParent e) db fun _ d => Kept db d := by
  unfold entryPutBody
  refine Post.bind (L.getID _ fun i _ => ?_)
  split
  · exact Post.fail
  · refine Post.bind ?_
    intro n d hn
    rw [run_nextSeq! hseq] at hn
    simp only [Res.ok.injEq, Prod.mk.injEq] at hn
    obtain ⟨rfl, rfl⟩ := hn
    have L1 := L.next hseq
    refine Post.bind (Post.put ?_)
    have L2 := L1.setEntry (idToBytes (db.seq + 1)) (some (G.enc e))
    generalize hd : ({ db with seq := db.seq + 1 } : Db).set .id2entry (idToBytes (db.seq + 1)) (some (G.enc e)) = d at L2 ⊢
    have hs : d.seq = db.seq + 1 := by rw [← hd]; rfl
    -- the name is entered last
    have fin : ∀ d', Links d' → d'.seq = db.seq + 1 → Post (put! .dn2id nDN (idToBytes (db.seq + 1))) d' fun _ d => Kept db d := by
      intro d' L' hs'
      refine Post.put ⟨L'.setName _ ?_, ?_, ?_⟩
      · intro w hw; exact ⟨db.seq + 1, by omega, (Option.some.inj hw).symm⟩
      · rw [Db.set_seq]; omega
      · rw [Db.set_seq]; omega
    have hids : ∀ k v, d.tbl .dn2id k = some v → ∃ i, i ≤ db.seq ∧ v = idToBytes i := by
      intro k v hv
      rw [← hd, Db.set_tbl, if_neg (by simp)] at hv
      exact L.ids k v hv
    dsimp only
    by_cases hb : nDN ≠ base
    · rw [if_pos hb]
      refine Post.bind ?_
      unfold addID2Children
      refine Post.bind ?_
      intro p d' hr
      have hp : p ≤ db.seq ∧ d' = d := by
        obtain ⟨i, -, h2⟩ := L2.run_getID nParent
        rw [h2] at hr
        simp only [Res.ok.injEq, Prod.mk.injEq] at hr
        refine ⟨?_, hr.2.symm⟩
        rw [← hr.1]
        unfold getIDByDN at h2
        simp only [run_bind, run_get!] at h2
        cases h : d.tbl .dn2id nParent with
        | none => rw [h] at h2; simp [Bind.bind, Res.bind] at h2; omega
        | some v =>
          obtain ⟨j, h3, h4⟩ := hids nParent v h
          have := decodeId_idToBytes' (n := j) (by omega)
          rw [h] at h2
          simp [Bind.bind, Res.bind, h4, this, lift, run] at h2
          omega
      obtain ⟨hp, rfl⟩ := hp
      split
      · exact Post.fail
      · refine Post.bind (Post.get ?_)
        obtain ⟨cs, h1, h2, -⟩ := L2.children (p := p) (by omega)
        have e1 : encodeIds cs ++ idToBytes (db.seq + 1) = encodeIds (cs ++ [db.seq + 1]) := by rw [encodeIds_append, encodeIds_single]
        rw [h1, e1]
        refine Post.put (fin _ (L2.setChildren (by omega) ?_) (by rw [Db.set_seq]; exact hs))
        intro c hc
        rcases List.mem_append.1 hc with hc | hc
        · exact h2 c hc
        · rw [List.mem_singleton.1 hc]; omega
    · rw [if_neg hb]
      exact fin _ L2 hs

theorem delete_body (L : Links db) (nDN nParent : Str) : Post (entryDeleteBody nDN nParent) db fun _ d => Kept db d := by
  unfold entryDeleteBody
  refine Post.bind (L.getID _ fun i _ => ?_)
  split
  · exact Post.fail
  · refine Post.bind (Post.get ?_)
    split
    · exact Post.fail
    · refine Post.bind (L.getID _ fun p hp => ?_)
      split
      · exact Post.fail
      · refine Post.bind (Post.get ?_)
        obtain ⟨cs, -, h2, h3⟩ := L.children hp
        rw [h3]
        refine Post.bind (Post.put (Post.bind (Post.del (Post.del ?_))))
        have L1 := L.setChildren (p := p) hp (cs := cs.filter (· ≠ i)) (fun c hc => h2 c (List.mem_filter.1 hc).1)
        exact ⟨(L1.setName nDN (v := none) (by simp)).setEntry _ _, by simp, by simp⟩

theorem getEntry (L : Links db) (G : GobEnv) (k : Str) {Q : Entry × Nat → Db → Prop} (h : ∀ e i, i ≤ db.seq → Q (e, i) db) :
    Post (getEntryByDN G k) db Q := by
  unfold getEntryByDN
  refine Post.bind (L.getID _ fun i hi => ?_)
  split
  · exact Post.fail
  · refine Post.bind ?_
    unfold getEntryByID
    refine Post.bind (Post.get ?_)
    split
    · exact Post.fail
    · exact Post.ret (Post.ret (h _ i hi))

theorem modify_body (L : Links db) (C : CaseEnv) (G : GobEnv) (i : Nat) (e : Entry) (dn : Str) (cs : List Change) :
    Post (entryModifyWithTxn C G i e dn cs) db fun _ d => Kept db d ∧ d.seq = db.seq := by
  unfold entryModifyWithTxn
  refine Post.bind (Post.lift fun e' _ => Post.put ⟨⟨L.setEntry _ _, by simp, by simp⟩, by simp⟩)

theorem rename_body (L : Links db) (C : CaseEnv) (G : GobEnv) (old new : Str) (cs : List Change) :
    Post (entryModifyDNBody C G old new cs) db fun _ d => Kept db d := by
  unfold entryModifyDNBody
  refine Post.bind (L.getID _ fun i _ => ?_)
  split
  · exact Post.fail
  · refine Post.bind (L.getEntry G old fun e i hi => ?_)
    refine Post.bind ?_
    unfold getChildrenIDs
    refine Post.bind (Post.get (Post.ret ?_))
    split
    · exact Post.fail
    · refine Post.bind ((L.modify_body C G i _ new cs).mono fun _ d hd => ?_)
      obtain ⟨⟨L1, -, -⟩, hs⟩ := hd
      refine Post.bind (Post.put (Post.del ⟨?_, by simp [hs], by simp [hs]⟩))
      have L2 := L1.setName new (v := some (idToBytes i)) (fun w hw => ⟨i, by omega, (Option.some.inj hw).symm⟩)
      exact L2.setName old (v := none) (by simp)

theorem password_body (L : Links db) (C : CaseEnv) (G : GobEnv) (validate : Str → Str → Res Bool) (nDN : Str) (req : PwModReq) :
    Post (updatePasswordBody C G validate nDN req) db fun _ d => Kept db d := by
  unfold updatePasswordBody
  refine Post.bind (L.getEntry G nDN fun e i hi => ?_)
  have fin : Post (match applyModify C e req.userIdentity [⟨opReplace, sUserPassword, [req.newPassword]⟩] with
      | .ok e' => put! .id2entry (idToBytes i) (G.enc e')
      | .err _ => .fail (.ldap rcOperationsError true)
      | .panic => .panic
      | .hang => .hang) db fun _ d => Kept db d := by
    split
    · exact Post.put ⟨L.setEntry _ _, by simp, by simp⟩
    · exact Post.fail
    · exact Post.panic
    · exact Post.hang
  dsimp only
  split
  · split
    · exact Post.bind (Post.ret fin)
    · exact Post.bind Post.fail
    · exact Post.bind Post.fail
    · exact Post.bind Post.panic
    · exact Post.bind Post.hang
  · exact fin

theorem of_update {α : Type} (L : Links db) {p : Prog α} (h : Post p db fun _ d => Kept db d) : Kept db (update p db).2 := by
  unfold update
  split
  · rename_i a d hr; exact h a d hr
  · exact Kept.same L
  · exact Kept.same L
  · exact Kept.same L

theorem step (L : Links db) (C : CaseEnv) (G : GobEnv) (validate : Str → Str → Res Bool) (base : Str) (hseq : db.seq + 1 < 2 ^ 64)
    (op : Op) : Kept db (boltStep C G validate base db op).2 := by
  cases op with
  | add e =>
    unfold boltStep entryPut
    dsimp only
    split
    · exact Kept.same L
    · exact Kept.same L
    · split
      · exact Kept.same L
      · exact L.of_update (L.put_body G hseq _ _ _ _)
  | delete dn =>
    unfold boltStep entryDelete
    dsimp only
    split
    · exact Kept.same L
    · exact Kept.same L
    · exact L.of_update (L.delete_body _ _)
  | modify dn cs =>
    unfold boltStep entryModify
    dsimp only
    split
    · exact Kept.same L
    · refine L.of_update (Post.bind (L.getEntry G _ fun e i _ => ?_))
      exact (L.modify_body C G i e dn cs).mono fun _ _ h => h.1
  | rename req =>
    unfold boltStep entryModifyDN
    dsimp only
    split
    · exact Kept.same L
    · split
      · exact Kept.same L
      · exact Kept.same L
      · split
        · exact Kept.same L
        · exact L.of_update (L.rename_body C G _ _ _)
  | password req =>
    unfold boltStep updatePassword
    dsimp only
    split
    · exact Kept.same L
    · exact L.of_update (L.password_body C G validate _ req)

theorem run (C : CaseEnv) (G : GobEnv) (validate : Str → Str → Res Bool) (base : Str) : ∀ (ops : List Op) (db : Db), Links db →
    db.seq + ops.length < 2 ^ 64 →
    Links (boltRun C G validate base db ops).2 ∧ (boltRun C G validate base db ops).2.seq ≤ db.seq + ops.length := by
  intro ops
  induction ops with
  | nil => intro db L _; exact ⟨L, Nat.le_refl _⟩
  | cons op ops ih =>
    intro db L hlen
    rw [List.length_cons] at hlen
    obtain ⟨h1, -, h3⟩ := L.step C G validate base (by omega) op
    obtain ⟨g1, g2⟩ := ih _ h1 (by omega)
    exact ⟨g1, by simp only [boltRun, List.length_cons]; omega⟩

/-! ## Searches -/

theorem run_subtree (L : Links db) : ∀ (f : Nat) (p : Nat), p ≤ db.seq → db.seq < p + f →
    ∃ ids, (∀ g, db.seq < p + g → (getSubtreeIDs g p).run db = .ok (ids, db)) := by
  intro f
  induction f with
  | zero => intro p hp h; omega
  | succ f ih =>
    intro p hp hf
    obtain ⟨cs, -, h2, h3⟩ := L.children hp
    -- the loop over the children
    have loop : ∀ l : List Nat, (∀ c ∈ l, p < c ∧ c ≤ db.seq) →
        ∃ out, ∀ g, db.seq < p + (g + 1) → (appendAll (getSubtreeIDs g) l).run db = .ok (out, db) := by
      intro l
      induction l with
      | nil => intro _; exact ⟨[], fun g _ => rfl⟩
      | cons c l ihl =>
        intro hl
        obtain ⟨hc1, hc2⟩ := hl c List.mem_cons_self
        obtain ⟨xs, hx⟩ := ih c hc2 (by omega)
        obtain ⟨ys, hy⟩ := ihl fun c' h' => hl c' (List.mem_cons_of_mem _ h')
        refine ⟨xs ++ ys, fun g hg => ?_⟩
        simp only [appendAll, run_bind, hx g (by omega), Res.ok_bind, hy g hg, run_ret]
    obtain ⟨out, hout⟩ := loop cs h2
    refine ⟨cs ++ out, fun g hg => ?_⟩
    cases g with
    | zero => omega
    | succ g =>
      simp only [getSubtreeIDs, getChildrenIDs, run_bind, run_get!, Res.ok_bind, run_ret, h3, hout g hg]

theorem run_readEntries (G : GobEnv) (db : Db) : ∀ (l : List Nat) (acc : List Entry), ∃ out, (readEntries G acc l).run db = .ok (out, db) := by
  intro l
  induction l with
  | nil => intro acc; exact ⟨_, rfl⟩
  | cons i l ih =>
    intro acc
    simp only [readEntries, run_bind, run_get!, Res.ok_bind]
    split
    · exact ⟨_, rfl⟩
    · exact ih _

/-- A search on such a database ends, and no more depth than there are ids changes the answer. -/
theorem search (L : Links db) (C : CaseEnv) (G : GobEnv) (text : Str) (scope : Nat) :
    ∃ answer, ∀ depth, db.seq < depth → searchFuel C G depth db text scope = .ok answer := by
  unfold searchFuel
  split
  · exact ⟨_, fun _ _ => rfl⟩
  · rename_i nDN _
    obtain ⟨i, hi, hr⟩ := L.run_getID nDN
    obtain ⟨ids, hids⟩ := L.run_subtree (db.seq + 1) i hi (by omega)
    obtain ⟨o1, h1⟩ := run_readEntries G db [i] []
    obtain ⟨o2, h2⟩ := run_readEntries G db (decodeIds ((db.tbl .id2children (idToBytes i)).getD [])) []
    obtain ⟨o3, h3⟩ := run_readEntries G db (i :: ids) []
    have key : ∃ answer, ∀ depth, db.seq < depth → (searchBody G depth nDN scope).run db = .ok (answer, db) := by
      simp only [searchBody, run_bind, hr, Res.ok_bind]
      split
      · exact ⟨_, fun _ _ => rfl⟩
      · split
        · exact ⟨o1, fun _ _ => h1⟩
        · split
          · refine ⟨o2, fun _ _ => ?_⟩
            simp only [getChildrenIDs, run_bind, run_get!, Res.ok_bind, run_ret, h2]
          · split
            · refine ⟨o3, fun d hd => ?_⟩
              simp only [run_bind, hids d (by omega), Res.ok_bind, h3]
            · exact ⟨_, fun _ _ => rfl⟩
    obtain ⟨answer, ha⟩ := key
    exact ⟨answer, fun d hd => by simp only [view, ha d hd]⟩

end Links
end Idm
