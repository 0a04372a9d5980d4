import Verif.Spec.Session
/-!
# Case analysis of one round of the connection loop
-/
namespace Idm

theorem int?_iff {p : Packet} {i : Int} : p.int? = some i ↔ p.val = .int i := by
  unfold Packet.int?
  cases h : p.val <;> simp

theorem str?_iff {p : Packet} {s : Str} : p.str? = some s ↔ p.val = .str s := by
  unfold Packet.str?
  cases h : p.val <;> simp

/-- The cases of `handlePacket`. -/
inductive PktCase {σ : Type} (V : Env) (srv : Srv σ) (o : Oracle) (p : Packet) (bound : Str) (st : σ) : Out σ → Prop
  | closed : PktCase V srv o p bound st ⟨[], .closed, srv.close bound st⟩
  | crash (more) (m req : Packet) : p.kids = m :: req :: more → req.cls = .application →
      (decodeControls V ((more.head?.map Packet.kids).getD []) = .panic ∨ ∃ e, decodeControls V ((more.head?.map Packet.kids).getD []) = .err e) →
      PktCase V srv o p bound st ⟨[], .crash, st⟩
  | hang (more) (m req : Packet) : p.kids = m :: req :: more → req.cls = .application →
      decodeControls V ((more.head?.map Packet.kids).getD []) = .hang → PktCase V srv o p bound st ⟨[], .hang, st⟩
  | addHang (id req) : Message p id req → req.tag = 8 → srv.stats = true → PktCase V srv o p bound st ⟨[], .hang, st⟩
  | add (id req) : Message p id req → req.tag = 8 → srv.stats = false →
      PktCase V srv o p bound st (reply id 9 bound (handleAdd V srv bound req st))
  | bind (id req) : Message p id req → req.tag = 0 → PktCase V srv o p bound st (stepBind V srv id bound req st)
  | compare (id req) : Message p id req → req.tag = 14 →
      PktCase V srv o p bound st ⟨[.result id 14 rcOperationsError], .closed, srv.close bound st⟩
  | delete (id req) : Message p id req → req.tag = 10 → PktCase V srv o p bound st (reply id 11 bound (handleDelete V srv bound req st))
  | extended (id req) : Message p id req → req.tag = 23 → PktCase V srv o p bound st (stepExtended V srv o id bound req st)
  | modifyDN (id req) : Message p id req → req.tag = 12 → PktCase V srv o p bound st (reply id 13 bound (handleModifyDN V srv bound req st))
  | modify (id req) : Message p id req → req.tag = 6 → PktCase V srv o p bound st (reply id 7 bound (handleModify V srv bound req st))
  | search (id req controls) : Message p id req → req.tag = 3 →
      (∃ m more, p.kids = m :: req :: more ∧ decodeControls V ((more.head?.map Packet.kids).getD []) = .ok controls) → PktCase V srv o p bound st (stepSearch V srv id bound req controls st)

theorem handlePacket_cases {σ : Type} (V : Env) (srv : Srv σ) (o : Oracle) (p : Packet) (bound : Str) (st : σ) :
    PktCase V srv o p bound st (handlePacket V srv o p bound st) := by
  unfold handlePacket
  dsimp only
  split
  · rename_i m req more hk
    split
    · exact .closed
    · rename_i id hid
      split
      · exact .closed
      · rename_i hcls
        have hcls : req.cls = .application := Decidable.byContradiction hcls
        have hm : Message p id req := ⟨m, more, hk, int?_iff.1 hid, hcls⟩
        split
        · rename_i h; exact .crash more m req hk hcls (Or.inl h)
        · rename_i h; exact .hang more m req hk hcls h
        · rename_i e h; exact .crash more m req hk hcls (Or.inr ⟨e, h⟩)
        · rename_i controls h
          split
          · rename_i ht
            split
            · rename_i hs; exact .addHang id req hm ht hs
            · rename_i hs; exact .add id req hm ht (by simpa using hs)
          · split
            · rename_i ht; exact .bind id req hm ht
            · split
              · rename_i ht; exact .compare id req hm ht
              · split
                · rename_i ht; exact .delete id req hm ht
                · split
                  · rename_i ht; exact .extended id req hm ht
                  · split
                    · rename_i ht; exact .modifyDN id req hm ht
                    · split
                      · rename_i ht; exact .modify id req hm ht
                      · split
                        · rename_i ht; exact .search id req controls hm ht ⟨m, more, hk, h⟩
                        · exact .closed
  · exact .closed

theorem message_unique {p : Packet} {i j : Int} {r s : Packet} (h : Message p i r) (h' : Message p j s) : i = j ∧ r = s := by
  obtain ⟨m, more, h1, h2, -⟩ := h
  obtain ⟨m', more', h1', h2', -⟩ := h'
  rw [h1] at h1'
  cases h1'
  rw [h2] at h2'
  cases h2'
  exact ⟨rfl, rfl⟩

/-- What `reply` can be. -/
theorem reply_cases {σ : Type} (id : Int) (tag : Nat) (bound : Str) (x : Res Nat × σ) :
    (∃ code, reply id tag bound x = ⟨[.result id tag code], .go bound, x.2⟩ ∧ (x.1 = .ok code ∨ ∃ e, x.1 = .err e ∧ code = rcOperationsError)) ∨
    (reply id tag bound x = ⟨[], .crash, x.2⟩ ∧ x.1 = .panic) ∨ (reply id tag bound x = ⟨[], .hang, x.2⟩ ∧ x.1 = .hang) := by
  obtain ⟨r, st⟩ := x
  cases r with
  | ok c => exact Or.inl ⟨c, rfl, Or.inl rfl⟩
  | err e => exact Or.inl ⟨_, rfl, Or.inr ⟨e, rfl, rfl⟩⟩
  | panic => exact Or.inr (Or.inl ⟨rfl, rfl⟩)
  | hang => exact Or.inr (Or.inr ⟨rfl, rfl⟩)

/-- What `stepBind` can be. -/
theorem stepBind_cases {σ : Type} (V : Env) (srv : Srv σ) (id : Int) (bound : Str) (req : Packet) (st : σ) :
    (∃ code, stepBind V srv id bound req st = ⟨[.result id 1 code], .go bound, (handleBind srv req st).2⟩ ∧ code ≠ 0 ∧
      (handleBind srv req st).1 = .ok code) ∨
    (∃ d dn b, stepBind V srv id bound req st = ⟨[.result id 1 0], .go b, (handleBind srv req st).2⟩ ∧ req.kids[1]? = some d ∧
      d.val = .str dn ∧ parseNormalize V.C dn = some b ∧ (handleBind srv req st).1 = .ok 0) ∨
    stepBind V srv id bound req st = ⟨[], .closed, srv.close [] (handleBind srv req st).2⟩ ∨
    (stepBind V srv id bound req st = ⟨[], .crash, (handleBind srv req st).2⟩) ∨
    (stepBind V srv id bound req st = ⟨[], .hang, (handleBind srv req st).2⟩ ∧ (handleBind srv req st).1 = .hang) := by
  unfold stepBind
  rcases hb : handleBind srv req st with ⟨r, st'⟩
  cases r with
  | panic => simp
  | hang => simp
  | err e => simp
  | ok code =>
    dsimp only
    by_cases hc : code = rcSuccess
    · rw [if_pos hc]
      cases hk : req.kids[1]? with
      | none => simp
      | some d =>
        dsimp only
        cases hs : d.str? with
        | none => simp
        | some dn =>
          dsimp only
          cases hn : parseNormalize V.C dn with
          | none => simp
          | some b => exact Or.inr (Or.inl ⟨d, dn, b, by rw [hc]; rfl, rfl, str?_iff.1 hs, hn, by rw [hc]; rfl⟩)
    · rw [if_neg hc]
      exact Or.inl ⟨code, rfl, hc, rfl⟩

/-- What `stepExtended` can be. -/
theorem stepExtended_cases {σ : Type} (V : Env) (srv : Srv σ) (o : Oracle) (id : Int) (bound : Str) (req : Packet) (st : σ) :
    let x := handleExtended V srv o bound req st
    (stepExtended V srv o id bound req st = ⟨[.result id 24 rcOperationsError], .go bound, x.2⟩ ∧ (x.1 = .ok .failed ∨ ∃ e, x.1 = .err e)) ∨
    (∃ code oid gen, stepExtended V srv o id bound req st = ⟨[.extended id code oid gen], .go bound, x.2⟩ ∧ x.1 = .ok (.done code oid gen)) ∨
    (stepExtended V srv o id bound req st = ⟨[], .crash, x.2⟩ ∧ x.1 = .panic) ∨
    (stepExtended V srv o id bound req st = ⟨[], .hang, x.2⟩ ∧ x.1 = .hang) := by
  intro x
  unfold stepExtended
  rcases hx : handleExtended V srv o bound req st with ⟨r, st'⟩
  have hx' : x = (r, st') := hx
  rw [hx']
  cases r with
  | panic => simp
  | hang => simp
  | err e => simp [appExtendedResponse]
  | ok a =>
    cases a with
    | failed => simp [appExtendedResponse]
    | done code oid gen => exact Or.inr (Or.inl ⟨code, oid, gen, rfl, rfl⟩)

/-- What `stepSearch` can be. -/
theorem stepSearch_cases {σ : Type} (V : Env) (srv : Srv σ) (id : Int) (bound : Str) (req : Packet) (controls : List Control) (st : σ) :
    let x := handleSearch V srv bound req controls st
    (∃ out, x.1.2 = .ok out ∧ out.failed = false ∧ stepSearch V srv id bound req controls st =
      ⟨out.sent.map (.entry id) ++ [.searchDone id out.code out.controls], .go bound, x.2⟩) ∨
    (∃ out, x.1.2 = .ok out ∧ out.failed = true ∧ stepSearch V srv id bound req controls st =
      ⟨out.sent.map (.entry id) ++ [.searchDone id out.code out.controls], .closed, srv.close bound x.2⟩) ∨
    (∃ sent : List Entry, stepSearch V srv id bound req controls st = ⟨sent.map (.entry id), .crash, x.2⟩ ∧ (x.1.2 = .panic ∨ ∃ e, x.1.2 = .err e)) ∨
    (∃ sent : List Entry, stepSearch V srv id bound req controls st = ⟨sent.map (.entry id), .hang, x.2⟩ ∧ x.1.2 = .hang) := by
  intro x
  unfold stepSearch
  rcases hx : handleSearch V srv bound req controls st with ⟨⟨before, r⟩, st'⟩
  have hx' : x = ((before, r), st') := hx
  rw [hx']
  cases r with
  | panic => exact Or.inr (Or.inr (Or.inl ⟨before, rfl, Or.inl rfl⟩))
  | hang => exact Or.inr (Or.inr (Or.inr ⟨before, rfl, rfl⟩))
  | err e => exact Or.inr (Or.inr (Or.inl ⟨before, rfl, Or.inr ⟨e, rfl⟩⟩))
  | ok out =>
    cases hf : out.failed with
    | true => exact Or.inr (Or.inl ⟨out, rfl, hf, by simp [hf]⟩)
    | false => exact Or.inl ⟨out, rfl, hf, by simp [hf]⟩

end Idm
