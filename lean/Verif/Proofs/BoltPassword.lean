import Verif.Spec.BoltServer
import Verif.Props.Bolt
import Verif.Props.Modify
/-!
# What a successful password change of the store does
-/
namespace Idm
open Dir

section
variable {C : CaseEnv} {G : GobEnv} {base : DN} {validate : Str → Str → Res Bool} {db : Db} {ns : List INode}

theorem run_getID_text_none (R : Rel C G base db ns) {s : Str} (h : ¬ ∃ n ∈ ns, render n.name = s) :
    (getIDByDN s).run db = .ok (0, db) := by
  have : db.tbl .dn2id s = none := by
    cases e : db.tbl .dn2id s with
    | none => rfl
    | some v =>
      obtain ⟨n, hn, h1, -⟩ := (R.dn2id _ _).1 e
      exact absurd ⟨n, hn, h1⟩ h
  simp [getIDByDN, Prog.run_bind, this]

/-- The result of a password change, whatever the text of the user name. -/
theorem updatePassword_eq (hG : G.Lawful) (R : Rel C G base db ns) (req : PwModReq) :
    (∃ n0 ∈ ns, parseNormalize C req.userIdentity = some (render n0.name) ∧
      ((∃ e', (req.oldPassword = [] ∨ validate req.oldPassword (getVal C n0.entry.attrs sUserPassword) = .ok true) ∧
        applyModify C n0.entry req.userIdentity [⟨opReplace, sUserPassword, [req.newPassword]⟩] = .ok e' ∧
        updatePassword C G validate db req = (.ok (), db.set .id2entry (idToBytes n0.id) (some (G.enc e')))) ∨
       ((updatePassword C G validate db req).1 ≠ .ok () ∧
        ¬ ((req.oldPassword = [] ∨ validate req.oldPassword (getVal C n0.entry.attrs sUserPassword) = .ok true) ∧
          ∃ e', applyModify C n0.entry req.userIdentity [⟨opReplace, sUserPassword, [req.newPassword]⟩] = .ok e')))) ∨
    ((¬ ∃ n ∈ ns, parseNormalize C req.userIdentity = some (render n.name)) ∧ (updatePassword C G validate db req).1 ≠ .ok ()) := by
  unfold updatePassword
  cases hp : parseNormalize C req.userIdentity with
  | none => right; simp
  | some s =>
    by_cases h : ∃ n ∈ ns, render n.name = s
    · obtain ⟨n0, hn0, e0⟩ := h
      left
      refine ⟨n0, hn0, by rw [e0], ?_⟩
      have hg := R.run_getEntryByDN hG hn0
      rw [e0] at hg
      have main : ∀ p : Prog Unit, p.run db = .ok ((), db) →
          ∀ body : Prog Unit, body = (do
            let __discr ← getEntryByDN G s
            p
            match applyModify C __discr.1 req.userIdentity [⟨opReplace, sUserPassword, [req.newPassword]⟩] with
            | .ok e' => Prog.put! .id2entry (idToBytes __discr.2) (G.enc e')
            | .err _ => Prog.fail (.ldap rcOperationsError true)
            | .panic => Prog.panic
            | .hang => Prog.hang) →
          (∃ e', applyModify C n0.entry req.userIdentity [⟨opReplace, sUserPassword, [req.newPassword]⟩] = .ok e' ∧
            update body db = (.ok (), db.set .id2entry (idToBytes n0.id) (some (G.enc e')))) ∨
          ((update body db).1 ≠ .ok () ∧
            ¬ ∃ e', applyModify C n0.entry req.userIdentity [⟨opReplace, sUserPassword, [req.newPassword]⟩] = .ok e') := by
        rintro p hpr body rfl
        cases hm : applyModify C n0.entry req.userIdentity [⟨opReplace, sUserPassword, [req.newPassword]⟩] with
        | ok e' =>
          left
          refine ⟨e', rfl, ?_⟩
          rw [update_of_ok (a := ()) (by simp only [Prog.run_bind, hg, Res.ok_bind, hpr, hm, Prog.run_put!_id]; rfl)]
        | err x =>
          right
          rw [update_of_err (e := .ldap rcOperationsError true) (by
            simp only [Prog.run_bind, hg, Res.ok_bind, hpr, hm, Prog.run_fail])]
          simp
        | panic =>
          right
          rw [update_of_panic (by simp only [Prog.run_bind, hg, Res.ok_bind, hpr, hm, Prog.run_panic])]
          simp
        | hang =>
          right
          rw [update_of_hang (by simp only [Prog.run_bind, hg, Res.ok_bind, hpr, hm, Prog.run_hang])]
          simp
      by_cases ho : req.oldPassword = []
      · rcases main (Prog.ret ()) rfl (updatePasswordBody C G validate s req) (by simp [updatePasswordBody, ho]; rfl) with ⟨e', h1, h2⟩ | ⟨h1, h2⟩
        · exact Or.inl ⟨e', Or.inl ho, h1, h2⟩
        · exact Or.inr ⟨h1, fun h => h2 h.2⟩
      · by_cases hv : validate req.oldPassword (getVal C n0.entry.attrs sUserPassword) = .ok true
        · have hb : (updatePasswordBody C G validate s req).run db = (do
            let __discr ← getEntryByDN G s
            Prog.ret ()
            match applyModify C __discr.1 req.userIdentity [⟨opReplace, sUserPassword, [req.newPassword]⟩] with
            | .ok e' => Prog.put! .id2entry (idToBytes __discr.2) (G.enc e')
            | .err _ => Prog.fail (.ldap rcOperationsError true)
            | .panic => Prog.panic
            | .hang => Prog.hang).run db := by
            unfold updatePasswordBody
            simp only [Prog.run_bind, hg, Res.ok_bind, if_pos ho, hv]
            rfl
          have hu : update (updatePasswordBody C G validate s req) db = update (do
            let __discr ← getEntryByDN G s
            Prog.ret ()
            match applyModify C __discr.1 req.userIdentity [⟨opReplace, sUserPassword, [req.newPassword]⟩] with
            | .ok e' => Prog.put! .id2entry (idToBytes __discr.2) (G.enc e')
            | .err _ => Prog.fail (.ldap rcOperationsError true)
            | .panic => Prog.panic
            | .hang => Prog.hang) db := by
            unfold update
            rw [hb]
          rcases main (Prog.ret ()) rfl _ rfl with ⟨e', h1, h2⟩ | ⟨h1, h2⟩
          · exact Or.inl ⟨e', Or.inr hv, h1, by rw [← h2]; exact hu⟩
          · refine Or.inr ⟨?_, fun h => h2 h.2⟩
            dsimp only
            rw [hu]
            exact h1
        · right
          refine ⟨?_, fun h => ?_⟩
          · dsimp only
            have : ∀ u d, (updatePasswordBody C G validate s req).run db ≠ .ok (u, d) := by
              intro u d
              unfold updatePasswordBody
              simp only [Prog.run_bind, hg, Res.ok_bind, if_pos ho]
              cases hx : validate req.oldPassword (getVal C n0.entry.attrs sUserPassword) with
              | ok b => cases b with
                | true => exact absurd hx hv
                | false => simp [Prog.run_bind]
              | err x => simp [Prog.run_bind]
              | panic => simp [Prog.run_bind]
              | hang => simp [Prog.run_bind]
            unfold update
            split
            · rename_i a db' e; exact absurd e (this _ _)
            all_goals simp
          · rcases h.1 with h | h
            · exact ho h
            · exact hv h
    · right
      refine ⟨fun ⟨n, hn, e⟩ => h ⟨n, hn, by simpa using e.symm⟩, ?_⟩
      dsimp only
      have : (updatePasswordBody C G validate s req).run db = .err .notFound := by
        unfold updatePasswordBody
        simp [Prog.run_bind, getEntryByDN, run_getID_text_none R h]
      rw [update_of_err this]
      simp

/-- A successful password change replaces one entry by one that differs only in `userPassword`. -/
theorem password_effect (hG : G.Lawful) (R : Rel C G base db ns) {req : PwModReq} {db' : Db}
    (h : updatePassword C G validate db req = (.ok (), db')) :
    ∃ n0 ∈ ns, ∃ e' ns', parseNormalize C req.userIdentity = some (render n0.name) ∧ SameButPassword C n0.entry e' ∧
      dirOf ns' = (dirOf ns).setEntry n0.name e' ∧ Rel C G base db' ns' ∧ db'.seq = db.seq := by
  rcases updatePassword_eq (validate := validate) hG R req with ⟨n0, hn0, hp, ⟨e', -, h2, h3⟩ | ⟨h3, -⟩⟩ | ⟨-, h3⟩
  · rw [h] at h3
    simp only [Prod.mk.injEq, true_and] at h3
    obtain ⟨ns', -, h4, h5, -⟩ := sim_set R hn0 e'
    refine ⟨n0, hn0, e', ns', hp, ?_, h4.symm, by rw [h3]; exact h5, by rw [h3]; simp⟩
    obtain ⟨h6, h7⟩ := C16_modify_touches_only_named C _ _ _ _ h2
    refine ⟨h6, ?_⟩
    have hq : ∀ a : Attr, (decide (C.fold a.name ≠ C.fold sUserPassword) = decide (¬ Named C [⟨opReplace, sUserPassword, [req.newPassword]⟩] a)) := by
      intro a
      rw [decide_eq_decide]
      simp [Named, eq_comm]
    simp only [hq]
    exact h7
  · rw [h] at h3; exact absurd rfl h3
  · rw [h] at h3; exact absurd rfl h3

end
end Idm
