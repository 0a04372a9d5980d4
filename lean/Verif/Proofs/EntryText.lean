import Verif.Props.Bolt
import Verif.Proofs.Entry
/-!
# The DN text stored in an entry names the entry
-/
namespace Idm
open Dir

section
variable {C : CaseEnv} {validate : Str → Str → Res Bool} {base : DN}

/-- If the DN text of the entry parses then it is the name of the node. -/
def TextOf (C : CaseEnv) (n : Node) : Prop := ∀ name, parseDN C n.entry.dn = some name → foldDN C name = n.name

theorem specStep_text (hC : C.Lawful) {d : Dir} (hd : ∀ n ∈ d, TextOf C n) (op : Op) (hop : op.Ok C) :
    ∀ n ∈ (specStep C validate base d op).2, TextOf C n := by
  have hget : ∀ k e, d.get k = some e → TextOf C ⟨k, e⟩ := by
    intro k e h
    unfold Dir.get at h
    obtain ⟨n, hn, he⟩ := Option.map_eq_some_iff.1 h
    have h1 := List.find?_some hn
    have h2 := hd n (List.mem_of_find?_eq_some hn)
    simp at h1
    rw [← h1, ← he]
    exact h2
  have hset : ∀ k e e0, d.get k = some e0 → e.dn = e0.dn → ∀ n ∈ d.setEntry k e, TextOf C n := by
    intro k e e0 h0 hdn n hn
    obtain ⟨m, hm, rfl⟩ := List.mem_map.1 hn
    split
    · intro name hp
      rw [hdn] at hp
      exact hget k e0 h0 name hp
    · exact hd m hm
  cases op with
  | add e =>
    simp only [specStep]
    split
    · exact hd
    · rename_i name hname
      simp only [specAdd]
      split
      · exact hd
      · simp only [specAddAt]
        split
        · exact hd
        · split
          · exact hd
          · split
            · exact hd
            · split
              · exact hd
              · intro n hn
                rcases List.mem_append.1 hn with hn | hn
                · exact hd n hn
                · simp at hn
                  subst hn
                  intro m hm
                  dsimp only at hm ⊢
                  unfold parseDN at hm
                  unfold entryPutDN at hname
                  cases hr : parseDNRes C e.dn with
                  | fail p => rw [hr] at hm; cases hm
                  | ok x =>
                    rw [hr] at hm hname
                    cases hm
                    cases hname
                    rfl
  | delete dn =>
    simp only [specStep]
    split
    · exact hd
    · simp only [specDelete]
      split
      · exact hd
      · simp only [specDeleteAt]
        split
        · exact hd
        · split
          · exact hd
          · split
            · exact hd
            · intro n hn; exact hd n (List.mem_filter.1 hn).1
  | modify dn cs =>
    simp only [specStep]
    split
    · exact hd
    · simp only [specModify, specModifyAt]
      split
      · exact hd
      · rename_i e0 h0
        split
        · rename_i e' he'
          obtain ⟨_, _, _, _, _, _, hdn, _⟩ := applyModify_ok he'
          exact hset _ _ e0 h0 hdn
        all_goals exact hd
  | password req =>
    simp only [specStep]
    split
    · exact hd
    · simp only [specPassword, specPasswordAt]
      split
      · exact hd
      · rename_i e0 h0
        split
        · split
          · rename_i e' he'
            obtain ⟨_, _, _, _, _, _, hdn, _⟩ := applyModify_ok he'
            exact hset _ _ e0 h0 hdn
          all_goals exact hd
        all_goals exact hd
  | rename req =>
    simp only [specStep]
    split
    · exact hd
    · exact hd
    · exact hd
    · exact hd
    · rename_i o p n q ho hn
      simp only [specRename, specRenameAt]
      split
      · exact hd
      · split
        · exact hd
        · rename_i e0 h0
          split
          · exact hd
          · split
            · rename_i e' he'
              obtain ⟨_, _, _, _, _, _, hdn, _⟩ := applyModify_ok he'
              split
              · exact hd
              · intro m hm
                obtain ⟨x, hx, rfl⟩ := List.mem_map.1 hm
                split
                · intro name hp
                  dsimp only at hp hdn ⊢
                  have hok : NameOk (n :: p) := by
                    intro r hr
                    rcases List.mem_cons.1 hr with rfl | hr
                    · exact hop.2 _ hn r (by simp)
                    · exact hop.1 _ ho r (by simp [hr])
                  rw [hdn] at hp
                  have hk : EndOk (foldDN C (n :: p)) := Decidable.byContradiction fun hk => by
                    rw [parseDN_render_blank hC _ (foldDN_nameOk hC hok) hk] at hp; cases hp
                  rw [parseDN_render hC _ (foldDN_nameOk hC hok) hk] at hp
                  cases hp
                  exact foldDN_idem hC _
                · exact hd x hx
            all_goals exact hd

/-- If the texts of all added entries parse then so do those of all entries. -/
theorem specStep_parse {d : Dir} (hd : ∀ n ∈ d, (parseDN C n.entry.dn).isSome = true) (op : Op)
    (hop : ∀ e, op = .add e → (parseDN C e.dn).isSome = true) :
    ∀ n ∈ (specStep C validate base d op).2, (parseDN C n.entry.dn).isSome = true := by
  have hset : ∀ (k k' : DN) (e : Entry), (parseDN C e.dn).isSome = true → ∀ n ∈ d.rename k k' e, (parseDN C n.entry.dn).isSome = true := by
    intro k k' e he n hn
    obtain ⟨m, hm, rfl⟩ := List.mem_map.1 hn
    split
    · exact he
    · exact hd m hm
  have hmod : ∀ {e e' : Entry} {t : Str} {cs : List Change}, applyModify C e t cs = .ok e' → (parseDN C e'.dn).isSome = true := by
    intro e e' t cs h
    obtain ⟨_, _, _, h1, _, _, h2, _⟩ := applyModify_ok h
    rw [h2, h1]
    rfl
  cases op with
  | add e =>
    simp only [specStep, specAdd, specAddAt]
    repeat' split
    all_goals first
      | exact hd
      | (intro n hn
         rcases List.mem_append.1 hn with hn | hn
         · exact hd n hn
         · simp at hn
           subst hn
           exact hop e rfl)
  | delete dn =>
    simp only [specStep, specDelete, specDeleteAt]
    repeat' split
    all_goals first
      | exact hd
      | (intro n hn; exact hd n (List.mem_filter.1 hn).1)
  | modify dn cs =>
    simp only [specStep, specModify, specModifyAt]
    repeat' split
    all_goals first
      | exact hd
      | (rename_i h; exact hset _ _ _ (hmod h))
  | password req =>
    simp only [specStep, specPassword, specPasswordAt]
    repeat' split
    all_goals first
      | exact hd
      | (rename_i h; exact hset _ _ _ (hmod h))
  | rename req =>
    simp only [specStep, specRename, specRenameAt]
    repeat' split
    all_goals first
      | exact hd
      | (rename_i h _; exact hset _ _ _ (hmod h))

theorem specRun_parse : ∀ (ops : List Op) (d : Dir), (∀ n ∈ d, (parseDN C n.entry.dn).isSome = true) →
    (∀ e, Op.add e ∈ ops → (parseDN C e.dn).isSome = true) →
    ∀ n ∈ (specRun C validate base d ops).2, (parseDN C n.entry.dn).isSome = true := by
  intro ops
  induction ops with
  | nil => intro d hd _; exact hd
  | cons op ops ih =>
    intro d hd hok
    simp only [specRun]
    exact ih _ (specStep_parse hd op fun e he => hok e (by simp [he])) fun e he => hok e (by simp [he])

theorem specRun_text (hC : C.Lawful) : ∀ (ops : List Op) (d : Dir), (∀ n ∈ d, TextOf C n) → (∀ op ∈ ops, op.Ok C) →
    ∀ n ∈ (specRun C validate base d ops).2, TextOf C n := by
  intro ops
  induction ops with
  | nil => intro d hd _; exact hd
  | cons op ops ih =>
    intro d hd hok
    simp only [specRun]
    exact ih _ (specStep_text hC hd op (hok op (by simp))) fun x hx => hok x (by simp [hx])

theorem dirAfter_text (hC : C.Lawful) (ops : List Op) (h : HistOk C ops) : ∀ n ∈ dirAfter C validate base ops, TextOf C n :=
  specRun_text hC ops [] (by simp) h.ok

end
end Idm
