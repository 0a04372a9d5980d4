import Verif.Proofs.BoltSearch
/-! Induction over histories. -/
namespace Idm
open Dir

variable {C : CaseEnv} {G : GobEnv} {base : DN} {validate : Str → Str → Res Bool}

theorem sim_run (hC : C.Lawful) (hG : G.Lawful) (hb : BaseOk C base) : ∀ (ops : List Op) (db : Db) (ns : List INode),
    Rel C G base db ns → (∀ op ∈ ops, op.Ok C) → db.seq + ops.length < 2 ^ 64 →
    ∃ ns', (boltRun C G validate (render base) db ops).1 = (specRun C validate base (dirOf ns) ops).1 ∧
      (specRun C validate base (dirOf ns) ops).2 = dirOf ns' ∧
      Rel C G base (boltRun C G validate (render base) db ops).2 ns' ∧
      db.seq ≤ (boltRun C G validate (render base) db ops).2.seq ∧
      (boltRun C G validate (render base) db ops).2.seq ≤ db.seq + ops.length ∧
      ∀ n ∈ ns', (∃ m ∈ ns, m.id = n.id) ∨ db.seq < n.id := by
  intro ops
  induction ops with
  | nil => intro db ns R _ _; exact ⟨ns, rfl, rfl, R, Nat.le_refl _, Nat.le_refl _, fun n h => .inl ⟨n, h, rfl⟩⟩
  | cons op ops ih =>
    intro db ns R hok hlen
    rw [List.length_cons] at hlen
    obtain ⟨ns1, h1, h2, h3, h4, h5, -, h6⟩ := sim_step hC hG hb validate R (by omega) op (hok op List.mem_cons_self)
    obtain ⟨ns2, g1, g2, g3, g4, g5, g6⟩ := ih _ ns1 h3 (fun o ho => hok o (List.mem_cons_of_mem _ ho)) (by omega)
    refine ⟨ns2, ?_, ?_, g3, Nat.le_trans h4 g4, ?_, ?_⟩
    · simp only [boltRun, specRun]; rw [h1, h2, g1]
    · simp only [specRun]; rw [h2, g2]
    · simp only [boltRun, List.length_cons]; omega
    · intro n hn
      rcases g6 n hn with ⟨m, hm, e⟩ | h
      · rcases h6 m hm with ⟨m', hm', e'⟩ | h
        · exact .inl ⟨m', hm', e'.trans e⟩
        · right; omega
      · right; omega

theorem sim_run_empty (hC : C.Lawful) (hG : G.Lawful) (hb : BaseOk C base) (ops : List Op) (hok : ∀ op ∈ ops, op.Ok C)
    (hlen : ops.length < 2 ^ 64) :
    ∃ ns, (boltRun C G validate (render base) Db.empty ops).1 = (specRun C validate base [] ops).1 ∧
      (specRun C validate base [] ops).2 = dirOf ns ∧
      Rel C G base (boltRun C G validate (render base) Db.empty ops).2 ns ∧
      (boltRun C G validate (render base) Db.empty ops).2.seq ≤ ops.length := by
  obtain ⟨ns, h1, h2, h3, -, h5, -⟩ := sim_run (validate := validate) hC hG hb ops Db.empty [] Rel.empty hok
    (by simpa [Db.empty] using hlen)
  exact ⟨ns, h1, h2, h3, by simpa [Db.empty] using h5⟩

theorem boltRun_append (base : Str) (db : Db) (xs ys : List Op) :
    boltRun C G validate base db (xs ++ ys) =
      ((boltRun C G validate base db xs).1 ++ (boltRun C G validate base (boltRun C G validate base db xs).2 ys).1,
        (boltRun C G validate base (boltRun C G validate base db xs).2 ys).2) := by
  induction xs generalizing db with
  | nil => rfl
  | cons x xs ih => simp only [List.cons_append, boltRun]; rw [ih]

theorem specRun_append (d : Dir) (xs ys : List Op) :
    specRun C validate base d (xs ++ ys) =
      ((specRun C validate base d xs).1 ++ (specRun C validate base (specRun C validate base d xs).2 ys).1,
        (specRun C validate base (specRun C validate base d xs).2 ys).2) := by
  induction xs generalizing d with
  | nil => rfl
  | cons x xs ih => simp only [List.cons_append, specRun]; rw [ih]

end Idm
