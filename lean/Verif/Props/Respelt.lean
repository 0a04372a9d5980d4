import Verif.Spec.Respelt
import Verif.Props.Repeat
import Verif.Props.BoltFind
import Verif.Props.BoltPw
/-!
# C113: names may be written in any way
-/
namespace Idm

section
variable {C : CaseEnv} {validate : Str → Str → Res Bool} {base : DN}

/-! ## Changes -/

theorem sameRdn_trans (hC : C.Lawful) {r s t : RDN} (h : SameRdn C r s) (h' : SameRdn C s t) : SameRdn C r t := by
  refine ⟨h.1.trans h'.1, fun a ha => ?_, fun c hc => ?_⟩
  · obtain ⟨b, hb, e1, e2⟩ := h.2.1 a ha
    obtain ⟨c, hc, f1, f2⟩ := h'.2.1 b hb
    exact ⟨c, hc, hC.eqFold_trans _ _ _ e1 f1, hC.eqFold_trans _ _ _ e2 f2⟩
  · obtain ⟨b, hb, e1, e2⟩ := h'.2.2 c hc
    obtain ⟨a, ha, f1, f2⟩ := h.2.2 b hb
    exact ⟨a, ha, hC.eqFold_trans _ _ _ e1 f1, hC.eqFold_trans _ _ _ e2 f2⟩

theorem sameRdn_symm (hC : C.Lawful) {r s : RDN} (h : SameRdn C r s) : SameRdn C s r :=
  ⟨h.1.symm, fun a ha => let ⟨b, hb, e⟩ := h.2.2 a ha; ⟨b, hb, e⟩, fun b hb => let ⟨a, ha, e⟩ := h.2.1 b hb; ⟨a, ha, e⟩⟩

theorem sameDn_trans (hC : C.Lawful) {p q r : DN} (h : SameDn C p q) (h' : SameDn C q r) : SameDn C p r := by
  refine ⟨h.1.trans h'.1, fun i a c ha hc => ?_⟩
  have hi : i < q.length := by
    have := (List.getElem?_eq_some_iff.1 ha).1
    rw [h.1] at this; exact this
  exact sameRdn_trans hC (h.2 i a q[i] ha (List.getElem?_eq_getElem hi)) (h'.2 i q[i] c (List.getElem?_eq_getElem hi) hc)

theorem sameDn_symm (hC : C.Lawful) {p q : DN} (h : SameDn C p q) : SameDn C q p :=
  ⟨h.1.symm, fun i a b ha hb => sameRdn_symm hC (h.2 i b a hb ha)⟩

theorem dnEqFold_respelt (hC : C.Lawful) {p q : DN} (h : SameDn C p q) (x : DN) : dnEqFold C x p = dnEqFold C x q := by
  rw [Bool.eq_iff_iff, dnEqFold_iff, dnEqFold_iff]
  exact ⟨fun g => sameDn_trans hC g h, fun g => sameDn_trans hC g (sameDn_symm hC h)⟩

theorem respelt_parts (hC : C.Lawful) {a b : Str} (h : Respelt C a b) :
    ∃ n m, parseDN C a = some n ∧ parseDN C b = some m ∧ foldDN C n = foldDN C m ∧ SameDn C n m := by
  obtain ⟨n, m, h1, h2, h3, h4⟩ := h
  have := (sameName_iff_foldDN n m).1 h3
  exact ⟨n, m, h1, h2, this, sameDn_of_fold hC h4 this⟩

theorem applyModify_respelt (hC : C.Lawful) {a b : Str} (h : Respelt C a b) (e : Entry) (cs : List Change) :
    applyModify C e a cs = applyModify C e b cs := by
  obtain ⟨n, m, h1, h2, -, h4⟩ := respelt_parts hC h
  unfold applyModify
  rw [h1, h2]
  cases parseDN C e.dn with
  | none => rfl
  | some p =>
    cases p with
    | nil => rfl
    | cons r p => simp only [dnEqFold_respelt hC h4]

theorem applyChange_delete_congr (rdn : RDN) (old as : List Attr) (t v w : Str) (h : C.fold v = C.fold w) :
    applyChange C rdn old as ⟨opDelete, t, [v]⟩ = applyChange C rdn old as ⟨opDelete, t, [w]⟩ := by
  unfold applyChange deleteRefused entryApplyModDelete
  simp only [List.any_cons, List.any_nil, h]
  rfl

theorem applyChanges_delete_congr (rdn : RDN) (old : List Attr) (tail : List Change) : ∀ (o o' : RDN) (as : List Attr),
    o.map AVA.typ = o'.map AVA.typ → o.map (fun a => C.fold a.val) = o'.map (fun a => C.fold a.val) →
    applyChanges C rdn old as ((o.map fun a => ⟨opDelete, a.typ, [a.val]⟩) ++ tail) =
      applyChanges C rdn old as ((o'.map fun a => ⟨opDelete, a.typ, [a.val]⟩) ++ tail) := by
  intro o
  induction o with
  | nil =>
    intro o' as h1 h2
    cases o' with
    | nil => rfl
    | cons _ _ => simp at h1
  | cons x o ih =>
    intro o' as h1 h2
    cases o' with
    | nil => simp at h1
    | cons y o' =>
      simp only [List.map_cons, List.cons.injEq] at h1 h2
      simp only [List.map_cons, List.cons_append, applyChanges]
      rw [h1.1, applyChange_delete_congr rdn old as y.typ x.val y.val h2.1]
      cases applyChange C rdn old as ⟨opDelete, y.typ, [y.val]⟩ with
      | ok as1 => exact ih o' as1 h1.2 h2.2
      | err _ => rfl
      | panic => rfl
      | hang => rfl

/-! ## Calls -/

theorem specStep_respelt (hC : C.Lawful) {op op' : Op} (h : SameCall C op op') (d : Dir) :
    specStep C validate base d op = specStep C validate base d op' := by
  cases h with
  | add e => rfl
  | delete a b h =>
    obtain ⟨n, m, h1, h2, h3, h4⟩ := respelt_parts hC h
    have hn : n = [] ↔ m = [] := by rw [← List.length_eq_zero_iff, h4.1, List.length_eq_zero_iff]
    simp only [specStep, h1, h2, specDelete, hn, h3]
  | modify a b cs h =>
    have hm := applyModify_respelt hC h
    obtain ⟨n, m, h1, h2, h3, h4⟩ := respelt_parts hC h
    simp only [specStep, h1, h2, specModify, specModifyAt, h3, hm]
  | password a b old new h =>
    have hm := applyModify_respelt hC h
    obtain ⟨n, m, h1, h2, h3, h4⟩ := respelt_parts hC h
    simp only [specStep, h1, h2, specPassword, specPasswordAt, h3, hm]
  | rename a b new del h ht =>
    obtain ⟨n, m, h1, h2, h3, h4⟩ := respelt_parts hC h
    have ht := ht n m h1 h2
    simp only [specStep, h1, h2]
    cases hq : parseDN C new with
    | none => rfl
    | some q =>
      cases q with
      | nil => rfl
      | cons q qs =>
        cases n with
        | nil =>
          cases m with
          | nil => rfl
          | cons _ _ => simp [foldDN] at h3
        | cons o p =>
          cases m with
          | nil => simp [foldDN] at h3
          | cons o' p' =>
            simp only [foldDN, List.map_cons, List.cons.injEq] at h3
            have hk : foldDN C (o :: p) = foldDN C (o' :: p') := by simp only [foldDN, List.map_cons, h3.1, h3.2]
            have hk' : foldDN C (q :: p) = foldDN C (q :: p') := by simp only [foldDN, List.map_cons, h3.2]
            have ht : o.map AVA.typ = o'.map AVA.typ := by simpa using ht
            have hv : o.map (fun a => C.fold a.val) = o'.map (fun a => C.fold a.val) := by
              have := congrArg (List.map AVA.val) h3.1
              simpa [Function.comp_def] using this
            dsimp only
            simp only [specRename, specRenameAt, hk, hk']
            have hm : ∀ e d, applyModify C e d
                  ((if del then o.map fun a => ⟨opDelete, a.typ, [a.val]⟩ else []) ++ q.map fun a => ⟨opAdd, a.typ, [a.val]⟩) =
                applyModify C e d
                  ((if del then o'.map fun a => ⟨opDelete, a.typ, [a.val]⟩ else []) ++ q.map fun a => ⟨opAdd, a.typ, [a.val]⟩) := by
              intro e d
              cases del with
              | false => rfl
              | true =>
                unfold applyModify
                simp only [if_true]
                cases parseDN C e.dn with
                | none => rfl
                | some x =>
                  cases x with
                  | nil => rfl
                  | cons r x => simp only [applyChanges_delete_congr r e.attrs _ o o' e.attrs ht hv]
            simp only [hm]

theorem specRun_respelt (hC : C.Lawful) : ∀ (cs : List (Op × Op)), (∀ c ∈ cs, SameCall C c.1 c.2) → ∀ d,
    specRun C validate base d (cs.map (·.1)) = specRun C validate base d (cs.map (·.2)) := by
  intro cs
  induction cs with
  | nil => intro _ d; rfl
  | cons c cs ih =>
    intro h d
    simp only [List.map_cons, specRun, specStep_respelt hC (h c List.mem_cons_self),
      ih fun c' hc' => h c' (List.mem_cons_of_mem _ hc')]

variable {G : GobEnv}

theorem boltSearch_respelt {a b : Str} {n m : DN} (ha : parseDN C a = some n) (hb : parseDN C b = some m) (h : foldDN C n = foldDN C m) (db : Db)
    (scope : Nat) : boltSearch C G db a scope = boltSearch C G db b scope := by
  unfold boltSearch searchFuel
  simp only [parseNormalize, ha, hb, Option.map_some, normalize, h]

/-- C113: two histories that differ only in how the names of entries are written, by case, blanks and escapes, get the same results, call by
call; and afterwards every search, with its name written in either way, ends alike and finds the same entries. (Missing: names with letters on which
the two comparisons the server uses disagree, where it fails.) -/
theorem C113_spelling_partial (hC : C.Lawful) (hG : G.Lawful) (hb : BaseOk C base) (cs : List (Op × Op)) (hs : ∀ c ∈ cs, SameCall C c.1 c.2)
    (h1 : HistOk C (cs.map (·.1))) (h2 : HistOk C (cs.map (·.2))) :
    let one := boltRun C G validate (render base) Db.empty (cs.map (·.1))
    let other := boltRun C G validate (render base) Db.empty (cs.map (·.2))
    one.1 = other.1 ∧
    ∀ text text', Respelt C text text' → TextOk C text → ∀ scope,
      ∃ es es' e, boltSearch C G one.2 text scope = .ok (es, e) ∧ boltSearch C G other.2 text' scope = .ok (es', e) ∧ es.Perm es' := by
  intro one other
  obtain ⟨n1, a1, a2, R1, -⟩ := sim_run_empty (validate := validate) hC hG hb _ h1.ok h1.len
  obtain ⟨n2, b1, b2, R2, -⟩ := sim_run_empty (validate := validate) hC hG hb _ h2.ok h2.len
  have hr := specRun_respelt (validate := validate) (base := base) hC cs hs []
  have hd : dirOf n1 = dirOf n2 := by rw [← a2, ← b2, hr]
  refine ⟨a1.trans ((congrArg Prod.fst hr).trans b1.symm), fun text text' ht hok scope => ?_⟩
  obtain ⟨n, m, p1, p2, p3, -⟩ := respelt_parts hC ht
  obtain ⟨es, es', e, s1, s2, s3⟩ := alike_of_get hC hG R1 R2 (fun k => by rw [hd]) text hok scope
  exact ⟨es, es', e, s1, (boltSearch_respelt p1 p2 p3 _ scope).symm.trans s2, s3⟩

end
/-! ## Non-vacuity -/

/-- A history, and the same with other spellings. -/
def spCalls : List (Op × Op) :=
  (exOps.take 4).map (fun o => (o, o)) ++
  [(.delete b!"UID=b,OU=p,DC=lg", .delete b!"uid = \\42, ou=P ;dc=LG"),
   (.modify b!"uid=a,ou=p,dc=lg" [⟨opAdd, b!"mail", [b!"m"]⟩], .modify b!" UID=\\61,ou=p,Dc=lG" [⟨opAdd, b!"mail", [b!"m"]⟩]),
   (.rename ⟨b!"uid=a,ou=p,dc=lg", b!"uid=C", true⟩, .rename ⟨b!"uid=A , OU=P,dc=lg", b!"uid=C", true⟩),
   (.password ⟨b!"uid=c,ou=p,dc=lg", b!"x", b!"y"⟩, .password ⟨b!"uid=C,ou=p,dc=lg", b!"x", b!"y"⟩),
   (.delete b!"ou=p,dc=lg", .delete b!"OU=P,DC=LG")]

theorem respelt_of {C : CaseEnv} {a b : Str} (h : (match parseDN C a, parseDN C b with
    | some n, some m => decide (SameName C n m ∧ CaseSame C n m)
    | _, _ => false) = true) : Respelt C a b := by
  split at h
  · rename_i n m h1 h2
    exact ⟨n, m, h1, h2, of_decide_eq_true h⟩
  · simp at h

/-- hypotheses of C113_spelling_partial; most calls are carried out -/
example : (∀ c ∈ spCalls, SameCall asciiCase c.1 c.2) ∧ HistOk asciiCase (spCalls.map (·.1)) ∧ HistOk asciiCase (spCalls.map (·.2)) ∧
    spCalls.map (·.1) ≠ spCalls.map (·.2) ∧
    (boltRun asciiCase gobInstance exValidate (render exBase) Db.empty (spCalls.map (·.2))).1 =
      [.ok (), .ok (), .ok (), .ok (), .ok (), .ok (), .ok (), .ok (), .err .nonLeaf] ∧
    Respelt asciiCase b!"uid=C,ou=p,dc=lg" b!"UID = \\63,ou=P,dc=lg" ∧ TextOk asciiCase b!"uid=C,ou=p,dc=lg" := by
  refine ⟨fun c hc => ?_, by decide +kernel, by decide +kernel, by decide +kernel, by decide +kernel, respelt_of (by decide +kernel), by decide +kernel⟩
  simp only [spCalls, exOps, List.take, List.map_cons, List.map_nil, List.cons_append, List.nil_append, List.mem_cons, List.not_mem_nil, or_false] at hc
  rcases hc with rfl | rfl | rfl | rfl | rfl | rfl | rfl | rfl | rfl
  · exact .add _
  · exact .add _
  · exact .add _
  · exact .add _
  · exact .delete _ _ (respelt_of (by decide +kernel))
  · exact .modify _ _ _ (respelt_of (by decide +kernel))
  · refine .rename _ _ _ _ (respelt_of (by decide +kernel)) fun n m h1 h2 => ?_
    have key : (parseDN asciiCase b!"uid=a,ou=p,dc=lg").map (fun n => n.head?.map (·.map AVA.typ)) =
        (parseDN asciiCase b!"uid=A , OU=P,dc=lg").map (fun n => n.head?.map (·.map AVA.typ)) := by decide +kernel
    rw [h1, h2] at key
    simpa using key
  · exact .password _ _ _ _ (respelt_of (by decide +kernel))
  · exact .delete _ _ (respelt_of (by decide +kernel))

/-- C113 fails for names with letters like the sharp s: `cn=ss` and `cn=ß` name one entry, which can be deleted and found under both names, but
modified only under the one it was added with. -/
theorem C113_sharp_fails : ∃ (ops : List Op) (a b : Str) (n m : DN) (cs : List Change), sharpCase.Lawful ∧ HistOk sharpCase ops ∧
    parseDN sharpCase a = some n ∧ parseDN sharpCase b = some m ∧ SameName sharpCase n m ∧ NameOk n ∧ NameOk m ∧
    (boltRun sharpCase gobInstance exValidate (render toyBase) (after sharpCase gobInstance exValidate toyBase ops) [.modify a cs]).1 = [.ok ()] ∧
    (boltRun sharpCase gobInstance exValidate (render toyBase) (after sharpCase gobInstance exValidate toyBase ops) [.modify b cs]).1 =
      [.err (.ldap 53 true)] ∧
    (boltRun sharpCase gobInstance exValidate (render toyBase) (after sharpCase gobInstance exValidate toyBase ops) [.delete b]).1 = [.ok ()] :=
  ⟨[.add ⟨b!"dc=lg", []⟩, .add ⟨b!"cn=" ++ [223] ++ b!",dc=lg", []⟩], b!"cn=" ++ [223] ++ b!",dc=lg", b!"cn=ss,dc=lg",
    [[⟨b!"cn", [223]⟩], [⟨b!"dc", b!"lg"⟩]], [[⟨b!"cn", b!"ss"⟩], [⟨b!"dc", b!"lg"⟩]], [⟨opAdd, b!"mail", [b!"m"]⟩], sharpCase_lawful, by decide +kernel⟩

end Idm
