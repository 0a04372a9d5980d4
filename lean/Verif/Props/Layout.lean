import Verif.Spec.Layout
import Verif.Props.ShuffleLdif
import Verif.Props.Loaded
/-!
# C120: how records are written and spread over files does not matter
-/
namespace Idm

/-! ## What a record says is said by one entry -/

/-- Sorted lists without duplicates and with the same members are equal. -/
theorem sorted_unique : ∀ {l l' : List Str}, l.Pairwise ByteLe → l'.Pairwise ByteLe → l.Nodup → l'.Nodup → (∀ t, t ∈ l ↔ t ∈ l') → l = l'
  | [], [], _, _, _, _, _ => rfl
  | [], b :: _, _, _, _, _, h => absurd ((h b).2 List.mem_cons_self) (by simp)
  | a :: _, [], _, _, _, _, h => absurd ((h a).1 List.mem_cons_self) (by simp)
  | a :: l, b :: l', h1, h2, h3, h4, h => by
    rw [List.pairwise_cons] at h1 h2
    rw [List.nodup_cons] at h3 h4
    have hab : a = b := by
      rcases List.mem_cons.1 ((h a).1 List.mem_cons_self) with e | ha
      · exact e
      rcases List.mem_cons.1 ((h b).2 List.mem_cons_self) with e | hb
      · exact e.symm
      exact byteLe_antisymm (h1.1 b hb) (h2.1 a ha)
    subst hab
    rw [sorted_unique h1.2 h2.2 h3.2 h4.2]
    intro t
    constructor
    · intro ht
      rcases List.mem_cons.1 ((h t).1 (List.mem_cons_of_mem _ ht)) with e | h'
      · subst e; exact absurd ht h3.1
      · exact h'
    · intro ht
      rcases List.mem_cons.1 ((h t).2 (List.mem_cons_of_mem _ ht)) with e | h'
      · subst e; exact absurd ht h4.1
      · exact h'

theorem says_types {r : LdifRecord} {e : Entry} (h : EntrySays r e) (t : Str) : t ∈ e.attrs.map (·.name) ↔ r.under t ≠ [] := by
  constructor
  · intro ht
    obtain ⟨a, ha, rfl⟩ := List.mem_map.1 ht
    rw [← says_vals h ha]
    exact h.2.2.2.1 a ha
  · intro hu
    cases hv : r.under t with
    | nil => exact absurd hv hu
    | cons v more =>
      obtain ⟨a, ha, e⟩ := says_type h hv
      exact List.mem_map.2 ⟨a, ha, e⟩

theorem map_rebuild {f : Str → List Str} : ∀ {as : List Attr}, (∀ a ∈ as, a.vals = f a.name) → as = (as.map (·.name)).map fun n => ⟨n, f n⟩
  | [], _ => rfl
  | a :: as, h => by
    rw [List.map_cons, List.map_cons, ← map_rebuild fun b hb => h b (List.mem_cons_of_mem _ hb), ← h a List.mem_cons_self]

/-- What is read from records that say the same is the same. -/
theorem says_unique {r r' : LdifRecord} {e e' : Entry} (hs : SameRecord r r') (h : EntrySays r e) (h' : EntrySays r' e') : e = e' := by
  have hn : e.attrs.map (·.name) = e'.attrs.map (·.name) :=
    sorted_unique h.2.2.2.2 h'.2.2.2.2 h.2.2.1 h'.2.2.1 fun t => by rw [says_types h, says_types h', hs.2 t]
  have ha := map_rebuild (f := r.under) fun a ha => says_vals h ha
  have ha' := map_rebuild (f := r.under) fun a ha => (says_vals h' ha).trans (hs.2 a.name)
  obtain ⟨d, as⟩ := e
  obtain ⟨d', as'⟩ := e'
  have hd : d = d' := h.1.trans (hs.1.symm.trans h'.1.symm)
  subst hd
  have : as = as' := by
    dsimp only at ha ha' hn
    rw [ha, ha', hn]
  rw [this]

theorem says_unique_all {rs rs' : List LdifRecord} {es es' : List Entry} (hs : SameInOrder rs rs') (h : Matched EntrySays rs es)
    (h' : Matched EntrySays rs' es') : es = es' := by
  unfold SameInOrder at hs
  induction hs generalizing es es' with
  | nil => cases h; cases h'; rfl
  | cons a b as bs hab _ ih =>
    cases h with
    | cons _ e _ es1 he hes =>
      cases h' with
      | cons _ e' _ es2 he' hes' => rw [says_unique hab he he', ih hes hes']

/-- Lists related element by element can be sorted alike. -/
theorem matched_perm {α β : Type} {R : α → β → Prop} {as as' : List α} (hp : as.Perm as') :
    ∀ {bs : List β}, Matched R as bs → ∃ bs', Matched R as' bs' ∧ bs.Perm bs' := by
  induction hp with
  | nil => intro bs h; exact ⟨bs, h, List.Perm.refl _⟩
  | cons x _ ih =>
    intro bs h
    cases h with
    | cons _ b _ bs1 hb h1 =>
      obtain ⟨bs', h2, h3⟩ := ih h1
      exact ⟨b :: bs', .cons _ _ _ _ hb h2, h3.cons _⟩
  | swap x y l =>
    intro bs h
    cases h with
    | cons _ b _ bs1 hb h1 =>
      cases h1 with
      | cons _ b' _ bs2 hb' h2 => exact ⟨b' :: b :: bs2, .cons _ _ _ _ hb' (.cons _ _ _ _ hb h2), List.Perm.swap _ _ _⟩
  | trans _ _ ih1 ih2 =>
    intro bs h
    obtain ⟨bs', h1, h2⟩ := ih1 h
    obtain ⟨bs'', h3, h4⟩ := ih2 h1
    exact ⟨bs'', h3, h2.trans h4⟩

theorem says_perm {rs rs' : List LdifRecord} {es es' : List Entry} (hs : SameRecords rs rs') (h : Matched EntrySays rs es)
    (h' : Matched EntrySays rs' es') : es.Perm es' := by
  obtain ⟨rs'', hp, hs⟩ := hs
  obtain ⟨es'', h1, h2⟩ := matched_perm hp h
  rwa [← says_unique_all hs h1 h']

/-! ## The server with LDIF files -/

section
variable {V : Env} {W : WalkOrd} {cfg : LdifCfg} {g : Nat} {stats : Bool} {L L' : LdifLib}

/-- C120: files can be loaded exactly if those can that say the same records, in whatever order, form and number of files. -/
theorem C120_loads (hL : L.Lawful) (hL' : L'.Lawful) {rs rs' : List LdifRecord} {recs recs' : List (Option Entry)} (hd : DataOf L rs recs)
    (hd' : DataOf L' rs' recs') (hs : SameRecords rs rs') (C : CaseEnv) (idx : IdxAttrs) :
    (∃ m, treeFromLDIF C idx recs = some m) ↔ ∃ m, treeFromLDIF C idx recs' = some m := by
  have := C116_ldif_loads C idx recs recs' (says_perm hs (dataOf_says hL hd) (dataOf_says hL' hd'))
  rw [Bool.eq_iff_iff, Option.isSome_iff_exists, Option.isSome_iff_exists] at this
  exact this

/-- C120: two servers, whatever happened before, have loaded last what files say, and these files say the same records: in one file, as a template, or
spread over the files of a directory; in any order; folded, with comments, in base64 or plain; with the values of different types mixed in any way. If
one answers a search without size limit and controls with success, then so does the other one, with the same entries, perhaps in another order. -/
theorem C120_search (hW : W.Lawful) (hL : L.Lawful) (hL' : L'.Lawful) {rs rs' : List LdifRecord} {recs older recs' older'} (hd : DataOf L rs recs)
    (hd' : DataOf L' rs' recs') (hs : SameRecords rs rs') {st st' : LdifSt} (h : LdifReach V W cfg g stats (recs :: older) st)
    (h' : LdifReach V W cfg g stats (recs' :: older') st')
    (o o' : Oracle) (id : Int) (b : Str) (scope : Nat) (w : Packet) (attrs : List Str) (bound : Str) (cs : Option (List Control))
    (hok : .searchDone id 0 cs ∈ (handlePacket V (ldifSrv V W cfg g stats) o (wMsg id (wSearch b scope 0 w attrs)) bound st).resps) :
    ∃ es es' : List Entry, es.Perm es' ∧
      (handlePacket V (ldifSrv V W cfg g stats) o (wMsg id (wSearch b scope 0 w attrs)) bound st).resps =
        es.map (.entry id) ++ [.searchDone id 0 (some [])] ∧
      (handlePacket V (ldifSrv V W cfg g stats) o' (wMsg id (wSearch b scope 0 w attrs)) bound st').resps =
        es'.map (.entry id) ++ [.searchDone id 0 (some [])] :=
  C116_ldif_search hW h h' (says_perm hs (dataOf_says hL hd) (dataOf_says hL' hd')) o o' id b scope w attrs bound cs hok

/-- C120: and they answer all binds alike, if they have the same config users or none. -/
theorem C120_bind (hW : W.Lawful) (hL : L.Lawful) (hL' : L'.Lawful) {rs rs' : List LdifRecord} {recs older recs' older'} (hd : DataOf L rs recs)
    (hd' : DataOf L' rs' recs') (hs : SameRecords rs rs') {st st' : LdifSt} (h : LdifReach V W cfg g stats (recs :: older) st)
    (h' : LdifReach V W cfg g stats (recs' :: older') st') (hconf : cfg.conf = true → st'.conf = st.conf) (o o' : Oracle) (id : Int) (bound dn pw : Str) :
    (handlePacket V (ldifSrv V W cfg g stats) o (wMsg id (wBind dn pw)) bound st).resps =
        (handlePacket V (ldifSrv V W cfg g stats) o' (wMsg id (wBind dn pw)) bound st').resps ∧
      (handlePacket V (ldifSrv V W cfg g stats) o (wMsg id (wBind dn pw)) bound st).next =
        (handlePacket V (ldifSrv V W cfg g stats) o' (wMsg id (wBind dn pw)) bound st').next :=
  C116_ldif_bind hW h h' (says_perm hs (dataOf_says hL hd) (dataOf_says hL' hd')) hconf o o' id bound dn pw

end

/-! ## boltdb load -/

section
variable {C : CaseEnv} {G : GobEnv} {L : LdifLib} {levelOk : Str → Bool}

/-- C120: `boltdb load` ends in the same way, and leaves the same database, for two files that say the same records in the same order, whatever is in
the database before. (The order matters, since parents must come first.) -/
theorem C120_load (hL : L.Lawful) (o o' : BoltdbOpts) (w w' : FileWorld) (input input' text text' : Str) (ho : o' = { o with inputFile := some input' })
    (hi : o.inputFile = some input) (hw : w'.dbs o.boltdbFile = w.dbs o.boltdbFile ∧ w'.locks o.boltdbFile = w.locks o.boltdbFile)
    (ht : w.texts input = some (.whole text)) (ht' : w'.texts input' = some (.whole text')) (rs rs' : List LdifRecord) (hr : LdifInput L text rs)
    (hr' : LdifInput L text' rs') (hs : SameInOrder rs rs') :
    (loadCmd C G L levelOk o' w').1 = (loadCmd C G L levelOk o w).1 ∧
      (loadCmd C G L levelOk o' w').2.dbs o.boltdbFile = (loadCmd C G L levelOk o w).2.dbs o.boltdbFile := by
  obtain ⟨es, he, hes⟩ := input_read hL hr
  obtain ⟨es', he', hes'⟩ := input_read hL hr'
  have := says_unique_all hs hes hes'
  subst this
  subst ho
  have hl : ∀ base db, loadLDIF C G L base db text' = loadLDIF C G L base db text := by
    intro base db
    unfold loadLDIF
    rw [he, he']
  unfold loadCmd
  dsimp only
  rw [hi, hw.1, hw.2]
  cases o.baseDN with
  | none => exact ⟨rfl, hw.1⟩
  | some base =>
    dsimp only
    rw [ht, ht']
    split
    · exact ⟨rfl, hw.1⟩
    · cases boltOpen false (w.locks o.boltdbFile) (w.dbs o.boltdbFile) with
      | ok opened =>
        dsimp only
        cases initBuckets false opened with
        | some db =>
          dsimp only [FileRead.whole]
          simp only [Bool.false_eq_true, if_false]
          rw [hl]
          exact ⟨rfl, by simp [FileWorld.put]⟩
        | none => exact ⟨rfl, hw.1⟩
      | err e => exact ⟨rfl, hw.1⟩
      | panic => exact ⟨rfl, hw.1⟩
      | hang => exact ⟨rfl, hw.1⟩

end

/-! ## Examples -/

/-- The second record of the example file, written in another way. -/
def lyBobLines : List Str := [b!"dn: uid=Bob,dc=lg", b!"cn: Bob", b!"cn: Rob", b!" ert", b!"# no comment", b!"userPassword:: c2VjcmV0", b!"uid: Bob"]

def lyBob : LdifRecord := ⟨b!"uid=Bob,dc=lg", [(b!"cn", b!"Bob"), (b!"cn", b!"Robert"), (b!"userPassword", b!"secret"), (b!"uid", b!"Bob")]⟩

def lyBase : LdifRecord := ⟨b!"dc=lg", [(b!"dc", b!"lg")]⟩

def lyBobText : Str := b!"dn: uid=Bob,dc=lg\ncn: Bob\ncn: Rob\n ert\n# no comment\nuserPassword:: c2VjcmV0\nuid: Bob\n"

def lyBaseText : Str := b!"dn: dc=lg\ndc: lg\n"

theorem lyBob_body : LdifBody lyBobText [lyBob] := by
  refine ⟨lyBobLines, [[b!"dn: uid=Bob,dc=lg", b!"cn: Bob", b!"cn: Robert", b!"userPassword:: c2VjcmV0", b!"uid: Bob"]],
    hasLines_lf lyBobLines (by decide), ?_, ?_⟩
  · exact .last _ _ (by simp) (.line _ [b!"dn: uid=Bob,dc=lg"] _ _ ⟨_, [], rfl, rfl, by decide⟩ (.line _ [b!"cn: Bob"] _ _ ⟨_, [], rfl, rfl, by decide⟩
      (.line _ [b!"cn: Rob", b!" ert"] _ _ ⟨b!"cn: Rob", [b!"ert"], rfl, rfl, by decide⟩ (.comment b!" no comment" [] _ _
      (.line _ [b!"userPassword:: c2VjcmV0"] _ _ ⟨_, [], rfl, rfl, by decide⟩ (.line _ [b!"uid: Bob"] [] [] ⟨_, [], rfl, rfl, by decide⟩ .done))))))
  · exact .cons _ _ _ _ (.mk _ _ _ (.plain b!"dn" b!"uid=Bob,dc=lg" 1 (by decide) (by decide)) (by decide)
        (.cons _ _ _ _ ⟨.plain b!"cn" b!"Bob" 1 (by decide) (by decide), by decide, by decide, by decide⟩
        (.cons _ _ _ _ ⟨.plain b!"cn" b!"Robert" 1 (by decide) (by decide), by decide, by decide, by decide⟩
        (.cons _ _ _ _ ⟨.base64 b!"userPassword" b!"secret" 1, by decide, by decide, by decide⟩
        (.cons _ _ _ _ ⟨.plain b!"uid" b!"Bob" 1 (by decide) (by decide), by decide, by decide, by decide⟩ .nil))))) .nil

theorem lyBase_body : LdifBody lyBaseText [lyBase] := by
  refine ⟨[b!"dn: dc=lg", b!"dc: lg"], [[b!"dn: dc=lg", b!"dc: lg"]], hasLines_lf [b!"dn: dc=lg", b!"dc: lg"] (by decide), ?_, ?_⟩
  · exact .last _ _ (by simp) (.line _ [b!"dn: dc=lg"] _ _ ⟨_, [], rfl, rfl, by decide⟩ (.line _ [b!"dc: lg"] [] [] ⟨_, [], rfl, rfl, by decide⟩ .done))
  · exact .cons _ _ _ _ (.mk _ _ _ (.plain b!"dn" b!"dc=lg" 1 (by decide) (by decide)) (by decide)
        (.cons _ _ _ _ ⟨.plain b!"dc" b!"lg" 1 (by decide) (by decide), by decide, by decide, by decide⟩ .nil)) .nil

/-- The files of the directory, the user before the base. -/
def lyRead : Str → Option FileRead := fun n => if n = b!"a.ldif" then some (.whole lyBobText) else if n = b!"b.ldif" then some (.whole lyBaseText) else none

def lyRs : Str → List LdifRecord := fun n => if n = b!"a.ldif" then [lyBob] else [lyBase]

/-- What is read from it. -/
def lyRecs : List (Option Entry) := [some ⟨b!"uid=Bob,dc=lg", [⟨b!"cn", [b!"Bob", b!"Robert"]⟩, ⟨b!"uid", [b!"Bob"]⟩, ⟨b!"userPassword", [b!"secret"]⟩]⟩,
  some ⟨b!"dc=lg", [⟨b!"dc", [b!"lg"]⟩]⟩]

theorem lyData : DataOf goLdif [lyBob, lyBase] lyRecs :=
  .directory [] 0 lyRead [b!"b.ldif", b!"readme", b!"a.ldif"] [b!"a.ldif", b!"b.ldif"] lyRs _
    (by
      intro n hn hx
      simp only [List.mem_cons, List.not_mem_nil, or_false] at hn
      rcases hn with rfl | rfl | rfl
      · exact ⟨lyBaseText, by decide, lyBase_body⟩
      · exact absurd hx (by decide)
      · exact ⟨lyBobText, by decide, lyBob_body⟩)
    (by decide) (by decide) (by decide +kernel)

theorem lyBob_same : SameRecord ⟨b!"uid=Bob,dc=lg", [(b!"uid", b!"Bob"), (b!"cn", b!"Bob"), (b!"userPassword", b!"secret"), (b!"cn", b!"Robert")]⟩ lyBob := by
  refine ⟨rfl, fun t => ?_⟩
  by_cases h1 : b!"cn" = t
  · subst h1; decide
  by_cases h2 : b!"uid" = t
  · subst h2; decide
  by_cases h3 : b!"userPassword" = t
  · subst h3; decide
  simp only [LdifRecord.under, lyBob, List.filter_cons, List.filter_nil, h1, h2, h3, decide_false, Bool.false_eq_true, if_false]

/-- The example file and the example directory say the same. -/
theorem ly_same : SameRecords svRecords [lyBob, lyBase] :=
  ⟨_, List.Perm.swap _ _ _, .cons _ _ _ _ lyBob_same (.cons _ _ _ _ ⟨rfl, fun _ => rfl⟩ .nil)⟩

theorem ly_reach : LdifReach ldEnv ldOrd { ldCfg with conf := false } 8 false [lyRecs] (ldStart lyRecs) :=
  .start _ _ _ _ _ _ (ldMemI_loads (by decide +kernel))

/-- C120 applies to a search for all entries -/
example := C120_search (V := ldEnv) ldOrd_lawful goLdif_lawful goLdif_lawful svData lyData ly_same sv_reach ly_reach toyOracle toyOracle 7 b!"dc=lg" 2
  (ctxStr 7 b!"objectclass") [] [] (some []) (by decide +kernel)

/-- and to a bind -/
example := C120_bind (V := ldEnv) ldOrd_lawful goLdif_lawful goLdif_lawful svData lyData ly_same sv_reach ly_reach (fun h => by cases h) toyOracle toyOracle 7 []
  b!"uid=bob,dc=lg" b!"secret"

/-- to loading them -/
example := C120_loads goLdif_lawful goLdif_lawful svData lyData ly_same asciiCase defaultIdx

/-- Both records in one file, the base first. -/
theorem lyText_body : LdifBody (lyBaseText ++ b!"\n" ++ lyBobText) [lyBase, lyBob] := by
  refine ⟨[b!"dn: dc=lg", b!"dc: lg", []] ++ lyBobLines,
    [[b!"dn: dc=lg", b!"dc: lg"], [b!"dn: uid=Bob,dc=lg", b!"cn: Bob", b!"cn: Robert", b!"userPassword:: c2VjcmV0", b!"uid: Bob"]],
    hasLines_lf ([b!"dn: dc=lg", b!"dc: lg", []] ++ lyBobLines) (by decide), ?_, ?_⟩
  · exact .record _ [b!"dn: dc=lg", b!"dc: lg"] _ lyBobLines (by simp)
      (.line _ [b!"dn: dc=lg"] _ _ ⟨_, [], rfl, rfl, by decide⟩ (.line _ [b!"dc: lg"] [] [] ⟨_, [], rfl, rfl, by decide⟩ .done))
      (.last _ _ (by simp) (.line _ [b!"dn: uid=Bob,dc=lg"] _ _ ⟨_, [], rfl, rfl, by decide⟩ (.line _ [b!"cn: Bob"] _ _ ⟨_, [], rfl, rfl, by decide⟩
      (.line _ [b!"cn: Rob", b!" ert"] _ _ ⟨b!"cn: Rob", [b!"ert"], rfl, rfl, by decide⟩ (.comment b!" no comment" [] _ _
      (.line _ [b!"userPassword:: c2VjcmV0"] _ _ ⟨_, [], rfl, rfl, by decide⟩ (.line _ [b!"uid: Bob"] [] [] ⟨_, [], rfl, rfl, by decide⟩ .done)))))))
  · exact .cons _ _ _ _ (.mk _ _ _ (.plain b!"dn" b!"dc=lg" 1 (by decide) (by decide)) (by decide)
        (.cons _ _ _ _ ⟨.plain b!"dc" b!"lg" 1 (by decide) (by decide), by decide, by decide, by decide⟩ .nil))
      (.cons _ _ _ _ (.mk _ _ _ (.plain b!"dn" b!"uid=Bob,dc=lg" 1 (by decide) (by decide)) (by decide)
        (.cons _ _ _ _ ⟨.plain b!"cn" b!"Bob" 1 (by decide) (by decide), by decide, by decide, by decide⟩
        (.cons _ _ _ _ ⟨.plain b!"cn" b!"Robert" 1 (by decide) (by decide), by decide, by decide, by decide⟩
        (.cons _ _ _ _ ⟨.base64 b!"userPassword" b!"secret" 1, by decide, by decide, by decide⟩
        (.cons _ _ _ _ ⟨.plain b!"uid" b!"Bob" 1 (by decide) (by decide), by decide, by decide, by decide⟩ .nil))))) .nil)

/-- and to `boltdb load` -/
example := C120_load (C := asciiCase) (G := gobInstance) (levelOk := (· == b!"info")) goLdif_lawful loOpts loOpts (loWorld svText) (loWorld (lyBaseText ++ b!"\n" ++ lyBobText))
  b!"in.ldif" b!"in.ldif" _ _ rfl rfl ⟨rfl, rfl⟩ rfl rfl svRecords [lyBase, lyBob] (.inl svText_body) (.inl lyText_body)
  (.cons _ _ _ _ ⟨rfl, fun _ => rfl⟩ (.cons _ _ _ _ lyBob_same .nil))

end Idm
