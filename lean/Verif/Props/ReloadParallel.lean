import Verif.Props.LdifUnique
import Verif.Spec.ReloadParallel
import Verif.Props.Reload
import Verif.Props.LdifParallel
/-!
# C107: what an LDIF server answers while requests overlap and files are reloaded
-/
namespace Idm

section
variable {ι : Type}

/-- The part of what a process shows that `FSeen` shows too. -/
def LSeen.plain : LSeen ι → Bool
  | .main _ => false
  | .conf _ => false
  | _ => true

def seenOf (log : List (FSeen ι)) : List (LSeen ι) := (log.filterMap fun e =>
  match e with
  | .seen x => some x
  | _ => none).reverse

theorem seenOf_append (a b : List (FSeen ι)) : seenOf (a ++ b) = seenOf b ++ seenOf a := by simp [seenOf, List.filterMap_append]

theorem seenOf_seen (new : List (LSeen ι)) : seenOf (new.map FSeen.seen).reverse = new := by
  induction new with
  | nil => rfl
  | cons x new ih => rw [List.map_cons, List.reverse_cons, seenOf_append, ih]; rfl

theorem seenOf_cons_seen (e : LSeen ι) (log : List (FSeen ι)) : seenOf (.seen e :: log) = seenOf log ++ [e] := by simp [seenOf]

theorem plain_filter {new : List (LSeen ι)} (h : ∀ m', .main m' ∉ new ∧ .conf m' ∉ new) : new.filter LSeen.plain = new := by
  rw [List.filter_eq_self]
  intro e he
  cases e with
  | main m => exact absurd he (h m).1
  | conf m => exact absurd he (h m).2
  | io | cookie | gaveUp => rfl

theorem mainAt_plain {new : List (LSeen ι)} (h : ∀ m', .main m' ∉ new ∧ .conf m' ∉ new) (m : LMem) : mainAt m new = m := by
  induction new with
  | nil => rfl
  | cons e new ih =>
    have ih' := ih fun m' => ⟨fun hm => (h m').1 (List.mem_cons_of_mem _ hm), fun hm => (h m').2 (List.mem_cons_of_mem _ hm)⟩
    cases e with
    | main m => exact absurd List.mem_cons_self (h m).1
    | conf m => exact absurd List.mem_cons_self (h m).2
    | io | cookie | gaveUp => exact ih'

theorem confAt_plain {new : List (LSeen ι)} (h : ∀ m', .main m' ∉ new ∧ .conf m' ∉ new) (m : LMem) : confAt m new = m := by
  induction new with
  | nil => rfl
  | cons e new ih =>
    have ih' := ih fun m' => ⟨fun hm => (h m').1 (List.mem_cons_of_mem _ hm), fun hm => (h m').2 (List.mem_cons_of_mem _ hm)⟩
    cases e with
    | main m => exact absurd List.mem_cons_self (h m).1
    | conf m => exact absurd List.mem_cons_self (h m).2
    | io | cookie | gaveUp => exact ih'

theorem ios_plain (tr : List (LSeen ι)) : ios (tr.filter LSeen.plain) = ios tr := by
  induction tr with
  | nil => rfl
  | cons e tr ih =>
    have key : ∀ (e : LSeen ι) (l : List (LSeen ι)), ios (e :: l) = ios [e] ++ ios l := fun e l => ios_append [e] l
    rw [key e tr, List.filter_cons]
    cases e <;> simp only [LSeen.plain, if_true, Bool.false_eq_true, if_false]
    · rw [key, ih]
    · exact ih
    · exact ih
    · rw [key, ih]
    · rw [key, ih]

theorem iosOf_seenOf (log : List (FSeen ι)) : iosOf log = ios (seenOf log) := by
  unfold iosOf seenOf ios
  rw [List.filterMap_reverse, List.filterMap_filterMap]
  congr 1
  congr 1
  funext e
  cases e with
  | seen x => cases x <;> rfl
  | conf d => rfl
  | main d => rfl

section
variable {C : CaseEnv} {H : Host} {env : Str → Str} {flags : List Flag}

theorem counts_seen {log : List (FSeen ι)} {rs cs : List LdifRecord} {dir : Str} (h : Counts C H env flags log rs cs dir) :
    ∀ new : List (LSeen ι), Counts C H env flags (new.map FSeen.seen ++ log) rs cs dir
  | [] => h
  | e :: new => .seen _ _ _ _ e (counts_seen h new)

theorem counts_seen_inv {log : List (FSeen ι)} {rs cs : List LdifRecord} {dir : Str} : ∀ (new : List (LSeen ι)),
    Counts C H env flags (new.map FSeen.seen ++ log) rs cs dir → Counts C H env flags log rs cs dir
  | [], h => h
  | e :: new, h => by
    cases h with
    | seen _ _ _ _ _ h => exact counts_seen_inv new h

end

section
variable {V : Env} {W : WalkOrd} {H : Host} {cfg : LdifCfg} {s : Started} {loop : Nat → Bool} {m c : LMem}

/-- The process is one of `Model/LdifParallel`. -/
theorem fruns_reach {log : List (FSeen ι)} {l : FLive ι} (h : FRuns V W H cfg s loop m c log l) :
    LParReach V W cfg s.genPwLen s.stats loop m c l.par := by
  induction h with
  | start => exact .start
  | work log l q new _ hs _ _ _ ih => exact .step _ _ ih hs
  | conf log l d _ hd hc hr ih =>
    unfold FLive.lookConf
    split
    · exact ih
    · next m' hm => exact .step _ _ ih (.reloadConf _ _ _ hd hc hr hm)
  | main log l d _ hd hr ih =>
    unfold FLive.lookMain
    dsimp only
    split
    · next hm =>
      dsimp only
      cases hc : cfg.conf with
      | true => exact .step _ _ ih (.reloadFail _ _ hd (by rw [hr, hc]) hm)
      | false =>
        have e : ({ l.par with reloading := false } : LPar ι) = l.par := by
          rw [hc] at hr
          rw [← hr]
        rw [e]
        exact ih
    · next m' hm => exact .step _ _ ih (.reloadMain _ _ _ hd hr hm)

theorem fruns_seen {log : List (FSeen ι)} {l : FLive ι} (h : FRuns V W H cfg s loop m c log l) : l.par.trace.filter LSeen.plain = seenOf log := by
  induction h with
  | start => rfl
  | work log l q new _ _ ht hn _ ih =>
    dsimp only
    rw [ht, List.filter_append, plain_filter hn, ih, seenOf_append, seenOf_seen]
  | conf log l d _ _ _ _ ih =>
    have : seenOf (FSeen.conf d :: log) = seenOf log := rfl
    rw [this, ← ih]
    unfold FLive.lookConf
    split
    · rfl
    · dsimp only
      rw [List.filter_append]
      simp [LSeen.plain]
  | main log l d _ _ _ ih =>
    have : seenOf (FSeen.main d :: log) = seenOf log := rfl
    rw [this, ← ih]
    unfold FLive.lookMain
    dsimp only
    split
    · rfl
    · dsimp only
      rw [List.filter_append]
      simp [LSeen.plain]

end

section
variable {V : Env} {H : Host} {loopback : Bool} {env : Str → Str} {flags : List Flag}

/-- The data was read from files that say `rs`. -/
def Has (V : Env) (H : Host) (rs : List LdifRecord) (m : LMem) : Prop := ∃ recs, treeFromLDIF V.C defaultIdx recs = some m ∧ DataOf H.lib rs recs

/-- What a server that serves LDIF files has been started with. -/
theorem launch_ldif (hh : optHandler.value env flags = b!"ldif") {s : Started} (h : launch V H loopback env flags = .serves s)
    {base : DN} (hbn : parseDN V.C (optBase.value env flags) = some base) :
    V.C.eqFold (optBase.value env flags) (normalize V.C base) = true ∧
    (optConfig.value env flags ≠ [] → V.C.eqFold (optBase.value env flags) (V.C.lower (optBase.value env flags)) = true) ∧
    ∃ d0 recs m conf, s.backend = .ldif (askedCfg V.C env flags loopback base) m conf ∧ MainYields H env flags d0 recs ∧
      treeFromLDIF V.C defaultIdx recs = some m ∧ (optConfig.value env flags ≠ [] →
      ∃ recs', FileYields H env flags d0 (absPath H.cwd (optConfig.value env flags)) recs' ∧ treeFromLDIF V.C defaultIdx recs' = some conf) := by
  obtain ⟨hk, -, -⟩ := C80_options s h
  rcases hk with ⟨⟨hb, -⟩, -⟩ | ⟨⟨-, -, -, name, admin, d0, recs, m, h1, h2, h3, h4, h5, h6⟩, -⟩
  · rw [hh] at hb
    exact absurd hb (by decide)
  rw [hbn] at h1
  cases h1
  rcases h6 with ⟨hc, e⟩ | ⟨hc, hf, recs', m', g1, g2, e⟩
  · exact ⟨h3, fun h => absurd hc h, d0, recs, m, _, by rw [e, askedCfg, hc]; rfl, h4, h5, fun h => absurd hc h⟩
  · exact ⟨h3, fun _ => hf, d0, recs, m, _, by rw [e, askedCfg, decide_eq_true hc], h4, h5, fun _ => ⟨recs', g1, g2⟩⟩

/-- What is known of the states: the server has what counts, and so it had at every moment. -/
structure FInv (V : Env) (H : Host) (env : Str → Str) (flags : List Flag) (m c : LMem) (log : List (FSeen ι)) (l : FLive ι) (rs cs : List LdifRecord)
    (dir : Str) : Prop where
  fn : l.fn = absPath H.cwd (optMain.value env flags)
  confFn : l.confFn = absPath H.cwd (optConfig.value env flags)
  inc : l.dir = dir
  main : Has V H rs l.par.main
  conf : optConfig.value env flags ≠ [] → Has V H cs l.par.conf
  none : optConfig.value env flags = [] → cs = []
  past : ∃ pos : Nat → List (FSeen ι), (∀ i i', i ≤ i' → i' ≤ l.par.trace.length → pos i <:+ pos i') ∧
    ∀ i ≤ l.par.trace.length, pos i <:+ log ∧ (l.par.trace.take i).filter LSeen.plain = seenOf (pos i) ∧ ∃ rs cs dir, Counts V.C H env flags (pos i) rs cs dir ∧
      Has V H rs (mainAt m (l.par.trace.take i)) ∧ (optConfig.value env flags ≠ [] → Has V H cs (confAt c (l.par.trace.take i))) ∧
      (optConfig.value env flags = [] → cs = [])

theorem suffix_grow {α : Type} {a b l : List α} (h : a <:+ b) : a ++ l <:+ b ++ l := by
  obtain ⟨t, rfl⟩ := h
  exact ⟨t, by simp⟩

/-- The past grows. -/
theorem past_grow {m c : LMem} {log log' : List (FSeen ι)} {tr new : List (LSeen ι)} (pos : Nat → List (FSeen ι))
    (P : List (FSeen ι) → LMem → LMem → Prop)
    (h1 : ∀ i i', i ≤ i' → i' ≤ tr.length → pos i <:+ pos i')
    (h2 : ∀ i ≤ tr.length, pos i <:+ log ∧ (tr.take i).filter LSeen.plain = seenOf (pos i) ∧ P (pos i) (mainAt m (tr.take i)) (confAt c (tr.take i)))
    (new' : Nat → List (FSeen ι)) (g1 : ∀ j j', j ≤ j' → j' ≤ new.length → new' j <:+ new' j') (g2 : ∀ j ≤ new.length, log <:+ new' j ∧ new' j <:+ log')
    (g3 : ∀ j, 0 < j → j ≤ new.length → (tr ++ new.take j).filter LSeen.plain = seenOf (new' j) ∧
      P (new' j) (mainAt m (tr ++ new.take j)) (confAt c (tr ++ new.take j))) (hsub : log <:+ log') :
    ∃ pos : Nat → List (FSeen ι), (∀ i i', i ≤ i' → i' ≤ (tr ++ new).length → pos i <:+ pos i') ∧
      ∀ i ≤ (tr ++ new).length, pos i <:+ log' ∧ ((tr ++ new).take i).filter LSeen.plain = seenOf (pos i) ∧
        P (pos i) (mainAt m ((tr ++ new).take i)) (confAt c ((tr ++ new).take i)) := by
  refine ⟨fun i => if i ≤ tr.length then pos i else new' (i - tr.length), fun i i' hi hi' => ?_, fun i hi => ?_⟩
  · rw [List.length_append] at hi'
    dsimp only
    by_cases a : i' ≤ tr.length
    · rw [if_pos a, if_pos (by omega)]
      exact h1 i i' hi a
    · rw [if_neg a]
      by_cases b : i ≤ tr.length
      · rw [if_pos b]
        exact (h2 i b).1.trans (g2 _ (by omega)).1
      · rw [if_neg b]
        exact g1 _ _ (by omega) (by omega)
  · rw [List.length_append] at hi
    dsimp only
    by_cases a : i ≤ tr.length
    · rw [if_pos a, List.take_append_of_le_length a]
      obtain ⟨k1, k2, k3⟩ := h2 i a
      exact ⟨k1.trans hsub, k2, k3⟩
    · have e : (tr ++ new).take i = tr ++ new.take (i - tr.length) := by
        rw [List.take_append]
        rw [List.take_of_length_le (by omega)]
      rw [if_neg a, e]
      exact ⟨(g2 _ (by omega)).2, g3 _ (by omega) (by omega)⟩

theorem fruns_inv [DecidableEq ι] (hL : H.lib.Lawful) (hcwd : isAbsPath H.cwd = true) {W : WalkOrd} {loop : Nat → Bool}
    (hh : optHandler.value env flags = b!"ldif") {s : Started} (h : launch V H loopback env flags = .serves s)
    {base : DN} (hbn : parseDN V.C (optBase.value env flags) = some base) {cfg : LdifCfg} {m c : LMem} (hbk : s.backend = .ldif cfg m c)
    {log : List (FSeen ι)} {l : FLive ι} (hr : FRuns V W H cfg s loop m c log l) {rs cs : List LdifRecord} {dir : Str}
    (hlat : Counts V.C H env flags log rs cs dir) : FInv V H env flags m c log l rs cs dir := by
  obtain ⟨hc1, hc2, hc3⟩ := launch_config h
  obtain ⟨hf1, hf2, d0, recs, m', conf', hb', hy, hm, hcf⟩ := launch_ldif hh h hbn
  rw [hbk] at hb'
  cases hb'
  have hconf : (askedCfg V.C env flags loopback base).conf = decide (optConfig.value env flags ≠ []) := rfl
  induction hr generalizing rs cs dir with
  | start =>
    cases hlat with
    | start rs cs dir hfs hi hcs =>
      have e : d0 = dir := mainYields_dir hy hi
      subst e
      have hmain : Has V H rs m := ⟨recs, hm, (mainYields_says hL hcwd hfs).1 d0 recs hy⟩
      have hcon : optConfig.value env flags ≠ [] → Has V H cs c := by
        intro hne
        obtain ⟨recs', g1, g2⟩ := hcf hne
        rcases hcs with ⟨he, -⟩ | ⟨-, f, out, k1, k2, k3⟩
        · exact absurd he hne
        · refine ⟨recs', g2, ?_⟩
          obtain ⟨cr, q1, q2⟩ := file_says (L := H.lib) hL k2 k3
          unfold FileYields at g1
          unfold askedVars at q1
          rw [k1, q1] at g1
          cases g1
          exact q2
      have hnone : optConfig.value env flags = [] → cs = [] := by
        intro he
        rcases hcs with ⟨-, e⟩ | ⟨hne, -⟩
        · exact e
        · exact absurd he hne
      refine ⟨by rw [Host.flive, hc1], by rw [Host.flive, hc2], ?_, hmain, hcon, hnone, fun _ => [], fun _ _ _ _ => List.suffix_refl _, fun i _ => ?_⟩
      · show H.basePath s.config = _
        unfold Host.basePath
        rw [hc1]
        rcases hi with ⟨e, rfl⟩ | ⟨e, rfl⟩ <;> simp [e]
      · have e : (Host.flive (ι := ι) H s m c).par.trace = [] := rfl
        rw [e, List.take_nil]
        exact ⟨List.suffix_refl _, rfl, rs, cs, d0, .start _ _ _ hfs hi hcs, hmain, hcon, hnone⟩
  | work log l q new hrun hs ht hn _ ih =>
    have hc0 : Counts V.C H env flags log rs cs dir := counts_seen_inv new.reverse (by rw [List.map_reverse]; exact hlat)
    have I := ih hc0
    have L := linv (fruns_reach hrun)
    have L' := linv (.step _ _ (fruns_reach hrun) hs)
    have e1 : q.main = l.par.main := by rw [L'.main, ht, mainAt_append, mainAt_plain hn, ← L.main]
    have e2 : q.conf = l.par.conf := by rw [L'.conf, ht, confAt_append, confAt_plain hn, ← L.conf]
    refine ⟨I.fn, I.confFn, I.inc, by dsimp only; rw [e1]; exact I.main, fun hne => by dsimp only; rw [e2]; exact I.conf hne, I.none, ?_⟩
    dsimp only
    rw [ht]
    obtain ⟨pos, p1, p2⟩ := I.past
    refine past_grow pos (fun b mm cc => ∃ rs cs dir, Counts V.C H env flags b rs cs dir ∧ Has V H rs mm ∧
      (optConfig.value env flags ≠ [] → Has V H cs cc) ∧ (optConfig.value env flags = [] → cs = [])) p1 p2
      (fun j => ((new.take j).map FSeen.seen).reverse ++ log) (fun j j' hj hj' => ?_) (fun j hj => ⟨List.suffix_append _ _, ?_⟩) (fun j h0 hj => ?_)
      (List.suffix_append _ _)
    · exact suffix_grow (by rw [List.reverse_suffix]; exact (List.take_prefix_take_left hj).map _)
    · exact suffix_grow (by rw [List.reverse_suffix]; exact (List.take_prefix j new).map _)
    · have hn' : ∀ m', .main m' ∉ new.take j ∧ .conf m' ∉ new.take j :=
        fun m' => ⟨fun h => (hn m').1 (List.mem_of_mem_take h), fun h => (hn m').2 (List.mem_of_mem_take h)⟩
      refine ⟨?_, rs, cs, dir, ?_, ?_, ?_, I.none⟩
      · rw [List.filter_append, plain_filter hn', fruns_seen hrun, seenOf_append, seenOf_seen]
      · rw [← List.map_reverse]
        exact counts_seen hc0 _
      · rw [mainAt_append, mainAt_plain hn', ← L.main]
        exact I.main
      · rw [confAt_append, confAt_plain hn', ← L.conf]
        exact I.conf
  | conf log l d hrun hd hc hr ih =>
    have hne : optConfig.value env flags ≠ [] := by
      rw [hconf] at hc
      simpa using hc
    have hfold := hf2 hne
    have L := linv (fruns_reach hrun)
    cases hlat with
    | confGood _ _ cs0 _ _ _ h0 hcs hdist =>
      have I := ih h0
      rcases hcs with ⟨e, -⟩ | ⟨-, f, out, k1, k2, k3⟩
      · exact absurd e hne
      obtain ⟨cr, q1, q2⟩ := file_says (L := H.lib) hL k2 k3
      obtain ⟨m1, hm1⟩ := (data_distinct (L := H.lib) hL V (askedCfg V.C env flags loopback base) q2).2 hdist
      have e : (H.now d).readConf s.config l.confFn l.dir = some cr := by
        rw [Host.readConf, I.confFn, I.inc, k1, hc3]
        exact q1
      unfold FLive.lookConf
      rw [openLdif_eq hfold, e, Option.bind_some, hm1]
      dsimp only
      have hcon : Has V H cs m1 := ⟨cr, hm1, q2⟩
      refine ⟨I.fn, I.confFn, I.inc, I.main, fun _ => hcon, fun h => absurd h hne, ?_⟩
      dsimp only
      obtain ⟨pos, p1, p2⟩ := I.past
      refine past_grow pos (fun b mm cc => ∃ rs cs dir, Counts V.C H env flags b rs cs dir ∧ Has V H rs mm ∧
        (optConfig.value env flags ≠ [] → Has V H cs cc) ∧ (optConfig.value env flags = [] → cs = [])) p1 p2
        (fun j => .conf d :: log) (fun j j' hj hj' => List.suffix_refl _) (fun j hj => ⟨List.suffix_cons _ _, List.suffix_refl _⟩) (fun j h0' hj => ?_)
        (List.suffix_cons _ _)
      have e1 : [LSeen.conf (ι := ι) m1].take j = [.conf m1] := by
        simp at hj
        obtain rfl : j = 1 := by omega
        rfl
      rw [e1]
      refine ⟨?_, rs, cs, dir, .confGood _ _ _ _ _ _ h0 (.inr ⟨hne, f, out, k1, k2, k3⟩) hdist, ?_, fun _ => ?_, fun h => absurd h hne⟩
      · rw [List.filter_append, fruns_seen hrun]
        simp [LSeen.plain, seenOf]
      · rw [mainAt_append, ← L.main]
        exact I.main
      · rw [confAt_append]
        exact hcon
    | confBad _ _ _ _ _ h0 _ hb =>
      have I := ih h0
      have e : ((H.now d).readConf s.config l.confFn l.dir).bind (treeFromLDIF V.C (askedCfg V.C env flags loopback base).idx) = none := by
        rw [Host.readConf, I.confFn, I.inc, hc3]
        exact file_bad (H := H.now d) hL (askedCfg V.C env flags loopback base) hb
      unfold FLive.lookConf
      rw [openLdif_eq hfold, e]
      dsimp only
      obtain ⟨pos, p1, p2⟩ := I.past
      exact ⟨I.fn, I.confFn, I.inc, I.main, I.conf, I.none, pos, p1, fun i hi => ⟨(p2 i hi).1.trans (List.suffix_cons _ _), (p2 i hi).2⟩⟩
  | main log l d hrun hd hr ih =>
    have L := linv (fruns_reach hrun)
    have hdirs : ∀ dir0 dir', (IncludeDir (H.now d) (absPath H.cwd (optMain.value env flags)) dir' ∨
        (d.isDir (absPath H.cwd (optMain.value env flags)) = none ∧ dir' = dir0)) → l.dir = dir0 →
        ((H.now d).readMain s.config (absPath H.cwd (optMain.value env flags)) l.dir).2 = dir' := by
      intro dir0 dir' hdir h7
      unfold Host.readMain
      rcases hdir with (⟨e, rfl⟩ | ⟨e, rfl⟩) | ⟨e, rfl⟩
      · rw [e]
      · rw [e]
      · rw [show (H.now d).isDir (absPath H.cwd (optMain.value env flags)) = Option.none from e]
        exact h7
    cases hlat with
    | mainGood _ rs0 _ _ dir0 _ _ h0 hfs hdist hi =>
      have I := ih h0
      obtain ⟨recs', k1, k2⟩ := main_says (H := H.now d) (env := env) (flags := flags) hL hcwd hc3 hfs l.dir
      obtain ⟨m1, hm1⟩ := (data_distinct (L := H.lib) hL V (askedCfg V.C env flags loopback base) k2).2 hdist
      unfold FLive.lookMain
      dsimp only
      have e : openLdif V (askedCfg V.C env flags loopback base) (askedCfg V.C env flags loopback base).base
          ((H.now d).readMain s.config l.fn l.dir).1 = some m1 := by
        rw [I.fn]
        have k1' : ((H.now d).readMain s.config (absPath H.cwd (optMain.value env flags)) l.dir).1 = some recs' := k1
        rw [openLdif_eq hf1, k1', Option.bind_some, hm1]
      rw [e]
      dsimp only
      have hmain : Has V H rs m1 := ⟨recs', hm1, k2⟩
      refine ⟨I.fn, I.confFn, ?_, hmain, I.conf, I.none, ?_⟩
      · dsimp only
        rw [I.fn]
        exact hdirs dir0 dir (.inl hi) I.inc
      dsimp only
      obtain ⟨pos, p1, p2⟩ := I.past
      refine past_grow pos (fun b mm cc => ∃ rs cs dir, Counts V.C H env flags b rs cs dir ∧ Has V H rs mm ∧
        (optConfig.value env flags ≠ [] → Has V H cs cc) ∧ (optConfig.value env flags = [] → cs = [])) p1 p2
        (fun j => .main d :: log) (fun j j' hj hj' => List.suffix_refl _) (fun j hj => ⟨List.suffix_cons _ _, List.suffix_refl _⟩) (fun j h0' hj => ?_)
        (List.suffix_cons _ _)
      have e1 : [LSeen.main (ι := ι) m1].take j = [.main m1] := by
        simp at hj
        obtain rfl : j = 1 := by omega
        rfl
      rw [e1]
      refine ⟨?_, rs, cs, dir, .mainGood _ _ _ _ _ _ _ h0 hfs hdist hi, ?_, fun hne => ?_, I.none⟩
      · rw [List.filter_append, fruns_seen hrun]
        simp [LSeen.plain, seenOf]
      · rw [mainAt_append]
        exact hmain
      · rw [confAt_append, ← L.conf]
        exact I.conf hne
    | mainBad _ _ _ dir0 _ _ h0 hb hi =>
      have I := ih h0
      unfold FLive.lookMain
      dsimp only
      have e : openLdif V (askedCfg V.C env flags loopback base) (askedCfg V.C env flags loopback base).base
          ((H.now d).readMain s.config l.fn l.dir).1 = none := by
        rw [I.fn, openLdif_eq hf1]
        exact main_bad (H := H.now d) (env := env) (flags := flags) hL hcwd hc3 (askedCfg V.C env flags loopback base) hb l.dir
      rw [e]
      dsimp only
      obtain ⟨pos, p1, p2⟩ := I.past
      refine ⟨I.fn, I.confFn, ?_, I.main, I.conf, I.none, pos, p1, fun i hi => ⟨(p2 i hi).1.trans (List.suffix_cons _ _), (p2 i hi).2⟩⟩
      dsimp only
      rw [I.fn]
      exact hdirs dir0 dir hi I.inc

/-! ## Moments -/

theorem seenOf_le {a b : List (FSeen ι)} (h : a <:+ b) : (seenOf a).length ≤ (seenOf b).length := by
  obtain ⟨t, rfl⟩ := h
  rw [seenOf_append]
  simp

theorem mem_seenOf {log : List (FSeen ι)} {e : LSeen ι} : e ∈ seenOf log ↔ .seen e ∈ log := by
  unfold seenOf
  rw [List.mem_reverse, List.mem_filterMap]
  constructor
  · rintro ⟨x, h1, h2⟩
    cases x <;> cases h2
    exact h1
  · exact fun h => ⟨_, h, rfl⟩

/-- The moments at which the data for an answer was looked up. -/
theorem moments [DecidableEq ι] (hL : H.lib.Lawful) (hcwd : isAbsPath H.cwd = true) {W : WalkOrd} {loop : Nat → Bool}
    (hh : optHandler.value env flags = b!"ldif") {s : Started} (h : launch V H loopback env flags = .serves s)
    {base : DN} (hbn : parseDN V.C (optBase.value env flags) = some base) {cfg : LdifCfg} {m c : LMem} (hbk : s.backend = .ldif cfg m c)
    {log : List (FSeen ι)} {l : FLive ι} (hr : FRuns V W H cfg s loop m c log l) {rs cs : List LdifRecord} {dir : Str}
    (hlat : Counts V.C H env flags log rs cs dir) {id : ι} {cn : Nat} {p : Packet} {o : Oracle} {resps : List Resp} {before between : List (FSeen ι)}
    (ha : AnsweredIn log id cn p o resps before between) (hp : ¬ Paged V p) (hg : AsksSearch p → .seen (.gaveUp id) ∉ between ++ before) :
    ∃ bound x y z rs₁ cs₁ d₁ rs₂ cs₂ d₂ l', LastBind V.C cn (iosOf before) bound ∧ between = x ++ (y ++ z) ∧
      (y = [] ∨ ∃ dn, BindName p dn) ∧
      Counts V.C H env flags (z ++ .seen (.io (.arrive id (.packet cn p o))) :: before) rs₁ cs₁ d₁ ∧
      Counts V.C H env flags (y ++ z ++ .seen (.io (.arrive id (.packet cn p o))) :: before) rs₂ cs₂ d₂ ∧
      Serving V W H env flags (askedCfg V.C env flags (loop cn) base) s rs₂ cs₁ dir l' ∧
      (handlePacket V (ldifSrv V W (askedCfg V.C env flags (loop cn) base) s.genPwLen s.stats) o p bound l'.st).resps = resps := by
  obtain ⟨-, -, d0, recs0, m', conf', hb', -⟩ := launch_ldif hh h hbn
  have I := fruns_inv hL hcwd hh h hbn hbk hr hlat
  rw [hbk] at hb'
  cases hb'
  obtain ⟨after, hlog⟩ := ha
  -- the same in the trace
  have htr := fruns_seen hr
  rw [hlog, seenOf_append, seenOf_cons_seen, seenOf_append, seenOf_cons_seen, List.append_assoc, List.append_assoc, List.append_assoc] at htr
  obtain ⟨T1, R1, e1, f1, htr⟩ := List.filter_eq_append_iff.1 htr
  obtain ⟨N1, R2, e2, f2, -, htr⟩ := List.filter_eq_cons_iff.1 (show R1.filter LSeen.plain = LSeen.io (.arrive id (.packet cn p o)) ::
    (seenOf between ++ ([LSeen.io (.answer id resps)] ++ seenOf after)) from htr)
  obtain ⟨T2, R3, e3, f3, htr⟩ := List.filter_eq_append_iff.1 htr
  obtain ⟨N2, R4, e4, f4, -, htr⟩ := List.filter_eq_cons_iff.1 (show R3.filter LSeen.plain = LSeen.io (.answer id resps) :: seenOf after from htr)
  have nofilter : ∀ N : List (LSeen ι), (∀ x ∈ N, ¬ x.plain = true) → N.filter LSeen.plain = [] := fun N hN => List.filter_eq_nil_iff.2 hN
  have hA : (T1 ++ N1).filter LSeen.plain = seenOf before := by rw [List.filter_append, f1, nofilter _ f2, List.append_nil]
  have hB : (T2 ++ N2).filter LSeen.plain = seenOf between := by rw [List.filter_append, f3, nofilter _ f4, List.append_nil]
  have htrace : l.par.trace = (T1 ++ N1) ++ .io (.arrive id (.packet cn p o)) :: ((T2 ++ N2) ++ .io (.answer id resps) :: R4) := by
    rw [e1, e2, e3, e4]
    simp
  clear e1 f1 e2 f2 e3 f3 e4 f4 htr
  generalize T1 ++ N1 = A at *
  generalize T2 ++ N2 = D at *
  have hk : l.par.trace[A.length]? = some (.io (.arrive id (.packet cn p o))) := by rw [htrace]; simp
  have hn : l.par.trace[A.length + 1 + D.length]? = some (.io (.answer id resps)) := by
    rw [htrace, List.getElem?_append_right (by omega), show A.length + 1 + D.length - A.length = D.length + 1 from by omega, List.getElem?_cons_succ,
      List.getElem?_append_right (by omega)]
    simp
  have htk : l.par.trace.take A.length = A := by rw [htrace]; simp
  have htake : ∀ j, j ≤ D.length → l.par.trace.take (A.length + 1 + j) = A ++ .io (.arrive id (.packet cn p o)) :: D.take j := by
    intro j hj
    rw [htrace, List.take_append, List.take_of_length_le (by omega), show A.length + 1 + j - A.length = j + 1 from by omega, List.take_succ_cons,
      List.take_append_of_le_length hj]
  have hgu : AsksSearch p → .gaveUp id ∉ l.par.trace.take (A.length + 1 + D.length) := by
    intro hsearch
    have hg := hg hsearch
    rw [htake _ (Nat.le_refl _), List.take_length]
    intro hm
    rcases List.mem_append.1 hm with hm | hm
    · have : LSeen.gaveUp id ∈ A.filter LSeen.plain := List.mem_filter.2 ⟨hm, rfl⟩
      rw [hA] at this
      exact hg (List.mem_append_right _ (mem_seenOf.1 this))
    · rcases List.mem_cons.1 hm with hm | hm
      · cases hm
      · have : LSeen.gaveUp id ∈ D.filter LSeen.plain := List.mem_filter.2 ⟨hm, rfl⟩
        rw [hB] at this
        exact hg (List.mem_append_left _ (mem_seenOf.1 this))
  obtain ⟨bound, i, i', hlb, hi1, hi2, hi3, hi4, hst⟩ := C85_overlapping_partial (fruns_reach hr) hk hn hp hgu
  rw [htk] at hlb
  have hlb' : LastBind V.C cn (iosOf before) bound := by
    rw [iosOf_seenOf, ← hA, ios_plain]
    exact hlb
  obtain ⟨pos, p1, p2⟩ := I.past
  have hlen : A.length + 1 + D.length < l.par.trace.length := by rw [htrace]; simp; omega
  have place : ∀ i, A.length < i → i ≤ A.length + 1 + D.length → ∃ x z, between = x ++ z ∧ pos i = z ++ .seen (.io (.arrive id (.packet cn p o))) :: before := by
    intro i h1 h2
    obtain ⟨q1, q2, -⟩ := p2 i (by omega)
    obtain ⟨j, rfl⟩ : ∃ j, i = A.length + 1 + j := ⟨i - A.length - 1, by omega⟩
    rw [htake j (by omega), List.filter_append, List.filter_cons, if_pos (show LSeen.plain _ = true from rfl), hA] at q2
    have lenL : (seenOf before).length + 1 ≤ (seenOf (pos (A.length + 1 + j))).length := by rw [← q2]; simp
    have lenU : (seenOf (pos (A.length + 1 + j))).length ≤ (seenOf before).length + 1 + (seenOf between).length := by
      rw [← q2, ← hB]
      have : ((D.take j).filter LSeen.plain).length ≤ (D.filter LSeen.plain).length := ((List.take_sublist j D).filter _).length_le
      simp
      omega
    have s1 : .seen (.io (.arrive id (.packet cn p o))) :: before <:+ pos (A.length + 1 + j) := by
      have hs : .seen (.io (.arrive id (.packet cn p o))) :: before <:+ log := ⟨after ++ .seen (.io (.answer id resps)) :: between, by rw [hlog]; simp⟩
      rcases List.suffix_or_suffix_of_suffix hs q1 with h | h
      · exact h
      · rcases List.suffix_cons_iff.1 h with h | h
        · rw [h]; exact List.suffix_refl _
        · have := seenOf_le h
          omega
    have s2 : pos (A.length + 1 + j) <:+ between ++ .seen (.io (.arrive id (.packet cn p o))) :: before := by
      have hs : between ++ .seen (.io (.arrive id (.packet cn p o))) :: before <:+ log := ⟨after ++ [.seen (.io (.answer id resps))], by rw [hlog]; simp⟩
      rcases List.suffix_or_suffix_of_suffix hs q1 with h | h
      · have hs' : .seen (.io (.answer id resps)) :: (between ++ .seen (.io (.arrive id (.packet cn p o))) :: before) <:+ log := ⟨after, by rw [hlog]⟩
        rcases List.suffix_or_suffix_of_suffix hs' q1 with h' | h'
        · have := seenOf_le h'
          rw [seenOf_cons_seen, seenOf_append, seenOf_cons_seen] at this
          simp at this
          omega
        · rcases List.suffix_cons_iff.1 h' with h' | h'
          · rw [h', seenOf_cons_seen, seenOf_append, seenOf_cons_seen] at lenU
            simp at lenU
            omega
          · exact h'
      · exact h
    obtain ⟨z, hz⟩ := s1
    obtain ⟨x, hx⟩ := s2
    refine ⟨x, z, ?_, hz.symm⟩
    rw [← hz, ← List.append_assoc] at hx
    exact (List.append_cancel_right hx).symm
  obtain ⟨x1, z, hz1, hz2⟩ := place i hi1 (by omega)
  obtain ⟨x, yz, hy1, hy2⟩ := place i' (by omega) hi3
  obtain ⟨y, hy⟩ : ∃ y, yz = y ++ z := by
    obtain ⟨t, ht⟩ := p1 i i' hi2 (by omega)
    rw [hz2, hy2, ← List.append_assoc] at ht
    exact ⟨t, (List.append_cancel_right ht).symm⟩
  obtain ⟨-, -, rs₁, cs₁, d₁, k1, k2, k3, k4⟩ := p2 i (by omega)
  obtain ⟨-, -, rs₂, cs₂, d₂, g1, ⟨recs, g2, g2'⟩, g3, g4⟩ := p2 i' (by omega)
  let st : LdifSt := ⟨mainAt m (l.par.trace.take i'), confAt c (l.par.trace.take i), [], fun _ => [], fun _ => none, 0, fun _ => true, 0⟩
  refine ⟨bound, x, y, z, rs₁, cs₁, d₁, rs₂, cs₂, d₂, ⟨l.fn, l.confFn, l.dir, st⟩, hlb', by rw [hy1, hy], ?_, hz2 ▸ k1, ?_, ?_, ?_⟩
  · rcases hi4 with rfl | ⟨-, hd⟩
    · left
      rw [hz2] at hy2
      have := List.append_cancel_right hy2
      rw [hy] at this
      have := congrArg List.length this
      simp at this
      exact this
    · exact .inr hd
  · rw [← hy, ← hy2]
    exact g1
  · exact ⟨I.fn, I.confFn, ⟨recs, [], .start _ _ _ _ _ _ g2, g2'⟩, k3, k4, I.inc⟩
  · exact hst st rfl rfl

theorem unpaged_msg (V : Env) (mid : Int) (req : Packet) : ¬ Paged V (wMsg mid req) := by
  rintro ⟨q, hq, -⟩
  exact absurd (show q ∈ ([] : List Packet) from hq) (by simp)

/-- C107: an LDIF server serves any number of clients at the same time, while SIGHUPs make it read the files on disk again. A search (without
paging and size limit, by a client that may read, whose producer does not give up) is answered from the records of the main files that counted at
one moment between its arrival and its answer: with those in scope that satisfy the filter, each once, with the values asked for. The conditions
on names, filter and records are those of C95. -/
theorem C107_search_partial [DecidableEq ι] (hC : V.C.Lawful) {W : WalkOrd} (hW : W.Lawful) (hL : H.lib.Lawful) (hcwd : isAbsPath H.cwd = true)
    {loop : Nat → Bool} (hh : optHandler.value env flags = b!"ldif") (s : Started) (h : launch V H loopback env flags = .serves s)
    (base : DN) (hbn : parseDN V.C (optBase.value env flags) = some base) {cfg : LdifCfg} {m c : LMem} (hbk : s.backend = .ldif cfg m c)
    {log : List (FSeen ι)} {l : FLive ι} (hr : FRuns V W H cfg s loop m c log l) {rs cs : List LdifRecord} {dir : Str}
    (hlat : Counts V.C H env flags log rs cs dir)
    (b : Str) (nb : DN) (hb : parseDN V.C b = some nb) (hbase : hasSuffix (V.C.lower b) (normalize V.C base) = true)
    (scope : Nat) (hs : scope ≤ 2) (hroot : scope = 1 → nb ≠ []) (f : Filter) (w : Packet) (hw : Wire f w) (hfo : FilterOk f) (h1 : OneComponent f) (hsup : Supported f)
    (ends : Bool) (hlost : NoneLost V.C defaultIdx ends f = true) (attrs : List Str) (hrep : NoRepeat V.C attrs)
    (id : ι) (cn : Nat) (mid : Int) (o : Oracle) (resps : List Resp) (before between : List (FSeen ι))
    (ha : AnsweredIn log id cn (wMsg mid (wSearch b scope 0 w attrs)) o resps before between) (hg : .seen (.gaveUp id) ∉ between ++ before)
    (hread : ∀ bound, LastBind V.C cn (iosOf before) bound → MayRead V.C (askedCfg V.C env flags (loop cn) base) bound) :
    ∃ later earlier rs' cs' dir', between = later ++ earlier ∧
      Counts V.C H env flags (earlier ++ .seen (.io (.arrive id (.packet cn (wMsg mid (wSearch b scope 0 w attrs)) o))) :: before) rs' cs' dir' ∧
      ((∀ r ∈ rs', TextTells V.C scope b r.dn) →
       (∀ r ∈ rs', CaseAgrees V.C (r.seen V.C) f ∧ (ends = true → EndsAgree V.C (r.seen V.C) f)) →
        ∃ (found : List LdifRecord) (sent : List Entry), found.Nodup ∧
          (∀ r, r ∈ found ↔ r ∈ rs' ∧ TextInScope V.C scope b r.dn ∧ Sat V.C (fun _ _ => False) (r.seen V.C) f) ∧
          Matched (SentFor V.C attrs) found sent ∧ resps = sent.map (.entry mid) ++ [.searchDone mid 0 (some [])]) := by
  obtain ⟨bound, x, y, z, rs₁, cs₁, d₁, rs₂, cs₂, d₂, l', e1, e2, -, -, e5, e6, e7⟩ := moments hL hcwd hh h hbn hbk hr hlat ha (unpaged_msg _ _ _) (fun _ => hg)
  refine ⟨x, y ++ z, rs₂, cs₂, d₂, e2, e5, fun hdn hagree => ?_⟩
  obtain ⟨found, sent, k1, k2, k3, k4⟩ := serving_search hC hW hL e6 bound (hread bound e1) b nb hb hbase scope hs hroot hdn f w hw hfo h1 hsup ends hlost
    hagree attrs hrep o mid
  exact ⟨found, sent, k1, k2, k3, by rw [← e7, k4]⟩

/-- C107: in particular a record that the main files have at every moment at which they counted between arrival and answer is sent, if it is in scope
and satisfies the filter. -/
theorem C107_record_partial [DecidableEq ι] (hC : V.C.Lawful) {W : WalkOrd} (hW : W.Lawful) (hL : H.lib.Lawful) (hcwd : isAbsPath H.cwd = true)
    {loop : Nat → Bool} (hh : optHandler.value env flags = b!"ldif") (s : Started) (h : launch V H loopback env flags = .serves s)
    (base : DN) (hbn : parseDN V.C (optBase.value env flags) = some base) {cfg : LdifCfg} {m c : LMem} (hbk : s.backend = .ldif cfg m c)
    {log : List (FSeen ι)} {l : FLive ι} (hr : FRuns V W H cfg s loop m c log l) {rs cs : List LdifRecord} {dir : Str}
    (hlat : Counts V.C H env flags log rs cs dir)
    (b : Str) (nb : DN) (hb : parseDN V.C b = some nb) (hbase : hasSuffix (V.C.lower b) (normalize V.C base) = true)
    (scope : Nat) (hs : scope ≤ 2) (hroot : scope = 1 → nb ≠ []) (f : Filter) (w : Packet) (hw : Wire f w) (hfo : FilterOk f) (h1 : OneComponent f) (hsup : Supported f)
    (ends : Bool) (hlost : NoneLost V.C defaultIdx ends f = true) (attrs : List Str) (hrep : NoRepeat V.C attrs)
    (id : ι) (cn : Nat) (mid : Int) (o : Oracle) (resps : List Resp) (before between : List (FSeen ι))
    (ha : AnsweredIn log id cn (wMsg mid (wSearch b scope 0 w attrs)) o resps before between) (hg : .seen (.gaveUp id) ∉ between ++ before)
    (hread : ∀ bound, LastBind V.C cn (iosOf before) bound → MayRead V.C (askedCfg V.C env flags (loop cn) base) bound)
    (r : LdifRecord) (hin : TextInScope V.C scope b r.dn) (hsat : Sat V.C (fun _ _ => False) (r.seen V.C) f)
    (hall : ∀ later earlier rs' cs' dir', between = later ++ earlier →
      Counts V.C H env flags (earlier ++ .seen (.io (.arrive id (.packet cn (wMsg mid (wSearch b scope 0 w attrs)) o))) :: before) rs' cs' dir' →
      r ∈ rs' ∧ (∀ r ∈ rs', TextTells V.C scope b r.dn) ∧
        (∀ r ∈ rs', CaseAgrees V.C (r.seen V.C) f ∧ (ends = true → EndsAgree V.C (r.seen V.C) f))) :
    ∃ e, Resp.entry mid e ∈ resps ∧ SentFor V.C attrs r e := by
  obtain ⟨later, earlier, rs', cs', dir', k1, k2, k3⟩ := C107_search_partial hC hW hL hcwd hh s h base hbn hbk hr hlat b nb hb hbase scope hs hroot f w hw hfo h1
    hsup ends hlost attrs hrep id cn mid o resps before between ha hg hread
  obtain ⟨q1, q2, q3⟩ := hall later earlier rs' cs' dir' k1 k2
  obtain ⟨found, sent, -, g2, g3, g4⟩ := k3 q2 q3
  obtain ⟨e, he, hs⟩ := matched_mem_left g3 r ((g2 r).2 ⟨q1, hin, hsat⟩)
  exact ⟨e, by rw [g4]; exact List.mem_append_left _ (List.mem_map.2 ⟨e, he, rfl⟩), hs⟩

/-- C107: a bind looks at the config file's records as they counted at one moment between its arrival and its answer, and then, if there is none of
that name, at those of the main files as they counted at that moment or a later one before the answer. With these it succeeds exactly as in C101. -/
theorem C107_bind_partial [DecidableEq ι] (hC : V.C.Lawful) {W : WalkOrd} (hW : W.Lawful) (hL : H.lib.Lawful) (hcwd : isAbsPath H.cwd = true)
    {loop : Nat → Bool} (hh : optHandler.value env flags = b!"ldif") (s : Started) (h : launch V H loopback env flags = .serves s)
    (base : DN) (hbn : parseDN V.C (optBase.value env flags) = some base) {cfg : LdifCfg} {m c : LMem} (hbk : s.backend = .ldif cfg m c)
    {log : List (FSeen ι)} {l : FLive ι} (hr : FRuns V W H cfg s loop m c log l) {rs cs : List LdifRecord} {dir : Str}
    (hlat : Counts V.C H env flags log rs cs dir)
    (dn name pw : Str) (hdn : V.C.lower dn ≠ []) (hname : parseNormalize V.C dn = some name) (hpw : pw ≠ [])
    (id : ι) (cn : Nat) (mid : Int) (o : Oracle) (resps : List Resp) (before between : List (FSeen ι))
    (ha : AnsweredIn log id cn (wMsg mid (wBind dn pw)) o resps before between) :
    ∃ later middle earlier rs₁ cs₁ dir₁ rs₂ cs₂ dir₂ code, between = later ++ (middle ++ earlier) ∧
      Counts V.C H env flags (earlier ++ .seen (.io (.arrive id (.packet cn (wMsg mid (wBind dn pw)) o))) :: before) rs₁ cs₁ dir₁ ∧
      Counts V.C H env flags (middle ++ earlier ++ .seen (.io (.arrive id (.packet cn (wMsg mid (wBind dn pw)) o))) :: before) rs₂ cs₂ dir₂ ∧
      resps = [.result mid 1 code] ∧
      let configUser := ∃ c ∈ cs₁, V.C.lower c.dn = V.C.lower dn
      (code = 0 ↔
        (configUser ∧ V.C.lower (optBase.value env flags) <:+ V.C.lower dn ∧ ∃ c ∈ cs₁, V.C.lower c.dn = V.C.lower dn ∧ c.opensLast V.C V.K pw) ∨
        (¬ configUser ∧ normalize V.C base <:+ V.C.lower dn ∧ ∃ r ∈ rs₂, V.C.lower r.dn = V.C.lower dn ∧ r.opensLast V.C V.K pw)) := by
  obtain ⟨bound, x, y, z, rs₁, cs₁, d₁, rs₂, cs₂, d₂, l', e1, e2, -, e4, e5, e6, e7⟩ := moments hL hcwd hh h hbn hbk hr hlat ha (unpaged_msg _ _ _) (by
    rintro ⟨_, req, ⟨_, _, q1, -⟩, q2⟩
    cases q1
    exact absurd (show (0 : Nat) = 3 from q2) (by decide))
  obtain ⟨k1, k2⟩ := serving_bind hC hW hL e6 dn name pw hdn hname hpw o mid bound
  rw [e7] at k1 k2
  by_cases hacc : ((∃ c ∈ cs₁, V.C.lower c.dn = V.C.lower dn) ∧ V.C.lower (optBase.value env flags) <:+ V.C.lower dn ∧
      ∃ c ∈ cs₁, V.C.lower c.dn = V.C.lower dn ∧ c.opensLast V.C V.K pw) ∨
      (¬ (∃ c ∈ cs₁, V.C.lower c.dn = V.C.lower dn) ∧ normalize V.C base <:+ V.C.lower dn ∧
      ∃ r ∈ rs₂, V.C.lower r.dn = V.C.lower dn ∧ r.opensLast V.C V.K pw)
  · exact ⟨x, y, z, rs₁, cs₁, d₁, rs₂, cs₂, d₂, 0, e2, e4, e5, (k1 hacc).1, ⟨fun _ => hacc, fun _ => rfl⟩⟩
  · obtain ⟨code, hc, hcr, -⟩ := k2 hacc
    exact ⟨x, y, z, rs₁, cs₁, d₁, rs₂, cs₂, d₂, code, e2, e4, e5, hcr, ⟨fun h => absurd h hc, fun h => absurd h hacc⟩⟩

end
end

/-! ## Examples -/

/-- Moves of the server: a packet arrives, a goroutine or producer goes on and nothing is seen, the goroutine of a connection sends its responses
or makes a cookie, the server looks at its files. -/
inductive FMove where
  | arrive (c : Nat) (id : Nat) (o : Oracle) (p : Packet)
  | on (mv : LMove Nat)
  | answer (c id : Nat) (rs : List Resp)
  | cookie (c id : Nat)
  | conf (d : Disk)
  | main (d : Disk)

/-- What is seen when it is done. -/
def FMove.shows : FMove → List (FSeen Nat)
  | .arrive c id o p => [.seen (.io (.arrive id (.packet c p o)))]
  | .on _ => []
  | .answer _ id rs => [.seen (.io (.answer id rs))]
  | .cookie _ id => [.seen (.cookie id b!"abcdefghijk")]
  | .conf d => [.conf d]
  | .main d => [.main d]

/-- This is the answer `rs` to `id` and nothing else. -/
def isAnswer (id : Nat) (rs : List Resp) : List (LSeen Nat) → Bool
  | [.io (.answer id' rs')] => id' = id ∧ rs' = rs
  | _ => false

theorem isAnswer_eq {id : Nat} {rs : List Resp} {x : List (LSeen Nat)} (h : isAnswer id rs x = true) : x = [.io (.answer id rs)] := by
  unfold isAnswer at h
  split at h
  · simp only [decide_eq_true_eq] at h
    rw [h.1, h.2]
  · cases h

/-- This is the cookie `k` of `id` and nothing else. -/
def isCookie (id : Nat) (k : Str) : List (LSeen Nat) → Bool
  | [.cookie id' k'] => id' = id ∧ k' = k
  | _ => false

theorem isCookie_eq {id : Nat} {k : Str} {x : List (LSeen Nat)} (h : isCookie id k x = true) : x = [.cookie id k] := by
  unfold isCookie at h
  split at h
  · simp only [decide_eq_true_eq] at h
    rw [h.1, h.2]
  · cases h

section
variable (V : Env) (W : WalkOrd) (H : Host) (cfg : LdifCfg) (s : Started) (loop : Nat → Bool)

/-- Do a move, if it is possible. -/
def fMove (l : FLive Nat) (mv : FMove) : Option (FLive Nat) :=
  if l.par.down then none
  else match mv with
    | .arrive c id o p => (lMove V W cfg s.genPwLen s.stats loop b!"abcdefghijk" l.par (.arrive c id o p)).map fun q => { l with par := q }
    | .on mv => match lMove V W cfg s.genPwLen s.stats loop b!"abcdefghijk" l.par mv with
      | none => none
      | some q => if q.trace.length == l.par.trace.length && q.reloading == l.par.reloading then some { l with par := q } else none
    | .answer c id rs => match lMove V W cfg s.genPwLen s.stats loop b!"abcdefghijk" l.par (.go c) with
      | none => none
      | some q => if isAnswer id rs (q.trace.drop l.par.trace.length) && q.reloading == l.par.reloading then some { l with par := q } else none
    | .cookie c id => match lMove V W cfg s.genPwLen s.stats loop b!"abcdefghijk" l.par (.go c) with
      | none => none
      | some q => if isCookie id b!"abcdefghijk" (q.trace.drop l.par.trace.length) && q.reloading == l.par.reloading then some { l with par := q } else none
    | .conf d => if cfg.conf && !l.par.reloading then some (l.lookConf V H cfg s d) else none
    | .main d => if l.par.reloading == cfg.conf then some (l.lookMain V H cfg s d) else none

/-- Do moves. -/
def fMoves (l : FLive Nat) : List FMove → Option (FLive Nat)
  | [] => some l
  | mv :: ms => match fMove V W H cfg s loop l mv with
    | none => none
    | some l' => fMoves l' ms

theorem fMove_runs {m c : LMem} {log : List (FSeen Nat)} {l l' : FLive Nat} {mv : FMove} (h : FRuns V W H cfg s loop m c log l)
    (e : fMove V W H cfg s loop l mv = some l') : FRuns V W H cfg s loop m c (mv.shows ++ log) l' := by
  unfold fMove at e
  by_cases hd : l.par.down = true
  · rw [if_pos hd] at e; cases e
  rw [if_neg hd] at e
  have hd : l.par.down = false := by simpa using hd
  have grow : ∀ {mv : LMove Nat} {q : LPar Nat}, lMove V W cfg s.genPwLen s.stats loop b!"abcdefghijk" l.par mv = some q → ∃ x, q.trace = l.par.trace ++ x := by
    intro mv q hq
    exact lMoves_grows (V := V) (W := W) (cfg := cfg) (g := s.genPwLen) (stats := s.stats) (loop := loop) (key := b!"abcdefghijk") [mv]
      (s := l.par) (s' := q) (by unfold lMoves; rw [if_neg (by simp [hd]), hq]; rfl)
  cases mv with
  | arrive c id o p =>
    simp only [Option.map_eq_some_iff] at e
    obtain ⟨q, hq, rfl⟩ := e
    have hst := lMove_step hd hq
    simp only [lMove] at hq
    split at hq
    · split at hq
      · cases hq
        exact .work log l _ [.io (.arrive id (.packet c p o))] h hst rfl (fun _ => ⟨by simp, by simp⟩) rfl
      · cases hq
    · cases hq
  | on mv =>
    simp only [] at e
    split at e
    · cases e
    · rename_i q hq
      split at e
      · rename_i hc
        cases e
        simp only [Bool.and_eq_true, beq_iff_eq] at hc
        obtain ⟨x, hx⟩ := grow hq
        have : x = [] := by
          have := hc.1
          rw [hx, List.length_append] at this
          exact List.eq_nil_of_length_eq_zero (by omega)
        subst this
        exact .work log l q [] h (lMove_step hd hq) hx (fun _ => ⟨by simp, by simp⟩) hc.2
      · cases e
  | answer c id rs =>
    simp only [] at e
    split at e
    · cases e
    · rename_i q hq
      split at e
      · rename_i hc
        cases e
        simp only [Bool.and_eq_true, beq_iff_eq] at hc
        obtain ⟨x, hx⟩ := grow hq
        have : x = [.io (.answer id rs)] := by
          have := hc.1
          rw [hx, List.drop_left] at this
          exact isAnswer_eq this
        subst this
        exact .work log l q _ h (lMove_step hd hq) hx (fun _ => ⟨by simp, by simp⟩) hc.2
      · cases e
  | cookie c id =>
    simp only [] at e
    split at e
    · cases e
    · rename_i q hq
      split at e
      · rename_i hc
        cases e
        simp only [Bool.and_eq_true, beq_iff_eq] at hc
        obtain ⟨x, hx⟩ := grow hq
        have : x = [.cookie id b!"abcdefghijk"] := by
          have := hc.1
          rw [hx, List.drop_left] at this
          exact isCookie_eq this
        subst this
        exact .work log l q _ h (lMove_step hd hq) hx (fun _ => ⟨by simp, by simp⟩) hc.2
      · cases e
  | conf d =>
    simp only [] at e
    split at e
    · rename_i hc
      cases e
      simp only [Bool.and_eq_true, Bool.not_eq_true'] at hc
      exact .conf log l d h hd hc.1 hc.2
    · cases e
  | main d =>
    simp only [] at e
    split at e
    · rename_i hc
      cases e
      exact .main log l d h hd (by simpa using hc)
    · cases e

theorem fMoves_runs {m c : LMem} (ms : List FMove) : ∀ {log : List (FSeen Nat)} {l l' : FLive Nat}, FRuns V W H cfg s loop m c log l →
    fMoves V W H cfg s loop l ms = some l' → FRuns V W H cfg s loop m c (ms.foldl (fun log mv => mv.shows ++ log) log) l' := by
  induction ms with
  | nil => intro log l l' h e; cases e; exact h
  | cons mv ms ih =>
    intro log l l' h e
    unfold fMoves at e
    split at e
    · cases e
    · rename_i hl
      exact ih (fMove_runs V W H cfg s loop h hl) e
end

/-- Moves of the server of the examples of C101. -/
def rpRun (ms : List FMove) : Option (FLive Nat) := match launch ldEnv rlHost true (fun _ => []) rlFlags with
  | .serves s => match s.backend with
    | .ldif cfg m c => fMoves ldEnv ldOrd rlHost cfg s (fun _ => true) (rlHost.flive s m c) ms
    | _ => none
  | _ => none

theorem rpRun_runs {ms : List FMove} (h : (rpRun ms).isSome = true) : ∃ s cfg m c l, launch ldEnv rlHost true (fun _ => []) rlFlags = .serves s ∧
    s.backend = .ldif cfg m c ∧ FRuns ldEnv ldOrd rlHost cfg s (fun _ => true) m c (ms.foldl (fun log mv => mv.shows ++ log) []) l := by
  unfold rpRun at h
  split at h
  · rename_i s hs
    split at h
    · rename_i cfg m c hb
      obtain ⟨l, hl⟩ := Option.isSome_iff_exists.1 h
      exact ⟨s, cfg, m, c, l, hs, hb, fMoves_runs _ _ _ _ _ _ ms .start hl⟩
    · cases h
  · cases h

/-- A main file without Bob. -/
def rpText : Str := b!"dn: dc=lg\ndc: lg\n"

def rpRecords : List LdifRecord := [⟨b!"dc=lg", [(b!"dc", b!"lg")]⟩]

theorem rpText_says : LdifSays rpText rpRecords := by
  refine ⟨[b!"dn: dc=lg", b!"dc: lg"], [[b!"dn: dc=lg", b!"dc: lg"]], hasLines_lf _ (by decide), ?_, .plain _ _ ?_⟩
  · exact .last _ _ (by decide) (.line _ [b!"dn: dc=lg"] _ _ ⟨_, [], rfl, rfl, by decide⟩ (.line _ [b!"dc: lg"] [] [] ⟨_, [], rfl, rfl, by decide⟩ .done))
  · exact .cons _ _ _ _ (.mk _ _ _ (.plain b!"dn" b!"dc=lg" 1 (by decide) (by decide)) (by simp [rpRecords])
      (.cons _ _ _ _ ⟨.plain b!"dc" b!"lg" 1 (by decide) (by decide), by decide, by decide, by decide⟩ .nil)) .nil

theorem rp_main (d : Option Str) : FilesSay (rlHost.now (rlDisk (some rpText) d)) (askedVars (fun _ => []) rlFlags)
    (absPath rlHost.cwd (optMain.value (fun _ => []) rlFlags)) rpRecords := by
  rw [show absPath rlHost.cwd (optMain.value (fun _ => []) rlFlags) = b!"/srv/d/a.ldif" by decide +kernel]
  exact (filesSay_plain (fun _ _ _ _ _ => rfl) _).1 rpText _ rfl rfl rpText_says
    ⟨[b!"dn: dc=lg", b!"dc: lg"], hasLines_lf _ (by decide), by decide, by decide, by decide +kernel⟩

/-- Searches for `(cn=robert)` and for `(dc=lg)` by two clients, a bind as Bob by a third one. -/
def rpSearch : Packet := wMsg 7 (wSearch b!"dc=lg" 2 0 (wEq b!"cn" b!"robert") [b!"cn"])
def rpBase : Packet := wMsg 9 (wSearch b!"dc=lg" 2 0 (wEq b!"dc" b!"lg") [b!"dc"])
def rpBind : Packet := wMsg 8 (wBind b!"UID=bob,dc=lg" b!"secret")

def rpFound : List Resp := [.entry 7 ⟨b!"uid=bob,dc=lg", [⟨b!"cn", [b!"Bob", b!"Robert"]⟩]⟩, .searchDone 7 0 (some [])]
def rpBaseFound : List Resp := [.entry 9 ⟨b!"dc=lg", [⟨b!"dc", [b!"lg"]⟩]⟩, .searchDone 9 0 (some [])]

/-- The searches arrive and make their channels; the bind arrives and looks at the config file's records; SIGHUP: the config file is gone; SIGHUP: the
config file is there, and after the server has read it, but before it reads the main file, the first search takes the main file's records; then the main
file is read, without Bob; the bind looks at its records, and so does the second search; all are answered. -/
def rpMoves : List FMove := [.arrive 1 1 toyOracle rpSearch, .on (.go 1), .arrive 3 3 toyOracle rpBase, .on (.go 3), .arrive 2 2 toyOracle rpBind, .on (.go 2),
  .conf (rlDisk (some svText) none), .conf (rlDisk (some rpText) (some rlConf)), .on (.go 1), .main (rlDisk (some rpText) (some rlConf)),
  .on (.go 2), .answer 2 2 [.result 8 1 49], .on (.go 1), .on (.produce 0), .on (.produce 0), .on (.produce 0), .on (.go 1), .answer 1 1 rpFound,
  .on (.go 3), .on (.go 3), .on (.produce 1), .on (.produce 1), .on (.produce 1), .on (.go 3), .answer 3 3 rpBaseFound]

/-- What is seen. -/
def rpLog : List (FSeen Nat) := [.seen (.io (.answer 3 rpBaseFound)), .seen (.io (.answer 1 rpFound)), .seen (.io (.answer 2 [.result 8 1 49])),
  .main (rlDisk (some rpText) (some rlConf)), .conf (rlDisk (some rpText) (some rlConf)), .conf (rlDisk (some svText) none),
  .seen (.io (.arrive 2 (.packet 2 rpBind toyOracle))), .seen (.io (.arrive 3 (.packet 3 rpBase toyOracle))),
  .seen (.io (.arrive 1 (.packet 1 rpSearch toyOracle)))]

theorem rp_runs : ∃ s cfg m c l, launch ldEnv rlHost true (fun _ => []) rlFlags = .serves s ∧ s.backend = .ldif cfg m c ∧
    FRuns ldEnv ldOrd rlHost cfg s (fun _ => true) m c rpLog l := rpRun_runs (ms := rpMoves) (by decide +kernel)

theorem rp_counts_start : Counts (ι := Nat) asciiCase rlHost (fun _ => []) rlFlags [] svRecords rlConfRecords b!"/srv/d" :=
  .start _ _ _ (rl_main (some rlConf)) (rl_include (some svText) (some rlConf)) (rl_conf (some svText) _)

theorem rp_counts_conf : Counts (ι := Nat) asciiCase rlHost (fun _ => []) rlFlags (rpLog.drop 4) svRecords rlConfRecords b!"/srv/d" := by
  refine .confGood _ _ rlConfRecords _ _ _ ?_ (rl_conf _ _) (by unfold Distinct; decide)
  refine .confBad _ _ _ _ _ ?_ (by decide +kernel) (rl_conf_gone _ _)
  exact .seen _ _ _ _ _ (.seen _ _ _ _ _ (.seen _ _ _ _ _ rp_counts_start))

theorem rp_counts : Counts (ι := Nat) asciiCase rlHost (fun _ => []) rlFlags rpLog rpRecords rlConfRecords b!"/srv/d" := by
  refine .seen _ _ _ _ _ (.seen _ _ _ _ _ (.seen _ _ _ _ _ ?_))
  exact .mainGood _ svRecords _ _ b!"/srv/d" _ _ rp_counts_conf (rp_main _) (by unfold Distinct; decide) (rl_include _ _)

theorem rp_lastBind {c : Nat} {seen : List (Seen Nat)} (hno : ∀ id rs, Seen.answer id rs ∉ seen) {bound : Str}
    (h : LastBind asciiCase c seen bound) : bound = [] := by
  rcases h with ⟨h, -⟩ | ⟨t₁, id, rs, t₂, p, o, dn, e, -⟩
  · exact h
  · exact absurd (by rw [e]; simp) (hno id rs)

/-- The main file is looked at with one content only. -/
theorem rp_only {log : List (FSeen Nat)} {rs cs : List LdifRecord} {dir : Str} (h : Counts (ι := Nat) asciiCase rlHost (fun _ => []) rlFlags log rs cs dir) :
    (∀ d, FSeen.main d ∈ log → d = rlDisk (some rpText) (some rlConf)) → rs = svRecords ∨ rs = rpRecords := by
  induction h with
  | start rs cs dir h1 => intro _; exact .inl (C99_one_reading h1 (rl_main (some rlConf)))
  | seen _ _ _ _ _ _ ih => exact fun hd => ih fun d h => hd d (by simp [h])
  | confGood _ _ _ _ _ _ _ _ _ ih => exact fun hd => ih fun d h => hd d (by simp [h])
  | confBad _ _ _ _ _ _ _ _ ih => exact fun hd => ih fun d h => hd d (by simp [h])
  | mainGood _ _ _ _ _ _ d _ h1 _ _ _ =>
    intro hd
    cases hd d (by simp)
    exact .inr (C99_one_reading h1 (rp_main _))
  | mainBad _ _ _ _ _ _ _ _ _ ih => exact fun hd => ih fun d h => hd d (by simp [h])

/-- C107 applies to the first search -/
example (s : Started) (h : launch ldEnv rlHost true (fun _ => []) rlFlags = .serves s) {cfg : LdifCfg} {m c : LMem} (hb : s.backend = .ldif cfg m c)
    {l : FLive Nat} (hr : FRuns ldEnv ldOrd rlHost cfg s (fun _ => true) m c rpLog l) :=
  C107_search_partial (V := ldEnv) asciiCase_lawful ldOrd_lawful (H := rlHost) goLdif_lawful (by decide) (by decide +kernel)
    s h [[⟨b!"DC", b!"lg"⟩]] (by decide +kernel) hb hr rp_counts
    b!"dc=lg" [[⟨b!"dc", b!"lg"⟩]] (by decide +kernel) (by decide +kernel) 2 (by omega) (by decide) (.eq b!"cn" b!"robert") _ (wEq_wire _ _)
    (by decide +kernel : AttrText b!"cn") trivial trivial false (by decide +kernel) [b!"cn"] (by decide +kernel)
    1 1 7 toyOracle rpFound [] ((rpLog.drop 2).take 6) ⟨rpLog.take 1, rfl⟩ (by simp [rpLog])
    (fun bound hl => Or.inl ⟨rp_lastBind (seen := []) (by simp) hl, by decide +kernel, rfl⟩)

/-- to the bind -/
example (s : Started) (h : launch ldEnv rlHost true (fun _ => []) rlFlags = .serves s) {cfg : LdifCfg} {m c : LMem} (hb : s.backend = .ldif cfg m c)
    {l : FLive Nat} (hr : FRuns ldEnv ldOrd rlHost cfg s (fun _ => true) m c rpLog l) :=
  C107_bind_partial (V := ldEnv) asciiCase_lawful ldOrd_lawful (H := rlHost) goLdif_lawful (by decide) (by decide +kernel)
    s h [[⟨b!"DC", b!"lg"⟩]] (by decide +kernel) hb hr rp_counts b!"UID=bob,dc=lg" b!"uid=bob,dc=lg" b!"secret" (by decide) (by decide +kernel) (by decide)
    2 2 8 toyOracle [.result 8 1 49] (rpLog.drop 7) ((rpLog.drop 3).take 3) ⟨rpLog.take 2, rfl⟩

/-- and the record `dc=lg`, which counts all the time, is sent to the third client -/
example (s : Started) (h : launch ldEnv rlHost true (fun _ => []) rlFlags = .serves s) {cfg : LdifCfg} {m c : LMem} (hb : s.backend = .ldif cfg m c)
    {l : FLive Nat} (hr : FRuns ldEnv ldOrd rlHost cfg s (fun _ => true) m c rpLog l) :
    ∃ e, Resp.entry 9 e ∈ rpBaseFound ∧ SentFor asciiCase [b!"dc"] ⟨b!"dc=lg", [(b!"dc", b!"lg")]⟩ e := by
  refine C107_record_partial (V := ldEnv) asciiCase_lawful ldOrd_lawful (H := rlHost) goLdif_lawful (by decide) (by decide +kernel)
    s h [[⟨b!"DC", b!"lg"⟩]] (by decide +kernel) hb hr rp_counts
    b!"dc=lg" [[⟨b!"dc", b!"lg"⟩]] (by decide +kernel) (by decide +kernel) 2 (by omega) (by decide) (.eq b!"dc" b!"lg") _ (wEq_wire _ _)
    (by decide +kernel : AttrText b!"dc") trivial trivial false (by decide +kernel) [b!"dc"] (by decide +kernel)
    3 3 9 toyOracle rpBaseFound (rpLog.drop 8) ((rpLog.drop 1).take 6) ⟨[], rfl⟩ (by simp [rpLog])
    (fun bound hl => Or.inl ⟨rp_lastBind (by simp [iosOf, rpLog]) hl, by decide +kernel, rfl⟩) _
    ⟨[[⟨b!"dc", b!"lg"⟩]], [[⟨b!"dc", b!"lg"⟩]], by decide +kernel, by decide +kernel, .inr (.inr ⟨rfl, [], _, rfl, (dnEqFold_iff _ _).1 (by decide +kernel)⟩)⟩
    ⟨⟨b!"dc", [b!"lg"]⟩, by decide +kernel, by decide +kernel, b!"lg", by simp, by decide +kernel⟩ ?_
  intro later earlier rs' cs' dir' e hc
  have hrs : rs' = svRecords ∨ rs' = rpRecords := rp_only hc (by
    intro d hd
    have : FSeen.main d ∈ rpLog := by
      have h1 : rpLog = rpLog.take 1 ++ ((rpLog.drop 1).take 6 ++ rpLog.drop 7) := rfl
      rw [h1, e]
      simp only [List.mem_append, List.mem_cons] at hd ⊢
      rcases hd with hd | hd | hd
      · exact .inr (.inl (.inr hd))
      · cases hd
      · exact .inr (.inr (List.mem_cons_of_mem _ hd))
    simpa [rpLog] using this)
  rcases hrs with rfl | rfl
  · exact ⟨by simp [svRecords], sv_plain, fun r _ => ⟨ascii_agrees _ _, fun h => by cases h⟩⟩
  · refine ⟨by simp [rpRecords], ?_, fun r _ => ⟨ascii_agrees _ _, fun h => by cases h⟩⟩
    simp only [rpRecords, List.forall_mem_cons, List.not_mem_nil, false_implies, implies_true, and_true]
    exact C39_plain_names asciiCase_lawful (nb := [⟨b!"dc", b!"lg"⟩]) (ns := [⟨b!"dc", b!"lg"⟩]) (by decide +kernel) (by simp) (by decide +kernel)
      (by decide +kernel) 2 (by decide +kernel)

/-- what counts at the end -/
example {rs cs : List LdifRecord} {dir : Str} (h : Counts ldEnv.C rlHost (fun _ => []) rlFlags rpLog rs cs dir) :
    rs = rpRecords ∧ cs = rlConfRecords ∧ dir = b!"/srv/d" := by
  obtain ⟨s, hs⟩ := rl_starts
  exact C107_one_counts (V := ldEnv) goLdif_lawful (by decide) (launch_config hs).2.2 h rp_counts

end Idm
