import Verif.Spec.Reload
import Verif.Props.Launch
/-!
# C101: what an LDIF server serves over time
-/
namespace Idm

section
variable {V : Env} {H : Host} {loopback : Bool} {env : Str → Str} {flags : List Flag}

/-- The settings kept by a started server. -/
theorem launch_config {s : Started} (h : launch V H loopback env flags = .serves s) :
    s.config.ldifMain = optMain.value env flags ∧ s.config.ldifConfig = optConfig.value env flags ∧
    startVars s.config = askedVars env flags := by
  unfold launch at h
  cases hv : setFlags (setDefaults env initialVars) flags with
  | none => rw [hv] at h; cases h
  | some v =>
    rw [hv] at h
    dsimp only at h
    rcases ite_cases h with ⟨-, h⟩ | h
    · cases h
    rcases ite_cases h with ⟨-, h⟩ | h
    · cases h
    cases hs : newServer V H loopback (toConfig v) with
    | none => rw [hs] at h; cases h
    | some s' =>
      rw [hs] at h
      cases h
      obtain ⟨-, -, -, h4⟩ := (newServer_iff hv s).1 hs
      rw [h4, toConfig_values hv]
      exact ⟨rfl, rfl, rfl⟩

/-- A file that says `rs`, read as a template. -/
theorem file_says {L : LdifLib} (hL : L.Lawful) {run : List (Str × Str) → UInt64 → Str → Option Str} {vars : List (Str × Str)}
    {f : FileRead} {out : Str} {rs : List LdifRecord} (h3 : Becomes run vars f.data out) (h4 : LdifSays out rs) :
    ∃ recs, parseLDIFFile L (some run) vars 1000 (some f) = some recs ∧ DataOf L rs recs := by
  obtain ⟨recs, k, -⟩ := C90_read_partial hL h4
  refine ⟨recs, ?_, .file [] 0 out _ _ h4 k⟩
  rw [parseLDIFFile, Option.bind_some, becomes_parse h3]
  exact k

theorem data_distinct {L : LdifLib} (hL : L.Lawful) (V : Env) (cfg : LdifCfg) {rs : List LdifRecord} {recs : List (Option Entry)} (hd : DataOf L rs recs) :
    (∃ m, treeFromLDIF V.C cfg.idx recs = some m) ↔ Distinct V.C rs := C95_loads (V := V) (cfg := cfg) hL hd

theorem data_clash {L : LdifLib} (hL : L.Lawful) (V : Env) (cfg : LdifCfg) {rs : List LdifRecord} {recs : List (Option Entry)} (hd : DataOf L rs recs)
    (h : ¬ Distinct V.C rs) : treeFromLDIF V.C cfg.idx recs = none := by
  cases hm : treeFromLDIF V.C cfg.idx recs with
  | none => rfl
  | some m => exact absurd ((data_distinct hL V cfg hd).1 ⟨m, hm⟩) h

/-- Nothing is loaded from a bad file. -/
theorem file_bad (hL : H.lib.Lawful) (cfg : LdifCfg) {vars : List (Str × Str)} {dir path : Str} (h : FileBad V.C H vars dir path) :
    (parseLDIFFile H.lib (some (H.engine dir)) vars 1000 (H.read path)).bind (treeFromLDIF V.C cfg.idx) = none := by
  cases h with
  | missing h => rw [h]; rfl
  | template f h h1 => rw [h, parseLDIFFile, Option.bind_some, notATemplate_parse h1]; rfl
  | faulty f out h h1 hf =>
    obtain ⟨lines', recs, r, g1, g2, g3, g4, g5, g6⟩ := hf
    have : ldifUnmarshal H.lib out = none := C92_faulty_refused (L := H.lib) g1 g2 g3 g4 g5 g6
    rw [h, parseLDIFFile, Option.bind_some, becomes_parse h1, Option.bind_some, this]
    rfl
  | clash f out rs h h1 h2 h3 =>
    obtain ⟨recs, e, hd⟩ := file_says hL h1 h2
    rw [h, e]
    exact data_clash hL V cfg hd h3

/-- What is read from the main path is what the options ask for. -/
theorem readMain_yields {c : Config} (hc : startVars c = askedVars env flags) (dir : Str) (recs : List (Option Entry)) :
    (H.readMain c (absPath H.cwd (optMain.value env flags)) dir).1 = some recs ↔ ∃ dir, MainYields H env flags dir recs := by
  unfold Host.readMain MainYields DirYields FileYields
  rw [hc, askedVars, show autoStart none = 1000 from rfl]
  dsimp only
  cases H.isDir (absPath H.cwd (optMain.value env flags)) with
  | none => simp
  | some b => cases b <;> simp

theorem main_says (hL : H.lib.Lawful) (hcwd : isAbsPath H.cwd = true) {c : Config}
    (hc : startVars c = askedVars env flags)
    {rs : List LdifRecord} (hf : FilesSay H (askedVars env flags) (absPath H.cwd (optMain.value env flags)) rs) (dir : Str) :
    ∃ recs, (H.readMain c (absPath H.cwd (optMain.value env flags)) dir).1 = some recs ∧ DataOf H.lib rs recs := by
  obtain ⟨h1, d, recs, h2⟩ := mainYields_says (env := env) (flags := flags) hL hcwd hf
  exact ⟨recs, (readMain_yields hc dir recs).2 ⟨d, h2⟩, h1 d recs h2⟩

theorem main_bad (hL : H.lib.Lawful) (hcwd : isAbsPath H.cwd = true) {c : Config}
    (hc : startVars c = askedVars env flags)
    (cfg : LdifCfg) (hb : MainBad V.C H (askedVars env flags) (absPath H.cwd (optMain.value env flags))) (dir : Str) :
    (H.readMain c (absPath H.cwd (optMain.value env flags)) dir).1.bind (treeFromLDIF V.C cfg.idx) = none := by
  cases hb with
  | nothing h => rw [Host.readMain, h]; rfl
  | file h h1 =>
    rw [Host.readMain, h]
    have := file_bad hL cfg h1
    rw [← hc] at this
    exact this
  | unreadable n h h1 h2 h3 h4 =>
    obtain ⟨ps, hps, hpath⟩ := absPath_clean (p := optMain.value env flags) hcwd
    rw [Host.readMain, h]
    dsimp only
    have e : H.read (joinPath (absPath H.cwd (optMain.value env flags)) n) = H.read (inDirectory (absPath H.cwd (optMain.value env flags)) n) := by
      rw [hpath, joinPath_name hps (h1 n h2), ← hpath]
    rw [C92_directory_unreadable_partial (L := H.lib) _ _ _ _ _ h2 h3 ?_]
    · rfl
    · rw [e]
      rcases h4 with h4 | ⟨f, h4, h5⟩
      · exact .inl h4
      · refine .inr (.inr ⟨f.data, f.broken, _, h4, rfl, ?_⟩)
        rw [hc]
        exact notATemplate_parse (f := f) h5
  | faulty files recs r h h1 h2 h3 h4 h5 h6 h7 h8 =>
    obtain ⟨ps, hps, hpath⟩ := absPath_clean (p := optMain.value env flags) hcwd
    rw [Host.readMain, h]
    dsimp only
    rw [directory_faulty (L := H.lib) _ _ _ _ h2 h3 (recs := recs) ?_ h6 h7 h8]
    · rfl
    · intro n hn
      refine ⟨?_, fun r hr => h5 r (List.mem_flatMap.2 ⟨n, hn, hr⟩)⟩
      have hn' := (List.mem_filter.1 (h2.mem_iff.1 hn)).1
      rw [hpath, joinPath_name hps (h1 n hn'), ← hpath]
      obtain ⟨f, out, lines, k1, k2, k3, k4⟩ := h4 n hn
      refine ⟨out, ?_, lines_split k3 k4⟩
      rw [k1, Option.bind_some, hc]
      exact becomes_parse k2
  | clash rs h h1 =>
    obtain ⟨recs, e, hd⟩ := main_says hL hcwd hc h dir
    rw [e]
    exact data_clash hL V cfg hd h1

theorem openLdif_eq {cfg : LdifCfg} {norm : Str} (h : V.C.eqFold cfg.optBase norm = true) (recs : Option (List (Option Entry))) :
    openLdif V cfg norm recs = recs.bind (treeFromLDIF V.C cfg.idx) := by
  rw [openLdif, h]
  rfl

/-- What a running server has after all that has happened. -/
structure Serving (V : Env) (W : WalkOrd) (H : Host) (env : Str → Str) (flags : List Flag) (cfg : LdifCfg) (s : Started) (rs cs : List LdifRecord)
    (dir : Str) (l : Live) : Prop where
  fn : l.fn = absPath H.cwd (optMain.value env flags)
  confFn : l.confFn = absPath H.cwd (optConfig.value env flags)
  data : ∃ recs older, LdifReach V W cfg s.genPwLen s.stats (recs :: older) l.st ∧ DataOf H.lib rs recs
  conf : optConfig.value env flags ≠ [] → ∃ recs, treeFromLDIF V.C cfg.idx recs = some l.st.conf ∧ DataOf H.lib cs recs
  none : optConfig.value env flags = [] → cs = []
  inc : l.dir = dir

theorem serving_main (hL : H.lib.Lawful) (hcwd : isAbsPath H.cwd = true) {W : WalkOrd} {cfg : LdifCfg} {s : Started}
    (hc : startVars s.config = askedVars env flags) (hbase : V.C.eqFold cfg.optBase cfg.base = true)
    {rs cs : List LdifRecord} {dir : Str} {l : Live} (h : Serving V W H env flags cfg s rs cs dir l) (d : Disk) (dir' : Str)
    (hdir : IncludeDir (H.now d) (absPath H.cwd (optMain.value env flags)) dir' ∨ (d.isDir (absPath H.cwd (optMain.value env flags)) = none ∧ dir' = dir)) :
    (∀ rs', FilesSay (H.now d) (askedVars env flags) (absPath H.cwd (optMain.value env flags)) rs' → Distinct V.C rs' →
      Serving V W H env flags cfg s rs' cs dir' (l.reloadMain V (H.now d) cfg s.config).2) ∧
    (MainBad V.C (H.now d) (askedVars env flags) (absPath H.cwd (optMain.value env flags)) → Serving V W H env flags cfg s rs cs dir' (l.reloadMain V (H.now d) cfg s.config).2) := by
  obtain ⟨h1, h2, ⟨recs, older, h3, h4⟩, h5, h6, h7⟩ := h
  have hnext : ((H.now d).readMain s.config (absPath H.cwd (optMain.value env flags)) l.dir).2 = dir' := by
    unfold Host.readMain
    rcases hdir with (⟨e, rfl⟩ | ⟨e, rfl⟩) | ⟨e, rfl⟩
    · rw [e]
    · rw [e]
    · rw [show (H.now d).isDir (absPath H.cwd (optMain.value env flags)) = Option.none from e]
      exact h7
  unfold Live.reloadMain
  dsimp only
  rw [h1]
  constructor
  · intro rs' hf hd
    obtain ⟨recs', k1, k2⟩ := main_says (H := H.now d) (env := env) (flags := flags) hL hcwd hc hf l.dir
    obtain ⟨m, hm⟩ := (data_distinct (L := H.lib) hL V cfg k2).2 hd
    have e : (H.now d).readMain s.config (absPath H.cwd (optMain.value env flags)) l.dir =
      (some recs', ((H.now d).readMain s.config (absPath H.cwd (optMain.value env flags)) l.dir).2) := Prod.ext k1 rfl
    rw [e]
    have e2 : Idm.reloadMain V cfg (some recs') l.st = (false, { l.st with main := m }) := by
      rw [Idm.reloadMain, openLdif_eq hbase, Option.bind_some, hm]
    rw [e2]
    exact ⟨rfl, h2, ⟨recs', recs :: older, .reload _ _ _ _ h3 hm, k2⟩, h5, h6, hnext⟩
  · intro hb
    have k := main_bad (H := H.now d) (env := env) (flags := flags) hL hcwd hc cfg hb l.dir
    have e2 : Idm.reloadMain V cfg ((H.now d).readMain s.config (absPath H.cwd (optMain.value env flags)) l.dir).1 l.st = (true, l.st) := by
      rw [Idm.reloadMain, openLdif_eq hbase]
      have k' : ((H.now d).readMain s.config (absPath H.cwd (optMain.value env flags)) l.dir).1.bind (treeFromLDIF V.C cfg.idx) = Option.none := k
      rw [k']
    rw [e2]
    exact ⟨rfl, h2, ⟨recs, older, h3, h4⟩, h5, h6, hnext⟩

/-- C101: after all that has happened an LDIF server has the records that count: those of the main files as they were when they could be used
last, and those of the config file likewise. -/
theorem C101_serves_partial (hL : H.lib.Lawful) (hcwd : isAbsPath H.cwd = true) {W : WalkOrd}
    (hh : optHandler.value env flags = b!"ldif") (s : Started) (h : launch V H loopback env flags = .serves s)
    (base : DN) (hbn : parseDN V.C (optBase.value env flags) = some base)
    {evs : List Happens} {rs cs : List LdifRecord} {dir : Str} (hlat : Latest V.C H env flags evs rs cs dir) {l : Live} (hl : LivesOn V W H s evs l) :
    Serving V W H env flags (askedCfg V.C env flags loopback base) s rs cs dir l := by
  obtain ⟨hc1, hc2, hc3⟩ := launch_config h
  obtain ⟨hk, -, -⟩ := C80_options s h
  rcases hk with ⟨⟨hb, -⟩, -⟩ | ⟨⟨-, -, -, name, admin, d0, recs, m, h1, h2, h3, h4, h5, h6⟩, -⟩
  · rw [hh] at hb
    exact absurd hb (by decide)
  rw [hbn] at h1
  cases h1
  -- the settings
  have hb : ∃ conf, s.backend = .ldif (askedCfg V.C env flags loopback base) m conf ∧ (optConfig.value env flags ≠ [] →
      V.C.eqFold (optBase.value env flags) (V.C.lower (optBase.value env flags)) = true ∧
      ∃ recs', FileYields H env flags d0 (absPath H.cwd (optConfig.value env flags)) recs' ∧ treeFromLDIF V.C defaultIdx recs' = some conf) := by
    rcases h6 with ⟨hc, e⟩ | ⟨hc, hf, recs', m', g1, g2, e⟩
    · exact ⟨_, by rw [e, askedCfg, hc]; rfl, fun h => absurd hc h⟩
    · exact ⟨_, by rw [e, askedCfg, decide_eq_true hc], fun _ => ⟨hf, recs', g1, g2⟩⟩
  obtain ⟨conf, hbk, hcf⟩ := hb
  have hconf : (askedCfg V.C env flags loopback base).conf = decide (optConfig.value env flags ≠ []) := rfl
  induction hlat generalizing l with
  | start rs cs dir hf hi hcs =>
    cases hl with
    | start cfg m' conf' cookie cut inTime e =>
      rw [hbk] at e
      cases e
      have hd0 : d0 = dir ∧ H.basePath s.config = dir := by
        unfold Host.basePath
        rw [hc1]
        rcases hi with ⟨e, rfl⟩ | ⟨e, rfl⟩ <;> rcases h4 with ⟨e', e2, -⟩ | ⟨e', e2, -⟩
        · exact ⟨e2, by simp [e]⟩
        · rw [e] at e'; cases e'
        · rw [e] at e'; cases e'
        · exact ⟨e2, by simp [e]⟩
      obtain ⟨rfl, hd0⟩ := hd0
      refine ⟨by rw [Host.live, hc1], by rw [Host.live, hc2], ⟨recs, [], .start _ _ _ _ _ _ h5, (mainYields_says hL hcwd hf).1 d0 recs h4⟩, fun hne => ?_, fun he => ?_, hd0⟩
      · obtain ⟨-, recs', g1, g2⟩ := hcf hne
        rcases hcs with ⟨he, -⟩ | ⟨-, f, out, k1, k2, k3⟩
        · exact absurd he hne
        · refine ⟨recs', g2, ?_⟩
          obtain ⟨cr, q1, q2⟩ := file_says (L := H.lib) hL k2 k3
          unfold FileYields at g1
          unfold askedVars at q1
          rw [k1, q1] at g1
          cases g1
          exact q2
      · rcases hcs with ⟨-, e⟩ | ⟨hne, -⟩
        · exact e
        · exact absurd he hne
  | packet evs rs cs dir o p bound local_ _ ih =>
    cases hl with
    | next cfg m' conf' evs l' ev e hl' =>
      rw [hbk] at e
      cases e
      obtain ⟨g1, g2, ⟨recs', older, g3, g4⟩, g5, g6, g7⟩ := ih hl'
      refine ⟨g1, g2, ⟨recs', older, .packet _ _ _ _ _ _ g3, g4⟩, fun hne => ?_, g6, g7⟩
      obtain ⟨cr, k1, k2⟩ := g5 hne
      refine ⟨cr, ?_, k2⟩
      rw [k1]
      exact congrArg some (C43_data_unchanged o p bound l'.st).2.symm
  | both evs rs cs rs' cs' dir dir' d _ hf hd hcs hd' hi ih =>
    cases hl with
    | next cfg m' conf' evs l' ev e hl' =>
      rw [hbk] at e
      cases e
      have hS := ih hl'
      show Serving V W H env flags _ s rs' cs' dir' (l'.reload V (H.now d) _ s.config).2
      unfold Live.reload
      rw [hconf]
      by_cases hne : optConfig.value env flags = []
      · rw [if_neg (by simp [hne])]
        have hz : cs' = cs := by
          rcases hcs with ⟨-, e⟩ | ⟨h, -⟩
          · rw [e, hS.none hne]
          · exact absurd hne h
        rw [hz]
        exact (serving_main hL hcwd hc3 h3 hS d dir' (.inl hi)).1 rs' hf hd
      · rw [if_pos (by simp [hne])]
        obtain ⟨hfold, -⟩ := hcf hne
        rcases hcs with ⟨e, -⟩ | ⟨-, f, out, k1, k2, k3⟩
        · exact absurd e hne
        obtain ⟨cr, q1, q2⟩ := file_says (L := H.lib) hL k2 k3
        obtain ⟨m1, hm1⟩ := (data_distinct (L := H.lib) hL V (askedCfg V.C env flags loopback base) q2).2 hd'
        have e : (H.now d).readConf s.config l'.confFn l'.dir = some cr := by
          rw [Host.readConf, hS.confFn, hS.inc, k1, hc3]
          exact q1
        rw [openLdif_eq hfold, e, Option.bind_some, hm1]
        have hS' : Serving V W H env flags (askedCfg V.C env flags loopback base) s rs cs' dir { l' with st := { l'.st with conf := m1 } } := by
          obtain ⟨g1, g2, ⟨recs', older, g3, g4⟩, -, -, g7⟩ := hS
          exact ⟨g1, g2, ⟨recs', older, .conf _ _ _ g3, g4⟩, fun _ => ⟨cr, hm1, q2⟩, fun h => absurd h hne, g7⟩
        exact (serving_main hL hcwd hc3 h3 hS' d dir' (.inl hi)).1 rs' hf hd
  | confBad evs rs cs dir d _ hne hb ih =>
    cases hl with
    | next cfg m' conf' evs l' ev e hl' =>
      rw [hbk] at e
      cases e
      have hS := ih hl'
      show Serving V W H env flags _ s rs cs dir (l'.reload V (H.now d) _ s.config).2
      unfold Live.reload
      rw [hconf, if_pos (by simp [hne])]
      obtain ⟨hfold, -⟩ := hcf hne
      have e : ((H.now d).readConf s.config l'.confFn l'.dir).bind (treeFromLDIF V.C (askedCfg V.C env flags loopback base).idx) = none := by
        rw [Host.readConf, hS.confFn, hS.inc]
        rw [hc3]
        exact file_bad (H := H.now d) hL (askedCfg V.C env flags loopback base) hb
      rw [openLdif_eq hfold, e]
      exact hS
  | mainBad evs rs cs cs' dir dir' d _ hb hcs hd' hi ih =>
    cases hl with
    | next cfg m' conf' evs l' ev e hl' =>
      rw [hbk] at e
      cases e
      have hS := ih hl'
      show Serving V W H env flags _ s rs cs' dir' (l'.reload V (H.now d) _ s.config).2
      unfold Live.reload
      rw [hconf]
      by_cases hne : optConfig.value env flags = []
      · rw [if_neg (by simp [hne])]
        have hz : cs' = cs := by
          rcases hcs with ⟨-, e⟩ | ⟨h, -⟩
          · rw [e, hS.none hne]
          · exact absurd hne h
        rw [hz]
        exact (serving_main hL hcwd hc3 h3 hS d dir' hi).2 hb
      · rw [if_pos (by simp [hne])]
        obtain ⟨hfold, -⟩ := hcf hne
        rcases hcs with ⟨e, -⟩ | ⟨-, f, out, k1, k2, k3⟩
        · exact absurd e hne
        obtain ⟨cr, q1, q2⟩ := file_says (L := H.lib) hL k2 k3
        obtain ⟨m1, hm1⟩ := (data_distinct (L := H.lib) hL V (askedCfg V.C env flags loopback base) q2).2 hd'
        have e : (H.now d).readConf s.config l'.confFn l'.dir = some cr := by
          rw [Host.readConf, hS.confFn, hS.inc, k1, hc3]
          exact q1
        rw [openLdif_eq hfold, e, Option.bind_some, hm1]
        have hS' : Serving V W H env flags (askedCfg V.C env flags loopback base) s rs cs' dir { l' with st := { l'.st with conf := m1 } } := by
          obtain ⟨g1, g2, ⟨recs', older, g3, g4⟩, -, -, g7⟩ := hS
          exact ⟨g1, g2, ⟨recs', older, .conf _ _ _ g3, g4⟩, fun _ => ⟨cr, hm1, q2⟩, fun h => absurd h hne, g7⟩
        exact (serving_main hL hcwd hc3 h3 hS' d dir' hi).2 hb

/-- A server that has the records answers a search from them. -/
theorem serving_search (hC : V.C.Lawful) {W : WalkOrd} (hW : W.Lawful) (hL : H.lib.Lawful) {s : Started} {base : DN}
    {rs cs : List LdifRecord} {dir : Str} {l : Live} (hS : Serving V W H env flags (askedCfg V.C env flags loopback base) s rs cs dir l)
    (bound : Str) (hread : MayRead V.C (askedCfg V.C env flags loopback base) bound)
    (b : Str) (nb : DN) (hb : parseDN V.C b = some nb) (hbase : hasSuffix (V.C.lower b) (normalize V.C base) = true)
    (scope : Nat) (hs : scope ≤ 2) (hroot : scope = 1 → nb ≠ [])
    (hdn : ∀ r ∈ rs, TextTells V.C scope b r.dn)
    (f : Filter) (w : Packet) (hw : Wire f w) (hfo : FilterOk f) (h1 : OneComponent f) (hsup : Supported f)
    (ends : Bool) (hlost : NoneLost V.C defaultIdx ends f = true)
    (hagree : ∀ r ∈ rs, CaseAgrees V.C (r.seen V.C) f ∧ (ends = true → EndsAgree V.C (r.seen V.C) f))
    (attrs : List Str) (hrep : NoRepeat V.C attrs) (o : Oracle) (id : Int) :
    ∃ (found : List LdifRecord) (sent : List Entry), found.Nodup ∧
      (∀ r, r ∈ found ↔ r ∈ rs ∧ TextInScope V.C scope b r.dn ∧ Sat V.C (fun _ _ => False) (r.seen V.C) f) ∧
      Matched (SentFor V.C attrs) found sent ∧
      handlePacket V (ldifSrv V W (askedCfg V.C env flags loopback base) s.genPwLen s.stats) o (wMsg id (wSearch b scope 0 w attrs)) bound l.st =
        ⟨sent.map (.entry id) ++ [.searchDone id 0 (some [])], .go bound, l.st⟩ := by
  obtain ⟨recs, older, hr, hd⟩ := hS.data
  exact C95_search_partial hC hW hL hd hr bound hread b nb hb hbase scope hs hroot hdn f w hw hfo h1 hsup ends hlost hagree attrs hrep o id

/-- C101: a client is answered from the records of the main files as they were when they could be used last: a search yields the records in scope
that satisfy the filter, each once, with the values asked for. The conditions are those of C95. -/
theorem C101_search_partial (hC : V.C.Lawful) {W : WalkOrd} (hW : W.Lawful) (hL : H.lib.Lawful) (hcwd : isAbsPath H.cwd = true)
    (hh : optHandler.value env flags = b!"ldif")
    (s : Started) (h : launch V H loopback env flags = .serves s) (base : DN) (hbn : parseDN V.C (optBase.value env flags) = some base)
    {evs : List Happens} {rs cs : List LdifRecord} {dir : Str} (hlat : Latest V.C H env flags evs rs cs dir) {l : Live} (hl : LivesOn V W H s evs l)
    (bound : Str) (hread : MayRead V.C (askedCfg V.C env flags loopback base) bound)
    (b : Str) (nb : DN) (hb : parseDN V.C b = some nb) (hbase : hasSuffix (V.C.lower b) (normalize V.C base) = true)
    (scope : Nat) (hs : scope ≤ 2) (hroot : scope = 1 → nb ≠ [])
    (hdn : ∀ r ∈ rs, TextTells V.C scope b r.dn)
    (f : Filter) (w : Packet) (hw : Wire f w) (hfo : FilterOk f) (h1 : OneComponent f) (hsup : Supported f)
    (ends : Bool) (hlost : NoneLost V.C defaultIdx ends f = true)
    (hagree : ∀ r ∈ rs, CaseAgrees V.C (r.seen V.C) f ∧ (ends = true → EndsAgree V.C (r.seen V.C) f))
    (attrs : List Str) (hrep : NoRepeat V.C attrs) (o : Oracle) (id : Int) :
    ∃ (found : List LdifRecord) (sent : List Entry), found.Nodup ∧
      (∀ r, r ∈ found ↔ r ∈ rs ∧ TextInScope V.C scope b r.dn ∧ Sat V.C (fun _ _ => False) (r.seen V.C) f) ∧
      Matched (SentFor V.C attrs) found sent ∧
      handlePacket V (ldifSrv V W (askedCfg V.C env flags loopback base) s.genPwLen s.stats) o (wMsg id (wSearch b scope 0 w attrs)) bound l.st =
        ⟨sent.map (.entry id) ++ [.searchDone id 0 (some [])], .go bound, l.st⟩ := by
  exact serving_search hC hW hL (C101_serves_partial (W := W) hL hcwd hh s h base hbn hlat hl) bound hread b nb hb hbase scope hs hroot hdn f w hw hfo h1 hsup
    ends hlost hagree attrs hrep o id

/-- A server that has the records answers a bind from them. -/
theorem serving_bind (hC : V.C.Lawful) {W : WalkOrd} (hW : W.Lawful) (hL : H.lib.Lawful) {s : Started} {base : DN}
    {rs cs : List LdifRecord} {dir : Str} {l : Live} (hS : Serving V W H env flags (askedCfg V.C env flags loopback base) s rs cs dir l)
    (dn name pw : Str) (hdn : V.C.lower dn ≠ []) (hname : parseNormalize V.C dn = some name) (hpw : pw ≠ []) (o : Oracle) (id : Int) (bound : Str) :
    let out := handlePacket V (ldifSrv V W (askedCfg V.C env flags loopback base) s.genPwLen s.stats) o (wMsg id (wBind dn pw)) bound l.st
    let configUser := ∃ c ∈ cs, V.C.lower c.dn = V.C.lower dn
    let accepted :=
      (configUser ∧ V.C.lower (optBase.value env flags) <:+ V.C.lower dn ∧ ∃ c ∈ cs, V.C.lower c.dn = V.C.lower dn ∧ c.opensLast V.C V.K pw) ∨
      (¬ configUser ∧ normalize V.C base <:+ V.C.lower dn ∧ ∃ r ∈ rs, V.C.lower r.dn = V.C.lower dn ∧ r.opensLast V.C V.K pw)
    (accepted → out.resps = [.result id 1 0] ∧ out.next = .go name) ∧
    (¬ accepted → ∃ code, code ≠ 0 ∧ out.resps = [.result id 1 code] ∧ out.next = .go bound) := by
  intro out configUser accepted
  obtain ⟨-, -, ⟨recs, older, hr, hd⟩, hcf, hnone, -⟩ := hS
  by_cases hne : optConfig.value env flags = []
  · have hno : ¬ configUser := by
      rintro ⟨c, hc, -⟩
      rw [hnone hne] at hc
      cases hc
    have := C95_bind (by simp [askedCfg, hne]) hW hL hd hr dn name pw hdn hname hpw o id bound
    dsimp only at this
    rw [show (askedCfg V.C env flags loopback base).base = normalize V.C base from rfl] at this
    have e : accepted ↔ normalize V.C base <:+ V.C.lower dn ∧ ∃ r ∈ rs, V.C.lower r.dn = V.C.lower dn ∧ r.opensLast V.C V.K pw :=
      ⟨fun h => h.elim (fun h => absurd h.1 hno) fun h => h.2, fun h => Or.inr ⟨hno, h⟩⟩
    exact ⟨fun ha => this.1 (e.1 ha), fun ha => this.2 fun hx => ha (e.2 hx)⟩
  · obtain ⟨cr, hm, hcd⟩ := hcf hne
    have look : ∀ {rs : List LdifRecord} {recs}, DataOf H.lib rs recs → ((∃ r ∈ entriesIn recs, V.C.lower r.dn = V.C.lower dn ∧ Opens V.C V.K r pw) ↔
        ∃ r ∈ rs, V.C.lower r.dn = V.C.lower dn ∧ r.opensLast V.C V.K pw) := by
      intro rs recs hd
      have hm := dataOf_says hL hd
      constructor
      · rintro ⟨e, he, hl, ho⟩
        obtain ⟨r, hr, hre⟩ := matched_mem_right hm e he
        exact ⟨r, hr, by rw [← hre.1]; exact hl, (opens_last hre pw).1 ho⟩
      · rintro ⟨r, hr, hl, ho⟩
        obtain ⟨e, he, hre⟩ := matched_mem_left hm r hr
        exact ⟨e, he, by rw [hre.1]; exact hl, (opens_last hre pw).2 ho⟩
    have hcu : (∃ r ∈ entriesIn cr, V.C.lower r.dn = V.C.lower dn) ↔ configUser := by
      have hm := dataOf_says hL hcd
      constructor
      · rintro ⟨e, he, hl⟩
        obtain ⟨r, hr, hre⟩ := matched_mem_right hm e he
        exact ⟨r, hr, by rw [← hre.1]; exact hl⟩
      · rintro ⟨r, hr, hl⟩
        obtain ⟨e, he, hre⟩ := matched_mem_left hm r hr
        exact ⟨e, he, by rw [hre.1]; exact hl⟩
    have hmay : ConfMayBind V.C V.K (askedCfg V.C env flags loopback base) recs cr dn pw ↔ accepted := by
      unfold ConfMayBind
      by_cases hu : configUser
      · rw [if_pos ⟨hpw, hcu.2 hu⟩, hasSuffix_iff, look hcd]
        exact ⟨fun h => Or.inl ⟨hu, h⟩, fun h => h.elim (fun h => h.2) fun h => absurd hu h.1⟩
      · rw [if_neg (fun h => hu (hcu.1 h.2)), C44_named hdn, hasSuffix_iff, look hd]
        exact ⟨fun h => Or.inr ⟨hu, h.1, h.2.2⟩, fun h => h.elim (fun h => absurd h.1 hu) fun h => ⟨h.2.1, hpw, h.2.2⟩⟩
    obtain ⟨-, k1, -, k3⟩ := C47_bind_exact (W := W) hC (by simp [askedCfg, hne]) hW hr hm o id bound dn pw
    exact ⟨fun ha => k1 (hmay.2 ha) name hname, fun ha => k3 fun hm => ha (hmay.1 hm)⟩

/-- C101: a bind as a name with a password. If there is a config user of that name (up to case) it succeeds exactly if the name ends in the base
DN of the options, in lower case, and the password is that of the config user. Otherwise it succeeds exactly if the name ends in the base DN and
there is a record of that name with that password in the main files. A bind that does not succeed is refused, and the connection keeps its
identity. -/
theorem C101_bind_partial (hC : V.C.Lawful) {W : WalkOrd} (hW : W.Lawful) (hL : H.lib.Lawful) (hcwd : isAbsPath H.cwd = true)
    (hh : optHandler.value env flags = b!"ldif")
    (s : Started) (h : launch V H loopback env flags = .serves s) (base : DN) (hbn : parseDN V.C (optBase.value env flags) = some base)
    {evs : List Happens} {rs cs : List LdifRecord} {dir : Str} (hlat : Latest V.C H env flags evs rs cs dir) {l : Live} (hl : LivesOn V W H s evs l)
    (dn name pw : Str) (hdn : V.C.lower dn ≠ []) (hname : parseNormalize V.C dn = some name) (hpw : pw ≠ []) (o : Oracle) (id : Int) (bound : Str) :
    let out := handlePacket V (ldifSrv V W (askedCfg V.C env flags loopback base) s.genPwLen s.stats) o (wMsg id (wBind dn pw)) bound l.st
    let configUser := ∃ c ∈ cs, V.C.lower c.dn = V.C.lower dn
    let accepted :=
      (configUser ∧ V.C.lower (optBase.value env flags) <:+ V.C.lower dn ∧ ∃ c ∈ cs, V.C.lower c.dn = V.C.lower dn ∧ c.opensLast V.C V.K pw) ∨
      (¬ configUser ∧ normalize V.C base <:+ V.C.lower dn ∧ ∃ r ∈ rs, V.C.lower r.dn = V.C.lower dn ∧ r.opensLast V.C V.K pw)
    (accepted → out.resps = [.result id 1 0] ∧ out.next = .go name) ∧
    (¬ accepted → ∃ code, code ≠ 0 ∧ out.resps = [.result id 1 code] ∧ out.next = .go bound) :=
  serving_bind hC hW hL (C101_serves_partial (W := W) hL hcwd hh s h base hbn hlat hl) dn name pw hdn hname hpw o id bound

theorem mainYields_dir {d dir : Str} {recs : List (Option Entry)} (h : MainYields H env flags d recs)
    (hi : IncludeDir H (absPath H.cwd (optMain.value env flags)) dir) : d = dir := by
  rcases hi with ⟨e, rfl⟩ | ⟨e, rfl⟩ <;> rcases h with ⟨e', e2, -⟩ | ⟨e', e2, -⟩
  · exact e2
  · rw [e] at e'; cases e'
  · rw [e] at e'; cases e'
  · exact e2

/-- C101: an LDIF server starts exactly if no two records of the main files, and no two of the config file, have the same name up to case, given
options in order. -/
theorem C101_starts (hL : H.lib.Lawful) (hcwd : isAbsPath H.cwd = true)
    {rs cs : List LdifRecord} (hf : FilesSay H (askedVars env flags) (absPath H.cwd (optMain.value env flags)) rs) {dir : Str} (hi : IncludeDir H (absPath H.cwd (optMain.value env flags)) dir)
    (hcs : ConfSays H (askedVars env flags) H.cwd (optConfig.value env flags) dir cs)
    (hh : optHandler.value env flags = b!"ldif") (hk : Known flags) (ht : TlsComplete env flags) (hl : H.levelOk (optLevel.value env flags) = true)
    (hm : optMain.value env flags ≠ []) (hb : optBase.value env flags ≠ [])
    {base admin : DN} (h1 : parseDN V.C (optBase.value env flags) = some base) (h2 : V.C.eqFold (optBase.value env flags) (normalize V.C base) = true)
    (h2' : optConfig.value env flags ≠ [] → V.C.eqFold (optBase.value env flags) (V.C.lower (optBase.value env flags)) = true)
    (h3 : parseDN V.C (optAdmin.value env flags) = some admin) :
    (∃ s, launch V H loopback env flags = .serves s) ↔ Distinct V.C rs ∧ Distinct V.C cs := by
  have hdist : ∀ {rs recs}, DataOf H.lib rs recs → ((∃ m, treeFromLDIF V.C defaultIdx recs = some m) ↔ Distinct V.C rs) := fun hd =>
    data_distinct hL V (askedCfg V.C env flags loopback base) hd
  obtain ⟨hd, d0, recs, hy⟩ := mainYields_says (env := env) (flags := flags) hL hcwd hf
  have hsame : ∀ {d recs}, MainYields H env flags d recs → d = dir := fun h => mainYields_dir h hi
  have hconf : optConfig.value env flags ≠ [] → ∃ cr, FileYields H env flags dir (absPath H.cwd (optConfig.value env flags)) cr ∧ DataOf H.lib cs cr := by
    intro hne
    rcases hcs with ⟨e, -⟩ | ⟨-, f, out, k1, k2, k3⟩
    · exact absurd e hne
    · unfold FileYields
      rw [k1]
      exact file_says hL k2 k3
  constructor
  · rintro ⟨s, h⟩
    obtain ⟨hk, -, -⟩ := C80_options s h
    rcases hk with ⟨⟨hb, -⟩, -⟩ | ⟨⟨-, -, -, name, admin, d1, recs, m, g1, g2, g3, g4, g5, g6⟩, -⟩
    · rw [hh] at hb
      exact absurd hb (by decide)
    cases hsame g4
    refine ⟨(hdist (hd dir recs g4)).1 ⟨m, g5⟩, ?_⟩
    rcases g6 with ⟨hc, -⟩ | ⟨hc, -, recs', m', k1, k2, -⟩
    · rcases hcs with ⟨-, e⟩ | ⟨hne, -⟩
      · rw [e]; exact List.nodup_nil
      · exact absurd hc hne
    · obtain ⟨cr, q1, q2⟩ := hconf hc
      have : recs' = cr := by
        unfold FileYields at k1 q1
        rw [k1] at q1
        exact Option.some.inj q1
      exact (hdist q2).1 ⟨m', this ▸ k2⟩
  · rintro ⟨hn, hn'⟩
    cases hsame hy
    obtain ⟨m, hmm⟩ := (hdist (hd dir recs hy)).2 hn
    by_cases hc : optConfig.value env flags = []
    · exact C81_outcome.2.2.2 ⟨hk, ht, hl, _, Or.inr ⟨hh, hm, hb, base, admin, dir, recs, m, h1, h3, h2, hy, hmm, Or.inl ⟨hc, rfl⟩⟩⟩
    · obtain ⟨cr, q1, q2⟩ := hconf hc
      obtain ⟨m', hm'⟩ := (hdist q2).2 hn'
      exact C81_outcome.2.2.2 ⟨hk, ht, hl, _, Or.inr ⟨hh, hm, hb, base, admin, dir, recs, m, h1, h3, h2, hy, hmm, Or.inr ⟨hc, h2' hc, cr, m', q1, hm', rfl⟩⟩⟩

/-- C101: nor does it start if the main files or the config file are bad. -/
theorem C101_bad (hL : H.lib.Lawful) (hcwd : isAbsPath H.cwd = true)
    (hh : optHandler.value env flags = b!"ldif")
    (hb : MainBad V.C H (askedVars env flags) (absPath H.cwd (optMain.value env flags)) ∨
      optConfig.value env flags ≠ [] ∧ ∃ dir, IncludeDir H (absPath H.cwd (optMain.value env flags)) dir ∧
        FileBad V.C H (askedVars env flags) dir (absPath H.cwd (optConfig.value env flags))) :
    ¬ ∃ s, launch V H loopback env flags = .serves s := by
  rintro ⟨s, h⟩
  obtain ⟨-, -, hc3⟩ := launch_config h
  obtain ⟨hk, -, -⟩ := C80_options s h
  rcases hk with ⟨⟨hb, -⟩, -⟩ | ⟨⟨-, -, -, name, admin, dir, recs, m, g1, g2, g3, g4, g5, g6⟩, -⟩
  · rw [hh] at hb
    exact absurd hb (by decide)
  rcases hb with hb | ⟨hne, d1, hi, hb⟩
  · have := main_bad hL hcwd hc3 (askedCfg V.C env flags loopback name) hb []
    rw [(readMain_yields hc3 [] recs).2 ⟨dir, g4⟩, Option.bind_some] at this
    rw [show (askedCfg V.C env flags loopback name).idx = defaultIdx from rfl, g5] at this
    cases this
  · rcases g6 with ⟨hc, -⟩ | ⟨hc, -, recs', m', k1, k2, -⟩
    · exact hne hc
    · cases mainYields_dir g4 hi
      have := file_bad hL (askedCfg V.C env flags loopback name) hb
      unfold askedVars at this
      unfold FileYields at k1
      rw [k1, Option.bind_some] at this
      rw [show (askedCfg V.C env flags loopback name).idx = defaultIdx from rfl, k2] at this
      cases this

end

/-! A server with the file of Props/Served, and a config file with one user. -/

def rlConf : Str := b!"dn: cn=svc,dc=lg\ncn: svc\nuserPassword: hush\n"
def rlConfRecords : List LdifRecord := [⟨b!"cn=svc,dc=lg", [(b!"cn", b!"svc"), (b!"userPassword", b!"hush")]⟩]

def rlLines : List Str := [b!"dn: cn=svc,dc=lg", b!"cn: svc", b!"userPassword: hush"]

theorem rlConf_says : LdifSays rlConf rlConfRecords := by
  refine ⟨rlLines, [rlLines], hasLines_lf rlLines (by decide), ?_, .plain _ _ ?_⟩
  · exact .last _ _ (by decide) (.line _ [b!"dn: cn=svc,dc=lg"] _ _ ⟨_, [], rfl, rfl, by decide⟩
      (.line _ [b!"cn: svc"] _ _ ⟨_, [], rfl, rfl, by decide⟩ (.line _ [b!"userPassword: hush"] [] [] ⟨_, [], rfl, rfl, by decide⟩ .done)))
  · exact .cons _ _ _ _ (.mk _ _ _ (.plain b!"dn" b!"cn=svc,dc=lg" 1 (by decide) (by decide)) (by simp)
      (.cons _ _ _ _ ⟨.plain b!"cn" b!"svc" 1 (by decide) (by decide), by decide, by decide, by decide⟩
      (.cons _ _ _ _ ⟨.plain b!"userPassword" b!"hush" 1 (by decide) (by decide), by decide, by decide, by decide⟩ .nil))) .nil

theorem rlConf_plain : PlainTemplate rlConf := ⟨rlLines, hasLines_lf rlLines (by decide), by decide, by decide, by decide +kernel⟩

/-- Both files there, the main file alone, the config file alone, a main file that is faulty. -/
def rlDisk (main conf : Option Str) : Disk where
  isDir := fun p => if p = b!"/srv/d/a.ldif" then some false else none
  list := fun _ => []
  read := fun p => if p = b!"/srv/d/a.ldif" then main.map .whole else if p = b!"/srv/c.ldif" then conf.map .whole else none
  engine := fun _ _ _ text => some text

def rlHost : Host := svHost.now (rlDisk (some svText) (some rlConf))

def rlFlags : List Flag := [.str b!"ldif-main" b!"d/a.ldif", .str b!"ldif-config" b!"c.ldif", .str b!"ldap-base-dn" b!"DC=lg",
  .bool b!"ldap-allow-local-anonymous" true]

theorem rl_main (d : Option Str) : FilesSay (rlHost.now (rlDisk (some svText) d)) (askedVars (fun _ => []) rlFlags) (absPath rlHost.cwd (optMain.value (fun _ => []) rlFlags)) svRecords := by
  rw [show absPath rlHost.cwd (optMain.value (fun _ => []) rlFlags) = b!"/srv/d/a.ldif" by decide +kernel]
  exact (filesSay_plain (fun _ _ _ _ _ => rfl) _).1 svText _ rfl rfl svText_says svText_plain

theorem rl_conf (d : Option Str) (dir : Str) : ConfSays (rlHost.now (rlDisk d (some rlConf))) (askedVars (fun _ => []) rlFlags) rlHost.cwd (optConfig.value (fun _ => []) rlFlags) dir rlConfRecords := by
  obtain ⟨out, k1, k2, -⟩ := plain_becomes (run := (rlHost.now (rlDisk d (some rlConf))).engine dir) (fun _ _ _ _ => rfl) (askedVars (fun _ => []) rlFlags) rlConf_plain
  refine Or.inr ⟨by decide +kernel, .whole rlConf, out, ?_, k1, k2 _ rlConf_says⟩
  rw [show absPath rlHost.cwd (optConfig.value (fun _ => []) rlFlags) = b!"/srv/c.ldif" by decide +kernel]
  rfl

theorem rl_include (a b : Option Str) : IncludeDir (rlHost.now (rlDisk a b)) (absPath rlHost.cwd (optMain.value (fun _ => []) rlFlags)) b!"/srv/d" := by
  rw [show absPath rlHost.cwd (optMain.value (fun _ => []) rlFlags) = b!"/srv/d/a.ldif" by decide +kernel]
  exact .inr ⟨rfl, by decide +kernel⟩

theorem rl_conf_gone (d : Option Str) (dir : Str) : FileBad asciiCase (rlHost.now (rlDisk d none)) (askedVars (fun _ => []) rlFlags) dir (absPath rlHost.cwd (optConfig.value (fun _ => []) rlFlags)) := by
  rw [show absPath rlHost.cwd (optConfig.value (fun _ => []) rlFlags) = b!"/srv/c.ldif" by decide +kernel]
  exact .missing rfl

theorem rl_main_gone (d : Option Str) : MainBad asciiCase (rlHost.now (rlDisk none d)) (askedVars (fun _ => []) rlFlags) (absPath rlHost.cwd (optMain.value (fun _ => []) rlFlags)) := by
  rw [show absPath rlHost.cwd (optMain.value (fun _ => []) rlFlags) = b!"/srv/d/a.ldif" by decide +kernel]
  exact .file rfl (.missing rfl)

/-- a main file with a record that is faulty, and one with two records of one name -/
def rlFaulty : Str := b!"dn: dc=lg\ndc: lg\n\ndn: uid=ann,dc=lg\nuid\n"

def rlFaultyLines : List Str := [b!"dn: dc=lg", b!"dc: lg", [], b!"dn: uid=ann,dc=lg", b!"uid"]

theorem rl_main_faulty (d : Option Str) :
    MainBad asciiCase (rlHost.now (rlDisk (some rlFaulty) d)) (askedVars (fun _ => []) rlFlags) (absPath rlHost.cwd (optMain.value (fun _ => []) rlFlags)) := by
  rw [show absPath rlHost.cwd (optMain.value (fun _ => []) rlFlags) = b!"/srv/d/a.ldif" by decide +kernel]
  obtain ⟨out, k1, -, -, k2⟩ := plain_becomes (run := (rlHost.now (rlDisk (some rlFaulty) d)).engine b!"/srv/d") (fun _ _ _ _ => rfl) (askedVars (fun _ => []) rlFlags)
    (show PlainTemplate rlFaulty from ⟨rlFaultyLines, hasLines_lf rlFaultyLines (by decide), by decide, by decide, by decide +kernel⟩)
  have hfl : FileLines [[b!"dn: dc=lg", b!"dc: lg"], [b!"dn: uid=ann,dc=lg", b!"uid"]] rlFaultyLines :=
    .record _ [b!"dn: dc=lg", b!"dc: lg"] _ [b!"dn: uid=ann,dc=lg", b!"uid"] (by simp)
    (.line _ [b!"dn: dc=lg"] _ _ ⟨_, [], rfl, rfl, by decide⟩ (.line _ [b!"dc: lg"] [] [] ⟨_, [], rfl, rfl, by decide⟩ .done))
    (.last _ _ (by simp) (.line _ [b!"dn: uid=ann,dc=lg"] _ _ ⟨_, [], rfl, rfl, by decide⟩ (.line _ [b!"uid"] [] [] ⟨_, [], rfl, rfl, by decide⟩ .done)))
  obtain ⟨ls, k3, k4⟩ := k2 rlFaultyLines _ (hasLines_lf rlFaultyLines (by decide)) hfl
  exact .file rfl (.faulty (.whole rlFaulty) out rfl k1 ⟨ls, _, [b!"dn: uid=ann,dc=lg", b!"uid"], k3, k4, by decide, by decide,
    .noColon b!"uid" _ (by decide) (by decide), Or.inl (by decide)⟩)

def rlTwice : Str := b!"dn: cn=svc,dc=lg\ncn: svc\n\ndn: CN=svc,dc=lg\ncn: svc\n"

theorem rl_twice (d : Option Str) (dir : Str) :
    FileBad asciiCase (rlHost.now (rlDisk d (some rlTwice))) (askedVars (fun _ => []) rlFlags) dir (absPath rlHost.cwd (optConfig.value (fun _ => []) rlFlags)) := by
  rw [show absPath rlHost.cwd (optConfig.value (fun _ => []) rlFlags) = b!"/srv/c.ldif" by decide +kernel]
  let lines : List Str := [b!"dn: cn=svc,dc=lg", b!"cn: svc", [], b!"dn: CN=svc,dc=lg", b!"cn: svc"]
  obtain ⟨out, k1, k2, -⟩ := plain_becomes (run := (rlHost.now (rlDisk d (some rlTwice))).engine dir) (fun _ _ _ _ => rfl) (askedVars (fun _ => []) rlFlags)
    (show PlainTemplate rlTwice from ⟨lines, hasLines_lf lines (by decide), by decide, by decide, by decide +kernel⟩)
  refine .clash (.whole rlTwice) out [⟨b!"cn=svc,dc=lg", [(b!"cn", b!"svc")]⟩, ⟨b!"CN=svc,dc=lg", [(b!"cn", b!"svc")]⟩] rfl k1 (k2 _
    ⟨lines, [[b!"dn: cn=svc,dc=lg", b!"cn: svc"], [b!"dn: CN=svc,dc=lg", b!"cn: svc"]], hasLines_lf lines (by decide), ?_, .plain _ _ ?_⟩) (by unfold Distinct; decide)
  · exact .record _ [b!"dn: cn=svc,dc=lg", b!"cn: svc"] _ [b!"dn: CN=svc,dc=lg", b!"cn: svc"] (by simp)
      (.line _ [b!"dn: cn=svc,dc=lg"] _ _ ⟨_, [], rfl, rfl, by decide⟩ (.line _ [b!"cn: svc"] [] [] ⟨_, [], rfl, rfl, by decide⟩ .done))
      (.last _ _ (by simp) (.line _ [b!"dn: CN=svc,dc=lg"] _ _ ⟨_, [], rfl, rfl, by decide⟩ (.line _ [b!"cn: svc"] [] [] ⟨_, [], rfl, rfl, by decide⟩ .done)))
  · exact .cons _ _ _ _ (.mk _ _ _ (.plain b!"dn" b!"cn=svc,dc=lg" 1 (by decide) (by decide)) (by simp)
        (.cons _ _ _ _ ⟨.plain b!"cn" b!"svc" 1 (by decide) (by decide), by decide, by decide, by decide⟩ .nil))
      (.cons _ _ _ _ (.mk _ _ _ (.plain b!"dn" b!"CN=svc,dc=lg" 1 (by decide) (by decide)) (by simp)
        (.cons _ _ _ _ ⟨.plain b!"cn" b!"svc" 1 (by decide) (by decide), by decide, by decide, by decide⟩ .nil)) .nil)

theorem rl_starts : ∃ s, launch ldEnv rlHost true (fun _ => []) rlFlags = .serves s :=
  (C101_starts (V := ldEnv) (H := rlHost) (rs := svRecords) (cs := rlConfRecords) goLdif_lawful (by decide)
    (rl_main (some rlConf)) (rl_include (some svText) (some rlConf)) (rl_conf (some svText) _) (by decide +kernel) ((setFlags_known _ initialVars).1 ⟨_, rfl⟩) (Or.inl (by decide +kernel))
    (by decide +kernel) (by decide +kernel) (by decide +kernel) (base := [[⟨b!"DC", b!"lg"⟩]]) (admin := []) (by decide +kernel) (by decide +kernel)
    (fun _ => by decide +kernel) (by decide +kernel)).2 ⟨by unfold Distinct; decide, by unfold Distinct; decide⟩

/-- Started with both files; then SIGHUP with the config file gone, with the main file gone, with the main file faulty, a packet, SIGHUP with a
config file in which a name occurs twice, with both there again, and with the main file gone but another config file. -/
def rlEvents : List Happens := [.hup (rlDisk none (some rlConf)), .hup (rlDisk (some svText) (some rlConf)), .hup (rlDisk (some svText) (some rlTwice)),
  .packet toyOracle (wMsg 3 (wBind b!"cn=x" b!"y")) [] false, .hup (rlDisk (some rlFaulty) (some rlConf)), .hup (rlDisk none (some rlConf)),
  .hup (rlDisk (some svText) none)]

theorem rl_latest : Latest asciiCase rlHost (fun _ => []) rlFlags rlEvents svRecords rlConfRecords b!"/srv/d" := by
  have hd : Distinct asciiCase svRecords := by unfold Distinct; decide
  have hd' : Distinct asciiCase rlConfRecords := by unfold Distinct; decide
  refine .mainBad _ _ rlConfRecords _ b!"/srv/d" _ _ ?_ (rl_main_gone _) (rl_conf _ _) hd' (.inl (rl_include _ _))
  refine .both _ svRecords rlConfRecords _ _ b!"/srv/d" _ _ ?_ (rl_main _) hd (rl_conf _ _) hd' (rl_include _ _)
  refine .confBad _ _ _ _ _ ?_ (by decide +kernel) (rl_twice _ _)
  refine .packet _ _ _ _ _ _ _ _ ?_
  refine .mainBad _ _ rlConfRecords _ b!"/srv/d" _ _ ?_ (rl_main_faulty _) (rl_conf _ _) hd' (.inl (rl_include _ _))
  refine .mainBad _ _ rlConfRecords _ b!"/srv/d" _ _ ?_ (rl_main_gone _) (rl_conf _ _) hd' (.inl (rl_include _ _))
  refine .confBad _ _ _ _ _ ?_ (by decide +kernel) (rl_conf_gone _ _)
  exact .start _ _ _ (rl_main (some rlConf)) (rl_include (some svText) (some rlConf)) (rl_conf (some svText) _)

/-- C101 applies to a search for `(cn=robert)` after all that, and to binds as a user of each file -/
example (s : Started) (h : launch ldEnv rlHost true (fun _ => []) rlFlags = .serves s) (l : Live) (hl : LivesOn ldEnv ldOrd rlHost s rlEvents l) :=
  C101_search_partial (V := ldEnv) asciiCase_lawful ldOrd_lawful (H := rlHost) goLdif_lawful (by decide) (by decide +kernel)
    s h [[⟨b!"DC", b!"lg"⟩]] (by decide +kernel) rl_latest hl [] (Or.inl ⟨rfl, by decide +kernel, rfl⟩)
    b!"dc=lg" [[⟨b!"dc", b!"lg"⟩]] (by decide +kernel) (by decide +kernel) 2 (by omega) (by decide) sv_plain (.eq b!"cn" b!"robert") _ (wEq_wire _ _)
    (by decide +kernel : AttrText b!"cn") trivial trivial false (by decide +kernel) (fun r _ => ⟨ascii_agrees _ _, fun h => by cases h⟩) [b!"cn"]
    (by decide +kernel) toyOracle 7

example (s : Started) (h : launch ldEnv rlHost true (fun _ => []) rlFlags = .serves s) (l : Live) (hl : LivesOn ldEnv ldOrd rlHost s rlEvents l) :=
  And.intro
  (C101_bind_partial (V := ldEnv) asciiCase_lawful ldOrd_lawful (H := rlHost) goLdif_lawful (by decide) (by decide +kernel)
    s h [[⟨b!"DC", b!"lg"⟩]] (by decide +kernel) rl_latest hl b!"UID=bob,dc=lg" b!"uid=bob,dc=lg" b!"secret" (by decide) (by decide +kernel)
    (by decide) toyOracle 7 [])
  (C101_bind_partial (V := ldEnv) asciiCase_lawful ldOrd_lawful (H := rlHost) goLdif_lawful (by decide) (by decide +kernel)
    s h [[⟨b!"DC", b!"lg"⟩]] (by decide +kernel) rl_latest hl b!"cn=SVC,dc=lg" b!"cn=svc,dc=lg" b!"hush" (by decide) (by decide +kernel)
    (by decide) toyOracle 7 [])

/-- A directory with two files, each of which could be used on its own: the second one begins with a version. -/
def rlDir : Disk where
  isDir := fun p => if p = b!"/srv/d/a.ldif" then some true else none
  list := fun _ => [b!"b.ldif", b!"note", b!"a.ldif"]
  read := fun p => if p = b!"/srv/d/a.ldif/a.ldif" then some (.whole b!"version: 1\ndn: dc=lg\ndc: lg\n")
    else if p = b!"/srv/d/a.ldif/b.ldif" then some (.whole b!"version: 1\ndn: dc=b\ndc: b\n") else none
  engine := fun _ _ _ text => some text

theorem rl_dir_faulty : MainBad asciiCase (rlHost.now rlDir) (askedVars (fun _ => []) rlFlags) (absPath rlHost.cwd (optMain.value (fun _ => []) rlFlags)) := by
  rw [show absPath rlHost.cwd (optMain.value (fun _ => []) rlFlags) = b!"/srv/d/a.ldif" by decide +kernel]
  have hl : ∀ d : Str, 10 ∉ d → 13 ∉ d → d ≠ [] → HasLines [b!"version: 1", b!"dn: dc=" ++ d, b!"dc: " ++ d] (b!"version: 1\ndn: dc=" ++ d ++ b!"\ndc: " ++ d ++ b!"\n") := by
    intro d h1 h2 h3
    have := hasLines_lf [b!"version: 1", b!"dn: dc=" ++ d, b!"dc: " ++ d] (by simp [h1, h2])
    simpa [lfText] using this
  have hf : ∀ d : Str, FileLines [[b!"version: 1", b!"dn: dc=" ++ d, b!"dc: " ++ d]] [b!"version: 1", b!"dn: dc=" ++ d, b!"dc: " ++ d] := by
    intro d
    exact .last _ _ (by simp) (.line _ [b!"version: 1"] _ _ ⟨_, [], rfl, rfl, by decide⟩
      (.line _ [b!"dn: dc=" ++ d] _ _ ⟨_, [], rfl, by simp, by simp⟩ (.line _ [b!"dc: " ++ d] [] [] ⟨_, [], rfl, by simp, by simp⟩ .done)))
  refine .faulty [b!"a.ldif", b!"b.ldif"] (fun n => if n = b!"a.ldif" then [[b!"version: 1", b!"dn: dc=lg", b!"dc: lg"]] else [[b!"version: 1", b!"dn: dc=b", b!"dc: b"]])
    [b!"version: 1", b!"dn: dc=b", b!"dc: b"] rfl (by unfold IsFileName; decide +kernel) (by decide +kernel) ?_ ?_ (by decide +kernel) (by decide +kernel) (.noName _ _ (by decide)) (Or.inl (by decide +kernel))
  · simp only [List.pairwise_cons, List.mem_singleton, forall_eq, List.not_mem_nil, false_implies, implies_true, List.Pairwise.nil, and_true]
    exact strLe_iff.1 (by decide)
  · intro n hn
    simp only [List.mem_cons, List.not_mem_nil, or_false] at hn
    rcases hn with rfl | rfl
    · obtain ⟨out, k1, -, -, k2⟩ := plain_becomes (run := (rlHost.now rlDir).engine b!"/srv/d/a.ldif") (fun _ _ _ _ => rfl) (askedVars (fun _ => []) rlFlags)
        ⟨_, hl b!"lg" (by decide) (by decide) (by decide), by decide, by decide, by decide +kernel⟩
      obtain ⟨ls, k3, k4⟩ := k2 _ _ (hl b!"lg" (by decide) (by decide) (by decide)) (hf b!"lg")
      exact ⟨_, out, ls, rfl, k1, k3, k4⟩
    · obtain ⟨out, k1, -, -, k2⟩ := plain_becomes (run := (rlHost.now rlDir).engine b!"/srv/d/a.ldif") (fun _ _ _ _ => rfl) (askedVars (fun _ => []) rlFlags)
        ⟨_, hl b!"b" (by decide) (by decide) (by decide), by decide, by decide, by decide +kernel⟩
      obtain ⟨ls, k3, k4⟩ := k2 _ _ (hl b!"b" (by decide) (by decide) (by decide)) (hf b!"b")
      exact ⟨_, out, ls, rfl, k1, k3, k4⟩

example : ¬ ∃ s, launch ldEnv (rlHost.now rlDir) true (fun _ => []) rlFlags = .serves s :=
  C101_bad (V := ldEnv) goLdif_lawful (by decide) (by decide +kernel) (Or.inl rl_dir_faulty)

/-- and it would not have started with the faulty file -/
example : ¬ ∃ s, launch ldEnv (rlHost.now (rlDisk (some rlFaulty) (some rlConf))) true (fun _ => []) rlFlags = .serves s :=
  C101_bad (V := ldEnv) goLdif_lawful (by decide) (by decide +kernel) (Or.inl (rl_main_faulty _))

end Idm
