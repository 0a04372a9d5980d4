import Verif.Spec.Launch
import Verif.Props.Startup
import Verif.Props.Served
import Verif.Proofs.Template
/-!
# C99: a server started with LDIF files has what they say
-/
namespace Idm

theorem joinWith_concat (ps : List Str) (n : Str) (h : ps ≠ []) : joinWith chSlash (ps ++ [n]) = joinWith chSlash ps ++ chSlash :: n := by
  induction ps with
  | nil => exact absurd rfl h
  | cons p ps ih =>
    by_cases hp : ps = []
    · subst hp; rfl
    · rw [List.cons_append, joinWith_cons_ne _ (by simp), joinWith_cons_ne _ hp, ih hp]
      simp

theorem splitOn_abs {ps : List Str} (h : ∀ q ∈ ps, IsFileName q) (hne : ps ≠ []) :
    splitOn chSlash (chSlash :: joinWith chSlash ps) = [] :: ps := by
  rw [splitOn_cons_sep, splitOn_joinWith hne fun q hq => (h q hq).2.1]

theorem cleanPath_self {ps : List Str} (h : ∀ q ∈ ps, IsFileName q) : cleanPath (chSlash :: joinWith chSlash ps) = chSlash :: joinWith chSlash ps := by
  have habs : isAbsPath (chSlash :: joinWith chSlash ps) = true := (isAbsPath_iff _).2 ⟨_, rfl⟩
  unfold cleanPath
  rw [habs]
  dsimp only
  rw [if_pos rfl]
  by_cases hne : ps = []
  · subst hne; rfl
  · rw [splitOn_abs h hne, cleanLoop.eq_def]
    dsimp only
    rw [if_pos (Or.inl rfl), cleanLoop_self _ _ _ h]
    rfl

theorem root_only {ps : List Str} (h : ∀ q ∈ ps, IsFileName q) (hne : ps ≠ []) : chSlash :: joinWith chSlash ps ≠ [chSlash] := by
  intro e
  simp only [List.cons.injEq, true_and] at e
  cases ps with
  | nil => exact hne rfl
  | cons p ps =>
    have hp := (h p (by simp)).1
    cases ps with
    | nil => exact hp e
    | cons q qs => rw [joinWith_cons_ne _ (by simp)] at e; simp at e

/-- A name joined to a clean path. -/
theorem joinPath_name {ps : List Str} (h : ∀ q ∈ ps, IsFileName q) {n : Str} (hn : IsFileName n) :
    joinPath (chSlash :: joinWith chSlash ps) n = inDirectory (chSlash :: joinWith chSlash ps) n := by
  unfold joinPath inDirectory
  rw [if_neg (by simp), if_neg hn.1]
  by_cases hne : ps = []
  · subst hne
    rw [show joinWith chSlash ([] : List Str) = [] from rfl, if_pos rfl]
    show cleanPath (chSlash :: chSlash :: n) = chSlash :: n
    unfold cleanPath
    have h1 : isAbsPath (chSlash :: chSlash :: n) = true := (isAbsPath_iff _).2 ⟨_, rfl⟩
    rw [h1]
    dsimp only
    rw [if_pos rfl, splitOn_cons_sep, splitOn_cons_sep, splitOn_single hn.2.1, cleanLoop.eq_def]
    dsimp only
    rw [if_pos (Or.inl rfl), cleanLoop.eq_def]
    dsimp only
    rw [if_pos (Or.inl rfl), cleanLoop_self _ _ _ (by simpa using hn)]
    rfl
  · rw [if_neg (root_only h hne)]
    have := cleanPath_self (ps := ps ++ [n]) (by
      intro q hq
      rcases List.mem_append.1 hq with hq | hq
      · exact h q hq
      · rw [List.mem_singleton.1 hq]; exact hn)
    rw [joinWith_concat ps n hne] at this
    exact this

/-- `filepath.Dir` of a clean path: the directory the file is in. -/
theorem dirPath_parent {ps : List Str} (h : ∀ q ∈ ps, IsFileName q) {n : Str} (hn : IsFileName n) :
    dirPath (inDirectory (chSlash :: joinWith chSlash ps) n) = chSlash :: joinWith chSlash ps := by
  have cut : ∀ (d : Str), (((d ++ chSlash :: n).reverse.dropWhile (· != chSlash)).reverse) = d ++ [chSlash] := by
    intro d
    have : (d ++ chSlash :: n).reverse = n.reverse ++ chSlash :: d.reverse := by simp
    rw [this, List.dropWhile_append]
    have h0 : ∀ (l : Str), (∀ x ∈ l, x ≠ chSlash) → l.dropWhile (· != chSlash) = [] := by
      intro l hl
      induction l with
      | nil => rfl
      | cons x l ih => rw [List.dropWhile_cons_of_pos (by simpa using hl x (by simp)), ih fun y hy => hl y (by simp [hy])]
    rw [h0 _ fun x hx e => hn.2.1 (by rw [← e]; simpa using hx)]
    simp [List.dropWhile]
  have hself : ∀ (ps acc : List Str), (∀ q ∈ ps, IsFileName q) → cleanLoop true acc (ps ++ [[]]) = acc.reverse ++ ps := by
    intro ps
    induction ps with
    | nil => intro acc _; simp [cleanLoop]
    | cons p ps ih =>
      intro acc h
      have hp := h p (by simp)
      rw [List.cons_append, cleanLoop.eq_def]
      dsimp only
      rw [if_neg (fun e => e.elim hp.1 hp.2.2.1), if_neg hp.2.2.2, ih _ fun q hq => h q (by simp [hq])]
      simp
  unfold inDirectory dirPath
  by_cases hne : ps = []
  · subst hne
    rw [show joinWith chSlash ([] : List Str) = [] from rfl, if_pos rfl, show chSlash :: n = [] ++ chSlash :: n from rfl, cut]
    rfl
  · rw [if_neg (root_only h hne), cut]
    unfold cleanPath
    have h1 : isAbsPath (chSlash :: joinWith chSlash ps ++ [chSlash]) = true := (isAbsPath_iff _).2 ⟨_, rfl⟩
    rw [h1]
    dsimp only
    rw [if_pos rfl, splitOn_append, splitOn_abs h hne, List.cons_append, cleanLoop.eq_def]
    dsimp only
    rw [if_pos (Or.inl rfl)]
    show chSlash :: joinWith chSlash (cleanLoop true [] (ps ++ [[]])) = _
    rw [hself _ _ h]
    rfl

section
variable {V : Env} {H : Host} {loopback : Bool} {env : Str → Str} {flags : List Flag}

/-- What the server reads from files that say `rs`. -/
theorem mainYields_says (hL : H.lib.Lawful) (hcwd : isAbsPath H.cwd = true)
    {rs : List LdifRecord} (hf : FilesSay H (askedVars env flags) (absPath H.cwd (optMain.value env flags)) rs) :
    (∀ dir recs, MainYields H env flags dir recs → DataOf H.lib rs recs) ∧ ∃ dir recs, MainYields H env flags dir recs := by
  obtain ⟨ps, hps, hpath⟩ := absPath_clean (p := optMain.value env flags) hcwd
  unfold MainYields
  dsimp only
  generalize absPath H.cwd (optMain.value env flags) = path at hf hpath
  cases hf with
  | file f out rs h1 h2 h3 h4 =>
    have e : ∀ recs, FileYields H env flags (dirPath path) path recs ↔ ldifUnmarshal H.lib out = some recs := by
      intro recs
      unfold FileYields
      rw [h2, parseLDIFFile, Option.bind_some]
      have := becomes_parse h3
      unfold askedVars at this
      rw [this]
      rfl
    constructor
    · rintro dir recs (⟨g, -⟩ | ⟨-, rfl, g⟩)
      · rw [h1] at g; cases g
      · exact .file [] 0 out _ _ h4 ((e recs).1 g)
    · obtain ⟨recs, k, -⟩ := C90_read_partial hL h4
      exact ⟨dirPath path, recs, Or.inr ⟨h1, rfl, (e recs).2 k⟩⟩
  | directory files rs h1 h2 h4 h5 h3 =>
    have hread : ∀ n ∈ files, ∃ t, (H.read (joinPath path n)).bind (fileText (some (H.engine path)) (askedVars env flags) 1000) = some t ∧
        LdifSays t (rs n) ∧ (n ∈ files.tail → LdifBody t (rs n)) := by
      intro n hn
      have hn' := (List.mem_filter.1 (h4.mem_iff.1 hn)).1
      rw [hpath, joinPath_name hps (h2 n hn'), ← hpath]
      obtain ⟨f, out, k1, k2, k3⟩ := h3 n hn
      exact ⟨out, by rw [k1, Option.bind_some, becomes_parse k2], k3⟩
    obtain ⟨out, k1, k2⟩ := directory_one (L := H.lib) h4 h5 hread
    have e : ∀ recs, DirYields H env flags path recs ↔ ldifUnmarshal H.lib out = some recs := by
      intro recs
      unfold DirYields
      rw [← k2]
      rfl
    constructor
    · rintro dir recs (⟨-, -, g⟩ | ⟨g, -⟩)
      · exact .file [] 0 out _ _ k1 ((e recs).1 g)
      · rw [h1] at g; cases g
    · obtain ⟨recs, k, -⟩ := C90_read_partial hL k1
      exact ⟨path, recs, Or.inl ⟨h1, rfl, (e recs).2 k⟩⟩

/-- Files without actions say what they say as they are. -/
theorem filesSay_plain (hrun : ∀ dir, PlainEngine (H.engine dir)) (vars : List (Str × Str)) {path : Str} :
    (∀ text rs, H.isDir path = some false → H.read path = some (.whole text) → LdifSays text rs → PlainTemplate text → FilesSay H vars path rs) ∧
    (∀ (files : List Str) (rs : Str → List LdifRecord), H.isDir path = some true → (∀ n ∈ H.list path, IsFileName n) →
      files.Perm ((H.list path).filter fun n => b!".ldif" <:+ n) → files.Pairwise ByteLe →
      (∀ n ∈ files, ∃ t, H.read (inDirectory path n) = some (.whole t) ∧ PlainTemplate t ∧ LdifSays t (rs n) ∧ (n ∈ files.tail → LdifBody t (rs n))) →
      FilesSay H vars path (files.flatMap rs)) := by
  constructor
  · intro text rs h1 h2 h3 h4
    obtain ⟨out, k1, k2, -⟩ := plain_becomes (hrun (dirPath path)) vars h4
    exact .file _ out _ h1 h2 k1 (k2 _ h3)
  · intro files rs h1 h2 h3 h4 h5
    refine .directory files rs h1 h2 h3 h4 fun n hn => ?_
    obtain ⟨t, g1, g2, g3, g4⟩ := h5 n hn
    obtain ⟨out, k1, k2, k3, -⟩ := plain_becomes (hrun path) vars g2
    exact ⟨_, out, g1, k1, k2 _ g3, fun h => k3 _ (g4 h)⟩

/-- C99: an LDIF server that starts has what its files say: from the start, and until it reads them again, whatever packets come, the data
served are those of the records, no two of which have the same name up to case. -/
theorem C99_serves_partial (hL : H.lib.Lawful) (hcwd : isAbsPath H.cwd = true)
    {rs : List LdifRecord} (hf : FilesSay H (askedVars env flags) (absPath H.cwd (optMain.value env flags)) rs) (hh : optHandler.value env flags = b!"ldif")
    (s : Started) (h : launch V H loopback env flags = .serves s) :
    ∃ base recs, parseDN V.C (optBase.value env flags) = some base ∧ (∃ m conf, s.backend = .ldif (askedCfg V.C env flags loopback base) m conf) ∧
      DataOf H.lib rs recs ∧ (rs.map fun r => V.C.lower r.dn).Nodup ∧
      ∀ (W : WalkOrd) (st : LdifSt), NotReloaded V W s st → LdifReach V W (askedCfg V.C env flags loopback base) s.genPwLen s.stats [recs] st := by
  obtain ⟨hk, -, -⟩ := C80_options s h
  rcases hk with ⟨⟨hb, -⟩, -⟩ | ⟨⟨-, -, -, name, admin, dir, recs, m, h1, h2, h3, h4, h5, h6⟩, -⟩
  · rw [hh] at hb
    exact absurd hb (by decide)
  · have hd := (mainYields_says hL hcwd hf).1 dir recs h4
    have hb : ∃ conf, s.backend = .ldif (askedCfg V.C env flags loopback name) m conf := by
      rcases h6 with ⟨hc, e⟩ | ⟨hc, -, recs', m', -, -, e⟩
      · exact ⟨_, by rw [e, askedCfg, hc]; rfl⟩
      · exact ⟨_, by rw [e, askedCfg, decide_eq_true hc]⟩
    obtain ⟨conf, hb⟩ := hb
    refine ⟨name, recs, h1, ⟨m, conf, hb⟩, hd, (C95_loads (V := V) (cfg := askedCfg V.C env flags loopback name) hL hd).1 ⟨_, h5⟩, fun W st hst => ?_⟩
    induction hst with
    | start cfg m' conf' cookie cut inTime e =>
      rw [hb] at e
      cases e
      exact .start _ _ _ _ _ _ h5
    | packet cfg m' conf' st o p bound local_ e _ ih =>
      rw [hb] at e
      cases e
      exact .packet _ _ _ _ _ _ ih

/-- C99: a client of a server that has been started with LDIF files saying `rs`, and has not read them again, is answered from `rs`: a search
yields the records in scope that satisfy the filter, each once, with the values asked for. The conditions are those of C95. -/
theorem C99_search_partial (hC : V.C.Lawful) {W : WalkOrd} (hW : W.Lawful) (hL : H.lib.Lawful) (hcwd : isAbsPath H.cwd = true)
    {rs : List LdifRecord} (hf : FilesSay H (askedVars env flags) (absPath H.cwd (optMain.value env flags)) rs) (hh : optHandler.value env flags = b!"ldif")
    (s : Started) (h : launch V H loopback env flags = .serves s) (base : DN) (hbn : parseDN V.C (optBase.value env flags) = some base)
    (st : LdifSt) (hst : NotReloaded V W s st) (bound : Str) (hread : MayRead V.C (askedCfg V.C env flags loopback base) bound)
    (b : Str) (nb : DN) (hb : parseDN V.C b = some nb) (hbase : hasSuffix (V.C.lower b) (normalize V.C base) = true)
    (scope : Nat) (hs : scope ≤ 2) (hroot : scope = 1 → nb ≠ [])
    (hdn : ∀ r ∈ rs, TextTells V.C scope b r.dn)
    (f : Filter) (w : Packet) (hw : Wire f w) (hfo : FilterOk f) (h1 : OneComponent f) (hsup : Supported f)
    (ends : Bool) (hlost : NoneLost V.C defaultIdx ends f = true)
    (hagree : ∀ r ∈ rs, CaseAgrees V.C (r.seen V.C) f ∧ (ends = true → EndsAgree V.C (r.seen V.C) f))
    (attrs : List Str) (hrep : NoRepeat V.C attrs) (o : Oracle) (id : Int) :
    ∃ (found : List LdifRecord) (sent : List Entry), found.Nodup ∧
      (∀ r, r ∈ found ↔ r ∈ rs ∧ TextInScope V.C scope b r.dn ∧ Sat V.C (fun _ _ => False) (r.seen V.C) f) ∧
      Matched (SentFor V.C attrs) found sent ∧
      handlePacket V (ldifSrv V W (askedCfg V.C env flags loopback base) s.genPwLen s.stats) o (wMsg id (wSearch b scope 0 w attrs)) bound st =
        ⟨sent.map (.entry id) ++ [.searchDone id 0 (some [])], .go bound, st⟩ := by
  obtain ⟨base', recs, e, -, hd, -, hr⟩ := C99_serves_partial hL hcwd hf hh s h
  rw [hbn] at e
  cases e
  exact C95_search_partial hC hW hL hd (hr W st hst) bound hread b nb hb hbase scope hs hroot hdn f w hw hfo h1 hsup ends hlost hagree attrs hrep o id

/-- C99: without a config file, a bind to such a server as a name below the base succeeds exactly if there is a record of that name, up to
case, whose first password the given one matches. -/
theorem C99_bind_partial {W : WalkOrd} (hW : W.Lawful) (hL : H.lib.Lawful) (hcwd : isAbsPath H.cwd = true)
    {rs : List LdifRecord} (hf : FilesSay H (askedVars env flags) (absPath H.cwd (optMain.value env flags)) rs) (hh : optHandler.value env flags = b!"ldif")
    (hconf : optConfig.value env flags = [])
    (s : Started) (h : launch V H loopback env flags = .serves s) (base : DN) (hbn : parseDN V.C (optBase.value env flags) = some base)
    (st : LdifSt) (hst : NotReloaded V W s st) (hone : ∀ r ∈ rs, OneSpelling V.C r)
    (dn name pw : Str) (hdn : V.C.lower dn ≠ []) (hbase : hasSuffix (V.C.lower dn) (normalize V.C base) = true)
    (hname : parseNormalize V.C dn = some name) (hpw : pw ≠ []) (o : Oracle) (id : Int) (bound : Str) :
    let out := handlePacket V (ldifSrv V W (askedCfg V.C env flags loopback base) s.genPwLen s.stats) o (wMsg id (wBind dn pw)) bound st
    let accepted := ∃ r ∈ rs, V.C.lower r.dn = V.C.lower dn ∧ r.opens V.C V.K pw
    (accepted → out.resps = [.result id 1 0] ∧ out.next = .go name) ∧
    (¬ accepted → ∃ code, code ≠ 0 ∧ out.resps = [.result id 1 code] ∧ out.next = .go bound) := by
  obtain ⟨base', recs, e, -, hd, -, hr⟩ := C99_serves_partial hL hcwd hf hh s h
  rw [hbn] at e
  cases e
  exact C95_bind_partial (by simp [askedCfg, hconf]) hW hL hd (hr W st hst) hone dn name pw hdn hbase hname hpw o id bound

/-- C99: with everything else in order, an LDIF server without a config file starts exactly if no two records of its files have the same name
up to case. -/
theorem C99_starts (hL : H.lib.Lawful) (hcwd : isAbsPath H.cwd = true)
    {rs : List LdifRecord} (hf : FilesSay H (askedVars env flags) (absPath H.cwd (optMain.value env flags)) rs) (hh : optHandler.value env flags = b!"ldif")
    (hk : Known flags) (ht : TlsComplete env flags) (hl : H.levelOk (optLevel.value env flags) = true)
    (hm : optMain.value env flags ≠ []) (hb : optBase.value env flags ≠ []) (hc : optConfig.value env flags = [])
    {base admin : DN} (h1 : parseDN V.C (optBase.value env flags) = some base) (h2 : V.C.eqFold (optBase.value env flags) (normalize V.C base) = true)
    (h3 : parseDN V.C (optAdmin.value env flags) = some admin) :
    (∃ s, launch V H loopback env flags = .serves s) ↔ (rs.map fun r => V.C.lower r.dn).Nodup := by
  constructor
  · rintro ⟨s, h⟩
    obtain ⟨_, _, -, -, -, hn, -⟩ := C99_serves_partial hL hcwd hf hh s h
    exact hn
  · intro hn
    obtain ⟨hd, dir, recs, hy⟩ := mainYields_says (env := env) (flags := flags) hL hcwd hf
    obtain ⟨m, hmm⟩ := (C95_loads (V := V) (cfg := ⟨optBase.value env flags, normalize V.C base, wantsAnon flags,
        false, loopback, defaultIdx⟩) hL (hd dir recs hy)).2 hn
    exact C81_outcome.2.2.2 ⟨hk, ht, hl, _, Or.inr ⟨hh, hm, hb, base, admin, dir, recs, m, h1, h3, h2, hy, hmm, Or.inl ⟨hc, rfl⟩⟩⟩

end

/-! ## Examples -/

/-- A host with the LDIF file of C95, in a directory of its own; a text file lies beside it. -/
def svHost : Host where
  levelOk := fun l => l = b!"info"
  boltOpens := fun _ _ => false
  cwd := b!"/srv"
  isDir := fun p => if p = b!"/srv/d" then some true else if p = b!"/srv/d/a.ldif" then some false else none
  list := fun p => if p = b!"/srv/d" then [b!"readme", b!"a.ldif"] else []
  read := fun p => if p = b!"/srv/d/a.ldif" then some (.whole svText) else none
  engine := fun _ _ _ text => some text
  lib := goLdif

def svFlags (main : Str) : List Flag := [.str b!"ldif-main" main, .str b!"ldap-base-dn" b!"DC=lg", .bool b!"ldap-allow-local-anonymous" true]

theorem svHost_file : FilesSay svHost (askedVars (fun _ => []) (svFlags b!"d/a.ldif")) (absPath svHost.cwd (optMain.value (fun _ => []) (svFlags b!"d/a.ldif"))) svRecords := by
  rw [show absPath svHost.cwd (optMain.value (fun _ => []) (svFlags b!"d/a.ldif")) = b!"/srv/d/a.ldif" by decide +kernel]
  exact (filesSay_plain (fun _ _ _ _ _ => rfl) _).1 svText _ (by decide) (by decide +kernel) svText_says svText_plain

theorem svHost_directory : FilesSay svHost (askedVars (fun _ => []) (svFlags b!"./d/")) (absPath svHost.cwd (optMain.value (fun _ => []) (svFlags b!"./d/"))) svRecords := by
  rw [show absPath svHost.cwd (optMain.value (fun _ => []) (svFlags b!"./d/")) = b!"/srv/d" by decide +kernel]
  have : FilesSay svHost (askedVars (fun _ => []) (svFlags b!"./d/")) b!"/srv/d" ([b!"a.ldif"].flatMap fun _ => svRecords) := by
    refine (filesSay_plain (fun _ _ _ _ _ => rfl) _).2 _ _ (by decide) (by unfold IsFileName; decide +kernel) (by decide +kernel) (by decide) ?_
    intro n hn
    rw [List.mem_singleton] at hn
    subst hn
    exact ⟨svText, by decide +kernel, svText_plain, svText_says, fun _ => svText_body⟩
  exact this

theorem sv_starts (main : Str) (hm : main = b!"d/a.ldif" ∨ main = b!"./d/") : ∃ s, launch ldEnv svHost true (fun _ => []) (svFlags main) = .serves s := by
  refine (C99_starts (V := ldEnv) (H := svHost) (rs := svRecords) goLdif_lawful (by decide) ?_ ?_ ?_ ?_ ?_ ?_ ?_ ?_
    (base := [[⟨b!"DC", b!"lg"⟩]]) (admin := []) ?_ ?_ ?_).2 (by decide +kernel)
  · rcases hm with rfl | rfl
    · exact svHost_file
    · exact svHost_directory
  all_goals rcases hm with rfl | rfl
  any_goals decide +kernel
  · exact (setFlags_known _ initialVars).1 ⟨_, rfl⟩
  · exact (setFlags_known _ initialVars).1 ⟨_, rfl⟩
  · exact Or.inl (by decide +kernel)
  · exact Or.inl (by decide +kernel)

/-- C99 applies to a search for `(cn=robert)`, with the file and with the directory; and to a bind -/
example (s : Started) (h : launch ldEnv svHost true (fun _ => []) (svFlags b!"d/a.ldif") = .serves s) (st : LdifSt) (hst : NotReloaded ldEnv ldOrd s st) :=
  C99_search_partial (V := ldEnv) asciiCase_lawful ldOrd_lawful (H := svHost) goLdif_lawful (by decide) svHost_file (by decide +kernel)
    s h [[⟨b!"DC", b!"lg"⟩]] (by decide +kernel) st hst [] (Or.inl ⟨rfl, by decide +kernel, rfl⟩)
    b!"dc=lg" [[⟨b!"dc", b!"lg"⟩]] (by decide +kernel) (by decide +kernel) 2 (by omega) (by decide) sv_plain (.eq b!"cn" b!"robert") _ (wEq_wire _ _)
    (by decide +kernel : AttrText b!"cn") trivial trivial false (by decide +kernel) (fun r _ => ⟨ascii_agrees _ _, fun h => by cases h⟩) [b!"cn"]
    (by decide +kernel) toyOracle 7

example (s : Started) (h : launch ldEnv svHost true (fun _ => []) (svFlags b!"./d/") = .serves s) (st : LdifSt) (hst : NotReloaded ldEnv ldOrd s st) :=
  C99_search_partial (V := ldEnv) asciiCase_lawful ldOrd_lawful (H := svHost) goLdif_lawful (by decide) svHost_directory (by decide +kernel)
    s h [[⟨b!"DC", b!"lg"⟩]] (by decide +kernel) st hst [] (Or.inl ⟨rfl, by decide +kernel, rfl⟩)
    b!"dc=lg" [[⟨b!"dc", b!"lg"⟩]] (by decide +kernel) (by decide +kernel) 2 (by omega) (by decide) sv_plain (.eq b!"cn" b!"robert") _ (wEq_wire _ _)
    (by decide +kernel : AttrText b!"cn") trivial trivial false (by decide +kernel) (fun r _ => ⟨ascii_agrees _ _, fun h => by cases h⟩) [b!"cn"]
    (by decide +kernel) toyOracle 7

example (s : Started) (h : launch ldEnv svHost true (fun _ => []) (svFlags b!"d/a.ldif") = .serves s) (st : LdifSt) (hst : NotReloaded ldEnv ldOrd s st) :=
  C99_bind_partial (V := ldEnv) ldOrd_lawful (H := svHost) goLdif_lawful (by decide) svHost_file (by decide +kernel)
    (by decide +kernel) s h [[⟨b!"DC", b!"lg"⟩]] (by decide +kernel) st hst (by decide +kernel) b!"UID=bob,dc=lg" b!"uid=bob,dc=lg" b!"secret"
    (by decide +kernel) (by decide +kernel) (by decide +kernel) (by decide) toyOracle 7 []

end Idm
