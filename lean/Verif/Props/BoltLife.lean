import Verif.Spec.BoltLife
import Verif.Props.DurablePw
import Verif.Props.Loaded
/-!
# C106: what the database server answers over its whole life
-/
namespace Idm

section
variable {V : Env} {G : GobEnv} {ι : Type} {base : DN}

/-- C88: whatever the clients send, on however many connections, however the requests overlap, and at whatever points the process ends and is
started again: there is an order of the changes made such that also every answer that any client got, to whatever request, is the one it gets from the
server alone after some of the first changes; among these are all changes that were acknowledged before the request arrived, in whatever life, none that
was asked for after it was answered, and never fewer than an earlier answer has shown. -/
theorem C88_answers {base : Str} (db : Db) (lives : List (Life ι)) (h : Lives V G base db lives) :
    ∃ log saw, ExactlyOnce V G base db lives log ∧ AnswersFit V G base db lives log saw := by
  obtain ⟨log, E, -, saw, F⟩ := lives_log lives db h
  exact ⟨log, saw, E, F⟩

/-- A server that is started on the database uses the base DN it is given. -/
theorem launched_store (hC : V.C.Lawful) (hB : BaseOk V.C base) {file : Str} {l : Life ι} (h : LaunchedOn V base file l) :
    l.cfg.base = render base ∧ l.cfg.store = render base := by
  obtain ⟨H, lo, env, flags, s, b, hs, hbk, -, -, hb, hbf⟩ := h
  refine ⟨launched_base s hs hbk hb hbf, ?_⟩
  obtain ⟨hk, -, -⟩ := C80_options s hs
  rw [hbk] at hk
  rcases hk with ⟨⟨-, -, -, name, ad, h1, -, -, h3⟩, -⟩ | ⟨⟨-, -, -, _, _, _, _, _, -, -, -, -, -, h3⟩, -⟩
  · rw [hb] at h1
    cases h1
    injection h3 with _ h3
    rw [h3]
    show ((parseDN V.C (render (foldDN V.C b))).map (normalize V.C)).getD [] = _
    rw [hbf, parseDN_render hC base hB.name hB.endOk]
    simp [normalize, hB.folded]
  · rcases h3 with ⟨-, h3⟩ | ⟨-, -, _, _, -, -, h3⟩ <;> cases h3

theorem serverLives_lives (hC : V.C.Lawful) (hB : BaseOk V.C base) {file : Str} : ∀ (lives : List (Life ι)) (db : Db),
    ServerLives V G base file db lives → Lives V G (render base) db lives ∧ ∀ l ∈ lives, LaunchedOn V base file l := by
  intro lives
  induction lives with
  | nil => intro db _; exact ⟨trivial, by simp⟩
  | cons l ls ih =>
    rintro db ⟨h1, h2, h3⟩
    obtain ⟨g1, g2⟩ := ih _ h3
    refine ⟨⟨(launched_store hC hB h1).2, h2, g1⟩, fun l' hl' => ?_⟩
    rcases List.mem_cons.1 hl' with rfl | hl'
    · exact h1
    · exact g2 l' hl'

/-- The answers in terms of directories. -/
theorem lives_fit (hC : V.C.Lawful) (hG : G.Lawful) (hB : BaseOk V.C base) (ops₀ : List Op) (hops : HistOk V.C ops₀)
    (hadd : ∀ e, Op.add e ∈ ops₀ → ∃ nm, parseDN V.C e.dn = some nm) (lives : List (Life ι))
    (h : Lives V G (render base) (after V.C G (validatePw V.C V.K) base ops₀) lives) (hcfg : ∀ l ∈ lives, l.cfg.base = render base)
    (hok : ∀ op, Asked V lives op → op.Ok V.C) (hlen : ops₀.length + (lives.map fun l => l.proc.trace.length).sum < 2 ^ 64) :
    ∃ log saw, ExactlyOnce V G (render base) (after V.C G (validatePw V.C V.K) base ops₀) lives log ∧
      AnswersFit V G (render base) (after V.C G (validatePw V.C V.K) base ops₀) lives log saw ∧
      (specRun V.C (validatePw V.C V.K) base (dirAfter V.C (validatePw V.C V.K) base ops₀) (log.map (·.op))).1 = log.map (fun _ => .ok ()) ∧
      SearchesFit V base (dirAfter V.C (validatePw V.C V.K) base ops₀) lives log saw ∧
      BindsFit V base (dirAfter V.C (validatePw V.C V.K) base ops₀) lives log saw := by
  obtain ⟨log, E, hl, saw, F⟩ := lives_log lives _ h
  have hok' : HistOk V.C (ops₀ ++ log.map (·.op)) := by
    refine ⟨fun op hop => ?_, by simp; omega⟩
    rcases List.mem_append.1 hop with hop | hop
    · exact hops.ok op hop
    · obtain ⟨x, hx, rfl⟩ := List.mem_map.1 hop
      obtain ⟨l, t₁, c, p, o, t₂, b, k1, k2, k3, -, k4⟩ := E.asked x hx
      exact hok _ ⟨l, List.mem_of_getElem? k1, x.id, t₁, c, p, o, t₂, b, k2, k3, k4⟩
  have hsub : ∀ n, HistOk V.C (ops₀ ++ (log.take n).map (·.op)) := by
    intro n
    refine ⟨fun op hop => hok'.ok op ?_, ?_⟩
    · rcases List.mem_append.1 hop with hop | hop
      · exact List.mem_append_left _ hop
      · obtain ⟨x, hx, rfl⟩ := List.mem_map.1 hop
        exact List.mem_append_right _ (List.mem_map_of_mem (List.mem_of_mem_take hx))
    · have := hok'.len
      simp at this ⊢
      omega
  have hdir : ∀ n, dirAfter V.C (validatePw V.C V.K) base (ops₀ ++ (log.take n).map (·.op)) =
      dirUpTo V base (dirAfter V.C (validatePw V.C V.K) base ops₀) log n := by
    intro n
    unfold dirUpTo dirAfter
    rw [specRun_append]
  have hfile : ∀ n, after V.C G (validatePw V.C V.K) base (ops₀ ++ (log.take n).map (·.op)) =
      (boltRun V.C G (validatePw V.C V.K) (render base) (after V.C G (validatePw V.C V.K) base ops₀) ((log.take n).map (·.op))).2 := by
    intro n
    unfold after
    rw [boltRun_append]
  have hnames : ∀ n, ∀ x ∈ dirUpTo V base (dirAfter V.C (validatePw V.C V.K) base ops₀) log n, ∃ nm, parseDN V.C x.entry.dn = some nm := by
    intro n
    rw [← hdir]
    refine C33_names_parse _ fun e he => ?_
    rcases List.mem_append.1 he with he | he
    · exact hadd e he
    · obtain ⟨x, hx, hxe⟩ := List.mem_map.1 he
      obtain ⟨l, t₁, c, p, o, t₂, b, k1, k2, k3, -, k4⟩ := E.asked x (List.mem_of_mem_take hx)
      obtain ⟨mid, req, -, ⟨w, -, hn, ho⟩ | ⟨-, _, _, _, _, _, _, _, -, -, -, -, ho⟩⟩ := k4
      · rw [hxe] at ho
        cases w <;> simp only [Write.op] at ho <;> cases ho
        exact Option.ne_none_iff_exists'.1 (hn _ (by simp [Write.names, entryFromAddRequest]))
      · rw [hxe] at ho
        cases ho
  refine ⟨log, saw, E, F, ?_, ?_, ?_⟩
  · obtain ⟨ns, h1, -, -, -⟩ := sim_run_empty (validate := validatePw V.C V.K) hC hG hB (ops₀ ++ log.map (·.op)) hok'.ok hok'.len
    rw [boltRun_append, specRun_append] at h1
    dsimp only at h1
    have e : (boltRun V.C G (validatePw V.C V.K) (render base) Db.empty ops₀).2 = after V.C G (validatePw V.C V.K) base ops₀ := rfl
    rw [e, E.file] at h1
    have hl1 := congrArg (List.drop ops₀.length) h1
    have n1 : (boltRun V.C G (validatePw V.C V.K) (render base) Db.empty ops₀).1.length = ops₀.length := boltRun_length ..
    have n2 : (specRun V.C (validatePw V.C V.K) base [] ops₀).1.length = ops₀.length := specRun_length ..
    rw [List.drop_append_of_le_length (by omega), List.drop_append_of_le_length (by omega)] at hl1
    rw [List.drop_of_length_le (by omega), List.drop_of_length_le (by omega)] at hl1
    exact hl1.symm
  · intro k l id c o rs mid at_ name scope f wf attrs hk ha hname hnok hne hsc hw hff hsup hrep d hplain
    obtain ⟨t₁, t₂, bound, -, -, hrs⟩ := F.answers k l id c _ o rs hk ha
    rw [← hfile] at hrs
    have hd : d = dirAfter V.C (validatePw V.C V.K) base (ops₀ ++ (log.take (saw k id)).map (·.op)) := (hdir _).symm
    constructor
    · intro hhas
      have := C33_search_first_partial (cfg := l.cfg) (n := l.genPwLen) (stats := l.stats) hC hG hB _ (hsub (saw k id)) (fun _ _ => False)
        (by rw [hdir]; exact hnames _) at_ name hname hnok hne scope hsc (by rw [hdir]; exact hplain) f wf hw hff hsup attrs hrep o mid bound
        (by rw [hdir]; exact hhas)
      obtain ⟨found, f1, f2, f3⟩ := this
      rw [← hd] at f2
      refine ⟨found, f1, f2, ?_⟩
      rw [hrs, f3]
    · intro hhas
      have := C33_no_base_partial (cfg := l.cfg) (n := l.genPwLen) (stats := l.stats) hC hG hB _ (hsub (saw k id)) at_ name hname hnok scope
        f wf hw hff attrs 0 o mid bound (by rw [hdir]; exact hhas)
      rw [hrs, this]
  · intro k l id c o rs mid dn pw hk ha ht
    obtain ⟨t₁, t₂, bound, -, -, hrs⟩ := F.answers k l id c _ o rs hk ha
    rw [← hfile] at hrs
    obtain ⟨-, g1, g2⟩ := C22_bind_exact (cfg := l.cfg) (n := l.genPwLen) (stats := l.stats) hC hG hB (hcfg l (List.mem_of_getElem? hk)) _
      (hsub (saw k id)) o mid bound dn pw ht
    rw [hdir] at g1 g2
    by_cases hm : MayBind V.C V.K l.cfg.anon base (dirUpTo V base (dirAfter V.C (validatePw V.C V.K) base ops₀) log (saw k id)) dn pw
    · obtain ⟨_, -, e, -⟩ := g1 hm
      exact ⟨0, by rw [hrs, e], by simp [hm]⟩
    · obtain ⟨code, hc, e, -⟩ := g2 hm
      exact ⟨code, by rw [hrs, e], by simp [hm, hc]⟩

/-- C106: servers are started one after the other on a new database file, with whatever settings but this base DN; they serve any number of clients
that send whatever they like at the same time, and end whenever it may be. There is an order of the changes, as in C88, such that beginning with the
empty directory every search and every bind that was answered in any of these lives was answered as in the directory after some of the first changes:
all that were acknowledged before, none asked for later, and never fewer than seen before. (Missing: what C33, C22 and C88 leave out.) -/
theorem C106_new_partial (hC : V.C.Lawful) (hG : G.Lawful) (hB : BaseOk V.C base) (file : Str) (lives : List (Life ι))
    (hlives : ServerLives V G base file Db.empty lives) (hok : ∀ op, Asked V lives op → op.Ok V.C)
    (hlen : (lives.map fun l => l.proc.trace.length).sum < 2 ^ 64) :
    ∃ log saw, ExactlyOnce V G (render base) Db.empty lives log ∧ AnswersFit V G (render base) Db.empty lives log saw ∧
      (specRun V.C (validatePw V.C V.K) base [] (log.map (·.op))).1 = log.map (fun _ => .ok ()) ∧
      SearchesFit V base [] lives log saw ∧ BindsFit V base [] lives log saw := by
  obtain ⟨hlv, hla⟩ := serverLives_lives hC hB lives _ hlives
  exact lives_fit hC hG hB [] ⟨by simp, by simp⟩ (by simp) lives hlv (fun l hl => (launched_store hC hB (hla l hl)).1) hok (by simpa using hlen)

/-! ## From the text of an LDIF file -/

section
variable {L : LdifLib} {levelOk : Str → Bool}

/-- C106: an LDIF file that says `rs` has been loaded into a new database, with exit code 0. Servers are started on that database one after the other,
with whatever settings but this base DN; they serve any number of clients that send whatever they like at the same time, and end whenever it may be.
There is an order of the changes, as in C88, such that with the records of the file as the first directory every search and every bind that was answered
in any of these lives was answered as in the directory after some of the first changes: all that were acknowledged before, none asked for later, and
never fewer than seen before. (Missing: what C33, C22, C88 and C90 leave out.) -/
theorem C106_life_partial (hC : V.C.Lawful) (hG : G.Lawful) (hL : L.Lawful) (hB : BaseOk V.C base) (o : BoltdbOpts) (w w' : FileWorld)
    (input baseText text : Str) (b : DN) (hi : o.inputFile = some input) (hb : o.baseDN = some baseText)
    (hl : levelOk o.logLevel = true) (hf : (w.dbs o.boltdbFile).content = some Db.empty) (hk : w.locks o.boltdbFile = .free)
    (ht : w.texts input = some (.whole text)) (hbt : parseDN V.C baseText = some b) (hbf : foldDN V.C b = base)
    (rs : List LdifRecord) (hr : LdifInput L text rs) (names : List DN) (hn : Matched (LdifRecord.Named V.C) rs names)
    (hload : loadCmd V.C G L levelOk o w = (.ok (), w'))
    (db : Db) (hdb : w'.dbs o.boltdbFile = .ready db)
    (lives : List (Life ι)) (hlives : ServerLives V G base o.boltdbFile db lives)
    (hok : ∀ op, Asked V lives op → op.Ok V.C) (hlen : rs.length + (lives.map fun l => l.proc.trace.length).sum < 2 ^ 64) :
    ∃ (d₀ : Dir) (log : List (Made ι)) (saw : Nat → ι → Nat),
      Matched (fun (r : LdifRecord) (x : Node) => r.Named V.C x.name ∧ EntrySays r x.entry) rs d₀ ∧
      (∀ x ∈ d₀, base <:+ x.name) ∧ (d₀.map (·.name)).Nodup ∧
      ExactlyOnce V G (render base) db lives log ∧ AnswersFit V G (render base) db lives log saw ∧
      (specRun V.C (validatePw V.C V.K) base d₀ (log.map (·.op))).1 = log.map (fun _ => .ok ()) ∧
      SearchesFit V base d₀ lives log saw ∧ BindsFit V base d₀ lives log saw := by
  obtain ⟨es, hes, hH, h2, h3⟩ := load_new (validate := validatePw V.C V.K) hC hG hL hB o w input baseText text b hi hb hl hf hk ht hbt hbf rs hr names hn
    (by omega)
  have htd : TopDown base names := h2.1 (by rw [hload]; rfl)
  obtain ⟨g1, g2, g3, g4⟩ := h3 htd
  rw [hload] at g1
  dsimp only at g1
  rw [hdb] at g1
  cases g1
  obtain ⟨hlv, hla⟩ := serverLives_lives hC hB lives _ hlives
  obtain ⟨log, saw, E, F, hs, hS, hBd⟩ := lives_fit hC hG hB (es.map .add) hH (fun e he => by
    obtain ⟨e', he', hee⟩ := List.mem_map.1 he
    cases hee
    obtain ⟨r, hr, hre⟩ := matched_mem_right hes e he'
    obtain ⟨k, -, n, a1, -⟩ := matched_mem_left hn r hr
    exact ⟨n, by rw [hre.1]; exact a1⟩) lives hlv (fun l hl => (launched_store hC hB (hla l hl)).1) hok
    (by rw [List.length_map, ← matched_length hes]; exact hlen)
  exact ⟨_, log, saw, g2, g3, g4, E, F, hs, hS, hBd⟩

theorem untouched_get {d₀ : Dir} {lives : List (Life ι)} {log : List (Made ι)} {db : Db} {bs : Str} (E : ExactlyOnce V G bs db lives log) {name : DN}
    (hu : Untouched V lives name) {e : Entry} (h : d₀.get (foldDN V.C name) = some e) (n : Nat) :
    (dirUpTo V base d₀ log n).get (foldDN V.C name) = some e := by
  refine run_get _ _ h fun op hop => ?_
  obtain ⟨x, hx, rfl⟩ := List.mem_map.1 hop
  obtain ⟨l, t₁, c, p, o, t₂, b, k1, k2, k3, -, k4⟩ := E.asked x (List.mem_of_mem_take hx)
  exact hu _ ⟨l, List.mem_of_getElem? k1, x.id, t₁, c, p, o, t₂, b, k2, k3, k4⟩

theorem record_get {d₀ : Dir} {rs : List LdifRecord} {C : CaseEnv}
    (g2 : Matched (fun (r : LdifRecord) (x : Node) => r.Named C x.name ∧ EntrySays r x.entry) rs d₀) (g4 : (d₀.map (·.name)).Nodup)
    {r : LdifRecord} (hr : r ∈ rs) {k : DN} (hrn : r.Named C k) : ∃ x ∈ d₀, x.name = k ∧ d₀.get k = some x.entry ∧ EntrySays r x.entry := by
  obtain ⟨x, hx, hxn, hre⟩ := matched_mem_left g2 r hr
  have hxk : x.name = k := named_fun hxn hrn
  refine ⟨x, hx, hxk, ?_, hre⟩
  simp only [Dir.get, Option.map_eq_some_iff]
  cases hfd : d₀.find? fun y => y.name = k with
  | none =>
    have := List.find?_eq_none.1 hfd x hx
    simp [hxk] at this
  | some y =>
    refine ⟨y, rfl, ?_⟩
    have hy : y.name = k := by simpa using List.find?_some hfd
    rw [nodup_inj g4 y (List.mem_of_find?_eq_some hfd) x hx (by rw [hy, hxk])]

theorem get_mem {d : Dir} {k : DN} {e : Entry} (h : d.get k = some e) : ⟨k, e⟩ ∈ d := by
  simp only [Dir.get, Option.map_eq_some_iff] at h
  obtain ⟨x, hx, rfl⟩ := h
  have hxk : x.name = k := by simpa using List.find?_some hx
  rw [← hxk]
  exact List.mem_of_find?_eq_some hx

/-- C106: a record of the file that nobody asks to change, delete or rename is sent with all its values, whatever else happens: in every life, in
answer to every subtree search below the name of any such record above it (or its own), whose filter it satisfies. -/
theorem C106_record_partial (hC : V.C.Lawful) (hG : G.Lawful) (hL : L.Lawful) (hB : BaseOk V.C base) (o : BoltdbOpts) (w w' : FileWorld)
    (input baseText text : Str) (b : DN) (hi : o.inputFile = some input) (hb : o.baseDN = some baseText)
    (hl : levelOk o.logLevel = true) (hf : (w.dbs o.boltdbFile).content = some Db.empty) (hk : w.locks o.boltdbFile = .free)
    (ht : w.texts input = some (.whole text)) (hbt : parseDN V.C baseText = some b) (hbf : foldDN V.C b = base)
    (rs : List LdifRecord) (hr : LdifInput L text rs) (names : List DN) (hn : Matched (LdifRecord.Named V.C) rs names)
    (hload : loadCmd V.C G L levelOk o w = (.ok (), w'))
    (db : Db) (hdb : w'.dbs o.boltdbFile = .ready db)
    (lives : List (Life ι)) (hlives : ServerLives V G base o.boltdbFile db lives)
    (hok : ∀ op, Asked V lives op → op.Ok V.C) (hlen : rs.length + (lives.map fun l => l.proc.trace.length).sum < 2 ^ 64)
    (r top : LdifRecord) (hrm : r ∈ rs) (htm : top ∈ rs) (n m : DN) (hrn : parseDN V.C r.dn = some n) (htn : parseDN V.C top.dn = some m)
    (hnm : foldDN V.C m <:+ foldDN V.C n) (hun : Untouched V lives n) (hum : Untouched V lives m)
    (k : Nat) (l : Life ι) (id : ι) (c : Nat) (or : Oracle) (resps : List Resp) (mid : Int) (at_ : Str) (name : DN) (f : Filter) (wf : Packet)
    (attrs : List Str) (hkl : lives[k]? = some l) (ha : Answered l id c (wMsg mid (wSearch at_ 2 0 wf attrs)) or resps)
    (hat : parseDN V.C at_ = some name) (hsame : foldDN V.C name = foldDN V.C m) (hno : NameOk name)
    (hw : Wire f wf) (hff : FilterOk f) (h1 : OneComponent f) (hsup : Supported f) (hrep : NoRepeat V.C attrs)
    (hsat : Sat V.C (fun _ _ => False) r.whole f) :
    ∃ e, Resp.entry mid e ∈ resps ∧ SentWhole V.C attrs r e := by
  obtain ⟨d₀, log, saw, g2, g3, g4, E, F, -, hS, -⟩ := C106_life_partial hC hG hL hB o w w' input baseText text b hi hb hl hf hk ht hbt hbf rs hr names hn
    hload db hdb lives hlives hok hlen
  obtain ⟨k₁, -, n', q1, q2, q3⟩ := matched_mem_left hn r hrm
  rw [hrn] at q1
  cases q1
  obtain ⟨k₂, -, m', p1, p2, p3⟩ := matched_mem_left hn top htm
  rw [htn] at p1
  cases p1
  obtain ⟨x, -, hx1, hx2, hx3⟩ := record_get g2 g4 hrm (k := foldDN V.C n) ⟨n, hrn, q2, rfl⟩
  obtain ⟨y, -, hy1, hy2, hy3⟩ := record_get g2 g4 htm (k := foldDN V.C m) ⟨m, htn, p2, rfl⟩
  have hne : name ≠ [] := by
    rintro rfl
    have : foldDN V.C m = [] := hsame.symm
    obtain ⟨z, hz, hz1, -⟩ := record_get g2 g4 htm (k := foldDN V.C m) ⟨m, htn, p2, rfl⟩
    have := g3 z hz
    rw [hz1, ‹foldDN V.C m = []›] at this
    exact hB.ne (List.suffix_nil.1 this)
  obtain ⟨hfound, -⟩ := hS k l id c or resps mid at_ name 2 f wf attrs hkl ha hat hno hne (Nat.le_refl _) hw hff hsup hrep (fun h => absurd rfl h)
  obtain ⟨found, -, f2, f3⟩ := hfound (by rw [hsame]; exact has_of_get (untouched_get E hum hy2 _))
  rw [firstOnly_id f h1] at f2
  have hxm := get_mem (untouched_get (base := base) E hun hx2 (saw k id))
  have : (⟨foldDN V.C n, x.entry⟩ : Node) ∈ found := by
    refine (f2 _).2 ⟨hxm, ?_, (whole_sat hx3 _ f hsup).2 hsat⟩
    rw [hsame]
    obtain ⟨p, hp⟩ := hnm
    exact .inr (.inr ⟨rfl, p, hp.symm⟩)
  refine ⟨reduced V.C attrs x.entry, ?_, whole_sent hx3 attrs⟩
  rw [f3]
  exact List.mem_append_left _ (List.mem_map.2 ⟨_, this, rfl⟩)

/-- C106: with a record of the file that nobody asks to change, delete or rename one can log in, in every life and whatever else happens, with its
password and with no other. -/
theorem C106_login_partial (hC : V.C.Lawful) (hG : G.Lawful) (hL : L.Lawful) (hB : BaseOk V.C base) (o : BoltdbOpts) (w w' : FileWorld)
    (input baseText text : Str) (b : DN) (hi : o.inputFile = some input) (hb : o.baseDN = some baseText)
    (hl : levelOk o.logLevel = true) (hf : (w.dbs o.boltdbFile).content = some Db.empty) (hk : w.locks o.boltdbFile = .free)
    (ht : w.texts input = some (.whole text)) (hbt : parseDN V.C baseText = some b) (hbf : foldDN V.C b = base)
    (rs : List LdifRecord) (hr : LdifInput L text rs) (names : List DN) (hn : Matched (LdifRecord.Named V.C) rs names)
    (hload : loadCmd V.C G L levelOk o w = (.ok (), w'))
    (db : Db) (hdb : w'.dbs o.boltdbFile = .ready db)
    (lives : List (Life ι)) (hlives : ServerLives V G base o.boltdbFile db lives)
    (hok : ∀ op, Asked V lives op → op.Ok V.C) (hlen : rs.length + (lives.map fun l => l.proc.trace.length).sum < 2 ^ 64)
    (r : LdifRecord) (hrm : r ∈ rs) (n : DN) (hrn : parseDN V.C r.dn = some n) (hun : Untouched V lives n)
    (k : Nat) (l : Life ι) (id : ι) (c : Nat) (or : Oracle) (resps : List Resp) (mid : Int) (dn pw : Str) (name : DN)
    (hkl : lives[k]? = some l) (ha : Answered l id c (wMsg mid (wBind dn pw)) or resps)
    (hdn : parseDN V.C dn = some name) (hsame : foldDN V.C name = foldDN V.C n) (hno : NameOk name) (hpw : pw ≠ []) :
    ∃ code, resps = [.result mid 1 code] ∧ (code = 0 ↔ r.admitsFirst V.C V.K pw) := by
  obtain ⟨d₀, log, saw, g2, g3, g4, E, F, -, -, hBd⟩ := C106_life_partial hC hG hL hB o w w' input baseText text b hi hb hl hf hk ht hbt hbf rs hr names hn
    hload db hdb lives hlives hok hlen
  obtain ⟨k₁, -, n', q1, q2, q3⟩ := matched_mem_left hn r hrm
  rw [hrn] at q1
  cases q1
  obtain ⟨x, hx, hx1, hx2, hx3⟩ := record_get g2 g4 hrm (k := foldDN V.C n) ⟨n, hrn, q2, rfl⟩
  obtain ⟨code, e1, e2⟩ := hBd k l id c or resps mid dn pw hkl ha (fun n' hn' => by rw [hdn] at hn'; cases hn'; exact hno)
  refine ⟨code, e1, e2.trans ?_⟩
  have hget := untouched_get (base := base) E hun hx2 (saw k id)
  unfold MayBind LdifRecord.admitsFirst
  constructor
  · rintro (⟨-, h, -⟩ | ⟨-, name', e, p, a1, -, a3, a4, a5⟩)
    · exact absurd h hpw
    · rw [hdn] at a1
      cases a1
      rw [hsame, hget] at a3
      cases a3
      obtain ⟨t, more, b1, b2, b3⟩ := (whole_first hx3 p).1 a4
      exact ⟨t, p, more, b1, b2, b3, a5⟩
  · rintro ⟨t, p, more, b1, b2, b3, a5⟩
    exact .inr ⟨hpw, name, x.entry, p, hdn, by rw [hsame, ← hx1]; exact render_suffix (g3 x hx), by rw [hsame]; exact hget,
      (whole_first hx3 p).2 ⟨t, more, b1, b2, b3⟩, a5⟩

end
end

/-! ## Example

The file of C100 is loaded. In the first life of the server Bob, who is the administrator, adds Eve, and the process is killed. In the second life
someone searches for Robert and then logs in as Bob. -/

def lfFlags : List Flag := [.str b!"ldap-handler" b!"boltdb", .str b!"ldap-base-dn" b!"dc=LG", .str b!"ldap-admin-dn" b!"uid=bob,dc=lg"]

def lfCfg : BoltCfg := ⟨b!"dc=lg", b!"uid=bob,dc=lg", false, b!"dc=lg"⟩

theorem lfLaunch (s : Par Nat) : LaunchedOn toyEnv toyBase b!"idmbolt.db" (⟨lfCfg, 16, false, s⟩ : Life Nat) :=
  ⟨toyHost, true, fun _ => [], lfFlags, _, [[⟨b!"dc", b!"LG"⟩]], rfl, rfl, rfl, rfl, by decide +kernel, by decide +kernel⟩

def lfDb : Db := (loAfter svText).2.db b!"idmbolt.db"

def lfBind : Job Nat := ⟨0, toyOracle, wMsg 1 (wBind b!"UID=bob,dc=lg" b!"secret"), []⟩
def lfAdd : Job Nat := ⟨1, toyOracle, wMsg 2 (wAdd ⟨b!"uid=Eve,dc=lg", [⟨b!"uid", [b!"Eve"]⟩]⟩), b!"uid=bob,dc=lg"⟩
def lfFind : Job Nat := ⟨0, toyOracle, wMsg 7 (wSearch b!"dc=LG" 2 0 (wEq b!"cn" b!"robert") [b!"cn"]), []⟩
def lfLogin : Job Nat := ⟨1, toyOracle, wMsg 8 (wBind b!"uid=BOB,dc=lg" b!"secret"), []⟩

def lfWork (j : Job Nat) : Work := packetWork toyEnv gobInstance lfCfg 16 false j.o j.p j.b

theorem lf_read {j : Job Nat} (h : (lfWork j).kind = 1) : ∃ p, packetWork toyEnv gobInstance lfCfg 16 false j.o j.p j.b = .read p := by
  unfold lfWork at h
  cases hw : packetWork toyEnv gobInstance lfCfg 16 false j.o j.p j.b <;> rw [hw] at h <;> first | exact ⟨_, rfl⟩ | cases h

theorem lf_write {j : Job Nat} (h : (lfWork j).kind = 2) : ∃ p, packetWork toyEnv gobInstance lfCfg 16 false j.o j.p j.b = .write p := by
  unfold lfWork at h
  cases hw : packetWork toyEnv gobInstance lfCfg 16 false j.o j.p j.b <;> rw [hw] at h <;> first | exact ⟨_, rfl⟩ | cases h

def lfDb2 : Db := ((lfWork lfAdd).exec lfDb).2

/-- Non-vacuity of `C106_new_partial`: a server on a new database in which someone tries to log in as Bob, who does not exist. -/
example : ∃ s : Par Nat, ServerLives toyEnv gobInstance toyBase b!"idmbolt.db" Db.empty [(⟨lfCfg, 16, false, s⟩ : Life Nat)] ∧
    (∀ op, Asked toyEnv [(⟨lfCfg, 16, false, s⟩ : Life Nat)] op → op.Ok asciiCase) ∧
    Answered (⟨lfCfg, 16, false, s⟩ : Life Nat) 0 0 (wMsg 1 (wBind b!"UID=bob,dc=lg" b!"secret")) toyOracle [.result 1 1 49] := by
  obtain ⟨pb, hpb⟩ := lf_read (j := lfBind) (by decide +kernel)
  have h0 : ParReach (ι := Nat) toyEnv gobInstance lfCfg 16 false Db.empty (Par.start Db.empty) := .start
  have h1 := ParReach.step _ _ h0 (.arrive _ 0 [] 0 lfBind.o lfBind.p rfl rfl (by simp [Par.start]))
  have h2 := ParReach.step _ _ h1 (.beginRead _ 0 lfBind pb rfl rfl hpb)
  have h3 := read_through (c := 0) (d := Db.empty) h2 rfl hpb rfl (b' := []) (by decide +kernel) (by decide +kernel)
  refine ⟨_, ⟨lfLaunch _, h3, trivial⟩, ?_, ?_⟩
  · rintro op ⟨l, hl, id, t₁, c, p, o, t₂, b, he, -, hop⟩
    have ha : Seen.arrive id (.packet c p o) ∈ l.proc.trace := by rw [he]; simp
    simp only [List.mem_cons, List.mem_nil_iff, or_false] at hl
    subst hl
    simp [Par.start] at ha
    obtain ⟨-, -, rfl, -⟩ := ha
    obtain ⟨mid, req, ⟨m, more, h1, -, -⟩, hh⟩ := hop
    cases h1
    rcases hh with ⟨w, hw, -, -⟩ | ⟨ht, -⟩
    · cases w <;> exact absurd hw.1 (by decide)
    · exact absurd ht (by decide)
  · have e1 : (packetEnd toyEnv lfCfg 16 false lfBind.o lfBind.p lfBind.b ((lfWork lfBind).exec Db.empty).1).1 = [.result 1 1 49] := by
      decide +kernel
    unfold lfWork at e1
    refine ⟨?_, ?_⟩
    · simp [Par.start, lfBind]
    · simp only [Par.start, e1]
      simp [lfBind]

theorem lf_first : ∃ s : Par Nat, ParReach toyEnv gobInstance lfCfg 16 false lfDb s ∧ s.disk = lfDb2 ∧
    s.trace = [.arrive 0 (.packet 0 lfBind.p lfBind.o), .answer 0 [.result 1 1 0],
      .arrive 1 (.packet 0 lfAdd.p lfAdd.o), .answer 1 [.result 2 9 0]] := by
  obtain ⟨pb, hpb⟩ := lf_read (j := lfBind) (by decide +kernel)
  obtain ⟨pd, hpd⟩ := lf_write (j := lfAdd) (by decide +kernel)
  have h0 : ParReach (ι := Nat) toyEnv gobInstance lfCfg 16 false lfDb (Par.start lfDb) := .start
  have h1 := ParReach.step _ _ h0 (.arrive _ 0 [] 0 lfBind.o lfBind.p rfl rfl (by simp [Par.start]))
  have h2 := ParReach.step _ _ h1 (.beginRead _ 0 lfBind pb rfl rfl hpb)
  have h3 := read_through (c := 0) (d := lfDb) h2 rfl hpb rfl (b' := b!"uid=bob,dc=lg") (by decide +kernel) (by decide +kernel)
  have h4 := ParReach.step _ _ h3 (.arrive _ 0 b!"uid=bob,dc=lg" 1 lfAdd.o lfAdd.p rfl rfl (by simp [Par.start]))
  have h7 := ParReach.step _ _ h4 (.beginWrite _ 0 lfAdd pd rfl (by simp [setStage]; rfl) hpd rfl)
  have h8 := write_through (c := 0) h7 rfl hpd rfl (b' := b!"uid=bob,dc=lg")
    (by
      show (packetEnd toyEnv lfCfg 16 false lfAdd.o lfAdd.p lfAdd.b ((lfWork lfAdd).exec lfDb).1).2 = _
      decide +kernel)
  refine ⟨_, h8, rfl, ?_⟩
  have e1 : (packetEnd toyEnv lfCfg 16 false lfBind.o lfBind.p lfBind.b ((lfWork lfBind).exec lfDb).1).1 = [.result 1 1 0] := by decide +kernel
  have e2 : (packetEnd toyEnv lfCfg 16 false lfAdd.o lfAdd.p lfAdd.b ((lfWork lfAdd).exec lfDb).1).1 = [.result 2 9 0] := by
    decide +kernel
  unfold lfWork at e1 e2
  simp only [Par.start, e1, e2]
  rfl

theorem lf_second : ∃ s : Par Nat, ParReach toyEnv gobInstance lfCfg 16 false lfDb2 s ∧
    s.trace = [.arrive 0 (.packet 0 lfFind.p lfFind.o),
      .answer 0 [.entry 7 ⟨b!"uid=Bob,dc=lg", [⟨b!"cn", [b!"Bob", b!"Robert"]⟩]⟩, .searchDone 7 0 (some [])],
      .arrive 1 (.packet 0 lfLogin.p lfLogin.o), .answer 1 [.result 8 1 0]] := by
  obtain ⟨pb, hpb⟩ := lf_read (j := lfFind) (by decide +kernel)
  obtain ⟨pd, hpd⟩ := lf_read (j := lfLogin) (by decide +kernel)
  have h0 : ParReach (ι := Nat) toyEnv gobInstance lfCfg 16 false lfDb2 (Par.start lfDb2) := .start
  have h1 := ParReach.step _ _ h0 (.arrive _ 0 [] 0 lfFind.o lfFind.p rfl rfl (by simp [Par.start]))
  have h2 := ParReach.step _ _ h1 (.beginRead _ 0 lfFind pb rfl rfl hpb)
  have h3 := read_through (c := 0) (d := lfDb2) h2 rfl hpb rfl (b' := []) (by decide +kernel) (by decide +kernel)
  have h4 := ParReach.step _ _ h3 (.arrive _ 0 [] 1 lfLogin.o lfLogin.p rfl rfl (by simp [Par.start]))
  have h7 := ParReach.step _ _ h4 (.beginRead _ 0 lfLogin pd rfl (by simp [setStage]; rfl) hpd)
  have h8 := read_through (c := 0) (d := lfDb2) h7 rfl hpd rfl (b' := b!"uid=bob,dc=lg") (by decide +kernel) (by decide +kernel)
  refine ⟨_, h8, ?_⟩
  have e1 : (packetEnd toyEnv lfCfg 16 false lfFind.o lfFind.p lfFind.b ((lfWork lfFind).exec lfDb2).1).1 =
    [.entry 7 ⟨b!"uid=Bob,dc=lg", [⟨b!"cn", [b!"Bob", b!"Robert"]⟩]⟩, .searchDone 7 0 (some [])] := by decide +kernel
  have e2 : (packetEnd toyEnv lfCfg 16 false lfLogin.o lfLogin.p lfLogin.b ((lfWork lfLogin).exec lfDb2).1).1 = [.result 8 1 0] := by
    decide +kernel
  unfold lfWork at e1 e2
  simp only [Par.start, e1, e2]
  rfl

/-- What is asked for in these lives: that Eve is added. -/
theorem lf_asked {s s' : Par Nat} (ht : s.trace = [.arrive 0 (.packet 0 lfBind.p lfBind.o), .answer 0 [.result 1 1 0],
      .arrive 1 (.packet 0 lfAdd.p lfAdd.o), .answer 1 [.result 2 9 0]])
    (ht' : s'.trace = [.arrive 0 (.packet 0 lfFind.p lfFind.o),
      .answer 0 [.entry 7 ⟨b!"uid=Bob,dc=lg", [⟨b!"cn", [b!"Bob", b!"Robert"]⟩]⟩, .searchDone 7 0 (some [])],
      .arrive 1 (.packet 0 lfLogin.p lfLogin.o), .answer 1 [.result 8 1 0]]) {op : Op}
    (h : Asked toyEnv [(⟨lfCfg, 16, false, s⟩ : Life Nat), ⟨lfCfg, 16, false, s'⟩] op) : ∃ as, op = .add (entryFromAddRequest b!"uid=Eve,dc=lg" as) := by
  have read : ∀ {b : Str} {p : Packet}, (p = lfBind.p ∨ p = lfFind.p ∨ p = lfLogin.p) → ¬ AsksFor toyEnv b p op := by
    rintro b p hp ⟨mid, req, ⟨m, more, h1, -, -⟩, hh⟩
    rcases hp with rfl | rfl | rfl <;> cases h1 <;> rcases hh with ⟨w, hw, -, -⟩ | ⟨ht, -⟩
    all_goals first | exact absurd ht (by decide) | (cases w <;> exact absurd hw.1 (by decide))
  obtain ⟨l, hl, id, t₁, c, p, o, t₂, b, he, -, hop⟩ := h
  have ha : Seen.arrive id (.packet c p o) ∈ l.proc.trace := by rw [he]; simp
  simp only [List.mem_cons, List.mem_nil_iff, or_false] at hl
  rcases hl with rfl | rfl
  · dsimp only at ha
    rw [ht] at ha
    simp only [List.mem_cons, List.mem_nil_iff, or_false] at ha
    rcases ha with h | h | h | h <;> cases h
    · exact absurd hop (read (.inl rfl))
    · obtain ⟨mid, req, ⟨m, more, h1, -, -⟩, hh⟩ := hop
      cases h1
      rcases hh with ⟨w, hw, -, rfl⟩ | ⟨ht, -⟩
      · cases w <;> first | exact absurd hw.1 (by decide) | skip
        obtain ⟨-, d, l, k1, k2, -⟩ := hw
        cases k1
        cases k2
        exact ⟨_, rfl⟩
      · exact absurd ht (by decide)
  · dsimp only at ha
    rw [ht'] at ha
    simp only [List.mem_cons, List.mem_nil_iff, or_false] at ha
    rcases ha with h | h | h | h <;> cases h
    · exact absurd hop (read (.inr (.inl rfl)))
    · exact absurd hop (read (.inr (.inr rfl)))

/-- Non-vacuity: all hypotheses of C106 hold of these lives, and what the theorems say of the search and of the login is so. -/
example : ∃ s s' : Par Nat, let lives : List (Life Nat) := [⟨lfCfg, 16, false, s⟩, ⟨lfCfg, 16, false, s'⟩]
    ServerLives toyEnv gobInstance toyBase b!"idmbolt.db" lfDb lives ∧ (∀ op, Asked toyEnv lives op → op.Ok asciiCase) ∧
    svRecords.length + (lives.map fun l => l.proc.trace.length).sum < 2 ^ 64 ∧
    (∃ op, Asked toyEnv lives op) ∧ (∀ n, (∀ as, ¬ TakesAway asciiCase n (.add as) ∧ ¬ Edits asciiCase n (.add as)) → Untouched toyEnv lives n) ∧
    (∃ e, Resp.entry 7 e ∈ [Resp.entry 7 ⟨b!"uid=Bob,dc=lg", [⟨b!"cn", [b!"Bob", b!"Robert"]⟩]⟩, .searchDone 7 0 (some [])] ∧
      SentWhole asciiCase [b!"cn"] ⟨b!"uid=Bob,dc=lg", [(b!"uid", b!"Bob"), (b!"cn", b!"Bob"), (b!"userPassword", b!"secret"), (b!"cn", b!"Robert")]⟩ e) ∧
    ∃ code, [Resp.result 8 1 0] = [.result 8 1 code] ∧ (code = 0 ↔ LdifRecord.admitsFirst asciiCase toyCrypto
      ⟨b!"uid=Bob,dc=lg", [(b!"uid", b!"Bob"), (b!"cn", b!"Bob"), (b!"userPassword", b!"secret"), (b!"cn", b!"Robert")]⟩ b!"secret") := by
  obtain ⟨s, hr, hd, ht⟩ := lf_first
  obtain ⟨s', hr', ht'⟩ := lf_second
  have hlv : ServerLives toyEnv gobInstance toyBase b!"idmbolt.db" lfDb [(⟨lfCfg, 16, false, s⟩ : Life Nat), ⟨lfCfg, 16, false, s'⟩] :=
    ⟨lfLaunch s, hr, lfLaunch s', by dsimp only; rw [hd]; exact hr', trivial⟩
  have hok : ∀ op, Asked toyEnv [(⟨lfCfg, 16, false, s⟩ : Life Nat), ⟨lfCfg, 16, false, s'⟩] op → op.Ok asciiCase := by
    intro op h
    obtain ⟨as, rfl⟩ := lf_asked ht ht' h
    show ∀ n, entryPutDN asciiCase b!"uid=Eve,dc=lg" = some n → NameOk n
    decide +kernel
  have hlen : svRecords.length + ([(⟨lfCfg, 16, false, s⟩ : Life Nat), ⟨lfCfg, 16, false, s'⟩].map fun l : Life Nat => l.proc.trace.length).sum < 2 ^ 64 := by
    simp [ht, ht', svRecords]
  have hun : ∀ n, Untouched toyEnv [(⟨lfCfg, 16, false, s⟩ : Life Nat), ⟨lfCfg, 16, false, s'⟩] n := by
    intro n op h
    obtain ⟨as, rfl⟩ := lf_asked ht ht' h
    exact ⟨id, id⟩
  have _c88 := C88_answers lfDb _ (serverLives_lives asciiCase_lawful loBase _ _ hlv).1
  refine ⟨s, s', hlv, hok, hlen, ?_, fun n _ => hun n, ?_, ?_⟩
  · refine ⟨_, ⟨lfCfg, 16, false, s⟩, by simp, 1, [.arrive 0 (.packet 0 lfBind.p lfBind.o), .answer 0 [.result 1 1 0]], 0, lfAdd.p, lfAdd.o,
      [.answer 1 [.result 2 9 0]], b!"uid=bob,dc=lg", ht, ?_, 2, wAdd ⟨b!"uid=Eve,dc=lg", [⟨b!"uid", [b!"Eve"]⟩]⟩, ⟨_, _, rfl, rfl, rfl⟩,
      .inl ⟨.add b!"uid=Eve,dc=lg" [⟨b!"uid", [b!"Eve"]⟩], ⟨rfl, _, _, rfl, rfl, ?_⟩, ?_, rfl⟩⟩
    · refine Or.inr ⟨[.arrive 0 (.packet 0 lfBind.p lfBind.o)], 0, [.result 1 1 0], [], lfBind.p, lfBind.o, b!"UID=bob,dc=lg", rfl, by simp, ?_, ?_,
        by decide +kernel, by simp⟩
      · exact ⟨_, List.mem_cons_self, rfl, rfl⟩
      · exact ⟨1, _, _, ⟨_, _, rfl, rfl, rfl⟩, rfl, rfl, rfl⟩
    · exact ⟨rfl, rfl, rfl, ⟨_, _, rfl, ⟨rfl, rfl, rfl, rfl⟩, rfl, rfl, rfl, rfl, trivial⟩, trivial⟩
    · intro n hn
      simp only [Write.names, List.mem_cons, List.mem_nil_iff, or_false] at hn
      subst hn
      decide +kernel
  · exact C106_record_partial (V := toyEnv) (levelOk := (· == b!"info")) asciiCase_lawful gobInstance_lawful goLdif_lawful loBase loOpts (loWorld svText) _
      b!"in.ldif" b!"DC=lg" svText [[⟨b!"DC", b!"lg"⟩]] rfl rfl rfl rfl rfl rfl (by decide +kernel) (by decide +kernel) svRecords (.inl svText_body) loNames
      loNamed loAfter_ok _ loAfter_db _ hlv hok hlen _ ⟨b!"dc=lg", [(b!"dc", b!"lg")]⟩ (by simp [svRecords]) (by simp [svRecords])
      [[⟨b!"uid", b!"Bob"⟩], [⟨b!"dc", b!"lg"⟩]] [[⟨b!"dc", b!"lg"⟩]] (by decide +kernel) (by decide +kernel) (by decide +kernel) (hun _) (hun _)
      1 _ 0 0 lfFind.o _ 7 b!"dc=LG" [[⟨b!"dc", b!"LG"⟩]] (.eq b!"cn" b!"robert") (wEq b!"cn" b!"robert") [b!"cn"] rfl
      ⟨by simp [ht', lfFind], by simp [ht']⟩ (by decide +kernel) (by decide +kernel) (by decide +kernel) (wEq_wire _ _) (by decide +kernel : AttrText b!"cn")
      trivial trivial (by decide +kernel)
      (by rw [Sat]; exact ⟨⟨b!"cn", [b!"Robert"]⟩, by simp [LdifRecord.whole], by decide +kernel, b!"Robert", by simp, by decide +kernel⟩)
  · exact C106_login_partial (V := toyEnv) (levelOk := (· == b!"info")) asciiCase_lawful gobInstance_lawful goLdif_lawful loBase loOpts (loWorld svText) _
      b!"in.ldif" b!"DC=lg" svText [[⟨b!"DC", b!"lg"⟩]] rfl rfl rfl rfl rfl rfl (by decide +kernel) (by decide +kernel) svRecords (.inl svText_body) loNames
      loNamed loAfter_ok _ loAfter_db _ hlv hok hlen _ (by simp [svRecords])
      [[⟨b!"uid", b!"Bob"⟩], [⟨b!"dc", b!"lg"⟩]] (by decide +kernel) (hun _)
      1 _ 1 0 lfLogin.o _ 8 b!"uid=BOB,dc=lg" b!"secret" [[⟨b!"uid", b!"BOB"⟩], [⟨b!"dc", b!"lg"⟩]] rfl
      ⟨by simp [ht', lfLogin], by simp [ht']⟩ (by decide +kernel) (by decide +kernel) (by decide +kernel) (by decide)

end Idm
