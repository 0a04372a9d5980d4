import Verif.Spec.Commands
import Verif.Props.Load
import Verif.Props.NewUsersText
/-!
# C98: the commands `boltdb load`, `boltdb export` and `gen newusers` as processes
-/
namespace Idm

variable {C : CaseEnv} {G : GobEnv} {L : LdifLib} {levelOk : Str → Bool} {validate : Str → Str → Res Bool} {base : DN}

/-! ## load -/

theorem loadCmd_world (o : BoltdbOpts) (w : FileWorld) :
    (loadCmd C G L levelOk o w).2 = w ∨ ∃ db, (loadCmd C G L levelOk o w).2 = w.put o.boltdbFile (.ready db) := by
  unfold loadCmd
  cases o.inputFile with
  | none => exact .inl rfl
  | some input =>
    cases o.baseDN with
    | none => exact .inl rfl
    | some base =>
      dsimp only
      by_cases hl : levelOk o.logLevel = false
      · rw [if_pos hl]; exact .inl rfl
      · rw [if_neg hl]
        cases boltOpen false (w.locks o.boltdbFile) (w.dbs o.boltdbFile) with
        | ok opened =>
          dsimp only [initBuckets]
          cases w.texts input with
          | none => exact .inr ⟨_, rfl⟩
          | some f =>
            obtain ⟨text, br⟩ := f
            cases br
            · exact .inr ⟨_, rfl⟩
            · exact .inr ⟨_, rfl⟩
        | err e => exact .inl rfl
        | panic => exact .inl rfl
        | hang => exact .inl rfl

/-- C98: `boltdb load` changes no file but the database it is given. -/
theorem C98_load_touches (o : BoltdbOpts) (w : FileWorld) : SameBut o.boltdbFile w (loadCmd C G L levelOk o w).2 := by
  rcases loadCmd_world (C := C) (G := G) (L := L) (levelOk := levelOk) o w with h | ⟨db, h⟩
  · rw [h]; exact ⟨fun _ _ => rfl, rfl, rfl, rfl⟩
  · rw [h]
    refine ⟨fun p hp => ?_, rfl, rfl, rfl⟩
    simp [FileWorld.put, hp]

/-- C98: without one of the two required options, with a log level that does not exist, or with a database file that cannot be opened or
is no database (and that nobody has locked), `boltdb load` ends with exit code 1 and changes nothing. -/
theorem C98_load_refused (o : BoltdbOpts) (w : FileWorld)
    (h : o.inputFile = none ∨ o.baseDN = none ∨ levelOk o.logLevel = false ∨ w.dbs o.boltdbFile = .denied ∨
      w.dbs o.boltdbFile = .foreign ∧ w.locks o.boltdbFile = .free) :
    (loadCmd C G L levelOk o w).1.exitCode = some 1 ∧ (loadCmd C G L levelOk o w).2 = w := by
  unfold loadCmd
  cases hi : o.inputFile with
  | none => exact ⟨rfl, rfl⟩
  | some input =>
    cases hb : o.baseDN with
    | none => exact ⟨rfl, rfl⟩
    | some base =>
      dsimp only
      by_cases hl : levelOk o.logLevel = false
      · rw [if_pos hl]; exact ⟨rfl, rfl⟩
      · rw [if_neg hl]
        rcases h with h | h | h | h | ⟨h, h'⟩
        · rw [hi] at h; cases h
        · rw [hb] at h; cases h
        · exact absurd h hl
        · rw [h]; exact ⟨rfl, rfl⟩
        · rw [h, h']; exact ⟨rfl, rfl⟩

theorem boltOpen_content {lock : FileLock} {f : DbFile} {db : Db} (hf : f.content = some db) (hl : lock = .free) :
    ∃ opened, boltOpen false lock f = .ok opened ∧ initBuckets false opened = some db := by
  subst hl
  cases f with
  | missing => cases hf; exact ⟨none, rfl, rfl⟩
  | bare => cases hf; exact ⟨none, rfl, rfl⟩
  | ready d => cases hf; exact ⟨some _, rfl, rfl⟩
  | denied => cases hf
  | foreign => cases hf

/-- C98: if the LDIF file cannot be read, `boltdb load` ends with exit code 1; the database keeps what it contained. It may be new then. -/
theorem C98_load_no_input (o : BoltdbOpts) (w : FileWorld) (input base : Str) (db : Db) (hi : o.inputFile = some input) (hb : o.baseDN = some base)
    (hl : levelOk o.logLevel = true) (hf : (w.dbs o.boltdbFile).content = some db) (hk : w.locks o.boltdbFile = .free)
    (ht : w.texts input = none ∨ ∃ f, w.texts input = some f ∧ f.broken = true) :
    (loadCmd C G L levelOk o w).1.exitCode = some 1 ∧ (loadCmd C G L levelOk o w).2.dbs o.boltdbFile = .ready db := by
  obtain ⟨opened, h1, h2⟩ := boltOpen_content hf hk
  unfold loadCmd
  rw [hi, hb]
  rcases ht with ht | ⟨f, ht, hr⟩
  · simp [hl, h1, h2, ht, Res.exitCode, FileWorld.put]
  · simp [hl, h1, h2, ht, hr, Res.exitCode, FileWorld.put]

theorem loadCmd_run (o : BoltdbOpts) (w : FileWorld) {input base text : Str} {db : Db} (hi : o.inputFile = some input) (hb : o.baseDN = some base)
    (hl : levelOk o.logLevel = true) (hf : (w.dbs o.boltdbFile).content = some db) (hk : w.locks o.boltdbFile = .free)
    (ht : w.texts input = some (.whole text)) :
    loadCmd C G L levelOk o w = ((loadLDIF C G L base db text).1, w.put o.boltdbFile (.ready (loadLDIF C G L base db text).2)) := by
  obtain ⟨opened, h1, h2⟩ := boltOpen_content hf hk
  unfold loadCmd
  rw [hi, hb]
  simp [hl, h1, h2, ht]

/-- C98: given readable options and files, `boltdb load` adds entries of the LDIF file to the directory in the database (which may be new), from
the first on, and ends with exit code 0 exactly if it has added all. If it has not, the next one cannot be added. -/
theorem C98_load_partial (hC : C.Lawful) (hG : G.Lawful) (hB : BaseOk C base) (ops : List Op) (o : BoltdbOpts) (w : FileWorld)
    (input baseText text : Str) (es : List Entry) (b : DN) (hi : o.inputFile = some input) (hb : o.baseDN = some baseText)
    (hl : levelOk o.logLevel = true) (hf : (w.dbs o.boltdbFile).content = some (after C G validate base ops)) (hk : w.locks o.boltdbFile = .free)
    (ht : w.texts input = some (.whole text)) (hbt : parseDN C baseText = some b) (hbf : foldDN C b = base) (hr : ldifRead L text = .ok es)
    (h : HistOk C (ops ++ es.map .add)) :
    ∃ pre rest db', es = pre ++ rest ∧ (loadCmd C G L levelOk o w).2.dbs o.boltdbFile = .ready db' ∧
      Serves C G db' (dirAfter C validate base (ops ++ pre.map .add)) ∧
      (∀ r ∈ (specRun C validate base (dirAfter C validate base ops) (pre.map .add)).1, r = .ok ()) ∧
      (∀ e rest', rest = e :: rest' → (specStep C validate base (dirAfter C validate base (ops ++ pre.map .add)) (.add e)).1 ≠ .ok ()) ∧
      ((loadCmd C G L levelOk o w).1.exitCode = some 0 ↔ rest = []) := by
  obtain ⟨pre, rest, h1, h2, h3, h4, h5⟩ := C49_load_directory_partial (G := G) (L := L) (validate := validate) hC hG hB ops baseText text es b
    hbt hbf hr h
  rw [loadCmd_run o w hi hb hl hf hk ht]
  refine ⟨pre, rest, _, h1, by simp [FileWorld.put], h3, h2, h4, ?_⟩
  rw [← h5]
  cases (loadLDIF C G L baseText (after C G validate base ops) text).1 <;> simp [Res.exitCode]

/-! ## export -/

/-- C98: `boltdb export` prints something only if it ends with exit code 0, and that happens exactly with options in order, a database that has
been set up and that nobody has locked to write, and a directory that can be exported under the base DN; then it prints this export. -/
theorem C98_export (o : BoltdbOpts) (w : FileWorld) (text : Str) :
    exportCmd C G L levelOk o w = .ok text ↔
      ∃ base db, o.baseDN = some base ∧ levelOk o.logLevel = true ∧ w.dbs o.boltdbFile = .ready db ∧ w.locks o.boltdbFile ≠ .exclusive ∧
        exportLDIF C G L base db = .ok text := by
  unfold exportCmd
  cases hb : o.baseDN with
  | none => simp
  | some base =>
    dsimp only
    cases hl : levelOk o.logLevel with
    | false => simp
    | true =>
      simp only [Bool.true_eq_false, if_false]
      cases hd : w.dbs o.boltdbFile with
      | missing => simp [boltOpen]
      | denied => simp [boltOpen]
      | foreign =>
        unfold boltOpen
        cases w.locks o.boltdbFile <;> simp
      | bare =>
        unfold boltOpen
        cases hk : w.locks o.boltdbFile <;> simp [initBuckets] <;> split <;> simp
      | ready db =>
        unfold boltOpen
        cases hk : w.locks o.boltdbFile <;> simp [initBuckets]

/-- C98: what `boltdb export` prints, saved in a file and given to `boltdb load` with a new database, is loaded with exit code 0 and makes the
same directory. -/
theorem C98_export_load_partial (hC : C.Lawful) (hG : G.Lawful) (hL : L.Lawful) (hB : BaseOk C base) (ops : List Op) (h : HistOk C ops)
    (hren : ∀ req, Op.rename req ∈ ops → ∀ n, parseDN C req.dn = some n → foldDN C n ≠ base)
    (baseText : Str) (b : DN) (hbt : parseDN C baseText = some b) (hbn : NameOk b) (hbf : foldDN C b = base)
    (hbase : (dirAfter C validate base ops).has base = true) (hw : ∀ n ∈ dirAfter C validate base ops, Writable n.entry)
    (o o' : BoltdbOpts) (w w' : FileWorld) (input : Str) (hl : levelOk o.logLevel = true) (hl' : levelOk o'.logLevel = true)
    (hb : o.baseDN = some baseText) (hb' : o'.baseDN = some baseText) (hi : o'.inputFile = some input)
    (hd : w.dbs o.boltdbFile = .ready (after C G validate base ops)) (hk : w.locks o.boltdbFile ≠ .exclusive)
    (hsaved : ∀ text, exportCmd C G L levelOk o w = .ok text → w'.texts input = some (.whole text))
    (hd' : w'.dbs o'.boltdbFile = .missing) (hk' : w'.locks o'.boltdbFile = .free) :
    (exportCmd C G L levelOk o w).exitCode = some 0 ∧ (loadCmd C G L levelOk o' w').1.exitCode = some 0 ∧
      ∃ db' d', (loadCmd C G L levelOk o' w').2.dbs o'.boltdbFile = .ready db' ∧ Serves C G db' d' ∧ SameDir (dirAfter C validate base ops) d' := by
  obtain ⟨text, db', d', h1, h2, h3, h4⟩ := C48_export_load_partial (G := G) (L := L) hC hG hL hB ops h hren baseText b hbt hbn hbf hbase hw
  have he : exportCmd C G L levelOk o w = .ok text := (C98_export o w text).2 ⟨_, _, hb, hl, hd, hk, h1⟩
  rw [loadCmd_run o' w' hi hb' hl' (by rw [hd']; rfl) hk' (hsaved _ he), he, h2]
  exact ⟨rfl, rfl, db', d', by simp [FileWorld.put], h3, h4⟩

/-- C98 fails while a server has the database open: neither command reports it, both wait for as long as the server runs. -/
theorem C98_in_use_fails (o : BoltdbOpts) (w : FileWorld) (input base : Str) (hi : o.inputFile = some input) (hb : o.baseDN = some base)
    (hl : levelOk o.logLevel = true) (db : Db) (hf : w.dbs o.boltdbFile = .ready db) (hk : w.locks o.boltdbFile = .exclusive) :
    (loadCmd C G L levelOk o w).1.exitCode = none ∧ (loadCmd C G L levelOk o w).2 = w ∧ (exportCmd C G L levelOk o w).exitCode = none := by
  unfold loadCmd exportCmd
  rw [hi, hb, hf, hk]
  simp [hl, boltOpen, Res.exitCode]

/-- C98: `boltdb load` never touches a database that another process, a server or an export, has open. -/
theorem C98_load_locked (o : BoltdbOpts) (w : FileWorld) (hf : w.dbs o.boltdbFile ≠ .missing) (hk : w.locks o.boltdbFile ≠ .free) :
    (loadCmd C G L levelOk o w).1.exitCode ≠ some 0 ∧ (loadCmd C G L levelOk o w).2 = w := by
  unfold loadCmd
  cases o.inputFile with
  | none => exact ⟨by simp [Res.exitCode], rfl⟩
  | some input =>
    cases o.baseDN with
    | none => exact ⟨by simp [Res.exitCode], rfl⟩
    | some base =>
      dsimp only
      split
      · exact ⟨by simp [Res.exitCode], rfl⟩
      · cases hd : w.dbs o.boltdbFile <;> cases hl : w.locks o.boltdbFile <;>
          first | exact absurd hd hf | exact absurd hl hk | exact ⟨by simp [boltOpen, Res.exitCode], by simp [boltOpen]⟩

/-- C98 fails while an export is running: `boltdb load` does not report it, it waits for as long as the export runs. Two exports do not wait
for each other (C98_export). -/
theorem C98_exporting_fails (o : BoltdbOpts) (w : FileWorld) (input base : Str) (hi : o.inputFile = some input) (hb : o.baseDN = some base)
    (hl : levelOk o.logLevel = true) (db : Db) (hf : w.dbs o.boltdbFile = .ready db) (hk : w.locks o.boltdbFile = .shared) :
    (loadCmd C G L levelOk o w).1.exitCode = none := by
  unfold loadCmd
  rw [hi, hb, hf, hk]
  simp [hl, boltOpen, Res.exitCode]

/-- C98 fails for a database file whose set-up was interrupted: export crashes (exit code 2) instead of reporting an empty directory. -/
theorem C98_bare_fails (o : BoltdbOpts) (w : FileWorld) (base : Str) (hb : o.baseDN = some base) (hl : levelOk o.logLevel = true)
    (hp : (parseNormalize C base).isSome = true) (hf : w.dbs o.boltdbFile = .bare) (hk : w.locks o.boltdbFile = .free) :
    (exportCmd C G L levelOk o w).exitCode = some 2 := by
  unfold exportCmd
  rw [hb, hf, hk]
  simp [hl, boltOpen, initBuckets, hp, Res.exitCode]

/-! ## newusers -/

/-- C98: `gen newusers` reads the file it is given, and standard input only if that is `-`: other files and otherwise standard input have no
effect. It prints nothing and ends with exit code 1 if the number of arguments is not one, the file cannot be read or the format is not
`ldif`. -/
theorem C98_newusers_input (strength : Str → Int) (hash : Str → Str → Option Str) (md : Str) (o : NewusersOpts) (w : FileWorld) :
    (∀ w', (o.args = [b!"-"] → w'.stdin = w.stdin) → (∀ a, o.args = [a] → a ≠ b!"-" → w'.texts a = w.texts a) →
      newusersCmd strength hash md o w' = newusersCmd strength hash md o w) ∧
    ((o.args.length ≠ 1 ∨ (∃ a, o.args = [a] ∧ a ≠ b!"-" ∧ w.texts a = none) ∨ o.format ≠ b!"ldif") →
      (newusersCmd strength hash md o w).1 = [] ∧ (newusersCmd strength hash md o w).2.exitCode = some 1) := by
  unfold newusersCmd
  match ha : o.args with
  | [] => simp [Res.exitCode]
  | a :: b :: l => simp [Res.exitCode]
  | [a] =>
    dsimp only
    by_cases hd : a = b!"-"
    · rw [if_neg (by simp [hd])]
      refine ⟨?_, ?_⟩
      · intro w' h1 h2
        rw [if_neg (by simp [hd]), h1 (by rw [hd])]
      · rintro (h | ⟨x, h1, h2, h3⟩ | h)
        · simp at h
        · cases h1; exact absurd hd h2
        · simp [h, Res.exitCode]
    · rw [if_pos hd]
      refine ⟨?_, ?_⟩
      · intro w' h1 h2
        rw [if_pos hd, h2 a rfl hd]
      · rintro (h | ⟨x, h1, h2, h3⟩ | h)
        · simp at h
        · cases h1; rw [h3]; exact ⟨rfl, rfl⟩
        · cases w.texts a <;> simp [h, Res.exitCode]

theorem entryNumbers_some (e : PwEntry) : (∃ d, entryNumbers e = some d) ↔ NumberField e.uid ∧ NumberField e.gid := by
  have one : ∀ s : Str, (∃ d, (if s = [] then some (none : Option Int) else (parseInt64 s).map some) = some d) ↔ NumberField s := by
    intro s
    unfold NumberField
    by_cases h : s = []
    · simp [h]
    · rw [if_neg h]
      simp only [h, false_or]
      constructor
      · rintro ⟨d, hd⟩
        cases hp : parseInt64 s with
        | none => rw [hp] at hd; cases hd
        | some n => exact ⟨n, (C66_number_read s n).1 hp⟩
      · rintro ⟨n, hn⟩
        exact ⟨some n, by rw [(C66_number_read s n).2 hn]; rfl⟩
  unfold entryNumbers
  rw [← one e.uid, ← one e.gid]
  by_cases hu : e.uid = [] <;> by_cases hg : e.gid = [] <;> simp only [hu, hg, if_true, if_false]
  · simp
  · cases parseInt64 e.gid <;> simp
  · cases parseInt64 e.uid <;> simp
  · cases parseInt64 e.uid <;> cases parseInt64 e.gid <;> simp

theorem preprocess_some : ∀ (es : List PwEntry) (a : Int), (∃ r, preprocess a es = some r) ↔ ∀ e ∈ es, NumberField e.uid ∧ NumberField e.gid
  | [], a => by simp [preprocess]
  | e :: es, a => by
    rw [preprocess]
    simp only [List.mem_cons, forall_eq_or_imp]
    rw [← entryNumbers_some e]
    cases he : entryNumbers e with
    | none => simp
    | some d =>
      rw [← preprocess_some es (raiseTo (raiseTo a d.1) d.2)]
      cases hp : preprocess (raiseTo (raiseTo a d.1) d.2) es with
      | none => simp [hp]
      | some r => simp [hp]

theorem genUsers_all (hash : Str → Option Str) (md : Str) : ∀ (ps : List (PwEntry × (Option Int × Option Int))) (a : Int) (t : UInt64),
    (genUsers hash md a t ps).2 = true ↔ ∀ p ∈ ps, p.1.passwd ≠ [] → ∃ h, hash p.1.passwd = some h
  | [], a, t => by simp [genUsers]
  | (e, d) :: ps, a, t => by
    rw [genUsers]
    have hg : (∃ h, e.passwd ≠ [] → hash e.passwd = some h) ↔ (e.passwd ≠ [] → ∃ h, hash e.passwd = some h) := by
      by_cases h : e.passwd = [] <;> simp [h]
    cases h : genUser hash md a t e d with
    | none =>
      simp only [Bool.false_eq_true, List.mem_cons, forall_eq_or_imp, false_iff, not_and]
      intro h1
      exfalso
      unfold genUser newPassword at h
      by_cases hp : e.passwd = []
      · simp [hp] at h
      · obtain ⟨x, hx⟩ := h1 hp
        simp [hp, hx] at h
    | some r =>
      simp only [List.mem_cons, forall_eq_or_imp]
      rw [genUsers_all hash md ps]
      refine ⟨fun h2 => ⟨?_, h2⟩, And.right⟩
      intro hp
      unfold genUser newPassword at h
      rw [if_pos hp] at h
      cases hx : hash e.passwd with
      | none => simp [hx] at h
      | some x => exact ⟨x, rfl⟩

theorem map_mem_zip {α β : Type} : ∀ (l : List α) (m : List β), m.length = l.length → (l.zip m).map (·.1) = l
  | [], _, _ => by simp
  | a :: l, [], h => by simp at h
  | a :: l, b :: m, h => by simp only [List.zip_cons_cons, List.map_cons]; rw [map_mem_zip l m (by simpa using h)]

/-- C98: with a readable file of users no line of which has five or six fields, `gen newusers` ends with exit code 0 exactly if every line is
usable, and with 1 otherwise. (With five or six fields it crashes, `C56_five_fields_fails`.) With exit code 0 it has printed what C75
describes. -/
theorem C98_newusers_exit_partial (strength : Str → Int) (hash : Str → Str → Option Str) (md : Str) (o : NewusersOpts) (w : FileWorld) (a text : Str)
    (ha : o.args = [a]) (ht : (if a = b!"-" then some w.stdin else w.texts a) = some (.whole text)) (hf : o.format = b!"ldif")
    (h56 : ∀ l ∈ scanLines text, ∀ fs, userFields l = some fs → fs.length ≠ 5 ∧ fs.length ≠ 6) :
    ((newusersCmd strength hash md o w).2.exitCode = some 0 ∧ (∀ l ∈ scanLines text, UsableLine strength o.minStrength (hash o.scheme) l) ∧
      ∃ recs, outputLDIF (fun s => decide (o.minStrength ≤ strength s)) (hash o.scheme) md text = .ok (recs, true) ∧
        (newusersCmd strength hash md o w).1 = printUsers recs) ∨
    ((newusersCmd strength hash md o w).2.exitCode = some 1 ∧ ∃ l ∈ scanLines text, ¬ UsableLine strength o.minStrength (hash o.scheme) l) := by
  have hs : (fun s => !decide (strength s < o.minStrength)) = fun s => decide (o.minStrength ≤ strength s) := by
    funext s
    by_cases h : strength s < o.minStrength
    · simp [h]
    · simp [h]; omega
  have ht' : (if a ≠ b!"-" then w.texts a else some w.stdin) = some (.whole text) := by
    rw [← ht]
    by_cases h : a = b!"-"
    · rw [if_neg (by simp [h]), if_pos h]
    · rw [if_pos h, if_neg h]
  have key : newusersCmd strength hash md o w = match outputLDIF (fun s => decide (o.minStrength ≤ strength s)) (hash o.scheme) md text with
      | .ok (recs, true) => (printUsers recs, .ok ())
      | .ok (recs, false) => (printUsers recs, .err .other)
      | .err e => ([], .err e)
      | .panic => ([], .panic)
      | .hang => ([], .hang) := by
    unfold newusersCmd
    rw [ha]
    dsimp only
    rw [ht']
    dsimp only
    rw [if_pos hf, hs]
    rfl
  rw [key]
  have hpw : ∀ l, (GoodLine (fun s => decide (o.minStrength ≤ strength s)) l ∧
      ∀ fs, userFields l = some fs → (∀ p, fs[1]? = some p → p ≠ [] → ∃ h, hash o.scheme p = some h) ∧
        (∀ u, fs[2]? = some u → NumberField u) ∧ (∀ g, fs[3]? = some g → NumberField g)) ↔
      UsableLine strength o.minStrength (hash o.scheme) l := by
    intro l
    unfold GoodLine UsableLine
    constructor
    · rintro ⟨h1, h2⟩ fs hfs
      obtain ⟨h3, h4⟩ := h1 fs hfs
      obtain ⟨h5, h6⟩ := h2 fs hfs
      exact ⟨h3, fun p hp hne => ⟨of_decide_eq_true (h4 p hp hne), h5 p hp hne⟩, h6⟩
    · intro h
      exact ⟨fun fs hfs => ⟨(h fs hfs).1, fun p hp hne => decide_eq_true ((h fs hfs).2.1 p hp hne).1⟩,
        fun fs hfs => ⟨fun p hp hne => ((h fs hfs).2.1 p hp hne).2, (h fs hfs).2.2⟩⟩
  rcases C56_reported_partial (fun s => decide (o.minStrength ≤ strength s)) text h56 with ⟨hg, es, he, hfs⟩ | ⟨⟨l, hl, hn⟩, he⟩
  · -- the lines are good; the numbers and the hashes decide
    have conv : (∀ e ∈ es, (NumberField e.uid ∧ NumberField e.gid) ∧ (e.passwd ≠ [] → ∃ h, hash o.scheme e.passwd = some h)) ↔
        ∀ l ∈ scanLines text, ∀ fs, userFields l = some fs → (∀ p, fs[1]? = some p → p ≠ [] → ∃ h, hash o.scheme p = some h) ∧
        (∀ u, fs[2]? = some u → NumberField u) ∧ (∀ g, fs[3]? = some g → NumberField g) := by
      constructor
      · intro h l hl fs hu
        have hm : fs.take 7 ∈ es.map PwEntry.fields := by
          rw [hfs]
          exact List.mem_filterMap.2 ⟨l, hl, by rw [hu]; rfl⟩
        obtain ⟨e, hem, hef⟩ := List.mem_map.1 hm
        have hx := h e hem
        have g : ∀ i, i < 7 → fs[i]? = e.fields[i]? := by
          intro i hi
          rw [hef, List.getElem?_take, if_pos hi]
        rw [g 1 (by omega), g 2 (by omega), g 3 (by omega)]
        simp only [PwEntry.fields, List.getElem?_cons_succ, List.getElem?_cons_zero, Option.some.injEq]
        exact ⟨fun p hp hne => by subst hp; exact hx.2 hne, fun u hu => by subst hu; exact hx.1.1, fun g hg => by subst hg; exact hx.1.2⟩
      · intro h e hem
        have hm : e.fields ∈ (scanLines text).filterMap fun l => (userFields l).map (·.take 7) := by
          rw [← hfs]
          exact List.mem_map_of_mem hem
        obtain ⟨l, hl, hu⟩ := List.mem_filterMap.1 hm
        cases hq : userFields l with
        | none => rw [hq] at hu; cases hu
        | some fs =>
          rw [hq] at hu
          have hu' : fs.take 7 = e.fields := by simpa using hu
          have g : ∀ i, i < 7 → fs[i]? = e.fields[i]? := by
            intro i hi
            rw [← hu', List.getElem?_take, if_pos hi]
          obtain ⟨h1, h2, h3⟩ := h l hl fs hq
          exact ⟨⟨h2 _ (by rw [g 2 (by omega)]; rfl), h3 _ (by rw [g 3 (by omega)]; rfl)⟩, fun hne => h1 _ (by rw [g 1 (by omega)]; rfl) hne⟩
    have usable : (∀ e ∈ es, (NumberField e.uid ∧ NumberField e.gid) ∧ (e.passwd ≠ [] → ∃ h, hash o.scheme e.passwd = some h)) ↔
        ∀ l ∈ scanLines text, UsableLine strength o.minStrength (hash o.scheme) l := by
      rw [conv]
      constructor
      · intro h l hl
        exact (hpw l).1 ⟨hg l hl, h l hl⟩
      · intro h l hl
        exact ((hpw l).2 (h l hl)).2
    unfold outputLDIF
    rw [he]
    dsimp only
    cases hp : preprocess 1000 es with
    | none =>
      refine .inr ⟨rfl, ?_⟩
      apply Classical.byContradiction
      intro hno
      have hall : ∀ l ∈ scanLines text, UsableLine strength o.minStrength (hash o.scheme) l := by
        intro l hl
        apply Classical.byContradiction
        intro hn
        exact hno ⟨l, hl, hn⟩
      obtain ⟨r, hr⟩ := (preprocess_some es 1000).2 fun e he => (usable.2 hall e he).1
      rw [hp] at hr
      cases hr
    | some r =>
      obtain ⟨ds, last⟩ := r
      dsimp only
      have hn := (preprocess_some es 1000).1 ⟨_, hp⟩
      have hlen := (preprocess_spec es 1000 ds last hp).1
      have hz : ∀ p, p ∈ es.zip ds → p.1 ∈ es := by
        intro p hp
        rw [← map_mem_zip es ds hlen]
        exact List.mem_map_of_mem hp
      have hz' : ∀ e ∈ es, ∃ p ∈ es.zip ds, p.1 = e := by
        intro e he
        rw [← map_mem_zip es ds hlen] at he
        exact List.mem_map.1 he
      cases hgu : genUsers (hash o.scheme) md last 1000 (es.zip ds) with
      | mk recs fin =>
        have hall := genUsers_all (hash o.scheme) md (es.zip ds) last 1000
        rw [hgu] at hall
        cases fin with
        | true =>
          refine .inl ⟨rfl, usable.1 ?_, recs, rfl, rfl⟩
          intro e he
          refine ⟨hn e he, ?_⟩
          obtain ⟨p, hp1, rfl⟩ := hz' e he
          exact hall.1 rfl p hp1
        | false =>
          refine .inr ⟨rfl, ?_⟩
          apply Classical.byContradiction
          intro hno
          have hall' : ∀ l ∈ scanLines text, UsableLine strength o.minStrength (hash o.scheme) l := by
            intro l hl
            apply Classical.byContradiction
            intro hn
            exact hno ⟨l, hl, hn⟩
          have := hall.2 fun p hp => (usable.2 hall' p.1 (hz p hp)).2
          cases this
  · refine .inr ⟨?_, l, hl, fun hu => hn ((hpw l).2 hu).1⟩
    unfold outputLDIF
    rw [he]
    rfl

/-- C98 fails for standard output of a run that ends with an error: a user whose password cannot be hashed ends the run, and the users before are
printed. -/
theorem C98_newusers_prefix_fails : ∃ (hash : Str → Str → Option Str) (o : NewusersOpts) (w : FileWorld),
    (newusersCmd (fun _ => 4) hash b!"lg.local" o w).2.exitCode = some 1 ∧ (newusersCmd (fun _ => 4) hash b!"lg.local" o w).1 ≠ [] :=
  ⟨fun _ p => if p = b!"bad" then none else some p, { args := [b!"-"] }, ⟨fun _ => .missing, fun _ => .free, fun _ => none,
    .whole b!"a:good:1:1::/:sh\nb:bad:2:2::/:sh\n"⟩, by decide +kernel⟩

/-- C98: a file that cannot be read to its end is to `gen newusers` as one that ends there. -/
theorem C98_newusers_broken (strength : Str → Int) (hash : Str → Str → Option Str) (md : Str) (o : NewusersOpts) (w : FileWorld) (a text : Str)
    (ha : o.args = [a]) (hd : a ≠ b!"-") (ht : w.texts a = some ⟨text, true⟩) :
    newusersCmd strength hash md o w = newusersCmd strength hash md o { w with texts := fun _ => some (.whole text) } := by
  unfold newusersCmd
  rw [ha]
  dsimp only
  rw [if_pos hd, if_pos hd, ht]

/-- C98 fails for a file that cannot be read to its end: `gen newusers` may print users, the last of them with a login shell that is cut off, and
end with exit code 0. -/
theorem C98_newusers_broken_fails : ∃ (hash : Str → Str → Option Str) (o : NewusersOpts) (w w' : FileWorld), o.args = [b!"users"] ∧
    w.texts b!"users" = some ⟨b!"a:good:1:1::/:/bin/b", true⟩ ∧ w'.texts b!"users" = some (.whole b!"a:good:1:1::/:/bin/bash\nb:good:2:2::/:/bin/sh\n") ∧
    (newusersCmd (fun _ => 4) hash b!"lg.local" o w).2.exitCode = some 0 ∧ (newusersCmd (fun _ => 4) hash b!"lg.local" o w).1 ≠ [] ∧
    (newusersCmd (fun _ => 4) hash b!"lg.local" o w).1 ≠ (newusersCmd (fun _ => 4) hash b!"lg.local" o w').1 :=
  ⟨fun _ p => some p, { args := [b!"users"] }, ⟨fun _ => .missing, fun _ => .free, fun _ => some ⟨b!"a:good:1:1::/:/bin/b", true⟩, .whole []⟩,
    ⟨fun _ => .missing, fun _ => .free, fun _ => some (.whole b!"a:good:1:1::/:/bin/bash\nb:good:2:2::/:/bin/sh\n"), .whole []⟩, by decide +kernel⟩

/-! ## Examples -/

/-- A world with one LDIF file, one file of users and no database. -/
def exWorld : FileWorld where
  dbs := fun _ => .missing
  locks := fun _ => .free
  texts := fun p => if p = b!"in.ldif" then some (.whole (exText [⟨b!"dc=lg", [⟨b!"dc", [b!"lg"]⟩]⟩])) else
    if p = b!"users" then some (.whole b!"ann:secret:7::Ann B:/:sh\n") else none
  stdin := .whole []

def exLoadOpts : BoltdbOpts := { boltdbFile := b!"db", inputFile := some b!"in.ldif", baseDN := some b!"dc=lg" }

-- the hypotheses of C98_load_partial with a new database; the load succeeds; a second one is refused
example : (exWorld.dbs exLoadOpts.boltdbFile).content = some (after asciiCase gobInstance exValidate exBase []) ∧
    (loadCmd asciiCase gobInstance goLdif (· == b!"info") exLoadOpts exWorld).1.exitCode = some 0 ∧
    (loadCmd asciiCase gobInstance goLdif (· == b!"info") exLoadOpts
      (loadCmd asciiCase gobInstance goLdif (· == b!"info") exLoadOpts exWorld).2).1.exitCode = some 1 ∧
    (exportCmd asciiCase gobInstance goLdif (· == b!"info") exLoadOpts
      (loadCmd asciiCase gobInstance goLdif (· == b!"info") exLoadOpts exWorld).2) = .ok b!"dn: dc=lg\ndc: lg\n\n" :=
  ⟨rfl, by decide +kernel, by decide +kernel, by decide +kernel⟩

-- a database that is being exported
example : ({ exWorld with dbs := fun _ => .ready Db.empty, locks := fun _ => .shared } : FileWorld).dbs exLoadOpts.boltdbFile ≠ .missing ∧
    (loadCmd asciiCase gobInstance goLdif (· == b!"info") exLoadOpts { exWorld with dbs := fun _ => .ready Db.empty, locks := fun _ => .shared }).1.exitCode = none :=
  ⟨nofun, by decide +kernel⟩

-- a level that does not exist
example : (loadCmd asciiCase gobInstance goLdif (· == b!"info") { exLoadOpts with logLevel := b!"loud" } exWorld).1.exitCode = some 1 := by
  decide +kernel

-- newusers: the hypotheses of C98_newusers_exit_partial, and both outcomes
example : (∀ l ∈ scanLines b!"ann:secret:7::Ann B:/:sh\n", ∀ fs, userFields l = some fs → fs.length ≠ 5 ∧ fs.length ≠ 6) ∧
    (newusersCmd (fun _ => 4) (fun _ p => some p) b!"lg.local" { args := [b!"users"] } exWorld).2.exitCode = some 0 ∧
    (newusersCmd (fun _ => 2) (fun _ p => some p) b!"lg.local" { args := [b!"users"] } exWorld).2.exitCode = some 1 := by
  refine ⟨?_, by decide +kernel, by decide +kernel⟩
  have : scanLines b!"ann:secret:7::Ann B:/:sh\n" = [b!"ann:secret:7::Ann B:/:sh"] := by decide +kernel
  rw [this]
  intro l hl fs hf
  rw [List.mem_singleton.1 hl] at hf
  have h2 : userFields b!"ann:secret:7::Ann B:/:sh" = some [b!"ann", b!"secret", b!"7", [], b!"Ann B", b!"/", b!"sh"] := by decide +kernel
  rw [h2] at hf
  cases hf
  decide

end Idm
