import Verif.Props.Reload
import Verif.Spec.ReloadParallel
/-!
# A file says one thing only

The relations that say what an LDIF file, the files on disk and all that happened mean are functions: what C90, C95, C99, C101 and C107 say about
"the records" is about one list of records.
-/
namespace Idm

theorem hasLines_one {ls ls' : List Str} {t : Str} (h : HasLines ls t) (h' : HasLines ls' t) : ls = ls' := by
  rw [← hasLines_dropCR h, hasLines_dropCR h']

theorem fileLines_one {rs rs' : List (List Str)} {ls : List Str} (h : FileLines rs ls) (h' : FileLines rs' ls) : rs = rs' := by
  rw [← ldifRecords_file h [] (.inl rfl) false, ldifRecords_file h' [] (.inl rfl) false]

theorem matched_one {α β : Type} {R : α → β → Prop} (hR : ∀ a a' b, R a b → R a' b → a = a') {xs : List α} {ys : List β} (h : Matched R xs ys) :
    ∀ {xs' : List α}, Matched R xs' ys → xs = xs' := by
  induction h with
  | nil => intro xs' h'; cases h'; rfl
  | cons a b as bs h1 _ ih =>
    intro xs' h'
    cases h' with
    | cons a' _ as' _ h1' h2' => rw [hR a a' b h1 h1', ih h2']

theorem recordSays_one {r r' : LdifRecord} {ls : List Str} (h : RecordSays r ls) (h' : RecordSays r' ls) : r = r' := by
  cases h with
  | mk dnLine ls h1 h2 h3 =>
    cases h' with
    | mk _ _ h1' h2' h3' =>
      have e1 := ldifLine_says goLdif_lawful (by decide) h1
      rw [ldifLine_says goLdif_lawful (by decide) h1'] at e1
      have e2 := matched_one (fun a a' b k k' => by
        have e := ldifLine_says goLdif_lawful k.2.1 k.1
        rw [ldifLine_says goLdif_lawful k'.2.1 k'.1] at e
        cases a; cases a'
        cases e
        rfl) h3 h3'
      cases r; cases r'
      cases e1
      cases e2
      rfl

theorem recordsSay_one {rs rs' : List LdifRecord} {ls : List (List Str)} (h : RecordsSay rs ls) (h' : RecordsSay rs' ls) : rs = rs' := by
  have hv : ∀ {r : LdifRecord} {n : Nat} {l : List Str}, ¬ RecordSays r ((b!"version:" ++ List.replicate n 32 ++ b!"1") :: l) := by
    intro r n l h
    obtain ⟨-, -, x, y, e, hx⟩ := ldifEntry_says goLdif_lawful h
    cases e
    rw [(version_line n).1] at hx
    cases hx
  have hn : ∀ {r : LdifRecord}, ¬ RecordSays r [] := by intro r h; cases h
  cases h with
  | plain _ hm =>
    cases h' with
    | plain _ hm' => exact matched_one (R := RecordSays) (fun _ _ _ h h' => recordSays_one h h') hm hm'
    | version ls n hm' => cases hm with | cons _ _ _ _ hr _ => exact absurd hr hv
    | versionLine r ls n hm' => cases hm with | cons _ _ _ _ hr _ => exact absurd hr hv
  | version ls n hm =>
    generalize hx : (b!"version:" ++ List.replicate n 32 ++ b!"1") = v at h'
    cases h' with
    | plain _ hm' => subst hx; cases hm' with | cons _ _ _ _ hr _ => exact absurd hr hv
    | version ls n hm' => exact matched_one (R := RecordSays) (fun _ _ _ h h' => recordSays_one h h') hm hm'
    | versionLine r ls n hm' => cases hm' with | cons _ _ _ _ hr _ => exact absurd hr hn
  | versionLine r ls n hm =>
    generalize hx : (b!"version:" ++ List.replicate n 32 ++ b!"1") = v at h'
    cases h' with
    | plain _ hm' => subst hx; cases hm' with | cons _ _ _ _ hr _ => exact absurd hr hv
    | version ls n hm' => cases hm with | cons _ _ _ _ hr _ => exact absurd hr hn
    | versionLine r ls n hm' => exact matched_one (R := RecordSays) (fun _ _ _ h h' => recordSays_one h h') hm hm'

/-- C90: a text is an LDIF file with at most one list of records. -/
theorem C90_one_reading {text : Str} {rs rs' : List LdifRecord} (h : LdifSays text rs) (h' : LdifSays text rs') : rs = rs' := by
  obtain ⟨lines, recs, h1, h2, h3⟩ := h
  obtain ⟨lines', recs', h1', h2', h3'⟩ := h'
  cases hasLines_one h1 h1'
  cases fileLines_one h2 h2'
  exact recordsSay_one h3 h3'

theorem becomes_one {run : List (Str × Str) → UInt64 → Str → Option Str} {vars : List (Str × Str)} {text out out' : Str}
    (h : Becomes run vars text out) (h' : Becomes run vars text out') : out = out' := by
  obtain ⟨lines, h1, h2⟩ := h
  obtain ⟨lines', h1', h2'⟩ := h'
  cases (linesRead_scan h1).symm.trans (linesRead_scan h1')
  rw [h2] at h2'
  cases h2'
  rfl

/-- C99: what is on disk says at most one list of records. -/
theorem C99_one_reading {H : Host} {vars : List (Str × Str)} {path : Str} {rs rs' : List LdifRecord} (h : FilesSay H vars path rs)
    (h' : FilesSay H vars path rs') : rs = rs' := by
  cases h with
  | file f out _ h1 h2 h3 h4 =>
    cases h' with
    | file f' out' _ h1' h2' h3' h4' =>
      rw [h2] at h2'
      cases h2'
      cases becomes_one h3 h3'
      exact C90_one_reading h4 h4'
    | directory files rs h1' =>
      rw [h1] at h1'
      cases h1'
  | directory files rs h1 h2 h3 h4 h5 =>
    cases h' with
    | file f' out' _ h1' =>
      rw [h1] at h1'
      cases h1'
    | directory files' rs' h1' h2' h3' h4' h5' =>
      have : files = files' := by rw [← ldifNames_eq h3 h4, ldifNames_eq h3' h4']
      subst this
      have e : ∀ n ∈ files, rs n = rs' n := by
        intro n hn
        obtain ⟨f, out, k1, k2, k3, -⟩ := h5 n hn
        obtain ⟨f', out', k1', k2', k3', -⟩ := h5' n hn
        rw [k1] at k1'
        cases k1'
        cases becomes_one k2 k2'
        exact C90_one_reading k3 k3'
      clear h3 h4 h5 h3' h4' h5'
      induction files with
      | nil => rfl
      | cons n ns ih =>
        rw [List.flatMap_cons, List.flatMap_cons, e n (by simp), ih fun m hm => e m (by simp [hm])]

theorem confSays_one {H : Host} {vars : List (Str × Str)} {cwd opt dir : Str} {cs cs' : List LdifRecord} (h : ConfSays H vars cwd opt dir cs)
    (h' : ConfSays H vars cwd opt dir cs') : cs = cs' := by
  rcases h with ⟨h1, rfl⟩ | ⟨h1, f, out, h2, h3, h4⟩ <;> rcases h' with ⟨h1', rfl⟩ | ⟨h1', f', out', h2', h3', h4'⟩
  · rfl
  · exact absurd h1 h1'
  · exact absurd h1' h1
  · rw [h2] at h2'
    cases h2'
    cases becomes_one h3 h3'
    exact C90_one_reading h4 h4'

theorem includeDir_one {H : Host} {path dir dir' : Str} (h : IncludeDir H path dir) (h' : IncludeDir H path dir') : dir = dir' := by
  rcases h with ⟨h1, rfl⟩ | ⟨h1, rfl⟩ <;> rcases h' with ⟨h1', rfl⟩ | ⟨h1', rfl⟩
  · rfl
  · rw [h1] at h1'; cases h1'
  · rw [h1] at h1'; cases h1'
  · rfl

/-- The settings of the LDIF server matter for nothing here. -/
def anyLdifCfg : LdifCfg := ⟨[], [], false, false, false, []⟩

section
variable {V : Env} {H : Host} {env : Str → Str} {flags : List Flag}

theorem conf_not_bad (hL : H.lib.Lawful) {vars : List (Str × Str)} {cwd opt dir : Str} {cs : List LdifRecord} (hne : opt ≠ [])
    (h : ConfSays H vars cwd opt dir cs) (hd : Distinct V.C cs) : ¬ FileBad V.C H vars dir (absPath cwd opt) := by
  intro hb
  rcases h with ⟨h1, -⟩ | ⟨-, f, out, h2, h3, h4⟩
  · exact hne h1
  obtain ⟨recs, e, hdat⟩ := file_says hL h3 h4
  obtain ⟨m, hm⟩ := (data_distinct hL V anyLdifCfg hdat).2 hd
  have := file_bad hL anyLdifCfg hb
  rw [h2, e, Option.bind_some, hm] at this
  cases this

theorem main_not_bad (hL : H.lib.Lawful) (hcwd : isAbsPath H.cwd = true) {c : Config} (hc : startVars c = askedVars env flags)
    {rs : List LdifRecord} (h : FilesSay H (askedVars env flags) (absPath H.cwd (optMain.value env flags)) rs) (hd : Distinct V.C rs) :
    ¬ MainBad V.C H (askedVars env flags) (absPath H.cwd (optMain.value env flags)) := by
  intro hb
  obtain ⟨recs, e, hdat⟩ := main_says hL hcwd hc h []
  obtain ⟨m, hm⟩ := (data_distinct hL V anyLdifCfg hdat).2 hd
  have := main_bad hL hcwd hc anyLdifCfg hb []
  rw [e, Option.bind_some, hm] at this
  cases this

theorem dir_one {d : Disk} {path dir dir' dir'' : Str}
    (h : IncludeDir (H.now d) path dir' ∨ (d.isDir path = none ∧ dir' = dir)) (h' : IncludeDir (H.now d) path dir'' ∨ (d.isDir path = none ∧ dir'' = dir)) :
    dir' = dir'' := by
  have no : ∀ {x}, IncludeDir (H.now d) path x → d.isDir path = none → False := by
    rintro x (⟨k, -⟩ | ⟨k, -⟩) k'
    · rw [show d.isDir path = (H.now d).isDir path from rfl, k] at k'; cases k'
    · rw [show d.isDir path = (H.now d).isDir path from rfl, k] at k'; cases k'
  rcases h with h | ⟨h, rfl⟩ <;> rcases h' with h' | ⟨h', rfl⟩
  · exact includeDir_one h h'
  · exact (no h h').elim
  · exact (no h' h).elim
  · rfl

/-- C101: what counts after all that has happened is determined by it. -/
theorem C101_one_latest (hL : H.lib.Lawful) (hcwd : isAbsPath H.cwd = true) {c : Config} (hc : startVars c = askedVars env flags)
    {evs : List Happens} {rs cs : List LdifRecord} {dir : Str} (h : Latest V.C H env flags evs rs cs dir) :
    ∀ {rs' cs' : List LdifRecord} {dir' : Str}, Latest V.C H env flags evs rs' cs' dir' → rs = rs' ∧ cs = cs' ∧ dir = dir' := by
  induction h with
  | start rs cs dir h1 h2 h3 =>
    intro rs' cs' dir' h'
    cases h' with
    | start _ _ _ h1' h2' h3' =>
      cases includeDir_one h2 h2'
      exact ⟨C99_one_reading h1 h1', confSays_one h3 h3', rfl⟩
  | packet evs rs cs dir o p bound local_ _ ih =>
    intro rs' cs' dir' h'
    cases h' with
    | packet _ _ _ _ _ _ _ _ h' => exact ih h'
  | both evs rs cs rs₁ cs₁ dir dir₁ d _ h1 h2 h3 h4 h5 ih =>
    intro rs' cs' dir' h'
    cases h' with
    | both _ rs₂ cs₂ _ _ dir₂ _ _ h0' h1' h2' h3' h4' h5' =>
      obtain ⟨-, -, rfl⟩ := ih h0'
      exact ⟨C99_one_reading h1 h1', confSays_one h3 h3', includeDir_one h5 h5'⟩
    | confBad _ _ _ _ _ h0' h1' h2' =>
      obtain ⟨-, -, rfl⟩ := ih h0'
      exact absurd h2' (conf_not_bad (H := H.now d) hL h1' h3 h4)
    | mainBad _ _ _ _ _ _ _ h0' h1' => exact absurd h1' (main_not_bad (H := H.now d) hL hcwd hc h1 h2)
  | confBad evs rs cs dir d _ h1 h2 ih =>
    intro rs' cs' dir' h'
    cases h' with
    | both _ rs₂ cs₂ _ _ dir₂ _ _ h0' h1' h2' h3' h4' h5' =>
      obtain ⟨-, -, rfl⟩ := ih h0'
      exact absurd h2 (conf_not_bad (H := H.now d) hL h1 h3' h4')
    | confBad _ _ _ _ _ h0' => exact ih h0'
    | mainBad _ _ _ _ _ _ _ h0' _ h2' h3' =>
      obtain ⟨-, -, rfl⟩ := ih h0'
      exact absurd h2 (conf_not_bad (H := H.now d) hL h1 h2' h3')
  | mainBad evs rs cs cs₁ dir dir₁ d _ h1 h2 h3 h4 ih =>
    intro rs' cs' dir' h'
    cases h' with
    | both _ rs₂ cs₂ _ _ dir₂ _ _ h0' h1' h2' => exact absurd h1 (main_not_bad (H := H.now d) hL hcwd hc h1' h2')
    | confBad _ _ _ _ _ h0' h1' h2' =>
      obtain ⟨-, -, rfl⟩ := ih h0'
      exact absurd h2' (conf_not_bad (H := H.now d) hL h1' h2 h3)
    | mainBad _ _ _ _ _ _ _ h0' _ h2' _ h4' =>
      obtain ⟨rfl, -, rfl⟩ := ih h0'
      exact ⟨rfl, confSays_one h2 h2', dir_one h4 h4'⟩

/-- C107: what counts after all that was seen is determined by it. -/
theorem C107_one_counts {ι : Type} (hL : H.lib.Lawful) (hcwd : isAbsPath H.cwd = true) {c : Config} (hc : startVars c = askedVars env flags)
    {log : List (FSeen ι)} {rs cs : List LdifRecord} {dir : Str} (h : Counts V.C H env flags log rs cs dir) :
    ∀ {rs' cs' : List LdifRecord} {dir' : Str}, Counts V.C H env flags log rs' cs' dir' → rs = rs' ∧ cs = cs' ∧ dir = dir' := by
  induction h with
  | start rs cs dir h1 h2 h3 =>
    intro rs' cs' dir' h'
    cases h' with
    | start _ _ _ h1' h2' h3' =>
      cases includeDir_one h2 h2'
      exact ⟨C99_one_reading h1 h1', confSays_one h3 h3', rfl⟩
  | seen log rs cs dir e _ ih =>
    intro rs' cs' dir' h'
    cases h' with
    | seen _ _ _ _ _ h' => exact ih h'
  | confGood log rs cs cs₁ dir d _ h1 h2 ih =>
    intro rs' cs' dir' h'
    cases h' with
    | confGood _ _ _ _ _ _ h0' h1' h2' =>
      obtain ⟨rfl, -, rfl⟩ := ih h0'
      exact ⟨rfl, confSays_one h1 h1', rfl⟩
    | confBad _ _ _ _ _ h0' hne h1' =>
      obtain ⟨-, -, rfl⟩ := ih h0'
      exact absurd h1' (conf_not_bad (H := H.now d) hL hne h1 h2)
  | confBad log rs cs dir d _ hne h1 ih =>
    intro rs' cs' dir' h'
    cases h' with
    | confGood _ _ _ _ _ _ h0' h1' h2' =>
      obtain ⟨-, -, rfl⟩ := ih h0'
      exact absurd h1 (conf_not_bad (H := H.now d) hL hne h1' h2')
    | confBad _ _ _ _ _ h0' => exact ih h0'
  | mainGood log rs cs rs₁ dir dir₁ d _ h1 h2 h3 ih =>
    intro rs' cs' dir' h'
    cases h' with
    | mainGood _ _ _ _ _ _ _ h0' h1' _ h3' =>
      obtain ⟨-, rfl, -⟩ := ih h0'
      exact ⟨C99_one_reading h1 h1', rfl, includeDir_one h3 h3'⟩
    | mainBad _ _ _ _ _ _ h0' h1' => exact absurd h1' (main_not_bad (H := H.now d) hL hcwd hc h1 h2)
  | mainBad log rs cs dir dir₁ d _ h1 h2 ih =>
    intro rs' cs' dir' h'
    cases h' with
    | mainGood _ _ _ _ _ _ _ h0' h1' h2' => exact absurd h1 (main_not_bad (H := H.now d) hL hcwd hc h1' h2')
    | mainBad _ _ _ _ _ _ h0' _ h2' =>
      obtain ⟨rfl, rfl, rfl⟩ := ih h0'
      exact ⟨rfl, rfl, dir_one h2 h2'⟩

end

/-- So the file of the examples does not say that there is only the base entry, -/
example : ¬ LdifSays svText [⟨b!"dc=lg", [(b!"dc", b!"lg")]⟩] := fun h => absurd (C90_one_reading h svText_says) (by decide)

/-- and neither does the disk; -/
example : ¬ FilesSay (rlHost.now (rlDisk (some svText) none)) (askedVars (fun _ => []) rlFlags) (absPath rlHost.cwd (optMain.value (fun _ => []) rlFlags)) [] :=
  fun h => absurd (C99_one_reading h (rl_main none)) (by decide)

/-- and after all that happens in the example of C101 nothing else counts. -/
example {rs cs : List LdifRecord} {dir : Str} (h : Latest ldEnv.C rlHost (fun _ => []) rlFlags rlEvents rs cs dir) :
    rs = svRecords ∧ cs = rlConfRecords ∧ dir = b!"/srv/d" := by
  obtain ⟨s, hs⟩ := rl_starts
  exact C101_one_latest (V := ldEnv) goLdif_lawful (by decide) (launch_config hs).2.2 h rl_latest

end Idm
