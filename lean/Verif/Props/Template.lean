import Verif.Props.Modify
import Verif.Props.Route
import Verif.Proofs.Template

/-!
# C53, C54, C64, C65: templates
-/
namespace Idm

/-! ## C53: file inclusion stays inside the directory of the LDIF files -/

/-- C53. What the inclusion function returns depends only on files inside the base directory: two file systems that agree
there give the same result, whatever the argument. -/
theorem C53_confined (encode : Str → Str) (files files' : Str → Option Str) (cwd base fn : Str)
    (hcwd : isAbsPath cwd = true) (h : ∀ p, InsideDir base p → files p = files' p) :
    formatAsFile encode files cwd base fn = formatAsFile encode files' cwd base fn := by
  unfold formatAsFile
  cases hp : includePath cwd base fn with
  | none => rfl
  | some p =>
    simp only [Option.bind_eq_bind, Option.bind_some]
    rw [h p (includePath_inside hcwd hp)]

/-- C53. The path that is opened is inside the base directory. -/
theorem C53_opened (cwd base fn p : Str) (hcwd : isAbsPath cwd = true) (h : includePath cwd base fn = some p) :
    InsideDir base p := includePath_inside hcwd h

theorem cleanPath_names {dirs : List Str} (h : ∀ q ∈ dirs, IsFileName q) (hne : dirs ≠ []) :
    cleanPath (chSlash :: joinWith chSlash dirs) = chSlash :: joinWith chSlash dirs := by
  have ha : isAbsPath (chSlash :: joinWith chSlash dirs) = true := (isAbsPath_iff _).2 ⟨_, rfl⟩
  unfold cleanPath
  dsimp only
  rw [ha, if_pos rfl, splitOn_cons_sep, splitOn_joinWith hne fun q hq => (h q hq).2.1]
  rw [cleanLoop.eq_def]
  dsimp only
  rw [if_pos (Or.inl rfl), cleanLoop_self _ _ _ h]
  rfl

theorem joinWith_append {sep : UInt8} {a b : List Str} (ha : a ≠ []) (hb : b ≠ []) :
    joinWith sep (a ++ b) = joinWith sep a ++ sep :: joinWith sep b := by
  induction a with
  | nil => exact absurd rfl ha
  | cons p ps ih =>
    by_cases hp : ps = []
    · subst hp
      rw [List.singleton_append, joinWith_cons_ne _ hb]
      rfl
    · rw [List.cons_append, joinWith_cons_ne _ (by simp [hp]), ih hp, joinWith_cons_ne _ hp]
      simp

/-- C53. Every file below the base directory can be included by its relative name; its content comes back encoded unless
it is larger than one mebibyte. -/
theorem C53_reaches (encode : Str → Str) (files : Str → Option Str) (cwd : Str) (dirs names : List Str) (q : Str)
    (hd : dirs ≠ []) (hdirs : ∀ d ∈ dirs, IsFileName d) (hq : IsFileName q) (hnames : ∀ d ∈ names, IsFileName d) :
    formatAsFile encode files cwd (descend [] dirs) (descend q names) =
      match files (descend [] (dirs ++ q :: names)) with
      | none => none
      | some data => if data.length ≤ 1048576 then some (encode data) else none := by
  have hall : ∀ d ∈ q :: names, IsFileName d := fun d hd => by
    rcases List.mem_cons.1 hd with rfl | hd
    · exact hq
    · exact hnames d hd
  have hfn : descend q names = joinWith chSlash (q :: names) := by
    by_cases hn : names = []
    · subst hn; rfl
    · rw [descend_eq _ _ hn, joinWith_cons_ne _ hn]
  have hrel : isAbsPath (joinWith chSlash (q :: names)) = false := by
    obtain ⟨c, cs, rfl⟩ : ∃ c cs, q = c :: cs := by
      cases q with
      | nil => exact absurd rfl hq.1
      | cons c cs => exact ⟨c, cs, rfl⟩
    have hc : c ≠ chSlash := fun e => hq.2.1 (by simp [e])
    cases ha : isAbsPath (joinWith chSlash ((c :: cs) :: names)) with
    | false => rfl
    | true =>
      obtain ⟨t, ht⟩ := (isAbsPath_iff _).1 ha
      by_cases hn : names = []
      · subst hn
        simp only [joinWith, List.cons.injEq] at ht
        exact absurd ht.1 hc
      · rw [joinWith_cons_ne _ hn] at ht
        simp only [List.cons_append, List.cons.injEq] at ht
        exact absurd ht.1 hc
  have hcl : cleanPath (joinWith chSlash (q :: names)) = joinWith chSlash (q :: names) := by
    unfold cleanPath
    dsimp only
    rw [hrel, splitOn_joinWith (by simp) fun d hd => (hall d hd).2.1, cleanLoop_self _ _ _ hall]
    simp
  have hbase : descend [] dirs = chSlash :: joinWith chSlash dirs := descend_eq _ _ hd
  have hfull : descend [] (dirs ++ q :: names) = chSlash :: joinWith chSlash (dirs ++ q :: names) :=
    descend_eq _ _ (by simp)
  have hjoin : joinPath (chSlash :: joinWith chSlash dirs) (joinWith chSlash (q :: names)) =
      chSlash :: joinWith chSlash (dirs ++ q :: names) := by
    have hne : joinWith chSlash (q :: names) ≠ [] := by
      intro e
      have := congrArg (splitOn chSlash) e
      rw [splitOn_joinWith (by simp) fun d hd => (hall d hd).2.1] at this
      simp only [splitOn, List.cons.injEq] at this
      exact hq.1 this.1
    rw [joinPath, if_neg (by simp), if_neg hne, List.cons_append, ← joinWith_append hd (by simp)]
    refine cleanPath_names (fun d hd => ?_) (by simp [hd])
    rcases List.mem_append.1 hd with hd | hd
    · exact hdirs d hd
    · exact hall d hd
  have habs : absPath cwd (chSlash :: joinWith chSlash (dirs ++ q :: names)) =
      chSlash :: joinWith chSlash (dirs ++ q :: names) := by
    rw [absPath, if_pos ((isAbsPath_iff _).2 ⟨_, rfl⟩)]
    refine cleanPath_names (fun d hd => ?_) (by simp [hd])
    rcases List.mem_append.1 hd with hd | hd
    · exact hdirs d hd
    · exact hall d hd
  have hlast : (descend [] dirs).getLast? ≠ some chSlash := by
    intro e
    obtain ⟨pre, last, rfl⟩ : ∃ pre last, dirs = pre ++ [last] :=
      ⟨dirs.dropLast, dirs.getLast hd, (List.dropLast_concat_getLast hd).symm⟩
    have hl := hdirs last (by simp)
    rw [descend, List.foldl_append, List.foldl_cons, List.foldl_nil, List.getLast?_append] at e
    obtain ⟨c, cs, rfl⟩ : ∃ c cs, last = c :: cs := by
      cases last with
      | nil => exact absurd rfl hl.1
      | cons c cs => exact ⟨c, cs, rfl⟩
    rw [List.getLast?_cons_cons] at e
    have hne : (c :: cs).getLast? = some ((c :: cs).getLast (by simp)) := List.getLast?_eq_some_getLast (by simp)
    rw [hne] at e
    simp only [Option.some_or, Option.some.injEq] at e
    exact hl.2.1 (e ▸ List.getLast_mem (by simp))
  have htrim : trimSlashes (descend [] dirs) = descend [] dirs := by
    have := trimSlashes_append 0 hlast
    simpa using this
  have hinc : includePath cwd (descend [] dirs) (descend q names) = some (descend [] (dirs ++ q :: names)) := by
    rw [includePath, if_neg (by rw [hbase]; simp), htrim]
    dsimp only
    rw [hfn, hcl, hrel, if_neg (c := false = true) (by simp), hbase, hjoin, habs, ← hbase, ← hfull, if_pos]
    rw [hasPrefix, hbase, List.isPrefixOf_iff_prefix, hfull, joinWith_append hd (by simp)]
    exact ⟨joinWith chSlash (q :: names), by simp⟩
  rw [formatAsFile, hinc]
  simp only [Option.bind_eq_bind, Option.bind_some]
  cases files (descend [] (dirs ++ q :: names)) with
  | none => rfl
  | some data =>
    have hf : fileSizeLimit = 1048576 := by decide
    simp only [Option.bind_some]
    by_cases hl : data.length ≤ 1048576
    · rw [if_pos hl, List.take_of_length_le (by omega), if_neg (by omega)]
    · rw [if_neg hl, if_pos]
      rw [List.length_take]
      omega

/-- The witnesses are real: an included file, and attempts to leave the directory. -/
example : IsFileName b!"photo.jpg" := by simp [IsFileName, chSlash]

example : includePath b!"/root" b!"/etc/ldif" b!"img/photo.jpg" = some b!"/etc/ldif/img/photo.jpg" ∧
    includePath b!"/root" b!"/etc/ldif/" b!"a/../photo.jpg" = some b!"/etc/ldif/photo.jpg" ∧
    includePath b!"/root" b!"/etc/ldif" b!"../shadow" = none ∧
    includePath b!"/root" b!"/etc/ldif" b!"/etc/ldif/../shadow" = none ∧
    includePath b!"/root" b!"/etc/ldif" b!"../ldif-old/x" = none ∧
    includePath b!"/root" b!"/etc/ldif" b!"." = none := by decide +kernel

/-! ## C54: AutoIncrement -/

/-- C54. Without an argument each call returns a number larger than every number returned since the counter was last set,
and the next one; as long as it does not pass the largest 64-bit number. -/
theorem C54_fresh_partial (start : UInt64) (calls : List (List UInt64)) (i j : Nat) (u : UInt64) (hij : i < j)
    (hu : (autoCalls start calls)[i]? = some u) (hplain : ∀ k, i < k → k ≤ j → calls[k]? = some [])
    (hsmall : u.toNat + (j - i) < 2 ^ 64) :
    ∃ v, (autoCalls start calls)[j]? = some v ∧ v.toNat = u.toNat + (j - i) ∧ v > u := by
  obtain ⟨d, rfl⟩ : ∃ d, j = i + (d + 1) := ⟨j - i - 1, by omega⟩
  have e : i + (d + 1) - i = d + 1 := by omega
  rw [e] at hsmall ⊢
  obtain ⟨v, h1, h2⟩ := autoCalls_from i d start calls u hu hplain hsmall
  refine ⟨v, h1, h2, ?_⟩
  rw [gt_iff_lt, UInt64.lt_iff_toNat_lt]
  omega

/-- C54. Before the counter is set it counts from 1001 on, or from the number after `AutoIncrementMin`. -/
theorem C54_start_partial (minimum : Option UInt64) (calls : List (List UInt64)) (j : Nat)
    (hplain : ∀ k, k ≤ j → calls[k]? = some []) (hsmall : (minimum.getD 1000).toNat + (j + 1) < 2 ^ 64) :
    ∃ v, (autoCalls (autoStart minimum) calls)[j]? = some v ∧ v.toNat = (minimum.getD 1000).toNat + (j + 1) :=
  autoCalls_run j _ calls hplain hsmall

/-- C54. A call with an argument returns the argument. -/
theorem C54_set (start : UInt64) (calls : List (List UInt64)) (i : Nat) (v : UInt64) (vs : List UInt64)
    (h : calls[i]? = some (v :: vs)) : (autoCalls start calls)[i]? = some v := by
  induction i generalizing start calls with
  | zero =>
    cases calls with
    | nil => cases h
    | cons c cs =>
      simp only [List.getElem?_cons_zero, Option.some.injEq] at h
      subst h
      rfl
  | succ i ih =>
    cases calls with
    | nil => cases h
    | cons c cs => simpa [autoCalls] using ih (autoIncrement start c) cs (by simpa using h)

/-- C54 is false at the end of the range: the counter starts again at 0 and then repeats numbers. -/
theorem C54_wrap_fails : ∃ (start : UInt64) (calls : List (List UInt64)) (i j : Nat) (u v : UInt64), i < j ∧
    (∀ k, i < k → k ≤ j → calls[k]? = some []) ∧ (autoCalls start calls)[i]? = some u ∧
    (autoCalls start calls)[j]? = some v ∧ ¬ v > u := by
  refine ⟨1000, [[18446744073709551615], []], 0, 1, 18446744073709551615, 0, by omega, ?_, by decide +kernel,
    by decide +kernel, by decide +kernel⟩
  intro k h1 h2
  have : k = 1 := by omega
  subst this
  rfl

example : autoCalls (autoStart none) [[], [], [5000], [], []] = [1001, 1002, 5000, 5001, 5002] := by decide +kernel

/-! ## C64: nothing of a file is ignored without an error -/

/-- C64. When every line of the file is shorter than 64 KiB, the text given to the template engine consists of all lines
that are not comments, in order. -/
theorem C64_all_lines_partial (text : Str) (h : ∀ l ∈ rawLines text, l.length < 65536) :
    templateText text = joinWith 10 (((rawLines text).map dropCR).filter (!isComment ·)) := by
  unfold templateText scanLines
  rw [takeWhile_all (p := fun l => decide (List.length l < maxToken)) fun l hl => decide_eq_true (h l hl)]

/-- What comes before and after a line feed. -/
theorem rawLines_append (a b : Str) (hb : b ≠ []) : rawLines (a ++ 10 :: b) = splitOn 10 a ++ rawLines b := by
  unfold rawLines
  dsimp only
  rw [splitOn_append, List.getLast?_append]
  cases h : (splitOn 10 b).getLast? with
  | none => exact absurd (List.getLast?_eq_none_iff.1 h) (splitOn_ne_nil _ _)
  | some x =>
    simp only [Option.some_or, Option.some.injEq]
    split
    · rw [List.dropLast_append_of_ne_nil (splitOn_ne_nil _ _)]
    · rfl

theorem rawLines_single {l : Str} (hl : l ≠ []) (h : (10 : UInt8) ∉ l) : rawLines l = [l] := by
  unfold rawLines
  rw [splitOn_single h]
  simp [hl]

/-- C64 is false: from the first line of 64 KiB or more on, the file is ignored, and no error is reported: the text is the
same whatever follows. -/
theorem C64_long_line_fails (before long : Str) (hlong : 65536 ≤ long.length) (hline : (10 : UInt8) ∉ long)
    (hbefore : ∀ l ∈ splitOn 10 before, l.length < 65536) :
    ∀ rest, templateText (before ++ 10 :: (long ++ 10 :: rest)) =
      joinWith 10 (((splitOn 10 before).map dropCR).filter (!isComment ·)) := by
  intro rest
  have hne : long ≠ [] := by rintro rfl; simp at hlong
  obtain ⟨tl, ht⟩ : ∃ tl, rawLines (before ++ 10 :: (long ++ 10 :: rest)) = splitOn 10 before ++ long :: tl := by
    rw [rawLines_append _ _ (by simp [hne])]
    by_cases hr : rest = []
    · subst hr
      refine ⟨[], ?_⟩
      unfold rawLines
      dsimp only
      rw [splitOn_append, splitOn_single hline]
      rfl
    · rw [rawLines_append _ _ hr, splitOn_single hline]
      exact ⟨_, rfl⟩
  unfold templateText scanLines
  rw [ht, List.takeWhile_append_of_pos (p := fun l => decide (List.length l < maxToken)) (fun l hl => decide_eq_true (hbefore l hl)),
    List.takeWhile_cons_of_neg (by
      rw [decide_eq_true_eq]
      exact Nat.not_lt.2 hlong), List.append_nil]

/-- The hypotheses are met: a short line, then one of 65536 letters. -/
example : ∀ rest, templateText (b!"dn: dc=x" ++ 10 :: (List.replicate 65536 97 ++ 10 :: rest)) = b!"dn: dc=x" := by
  intro rest
  rw [C64_long_line_fails _ _ (by rw [List.length_replicate]; decide) (by
      intro h
      have := List.eq_of_mem_replicate h
      cases this) (by decide +kernel)]
  decide +kernel

example : (∀ l ∈ rawLines b!"dn: dc=x\r\n# c\ncn: a\n", l.length < 65536) ∧
    templateText b!"dn: dc=x\r\n# c\ncn: a\n" = b!"dn: dc=x\ncn: a" := by decide +kernel

/-! ## C65: comments do not change the data -/

/-- C65. As long as no comment is continued on the next line, taking comments out of the text leaves the logical lines
that are not comments as they are. -/
theorem C65_comments_partial (text : Str) (h : PlainComments (scanLines text)) :
    ∃ ls, templateText text = joinWith 10 ls ∧
      (logicalLines ls).filter (!isComment ·) = (logicalLines (scanLines text)).filter (!isComment ·) := by
  refine ⟨_, rfl, ?_⟩
  unfold logicalLines
  rw [List.filter_reverse, List.filter_reverse, fold_logical _ [] [] h (Or.inr (Or.inr ⟨rfl, rfl⟩))]

/-- C65 is false for a comment continued on the next line: the continuation ends up in the value before the comment. -/
theorem C65_continued_fails :
    ∃ text ls, templateText text = joinWith 10 ls ∧ ls = splitOn 10 (templateText text) ∧
      (logicalLines (scanLines text)).filter (!isComment ·) = [b!"cn: Bob"] ∧
      (logicalLines ls).filter (!isComment ·) = [b!"cn: Bob and Eve"] :=
  ⟨b!"cn: Bob\n# was Alice\n  and Eve\n", [b!"cn: Bob", b!"  and Eve"], by decide +kernel, by decide +kernel,
    by decide +kernel, by decide +kernel⟩

example : PlainComments (scanLines b!"cn: Bob\n  and Eve\n# c\nsn: x\n") ∧
    logicalLines (scanLines b!"cn: Bob\n  and Eve\n# c\nsn: x\n") = [b!"cn: Bob and Eve", b!"# c", b!"sn: x"] := by
  decide +kernel

/-! ## C72: directories of LDIF files -/

theorem recordsFrom_append (ys : List Str) : ∀ (xs cur : List Str), recordsFrom cur (xs ++ [] :: ys) = recordsFrom cur xs ++ recordsFrom [] ys := by
  intro xs
  induction xs with
  | nil => intro cur; simp only [List.nil_append, recordsFrom, if_true]; split <;> simp_all
  | cons x xs ih =>
    intro cur
    simp only [List.cons_append, recordsFrom]
    split
    · split
      · exact ih []
      · rw [ih []]; rfl
    · exact ih _

theorem records_sep (a b : Str) : records (a ++ [10, 10] ++ b) = records a ++ records b := by
  unfold records
  rw [List.append_assoc, show ([10, 10] : Str) ++ b = 10 :: (10 :: b) from rfl, splitOn_append, splitOn_cons_sep, List.map_append, List.map_cons]
  exact recordsFrom_append _ _ []

theorem insertName_perm (n : Str) (l : List Str) : (insertName n l).Perm (n :: l) := by
  induction l with
  | nil => exact List.Perm.refl _
  | cons m ms ih =>
    simp only [insertName]
    split
    · exact List.Perm.refl _
    · exact (List.Perm.cons m ih).trans (List.Perm.swap n m ms)

theorem sortNames_perm (l : List Str) : (sortNames l).Perm l := by
  induction l with
  | nil => exact List.Perm.refl _
  | cons n ns ih => exact (insertName_perm n _).trans (List.Perm.cons n ih)

theorem insertName_sorted (n : Str) {l : List Str} (h : l.Pairwise fun a b => strLe a b = true) :
    (insertName n l).Pairwise fun a b => strLe a b = true := by
  induction l with
  | nil => simp [insertName]
  | cons m ms ih =>
    rw [List.pairwise_cons] at h
    simp only [insertName]
    split
    · rename_i hle
      rw [List.pairwise_cons]
      refine ⟨fun x hx => ?_, List.pairwise_cons.2 h⟩
      rcases List.mem_cons.1 hx with rfl | hx
      · exact hle
      · exact strLe_trans hle (h.1 x hx)
    · rename_i hle
      rw [List.pairwise_cons]
      refine ⟨fun x hx => ?_, ih h.2⟩
      rcases List.mem_cons.1 ((insertName_perm n ms).mem_iff.1 hx) with rfl | hx
      · exact (strLe_total x m).resolve_left hle
      · exact h.1 x hx

theorem sortNames_le (l : List Str) : (sortNames l).Pairwise fun a b => strLe a b = true := by
  induction l with
  | nil => exact List.Pairwise.nil
  | cons n ns ih => exact insertName_sorted n ih

theorem sortNames_sorted (l : List Str) : (sortNames l).Pairwise ByteLe := (sortNames_le l).imp strLe_iff.1

theorem catFiles_spec (text : Str → Option Str) : ∀ (ns : List Str),
    match catFiles text ns with
    | some out => (∀ n ∈ ns, (text n).isSome) ∧ records out = ns.flatMap fun n => records ((text n).getD [])
    | none => ∃ n ∈ ns, text n = none := by
  intro ns
  induction ns with
  | nil => simp [catFiles, records, splitOn, recordsFrom, dropCR]
  | cons n ns ih =>
    simp only [catFiles]
    cases hn : text n with
    | none => simp [hn]
    | some a =>
      cases hc : catFiles text ns with
      | none =>
        rw [hc] at ih
        obtain ⟨m, hm, e⟩ := ih
        simp only [Option.bind_eq_bind, Option.bind_some, Option.bind_none]
        exact ⟨m, List.mem_cons_of_mem _ hm, e⟩
      | some b =>
        rw [hc] at ih
        simp only [Option.bind_eq_bind, Option.bind_some]
        refine ⟨?_, ?_⟩
        · intro m hm
          rcases List.mem_cons.1 hm with rfl | hm
          · simp [hn]
          · exact ih.1 m hm
        · rw [records_sep, ih.2, List.flatMap_cons, hn]; rfl

/-- C72. A directory is loaded exactly if each of its LDIF files can be read and rendered. The records of the text are then those of the
files, file by file in the order of the names: none is lost, and none spans two files. What a file contributes depends on that file only. -/
theorem C72_directory (engine : Option (List (Str × Str) → UInt64 → Str → Option Str)) (vars : List (Str × Str)) (start : UInt64)
    (read : Str → Option FileRead) (names : List Str) :
    ∃ files : List Str, files.Perm (names.filter fun n => b!".ldif" <:+ n) ∧ files.Pairwise ByteLe ∧
      match directoryText engine vars start read names with
      | none => ∃ n ∈ files, (read n).bind (fileText engine vars start) = none
      | some out => ∃ text : Str → Str, (∀ n ∈ files, (read n).bind (fileText engine vars start) = some (text n)) ∧
          records out = files.flatMap fun n => records (text n) := by
  refine ⟨ldifNames names, ?_, ?_, ?_⟩
  · unfold ldifNames
    refine (sortNames_perm _).trans ?_
    rw [show (names.filter fun n => b!".ldif" <:+ n) = names.filter (hasSuffix · b!".ldif") from
      List.filter_congr fun n _ => by rw [Bool.eq_iff_iff, decide_eq_true_iff, hasSuffix_iff]]
  · exact sortNames_sorted _
  · have h := catFiles_spec (fun n => (read n).bind (fileText engine vars start)) (ldifNames names)
    unfold directoryText
    split
    · rename_i hn; rw [hn] at h; exact h
    · rename_i out hn
      rw [hn] at h
      refine ⟨fun n => ((read n).bind (fileText engine vars start)).getD [], fun n hn' => ?_, h.2⟩
      have := h.1 n hn'
      cases hx : (read n).bind (fileText engine vars start) with
      | none => rw [hx] at this; cases this
      | some y => simp [hx]

/-- Non-vacuity of C72: three files of which one is no LDIF file; a record at the end of a file without a line feed stays apart. -/
example : directoryText none [] 1000 (fun n => if n = b!"a.ldif" then some (.whole b!"dn: a\nx: 1") else if n = b!"b.ldif" then some (.whole b!"dn: b\n\ndn: c") else none)
    [b!"b.ldif", b!"note.txt", b!"a.ldif"] = some b!"dn: a\nx: 1\n\ndn: b\n\ndn: c\n\n" ∧
    records b!"dn: a\nx: 1\n\ndn: b\n\ndn: c\n\n" = [[b!"dn: a", b!"x: 1"], [b!"dn: b"], [b!"dn: c"]] := by decide +kernel

example : directoryText none [] 1000 (fun n => if n = b!"a.ldif" then some (.whole b!"dn: a") else none) [b!"b.ldif", b!"a.ldif"] = none := by
  decide +kernel

/-- C54 across files. The counter begins anew in each file of a directory: two files that each ask for one number get the same one. -/
theorem C54_files_fails : ¬ ∀ (start : UInt64) (files : List (List (List UInt64))), (∀ calls ∈ files, ∀ c ∈ calls, c = []) →
    (files.flatMap fun calls => autoCalls start calls).Nodup := by
  intro h
  exact absurd (h (autoStart none) [[[]], [[]]] (by decide)) (by decide +kernel)

/-! ## C73: the variables of a template -/

theorem varValue_append (a b : List (Str × Str)) (n : Str) : varValue (a ++ b) n = (varValue b n).or (varValue a n) := by
  unfold varValue
  rw [List.filter_append, List.getLast?_append]
  cases (b.filter fun p => p.1 = n).getLast? <;> simp

theorem varValue_single (k v n : Str) : varValue [(k, v)] n = if k = n then some v else none := by
  unfold varValue
  by_cases h : k = n <;> simp [h]

theorem varValue_some_mem (l : List (Str × Str)) (n v : Str) (h : varValue l n = some v) : (n, v) ∈ l := by
  unfold varValue at h
  cases hl : (l.filter fun p => p.1 = n).getLast? with
  | none => rw [hl] at h; cases h
  | some p =>
    rw [hl] at h
    have hm := List.mem_of_getLast? hl
    rw [List.mem_filter] at hm
    simp only [Option.map_some, Option.some.injEq] at h
    have e : p.1 = n := by simpa using hm.2
    subst e; subst h
    exact hm.1

theorem varValue_nodup {l : List (Str × Str)} (h : (l.map (·.1)).Nodup) (n v : Str) : varValue l n = some v ↔ (n, v) ∈ l := by
  induction l with
  | nil => simp [varValue]
  | cons p ps ih =>
    obtain ⟨k, w⟩ := p
    rw [List.map_cons, List.nodup_cons] at h
    rw [show (k, w) :: ps = [(k, w)] ++ ps from rfl, varValue_append, varValue_single]
    have ih := ih h.2
    cases hv : varValue ps n with
    | some u =>
      rw [hv] at ih
      have hne : k ≠ n := by
        rintro rfl
        have : (k, u) ∈ ps := by
          have := (varValue_some_mem ps k u hv); exact this
        exact h.1 (List.mem_map.2 ⟨_, this, rfl⟩)
      simp only [Option.some_or, List.cons_append, List.nil_append, List.mem_cons, Prod.mk.injEq]
      rw [ih]
      constructor
      · exact Or.inr
      · rintro (⟨e, _⟩ | h)
        · exact absurd e.symm hne
        · exact h
    | none =>
      rw [hv] at ih
      simp only [Option.none_or, List.cons_append, List.nil_append, List.mem_cons, Prod.mk.injEq]
      have hn : (n, v) ∉ ps := fun hm => by cases ih.2 hm
      by_cases e : k = n
      · subst e; simp [hn, eq_comm]
      · simp [e, hn, Ne.symm e]

/-- C73. The value of a variable of a template. A variable given as an extra variable has that value; else `Company`, `BaseDN` and
`MailDomain` have the configured value, and the built-in one where none is configured; no other variable is defined. -/
theorem C73_variables (defBase defMail optBase optCompany optMail : Str) (extra : List (Str × Str)) (hnd : (extra.map (·.1)).Nodup) (n v : Str) :
    varValue (templateVars defBase defMail optBase optCompany optMail extra) n = some v ↔
      (n, v) ∈ extra ∨
      (¬ ∃ w, (n, w) ∈ extra) ∧
        ((n = b!"Company" ∧ v = if optCompany = [] then b!"Default" else optCompany) ∨
         (n = b!"BaseDN" ∧ v = if optBase = [] then defBase else optBase) ∨
         (n = b!"MailDomain" ∧ v = if optMail = [] then defMail else optMail)) := by
  have hno : varValue extra n = none ↔ ¬ ∃ w, (n, w) ∈ extra := by
    constructor
    · rintro h ⟨w, hw⟩
      rw [(varValue_nodup hnd n w).2 hw] at h
      cases h
    · intro h
      cases hv : varValue extra n with
      | none => rfl
      | some w => exact absurd ⟨w, (varValue_nodup hnd n w).1 hv⟩ h
  unfold templateVars
  rw [varValue_append]
  cases hv : varValue extra n with
  | some w =>
    rw [hv] at hno
    have hx : ∃ w, (n, w) ∈ extra := ⟨w, (varValue_nodup hnd n w).1 hv⟩
    rw [← varValue_nodup hnd, hv]
    simp [hx]
  | none =>
    have hx := hno.1 hv
    have hm : (n, v) ∉ extra := fun h => hx ⟨v, h⟩
    have hcb : b!"Company" ≠ b!"BaseDN" := by decide
    have hcm : b!"Company" ≠ b!"MailDomain" := by decide
    have hbm : b!"BaseDN" ≠ b!"MailDomain" := by decide
    have hif : ∀ (k o : Str), varValue (if o ≠ [] then [(k, o)] else []) n = if o ≠ [] ∧ k = n then some o else none := by
      intro k o
      by_cases ho : o = []
      · subst ho; rfl
      · rw [if_pos ho, varValue_single]; simp [ho]
    rw [varValue_append, varValue_append, varValue_append, hif, hif, hif,
      show ([(b!"Company", b!"Default"), (b!"BaseDN", defBase), (b!"MailDomain", defMail)] : List (Str × Str)) =
        [(b!"Company", b!"Default")] ++ ([(b!"BaseDN", defBase)] ++ [(b!"MailDomain", defMail)]) from rfl,
      varValue_append, varValue_append, varValue_single, varValue_single, varValue_single]
    generalize b!"Company" = c at *
    generalize b!"BaseDN" = b at *
    generalize b!"MailDomain" = m at *
    simp only [Option.none_or, hm, hx, not_false_eq_true, true_and, false_or]
    by_cases h1 : n = c
    · subst h1
      simp only [hcb.symm, hcm.symm, hcb, hcm, and_false, if_false, and_true, if_true, true_and, false_and, or_false, Option.none_or]
      by_cases ho : optCompany = [] <;> simp [ho, eq_comm]
    · by_cases h2 : n = b
      · subst h2
        simp only [hcb, hbm, hbm.symm, and_false, if_false, and_true, if_true, true_and, false_and, or_false, false_or, Option.none_or]
        by_cases ho : optBase = [] <;> simp [ho, eq_comm, hcb.symm]
      · by_cases h3 : n = m
        · subst h3
          simp only [hcm, hbm, and_false, if_false, and_true, if_true, true_and, false_and, or_false, false_or, Option.none_or]
          by_cases ho : optMail = [] <;> simp [ho, eq_comm, hcm.symm, hbm.symm]
        · simp [h1, h2, h3, Ne.symm h1, Ne.symm h2, Ne.symm h3]

/-- C73. After a template sets a variable, that variable has the value and the others keep theirs. -/
theorem C73_with (vars : List (Str × Str)) (n value k : Str) :
    varValue (withVar n value vars) k = if k = n then some value else varValue vars k := by
  unfold withVar
  rw [varValue_append, varValue_single]
  by_cases h : n = k
  · subst h; simp
  · rw [if_neg h, if_neg (Ne.symm h)]; rfl

/-- Non-vacuity of C73: a configured base, the built-in company and an extra variable that replaces the mail domain. -/
example :
    let vars := templateVars b!"dc=lg,dc=local" b!"lg.local" b!"dc=x" [] b!"x.example" [(b!"MailDomain", b!"y.example"), (b!"Site", b!"B")]
    varValue vars b!"BaseDN" = some b!"dc=x" ∧ varValue vars b!"Company" = some b!"Default" ∧
      varValue vars b!"MailDomain" = some b!"y.example" ∧ varValue vars b!"Site" = some b!"B" ∧ varValue vars b!"Other" = none ∧
      varValue (withVar b!"Company" b!"Acme" vars) b!"Company" = some b!"Acme" := by decide +kernel

end Idm
