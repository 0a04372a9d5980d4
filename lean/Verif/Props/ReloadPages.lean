import Verif.Props.ReloadParallel
import Verif.Props.LdifPages
/-!
# C107: the pages of a search while requests overlap and files are reloaded
-/
namespace Idm

section
variable {ι : Type}

section
variable {V : Env} {W : WalkOrd} {H : Host} {cfg : LdifCfg} {s : Started} {loop : Nat → Bool} {m c : LMem}

/-- What was seen, in the trace of the process. -/
theorem seen_index {log : List (FSeen ι)} {l : FLive ι} (h : FRuns V W H cfg s loop m c log l) {after before : List (FSeen ι)} {e : LSeen ι}
    (he : e.plain = true) (hlog : log = after ++ .seen e :: before) :
    ∃ A R, l.par.trace = A ++ e :: R ∧ A.filter LSeen.plain = seenOf before ∧ R.filter LSeen.plain = seenOf after := by
  have htr := fruns_seen h
  rw [hlog, seenOf_append, seenOf_cons_seen, List.append_assoc] at htr
  obtain ⟨T1, R1, e1, f1, htr⟩ := List.filter_eq_append_iff.1 htr
  obtain ⟨N1, R2, e2, f2, -, htr⟩ := List.filter_eq_cons_iff.1 (show R1.filter LSeen.plain = e :: seenOf after from htr)
  refine ⟨T1 ++ N1, R2, by rw [e1, e2]; simp, ?_, htr⟩
  rw [List.filter_append, f1, List.filter_eq_nil_iff.2 f2, List.append_nil]

theorem plain_mem {log : List (FSeen ι)} {l : FLive ι} (h : FRuns V W H cfg s loop m c log l) {e : LSeen ι} (he : e.plain = true) :
    e ∈ l.par.trace ↔ .seen e ∈ log := by
  rw [← mem_seenOf, ← fruns_seen h, List.mem_filter]
  exact ⟨fun h => ⟨h, he⟩, fun h => h.1⟩

end

theorem matched_length {α β : Type} {R : α → β → Prop} {l : List α} {l' : List β} (h : Matched R l l') : l.length = l'.length := by
  induction h with
  | nil => rfl
  | cons a b as bs _ _ ih => simp [ih]

theorem share_matched {α β : Type} [DecidableEq ι] {R : α → β → Prop} (id : ι) {l : List α} {l' : List β} (h : Matched R l l') :
    ∀ owners : List ι, Matched R (share owners l id) (share owners l' id) := by
  induction h with
  | nil => intro owners; simp only [share, List.zip_nil_right]; exact .nil
  | cons a b as bs hab _ ih =>
    intro owners
    cases owners with
    | nil => simp only [share, List.zip_nil_left]; exact .nil
    | cons o owners =>
      have := ih owners
      by_cases ho : o = id
      · have e : ∀ {γ : Type} (x : γ) (xs : List γ), share (o :: owners) (x :: xs) id = x :: share owners xs id := by
          intro γ x xs; simp [share, ho]
        rw [e, e]
        exact .cons _ _ _ _ hab this
      · have e : ∀ {γ : Type} (x : γ) (xs : List γ), share (o :: owners) (x :: xs) id = share owners xs id := by
          intro γ x xs; simp [share, ho]
        rw [e, e]
        exact this

section
variable {V : Env} {H : Host} {loopback : Bool} {env : Str → Str} {flags : List Flag}

/-- C107: the pages of one search of an LDIF server that serves any number of clients at the same time, while SIGHUPs make it read the files on disk
again. A client that may read asks for the first page of a search and gets a cookie; then any clients ask for further pages with it. There is one
moment since the search arrived such that all the pages come from the records of the main files that counted at that moment: of those in scope that
satisfy the filter, each goes to at most one of the requests (`owners` says which, in their order), each request is answered with those that go to it,
with the values asked for, and when a request has been told that there are no more pages, or that the cookie is unknown, every record in scope that
satisfies the filter has gone to a request. (Unless the producer gave up; the random cookie was made only once; nobody abandoned the search. The
conditions on names, filter and records are those of C95.) -/
theorem C107_pages_partial [DecidableEq ι] (hC : V.C.Lawful) {W : WalkOrd} (hW : W.Lawful) (hL : H.lib.Lawful) (hcwd : isAbsPath H.cwd = true)
    {loop : Nat → Bool} (hh : optHandler.value env flags = b!"ldif") (s : Started) (h : launch V H loopback env flags = .serves s)
    (base : DN) (hbn : parseDN V.C (optBase.value env flags) = some base) {cfg : LdifCfg} {m c : LMem} (hbk : s.backend = .ldif cfg m c)
    {log : List (FSeen ι)} {l : FLive ι} (hr : FRuns V W H cfg s loop m c log l) {rs cs : List LdifRecord} {dir : Str}
    (hlat : Counts V.C H env flags log rs cs dir)
    (b : Str) (nb : DN) (hb : parseDN V.C b = some nb) (hbase : hasSuffix (V.C.lower b) (normalize V.C base) = true)
    (scope : Nat) (hs : scope ≤ 2) (hroot : scope = 1 → nb ≠ []) (f : Filter) (w : Packet) (hw : Wire f w) (hfo : FilterOk f) (h1 : OneComponent f) (hsup : Supported f)
    (ends : Bool) (hlost : NoneLost V.C defaultIdx ends f = true) (attrs : List Str) (hrep : NoRepeat V.C attrs)
    (key : Str) (hkey : key ≠ []) (honce : (log.filterMap fun e => match e with | .seen (.cookie _ k) => some k | _ => none).count key ≤ 1)
    (first : ι) (cn₀ : Nat) (mid₀ : Int) (ctl : Packet) (o₀ : Oracle) (after before : List (FSeen ι))
    (harr : log = after ++ .seen (.io (.arrive first (.packet cn₀ (wMsgC mid₀ (wSearch b scope 0 w attrs) [ctl]) o₀))) :: before)
    (hmade : .seen (.cookie first key) ∈ log)
    (hread : ∀ bound, LastBind V.C cn₀ (iosOf before) bound → MayRead V.C (askedCfg V.C env flags (loop cn₀) base) bound) :
    ∃ later earlier rs' cs' dir', after = later ++ earlier ∧
      Counts V.C H env flags (earlier ++ .seen (.io (.arrive first (.packet cn₀ (wMsgC mid₀ (wSearch b scope 0 w attrs) [ctl]) o₀))) :: before) rs' cs' dir' ∧
      ((∀ r ∈ rs', TextTells V.C scope b r.dn) →
       (∀ r ∈ rs', CaseAgrees V.C (r.seen V.C) f ∧ (ends = true → EndsAgree V.C (r.seen V.C) f)) →
        ∃ (found : List LdifRecord) (owners : List ι), found.Nodup ∧
          (∀ r, r ∈ found ↔ r ∈ rs' ∧ TextInScope V.C scope b r.dn ∧ Sat V.C (fun _ _ => False) (r.seen V.C) f) ∧
          owners.length ≤ found.length ∧
          ∀ id cn mid ctl' o resps before' between,
            AnsweredIn log id cn (wMsgC mid (wSearch b scope 0 w attrs) [ctl']) o resps before' between →
            (PageOf V (wMsgC mid (wSearch b scope 0 w attrs) [ctl']) resps key →
              Matched (SentFor V.C attrs) (share owners found id) (entriesOf resps) ∧
              (GivesCookie resps [] → .seen (.gaveUp first) ∉ log → owners.length = found.length)) ∧
            ((∃ n, V.control ctl' = .ok (.paging n key)) → EndsWith resps rcUnwillingToPerform → .seen (.cookie first key) ∈ before' →
              (∀ id' cn' p' o', .seen (.io (.arrive id' (.packet cn' p' o'))) ∈ log → ∀ q ∈ controlsOf p', V.control q ≠ .ok (.paging 0 key)) →
              .seen (.gaveUp first) ∉ log → owners.length = found.length)) := by
  obtain ⟨-, -, d0, recs0, m', conf', hb', -⟩ := launch_ldif hh h hbn
  have I := fruns_inv hL hcwd hh h hbn hbk hr hlat
  rw [hbk] at hb'
  cases hb'
  have hreach := fruns_reach hr
  obtain ⟨A, R, htr, hA, hR⟩ := seen_index hr (e := .io (.arrive first (.packet cn₀ (wMsgC mid₀ (wSearch b scope 0 w attrs) [ctl]) o₀))) rfl harr
  have hk : l.par.trace[A.length]? = some (.io (.arrive first (.packet cn₀ (wMsgC mid₀ (wSearch b scope 0 w attrs) [ctl]) o₀))) := by rw [htr]; simp
  have hcount : ((cookiesIn l.par.trace).map (·.2)).count key ≤ 1 := by
    have e : (cookiesIn l.par.trace).map (·.2) = (log.filterMap fun e => match e with | .seen (.cookie _ k) => some k | _ => none).reverse := by
      have e1 : cookiesIn (l.par.trace.filter LSeen.plain) = cookiesIn l.par.trace := by
        unfold cookiesIn
        rw [List.filterMap_filter]
        congr 1
        funext e
        cases e <;> rfl
      rw [← e1, fruns_seen hr]
      unfold cookiesIn seenOf
      rw [List.filterMap_reverse, List.map_reverse, List.filterMap_filterMap, List.map_filterMap]
      congr 1
      congr 1
      funext e
      cases e with
      | seen x => cases x <;> rfl
      | conf d => rfl
      | main d => rfl
    rw [e, List.count_reverse]
    exact honce
  obtain ⟨bound, t, w1, w2, w3, w4⟩ := C86_whole hreach key hkey hcount b scope w attrs hk ((plain_mem hr rfl).2 hmade)
  have hlb : LastBind V.C cn₀ (iosOf before) bound := by
    rw [iosOf_seenOf, ← hA, ios_plain]
    have : l.par.trace.take A.length = A := by rw [htr]; simp
    rwa [this] at w1
  obtain ⟨pos, p1, p2⟩ := I.past
  obtain ⟨q1, q2, rs', cs', dir', k1, ⟨recs, k2, k3⟩, k4, k5⟩ := p2 t w3
  have s1 : .seen (.io (.arrive first (.packet cn₀ (wMsgC mid₀ (wSearch b scope 0 w attrs) [ctl]) o₀))) :: before <:+ pos t := by
    have hs : .seen (.io (.arrive first (.packet cn₀ (wMsgC mid₀ (wSearch b scope 0 w attrs) [ctl]) o₀))) :: before <:+ log := ⟨after, harr.symm⟩
    have lenL : (seenOf before).length + 1 ≤ (seenOf (pos t)).length := by
      rw [← q2, ← hA]
      obtain ⟨j, rfl⟩ : ∃ j, t = A.length + 1 + j := ⟨t - A.length - 1, by omega⟩
      rw [htr, List.take_append, List.take_of_length_le (by omega), show A.length + 1 + j - A.length = j + 1 from by omega, List.take_succ_cons,
        List.filter_append, List.filter_cons, if_pos (show LSeen.plain _ = true from rfl)]
      simp
    rcases List.suffix_or_suffix_of_suffix hs q1 with h | h
    · exact h
    · rcases List.suffix_cons_iff.1 h with h | h
      · rw [h]; exact List.suffix_refl _
      · have := seenOf_le h
        omega
  obtain ⟨z, hz⟩ := s1
  obtain ⟨x, hx⟩ := q1
  have hafter : after = x ++ z := by
    rw [← hz, ← List.append_assoc, harr] at hx
    exact (List.append_cancel_right hx).symm
  refine ⟨x, z, rs', cs', dir', hafter, by rw [hz]; exact k1, fun hdn hagree => ?_⟩
  let st : LdifSt := ⟨mainAt m (l.par.trace.take t), confAt c (l.par.trace.take t), [], fun _ => [], fun _ => none, 0, fun _ => true, 0⟩
  have hS : Serving V W H env flags (askedCfg V.C env flags (loop cn₀) base) s rs' cs' dir ⟨l.fn, l.confFn, l.dir, st⟩ :=
    ⟨I.fn, I.confFn, ⟨recs, [], .start _ _ _ _ _ _ k2, k3⟩, k4, k5, I.inc⟩
  obtain ⟨found, sent, j1, j2, j3, j4⟩ := serving_search hC hW hL hS bound (hread bound hlb) b nb hb hbase scope hs hroot hdn f w hw hfo h1 hsup ends hlost
    hagree attrs hrep o₀ 0
  obtain ⟨owners, v1, v2⟩ := w4 sent 0 o₀ st rfl (congrArg Out.resps j4)
  have hlen := matched_length j3
  refine ⟨found, owners, j1, j2, by omega, ?_⟩
  intro id cn mid ctl' o resps before' between ha
  obtain ⟨after', hlog'⟩ := ha
  obtain ⟨B, S, htr', hB, hS'⟩ := seen_index hr (e := .io (.answer id resps)) rfl hlog'
  rw [seenOf_append, seenOf_cons_seen, List.append_assoc] at hB
  obtain ⟨T1, R1, e1, f1, hB⟩ := List.filter_eq_append_iff.1 hB
  obtain ⟨N1, R2, e2, f2, -, hB⟩ := List.filter_eq_cons_iff.1 (show R1.filter LSeen.plain = LSeen.io (.arrive id (.packet cn
    (wMsgC mid (wSearch b scope 0 w attrs) [ctl']) o)) :: seenOf between from hB)
  have hB1 : (T1 ++ N1).filter LSeen.plain = seenOf before' := by rw [List.filter_append, f1, List.filter_eq_nil_iff.2 f2, List.append_nil]
  have htr2 : l.par.trace = (T1 ++ N1) ++ .io (.arrive id (.packet cn (wMsgC mid (wSearch b scope 0 w attrs) [ctl']) o)) ::
      (R2 ++ .io (.answer id resps) :: S) := by
    rw [htr', e1, e2]
    simp
  generalize T1 ++ N1 = A' at *
  have hk' : l.par.trace[A'.length]? = some (.io (.arrive id (.packet cn (wMsgC mid (wSearch b scope 0 w attrs) [ctl']) o))) := by rw [htr2]; simp
  have hn' : l.par.trace[B.length]? = some (.io (.answer id resps)) := by rw [htr']; simp
  obtain ⟨y1, y2⟩ := v2 A'.length B.length id cn mid ctl' o resps hk' hn'
  refine ⟨fun hp => ?_, fun hc he hm hab hg => ?_⟩
  · obtain ⟨z1, z2⟩ := y1 hp
    refine ⟨by rw [z1]; exact share_matched id j3 owners, fun hgc hg => ?_⟩
    rw [hlen]
    exact z2 hgc fun hm => hg ((plain_mem hr rfl).1 hm)
  · rw [hlen]
    refine y2 hc he ?_ ?_ fun hm => hg ((plain_mem hr rfl).1 hm)
    · have : l.par.trace.take A'.length = A' := by rw [htr2]; simp
      rw [this]
      have : LSeen.cookie first key ∈ A'.filter LSeen.plain := by rw [hB1]; exact mem_seenOf.2 hm
      exact (List.mem_filter.1 this).1
    · rintro ⟨id', cn', p', o', g1, q, g2, g3⟩
      exact hab id' cn' p' o' ((plain_mem hr rfl).1 (List.mem_of_mem_take g1)) q g2 g3

end
end

/-! ## An example -/

/-- Pages of size 1 of a search for `(cn=robert)`. -/
def rpPage (cookie : Str) : Packet := wMsgC 7 (wSearch b!"dc=lg" 2 0 (wEq b!"cn" b!"robert") [b!"cn"]) [wSeq [berInt 1, octet cookie]]

def rpPage1 : List Resp := [.entry 7 ⟨b!"uid=bob,dc=lg", [⟨b!"cn", [b!"Bob", b!"Robert"]⟩]⟩, .searchDone 7 0 (some [.paging 0 b!"abcdefghijk"])]
def rpPage2 : List Resp := [.searchDone 7 0 (some [.paging 0 []])]
def rpPage3 : List Resp := [.searchDone 7 53 (some [])]

/-- The first page is requested and sent; SIGHUP: the main file is there without Bob; another client asks for the next page, the producer ends, that client is
told that there are no more pages; a third one presents the cookie again and is refused. -/
def rpPageMoves : List FMove := [.arrive 1 1 toyOracle (rpPage []), .cookie 1 1, .on (.go 1), .on (.go 1), .answer 1 1 rpPage1,
  .conf (rlDisk (some rpText) (some rlConf)), .main (rlDisk (some rpText) (some rlConf)),
  .arrive 2 2 toyOracle (rpPage b!"abcdefghijk"), .on (.go 2), .on (.produce 0), .on (.produce 0), .on (.produce 0), .on (.go 2), .answer 2 2 rpPage2,
  .arrive 3 3 toyOracle (rpPage b!"abcdefghijk"), .on (.go 3), .answer 3 3 rpPage3]

/-- What is seen. -/
def rpPageLog : List (FSeen Nat) := [.seen (.io (.answer 3 rpPage3)), .seen (.io (.arrive 3 (.packet 3 (rpPage b!"abcdefghijk") toyOracle))),
  .seen (.io (.answer 2 rpPage2)), .seen (.io (.arrive 2 (.packet 2 (rpPage b!"abcdefghijk") toyOracle))),
  .main (rlDisk (some rpText) (some rlConf)), .conf (rlDisk (some rpText) (some rlConf)),
  .seen (.io (.answer 1 rpPage1)), .seen (.cookie 1 b!"abcdefghijk"), .seen (.io (.arrive 1 (.packet 1 (rpPage []) toyOracle)))]

theorem rpPage_runs : ∃ s cfg m c l, launch ldEnv rlHost true (fun _ => []) rlFlags = .serves s ∧ s.backend = .ldif cfg m c ∧
    FRuns ldEnv ldOrd rlHost cfg s (fun _ => true) m c rpPageLog l := rpRun_runs (ms := rpPageMoves) (by decide +kernel)

theorem rpPage_counts : Counts (ι := Nat) asciiCase rlHost (fun _ => []) rlFlags rpPageLog rpRecords rlConfRecords b!"/srv/d" := by
  refine .seen _ _ _ _ _ (.seen _ _ _ _ _ (.seen _ _ _ _ _ (.seen _ _ _ _ _ ?_)))
  refine .mainGood _ svRecords _ _ b!"/srv/d" _ _ ?_ (rp_main _) (by unfold Distinct; decide) (rl_include _ _)
  refine .confGood _ _ rlConfRecords _ _ _ ?_ (rl_conf _ _) (by unfold Distinct; decide)
  exact .seen _ _ _ _ _ (.seen _ _ _ _ _ (.seen _ _ _ _ _ rp_counts_start))

/-- C107 applies to the three requests; whatever moment it is, the records that counted meet the conditions; the first answer is a page, the second is
the last page, the third is a refusal; so all the records that the search has to find went to one of the requests. -/
example (s : Started) (h : launch ldEnv rlHost true (fun _ => []) rlFlags = .serves s) {cfg : LdifCfg} {m c : LMem} (hb : s.backend = .ldif cfg m c)
    {l : FLive Nat} (hr : FRuns ldEnv ldOrd rlHost cfg s (fun _ => true) m c rpPageLog l) :
    ∃ (rs' found : List LdifRecord) (owners : List Nat), (rs' = svRecords ∨ rs' = rpRecords) ∧ found.Nodup ∧
      (∀ r, r ∈ found ↔ r ∈ rs' ∧ TextInScope asciiCase 2 b!"dc=lg" r.dn ∧ Sat asciiCase (fun _ _ => False) (r.seen asciiCase) (.eq b!"cn" b!"robert")) ∧
      owners.length = found.length ∧
      Matched (SentFor asciiCase [b!"cn"]) (share owners found 1) [⟨b!"uid=bob,dc=lg", [⟨b!"cn", [b!"Bob", b!"Robert"]⟩]⟩] := by
  obtain ⟨later, earlier, rs', cs', dir', e, hc, k⟩ := C107_pages_partial (V := ldEnv) asciiCase_lawful ldOrd_lawful (H := rlHost) goLdif_lawful (by decide)
    (by decide +kernel) s h [[⟨b!"DC", b!"lg"⟩]] (by decide +kernel) hb hr rpPage_counts
    b!"dc=lg" [[⟨b!"dc", b!"lg"⟩]] (by decide +kernel) (by decide +kernel) 2 (by omega) (by decide) (.eq b!"cn" b!"robert") _ (wEq_wire _ _)
    (by decide +kernel : AttrText b!"cn") trivial trivial false (by decide +kernel) [b!"cn"] (by decide +kernel)
    b!"abcdefghijk" (by decide) (by decide +kernel) 1 1 7 (wSeq [berInt 1, octet []]) toyOracle (rpPageLog.take 8) [] rfl (by simp [rpPageLog])
    (fun bound hl => Or.inl ⟨rp_lastBind (seen := []) (by simp) hl, by decide +kernel, rfl⟩)
  have hrs : rs' = svRecords ∨ rs' = rpRecords := rp_only hc (by
    intro d hd
    have : FSeen.main d ∈ rpPageLog := by
      have h1 : rpPageLog = rpPageLog.take 8 ++ rpPageLog.drop 8 := rfl
      rw [h1, e]
      simp only [List.mem_append, List.mem_cons] at hd ⊢
      rcases hd with hd | hd | hd
      · exact .inl (.inr hd)
      · cases hd
      · cases hd
    simpa [rpPageLog] using this)
  obtain ⟨found, owners, g1, g2, -, g4⟩ := k (by
    rcases hrs with rfl | rfl
    · exact sv_plain
    · simp only [rpRecords, List.forall_mem_cons, List.not_mem_nil, false_implies, implies_true, and_true]
      exact C39_plain_names asciiCase_lawful (nb := [⟨b!"dc", b!"lg"⟩]) (ns := [⟨b!"dc", b!"lg"⟩]) (by decide +kernel) (by simp) (by decide +kernel)
        (by decide +kernel) 2 (by decide +kernel)) (fun r _ => ⟨ascii_agrees _ _, fun h => by cases h⟩)
  have hg : FSeen.seen (.gaveUp 1) ∉ rpPageLog := by simp [rpPageLog]
  obtain ⟨p1, -⟩ := (g4 1 1 7 (wSeq [berInt 1, octet []]) toyOracle rpPage1 [] [.seen (.cookie 1 b!"abcdefghijk")] ⟨rpPageLog.take 6, rfl⟩).1
    (.inl ⟨7, 0, [.paging 0 b!"abcdefghijk"], by simp [rpPage1], by simp⟩)
  obtain ⟨-, p2⟩ := (g4 2 2 7 (wSeq [berInt 1, octet b!"abcdefghijk"]) toyOracle rpPage2 (rpPageLog.drop 4) [] ⟨rpPageLog.take 2, rfl⟩).1
    (.inr ⟨⟨7, 0, [.paging 0 []], by simp [rpPage2], by simp⟩, ⟨_, List.mem_singleton.2 rfl, 1, rfl⟩, by
      rintro key' ⟨q, hq, n, hn⟩
      have : q = wSeq [berInt 1, octet b!"abcdefghijk"] := List.mem_singleton.1 hq
      subst this
      cases hn
      rfl⟩)
  exact ⟨rs', found, owners, hrs, g1, g2, p2 ⟨7, 0, [.paging 0 []], by simp [rpPage2], by simp⟩ hg, p1⟩

/-- The third request meets the conditions of the part about refusals. -/
example : (∃ n, ldEnv.control (wSeq [berInt 1, octet b!"abcdefghijk"]) = .ok (.paging n b!"abcdefghijk")) ∧ EndsWith rpPage3 rcUnwillingToPerform ∧
    AnsweredIn rpPageLog 3 3 (rpPage b!"abcdefghijk") toyOracle rpPage3 (rpPageLog.drop 2) [] ∧ .seen (.cookie 1 b!"abcdefghijk") ∈ rpPageLog.drop 2 ∧
    ∀ id' cn' p' o', .seen (.io (.arrive id' (.packet cn' p' o'))) ∈ rpPageLog → ∀ q ∈ controlsOf p', ldEnv.control q ≠ .ok (.paging 0 b!"abcdefghijk") := by
  refine ⟨⟨1, rfl⟩, ⟨7, some [], by simp [rpPage3, rcUnwillingToPerform]⟩, ⟨[], rfl⟩, by simp [rpPageLog], ?_⟩
  intro id' cn' p' o' hm q hq hc
  have : p' = rpPage [] ∨ p' = rpPage b!"abcdefghijk" := by
    simp only [rpPageLog, List.mem_cons, FSeen.seen.injEq, LSeen.io.injEq, Seen.arrive.injEq, Ev.packet.injEq, reduceCtorEq, false_or, or_false,
      List.not_mem_nil] at hm
    rcases hm with ⟨-, -, h, -⟩ | ⟨-, -, h, -⟩ | ⟨-, -, h, -⟩
    · exact .inr h
    · exact .inr h
    · exact .inl h
  rcases this with rfl | rfl
  · have : q = wSeq [berInt 1, octet []] := List.mem_singleton.1 hq
    subst this
    cases hc
  · have : q = wSeq [berInt 1, octet b!"abcdefghijk"] := List.mem_singleton.1 hq
    subst this
    cases hc

end Idm
