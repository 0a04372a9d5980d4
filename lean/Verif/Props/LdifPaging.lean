import Verif.Proofs.LdifPaging
/-!
# C41, C42: paged searches on the LDIF server
-/
namespace Idm

section
variable {V : Env} {W : WalkOrd} {cfg : LdifCfg} {g : Nat} {stats : Bool}

/-- The request parsed from a search without size limit. -/
abbrev rqOf (b : Str) (scope : Nat) (s : Str) (attrs : List Str) (cs : List Control) : SearchReq :=
  ⟨b, scope, (0 : Nat), (0 : Nat), (0 : Nat), false, s, attrs, cs⟩

theorem fine_rq {C : CaseEnv} {fp : Packet} {b : Str} {scope : Nat} {s : Str} {attrs : List Str} {cs : List Control} (cs' : List Control) {x : LEntry}
    (h : Fine C fp (rqOf b scope s attrs cs) x) : Fine C fp (rqOf b scope s attrs cs') x := h

theorem ldifOut_shape {id : Int} {bound : Str} {x : Res SearchRes × LdifSt} {es : List Entry} {cs : List Control}
    (h : (ldifOut id bound x).resps = es.map (.entry id) ++ [.searchDone id 0 (some cs)]) :
    (∃ sr, x.1 = .ok sr ∧ sr.err = false ∧ sr.entries = es ∧ sr.controls = cs) ∨ (∃ sr, x.1 = .ok sr ∧ sr.err = true ∧ sr.code = 0) := by
  obtain ⟨r, st⟩ := x
  cases r with
  | ok sr =>
    unfold ldifOut at h
    dsimp only at h
    split at h
    · rename_i he
      refine Or.inr ⟨sr, rfl, he, ?_⟩
      have := congrArg List.getLast? h
      simpa using (by simpa using this : sr.code = 0 ∧ _).1
    · rename_i he
      dsimp only at h
      obtain ⟨h1, h2⟩ := List.append_inj' h rfl
      have hinj : ∀ a b : Entry, Resp.entry id a = Resp.entry id b → a = b := fun a b h => by cases h; rfl
      refine Or.inl ⟨sr, rfl, by simpa using he, (List.map_inj_right fun {a b} h => hinj a b h).1 h1, by simpa using h2⟩
  | err e => simp [ldifOut] at h
  | panic => simp [ldifOut] at h
  | hang => simp [ldifOut] at h

/-- What is known of a search that succeeds without paging. -/
theorem unpaged_ok {o : Oracle} {id : Int} {b : Str} {scope : Nat} {w : Packet} {attrs : List Str} {bound : Str} {st : LdifSt} {full : List Entry}
    (h : (handlePacket V (ldifSrv V W cfg g stats) o (wMsg id (wSearch b scope 0 w attrs)) bound st).resps =
      full.map (.entry id) ++ [.searchDone id 0 (some [])]) :
    ∃ s fs fp, decompile w = some s ∧ indexFilter V.C s = .ok fs ∧ compile s = some fp ∧ hasSuffix (V.C.lower b) cfg.base = true ∧
      (∀ x ∈ pump V.C W st.main (V.C.lower b) fs, Fine V.C fp (rqOf b scope s attrs []) x) ∧
      full = sent V.C fp (rqOf b scope s attrs []) (pump V.C W st.main (V.C.lower b) fs) := by
  rw [wSearch_packet, ldif_stepSearch, wSearch_parse] at h
  rcases Option.eq_none_or_eq_some (decompile w) with hd | ⟨s, hd⟩
  · rw [hd] at h
    have := congrArg List.getLast? h
    simp at this
  rw [hd] at h
  dsimp only [Option.map_some] at h
  have hsh := ldifOut_shape h
  have hx : ∀ x, x = (ldifSearch V W cfg bound (rqOf b scope s attrs []) st).1 → (∃ sr, x = Res.ok sr ∧ sr.err = false ∧ sr.entries = full) ∨
      (∃ sr, x = Res.ok sr ∧ sr.err = true ∧ sr.code = 0) := by
    rintro x rfl
    rcases hsh with ⟨sr, h1, h2, h3, -⟩ | h
    · exact Or.inl ⟨sr, h1, h2, h3⟩
    · exact Or.inr h
  have bad : ∀ x : Res SearchRes, (∀ sr, x = .ok sr → sr.err = true ∧ sr.code ≠ 0) → ¬ ((∃ sr, x = Res.ok sr ∧ sr.err = false ∧ sr.entries = full) ∨
      (∃ sr, x = Res.ok sr ∧ sr.err = true ∧ sr.code = 0)) := by
    rintro x hb (⟨sr, h1, h2, -⟩ | ⟨sr, h1, -, h2⟩)
    · have := (hb sr h1).1; rw [h2] at this; cases this
    · exact (hb sr h1).2 h2
  have hx := hx _ rfl
  have hpg : pagingOf (rqOf b scope s attrs []) = none := rfl
  unfold ldifSearch at hx
  dsimp only at hx
  by_cases hv : ldifValidDN cfg (V.C.lower bound) = true
  · rw [if_neg (by simp [hv])] at hx
    cases hi : indexFilter V.C s with
    | err e => rw [hi] at hx; exact absurd hx (bad _ (fun sr h => by cases h))
    | panic => rw [hi] at hx; exact absurd hx (bad _ (fun sr h => by cases h))
    | hang => rw [hi] at hx; exact absurd hx (bad _ (fun sr h => by cases h))
    | ok fs =>
      rw [hi] at hx
      dsimp only at hx
      by_cases hb : hasSuffix (V.C.lower b) cfg.base = true
      · rw [if_neg (by simp [hb]), hpg] at hx
        simp only [pageSource] at hx
        rcases Option.eq_none_or_eq_some (compile s) with hc | ⟨fp, hc⟩
        · rw [hc] at hx; exact absurd hx (bad _ (fun sr h => by cases h; exact ⟨rfl, by decide⟩))
        · rw [hc] at hx
          simp only [Option.map_none] at hx
          refine ⟨s, fs, fp, hd, hi, hc, hb, ?_⟩
          cases hs : searchPage V fp (rqOf b scope s attrs []) none 0 (pump V.C W st.main (V.C.lower b) fs) with
          | err e => rw [hs] at hx; exact absurd hx (bad _ (fun sr h => by cases h))
          | panic => rw [hs] at hx; exact absurd hx (bad _ (fun sr h => by cases h))
          | hang => rw [hs] at hx; exact absurd hx (bad _ (fun sr h => by cases h))
          | ok p =>
            rw [hs] at hx
            dsimp only at hx
            by_cases hcode : p.code ≠ rcSuccess
            · rw [if_pos hcode] at hx
              exact absurd hx (bad _ (fun sr h => by cases h; exact ⟨rfl, hcode⟩))
            · rw [if_neg hcode] at hx
              rw [Classical.not_not] at hcode
              have hl : (rqOf b scope s attrs []).sizeLimit ≤ 0 := by show ((0 : Nat) : Int) ≤ 0; omega
              have hfine := searchPage_fine V fp (rqOf b scope s attrs []) hl _ 0 p hs hcode
              refine ⟨hfine, ?_⟩
              rw [searchPage_unlimited V fp (rqOf b scope s attrs []) hl _ 0 hfine] at hs
              cases hs
              rcases hx with ⟨sr, h1, -, h3⟩ | ⟨sr, h1, h2, -⟩
              · cases h1; exact h3.symm
              · cases h1; cases h2
      · rw [if_pos (by simpa using hb)] at hx
        exact absurd hx (bad _ (fun sr h => by cases h; exact ⟨rfl, by decide⟩))
  · rw [if_pos (by simpa using hv)] at hx
    exact absurd hx (bad _ (fun sr h => by cases h; exact ⟨rfl, by decide⟩))

/-- A request for a page, from a client that may not read. -/
theorem page_refused {n : Nat} {ctl : Str → Packet} {b : Str} {scope : Nat} {w : Packet}
    {attrs : List Str} {s : Str} (hd : decompile w = some s) (o : Oracle) (id : Int) (bound k : Str) (st : LdifSt)
    (hctl : V.control (ctl k) = .ok (.paging n k)) (hv : ¬ ldifValidDN cfg (V.C.lower bound) = true) :
    handlePacket V (ldifSrv V W cfg g stats) o (wMsgC id (wSearch b scope 0 w attrs) [ctl k]) bound st =
      ⟨[.searchDone id 50 (some [])], .closed, st⟩ := by
  rw [wSearchC_packet]
  rw [show decodeControls V [ctl k] = .ok [.paging n k] by rw [decodeControls, hctl]; rfl]
  dsimp only
  rw [ldif_stepSearch, wSearch_parse, hd]
  simp [ldifSearch, hv, ldifOut, rcInsufficientAccessRights]

/-- A request for a page, as the source of the entries is. -/
theorem page_answer {n : Nat} (hn : 0 < n) {ctl : Str → Packet} {b : Str} {scope : Nat} {w : Packet}
    {attrs : List Str} {s : Str} {fs : List IdxReq} {fp : Packet} (hd : decompile w = some s) (hi : indexFilter V.C s = .ok fs)
    (hc : compile s = some fp) (hb : hasSuffix (V.C.lower b) cfg.base = true) (o : Oracle) (id : Int) (bound k : Str) (st : LdifSt)
    (hctl : V.control (ctl k) = .ok (.paging n k)) (hv : ldifValidDN cfg (V.C.lower bound) = true) :
    let out := handlePacket V (ldifSrv V W cfg g stats) o (wMsgC id (wSearch b scope 0 w attrs) [ctl k]) bound st
    (∀ k1 st', pageSource V W (V.C.lower b) fs (some (n, k)) st = (.unknown, k1, st') → out = ⟨[.searchDone id 53 (some [])], .closed, st'⟩) ∧
    (∀ l k1 st', pageSource V W (V.C.lower b) fs (some (n, k)) st = (.from_ l, k1, st') → (∀ x ∈ l, Fine V.C fp (rqOf b scope s attrs []) x) →
      ∃ pre rest eof, l = pre ++ rest ∧ out = ⟨pageAnswer id (sent V.C fp (rqOf b scope s attrs []) pre) (if eof then [] else k1), .go bound,
          { st' with pagings := (if eof then [] else [(k1, rest)]) ++ dropCookie k1 st'.pagings }⟩ ∧
        (eof = false → (sent V.C fp (rqOf b scope s attrs []) pre).length = n) ∧
        (eof = true → rest = [] ∧ (sent V.C fp (rqOf b scope s attrs []) pre).length < n)) := by
  intro out
  have hpg : pagingOf (rqOf b scope s attrs [.paging n k]) = some (n, k) := by simp [pagingOf, rqOf]
  have ho : out = ldifOut id bound (ldifSearch V W cfg bound (rqOf b scope s attrs [.paging n k]) st) := by
    show handlePacket V _ o _ bound st = _
    rw [wSearchC_packet]
    rw [show decodeControls V [ctl k] = .ok [.paging n k] by rw [decodeControls, hctl]; rfl]
    dsimp only
    rw [ldif_stepSearch, wSearch_parse, hd]
    rfl
  unfold ldifSearch at ho
  dsimp only at ho
  rw [if_neg (by simp [hv]), hi] at ho
  dsimp only at ho
  rw [if_neg (by simp [hb]), hpg] at ho
  constructor
  · intro k1 st' hps
    rw [hps] at ho
    dsimp only at ho
    rw [ho]
    simp [ldifOut, rcUnwillingToPerform]
  · intro l k1 st' hps hfine
    rw [hps] at ho
    dsimp only at ho
    rw [hc] at ho
    dsimp only at ho
    obtain ⟨pre, rest, eof, e1, e2, e3, e4⟩ := searchPage_paged V fp (rqOf b scope s attrs [.paging n k]) (by show ((0 : Nat) : Int) ≤ 0; omega) n l 0 hn
      (fun x hx => fine_rq _ (hfine x hx))
    simp only [Option.map_some] at ho
    rw [e2] at ho
    refine ⟨pre, rest, eof, e1, ?_, fun h => e3 h, fun h => ⟨(e4 h).1, (e4 h).2⟩⟩
    rw [ho]
    simp [ldifOut, pageAnswer]
    rfl

theorem pageAnswer_inj {id : Int} {es es' : List Entry} {k k' : Str} (h : pageAnswer id es k = pageAnswer id es' k') : es = es' ∧ k = k' := by
  obtain ⟨h1, h2⟩ := List.append_inj' h rfl
  have hinj : ∀ a b : Entry, Resp.entry id a = Resp.entry id b → a = b := fun a b h => by cases h; rfl
  exact ⟨(List.map_inj_right fun {a b} h => hinj a b h).1 h1, by simpa using h2⟩

theorem pageAnswer_done {id : Int} {es : List Entry} {k : Str} {code : Nat} {cs : Option (List Control)}
    (h : [Resp.searchDone id code cs] = pageAnswer id es k) : code = 0 := by
  have := congrArg List.getLast? h
  simpa [pageAnswer] using (by simpa [pageAnswer] using this : code = 0 ∧ _).1

theorem meanwhile_keeps {k : Str} {st st' : LdifSt} (h : Meanwhile V W cfg g stats k st st') (cookie : Nat → Str) (i : Nat)
    (hinj : ∀ i j, cookie i = cookie j → i = j) (hk : k = cookie i) (hc : st.cookie = cookie) (hi : i < st.nCookie) :
    left k st'.pagings = left k st.pagings ∧ st'.cookie = cookie ∧ i < st'.nCookie := by
  induction h with
  | nothing => exact ⟨rfl, hc, hi⟩
  | packet st' o p bound lo _ hp ih =>
    obtain ⟨h1, h2, h3⟩ := ih
    have := packet_other (V := V) (W := W) (cfg := { cfg with loopback := lo }) (g := g) (stats := stats) o p bound st' k hp
      (fun e => by rw [h2, hk] at e; have := hinj _ _ e; omega)
    exact ⟨this.1.trans h1, this.2.1.trans h2, Nat.lt_of_lt_of_le h3 this.2.2⟩
  | reload st' m _ ih => exact ih
  | conf st' m _ ih => exact ih

/-- A request with a cookie. -/
theorem pageSource_next {n : Nat} (hn : 0 < n) {k : Str} (hk : k ≠ []) {st : LdifSt} {rest : List LEntry} (hl : left k st.pagings = some rest)
    (base : Str) (fs : List IdxReq) :
    (rest = [] ∧ ∃ st', pageSource V W base fs (some (n, k)) st = (.unknown, k, st')) ∨
    ∃ st', pageSource V W base fs (some (n, k)) st = (.from_ rest, k, st') ∧ st'.pagings = st.pagings ∧ st'.cookie = st.cookie ∧
      st'.nCookie = st.nCookie := by
  obtain ⟨q, hq, rfl⟩ := Option.map_eq_some_iff.1 hl
  obtain ⟨k0, rest⟩ := q
  cases k with
  | nil => exact absurd rfl hk
  | cons c cs =>
    simp only [pageSource, hq]
    by_cases h1 : rest = [] ∧ st.inTime st.nLate = false
    · exact Or.inl ⟨h1.1, by simp [h1]⟩
    · rw [if_neg h1, if_pos hn]
      refine Or.inr ⟨_, rfl, ?_⟩
      split <;> exact ⟨rfl, rfl, rfl⟩

/-- What a client in the middle of a paged search has, and what the server keeps for it. -/
theorem pages_inv {n : Nat} (hn : 0 < n) {ctl : Str → Packet} {st0 : LdifSt}
    (hctl : ∀ k, (k = [] ∨ ∃ i, k = st0.cookie i) → V.control (ctl k) = .ok (.paging n k)) {b : Str} {scope : Nat} {w : Packet}
    {attrs : List Str} {s : Str} {fs : List IdxReq} {fp : Packet} (hd : decompile w = some s) (hi : indexFilter V.C s = .ok fs)
    (hc : compile s = some fp) (hb : hasSuffix (V.C.lower b) cfg.base = true)
    (hinj : ∀ i j, st0.cookie i = st0.cookie j → i = j) (hne : ∀ i, st0.cookie i ≠ [])
    (hfine : ∀ x ∈ cutTo (st0.cut st0.nCookie) (pump V.C W st0.main (V.C.lower b) fs), Fine V.C fp (rqOf b scope s attrs []) x)
    {st : LdifSt} {pages : List (List Entry)} {k : Str} (h : PagesGot V W cfg g stats (wSearch b scope 0 w attrs) ctl st0 st pages k) :
    ∃ pre rest, cutTo (st0.cut st0.nCookie) (pump V.C W st0.main (V.C.lower b) fs) = pre ++ rest ∧
      pages.flatten = sent V.C fp (rqOf b scope s attrs []) pre ∧ st.cookie = st0.cookie ∧ st0.nCookie < st.nCookie ∧
      (k = [] → rest = []) ∧ (k ≠ [] → k = st0.cookie st0.nCookie ∧ left k st.pagings = some rest) ∧
      (if k = [] then pages.dropLast else pages).all (fun p => p.length = n) = true ∧ ∀ p ∈ pages, p.length ≤ n := by
  induction h with
  | first o id bound lo es k hr =>
    by_cases hv : ldifValidDN { cfg with loopback := lo } (V.C.lower bound) = true
    · have ha := (page_answer (V := V) (W := W) (cfg := { cfg with loopback := lo }) (g := g) (stats := stats) hn (attrs := attrs) (scope := scope) hd hi
        hc hb o id bound [] st0 (hctl _ (Or.inl rfl)) hv).2 _ _ _ rfl hfine
      obtain ⟨pre, rest, eof, e1, e2, e3, e4⟩ := ha
      have hr' := hr
      unfold ldifSrvAt at hr ⊢
      rw [e2] at hr ⊢
      obtain ⟨rfl, rfl⟩ := pageAnswer_inj hr
      have hlen : (sent V.C fp (rqOf b scope s attrs []) pre).length ≤ n := by
        cases eof with
        | false => exact Nat.le_of_eq (e3 rfl)
        | true => exact Nat.le_of_lt (e4 rfl).2
      refine ⟨pre, rest, e1, by simp, rfl, Nat.lt_succ_self _, ?_, ?_, ?_, by simpa using hlen⟩
      · cases eof with
        | false => exact fun h => absurd h (hne _)
        | true => exact fun _ => (e4 rfl).1
      · cases eof with
        | false => exact fun _ => ⟨rfl, by simp [left]⟩
        | true => simp
      · cases eof with
        | false =>
          have := e3 rfl
          split <;> simp [this]
        | true => simp
    · have := page_refused (V := V) (W := W) (cfg := { cfg with loopback := lo }) (g := g) (stats := stats) (attrs := attrs) (scope := scope) (b := b)
        hd o id bound [] st0 (hctl _ (Or.inl rfl)) hv
      unfold ldifSrvAt at hr
      rw [this] at hr
      exact absurd (pageAnswer_done hr) (by decide)
  | next st st' pages k o id bound lo es k' hp hk hm hr ih =>
    obtain ⟨pre, rest, i1, i2, i3, i4, i5, i6, i7, i8⟩ := ih
    obtain ⟨j1, j2⟩ := i6 hk
    obtain ⟨m1, m2, m3⟩ := meanwhile_keeps hm st0.cookie st0.nCookie hinj j1 i3 i4
    rw [j2] at m1
    have hs0 : sent V.C fp (rqOf b scope s attrs []) [] = [] := rfl
    by_cases hv : ldifValidDN { cfg with loopback := lo } (V.C.lower bound) = true
    · have ha := page_answer (V := V) (W := W) (cfg := { cfg with loopback := lo }) (g := g) (stats := stats) hn (attrs := attrs) (scope := scope) hd hi
        hc hb o id bound k st' (hctl _ (Or.inr ⟨_, j1⟩)) hv
      unfold ldifSrvAt at hr ⊢
      rcases pageSource_next (V := V) (W := W) hn hk m1 (V.C.lower b) fs with ⟨-, st'', hps⟩ | ⟨st'', hps, q1, q2, q3⟩
      · rw [ha.1 _ _ hps] at hr
        exact absurd (pageAnswer_done hr) (by decide)
      · obtain ⟨pre', rest', eof, e1, e2, e3, e4⟩ := ha.2 _ _ _ hps (fun x hx => hfine x (by rw [i1]; simp [hx]))
        rw [e2] at hr ⊢
        obtain ⟨rfl, rfl⟩ := pageAnswer_inj hr
        have hlen : (sent V.C fp (rqOf b scope s attrs []) pre').length ≤ n := by
          cases eof with
          | false => exact Nat.le_of_eq (e3 rfl)
          | true => exact Nat.le_of_lt (e4 rfl).2
        rw [if_neg hk] at i7
        refine ⟨pre ++ pre', rest', by rw [i1, e1, List.append_assoc], by simp [i2, sent_append], q2.trans m2, by rw [← q3] at m3; exact m3, ?_, ?_, ?_, ?_⟩
        · cases eof with
          | false => exact fun h => absurd h hk
          | true => exact fun _ => (e4 rfl).1
        · cases eof with
          | false => exact fun _ => ⟨j1, by simp [left]⟩
          | true => simp
        · cases eof with
          | false =>
            have := e3 rfl
            simp only [Bool.false_eq_true, if_false, if_neg hk]
            simp only [List.all_append, i7, List.all_cons, this]
            simp
          | true => simpa using i7
        · intro p hp
          rcases List.mem_append.1 hp with h | h
          · exact i8 p h
          · simp at h; rw [h]; exact hlen
    · have := page_refused (V := V) (W := W) (cfg := { cfg with loopback := lo }) (g := g) (stats := stats) (attrs := attrs) (scope := scope) (b := b)
        hd o id bound k st' (hctl _ (Or.inr ⟨_, j1⟩)) hv
      unfold ldifSrvAt at hr
      rw [this] at hr
      exact absurd (pageAnswer_done hr) (by decide)

theorem cutTo_prefix (c : Option Nat) (l : List LEntry) : cutTo c l <+: l := by
  cases c with
  | none => exact List.prefix_refl _
  | some n => exact List.take_prefix _ _

/-- C41: a client asks for a search page by page (`ctl` is its paging control, without cookie or with one of the server), from any reachable state, while other things happen and the data may be reloaded; the
random cookies are different from each other. Let `full` be what the same search would have answered without paging in the state it started
in. Then the pages are the beginning of `full`; every page but the last has `n` entries; when the last cookie was empty they are all of `full`,
unless the producer gave up (`cut`: see `C41_cut_fails`). (Missing: after all of `full` was sent in full pages, there is a cookie although
nothing is left, and the request with this cookie is refused, see `C41_last_page_fails`.) -/
theorem C41_pages_partial {n : Nat} (hn : 0 < n) {ctl : Str → Packet} {st0 : LdifSt}
    (hctl : ∀ k, (k = [] ∨ ∃ i, k = st0.cookie i) → V.control (ctl k) = .ok (.paging n k))
    (hinj : ∀ i j, st0.cookie i = st0.cookie j → i = j) (hne : ∀ i, st0.cookie i ≠ [])
    {b : Str} {scope : Nat} {w : Packet} {attrs : List Str} {o : Oracle} {id : Int} {bound : Str} {local_ : Bool} {full : List Entry}
    (hfull : (handlePacket V (ldifSrvAt V W cfg g stats local_) o (wMsg id (wSearch b scope 0 w attrs)) bound st0).resps =
      full.map (.entry id) ++ [.searchDone id 0 (some [])])
    {st : LdifSt} {pages : List (List Entry)} {k : Str} (h : PagesGot V W cfg g stats (wSearch b scope 0 w attrs) ctl st0 st pages k) :
    pages.flatten <+: full ∧ (k = [] → st0.cut st0.nCookie = none → pages.flatten = full) ∧
      (∀ p ∈ (if k = [] then pages.dropLast else pages), p.length = n) ∧ ∀ p ∈ pages, p.length ≤ n := by
  obtain ⟨s, fs, fp, hd, hi, hc, hb, hfine, rfl⟩ := unpaged_ok hfull
  have hpre := cutTo_prefix (st0.cut st0.nCookie) (pump V.C W st0.main (V.C.lower b) fs)
  obtain ⟨pre, rest, i1, i2, -, -, i5, -, i7, i8⟩ := pages_inv (cfg := cfg) (g := g) (stats := stats) hn hctl hd hi hc hb hinj hne (fun x hx => hfine x (hpre.subset hx)) h
  refine ⟨?_, fun hk hcut => ?_, by simpa using i7, i8⟩
  · obtain ⟨t, ht⟩ := hpre
    rw [i2, ← ht, i1, sent_append, sent_append, List.append_assoc]
    exact List.prefix_append _ _
  · rw [hcut, i5 hk, List.append_nil] at i1
    rw [i2, show pre = _ from i1.symm]
    rfl

/-- C41, C42: with the cookie, clients that may read get the next page, or they are refused (unwilling to perform, and the connection is
closed). They are refused only if they have all of `full` already, unless the producer gave up. -/
theorem C42_continue_partial {n : Nat} (hn : 0 < n) {ctl : Str → Packet} {st0 : LdifSt}
    (hctl : ∀ k, (k = [] ∨ ∃ i, k = st0.cookie i) → V.control (ctl k) = .ok (.paging n k))
    (hinj : ∀ i j, st0.cookie i = st0.cookie j → i = j) (hne : ∀ i, st0.cookie i ≠ [])
    {b : Str} {scope : Nat} {w : Packet} {attrs : List Str} {o : Oracle} {id : Int} {bound : Str} {local_ : Bool} {full : List Entry}
    (hfull : (handlePacket V (ldifSrvAt V W cfg g stats local_) o (wMsg id (wSearch b scope 0 w attrs)) bound st0).resps =
      full.map (.entry id) ++ [.searchDone id 0 (some [])])
    {st : LdifSt} {pages : List (List Entry)} {k : Str} (h : PagesGot V W cfg g stats (wSearch b scope 0 w attrs) ctl st0 st pages k)
    (hk : k ≠ []) {st' : LdifSt} (hm : Meanwhile V W cfg g stats k st st') (hC : V.C.Lawful) (bound' : Str) (local' : Bool)
    (hread : MayRead V.C { cfg with loopback := local' } bound') (o' : Oracle) (id' : Int) :
    let out := handlePacket V (ldifSrvAt V W cfg g stats local') o' (wMsgC id' (wSearch b scope 0 w attrs) [ctl k]) bound' st'
    (out.next = .go bound' ∧ ∃ es k', out.resps = pageAnswer id' es k') ∨
    (out.next = .closed ∧ out.resps = [.searchDone id' 53 (some [])] ∧ (st0.cut st0.nCookie = none → pages.flatten = full)) := by
  intro out
  obtain ⟨s, fs, fp, hd, hi, hc, hb, hfine, rfl⟩ := unpaged_ok hfull
  have hpre := cutTo_prefix (st0.cut st0.nCookie) (pump V.C W st0.main (V.C.lower b) fs)
  obtain ⟨pre, rest, i1, i2, i3, i4, i5, i6, -, -⟩ := pages_inv (cfg := cfg) (g := g) (stats := stats) hn hctl hd hi hc hb hinj hne (fun x hx => hfine x (hpre.subset hx)) h
  obtain ⟨j1, j2⟩ := i6 hk
  obtain ⟨m1, m2, m3⟩ := meanwhile_keeps hm st0.cookie st0.nCookie hinj j1 i3 i4
  rw [j2] at m1
  have hv : ldifValidDN { cfg with loopback := local' } (V.C.lower bound') = true := by
    unfold ldifValidDN
    rcases hread with ⟨rfl, h2, h3⟩ | ⟨h2, h3⟩
    · simp only [hC.lower_nil, if_pos]
      simpa using ⟨h2, h3⟩
    · simpa [h2] using h3
  have ha := page_answer (V := V) (W := W) (cfg := { cfg with loopback := local' }) (g := g) (stats := stats) hn (attrs := attrs) (scope := scope) hd hi
    hc hb o' id' bound' k st' (hctl _ (Or.inr ⟨_, j1⟩)) hv
  have hout : out = handlePacket V (ldifSrv V W { cfg with loopback := local' } g stats) o' (wMsgC id' (wSearch b scope 0 w attrs) [ctl k]) bound' st' := rfl
  rcases pageSource_next (V := V) (W := W) hn hk m1 (V.C.lower b) fs with ⟨hrest, st'', hps⟩ | ⟨st'', hps, q1, q2, q3⟩
  · rw [hout, ha.1 _ _ hps]
    refine Or.inr ⟨rfl, rfl, fun hcut => ?_⟩
    rw [hcut, hrest, List.append_nil] at i1
    rw [i2, show pre = _ from i1.symm]
    rfl
  · obtain ⟨pre', rest', eof, e1, e2, e3, e4⟩ := ha.2 _ _ _ hps (fun x hx => hfine x (hpre.subset (by rw [i1]; simp [hx])))
    rw [hout, e2]
    exact Or.inl ⟨rfl, _, _, rfl⟩

end

/-! ## Examples and counterexamples -/

/-- The paging control of the toy environment. -/
def ldCtl (n : Int) (k : Str) : Packet := wSeq [berInt n, octet k]

/-- The entries below `ou=People,dc=lg` that have a cn. -/
def ldFull : List Entry :=
  [⟨b!"uid=ann,ou=people,dc=lg", [⟨b!"cn", [b!"Ann Berg"]⟩]⟩, ⟨b!"uid=bob,ou=people,dc=lg", [⟨b!"cn", [b!"Bob Cole", b!"Berg"]⟩]⟩]

def ldSearchCn : Packet := wSearch b!"ou=People,dc=lg" 2 0 (ctxStr 7 b!"cn") [b!"cn"]

/-- A server like `ldStart`, with long cookies that are all different. -/
def ldLong (cut : Option Nat) (inTime : Bool) : LdifSt :=
  ⟨ldMem ldRecs, ldMem ldConfRecs, [], fun i => b!"c" ++ List.replicate i 48, fun _ => cut, 0, fun _ => inTime, 0⟩

theorem ldLong_cookies (cut : Option Nat) (t : Bool) : (∀ i j, (ldLong cut t).cookie i = (ldLong cut t).cookie j → i = j) ∧ ∀ i, (ldLong cut t).cookie i ≠ [] := by
  refine ⟨fun i j h => ?_, fun i h => ?_⟩
  · have := congrArg List.length h
    simp only [ldLong, List.length_append, List.length_replicate] at this
    omega
  · have := congrArg List.length h
    simp [ldLong] at this

theorem ldLong_full : (handlePacket ldEnv (ldifSrvAt ldEnv ldOrd ldCfg 8 false true) toyOracle (wMsg 7 ldSearchCn) [] (ldLong none false)).resps =
    ldFull.map (.entry 7) ++ [.searchDone 7 0 (some [])] := by decide +kernel

/-- A request for a page of the toy search. -/
def ldAsk (st : LdifSt) (n : Int) (k : Str) : Out LdifSt :=
  handlePacket ldEnv (ldifSrvAt ldEnv ldOrd ldCfg 8 false true) toyOracle (wMsgC 7 ldSearchCn [ldCtl n k]) [] st

/-- The state after the first page. The data is replaced by an empty file then. -/
def ldAfter : LdifSt := { (ldAsk (ldLong none false) 1 []).st with main := ldMem [] }

/-- Two pages of one entry each, with a reload in between. -/
theorem ld_pages : PagesGot ldEnv ldOrd ldCfg 8 false ldSearchCn (ldCtl 1) (ldLong none false) (ldAsk ldAfter 1 b!"c").st
    [ldFull.take 1, ldFull.drop 1] b!"c" :=
  .next (ldAsk (ldLong none false) 1 []).st _ _ _ toyOracle 7 [] true _ _ (.first toyOracle 7 [] true (ldFull.take 1) b!"c" (by decide +kernel))
    (by decide) (.reload _ _ _ (.nothing _)) (by decide +kernel)

/-- C41 applies to it. -/
example : [ldFull.take 1, ldFull.drop 1].flatten <+: ldFull :=
  (C41_pages_partial (V := ldEnv) (by decide) (fun _ _ => rfl) (ldLong_cookies none false).1 (ldLong_cookies none false).2 ldLong_full ld_pages).1

/-- C42 applies to it, for a client that is not the one that started the search. -/
example (o : Oracle) (id : Int) :
    let out := handlePacket ldEnv (ldifSrvAt ldEnv ldOrd ldCfg 8 false false) o (wMsgC id ldSearchCn [ldCtl 1 b!"c"]) b!"uid=ann,dc=lg" (ldAsk ldAfter 1 b!"c").st
    (out.next = .go b!"uid=ann,dc=lg" ∧ ∃ es k', out.resps = pageAnswer id es k') ∨
    (out.next = .closed ∧ out.resps = [.searchDone id 53 (some [])] ∧ ((ldLong none false).cut 0 = none → [ldFull.take 1, ldFull.drop 1].flatten = ldFull)) :=
  C42_continue_partial (V := ldEnv) (st0 := ldLong none false) (by decide) (fun _ _ => rfl) (ldLong_cookies none false).1 (ldLong_cookies none false).2
    ldLong_full ld_pages (by decide) (.nothing _) asciiCase_lawful b!"uid=ann,dc=lg" false (Or.inr ⟨by decide +kernel, by decide +kernel⟩) o id

/-- A page with room to spare ends the search with the empty cookie. -/
example : (ldAsk (ldLong none false) 3 []).resps = pageAnswer 7 ldFull [] := by decide +kernel

/-- C41 fails: a result that fills its pages. Both entries have been sent, in pages of one, and the client still has a cookie. Asking on, it
does not get an empty page with an empty cookie: the producer has ended, so that the cookie is unknown, the search fails and the connection is
closed. -/
theorem C41_last_page_fails : (ldAsk (ldAsk (ldAsk (ldLong none false) 1 []).st 1 b!"c").st 1 b!"c").resps = [.searchDone 7 53 (some [])] ∧
    (ldAsk (ldAsk (ldAsk (ldLong none false) 1 []).st 1 b!"c").st 1 b!"c").next = .closed := by decide +kernel

/-- C41 fails: a producer that gives up (at shutdown, or because a minute has passed when the page is asked for). The client gets success and
the empty cookie, although there is another entry. -/
theorem C41_cut_fails : (ldAsk (ldLong (some 1) true) 2 []).resps = pageAnswer 7 (ldFull.take 1) [] ∧
    pageAnswer 7 (ldFull.take 1) [] ≠ pageAnswer 7 ldFull [] := by decide +kernel

/-- C42 fails: abandoning a paged search. The request with the cookie and page size 0 is never answered. -/
theorem C42_abandon_fails : (ldAsk (ldAsk (ldLong none false) 1 []).st 0 b!"c").next = .hang ∧
    (ldAsk (ldAsk (ldLong none false) 1 []).st 0 b!"c").resps = [] := by decide +kernel

end Idm
