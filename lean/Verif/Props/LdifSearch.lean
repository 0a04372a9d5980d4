import Verif.Proofs.LdifSearch
import Verif.Props.LdifLoad
/-!
# C38, C39: what searches on the LDIF server find
-/
namespace Idm

section
variable {V : Env} {W : WalkOrd} {cfg : LdifCfg} {g : Nat} {stats : Bool}

theorem wSearchC_packet (srv : Srv LdifSt) (o : Oracle) (id : Int) (b : Str) (scope m : Nat) (f : Packet) (attrs : List Str) (cps : List Packet)
    (bound : Str) (st : LdifSt) :
    handlePacket V srv o (wMsgC id (wSearch b scope m f attrs) cps) bound st = match decodeControls V cps with
      | .panic => ⟨[], .crash, st⟩
      | .hang => ⟨[], .hang, st⟩
      | .err _ => ⟨[], .crash, st⟩
      | .ok cs => stepSearch V srv id bound (wSearch b scope m f attrs) cs st := by
  simp only [handlePacket, wMsgC, wSeq, Packet.kids, berInt, Packet.int?, Packet.val, wSearch, wReq, Packet.cls, Packet.tag,
    List.head?_cons, Option.map_some, Option.getD_some]
  simp [appAddRequest, appBindRequest, appCompareRequest, appDelRequest, appExtendedRequest, appModifyDNRequest, appModifyRequest, appSearchRequest]
  cases decodeControls V cps <;> rfl

theorem mem_tree_record {C : CaseEnv} {idx : IdxAttrs} {v : List (Option Entry)} {m : LMem} (hm : treeFromLDIF C idx v = some m) {x : LEntry} (hx : x ∈ m.tree) :
    ∃ r ∈ entriesIn v, ∃ i, x = buildEntry C i r := by
  rw [((treeFromLDIF_spec C idx v).2 m hm).1] at hx
  obtain ⟨q, hq, rfl⟩ := List.mem_map.1 hx
  obtain ⟨i, -, e⟩ := numbered_build C v 0 q hq
  refine ⟨q.2, ?_, i, e⟩
  rw [show entriesIn v = (numbered C 0 v).map (·.2) from (numbered_snd C v 0).symm]
  exact List.mem_map.2 ⟨q, hq, rfl⟩

/-- One kind of packet: an answer to a search is an answer to the search request parsed from it. -/
theorem ldif_search_entries (hW : W.Lawful) {versions recs older} {st : LdifSt} (e : versions = recs :: older)
    (hm : treeFromLDIF V.C cfg.idx recs = some st.main) (hp : ∀ x ∈ st.pagings, FromVersion V.C cfg versions x.2)
    (o : Oracle) (id : Int) (b : Str) (scope m : Nat) (w : Packet) (attrs : List Str) (p : Packet) (bound : Str) (s : Str) (fp : Packet)
    (hpk : ∃ more, p.kids = berInt id :: wSearch b scope m w attrs :: more) (hd : decompile w = some s) (hcomp : compile s = some fp) :
    ∃ l, FromVersion V.C cfg versions l ∧ ∃ cs,
      (entriesOf (handlePacket V (ldifSrv V W cfg g stats) o p bound st).resps =
        (l.filter (kept V.C fp ⟨b, scope, (0 : Nat), m, (0 : Nat), false, s, attrs, cs⟩)).map (fun x => filterAttributes V.C attrs x.visible)) := by
  rcases ldif_answer_of (V := V) (cfg := cfg) (g := g) (stats := stats) hW e hm hp o p bound with
    h' | ⟨id', req, controls, r, fp', l, h1, h2, h3, h4, h5, -, -, he⟩
  · refine ⟨[], ⟨by simp, by simp, recs, by rw [e]; simp, st.main, hm, by simp⟩, [], ?_⟩
    rw [h']; rfl
  · obtain ⟨more, hk⟩ := hpk
    obtain ⟨mp, more', hk', -, -⟩ := h1
    rw [hk] at hk'
    simp only [List.cons.injEq] at hk'
    obtain ⟨-, rfl, -⟩ := hk'
    rw [wSearch_parse, hd] at h3
    cases h3
    dsimp only at h5
    rw [hcomp] at h5
    cases h5
    exact ⟨l, h4, controls, he⟩

/-! ## C38 -/

/-- C38 for filters with any number of substring components: as `C38_sound_partial`, for what is left of the filter when all components but
the first are taken out of every substring filter. (Missing: the other components, and what `C38_sound_partial` lists.) -/
theorem C38_sound_first_partial (hC : V.C.Lawful) (hW : W.Lawful) {versions} {st : LdifSt} (h : LdifReach V W cfg g stats versions st)
    (f : Filter) (w : Packet) (hw : Wire f w) (hf : FilterOk f) (o : Oracle) (id : Int) (bound b : Str) (scope m : Nat)
    (attrs : List Str) (controls : List Packet) :
    ∃ v ∈ versions, ∀ e ∈ entriesOf (handlePacket V (ldifSrv V W cfg g stats) o (wMsgC id (wSearch b scope m w attrs) controls) bound st).resps,
      ∃ r ∈ entriesIn v, PartOf V.C e r ∧ (∀ u, Sat V.C u (publicView V.C r) (firstOnly f)) ∧ hasSuffix (V.C.lower r.dn) cfg.base = true ∧
        (scope = 0 ∨ scope = 1 ∧ parseDN V.C b ≠ some [] ∧ PlainFirst e.dn → TextInScope V.C scope b e.dn) ∧
        ∀ nb ns, PlainDN V.C b nb → nb ≠ [] → PlainDN V.C r.dn ns → NamesAgree V.C ns nb → scope = 0 ∨ scope = 1 → TextInScope V.C scope b r.dn := by
  obtain ⟨⟨recs, older, e, hm⟩, hp⟩ := reach_inv hW h
  obtain ⟨s, fp, hdec, hcomp, henc⟩ := C59_filter_text_partial f w hw hf
  obtain ⟨l, hl, cs, he⟩ := ldif_search_entries (V := V) (cfg := cfg) (g := g) (stats := stats) hW e hm hp o id b scope m w attrs
    (wMsgC id (wSearch b scope m w attrs) controls) bound s fp ⟨_, rfl⟩ hdec hcomp
  obtain ⟨-, hsuf, v, hv, mem, hmem, htree⟩ := hl
  refine ⟨v, hv, fun x hx => ?_⟩
  rw [he] at hx
  obtain ⟨y, hy, rfl⟩ := List.mem_map.1 hx
  obtain ⟨hyl, hyk⟩ := List.mem_filter.1 hy
  obtain ⟨r, hr, i, hb⟩ := mem_tree_record hmem (htree y hyl)
  have hvis : y.visible = publicView V.C r := by rw [hb]; rfl
  have hdn : y.dn = V.C.lower r.dn := by rw [hb]; rfl
  refine ⟨r, hr, ⟨by rw [(C31_selected attrs y.visible ⟨[], []⟩).1, hvis], fun a ha => hvis ▸ ((C31_selected attrs y.visible a).2.1 ha).1⟩, ?_,
    hdn ▸ hsuf y hyl, ?_, ?_⟩
  · intro u
    rw [← hvis]
    exact kept_sat henc (filterOk_has f hf) hyk u
  · intro hs
    obtain ⟨base, n, k1, k2, k3⟩ := kept_scope hC (s := scope) rfl hyk
    have hb' : parseDN V.C b = some base := k1
    rw [show (filterAttributes V.C attrs y.visible).dn = y.dn from (C31_selected attrs y.visible ⟨[], []⟩).1] at hs ⊢
    refine ⟨base, n, k1, k2, k3 ?_⟩
    rcases hs with hs | ⟨hs, h1, h2⟩
    · exact Or.inl hs
    · exact Or.inr ⟨hs, fun e => h1 (e ▸ hb'), h2⟩
  · intro nb ns hnb hne hns hag hs
    obtain ⟨base, n, k1, k2, k3⟩ := kept_scope hC (s := scope) rfl hyk
    rw [parse_plain hC hnb] at k1
    cases k1
    rw [hdn, parse_plain hC (lower_plain hC hns)] at k2
    cases k2
    rw [textInScope_plain hC hnb hns, ← inScope_low hC hnb.2 hns.2 hag]
    refine k3 (hs.imp (fun h => h) fun h => ⟨h, by simpa [dnOf] using hne, hdn ▸ plainFirst_plain (lower_plain hC hns)⟩)

/-- C38: every entry of an answer to a search, with or without controls, in any reachable state, is part of an entry of one loaded version of
the data that satisfies the filter and lies below the base DN of the server. In a base or one-level search the name that is sent is in scope,
and so is the name in the data if both are written plainly. (Missing: the subtree, see `C38_subtree_partial`; filters with several substring
components, see `C29_substring_fails`; in one-level searches, the root and names whose first comma does not end the first RDN, see
`C30_root_fails`, `C30_escaped_comma_fails`.) -/
theorem C38_sound_partial (hC : V.C.Lawful) (hW : W.Lawful) {versions} {st : LdifSt} (h : LdifReach V W cfg g stats versions st)
    (f : Filter) (w : Packet) (hw : Wire f w) (hf : FilterOk f) (h1 : OneComponent f) (o : Oracle) (id : Int) (bound b : Str) (scope m : Nat)
    (attrs : List Str) (controls : List Packet) :
    ∃ v ∈ versions, ∀ e ∈ entriesOf (handlePacket V (ldifSrv V W cfg g stats) o (wMsgC id (wSearch b scope m w attrs) controls) bound st).resps,
      ∃ r ∈ entriesIn v, PartOf V.C e r ∧ (∀ u, Sat V.C u (publicView V.C r) f) ∧ hasSuffix (V.C.lower r.dn) cfg.base = true ∧
        (scope = 0 ∨ scope = 1 ∧ parseDN V.C b ≠ some [] ∧ PlainFirst e.dn → TextInScope V.C scope b e.dn) ∧
        ∀ nb ns, PlainDN V.C b nb → nb ≠ [] → PlainDN V.C r.dn ns → NamesAgree V.C ns nb → scope = 0 ∨ scope = 1 → TextInScope V.C scope b r.dn := by
  have := C38_sound_first_partial (g := g) (stats := stats) hC hW h f w hw hf o id bound b scope m attrs controls
  rwa [firstOnly_id f h1] at this

/-- C38, subtree: every entry of an answer to a search without controls, in any scope, lies in the subtree of the search base, and is in the
data loaded last. (Missing: names whose text ends in that of the base though they are elsewhere, see `C38_middle_fails` and
`C38_escaped_comma_fails`; later pages, see `C38_paged_base_fails`.) -/
theorem C38_subtree_partial (hW : W.Lawful) {recs older} {st : LdifSt} (h : LdifReach V W cfg g stats (recs :: older) st)
    (b : Str)
    (hdn : ∀ r ∈ entriesIn recs, TextTells V.C 2 b r.dn)
    (w : Packet) (o : Oracle) (id : Int) (bound : Str) (scope m : Nat) (attrs : List Str) :
    ∀ e ∈ entriesOf (handlePacket V (ldifSrv V W cfg g stats) o (wMsg id (wSearch b scope m w attrs)) bound st).resps,
      ∃ r ∈ entriesIn recs, PartOf V.C e r ∧ TextInScope V.C 2 b r.dn := by
  obtain ⟨⟨recs', older', e, hm⟩, -⟩ := reach_inv hW h
  cases e
  intro e he
  rw [wSearch_packet, ldif_stepSearch, wSearch_parse] at he
  cases hd : decompile w with
  | none => rw [hd] at he; simp [entriesOf] at he
  | some s =>
    rw [hd] at he
    dsimp only [Option.map_some] at he
    have hl := (ldifSearch_lists (V := V) (W := W) (cfg := cfg)
      (fun l => ∀ x ∈ l, x ∈ st.main.tree ∧ hasSuffix x.dn (V.C.lower b) = true) (fun l l' hs h x hx => h x (hs.subset hx)) bound
      ⟨b, scope, (0 : Nat), m, (0 : Nat), false, s, attrs, []⟩ { st with pagings := [] }
      (fun fs ht _ => (pump_spec hW hm (V.C.lower b) fs ht).2.1) (by simp)).2.2.2
    rw [ldifSearch_unpaged _ _ rfl] at hl
    rcases ldifOut_entries id bound (ldifSearch V W cfg bound ⟨b, scope, (0 : Nat), m, (0 : Nat), false, s, attrs, []⟩ st) with h0 | ⟨sr, h1, h2⟩
    · rw [h0] at he; cases he
    · rw [h2] at he
      rcases hl sr h1 with h3 | ⟨fp, pre, rest, q1, -, -, -, q5⟩
      · rw [h3] at he; cases he
      · rw [q5] at he
        obtain ⟨x, hx, rfl⟩ := List.mem_map.1 he
        obtain ⟨hxt, hxs⟩ := q1 x (by simp [(List.mem_filter.1 hx).1])
        obtain ⟨r, hr, i, hbe⟩ := mem_tree_record hm hxt
        have hdx : x.dn = V.C.lower r.dn := by rw [hbe]; rfl
        refine ⟨r, hr, ⟨by rw [(C31_selected attrs x.visible ⟨[], []⟩).1, hbe]; rfl,
          fun a ha => by have := ((C31_selected attrs x.visible a).2.1 ha).1; rw [hbe] at this; exact this⟩, ?_⟩
        exact ((hdn r hr).2 (hdx ▸ hxs)).2.1 rfl

/-! ## C39 -/

/-- C39, names: where the text of a name tells as much as the name (`TextTells`, the condition of C39): plainly written names below or beside a
plainly written base. -/
theorem C39_plain_names {C : CaseEnv} (hC : C.Lawful) {b d : Str} {nb ns : List AVA} (hb : PlainDN C b nb) (hne : nb ≠ []) (hd : PlainDN C d ns)
    (hag : NamesAgree C ns nb) (scope : Nat) (hl : scope = 2 → NoLongerType nb ns) : TextTells C scope b d :=
  tells_plain hC hb hd hag hne scope hl

/-- C39, names: the first RDN may be written in any way, say with escapes (`cn=Doe\\, John,ou=people,dc=lg`) or with several attributes; the
others are written plainly, and there are at least as many of them as in the base. The text is read as an RDN in front of the others, as it is
and in lower case. (In one-level searches its first comma has to end the first RDN, see `C30_escaped_comma_fails`.) -/
theorem C39_escaped_names {C : CaseEnv} (hC : C.Lawful) {b : Str} {nb ns : List AVA} (hb : PlainDN C b nb) (hne : nb ≠ []) {x : Str} {r r' : RDN}
    (hns : ∀ a ∈ ns, SimpleAva C a) (hle : nb.length ≤ ns.length)
    (hp : parseDN C (x ++ chComma :: plainText ns) = (parseDN C (plainText ns)).map (r :: ·))
    (hlp : parseDN C (C.lower (x ++ chComma :: plainText ns)) = (parseDN C (C.lower (plainText ns))).map (r' :: ·))
    (hag : NamesAgree C ns nb) (scope : Nat) (hl : scope = 2 → NoLongerType nb ns)
    (hf : scope = 1 → PlainFirst (C.lower (x ++ chComma :: plainText ns))) : TextTells C scope b (x ++ chComma :: plainText ns) :=
  tells_first hC hb hne hns hle hp hlp hag scope hl hf

/-- C39, names: entries elsewhere, whatever they are called: the text of the name does not end in that of the base, nor is the name below it. -/
theorem C39_elsewhere {C : CaseEnv} {b d : Str} (scope : Nat) (h1 : hasSuffix (C.lower d) (C.lower b) = false) (h2 : ¬ TextInScope C 2 b d) :
    TextTells C scope b d :=
  ⟨fun h => absurd (textInScope_sub h) h2, fun h => by rw [h1] at h; cases h⟩

/-- C39, names: the entry the search is made at, however it is called, in base and subtree searches: text and name are those of the base, up to
case. -/
theorem C39_itself {C : CaseEnv} {b d : Str} (scope : Nat) (hs : scope = 0 ∨ scope = 2) (h1 : C.lower d = C.lower b)
    (h2 : TextInScope C 0 b d) (h3 : TextInScope C 0 b (C.lower d)) : TextTells C scope b d := by
  obtain ⟨_, n, -, hn, -⟩ := id h3
  refine ⟨fun _ => by rw [h1]; exact hasSuffix_iff.2 (List.suffix_refl _), fun _ => ⟨⟨n, hn⟩, fun _ => textInScope_sub h2, fun h => ?_, by omega⟩⟩
  have : scope = 0 := by omega
  subst this
  exact ⟨fun _ => h2, fun _ => h3⟩

theorem exists_pairs {α β : Type} (ps : List (α × β)) : ∀ l : List α, (∀ x ∈ l, ∃ p ∈ ps, p.1 = x) →
    ∃ qs : List (α × β), qs.map (·.1) = l ∧ ∀ q ∈ qs, q ∈ ps
  | [], _ => ⟨[], rfl, by simp⟩
  | x :: xs, h => by
    obtain ⟨qs, h1, h2⟩ := exists_pairs ps xs fun y hy => h y (by simp [hy])
    obtain ⟨p, hp, rfl⟩ := h x (by simp)
    exact ⟨p :: qs, by simp [h1], fun q hq => (List.mem_cons.1 hq).elim (fun e => e ▸ hp) (h2 q)⟩

/-- C39 for filters with any number of substring components: as `C39_search_exact_partial`, for what is left of the filter when all components
but the first are taken out of every substring filter. (Missing: the other components, see `C29_substring_fails`, and what
`C39_search_exact_partial` lists.) -/
theorem C39_search_first_partial (hC : V.C.Lawful) (hW : W.Lawful) {recs older} {st : LdifSt}
    (h : LdifReach V W cfg g stats (recs :: older) st) (u : Filter → Entry → Prop) (bound : Str) (hread : MayRead V.C cfg bound)
    (b : Str) (nb : DN) (hb : parseDN V.C b = some nb) (hbase : hasSuffix (V.C.lower b) cfg.base = true)
    (scope : Nat) (hs : scope ≤ 2) (hroot : scope = 1 → nb ≠ [])
    (hdn : ∀ r ∈ entriesIn recs, TextTells V.C scope b r.dn)
    (f : Filter) (w : Packet) (hw : Wire f w) (hf : FilterOk f) (hsup : Supported f)
    (ends : Bool) (hlost : NoneLost V.C cfg.idx ends f = true)
    (hagree : ∀ r ∈ entriesIn recs, CaseAgrees V.C (publicView V.C r) f ∧ (ends = true → EndsAgree V.C (publicView V.C r) f))
    (attrs : List Str) (hrep : NoRepeat V.C attrs) (o : Oracle) (id : Int) :
    ∃ found : List Entry, (found.map fun r => V.C.lower r.dn).Nodup ∧
      (∀ r, r ∈ found ↔ r ∈ entriesIn recs ∧ TextInScope V.C scope b r.dn ∧ Sat V.C u (publicView V.C r) (firstOnly f)) ∧
      handlePacket V (ldifSrv V W cfg g stats) o (wMsg id (wSearch b scope 0 w attrs)) bound st =
        ⟨found.map (fun r => .entry id (reduced V.C attrs (publicView V.C r))) ++ [.searchDone id 0 (some [])], .go bound, st⟩ := by
  obtain ⟨⟨recs', older', e, hm⟩, -⟩ := reach_inv hW h
  cases e
  obtain ⟨s, fp, hdec, hcomp, henc⟩ := C59_filter_text_partial f w hw hf
  obtain ⟨fs, hfs, htag, hcov⟩ := indexFilter_covers (C := V.C) (u := u) (idx := cfg.idx) hcomp henc ends hlost
  obtain ⟨t1, -, -⟩ := (treeFromLDIF_spec V.C cfg.idx recs).2 st.main hm
  obtain ⟨p1, p2, p3⟩ := pump_spec hW hm (V.C.lower b) fs htag
  let rq : SearchReq := ⟨b, scope, (0 : Nat), (0 : Nat), (0 : Nat), false, s, attrs, []⟩
  let l := pump V.C W st.main (V.C.lower b) fs
  have hvalid : ldifValidDN cfg (V.C.lower bound) = true := by
    unfold ldifValidDN
    rcases hread with ⟨rfl, h2, h3⟩ | ⟨h2, h3⟩
    · simp [hC.lower_nil, h2, h3]
    · simp [h2, h3]
  -- the facts about one record
  have hrec : ∀ q ∈ numbered V.C 0 recs, q.2 ∈ entriesIn recs ∧ q.1.visible = publicView V.C q.2 ∧ q.1.dn = V.C.lower q.2.dn := by
    intro q hq
    obtain ⟨i, -, e⟩ := numbered_build V.C recs 0 q hq
    refine ⟨?_, by rw [e]; rfl, by rw [e]; rfl⟩
    rw [show entriesIn recs = (numbered V.C 0 recs).map (·.2) from (numbered_snd V.C recs 0).symm]
    exact List.mem_map.2 ⟨q, hq, rfl⟩
  have hjudge : ∀ q ∈ numbered V.C 0 recs, hasSuffix q.1.dn (V.C.lower b) = true → ∃ a k, applyFilter V.C q.1.visible fp = .ok (a, rcSuccess) ∧
      (a = true ↔ Sat V.C u (publicView V.C q.2) (firstOnly f)) ∧ filterScope V.C b scope q.1.visible = (k, rcSuccess) ∧
      (TextInScope V.C scope b q.2.dn ↔ k = true) := by
    intro q hq hsfx
    obtain ⟨r1, r2, r3⟩ := hrec q hq
    obtain ⟨a, a1, a2⟩ := C29_first_component_partial (u := u) (C := V.C) (e := q.1.visible) f fp henc (filterOk_has f hf) hsup
    obtain ⟨⟨n, hn⟩, t2, t3, t4⟩ := (hdn q.2 r1).2 (r3 ▸ hsfx)
    rw [← r3] at hn t3 t4
    obtain ⟨k, k1, k2⟩ := scope_judged hC (e := q.1.visible) hb hn hs fun h1 => ⟨hroot h1, t4 h1⟩
    rw [r2] at a2
    by_cases h2 : scope = 2
    · subst h2
      have : k = true := by
        have : filterScope V.C b 2 q.1.visible = (true, rcSuccess) := by simp [filterScope, hb, show parseDN V.C q.1.visible.dn = some n from hn]
        rw [this] at k1
        cases k1; rfl
      exact ⟨a, k, a1, a2, k1, fun _ => this, fun _ => t2 rfl⟩
    · refine ⟨a, k, a1, a2, k1, ?_⟩
      rw [k2 h2, ← t3 h2]
      unfold TextInScope
      rw [hb, hn]
      simp
  have hin : ∀ x ∈ l, ∃ q ∈ numbered V.C 0 recs, q.1 = x := by
    intro x hx
    have := (p2 x hx).1
    rw [t1] at this
    obtain ⟨q, hq, rfl⟩ := List.mem_map.1 this
    exact ⟨q, hq, rfl⟩
  have hkept : ∀ q ∈ numbered V.C 0 recs, hasSuffix q.1.dn (V.C.lower b) = true →
      (kept V.C fp rq q.1 = true ↔ TextInScope V.C scope b q.2.dn ∧ Sat V.C u (publicView V.C q.2) (firstOnly f)) := by
    intro q hq hsfx
    obtain ⟨a, k, j1, j2, j3, j4⟩ := hjudge q hq hsfx
    unfold kept
    have hsn : scopeNat rq.scope = scope := scopeNat_nat scope
    have hrb : rq.baseDN = b := rfl
    rw [j4, ← j2, j1, hsn, hrb, j3]
    simp [and_comm]
  -- the records of the entries found
  obtain ⟨ps, ps1, ps2⟩ := exists_pairs (numbered V.C 0 recs) (l.filter (kept V.C fp rq)) fun x hx => hin x (List.mem_filter.1 hx).1
  refine ⟨ps.map (·.2), ?_, fun r => ?_, ?_⟩
  · have e1 : (ps.map (·.2)).map (fun r => V.C.lower r.dn) = (ps.map (·.1)).map (·.dn) := by
      rw [List.map_map, List.map_map]
      exact List.map_congr_left fun q hq => (hrec q (ps2 q hq)).2.2.symm
    rw [e1, ps1]
    exact p1.sublist (List.filter_sublist.map _)
  · constructor
    · intro hr
      obtain ⟨q, hq, rfl⟩ := List.mem_map.1 hr
      have hq' : q.1 ∈ l.filter (kept V.C fp rq) := ps1 ▸ List.mem_map.2 ⟨q, hq, rfl⟩
      obtain ⟨m1, m2⟩ := List.mem_filter.1 hq'
      have hn := ps2 q hq
      exact ⟨(hrec q hn).1, (hkept q hn (p2 _ m1).2).1 m2⟩
    · rintro ⟨hr, hsc, hsat⟩
      rw [show entriesIn recs = (numbered V.C 0 recs).map (·.2) from (numbered_snd V.C recs 0).symm] at hr
      obtain ⟨q, hq, rfl⟩ := List.mem_map.1 hr
      have hsfx : hasSuffix q.1.dn (V.C.lower b) = true := (hrec q hq).2.2 ▸ (hdn q.2 (hrec q hq).1).1 hsc
      have hag := hagree q.2 (hrec q hq).1
      have hl : q.1 ∈ l := by
        refine p3 q hq hsfx ?_
        rcases hcov (publicView V.C q.2) hag.1 hag.2 hsat with h | h | ⟨gg, hg, a, ha, hh⟩
        · exact Or.inl h
        · exact Or.inr (Or.inl h)
        · exact Or.inr (Or.inr ⟨gg, hg, a, (List.mem_filter.1 ha).1, hh⟩)
      have : q.1 ∈ ps.map (·.1) := ps1 ▸ List.mem_filter.2 ⟨hl, (hkept q hq hsfx).2 ⟨hsc, hsat⟩⟩
      obtain ⟨q', hq', e⟩ := List.mem_map.1 this
      have : q' = q := nodup_inj (numbered_ptr V.C recs 0) q' (ps2 q' hq') q hq (by rw [e])
      exact List.mem_map.2 ⟨q', hq', by rw [this]⟩
  · have hpage := searchPage_all V fp rq (by show ((0 : Nat) : Int) ≤ 0; omega) l 0 fun x hx => by
      obtain ⟨q, hq, rfl⟩ := hin x hx
      obtain ⟨a, k, j1, -, j3, -⟩ := hjudge q hq (p2 _ hx).2
      refine ⟨⟨a, j1⟩, k, ?_⟩
      show filterScope V.C b (scopeNat scope) _ = _
      rw [scopeNat_nat]
      exact j3
    have hsearch : ldifSearch V W cfg bound rq st =
        (.ok ⟨(l.filter (kept V.C fp rq)).map (fun x => filterAttributes V.C attrs x.visible), [], rcSuccess, false⟩, st) := by
      have hpg : pagingOf rq = none := rfl
      unfold ldifSearch
      dsimp only
      rw [if_neg (by simp [hvalid]), show rq.filter = s from rfl, hfs]
      dsimp only
      rw [if_neg (by show ¬ (!hasSuffix (V.C.lower b) cfg.base) = true; simp [hbase]), hpg]
      simp only [pageSource, hcomp, Option.map_none]
      rw [show pump V.C W st.main (V.C.lower rq.baseDN) fs = l from rfl, hpage]
      simp [rcSuccess]
      exact fun _ _ _ => rfl
    rw [wSearch_packet, ldif_stepSearch, wSearch_parse, hdec]
    dsimp only [Option.map_some]
    rw [show (⟨b, scope, (0 : Nat), (0 : Nat), (0 : Nat), false, s, attrs, []⟩ : SearchReq) = rq from rfl, hsearch]
    unfold ldifOut
    simp only [Bool.false_eq_true, if_false, List.map_map]
    congr 2
    rw [← ps1, List.map_map]
    refine List.map_congr_left fun q hq => ?_
    simp only [Function.comp_def]
    rw [filterAttributes_reduced hC attrs hrep, (hrec q (ps2 q hq)).2.1]

/-- C39: in any reachable state, a search without size limit and controls is answered by exactly the entries of the data loaded last that are
in scope and satisfy the filter, none twice, each without userPassword and reduced to the requested attributes; then success. Nothing else
changes. The hypotheses are that the client may read; that the search base is below the base DN, and not the root in one-level searches; that
the texts of the names tell as much as the names (`TextTells`; true of the names of `C39_plain_names`, `C39_escaped_names`, `C39_elsewhere` and
`C39_itself`); and that the indexes lose nothing: `NoneLost` says which filters this is true of. (Each of these is needed:
`C39_objectClass_or_fails`, `C39_negation_fails`, `C39_substring_case_fails`, `C38_middle_fails`, `C38_escaped_comma_fails`,
`C39_escaped_comma_fails`, `C39_case_fails`.) -/
theorem C39_search_exact_partial (hC : V.C.Lawful) (hW : W.Lawful) {recs older} {st : LdifSt}
    (h : LdifReach V W cfg g stats (recs :: older) st) (u : Filter → Entry → Prop) (bound : Str) (hread : MayRead V.C cfg bound)
    (b : Str) (nb : DN) (hb : parseDN V.C b = some nb) (hbase : hasSuffix (V.C.lower b) cfg.base = true)
    (scope : Nat) (hs : scope ≤ 2) (hroot : scope = 1 → nb ≠ [])
    (hdn : ∀ r ∈ entriesIn recs, TextTells V.C scope b r.dn)
    (f : Filter) (w : Packet) (hw : Wire f w) (hf : FilterOk f) (h1 : OneComponent f) (hsup : Supported f)
    (ends : Bool) (hlost : NoneLost V.C cfg.idx ends f = true)
    (hagree : ∀ r ∈ entriesIn recs, CaseAgrees V.C (publicView V.C r) f ∧ (ends = true → EndsAgree V.C (publicView V.C r) f))
    (attrs : List Str) (hrep : NoRepeat V.C attrs) (o : Oracle) (id : Int) :
    ∃ found : List Entry, (found.map fun r => V.C.lower r.dn).Nodup ∧
      (∀ r, r ∈ found ↔ r ∈ entriesIn recs ∧ TextInScope V.C scope b r.dn ∧ Sat V.C u (publicView V.C r) f) ∧
      handlePacket V (ldifSrv V W cfg g stats) o (wMsg id (wSearch b scope 0 w attrs)) bound st =
        ⟨found.map (fun r => .entry id (reduced V.C attrs (publicView V.C r))) ++ [.searchDone id 0 (some [])], .go bound, st⟩ := by
  have := C39_search_first_partial (g := g) (stats := stats) hC hW h u bound hread b nb hb hbase scope hs hroot hdn f w hw hf hsup ends hlost
    hagree attrs hrep o id
  rwa [firstOnly_id f h1] at this

end

/-! ## Examples and counterexamples -/

/-- An equality filter on the wire. -/
def wEq (a v : Str) : Packet := .mk .context true 3 .nil [] [octet a, octet v]

theorem wEq_wire (a v : Str) : Wire (.eq a v) (wEq a v) := ⟨rfl, _, _, rfl, rfl, rfl⟩

theorem ascii_agrees (e : Entry) (f : Filter) : CaseAgrees asciiCase e f := by
  intro w _ a _
  have h : ∀ x y : Str, asciiCase.eqFold x y = true → asciiCase.lower x = asciiCase.lower y := by
    intro x y h
    simpa [asciiCase] using h
  exact ⟨h _ _, fun v _ => h _ _⟩

/-- The names in `ldRecs`. -/
theorem ldRecs_plain : ∀ r ∈ entriesIn ldRecs, ∃ ns, PlainDN asciiCase r.dn ns ∧
    NamesAgree asciiCase ns [⟨b!"ou", b!"People"⟩, ⟨b!"dc", b!"lg"⟩] ∧ NoLongerType [⟨b!"ou", b!"People"⟩, ⟨b!"dc", b!"lg"⟩] ns := by
  have h : entriesIn ldRecs = [_, _, _, _] := rfl
  rw [h]
  simp only [List.forall_mem_cons, List.not_mem_nil, false_implies, implies_true, and_true]
  exact ⟨⟨[⟨b!"dc", b!"lg"⟩], by decide +kernel⟩, ⟨[⟨b!"ou", b!"People"⟩, ⟨b!"dc", b!"lg"⟩], by decide +kernel⟩,
    ⟨[⟨b!"uid", b!"Ann"⟩, ⟨b!"ou", b!"People"⟩, ⟨b!"dc", b!"lg"⟩], by decide +kernel⟩,
    ⟨[⟨b!"uid", b!"bob"⟩, ⟨b!"ou", b!"People"⟩, ⟨b!"dc", b!"lg"⟩], by decide +kernel⟩⟩

theorem ldRecs_tells : ∀ r ∈ entriesIn ldRecs, TextTells asciiCase 2 b!"ou=People,dc=lg" r.dn := by
  intro r hr
  obtain ⟨ns, h1, h2, h3⟩ := ldRecs_plain r hr
  exact C39_plain_names asciiCase_lawful (nb := [⟨b!"ou", b!"People"⟩, ⟨b!"dc", b!"lg"⟩]) (by decide +kernel) (by simp) h1 h2 2 fun _ => h3

/-- `(&(objectClass=person)(cn=berg))` -/
def ldFilter : Filter := .and [.eq b!"objectClass" b!"person", .eq b!"cn" b!"berg"]

/-- C39 applies to a subtree search of the toy server for a filter that is answered by an index. -/
example : ∃ found : List Entry, (found.map fun r => asciiCase.lower r.dn).Nodup ∧
    (∀ r, r ∈ found ↔ r ∈ entriesIn ldRecs ∧ TextInScope asciiCase 2 b!"ou=People,dc=lg" r.dn ∧
      Sat asciiCase (fun _ _ => False) (publicView asciiCase r) ldFilter) ∧
    ldReq [] (wSearch b!"ou=People,dc=lg" 2 0 (.mk .context true 0 .nil [] [wEq b!"objectClass" b!"person", wEq b!"cn" b!"berg"]) [b!"cn"]) =
      ⟨found.map (fun r => .entry 7 (reduced asciiCase [b!"cn"] (publicView asciiCase r))) ++ [.searchDone 7 0 (some [])], .go [], ldStart ldRecs⟩ :=
  C39_search_exact_partial (V := ldEnv) asciiCase_lawful ldOrd_lawful ld_reach (fun _ _ => False) [] (Or.inl ⟨rfl, rfl, rfl⟩)
    b!"ou=People,dc=lg" [[⟨b!"ou", b!"People"⟩], [⟨b!"dc", b!"lg"⟩]] (by decide +kernel) (by decide +kernel) 2 (by omega) (by decide)
    ldRecs_tells ldFilter _
    ⟨rfl, _, _, rfl, wEq_wire _ _, _, _, rfl, wEq_wire _ _, rfl⟩ ⟨(by decide +kernel : AttrText b!"objectClass"), (by decide +kernel : AttrText b!"cn"), trivial⟩ ⟨trivial, trivial, trivial⟩
    ⟨trivial, trivial, trivial⟩ false (by decide +kernel) (fun r _ => ⟨ascii_agrees _ _, fun h => by cases h⟩) [b!"cn"] (by decide +kernel) toyOracle 7

/-- its answer -/
example : (ldReq [] (wSearch b!"ou=People,dc=lg" 2 0 (.mk .context true 0 .nil [] [wEq b!"objectClass" b!"person", wEq b!"cn" b!"berg"]) [b!"cn"])).resps =
    [.entry 7 ⟨b!"uid=bob,ou=people,dc=lg", [⟨b!"cn", [b!"Bob Cole", b!"Berg"]⟩]⟩, .searchDone 7 0 (some [])] := by decide +kernel

/-- C39 applies to a search for `(cn=b*q*)`, which selects what `(cn=b*)` selects. -/
example := C39_search_first_partial (V := ldEnv) asciiCase_lawful ldOrd_lawful ld_reach (fun _ _ => False) [] (Or.inl ⟨rfl, rfl, rfl⟩)
    b!"ou=People,dc=lg" [[⟨b!"ou", b!"People"⟩], [⟨b!"dc", b!"lg"⟩]] (by decide +kernel) (by decide +kernel) 2 (by omega) (by decide)
    ldRecs_tells (.sub b!"cn" (some b!"b") [b!"q"] none)
    (.mk .context true 4 .nil [] [octet b!"cn", wSeq [ctxStr 0 b!"b", ctxStr 1 b!"q"]])
    ⟨rfl, _, _, rfl, rfl, rfl⟩ ⟨by decide +kernel, by decide +kernel, by decide +kernel⟩ trivial false (by decide +kernel)
    (fun r _ => ⟨ascii_agrees _ _, fun h => by cases h⟩) [b!"cn"] (by decide +kernel) toyOracle 7
example : (ldReq [] (wSearch b!"ou=People,dc=lg" 2 0 (.mk .context true 4 .nil [] [octet b!"cn", wSeq [ctxStr 0 b!"b", ctxStr 1 b!"q"]]) [b!"cn"])).resps =
    [.entry 7 ⟨b!"uid=bob,ou=people,dc=lg", [⟨b!"cn", [b!"Bob Cole", b!"Berg"]⟩]⟩, .searchDone 7 0 (some [])] := by decide +kernel

/-- The answer to the search is missing an entry in scope that satisfies the filter. -/
def Loses (recs : List (Option Entry)) (b : Str) (f : Filter) : Prop :=
  ∃ w, Wire f w ∧ ∃ r ∈ entriesIn recs, TextInScope asciiCase 2 b r.dn ∧ (∀ u, Sat asciiCase u (publicView asciiCase r) f) ∧
    ∃ es : List Str, (handlePacket ldEnv ldSrv toyOracle (wMsg 7 (wSearch b 2 0 w [b!"1.1"])) [] (ldStart recs)).resps =
      es.map (fun d => Resp.entry 7 ⟨d, []⟩) ++ [.searchDone 7 0 (some [])] ∧ asciiCase.lower r.dn ∉ es

theorem ld_subtree {b d : Str} (n : DN) (q p : DN) (h1 : (parseDN asciiCase b).isSome = true) (h2 : parseDN asciiCase d = some n) (h3 : n = q ++ p)
    (h4 : (parseDN asciiCase b).all (dnEqFold asciiCase p ·) = true) : TextInScope asciiCase 2 b d := by
  obtain ⟨m, hm⟩ := Option.isSome_iff_exists.1 h1
  rw [hm] at h4
  exact ⟨m, n, hm, h2, Or.inr (Or.inr ⟨rfl, q, p, h3, (dnEqFold_iff _ _).1 h4⟩)⟩

/-- C39 fails for `(|(objectClass=domain)(cn=Bob Cole))`: comparisons of objectClass are not looked up beside others. The first entry of the
data is lost. -/
theorem C39_objectClass_or_fails : Loses ldRecs b!"dc=lg" (.or [.eq b!"objectClass" b!"domain", .eq b!"cn" b!"Bob Cole"]) := by
  refine ⟨.mk .context true 1 .nil [] [wEq b!"objectClass" b!"domain", wEq b!"cn" b!"Bob Cole"],
    ⟨rfl, _, _, rfl, wEq_wire _ _, _, _, rfl, wEq_wire _ _, rfl⟩, ⟨b!"dc=lg", [⟨b!"objectClass", [b!"domain"]⟩, ⟨b!"dc", [b!"lg"]⟩]⟩,
    by decide +kernel, ld_subtree _ [] _ (by decide +kernel) rfl rfl (by decide +kernel), fun u => ?_,
    [b!"uid=bob,ou=people,dc=lg"], by decide +kernel, by decide +kernel⟩
  exact Or.inl ⟨_, List.mem_cons_self, by decide +kernel, _, List.mem_cons_self, by decide +kernel⟩

/-- C39 fails for `(|(cn=Bob Cole)(!(sn=Berg)))`: what is below a negation is not looked up. `People`, which has no sn, is lost. -/
theorem C39_negation_fails : Loses ldRecs b!"dc=lg" (.or [.eq b!"cn" b!"Bob Cole", .not (.eq b!"sn" b!"Berg")]) := by
  refine ⟨.mk .context true 1 .nil [] [wEq b!"cn" b!"Bob Cole", .mk .context true 2 .nil [] [wEq b!"sn" b!"Berg"]],
    ⟨rfl, _, _, rfl, wEq_wire _ _, _, _, rfl, ⟨rfl, _, rfl, wEq_wire _ _⟩, rfl⟩,
    ⟨b!"ou=People,dc=lg", [⟨b!"objectClass", [b!"organizationalUnit"]⟩, ⟨b!"ou", [b!"People"]⟩]⟩,
    by decide +kernel, ld_subtree _ [_] _ (by decide +kernel) rfl rfl (by decide +kernel), fun u => ?_,
    [b!"uid=bob,ou=people,dc=lg"], by decide +kernel, by decide +kernel⟩
  refine Or.inr (Or.inl ?_)
  rintro ⟨x, hx, h1, -⟩
  have : ∀ x ∈ (publicView asciiCase ⟨b!"ou=People,dc=lg", [⟨b!"objectClass", [b!"organizationalUnit"]⟩, ⟨b!"ou", [b!"People"]⟩]⟩).attrs,
      asciiCase.eqFold x.name b!"sn" = false := by decide +kernel
  rw [this x hx] at h1
  cases h1

/-- C39 fails for `(cn=ANN*)`: indexes for initial and final substrings tell upper and lower case apart, filters do not. -/
theorem C39_substring_case_fails : Loses ldRecs b!"dc=lg" (.sub b!"cn" (some b!"ANN") [] none) := by
  refine ⟨.mk .context true 4 .nil [] [octet b!"cn", wSeq [ctxStr 0 b!"ANN"]], ⟨rfl, _, _, rfl, rfl, rfl⟩,
    ⟨b!"uid=Ann,ou=People,dc=lg", [⟨b!"objectClass", [b!"person", b!"top"]⟩, ⟨b!"uid", [b!"Ann"]⟩, ⟨b!"cn", [b!"Ann Berg"]⟩,
     ⟨b!"sn", [b!"Berg"]⟩, ⟨b!"userPassword", [b!"{ARGON2}$argon2id$pw"]⟩]⟩,
    by decide +kernel, ld_subtree _ [_, _] _ (by decide +kernel) rfl rfl (by decide +kernel), fun u => ?_,
    [], by decide +kernel, by decide +kernel⟩
  exact ⟨⟨b!"cn", [b!"Ann Berg"]⟩, by decide +kernel, by decide +kernel, b!"Ann Berg", by decide +kernel,
    asciiCase.fold b!" Berg", by decide +kernel, asciiCase.fold b!" Berg", by decide +kernel⟩

theorem not_scope2 {C : CaseEnv} (hC : C.Lawful) {b d : Str} {nb ns : List AVA} (hb : PlainDN C b nb) (hd : PlainDN C d ns)
    (hag : NamesAgree C ns nb) (h : ¬ nb.map (lowAva C) <:+ ns.map (lowAva C)) : ¬ TextInScope C 2 b d := by
  rw [textInScope_plain hC hb hd, inScope2_plain hC hb.2 hd.2 hag.values]
  exact h

/-- C38 fails: a name that ends in the text of the search base in the middle of a type. The search at `dc=x,dc=lg` finds
`cn=a,udc=x,dc=lg`. -/
theorem C38_middle_fails : ∃ (recs : List (Option Entry)) (d : Str), (treeFromLDIF asciiCase defaultIdx recs).isSome = true ∧
    (handlePacket ldEnv ldSrv toyOracle (wMsg 7 (wSearch b!"dc=x,dc=lg" 2 0 (ctxStr 7 b!"cn") [b!"1.1"])) [] (ldStart recs)).resps =
      [.entry 7 ⟨d, []⟩, .searchDone 7 0 (some [])] ∧ ¬ TextInScope asciiCase 2 b!"dc=x,dc=lg" d :=
  ⟨[some ⟨b!"cn=a,udc=x,dc=lg", [⟨b!"cn", [b!"a"]⟩]⟩], b!"cn=a,udc=x,dc=lg", by decide +kernel, by decide +kernel,
    not_scope2 asciiCase_lawful (nb := [⟨b!"dc", b!"x"⟩, ⟨b!"dc", b!"lg"⟩]) (ns := [⟨b!"cn", b!"a"⟩, ⟨b!"udc", b!"x"⟩, ⟨b!"dc", b!"lg"⟩])
      (by decide +kernel) (by decide +kernel) (by decide +kernel) (by decide +kernel)⟩

/-- C38 fails for later pages: the entries are those of the base of the first page. A second page asked for at `ou=None,dc=lg` contains
`uid=bob,ou=people,dc=lg`. -/
theorem C38_paged_base_fails :
    (ldPage (ldPage (ldStart ldRecs) b!"dc=lg" (ctxStr 7 b!"cn") 1 []).st b!"ou=None,dc=lg" (ctxStr 7 b!"cn") 1 [0]).resps =
      [.entry 7 ⟨b!"uid=bob,ou=people,dc=lg", [⟨b!"cn", [b!"Bob Cole", b!"Berg"]⟩]⟩, .searchDone 7 0 (some [.paging 0 [0]])] ∧
    ¬ TextInScope asciiCase 2 b!"ou=None,dc=lg" b!"uid=bob,ou=people,dc=lg" :=
  ⟨by decide +kernel, not_scope2 asciiCase_lawful (nb := [⟨b!"ou", b!"None"⟩, ⟨b!"dc", b!"lg"⟩])
    (ns := [⟨b!"uid", b!"bob"⟩, ⟨b!"ou", b!"people"⟩, ⟨b!"dc", b!"lg"⟩]) (by decide +kernel) (by decide +kernel) (by decide +kernel) (by decide +kernel)⟩

/-! ## Names outside ASCII -/

/-- Data with names outside ASCII. -/
def umRecs : List (Option Entry) := [some ⟨b!"ou=München,dc=lg", [⟨b!"ou", [b!"München"]⟩]⟩,
  some ⟨b!"cn=Jürgen,OU=München,dc=lg", [⟨b!"cn", [b!"Jürgen"]⟩]⟩]

theorem umRecs_plain : ∀ r ∈ entriesIn umRecs, ∃ ns, PlainDN asciiCase r.dn ns ∧
    NamesAgree asciiCase ns [⟨b!"ou", b!"München"⟩, ⟨b!"dc", b!"lg"⟩] ∧ ((1 : Nat) = 2 → NoLongerType [⟨b!"ou", b!"München"⟩, ⟨b!"dc", b!"lg"⟩] ns) := by
  have h : entriesIn umRecs = [_, _] := rfl
  rw [h]
  simp only [List.forall_mem_cons, List.not_mem_nil, false_implies, implies_true, and_true]
  exact ⟨⟨[⟨b!"ou", b!"München"⟩, ⟨b!"dc", b!"lg"⟩], by decide +kernel⟩,
    ⟨[⟨b!"cn", b!"Jürgen"⟩, ⟨b!"OU", b!"München"⟩, ⟨b!"dc", b!"lg"⟩], by decide +kernel⟩⟩

theorem um_reach : LdifReach ldEnv ldOrd ldCfg 8 false [umRecs] (ldStart umRecs) :=
  .start _ _ _ _ _ _ (ldMemI_loads (by decide +kernel))

/-- C39 applies to a search one level below a name outside ASCII -/
example := C39_search_exact_partial (V := ldEnv) asciiCase_lawful ldOrd_lawful um_reach (fun _ _ => False) [] (Or.inl ⟨rfl, rfl, rfl⟩)
  b!"ou=München,dc=lg" [[⟨b!"ou", b!"München"⟩], [⟨b!"dc", b!"lg"⟩]] (by decide +kernel) (by decide +kernel) 1 (by omega) (by decide)
  (fun r hr => by
    obtain ⟨ns, h1, h2, h3⟩ := umRecs_plain r hr
    exact C39_plain_names asciiCase_lawful (nb := [⟨b!"ou", b!"München"⟩, ⟨b!"dc", b!"lg"⟩]) (by decide +kernel) (by simp) h1 h2 1 h3)
  (.eq b!"cn" b!"Jürgen") _ (wEq_wire _ _) (by decide +kernel : AttrText b!"cn") trivial trivial false (by decide +kernel)
  (fun r _ => ⟨ascii_agrees _ _, fun h => by cases h⟩) [b!"cn"] (by decide +kernel) toyOracle 7
example : (handlePacket ldEnv ldSrv toyOracle (wMsg 7 (wSearch b!"ou=München,dc=lg" 1 0 (wEq b!"cn" b!"Jürgen") [b!"cn"])) [] (ldStart umRecs)).resps =
    [.entry 7 ⟨b!"cn=jürgen,ou=münchen,dc=lg", [⟨b!"cn", [b!"Jürgen"]⟩]⟩, .searchDone 7 0 (some [])] := by decide +kernel

/-! ## Names with escapes -/

/-- Data with a name that has an escaped comma in it. -/
def escRecs : List (Option Entry) := [some ⟨b!"ou=People,dc=lg", [⟨b!"ou", [b!"People"]⟩]⟩,
  some ⟨b!"cn=Doe\\, John,ou=People,dc=lg", [⟨b!"cn", [b!"Doe, John"]⟩]⟩]

theorem escRecs_tells : ∀ r ∈ entriesIn escRecs, TextTells asciiCase 2 b!"ou=People,dc=lg" r.dn := by
  have h : entriesIn escRecs = [_, _] := rfl
  rw [h]
  simp only [List.forall_mem_cons, List.not_mem_nil, false_implies, implies_true, and_true]
  have hb : PlainDN asciiCase b!"ou=People,dc=lg" [⟨b!"ou", b!"People"⟩, ⟨b!"dc", b!"lg"⟩] := by decide +kernel
  exact ⟨C39_plain_names asciiCase_lawful hb (by simp) (ns := [⟨b!"ou", b!"People"⟩, ⟨b!"dc", b!"lg"⟩]) (by decide +kernel) (by decide +kernel) 2
      (by decide +kernel),
    C39_escaped_names asciiCase_lawful hb (by simp) (x := b!"cn=Doe\\, John") (ns := [⟨b!"ou", b!"People"⟩, ⟨b!"dc", b!"lg"⟩])
      (r := [⟨b!"cn", b!"Doe, John"⟩]) (r' := [⟨b!"cn", b!"doe, john"⟩]) (by decide +kernel) (by decide) (by decide +kernel) (by decide +kernel)
      (by decide +kernel) 2 (by decide +kernel) (by decide)⟩

theorem esc_reach : LdifReach ldEnv ldOrd ldCfg 8 false [escRecs] (ldStart escRecs) :=
  .start _ _ _ _ _ _ (ldMemI_loads (by decide +kernel))

/-- C39 applies to a subtree search above a name with an escape -/
example := C39_search_exact_partial (V := ldEnv) asciiCase_lawful ldOrd_lawful esc_reach (fun _ _ => False) [] (Or.inl ⟨rfl, rfl, rfl⟩)
  b!"ou=People,dc=lg" [[⟨b!"ou", b!"People"⟩], [⟨b!"dc", b!"lg"⟩]] (by decide +kernel) (by decide +kernel) 2 (by omega) (by decide) escRecs_tells
  (.eq b!"cn" b!"doe, john") _ (wEq_wire _ _) (by decide +kernel : AttrText b!"cn") trivial trivial false (by decide +kernel)
  (fun r _ => ⟨ascii_agrees _ _, fun h => by cases h⟩) [b!"cn"] (by decide +kernel) toyOracle 7
example : (handlePacket ldEnv ldSrv toyOracle (wMsg 7 (wSearch b!"ou=People,dc=lg" 2 0 (wEq b!"cn" b!"doe, john") [b!"cn"])) [] (ldStart escRecs)).resps =
    [.entry 7 ⟨b!"cn=doe\\, john,ou=people,dc=lg", [⟨b!"cn", [b!"Doe, John"]⟩]⟩, .searchDone 7 0 (some [])] := by decide +kernel

/-- and to a search of the entry itself. -/
example := C39_search_exact_partial (V := ldEnv) asciiCase_lawful ldOrd_lawful esc_reach (fun _ _ => False) [] (Or.inl ⟨rfl, rfl, rfl⟩)
  b!"cn=doe\\, John,ou=People,dc=lg" [[⟨b!"cn", b!"doe, John"⟩], [⟨b!"ou", b!"People"⟩], [⟨b!"dc", b!"lg"⟩]] (by decide +kernel) (by decide +kernel)
  0 (by omega) (by decide)
  (by
    have h : entriesIn escRecs = [_, _] := rfl
    rw [h]
    simp only [List.forall_mem_cons, List.not_mem_nil, false_implies, implies_true, and_true]
    refine ⟨C39_elsewhere 0 (by decide +kernel) ?_, C39_itself 0 (Or.inl rfl) (by decide +kernel) ?_ ?_⟩
    · rintro ⟨m, n, h1, h2, h3⟩
      rw [show parseDN ldEnv.C b!"cn=doe\\, John,ou=People,dc=lg" = some [[⟨b!"cn", b!"doe, John"⟩], [⟨b!"ou", b!"People"⟩], [⟨b!"dc", b!"lg"⟩]] by decide +kernel] at h1
      rw [show parseDN ldEnv.C b!"ou=People,dc=lg" = some [[⟨b!"ou", b!"People"⟩], [⟨b!"dc", b!"lg"⟩]] by decide +kernel] at h2
      cases h1
      cases h2
      rcases h3 with ⟨h, -⟩ | ⟨h, -⟩ | ⟨-, q, p, h1, h2⟩
      · cases h
      · cases h
      · have := congrArg List.length h1
        have h2 := h2.1
        simp at this h2
        omega
    · exact ⟨[[⟨b!"cn", b!"doe, John"⟩], [⟨b!"ou", b!"People"⟩], [⟨b!"dc", b!"lg"⟩]], [[⟨b!"cn", b!"Doe, John"⟩], [⟨b!"ou", b!"People"⟩], [⟨b!"dc", b!"lg"⟩]], by decide +kernel, by decide +kernel,
        Or.inl ⟨rfl, (dnEqFold_iff _ _).1 (by decide +kernel)⟩⟩
    · exact ⟨[[⟨b!"cn", b!"doe, John"⟩], [⟨b!"ou", b!"People"⟩], [⟨b!"dc", b!"lg"⟩]], [[⟨b!"cn", b!"doe, john"⟩], [⟨b!"ou", b!"people"⟩], [⟨b!"dc", b!"lg"⟩]], by decide +kernel, by decide +kernel,
        Or.inl ⟨rfl, (dnEqFold_iff _ _).1 (by decide +kernel)⟩⟩)
  (.present b!"cn") (ctxStr 7 b!"cn") ⟨rfl, rfl⟩ (by decide +kernel : AttrText b!"cn") trivial trivial false (by decide +kernel)
  (fun r _ => ⟨ascii_agrees _ _, fun h => by cases h⟩) [b!"cn"] (by decide +kernel) toyOracle 7
example : (handlePacket ldEnv ldSrv toyOracle (wMsg 7 (wSearch b!"cn=doe\\, John,ou=People,dc=lg" 0 0 (ctxStr 7 b!"cn") [b!"cn"])) [] (ldStart escRecs)).resps =
    [.entry 7 ⟨b!"cn=doe\\, john,ou=people,dc=lg", [⟨b!"cn", [b!"Doe, John"]⟩]⟩, .searchDone 7 0 (some [])] := by decide +kernel

/-- C39 fails for one-level searches above such a name: the answer is an error. -/
theorem C39_escaped_comma_fails :
    (handlePacket ldEnv ldSrv toyOracle (wMsg 7 (wSearch b!"ou=People,dc=lg" 1 0 (ctxStr 7 b!"cn") [b!"cn"])) [] (ldStart escRecs)).resps =
      [.searchDone 7 1 (some [])] ∧
    TextInScope asciiCase 1 b!"ou=People,dc=lg" b!"cn=Doe\\, John,ou=People,dc=lg" :=
  ⟨by decide +kernel, [[⟨b!"ou", b!"People"⟩], [⟨b!"dc", b!"lg"⟩]], [[⟨b!"cn", b!"Doe, John"⟩], [⟨b!"ou", b!"People"⟩], [⟨b!"dc", b!"lg"⟩]], by decide +kernel, by decide +kernel,
    Or.inr (Or.inl ⟨rfl, _, _, rfl, (dnEqFold_iff _ _).1 (by decide +kernel)⟩)⟩

/-- C38 fails for names with an escape: `cn=a\\,dc=x,dc=lg` is found below `dc=x,dc=lg`. -/
theorem C38_escaped_comma_fails : ∃ (recs : List (Option Entry)) (d : Str), (treeFromLDIF asciiCase defaultIdx recs).isSome = true ∧
    (handlePacket ldEnv ldSrv toyOracle (wMsg 7 (wSearch b!"dc=x,dc=lg" 2 0 (ctxStr 7 b!"cn") [b!"1.1"])) [] (ldStart recs)).resps =
      [.entry 7 ⟨d, []⟩, .searchDone 7 0 (some [])] ∧ ¬ TextInScope asciiCase 2 b!"dc=x,dc=lg" d := by
  refine ⟨[some ⟨b!"cn=a\\,dc=x,dc=lg", [⟨b!"cn", [b!"a,dc=x"]⟩]⟩], b!"cn=a\\,dc=x,dc=lg", by decide +kernel, by decide +kernel, ?_⟩
  rintro ⟨m, n, h1, h2, h3⟩
  rw [show parseDN asciiCase b!"dc=x,dc=lg" = some [[⟨b!"dc", b!"x"⟩], [⟨b!"dc", b!"lg"⟩]] by decide +kernel] at h1
  rw [show parseDN asciiCase b!"cn=a\\,dc=x,dc=lg" = some [[⟨b!"cn", b!"a,dc=x"⟩], [⟨b!"dc", b!"lg"⟩]] by decide +kernel] at h2
  cases h1
  cases h2
  rcases h3 with ⟨h, -⟩ | ⟨h, -⟩ | ⟨-, q, p, h1, h2⟩
  · cases h
  · cases h
  · have hl := congrArg List.length h1
    have h0 := h2.1
    simp at hl h0
    have : q = [] := List.length_eq_zero_iff.1 (by omega)
    subst this
    have h1 : _ = p := h1
    subst h1
    exact absurd ((dnEqFold_iff _ _).2 h2) (by decide +kernel)

/-- A comparison up to case that, like Unicode's of the two small letters sigma, holds of two letters that are the same in upper case and
differ in lower case. The two are the bytes 242 and 243, which they have in ISO 8859-7. -/
def sigmaCase : CaseEnv :=
  { asciiCase with eqFold := fun s t => decide ((s.map fun c => if c = 242 then 243 else lowerByte c) = t.map fun c => if c = 242 then 243 else lowerByte c) }

theorem sigmaCase_lawful : sigmaCase.Lawful := { asciiCase_lawful with
  eqFold_refl := by intro s; simp [sigmaCase]
  eqFold_symm := by intro s t; simp only [sigmaCase]; rw [decide_eq_decide]; exact eq_comm
  eqFold_trans := by intro s t u h1 h2; simp only [sigmaCase, decide_eq_true_eq] at *; exact h1.trans h2
  eqFold_ascii := by
    intro s t hs ht
    have h : ∀ s : Str, IsAscii s → (s.map fun c => if c = 242 then 243 else lowerByte c) = s.map lowerByte := by
      intro s hs
      refine List.map_congr_left fun c hc => if_neg ?_
      rintro rfl
      exact absurd (hs _ hc) (by decide)
    simp only [sigmaCase, decide_eq_true_eq, h s hs, h t ht] }

/-- C39 fails for names that are the same although their texts in lower case differ: a search of the base's subtree does not find its entry. -/
theorem C39_case_fails :
    let V : Env := { ldEnv with C := sigmaCase }
    let e : Entry := ⟨b!"ou=" ++ [242] ++ b!",dc=lg", [⟨b!"ou", [b!"s"]⟩]⟩
    let b := b!"ou=" ++ [243] ++ b!",dc=lg"
    LdifReach V ldOrd ldCfg 8 false [[some e]] (ldStart [some e]) ∧ TextInScope sigmaCase 0 b e.dn ∧
    (handlePacket V (ldifSrv V ldOrd ldCfg 8 false) toyOracle (wMsg 7 (wSearch e.dn 0 0 (ctxStr 7 b!"ou") [b!"1.1"])) [] (ldStart [some e])).resps =
      [.entry 7 ⟨e.dn, []⟩, .searchDone 7 0 (some [])] ∧
    (handlePacket V (ldifSrv V ldOrd ldCfg 8 false) toyOracle (wMsg 7 (wSearch b 0 0 (ctxStr 7 b!"ou") [b!"1.1"])) [] (ldStart [some e])).resps =
      [.searchDone 7 0 (some [])] := by
  refine ⟨.start _ _ _ _ _ _ ?_, ⟨_, _, rfl, rfl, Or.inl ⟨rfl, (dnEqFold_iff _ _).1 (by decide +kernel)⟩⟩, by decide +kernel, by decide +kernel⟩
  exact ldMemI_loads (recs := [some ⟨b!"ou=" ++ [242] ++ b!",dc=lg", [⟨b!"ou", [b!"s"]⟩]⟩]) (by decide +kernel)

/-- C46 fails for such names: both are loaded. -/
theorem C46_case_fails : ∃ (r r' : Entry) (n n' : DN), parseDN sigmaCase r.dn = some n ∧ parseDN sigmaCase r'.dn = some n' ∧
    dnEqFold sigmaCase n n' = true ∧ (treeFromLDIF sigmaCase defaultIdx [some r, some r']).isSome = true :=
  ⟨⟨b!"uid=" ++ [242] ++ b!",dc=lg", []⟩, ⟨b!"uid=" ++ [243] ++ b!",dc=lg", []⟩, _, _, rfl, rfl, by decide +kernel, by decide +kernel⟩

end Idm
