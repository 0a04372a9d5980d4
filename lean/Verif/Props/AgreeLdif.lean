import Verif.Props.LdifSearch
import Verif.Props.Agree
import Verif.Props.Respelt

/-! # C115 for the handler of LDIF files -/

namespace Idm

section
variable {V : Env} {W : WalkOrd} {cfg : LdifCfg} {g : Nat} {stats : Bool}

theorem entriesOf_records (id : Int) (f : Entry → Entry) (found : List Entry) (code : Nat) (cs : Option (List Control)) :
    entriesOf (found.map (fun x => .entry id (f x)) ++ [.searchDone id code cs]) = found.map f := by
  unfold entriesOf
  rw [List.filterMap_append]
  simp [List.filterMap_map, Function.comp_def]

/-- What C39 needs to know about a filter: it is written as RFC 4511 says, the server can judge it, and the indexes lose nothing. -/
def FilterFits (C : CaseEnv) (idx : IdxAttrs) (recs : List (Option Entry)) (f : Filter) : Prop :=
  FilterOk f ∧ Supported f ∧ ∃ ends : Bool, NoneLost C idx ends f = true ∧
    ∀ r ∈ entriesIn recs, CaseAgrees C (publicView C r) f ∧ (ends = true → EndsAgree C (publicView C r) f)

/-- C115 for LDIF files: in any reachable state of the server, searches at one place with the filters `f`, `g`, `(&(f)(g))`, `(|(f)(g))` and
`(&(g)(!(f)))` agree with each other: the third finds what the first two have in common, the fourth what any of them has, the last what the second has
and the first has not. (Missing: what C39 leaves out, in particular filters for which the indexes lose entries: `C115_ldif_or_fails`, `C115_ldif_and_fails`.) -/
theorem C115_ldif_filters_partial (hC : V.C.Lawful) (hW : W.Lawful) {recs older} {st : LdifSt}
    (h : LdifReach V W cfg g stats (recs :: older) st) (bound : Str) (hread : MayRead V.C cfg bound)
    (b : Str) (nb : DN) (hb : parseDN V.C b = some nb) (hbase : hasSuffix (V.C.lower b) cfg.base = true)
    (scope : Nat) (hs : scope ≤ 2) (hroot : scope = 1 → nb ≠ []) (hdn : ∀ r ∈ entriesIn recs, TextTells V.C scope b r.dn)
    (f g' : Filter) (wf wg wand wor wdiff : Packet) (hwf : Wire f wf) (hwg : Wire g' wg) (hand : Wire (.and [f, g']) wand)
    (hor : Wire (.or [f, g']) wor) (hdiff : Wire (.and [g', .not f]) wdiff)
    (hfit : ∀ x ∈ [f, g', .and [f, g'], .or [f, g'], .and [g', .not f]], FilterFits V.C cfg.idx recs x)
    (attrs : List Str) (hrep : NoRepeat V.C attrs) (o : Oracle) (id : Int) :
    let S := fun w => entriesOf (handlePacket V (ldifSrv V W cfg g stats) o (wMsg id (wSearch b scope 0 w attrs)) bound st).resps
    (∀ e, e ∈ S wand ↔ e ∈ S wf ∧ e ∈ S wg) ∧ (∀ e, e ∈ S wor ↔ e ∈ S wf ∨ e ∈ S wg) ∧ (∀ e, e ∈ S wdiff ↔ e ∈ S wg ∧ ¬ e ∈ S wf) := by
  intro S
  have key : ∀ f w, Wire f w → FilterFits V.C cfg.idx recs f → ∀ e, e ∈ S w ↔
      ∃ r ∈ entriesIn recs, TextInScope V.C scope b r.dn ∧ Sat V.C (fun _ _ => False) (publicView V.C r) (firstOnly f) ∧
        e = reduced V.C attrs (publicView V.C r) := by
    rintro f w hw ⟨hf, hsup, ends, hlost, hagree⟩ e
    obtain ⟨found, -, h2, h3⟩ := C39_search_first_partial (g := g) (stats := stats) hC hW h (fun _ _ => False) bound hread b nb hb hbase scope hs hroot hdn
      f w hw hf hsup ends hlost hagree attrs hrep o id
    show e ∈ entriesOf (handlePacket V (ldifSrv V W cfg g stats) o (wMsg id (wSearch b scope 0 w attrs)) bound st).resps ↔ _
    rw [h3]
    dsimp only
    rw [entriesOf_records, List.mem_map]
    constructor
    · rintro ⟨x, hx, rfl⟩
      obtain ⟨a, b, c⟩ := (h2 x).1 hx
      exact ⟨x, a, b, c, rfl⟩
    · rintro ⟨x, a, b, c, rfl⟩
      exact ⟨x, (h2 x).2 ⟨a, b, c⟩, rfl⟩
  have inj : ∀ x ∈ entriesIn recs, ∀ y ∈ entriesIn recs,
      reduced V.C attrs (publicView V.C x) = reduced V.C attrs (publicView V.C y) → x = y := by
    intro x hx y hy he
    obtain ⟨⟨recs', older', e, hm⟩, -⟩ := reach_inv hW h
    cases e
    have hu := (treeFromLDIF_spec V.C cfg.idx recs).1.1 ⟨_, hm⟩
    exact nodup_inj hu x hx y hy (show (reduced V.C attrs (publicView V.C x)).dn = (reduced V.C attrs (publicView V.C y)).dn from congrArg Entry.dn he)
  have kf := key f wf hwf (hfit _ (by simp))
  have kg := key g' wg hwg (hfit _ (by simp))
  refine ⟨fun e => ?_, fun e => ?_, fun e => ?_⟩
  · rw [key _ wand hand (hfit _ (by simp)) e, kf, kg]
    simp only [firstOnly, firstOnlyAll, Sat, SatAll, and_true]
    constructor
    · rintro ⟨x, hx, b, ⟨c1, c2⟩, d⟩
      exact ⟨⟨x, hx, b, c1, d⟩, x, hx, b, c2, d⟩
    · rintro ⟨⟨x, hx, b, c1, d⟩, y, hy, -, c2, d'⟩
      have := inj x hx y hy (d.symm.trans d')
      subst this
      exact ⟨x, hx, b, ⟨c1, c2⟩, d⟩
  · rw [key _ wor hor (hfit _ (by simp)) e, kf, kg]
    simp only [firstOnly, firstOnlyAll, Sat, SatAny, or_false]
    constructor
    · rintro ⟨x, hx, b, c | c, d⟩
      · exact .inl ⟨x, hx, b, c, d⟩
      · exact .inr ⟨x, hx, b, c, d⟩
    · rintro (⟨x, hx, b, c, d⟩ | ⟨x, hx, b, c, d⟩)
      · exact ⟨x, hx, b, .inl c, d⟩
      · exact ⟨x, hx, b, .inr c, d⟩
  · rw [key _ wdiff hdiff (hfit _ (by simp)) e, kf, kg]
    simp only [firstOnly, firstOnlyAll, Sat, SatAll, and_true]
    constructor
    · rintro ⟨x, hx, b, ⟨c1, c2⟩, d⟩
      refine ⟨⟨x, hx, b, c1, d⟩, ?_⟩
      rintro ⟨y, hy, -, c, d'⟩
      have := inj x hx y hy (d.symm.trans d')
      subst this
      exact c2 c
    · rintro ⟨⟨x, hx, b, c, d⟩, hno⟩
      exact ⟨x, hx, b, ⟨c, fun c' => hno ⟨x, hx, b, c', d⟩⟩, d⟩

theorem sameDn_refl {C : CaseEnv} (hC : C.Lawful) (p : DN) : SameDn C p p := by
  refine ⟨rfl, fun i r s h1 h2 => ?_⟩
  rw [h1] at h2
  cases h2
  have h : ∀ a : AVA, SameAva C a a := fun a => ⟨hC.eqFold_refl _, hC.eqFold_refl _⟩
  exact ⟨rfl, fun a ha => ⟨a, ha, h a⟩, fun a ha => ⟨a, ha, h a⟩⟩

/-- C115 for LDIF files: in any reachable state, every entry a search finds can be read again alone: a base-object search at the DN it is sent with, the same
filter and the same list of attributes answer with exactly that entry. (Missing: what C39 leaves out.) -/
theorem C115_ldif_again_partial (hC : V.C.Lawful) (hW : W.Lawful) {recs older} {st : LdifSt}
    (h : LdifReach V W cfg g stats (recs :: older) st) (bound : Str) (hread : MayRead V.C cfg bound)
    (b : Str) (nb : DN) (hb : parseDN V.C b = some nb) (hbase : hasSuffix (V.C.lower b) cfg.base = true)
    (scope : Nat) (hs : scope ≤ 2) (hroot : scope = 1 → nb ≠ []) (hdn : ∀ r ∈ entriesIn recs, TextTells V.C scope b r.dn)
    (hdn' : ∀ r ∈ entriesIn recs, ∀ r' ∈ entriesIn recs, TextTells V.C 0 (V.C.lower r.dn) r'.dn)
    (f : Filter) (wf : Packet) (hwf : Wire f wf) (hfit : FilterFits V.C cfg.idx recs f)
    (attrs : List Str) (hrep : NoRepeat V.C attrs) (o : Oracle) (id : Int) :
    let S := fun b scope => entriesOf (handlePacket V (ldifSrv V W cfg g stats) o (wMsg id (wSearch b scope 0 wf attrs)) bound st).resps
    ∀ e, e ∈ S b scope → S e.dn 0 = [e] := by
  intro S e he
  obtain ⟨hf, hsup, ends, hlost, hagree⟩ := hfit
  have hll : ∀ s, V.C.lower (V.C.lower s) = V.C.lower s := hC.lower_idem
  have hself : ∀ r ∈ entriesIn recs, (∃ n, parseDN V.C (V.C.lower r.dn) = some n) ∧ TextInScope V.C 0 (V.C.lower r.dn) r.dn := by
    intro r hr
    obtain ⟨⟨n, hn⟩, -, h3, -⟩ := (hdn' r hr r hr).2 (by rw [hll, hasSuffix_iff]; exact List.suffix_refl _)
    exact ⟨⟨n, hn⟩, (h3 (by omega)).1 ⟨n, n, hn, hn, .inl ⟨rfl, sameDn_refl hC n⟩⟩⟩
  obtain ⟨found, -, h2, h3⟩ := C39_search_first_partial (g := g) (stats := stats) hC hW h (fun _ _ => False) bound hread b nb hb hbase scope hs hroot hdn
    f wf hwf hf hsup ends hlost hagree attrs hrep o id
  have he : e ∈ entriesOf (handlePacket V (ldifSrv V W cfg g stats) o (wMsg id (wSearch b scope 0 wf attrs)) bound st).resps := he
  rw [h3] at he
  dsimp only at he
  rw [entriesOf_records, List.mem_map] at he
  obtain ⟨r, hr, rfl⟩ := he
  obtain ⟨hrm, hrs, hsat⟩ := (h2 r).1 hr
  have hbase' : hasSuffix (V.C.lower (V.C.lower r.dn)) cfg.base = true := by
    rw [hll]
    exact hasSuffix_trans ((hdn r hrm).1 hrs) hbase
  obtain ⟨⟨nr, hnr⟩, hrr⟩ := hself r hrm
  obtain ⟨found', k1, k2, k3⟩ := C39_search_first_partial (g := g) (stats := stats) hC hW h (fun _ _ => False) bound hread (V.C.lower r.dn) nr hnr hbase' 0
    (by omega) (fun h => by omega) (hdn' r hrm) f wf hwf hf hsup ends hlost hagree attrs hrep o id
  have hfound : found' = [r] := by
    have hrf : r ∈ found' := (k2 r).2 ⟨hrm, hrr, hsat⟩
    have hall : ∀ y ∈ found', y = r := by
      intro y hy
      obtain ⟨hym, hys, -⟩ := (k2 y).1 hy
      have s1 := (hdn' r hrm y hym).1 hys
      obtain ⟨-, hyy⟩ := hself y hym
      have s2 := (hdn' y hym r hrm).1 (by
        obtain ⟨a1, a2, e1, e2, e3⟩ := hys
        obtain ⟨b1, b2, f1, f2, f3⟩ := hrr
        obtain ⟨c1, c2, g1, g2, g3⟩ := hyy
        rw [e1] at f1
        cases f1
        rw [e2] at g2
        cases g2
        refine ⟨c1, b2, g1, f2, .inl ⟨rfl, ?_⟩⟩
        have e3 : SameDn V.C a2 a1 := by rcases e3 with ⟨-, h⟩ | ⟨h, -⟩ | ⟨h, -⟩ <;> first | exact h | simp at h
        have f3 : SameDn V.C b2 a1 := by rcases f3 with ⟨-, h⟩ | ⟨h, -⟩ | ⟨h, -⟩ <;> first | exact h | simp at h
        have g3 : SameDn V.C a2 c1 := by rcases g3 with ⟨-, h⟩ | ⟨h, -⟩ | ⟨h, -⟩ <;> first | exact h | simp at h
        exact sameDn_trans hC f3 (sameDn_trans hC (sameDn_symm hC e3) g3))
      rw [hll, hasSuffix_iff] at s1 s2
      exact nodup_inj k1 y hy r hrf (s2.eq_of_length (Nat.le_antisymm s2.length_le s1.length_le))
    match found', k1, hrf, hall with
    | [], _, hrf, _ => cases hrf
    | [y], _, _, hall => rw [hall y (by simp)]
    | y :: z :: l, k1, _, hall =>
      rw [hall y (by simp), hall z (by simp)] at k1
      simp at k1
  show entriesOf (handlePacket V (ldifSrv V W cfg g stats) o (wMsg id (wSearch (V.C.lower r.dn) 0 0 wf attrs)) bound st).resps = _
  rw [k3]
  dsimp only
  rw [entriesOf_records, hfound]
  rfl

end

/-- `(mail=x)`, `(cn=Bob Cole)` and their combinations fit -/
example : ∀ x ∈ ([.eq b!"mail" b!"x", .eq b!"cn" b!"Bob Cole", .and [.eq b!"mail" b!"x", .eq b!"cn" b!"Bob Cole"],
    .or [.eq b!"mail" b!"x", .eq b!"cn" b!"Bob Cole"], .and [.eq b!"cn" b!"Bob Cole", .not (.eq b!"mail" b!"x")]] : List Filter),
    FilterFits asciiCase ldCfg.idx ldRecs x := by
  intro x hx
  have h1 : FilterOk (.eq b!"mail" b!"x") := by unfold FilterOk; decide +kernel
  have h2 : FilterOk (.eq b!"cn" b!"Bob Cole") := by unfold FilterOk; decide +kernel
  have hrest : FilterOk x ∧ Supported x → NoneLost asciiCase ldCfg.idx false x = true → FilterFits asciiCase ldCfg.idx ldRecs x :=
    fun h1 h2 => ⟨h1.1, h1.2, false, h2, fun r _ => ⟨ascii_agrees _ _, fun h => nomatch h⟩⟩
  simp only [List.mem_cons, List.not_mem_nil, or_false] at hx
  rcases hx with rfl | rfl | rfl | rfl | rfl
  · exact hrest ⟨h1, trivial⟩ (by decide +kernel)
  · exact hrest ⟨h2, trivial⟩ (by decide +kernel)
  · exact hrest ⟨⟨h1, h2, trivial⟩, trivial, trivial, trivial⟩ (by decide +kernel)
  · exact hrest ⟨⟨h1, h2, trivial⟩, trivial, trivial, trivial⟩ (by decide +kernel)
  · exact hrest ⟨⟨h2, h1, trivial⟩, trivial, trivial, trivial⟩ (by decide +kernel)

/-- the records of `ldRecs` fit as bases, and one is read again -/
example : (∀ r ∈ entriesIn ldRecs, ∀ r' ∈ entriesIn ldRecs, TextTells asciiCase 0 (asciiCase.lower r.dn) r'.dn) ∧
    (let S := fun b s => (entriesOf (ldReq [] (wSearch b s 0 (wEq b!"cn" b!"Bob Cole") [b!"cn"])).resps).map Entry.dn
    S b!"dc=lg" 2 = [b!"uid=bob,ou=people,dc=lg"] ∧ S b!"uid=bob,ou=people,dc=lg" 0 = [b!"uid=bob,ou=people,dc=lg"]) := by
  refine ⟨?_, by decide +kernel⟩
  have h4 : entriesIn ldRecs = [_, _, _, _] := rfl
  have hl : ∀ r ∈ entriesIn ldRecs, ∃ ns, PlainDN asciiCase (asciiCase.lower r.dn) ns ∧ ns ≠ [] ∧ ∀ a ∈ ns, IsAscii a.val := by
    rw [h4]
    simp only [List.forall_mem_cons, List.not_mem_nil, false_implies, implies_true, and_true]
    exact ⟨⟨[⟨b!"dc", b!"lg"⟩], by decide +kernel⟩, ⟨[⟨b!"ou", b!"people"⟩, ⟨b!"dc", b!"lg"⟩], by decide +kernel⟩,
      ⟨[⟨b!"uid", b!"ann"⟩, ⟨b!"ou", b!"people"⟩, ⟨b!"dc", b!"lg"⟩], by decide +kernel⟩,
      ⟨[⟨b!"uid", b!"bob"⟩, ⟨b!"ou", b!"people"⟩, ⟨b!"dc", b!"lg"⟩], by decide +kernel⟩⟩
  have hp : ∀ r ∈ entriesIn ldRecs, ∃ ns, PlainDN asciiCase r.dn ns ∧ ∀ a ∈ ns, IsAscii a.val := by
    rw [h4]
    simp only [List.forall_mem_cons, List.not_mem_nil, false_implies, implies_true, and_true]
    exact ⟨⟨[⟨b!"dc", b!"lg"⟩], by decide +kernel⟩, ⟨[⟨b!"ou", b!"People"⟩, ⟨b!"dc", b!"lg"⟩], by decide +kernel⟩,
      ⟨[⟨b!"uid", b!"Ann"⟩, ⟨b!"ou", b!"People"⟩, ⟨b!"dc", b!"lg"⟩], by decide +kernel⟩,
      ⟨[⟨b!"uid", b!"bob"⟩, ⟨b!"ou", b!"People"⟩, ⟨b!"dc", b!"lg"⟩], by decide +kernel⟩⟩
  intro r hr r' hr'
  obtain ⟨nb, h1, h2, h3⟩ := hl r hr
  obtain ⟨ns, h4, h5⟩ := hp r' hr'
  exact C39_plain_names asciiCase_lawful h1 h2 h4 (namesAgree_ascii asciiCase_lawful h5 h3) 0 (fun h => by omega)

/-- C115 fails for the handler of LDIF files where the indexes lose entries: `(objectClass=domain)` finds an entry that
`(|(objectClass=domain)(cn=Bob Cole))` does not find. -/
theorem C115_ldif_or_fails :
    let S := fun w => (entriesOf (ldReq [] (wSearch b!"dc=lg" 2 0 w [b!"cn"])).resps).map Entry.dn
    let f := wEq b!"objectClass" b!"domain"
    let g := wEq b!"cn" b!"Bob Cole"
    S f = [b!"dc=lg"] ∧ S g = [b!"uid=bob,ou=people,dc=lg"] ∧ S (.mk .context true 1 .nil [] [f, g]) = [b!"uid=bob,ou=people,dc=lg"] := by
  decide +kernel

/-- C115 fails for the handler of LDIF files: `(cn=ANN*)` finds nothing, but `(&(cn=ANN*)(uid=Ann))` finds an entry; and `(&(cn=*)(!(cn=ANN*)))` does
not find all that `(cn=*)` finds. -/
theorem C115_ldif_and_fails :
    let S := fun w => (entriesOf (ldReq [] (wSearch b!"dc=lg" 2 0 w [b!"cn"])).resps).map Entry.dn
    let f : Packet := .mk .context true 4 .nil [] [octet b!"cn", wSeq [ctxStr 0 b!"ANN"]]
    let g := ctxStr 7 b!"cn"
    S f = [] ∧ S (.mk .context true 0 .nil [] [f, wEq b!"uid" b!"Ann"]) = [b!"uid=ann,ou=people,dc=lg"] ∧
    S g = [b!"uid=ann,ou=people,dc=lg", b!"uid=bob,ou=people,dc=lg"] ∧
    S (.mk .context true 0 .nil [] [g, .mk .context true 2 .nil [] [f]]) = [b!"uid=bob,ou=people,dc=lg"] := by
  decide +kernel

end Idm
