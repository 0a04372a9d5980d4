import Verif.Props.ShuffleLdif
/-!
# C122: a change of the LDIF files shows in the records changed and nowhere else
-/
namespace Idm

section
variable {V : Env} {W : WalkOrd} {cfg : LdifCfg} {g : Nat} {stats : Bool}

theorem pump_visible {C : CaseEnv} (hW : W.Lawful) {idx : IdxAttrs} {recs : List (Option Entry)} {m : LMem} (hm : treeFromLDIF C idx recs = some m)
    (base : Str) (fs : List IdxReq) (ht : ∀ f ∈ fs, TagOk f.kind f.tag) (e : Entry) :
    e ∈ (pump C W m base fs).map (·.visible) ↔ ∃ r ∈ entriesIn recs, e = publicView C r ∧ Offered C idx base fs r := by
  have hin : ∀ {r}, r ∈ entriesIn recs ↔ ∃ p ∈ numbered C 0 recs, p.2 = r := by
    intro r
    rw [show entriesIn recs = (numbered C 0 recs).map (·.2) from (numbered_snd C recs 0).symm, List.mem_map]
  have hv : ∀ p ∈ numbered C 0 recs, p.1.visible = publicView C p.2 := by
    intro p hp
    obtain ⟨i, -, e⟩ := numbered_build C recs 0 p hp
    rw [e]
    rfl
  rw [List.mem_map]
  constructor
  · rintro ⟨x, hx, rfl⟩
    obtain ⟨p, hp, rfl, ho⟩ := (pump_mem hW hm base fs ht x).1 hx
    exact ⟨p.2, hin.2 ⟨p, hp, rfl⟩, hv p hp, ho⟩
  · rintro ⟨r, hr, rfl, ho⟩
    obtain ⟨p, hp, rfl⟩ := hin.1 hr
    exact ⟨p.1, (pump_mem hW hm base fs ht _).2 ⟨p, hp, rfl, ho⟩, hv p hp⟩

/-- What a search that ends well sends: every record is judged by itself. -/
theorem ldif_search_sent {o : Oracle} {id : Int} {bound b : Str} {scope : Nat} {w : Packet} {attrs : List Str} {st : LdifSt} {cs : Option (List Control)}
    (hok : .searchDone id 0 cs ∈ (handlePacket V (ldifSrv V W cfg g stats) o (wMsg id (wSearch b scope 0 w attrs)) bound st).resps) :
    ∃ s fp fs, decompile w = some s ∧ compile s = some fp ∧ indexFilter V.C s = .ok fs ∧ ∀ e,
      .entry id e ∈ (handlePacket V (ldifSrv V W cfg g stats) o (wMsg id (wSearch b scope 0 w attrs)) bound st).resps ↔
        ∃ x ∈ (pump V.C W st.main (V.C.lower b) fs).map (·.visible),
          keptEntry V.C fp ⟨b, scope, (0 : Nat), (0 : Nat), (0 : Nat), false, s, attrs, []⟩ x = true ∧ filterAttributes V.C attrs x = e := by
  rw [wSearch_packet, ldif_stepSearch, wSearch_parse] at hok ⊢
  cases hdec : decompile w with
  | none => rw [hdec] at hok; simp at hok
  | some s =>
    rw [hdec] at hok
    dsimp only [Option.map_some] at hok ⊢
    have hnot : ∀ (c : Nat) (st : LdifSt), c ≠ 0 →
        ¬ .searchDone id 0 cs ∈ (ldifOut id bound (.ok ⟨[], [], c, true⟩, st)).resps := by
      intro c st hc hh
      simp [ldifOut] at hh
      exact hc hh.1.symm
    generalize hrq : (⟨b, scope, (0 : Nat), (0 : Nat), (0 : Nat), false, s, attrs, []⟩ : SearchReq) = rq at hok
    have hpg : pagingOf rq = none := by rw [← hrq]; rfl
    have hsl : rq.sizeLimit ≤ 0 := by rw [← hrq]; exact Int.le_refl _
    have hb : rq.baseDN = b := by rw [← hrq]
    have hf : rq.filter = s := by rw [← hrq]
    have hat : rq.attrs = attrs := by rw [← hrq]
    unfold ldifSearch at hok ⊢
    dsimp only at hok ⊢
    by_cases hv : (!ldifValidDN cfg (V.C.lower bound)) = true
    · rw [if_pos hv] at hok; exact absurd hok (hnot _ _ (by decide))
    rw [if_neg hv] at hok ⊢
    rw [hf] at hok ⊢
    cases hfs : indexFilter V.C s with
    | err e => rw [hfs] at hok; simp [ldifOut] at hok
    | panic => rw [hfs] at hok; simp [ldifOut] at hok
    | hang => rw [hfs] at hok; simp [ldifOut] at hok
    | ok fs =>
      rw [hfs] at hok
      dsimp only at hok ⊢
      by_cases hbs : (!hasSuffix (V.C.lower rq.baseDN) cfg.base) = true
      · rw [if_pos hbs] at hok; exact absurd hok (hnot _ _ (by decide))
      rw [if_neg hbs, hpg] at hok ⊢
      simp only [pageSource] at hok ⊢
      cases hcomp : compile s with
      | none => rw [hcomp] at hok; exact absurd hok (hnot _ _ (by decide))
      | some fp =>
        rw [hcomp] at hok
        dsimp only [Option.map_none] at hok ⊢
        obtain ⟨s1, s2⟩ := searchPage_iff (V := V) fp rq hsl (pump V.C W st.main (V.C.lower rq.baseDN) fs) 0
        have hJ : ∃ p, searchPage V fp rq none 0 (pump V.C W st.main (V.C.lower rq.baseDN) fs) = .ok p ∧ p.code = rcSuccess := by
          cases hsp : searchPage V fp rq none 0 (pump V.C W st.main (V.C.lower rq.baseDN) fs) with
          | ok p =>
            refine ⟨p, rfl, Classical.byContradiction fun hc => ?_⟩
            rw [hsp] at hok
            dsimp only at hok
            rw [if_pos hc] at hok
            exact absurd hok (hnot _ _ hc)
          | err e => rw [hsp] at hok; simp [ldifOut] at hok
          | panic => rw [hsp] at hok; simp [ldifOut] at hok
          | hang => rw [hsp] at hok; simp [ldifOut] at hok
        refine ⟨s, fp, fs, rfl, hcomp, hfs, fun e => ?_⟩
        rw [s1 (s2 hJ), hb, hat]
        simp only [ldifOut, rcSuccess, ne_eq, not_true_eq_false, if_false, List.mem_append, List.mem_map, List.mem_filter, Resp.entry.injEq, true_and,
          exists_eq_right, List.mem_singleton, reduceCtorEq, or_false, and_assoc]
        rw [hrq]

theorem same_outside {C : CaseEnv} {T : List Str} {l l' : List Entry} (h : (l.filter fun r => C.lower r.dn ∉ T).Perm (l'.filter fun r => C.lower r.dn ∉ T))
    (r : Entry) (hr : C.lower r.dn ∉ T) : r ∈ l ↔ r ∈ l' := by
  have := h.mem_iff (a := r)
  simpa [List.mem_filter, hr] using this

/-- C122: two servers, or one before and after a reload, whose files have the same records but for those with the names `T`: if both answer a search
with success, they send the same entries, but for those with the names `T`. -/
theorem C122_search (hW : W.Lawful) {recs older recs' older'} {st st' : LdifSt} (h : LdifReach V W cfg g stats (recs :: older) st)
    (h' : LdifReach V W cfg g stats (recs' :: older') st') (T : List Str)
    (hsame : ((entriesIn recs).filter fun r => V.C.lower r.dn ∉ T).Perm ((entriesIn recs').filter fun r => V.C.lower r.dn ∉ T))
    (o o' : Oracle) (id : Int) (b : Str) (scope : Nat) (w : Packet) (attrs : List Str) (bound : Str) (cs cs' : Option (List Control)) :
    let before := handlePacket V (ldifSrv V W cfg g stats) o (wMsg id (wSearch b scope 0 w attrs)) bound st
    let later := handlePacket V (ldifSrv V W cfg g stats) o' (wMsg id (wSearch b scope 0 w attrs)) bound st'
    .searchDone id 0 cs ∈ before.resps → .searchDone id 0 cs' ∈ later.resps →
    ∀ e, e.dn ∉ T → (.entry id e ∈ before.resps ↔ .entry id e ∈ later.resps) := by
  intro before later h1 h2 e he
  have hsame := same_outside hsame
  obtain ⟨⟨_, _, q, hm⟩, -⟩ := reach_inv hW h
  cases q
  obtain ⟨⟨_, _, q, hm'⟩, -⟩ := reach_inv hW h'
  cases q
  obtain ⟨s, fp, fs, e1, e2, e3, e4⟩ := ldif_search_sent h1
  obtain ⟨s', fp', fs', e1', e2', e3', e4'⟩ := ldif_search_sent h2
  rw [e1] at e1'
  cases e1'
  rw [e2] at e2'
  cases e2'
  rw [e3] at e3'
  cases e3'
  rw [e4, e4']
  have ht := indexFilter_tagOk V.C _ fs e3
  have key : ∀ x, filterAttributes V.C attrs x = e → (x ∈ (pump V.C W st.main (V.C.lower b) fs).map (·.visible) ↔
      x ∈ (pump V.C W st'.main (V.C.lower b) fs).map (·.visible)) := by
    intro x hx
    rw [pump_visible hW hm _ fs ht, pump_visible hW hm' _ fs ht]
    have hd : e.dn = x.dn := by rw [← hx]; exact (C31_selected attrs x ⟨[], []⟩).1
    constructor
    · rintro ⟨r, hr, rfl, ho⟩
      exact ⟨r, (hsame r fun h => he (hd ▸ h)).1 hr, rfl, ho⟩
    · rintro ⟨r, hr, rfl, ho⟩
      exact ⟨r, (hsame r fun h => he (hd ▸ h)).2 hr, rfl, ho⟩
  constructor
  · rintro ⟨x, hx, hk, hf⟩
    exact ⟨x, (key x hf).1 hx, hk, hf⟩
  · rintro ⟨x, hx, hk, hf⟩
    exact ⟨x, (key x hf).2 hx, hk, hf⟩

theorem treeGet_outside {C : CaseEnv} {idx : IdxAttrs} {recs recs' : List (Option Entry)} {m m' : LMem} (hm : treeFromLDIF C idx recs = some m)
    (hm' : treeFromLDIF C idx recs' = some m') (dn : Str) (hp : ∀ r, C.lower r.dn = dn → (r ∈ entriesIn recs ↔ r ∈ entriesIn recs')) :
    (treeGet m.tree dn).map (·.pw) = (treeGet m'.tree dn).map (·.pw) := by
  have key : ∀ {recs m}, treeFromLDIF C idx recs = some m → ∀ w, (treeGet m.tree dn).map (·.pw) = some w ↔
      ∃ r ∈ entriesIn recs, C.lower r.dn = dn ∧ (buildEntry C 0 r).pw = w := by
    intro recs m hm w
    obtain ⟨t1, t2, -⟩ := (treeFromLDIF_spec C idx recs).2 m hm
    have hin : ∀ {r}, r ∈ entriesIn recs ↔ ∃ p ∈ numbered C 0 recs, p.2 = r := by
      intro r
      rw [show entriesIn recs = (numbered C 0 recs).map (·.2) from (numbered_snd C recs 0).symm, List.mem_map]
    have hb : ∀ p ∈ numbered C 0 recs, p.1.dn = C.lower p.2.dn ∧ p.1.pw = (buildEntry C 0 p.2).pw := by
      intro p hp
      obtain ⟨i, -, e⟩ := numbered_build C recs 0 p hp
      rw [e]
      exact ⟨rfl, rfl⟩
    rw [Option.map_eq_some_iff]
    constructor
    · rintro ⟨x, hx, rfl⟩
      obtain ⟨h1, h2⟩ := treeGet_some hx
      rw [t1] at h1
      obtain ⟨p, hp, rfl⟩ := List.mem_map.1 h1
      exact ⟨p.2, hin.2 ⟨p, hp, rfl⟩, (hb p hp).1 ▸ h2, (hb p hp).2.symm⟩
    · rintro ⟨r, hr, h1, h2⟩
      obtain ⟨p, hp, rfl⟩ := hin.1 hr
      refine ⟨p.1, ?_, (hb p hp).2.trans h2⟩
      rw [← h1, ← (hb p hp).1]
      refine treeGet_mem ?_ ?_
      · rw [t1, List.map_map]; exact t2
      · rw [t1]; exact List.mem_map.2 ⟨p, hp, rfl⟩
  apply Option.ext
  intro w
  rw [key hm, key hm']
  constructor
  · rintro ⟨r, hr, h⟩; exact ⟨r, (hp r h.1).1 hr, h⟩
  · rintro ⟨r, hr, h⟩; exact ⟨r, (hp r h.1).2 hr, h⟩

/-- C122: and a bind is answered alike, unless its name is one of `T`. -/
theorem C122_bind (hC : V.C.Lawful) (hW : W.Lawful) {recs older recs' older'} {st st' : LdifSt} (h : LdifReach V W cfg g stats (recs :: older) st)
    (h' : LdifReach V W cfg g stats (recs' :: older') st') (T : List Str)
    (hsame : ((entriesIn recs).filter fun r => V.C.lower r.dn ∉ T).Perm ((entriesIn recs').filter fun r => V.C.lower r.dn ∉ T))
    (hconf : cfg.conf = true → st'.conf = st.conf) (o o' : Oracle) (id : Int) (bound dn pw : Str) (hdn : V.C.lower dn ∉ T) :
    let before := handlePacket V (ldifSrv V W cfg g stats) o (wMsg id (wBind dn pw)) bound st
    let later := handlePacket V (ldifSrv V W cfg g stats) o' (wMsg id (wBind dn pw)) bound st'
    before.resps = later.resps ∧ before.next = later.next := by
  intro before later
  have hsame := same_outside hsame
  obtain ⟨⟨_, _, e, hm⟩, -⟩ := reach_inv hW h
  cases e
  obtain ⟨⟨_, _, e, hm'⟩, -⟩ := reach_inv hW h'
  cases e
  have hval : ∀ x y : LEntry, x.pw = y.pw → ldifValidate V x pw = ldifValidate V y pw := by
    intro x y h
    unfold ldifValidate
    rw [h]
  have hb : ∀ dn, V.C.lower dn ∉ T → (ldifBind V cfg dn pw st).1 = (ldifBind V cfg dn pw st').1 := by
    intro dn hdn
    have ht := treeGet_outside hm hm' (V.C.lower dn) fun r hr => hsame r (hr ▸ hdn)
    unfold ldifBind
    dsimp only
    split
    · rfl
    · split
      · split <;> rfl
      · cases hx : treeGet st.main.tree (V.C.lower dn) with
        | none =>
          cases hy : treeGet st'.main.tree (V.C.lower dn) with
          | none => rfl
          | some y => rw [hx, hy] at ht; cases ht
        | some x =>
          cases hy : treeGet st'.main.tree (V.C.lower dn) with
          | none => rw [hx, hy] at ht; cases ht
          | some y =>
            rw [hx, hy] at ht
            have : x.pw = y.pw := by simpa using ht
            show ldifBindCode (ldifValidate V x pw) = ldifBindCode (ldifValidate V y pw)
            rw [hval x y this]
  have hdn2 : V.C.lower (V.C.lower dn) ∉ T := by rwa [hC.lower_idem]
  refine bind_answer_same o o' id bound dn pw st st' ?_
  cases hc : cfg.conf with
  | false => simpa using hb dn hdn
  | true =>
    simp only [if_true]
    unfold confBind
    dsimp only
    rw [hconf hc]
    split
    · exact hb _ hdn2
    · split
      · split <;> rfl
      · exact hb _ hdn2

end

/-- Bob's record has changed and that of the unit has gone; that of Cy is new. The records are in another order. -/
def flRecs : List (Option Entry) :=
  [some ⟨b!"UID=bob,ou=People,dc=lg", [⟨b!"objectClass", [b!"person"]⟩, ⟨b!"cn", [b!"Robert"]⟩]⟩,
   some ⟨b!"uid=cy,dc=lg", [⟨b!"cn", [b!"Cy"]⟩]⟩,
   some ⟨b!"uid=Ann,ou=People,dc=lg", [⟨b!"objectClass", [b!"person", b!"top"]⟩, ⟨b!"uid", [b!"Ann"]⟩, ⟨b!"cn", [b!"Ann Berg"]⟩,
     ⟨b!"sn", [b!"Berg"]⟩, ⟨b!"userPassword", [b!"{ARGON2}$argon2id$pw"]⟩]⟩,
   some ⟨b!"dc=lg", [⟨b!"objectClass", [b!"domain"]⟩, ⟨b!"dc", [b!"lg"]⟩]⟩]

/-- The names of the records that differ. -/
def flNames : List Str := [b!"uid=bob,ou=people,dc=lg", b!"uid=cy,dc=lg", b!"ou=people,dc=lg"]

theorem fl_reach : LdifReach ldEnv ldOrd ldCfg 8 false [flRecs] (ldStart flRecs) := .start _ _ _ _ _ _ (ldMemI_loads (by decide +kernel))

theorem fl_same : ((entriesIn ldRecs).filter fun r => asciiCase.lower r.dn ∉ flNames).Perm ((entriesIn flRecs).filter fun r => asciiCase.lower r.dn ∉ flNames) := by
  decide +kernel

/-- The answers: Ann is sent by both. -/
example : let S := fun recs => (handlePacket ldEnv ldSrv toyOracle (wMsg 7 (wSearch b!"dc=lg" 2 0 (ctxStr 7 b!"cn") [b!"cn"])) [] (ldStart recs)).resps
    S ldRecs = [.entry 7 ⟨b!"uid=ann,ou=people,dc=lg", [⟨b!"cn", [b!"Ann Berg"]⟩]⟩,
      .entry 7 ⟨b!"uid=bob,ou=people,dc=lg", [⟨b!"cn", [b!"Bob Cole", b!"Berg"]⟩]⟩, .searchDone 7 0 (some [])] ∧
    S flRecs = [.entry 7 ⟨b!"uid=bob,ou=people,dc=lg", [⟨b!"cn", [b!"Robert"]⟩]⟩, .entry 7 ⟨b!"uid=cy,dc=lg", [⟨b!"cn", [b!"Cy"]⟩]⟩,
      .entry 7 ⟨b!"uid=ann,ou=people,dc=lg", [⟨b!"cn", [b!"Ann Berg"]⟩]⟩, .searchDone 7 0 (some [])] := by
  decide +kernel

/-- C122 applies to them -/
example := C122_search ldOrd_lawful ld_reach fl_reach flNames fl_same toyOracle toyOracle 7 b!"dc=lg" 2 (ctxStr 7 b!"cn") [b!"cn"] [] (some []) (some [])
  (by decide +kernel) (by decide +kernel) ⟨b!"uid=ann,ou=people,dc=lg", [⟨b!"cn", [b!"Ann Berg"]⟩]⟩ (by decide +kernel)

/-- and to a bind as Ann -/
example := C122_bind (V := ldEnv) asciiCase_lawful ldOrd_lawful ld_reach fl_reach flNames fl_same (fun _ => rfl) toyOracle toyOracle 7 [] b!"uid=Ann,ou=People,dc=lg" b!"pw"
  (by decide +kernel)

end Idm
