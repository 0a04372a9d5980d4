import Verif.Spec.Options
import Verif.Props.ShuffleLdif
import Verif.Props.BoltFind
/-!
# C124, C125: numbers and options of requests
-/
namespace Idm

section
variable {σ : Type} {V : Env}

theorem reply_numbered (i i' : Int) (tag : Nat) (bound : Str) (x : Res Nat × σ) :
    (reply i' tag bound x).resps = (reply i tag bound x).resps.map (Resp.numbered i') ∧ (reply i' tag bound x).next = (reply i tag bound x).next ∧
      (reply i' tag bound x).st = (reply i tag bound x).st := by
  obtain ⟨r, st⟩ := x
  cases r <;> simp [reply, Resp.numbered]

theorem stepBind_numbered (srv : Srv σ) (i i' : Int) (bound : Str) (req : Packet) (st : σ) :
    (stepBind V srv i' bound req st).resps = (stepBind V srv i bound req st).resps.map (Resp.numbered i') ∧
      (stepBind V srv i' bound req st).next = (stepBind V srv i bound req st).next ∧ (stepBind V srv i' bound req st).st = (stepBind V srv i bound req st).st := by
  unfold stepBind
  obtain ⟨r, st'⟩ := handleBind srv req st
  cases r with
  | ok code =>
    dsimp only
    split
    · cases req.kids[1]? with
      | none => simp
      | some d =>
        dsimp only
        cases d.str? with
        | none => simp
        | some dn =>
          dsimp only
          cases parseNormalize V.C dn <;> simp [Resp.numbered]
    · simp [Resp.numbered]
  | err e => simp
  | panic => simp
  | hang => simp

theorem stepExtended_numbered (srv : Srv σ) (o : Oracle) (i i' : Int) (bound : Str) (req : Packet) (st : σ) :
    (stepExtended V srv o i' bound req st).resps = (stepExtended V srv o i bound req st).resps.map (Resp.numbered i') ∧
      (stepExtended V srv o i' bound req st).next = (stepExtended V srv o i bound req st).next ∧
      (stepExtended V srv o i' bound req st).st = (stepExtended V srv o i bound req st).st := by
  unfold stepExtended
  obtain ⟨r, st'⟩ := handleExtended V srv o bound req st
  cases r with
  | ok x => cases x <;> simp [Resp.numbered]
  | err e => simp [Resp.numbered]
  | panic => simp
  | hang => simp

theorem stepSearch_numbered (srv : Srv σ) (i i' : Int) (bound : Str) (req : Packet) (cs : List Control) (st : σ) :
    (stepSearch V srv i' bound req cs st).resps = (stepSearch V srv i bound req cs st).resps.map (Resp.numbered i') ∧
      (stepSearch V srv i' bound req cs st).next = (stepSearch V srv i bound req cs st).next ∧
      (stepSearch V srv i' bound req cs st).st = (stepSearch V srv i bound req cs st).st := by
  unfold stepSearch
  obtain ⟨⟨sent, r⟩, st'⟩ := handleSearch V srv bound req cs st
  have hm : ∀ l : List Entry, l.map (Resp.entry i') = (l.map (Resp.entry i)).map (Resp.numbered i') := by
    intro l
    simp [Resp.numbered, Function.comp_def]
  cases r with
  | ok out =>
    dsimp only
    split <;> simp [hm, Resp.numbered]
  | err e => simp [hm]
  | panic => simp [hm]
  | hang => simp [hm]

/-- C124: on every server, whatever its functions are: two messages that differ at most in their numbers, and in what comes after the controls, have the
same effect and are answered alike; each answer carries the number of its message. -/
theorem C124_packet (srv : Srv σ) (o : Oracle) (p p' : Packet) (h : SameButNumber p p') (bound : Str) (st : σ) (i' : Int)
    (hi : p'.kids.head?.bind Packet.int? = some i') :
    (handlePacket V srv o p' bound st).resps = (handlePacket V srv o p bound st).resps.map (Resp.numbered i') ∧
      (handlePacket V srv o p' bound st).next = (handlePacket V srv o p bound st).next ∧
      (handlePacket V srv o p' bound st).st = (handlePacket V srv o p bound st).st := by
  obtain ⟨m, m', i, j, req, more, more', h1, h2, h3, h4, h5⟩ := h
  rw [h2, List.head?_cons, Option.bind_some, h4] at hi
  cases hi
  unfold handlePacket
  rw [h1, h2]
  dsimp only
  rw [h3, h4, ← h5]
  dsimp only
  split
  · simp
  cases decodeControls V ((more.head?.map Packet.kids).getD []) with
  | err e => simp
  | panic => simp
  | hang => simp
  | ok cs =>
    dsimp only
    split
    · split
      · simp
      · exact reply_numbered ..
    split
    · exact stepBind_numbered ..
    split
    · simp [Resp.numbered]
    split
    · exact reply_numbered ..
    split
    · exact stepExtended_numbered ..
    split
    · exact reply_numbered ..
    split
    · exact reply_numbered ..
    split
    · exact stepSearch_numbered ..
    · simp

theorem numbered_numbered (i j : Int) (l : List Resp) : (l.map (Resp.numbered i)).map (Resp.numbered j) = l.map (Resp.numbered j) := by
  rw [List.map_map]
  refine List.map_congr_left fun r _ => ?_
  cases r <;> rfl

/-- C124: so in two sessions whose messages differ at most in that, everything happens in the same way. -/
theorem C124_session (srv : Srv σ) {ps ps' : List (Packet × Oracle)} (h : SameSession ps ps') : ∀ (bound : Str) (st : σ),
    (serveFrom V srv bound st ps').log.map (fun x => x.2.map (Resp.numbered 0)) = (serveFrom V srv bound st ps).log.map (fun x => x.2.map (Resp.numbered 0)) ∧
      (serveFrom V srv bound st ps').next = (serveFrom V srv bound st ps).next ∧ (serveFrom V srv bound st ps').st = (serveFrom V srv bound st ps).st := by
  induction h with
  | nil => exact fun _ _ => ⟨rfl, rfl, rfl⟩
  | @cons p p' ps ps' o hp _ ih =>
    intro bound st
    have key : (handlePacket V srv o p' bound st).resps.map (Resp.numbered 0) = (handlePacket V srv o p bound st).resps.map (Resp.numbered 0) ∧
        (handlePacket V srv o p' bound st).next = (handlePacket V srv o p bound st).next ∧
        (handlePacket V srv o p' bound st).st = (handlePacket V srv o p bound st).st := by
      rcases hp with rfl | hp
      · exact ⟨rfl, rfl, rfl⟩
      · obtain ⟨m, m', i, i', req, more, more', h1, h2, h3, h4, h5⟩ := id hp
        obtain ⟨k1, k2⟩ := C124_packet (V := V) srv o p p' hp bound st i' (by rw [h2]; exact h4)
        exact ⟨by rw [k1, numbered_numbered], k2⟩
    obtain ⟨k1, k2, k3⟩ := key
    simp only [serveFrom]
    rw [k2, k3]
    cases (handlePacket V srv o p bound st).next with
    | go b =>
      obtain ⟨i1, i2, i3⟩ := ih b (handlePacket V srv o p bound st).st
      dsimp only
      exact ⟨by rw [List.map_cons, List.map_cons, i1, k1], i2, i3⟩
    | closed => exact ⟨by simp [k1], rfl, rfl⟩
    | crash => exact ⟨by simp [k1], rfl, rfl⟩
    | hang => exact ⟨by simp [k1], rfl, rfl⟩

end

section
variable {V : Env}

theorem searchO_parse (b : Str) (scope deref m : Nat) (time : Int) (types : Bool) (f : Packet) (attrs : List Str) (cs : List Control) :
    parseSearchRequest (wSearchO b scope deref m time types f attrs) cs =
      (decompile f).map fun s => ⟨b, scope, deref, m, time, types, s, attrs, cs⟩ := by
  have h1 := parseAttrNames_octet attrs
  have h2 : (octet b).str? = some b := rfl
  have h3 : ∀ i, (wEnum i).int? = some (i : Int) := fun _ => rfl
  have h4 : ∀ i : Int, (berInt i).int? = some i := fun _ => rfl
  have h5 : (wBool types).val ≠ .nil := by simp [wBool, Packet.val]
  have h6 : (wBool types).bool? = some types := rfl
  simp only [parseSearchRequest, wSearchO, wReq, Packet.kids, wSeq, h1, h2, h3, h4, if_neg h5, h6]
  cases hf : decompile f <;> simp

theorem unknown_decode : ∀ (controls : List Packet), NotPaging V controls → ∃ cs, decodeControls V controls = .ok cs ∧ ∀ c ∈ cs, ∃ oid, c = .other oid
  | [], _ => ⟨[], rfl, by simp⟩
  | p :: ps, h => by
    obtain ⟨cs, h1, h2⟩ := unknown_decode ps fun q hq => h q (List.mem_cons_of_mem _ hq)
    rcases h p List.mem_cons_self with ⟨oid, hp⟩ | ⟨e, hp⟩
    · refine ⟨.other oid :: cs, ?_, List.forall_mem_cons.2 ⟨⟨oid, rfl⟩, h2⟩⟩
      simp only [decodeControls, hp, h1]
      rfl
    · exact ⟨cs, by simp only [decodeControls, hp, h1], h2⟩

theorem searchO_packet {σ : Type} (srv : Srv σ) (o : Oracle) (id : Int) (b : Str) (scope deref m : Nat) (time : Int) (types : Bool) (f : Packet) (attrs : List Str)
    (controls : List Packet) (cs : List Control) (hc : decodeControls V controls = .ok cs) (bound : Str) (st : σ) :
    handlePacket V srv o (wMsgC id (wSearchO b scope deref m time types f attrs) controls) bound st =
      stepSearch V srv id bound (wSearchO b scope deref m time types f attrs) cs st := by
  simp [handlePacket, wMsgC, wSeq, Packet.kids, berInt, Packet.int?, Packet.val, wSearchO, wReq, Packet.cls, hc, Packet.tag,
    appAddRequest, appBindRequest, appCompareRequest, appDelRequest, appExtendedRequest, appModifyDNRequest, appModifyRequest, appSearchRequest]

theorem searchLoop_same {C : CaseEnv} (fp : Packet) (r r' : SearchReq) (h1 : r.baseDN = r'.baseDN) (h2 : r.scope = r'.scope) (h3 : r.sizeLimit = r'.sizeLimit)
    (h4 : r.attrs = r'.attrs) : ∀ (es : List Entry) (i : Nat), searchLoop C fp r i es = searchLoop C fp r' i es
  | [], _ => rfl
  | e :: es, i => by
    simp only [searchLoop, h1, h2, h3, h4, searchLoop_same fp r r' h1 h2 h3 h4 es]

theorem searchPage_same (fp : Packet) (r r' : SearchReq) (h1 : r.baseDN = r'.baseDN) (h2 : r.scope = r'.scope) (h3 : r.sizeLimit = r'.sizeLimit)
    (h4 : r.attrs = r'.attrs) (pg : Option Nat) : ∀ (es : List LEntry) (i : Nat), searchPage V fp r pg i es = searchPage V fp r' pg i es
  | [], _ => rfl
  | e :: es, i => by
    simp only [searchPage, h1, h2, h3, h4, searchPage_same fp r r' h1 h2 h3 h4 pg es]

/-- C125, what holds: on the database server, what a search says about aliases, its time limit and whether it asks for types only have no influence, and
neither have controls, critical or not. Missing: that they are honoured. -/
theorem C125_ignored_partial {G : GobEnv} {cfg : BoltCfg} {n : Nat} {stats : Bool} (o : Oracle) (id : Int) (b : Str) (scope deref m : Nat) (time : Int)
    (types : Bool) (f : Packet) (attrs : List Str) (controls : List Packet) (cs : List Control) (hc : decodeControls V controls = .ok cs)
    (bound : Str) (db : Db) :
    handlePacket V (boltSrv V G cfg n stats) o (wMsgC id (wSearchO b scope deref m time types f attrs) controls) bound db =
      handlePacket V (boltSrv V G cfg n stats) o (wMsg id (wSearch b scope m f attrs)) bound db := by
  rw [searchO_packet _ _ _ _ _ _ _ _ _ _ _ _ cs hc, wSearch_packet]
  unfold stepSearch handleSearch
  rw [searchO_parse, wSearch_parse]
  cases decompile f with
  | none => rfl
  | some s =>
    simp only [Option.map_some, boltSrv, pick_single, boltSearchFn]
    have := fun fp es => searchLoop_same (C := V.C) fp (⟨b, scope, deref, m, time, types, s, attrs, cs⟩ : SearchReq)
      (⟨b, scope, (0 : Nat), m, (0 : Nat), false, s, attrs, []⟩ : SearchReq) rfl rfl rfl rfl es 0
    simp only [this]

/-- C125, what holds: the same on the server with LDIF files, for controls that are not about paging. -/
theorem C125_ldif_ignored_partial {W : WalkOrd} {cfg : LdifCfg} {g : Nat} {stats : Bool} (o : Oracle) (id : Int) (b : Str) (scope deref m : Nat) (time : Int)
    (types : Bool) (f : Packet) (attrs : List Str) (controls : List Packet) (hc : NotPaging V controls) (bound : Str) (st : LdifSt) :
    handlePacket V (ldifSrv V W cfg g stats) o (wMsgC id (wSearchO b scope deref m time types f attrs) controls) bound st =
      handlePacket V (ldifSrv V W cfg g stats) o (wMsg id (wSearch b scope m f attrs)) bound st := by
  obtain ⟨cs, h1, h2⟩ := unknown_decode controls hc
  rw [searchO_packet _ _ _ _ _ _ _ _ _ _ _ _ cs h1, wSearch_packet]
  unfold stepSearch handleSearch
  rw [searchO_parse, wSearch_parse]
  cases decompile f with
  | none => rfl
  | some s =>
    simp only [Option.map_some, ldifSrv, pick_single]
    have hs : ldifSearch V W cfg bound (⟨b, scope, deref, m, time, types, s, attrs, cs⟩ : SearchReq) st =
        ldifSearch V W cfg bound (⟨b, scope, (0 : Nat), m, (0 : Nat), false, s, attrs, []⟩ : SearchReq) st := by
      have hp : pagingOf (⟨b, scope, deref, m, time, types, s, attrs, cs⟩ : SearchReq) = none := by
        unfold pagingOf
        dsimp only
        split
        · rfl
        · rename_i n k t h
          have hm := List.mem_cons_self (a := (n, k)) (l := t)
          rw [← h] at hm
          obtain ⟨c, hcs, hx⟩ := List.mem_filterMap.1 hm
          obtain ⟨oid, rfl⟩ := h2 c hcs
          cases hx
      have hp' : pagingOf (⟨b, scope, (0 : Nat), m, (0 : Nat), false, s, attrs, []⟩ : SearchReq) = none := rfl
      have := fun fp es pg => searchPage_same (V := V) fp (⟨b, scope, deref, m, time, types, s, attrs, cs⟩ : SearchReq)
        (⟨b, scope, (0 : Nat), m, (0 : Nat), false, s, attrs, []⟩ : SearchReq) rfl rfl rfl rfl pg es 0
      unfold ldifSearch
      simp only [hp, hp', this]
    rw [hs]
    rfl

end

/-- The example database. -/
def opDb : Db := after asciiCase gobInstance (validatePw asciiCase toyCrypto) toyBase toyOps

def opSrv : Srv Db := boltSrv toyEnv gobInstance toyCfg 8 false

/-- C125 fails: a search that asks for types without values gets values. -/
theorem C125_types_fails : ¬ ∀ (o : Oracle) (id : Int) (b : Str) (scope m : Nat) (f : Packet) (attrs : List Str) (bound : Str) (e : Entry),
    .entry id e ∈ (handlePacket toyEnv opSrv o (wMsgC id (wSearchO b scope 0 m 0 true f attrs) []) bound opDb).resps → ∀ a ∈ e.attrs, a.vals = [] := by
  intro h
  have := h toyOracle 7 b!"uid=ann,dc=lg" 0 0 (ctxStr 7 b!"uid") [b!"uid"] [] ⟨b!"uid=Ann,dc=lg", [⟨b!"uid", [b!"Ann"]⟩]⟩ (by decide +kernel) ⟨b!"uid", [b!"Ann"]⟩ (by simp)
  cases this

/-- C125 fails: a search with a critical control that the server knows nothing about is not refused. -/
theorem C125_critical_fails : ¬ ∀ (o : Oracle) (id : Int) (oid b : Str) (scope m : Nat) (f : Packet) (attrs : List Str) (bound : Str) (cs : Option (List Control)),
    .searchDone id 0 cs ∉ (handlePacket toyEnv opSrv o (wMsgC id (wSearchO b scope 0 m 0 false f attrs) [wCritical oid]) bound opDb).resps := by
  intro h
  exact h toyOracle 7 b!"1.2.3" b!"dc=lg" 2 0 (ctxStr 7 b!"uid") [b!"uid"] [] (some []) (by decide +kernel)

/-- hypotheses of C125: a search with all options, and the answer -/
example : decodeControls toyEnv [wCritical b!"1.2.3"] = .ok [.other []] ∧ NotPaging ldEnv [wSeq [octet b!"1.2.3", wBool true, octet []]] ∧
    (handlePacket toyEnv opSrv toyOracle (wMsgC 7 (wSearchO b!"dc=lg" 2 3 1 5 true (ctxStr 7 b!"uid") [b!"uid"]) [wCritical b!"1.2.3"]) [] opDb).resps =
      [.entry 7 ⟨b!"uid=admin,dc=lg", [⟨b!"uid", [b!"admin"]⟩]⟩, .searchDone 7 4 (some [])] := by
  refine ⟨by decide +kernel, ?_, by decide +kernel⟩
  intro p hp
  rw [List.mem_singleton] at hp
  subst hp
  exact .inl ⟨[], rfl⟩

/-- A session: a bind and a search, with these numbers; `more` comes after the controls. -/
def opSession (i j : Int) (more : List Packet) : List (Packet × Oracle) :=
  [(wMsg i (wBind b!"uid=ann,dc=lg" b!"pw"), toyOracle),
   (wSeq ([berInt j, wSearch b!"dc=lg" 2 0 (ctxStr 7 b!"uid") [b!"uid"], .mk .context true 0 .nil [] []] ++ more), toyOracle)]

theorem op_same : SameSession (opSession 1 2 []) (opSession 4 4 [berInt 5]) :=
  .cons _ (.inr ⟨_, _, 1, 4, _, [], [], rfl, rfl, rfl, rfl, rfl⟩) (.cons _ (.inr ⟨_, _, 2, 4, _, _, _, rfl, rfl, rfl, rfl, rfl⟩) .nil)

/-- C124 applies to it -/
example := C124_session (V := toyEnv) opSrv op_same [] opDb

/-- and these are the answers -/
example : (serveFrom toyEnv opSrv [] opDb (opSession 4 4 [berInt 5])).log.map (·.2) = [[.result 4 1 0], [.entry 4 ⟨b!"uid=admin,dc=lg", [⟨b!"uid", [b!"admin"]⟩]⟩,
    .entry 4 ⟨b!"uid=Ann,dc=lg", [⟨b!"uid", [b!"Ann"]⟩]⟩, .searchDone 4 0 (some [])]] := by decide +kernel

end Idm
