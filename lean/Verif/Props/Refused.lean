import Verif.Spec.Strange
import Verif.Props.BoltPw
/-!
# C119: what clients learn from writing that may not write
-/
namespace Idm
open Dir

section
variable {V : Env} {G : GobEnv} {cfg : BoltCfg} {n : Nat} {stats : Bool} {base : DN}

/-- A password change is answered according to the entry it names, and to nothing else. -/
theorem updatePassword_own {C : CaseEnv} {validate : Str → Str → Res Bool} {db db' : Db} {ns ns' : List INode} (hG : G.Lawful)
    (R : Rel C G base db ns) (R' : Rel C G base db' ns') (req : PwModReq)
    (h : ∀ k, parseNormalize C req.userIdentity = some (render k) → (dirOf ns).get k = (dirOf ns').get k) :
    (updatePassword C G validate db req).1 = (updatePassword C G validate db' req).1 := by
  unfold updatePassword
  cases hp : parseNormalize C req.userIdentity with
  | none => rfl
  | some s =>
    dsimp only
    have key : (∃ e i i', (getEntryByDN G s).run db = .ok ((e, i), db) ∧ (getEntryByDN G s).run db' = .ok ((e, i'), db')) ∨
        ((getEntryByDN G s).run db = .err .notFound ∧ (getEntryByDN G s).run db' = .err .notFound) := by
      by_cases hx : ∃ m ∈ ns, render m.name = s
      · obtain ⟨m, hm, e⟩ := hx
        have h1 := h m.name (by rw [hp, e])
        rw [R.get_some hm] at h1
        by_cases hy : ∃ m' ∈ ns', m'.name = m.name
        · obtain ⟨m', hm', e'⟩ := hy
          rw [← e', R'.get_some hm'] at h1
          have h2 := R.run_getEntryByDN hG hm
          have h3 := R'.run_getEntryByDN hG hm'
          rw [e] at h2
          rw [e', e] at h3
          refine Or.inl ⟨m.entry, m.id, m'.id, h2, ?_⟩
          rw [Option.some.inj h1]
          exact h3
        · rw [Rel.get_none hy] at h1
          cases h1
      · have hy : ¬ ∃ m' ∈ ns', render m'.name = s := by
          rintro ⟨m', hm', e⟩
          have h1 := h m'.name (by rw [hp, e])
          rw [R'.get_some hm'] at h1
          by_cases hz : ∃ m ∈ ns, m.name = m'.name
          · obtain ⟨m, hm, e'⟩ := hz
            exact hx ⟨m, hm, by rw [e', e]⟩
          · rw [Rel.get_none hz] at h1
            cases h1
        right
        constructor
        · simp [getEntryByDN, Prog.run_bind, run_getID_text_none R hx]
        · simp [getEntryByDN, Prog.run_bind, run_getID_text_none R' hy]
    rcases key with ⟨e, i, i', h1, h2⟩ | ⟨h1, h2⟩
    · unfold update updatePasswordBody
      simp only [Prog.run_bind, h1, h2, Res.ok_bind]
      by_cases ho : req.oldPassword = []
      · simp only [ho, ne_eq, not_true_eq_false, if_false]
        cases applyModify C e req.userIdentity [⟨opReplace, sUserPassword, [req.newPassword]⟩] <;> simp [Prog.run_bind]
      · simp only [ne_eq, ho, not_false_eq_true, if_true]
        cases validate req.oldPassword (getVal C e.attrs sUserPassword) with
        | ok b =>
          cases b with
          | false => simp [Prog.run_bind]
          | true =>
            cases applyModify C e req.userIdentity [⟨opReplace, sUserPassword, [req.newPassword]⟩] <;> simp [Prog.run_bind]
        | err x => simp [Prog.run_bind]
        | panic => simp [Prog.run_bind]
        | hang => simp [Prog.run_bind]
    · unfold update updatePasswordBody
      simp only [Prog.run_bind, h1, h2]
      rfl

theorem callFn_alike {ρ : Type} (f : Str → ρ → Act Db (Nat × Bool)) (dn bound : Str) (r : ρ) (db db' : Db)
    (h : (f bound r db).1 = (f bound r db').1) : (callFn [([], f)] dn bound r db).1 = (callFn [([], f)] dn bound r db').1 := by
  simp [callFn, pick_single, h]

theorem parseFailed_alike {ρ : Type} (x : Res ρ) (db db' : Db) : (parseFailed x db).1 = (parseFailed x db').1 := by
  unfold parseFailed
  split <;> rfl

theorem reply_alike (id : Int) (tag : Nat) (bound : Str) {x y : Res Nat × Db} (h : x.1 = y.1) :
    (reply id tag bound x).resps = (reply id tag bound y).resps ∧ (reply id tag bound x).next = (reply id tag bound y).next := by
  obtain ⟨r, st⟩ := x
  obtain ⟨r', st'⟩ := y
  dsimp only at h
  subst h
  cases r <;> exact ⟨rfl, rfl⟩

theorem extended_alike (o : Oracle) (bound : Str) (req : Packet) (db db' : Db)
    (h : ∀ body, (handlePwModify V (boltSrv V G cfg n stats) o bound body db).1 = (handlePwModify V (boltSrv V G cfg n stats) o bound body db').1) :
    (handleExtended V (boltSrv V G cfg n stats) o bound req db).1 = (handleExtended V (boltSrv V G cfg n stats) o bound req db').1 := by
  unfold handleExtended
  cases parseExtendedRequest req with
  | err e => rfl
  | panic => rfl
  | hang => rfl
  | ok x =>
    obtain ⟨oid, body⟩ := x
    dsimp only
    split
    · have h := h body
      generalize handlePwModify V (boltSrv V G cfg n stats) o bound body db = x at h
      generalize handlePwModify V (boltSrv V G cfg n stats) o bound body db' = y at h
      obtain ⟨r, st⟩ := x
      obtain ⟨r', st'⟩ := y
      dsimp only at h
      subst h
      cases r with
      | ok gen => rfl
      | panic => rfl
      | hang => rfl
      | err e => cases e <;> first | rfl | (rename_i c b; cases b <;> rfl)
    · rfl

/-- What is answered to a request that is neither a bind nor a search, if nothing may be written and password changes are answered alike. -/
theorem packet_alike (o : Oracle) (p : Packet) (bound : Str) (hw : writeAllowed cfg bound = false) (db db' : Db)
    (hp : ∀ id req, Message p id req → req.tag ≠ 0 ∧ req.tag ≠ 3)
    (h : (∃ id req, Message p id req ∧ req.tag = 23) → ∀ body, (handlePwModify V (boltSrv V G cfg n stats) o bound body db).1 =
      (handlePwModify V (boltSrv V G cfg n stats) o bound body db').1) :
    (handlePacket V (boltSrv V G cfg n stats) o p bound db).resps = (handlePacket V (boltSrv V G cfg n stats) o p bound db').resps ∧
    (handlePacket V (boltSrv V G cfg n stats) o p bound db).next = (handlePacket V (boltSrv V G cfg n stats) o p bound db').next := by
  unfold handlePacket
  dsimp only
  cases hk : p.kids with
  | nil => exact ⟨rfl, rfl⟩
  | cons m kids =>
    cases kids with
    | nil => exact ⟨rfl, rfl⟩
    | cons req more =>
      dsimp only
      cases hid : m.int? with
      | none => exact ⟨rfl, rfl⟩
      | some id =>
        dsimp only
        by_cases hcls : req.cls = .application
        · have hm : Message p id req := ⟨m, more, hk, int?_iff.1 hid, hcls⟩
          simp only [hcls, ne_eq, not_true_eq_false, if_false]
          cases decodeControls V ((more.head?.map Packet.kids).getD []) with
          | err e => exact ⟨rfl, rfl⟩
          | panic => exact ⟨rfl, rfl⟩
          | hang => exact ⟨rfl, rfl⟩
          | ok controls =>
            dsimp only
            split
            · split
              · exact ⟨rfl, rfl⟩
              · apply reply_alike
                unfold handleAdd
                split
                · rfl
                · split
                  · exact callFn_alike _ _ _ _ _ _ (by simp [boltAdd, hw])
                  · exact parseFailed_alike _ _ _
            · split
              · rename_i ht; exact absurd ht (hp id req hm).1
              · split
                · exact ⟨rfl, rfl⟩
                · split
                  · apply reply_alike
                    unfold handleDelete
                    split
                    · rfl
                    · split
                      · exact callFn_alike _ _ _ _ _ _ (by simp [boltDelete, hw])
                      · exact parseFailed_alike _ _ _
                  · split
                    · rename_i ht
                      unfold stepExtended
                      have h1 := extended_alike (V := V) (G := G) (cfg := cfg) (n := n) (stats := stats) o bound req db db'
                        (h ⟨id, req, hm, ht⟩)
                      generalize handleExtended V (boltSrv V G cfg n stats) o bound req db = x at h1
                      generalize handleExtended V (boltSrv V G cfg n stats) o bound req db' = y at h1
                      obtain ⟨r, st⟩ := x
                      obtain ⟨r', st'⟩ := y
                      dsimp only at h1
                      subst h1
                      cases r with
                      | ok a => cases a <;> exact ⟨rfl, rfl⟩
                      | _ => exact ⟨rfl, rfl⟩
                    · split
                      · apply reply_alike
                        unfold handleModifyDN
                        split
                        · rfl
                        · split
                          · exact callFn_alike _ _ _ _ _ _ (by simp [boltModifyDN, hw])
                          · exact parseFailed_alike _ _ _
                      · split
                        · apply reply_alike
                          unfold handleModify
                          split
                          · rfl
                          · split
                            · exact callFn_alike _ _ _ _ _ _ (by simp [boltModify, hw])
                            · exact parseFailed_alike _ _ _
                        · split
                          · rename_i ht; exact absurd ht (hp id req hm).2
                          · exact ⟨rfl, rfl⟩
        · simp only [ne_eq, hcls, not_false_eq_true, if_true]
          exact ⟨trivial, trivial⟩

/-- C119 for writes: a client that is not bound as the administrator is answered without a look at the database. Take any two databases: adds,
deletes, modifications, renames and whatever else is neither a bind, a search nor an extended operation get the same answer from both. -/
theorem C119_write (bound : Str) (hna : bound = cfg.admin → bound = []) (o : Oracle) (p : Packet)
    (hp : ∀ id req, Message p id req → req.tag ≠ 0 ∧ req.tag ≠ 3 ∧ req.tag ≠ 23) (db db' : Db) :
    let out := handlePacket V (boltSrv V G cfg n stats) o p bound db
    let out' := handlePacket V (boltSrv V G cfg n stats) o p bound db'
    out.resps = out'.resps ∧ out.next = out'.next := by
  apply packet_alike o p bound _ db db' (fun id req h => ⟨(hp id req h).1, (hp id req h).2.1⟩)
  · rintro ⟨id, req, h1, h2⟩
    exact absurd h2 (hp id req h1).2.2
  · unfold writeAllowed
    by_cases h : cfg.admin = bound
    · have := hna h.symm
      rw [h, this]
      rfl
    · simp [h]

/-- C119 for clients without a name: also extended operations are answered without a look at the database. -/
theorem C119_anonymous (o : Oracle) (p : Packet) (hp : ∀ id req, Message p id req → req.tag ≠ 0 ∧ req.tag ≠ 3) (db db' : Db) :
    let out := handlePacket V (boltSrv V G cfg n stats) o p [] db
    let out' := handlePacket V (boltSrv V G cfg n stats) o p [] db'
    out.resps = out'.resps ∧ out.next = out'.next := by
  apply packet_alike o p [] _ db db' hp
  · intro _ body
    unfold handlePwModify
    rfl
  · unfold writeAllowed
    by_cases h : cfg.admin = []
    · rw [h]; rfl
    · simp [h]

/-- C119 for users: take two directories, made by any two histories, that have the same entry under the name the client is bound as (or neither has
one). If the client is not the administrator, then whatever it sends, other than binds and searches, password changes for itself and for others
included, gets the same answer from both. -/
theorem C119_user (hC : V.C.Lawful) (hG : G.Lawful) (hb : BaseOk V.C base) (ops ops' : List Op) (h : HistOk V.C ops) (h' : HistOk V.C ops')
    (bound : Str) (hna : bound = cfg.admin → bound = [])
    (hown : ∀ k, render k = bound → (dirAfter V.C (validatePw V.C V.K) base ops).get k = (dirAfter V.C (validatePw V.C V.K) base ops').get k)
    (o : Oracle) (p : Packet) (hp : ∀ id req, Message p id req → req.tag ≠ 0 ∧ req.tag ≠ 3) :
    let out := handlePacket V (boltSrv V G cfg n stats) o p bound (after V.C G (validatePw V.C V.K) base ops)
    let out' := handlePacket V (boltSrv V G cfg n stats) o p bound (after V.C G (validatePw V.C V.K) base ops')
    out.resps = out'.resps ∧ out.next = out'.next := by
  intro out out'
  by_cases hbd : bound = []
  · subst hbd
    exact C119_anonymous o p hp _ _
  obtain ⟨ns, -, h2, R, -⟩ := sim_run_empty (validate := validatePw V.C V.K) hC hG hb ops h.ok h.len
  obtain ⟨ns', -, h2', R', -⟩ := sim_run_empty (validate := validatePw V.C V.K) hC hG hb ops' h'.ok h'.len
  have hd : dirAfter V.C (validatePw V.C V.K) base ops = dirOf ns := h2
  have hd' : dirAfter V.C (validatePw V.C V.K) base ops' = dirOf ns' := h2'
  rw [hd, hd'] at hown
  have hna' : bound ≠ cfg.admin := fun h => hbd (hna h)
  have hw : writeAllowed cfg bound = false := by
    unfold writeAllowed
    simp [Ne.symm hna']
  refine packet_alike o p bound hw _ _ hp fun _ body => ?_
  unfold handlePwModify
  rw [if_neg hbd, if_neg hbd]
  cases parsePwModify V body with
  | err e => rfl
  | panic => rfl
  | hang => rfl
  | ok r =>
    dsimp only
    generalize (if r.newPassword = [] then generatePw o.rnd 0 (boltSrv V G cfg n stats).genPwLen else .ok r.newPassword) = x
    cases x with
    | err e => rfl
    | panic => rfl
    | hang => rfl
    | ok pw =>
      dsimp only
      cases hashPw V.K o.salt pw b!"{ARGON2}" with
      | err e => rfl
      | panic => rfl
      | hang => rfl
      | ok hs =>
        dsimp only
        simp only [boltSrv, pick_single]
        congr 1
        unfold boltPwExop
        dsimp only
        rw [if_neg hbd, if_neg hbd]
        have hu : (if r.userIdentity = [] then bound else r.userIdentity) ≠ [] := by
          split
          · exact hbd
          · assumption
        generalize (if r.userIdentity = [] then bound else r.userIdentity) = u at hu
        rw [if_pos hu, if_pos hu]
        cases hn : parseNormalize V.C u with
        | none => rfl
        | some s =>
          dsimp only
          by_cases hs' : bound = s
          · have h1 := updatePassword_own (validate := validatePw V.C V.K) hG R R' ⟨u, r.oldPassword, hs⟩ (fun k hk => by
              rw [hn] at hk
              exact hown k (by rw [hs']; exact (Option.some.inj hk).symm))
            rw [if_neg (fun h => h.1 hs'), if_neg (fun h => h.1 hs')]
            simp only
            unfold after at h1 ⊢
            rw [h1]
          · rw [if_pos ⟨hs', hna'⟩, if_pos ⟨hs', hna'⟩]

end

/-- The directory of `toyOps`, in which only Ann's entry is the same. -/
def otherOps : List Op :=
  [.add ⟨b!"dc=lg", [⟨b!"dc", [b!"lg"]⟩, ⟨b!"o", [b!"Libre Graph"]⟩]⟩,
   .add ⟨b!"uid=bob,dc=lg", [⟨b!"uid", [b!"bob"]⟩]⟩,
   .add ⟨b!"uid=Ann,dc=lg", [⟨b!"uid", [b!"Ann"]⟩, ⟨b!"mail", [b!"a@lg"]⟩, ⟨b!"userPassword", [b!"{ARGON2}$argon2id$pw"]⟩]⟩]

theorem other_own (k : DN) (hk : render k = b!"uid=ann,dc=lg") :
    (dirAfter asciiCase (validatePw asciiCase toyCrypto) toyBase toyOps).get k =
      (dirAfter asciiCase (validatePw asciiCase toyCrypto) toyBase otherOps).get k := by
  have h1 : dirAfter asciiCase (validatePw asciiCase toyCrypto) toyBase toyOps =
    [⟨toyBase, ⟨b!"dc=lg", [⟨b!"dc", [b!"lg"]⟩]⟩⟩,
     ⟨[⟨b!"uid", b!"admin"⟩] :: toyBase, ⟨b!"uid=admin,dc=lg", [⟨b!"uid", [b!"admin"]⟩, ⟨b!"userPassword", [b!"secret"]⟩]⟩⟩,
     ⟨[⟨b!"uid", b!"ann"⟩] :: toyBase, ⟨b!"uid=Ann,dc=lg", [⟨b!"uid", [b!"Ann"]⟩, ⟨b!"mail", [b!"a@lg"]⟩,
      ⟨b!"userPassword", [b!"{ARGON2}$argon2id$pw"]⟩]⟩⟩] := by decide +kernel
  have h2 : dirAfter asciiCase (validatePw asciiCase toyCrypto) toyBase otherOps =
    [⟨toyBase, ⟨b!"dc=lg", [⟨b!"dc", [b!"lg"]⟩, ⟨b!"o", [b!"Libre Graph"]⟩]⟩⟩,
     ⟨[⟨b!"uid", b!"bob"⟩] :: toyBase, ⟨b!"uid=bob,dc=lg", [⟨b!"uid", [b!"bob"]⟩]⟩⟩,
     ⟨[⟨b!"uid", b!"ann"⟩] :: toyBase, ⟨b!"uid=Ann,dc=lg", [⟨b!"uid", [b!"Ann"]⟩, ⟨b!"mail", [b!"a@lg"]⟩,
      ⟨b!"userPassword", [b!"{ARGON2}$argon2id$pw"]⟩]⟩⟩] := by decide +kernel
  have n1 : toyBase ≠ k := by rintro rfl; revert hk; decide +kernel
  have n2 : [⟨b!"uid", b!"admin"⟩] :: toyBase ≠ k := by rintro rfl; revert hk; decide +kernel
  have n3 : [⟨b!"uid", b!"bob"⟩] :: toyBase ≠ k := by rintro rfl; revert hk; decide +kernel
  rw [h1, h2]
  unfold Dir.get
  simp only [List.find?_cons, n1, n2, n3, decide_false]

/-- `C119_user` for Ann -/
example (o : Oracle) (p : Packet) (hp : ∀ id req, Message p id req → req.tag ≠ 0 ∧ req.tag ≠ 3) :
    (handlePacket toyEnv toySrv o p b!"uid=ann,dc=lg" (after asciiCase gobInstance (validatePw asciiCase toyCrypto) toyBase toyOps)).resps =
    (handlePacket toyEnv toySrv o p b!"uid=ann,dc=lg" (after asciiCase gobInstance (validatePw asciiCase toyCrypto) toyBase otherOps)).resps :=
  (C119_user (V := toyEnv) (base := toyBase) asciiCase_lawful gobInstance_lawful (by decide +kernel) toyOps otherOps (by decide +kernel) (by decide +kernel)
    b!"uid=ann,dc=lg" (by decide +kernel) other_own o p hp).1

/-- the administrator does learn from such requests, and Ann what is said to that client: that the write is not allowed, and whether the old password was right -/
example :
    let ask := fun bound ops req => (handlePacket toyEnv toySrv toyOracle (wMsg 7 req) bound
      (after asciiCase gobInstance (validatePw asciiCase toyCrypto) toyBase ops)).resps
    ask toyCfg.admin toyOps (wDelete b!"uid=bob,dc=lg") = [.result 7 11 53] ∧ ask toyCfg.admin otherOps (wDelete b!"uid=bob,dc=lg") = [.result 7 11 0] ∧
    ask b!"uid=ann,dc=lg" toyOps (wDelete b!"uid=bob,dc=lg") = [.result 7 11 50] ∧
    ask b!"uid=ann,dc=lg" otherOps (wDelete b!"uid=bob,dc=lg") = [.result 7 11 50] ∧
    ask b!"uid=ann,dc=lg" otherOps (wPwModify ([48, 9, 129, 2] ++ b!"pw" ++ [130, 3] ++ b!"new")) = [.extended 7 0 pwmodOID none] ∧
    ask b!"uid=ann,dc=lg" otherOps (wPwModify ([48, 9, 129, 2] ++ b!"no" ++ [130, 3] ++ b!"new")) = [.extended 7 80 pwmodOID none] := by
  decide +kernel

end Idm
