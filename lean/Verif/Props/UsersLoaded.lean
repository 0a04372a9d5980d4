import Verif.Props.Loaded
import Verif.Props.Login
import Verif.Props.Commands
import Verif.Props.Accounts
/-!
# C108: from newusers to the database
-/
namespace Idm

/-! ## As printed -/

theorem commaRDN {C : CaseEnv} (hC : C.Lawful) (dn : DN) {t v : Str} (ht : TypeOk t) (hv : encodeRDNValue v = v) (rest : Str) :
    scan C ⟨dn, [], [], [], false⟩ (t ++ 61 :: v ++ 44 :: rest) = scan C ⟨dn ++ [[⟨t, v⟩]], [], [], [], false⟩ rest := by
  have := scan_rdn_comma hC dn [] ⟨t, v⟩ [] (by simpa using ht) rest
  rw [show renderRDN [] [⟨t, v⟩] = t ++ 61 :: v by simp [renderRDN, hv, chEq]] at this
  exact this

/-- The name of a user as printed is no DN; what could be read of it is returned nevertheless. -/
theorem printed_name {C : CaseEnv} (hC : C.Lawful) {name : Str} (hp : name.all (fun c => isAlnumByte c || b!"._-@".contains c) = true) :
    parseDNRes C (b!"uid=" ++ name ++ b!"," ++ newUsersBase) = .fail (some [[⟨b!"uid", name⟩], [⟨b!"ou", b!"Users"⟩], [⟨b!"ou", b!"{{.Company}}"⟩]]) := by
  have hprint : ∀ c ∈ b!"uid=" ++ name ++ b!"," ++ newUsersBase, isSpaceByte c = false ∧ c < 128 := by
    have key : ∀ c : UInt8, (isAlnumByte c || b!"._-@".contains c) = true → isSpaceByte c = false ∧ c < 128 := by decide +kernel
    intro c hc
    simp only [List.mem_append] at hc
    rcases hc with ((hc | hc) | hc) | hc
    · exact (by decide +kernel : ∀ c ∈ b!"uid=", isSpaceByte c = false ∧ c < 128) c hc
    · exact key c (List.all_eq_true.1 hp c hc)
    · exact (by decide +kernel : ∀ c ∈ b!",", isSpaceByte c = false ∧ c < 128) c hc
    · exact (by decide +kernel : ∀ c ∈ newUsersBase, isSpaceByte c = false ∧ c < 128) c hc
  have htrim : C.trimSpace (b!"uid=" ++ name ++ b!"," ++ newUsersBase) = b!"uid=" ++ name ++ b!"," ++ newUsersBase := by
    rw [hC.trimSpace_ascii _ fun c hc => (hprint c hc).2]
    have hno : ∀ s : Str, (∀ c ∈ s, isSpaceByte c = false) → s.dropWhile isSpaceByte = s := by
      intro s hs
      cases s with
      | nil => rfl
      | cons c s => simp [hs c (by simp)]
    unfold trimBy
    rw [hno _ fun c hc => (hprint c hc).1, hno _ fun c hc => (hprint c (List.mem_reverse.1 hc)).1, List.reverse_reverse]
  unfold parseDNRes
  rw [htrim]
  simp only
  rw [if_neg (by simp)]
  have e : b!"uid=" ++ name ++ b!"," ++ newUsersBase =
      b!"uid" ++ 61 :: name ++ 44 :: (b!"ou" ++ 61 :: b!"Users" ++ 44 :: (b!"ou" ++ 61 :: b!"{{.Company}}" ++ 44 :: (b!"{{.BaseDN}}" ++ []))) := by
    simp [newUsersBase]
  rw [e, show ({} : ScanSt) = ⟨[], [], [], [], false⟩ from rfl, commaRDN hC _ (by decide +kernel) (encodeLoop_safe name true hp),
    commaRDN hC _ (by decide +kernel) (by decide +kernel), commaRDN hC _ (by decide +kernel) (by decide +kernel), scan_type _ _ _ _ _ (by decide +kernel)]
  rfl

theorem encodeLoop_brace : ∀ (v : Str) (f : Bool), v.getLast? = some 125 → (encodeLoop f v).getLast? = some 125
  | [], _, h => by cases h
  | [c], f, h => by
    cases h
    cases f <;> decide
  | c :: d :: v, f, h => by
    rw [encodeLoop, List.getLast?_append, encodeLoop_brace (d :: v) false (by simpa using h)]
    rfl

/-- C108 is false of the text as newusers prints it: whoever the users are, `boltdb load` ends with exit code 1 and adds nothing, as the name of no user
is a DN before the variables are filled in. The name of the first user consists of letters, digits and `.`, `_`, `-`, `@`; the base DN of the database
does not end in a brace. -/
theorem C108_unfilled_fails {C : CaseEnv} {G : GobEnv} {L : LdifLib} {levelOk : Str → Bool} (hC : C.Lawful) (hL : L.Lawful)
    (strong : Str → Bool) (hash : Str → Option Str) (hh : ∀ p h, hash p = some h → (10 : UInt8) ∉ h) (md text : Str)
    (ht : text.length < 2 ^ 64) (u : UserRec) (users : List UserRec) (fin : Bool) (h : outputLDIF strong hash md text = .ok (u :: users, fin))
    (hcr : ∀ r ∈ u :: users, ∀ p ∈ r.attrs newUsersBase, (13 : UInt8) ∉ p.2)
    (hp : u.name.all (fun c => isAlnumByte c || b!"._-@".contains c) = true)
    (o : BoltdbOpts) (w : FileWorld) (input baseText : Str) (b : DN) (db : Db) (hi : o.inputFile = some input) (hb : o.baseDN = some baseText)
    (hl : levelOk o.logLevel = true) (hf : (w.dbs o.boltdbFile).content = some db) (hk : w.locks o.boltdbFile = .free)
    (hbt : parseDN C baseText = some b) (hne : normalize C b ≠ []) (hbr : (normalize C b).getLast? ≠ some 125)
    (hin : w.texts input = some (.whole (printUsers (u :: users)))) :
    (loadCmd C G L levelOk o w).1.exitCode = some 1 ∧ (loadCmd C G L levelOk o w).2.dbs o.boltdbFile = .ready db := by
  obtain ⟨lines, recs, h1, h2, h3⟩ := C75_ldif_partial strong hash hh md text ht _ fin h hcr
  have hu := ldifUnmarshal_plain hL h1 h2 h3
  obtain ⟨es, hes⟩ : ∃ es, ldifRead L (printUsers (u :: users)) = .ok (⟨b!"uid=" ++ u.name ++ b!"," ++ newUsersBase, gather [] (((u.attrs newUsersBase).drop 1).map fun p => (p.1, p.2.dropWhile (· = 32)))⟩ :: es) := by
    have hc : ∀ l : List LdifRecord, (l.map fun r => some (Entry.mk r.dn (gather [] r.values))).contains none = false := by
      intro l
      rw [← Bool.not_eq_true, List.contains_iff_mem]
      simp
    rw [ldifRead, hu]
    dsimp only
    rw [hc, filterMap_some_map]
    simp only [Bool.false_and, Bool.false_eq_true, if_false, List.map_cons]
    exact ⟨_, rfl⟩
  have hfold : (normalize C [[⟨b!"uid", u.name⟩], [⟨b!"ou", b!"Users"⟩], [⟨b!"ou", b!"{{.Company}}"⟩]]).getLast? = some 125 := by
    have hv : (C.fold b!"{{.Company}}").getLast? = some 125 := by
      have := hC.fold_split b!"{{.Company}" 125 [] (by decide)
      rw [show b!"{{.Company}" ++ [125] = b!"{{.Company}}" from rfl, hC.fold_nil] at this
      rw [this]
      simp [show lowerByte 125 = 125 by decide]
    unfold normalize foldDN render
    simp only [List.map_cons, List.map_nil, renderFrom, renderRDN, List.append_nil]
    rw [List.getLast?_append, List.getLast?_append, List.getLast?_append, encodeRDNValue, encodeLoop_brace _ _ hv]
    rfl
  have hrun : loadLDIF C G L baseText db (printUsers (u :: users)) = (.err .other, db) := by
    rw [loadLDIF, hes]
    dsimp only
    rw [loadEntries, entryPut, entryPutDN]
    dsimp only
    rw [printed_name hC hp]
    dsimp only
    have hsuf : hasSuffix (normalize C [[⟨b!"uid", u.name⟩], [⟨b!"ou", b!"Users"⟩], [⟨b!"ou", b!"{{.Company}}"⟩]]) (configuredBase C baseText) = false := by
      rw [← Bool.not_eq_true, hasSuffix, List.isSuffixOf_iff_suffix]
      rintro ⟨x, hx⟩
      rw [configuredBase, parseNormalize, hbt] at hx
      simp only [Option.map_some, Option.getD_some] at hx
      rw [← hx, List.getLast?_append] at hfold
      cases hlast : (normalize C b).getLast? with
      | none => exact hne (List.getLast?_eq_none_iff.1 hlast)
      | some c =>
        rw [hlast] at hfold hbr
        exact hbr hfold
    rw [hsuf]
    rfl
  rw [loadCmd_run o w hi hb hl hf hk hin, hrun]
  exact ⟨rfl, by simp [FileWorld.put]⟩

/-! ## With the variables filled in -/

section
variable {vars : List (Str × Str)} {company base domain : Str}

theorem renders_unique {text out out' : Str} (h : Renders vars text out) (h' : Renders vars text out') : out = out' := by
  have e := tinyEngine_ok vars 0 text out h
  rw [tinyEngine_ok vars 0 text out' h'] at e
  exact (Option.some.inj e).symm

/-- C108: if the variables in the text newusers printed are replaced by their values, it is an LDIF file, without a version, that has one record per
user, in order, with the attributes of that user, below the unit `Users` of the company. -/
theorem C108_filled_partial (hc : varValue vars b!"Company" = some company) (hb : varValue vars b!"BaseDN" = some base) (hd : varValue vars b!"MailDomain" = some domain)
    (hvars : ∀ x, (x = 10 ∨ x = 13) → x ∉ company ∧ x ∉ base ∧ x ∉ domain)
    (strong : Str → Bool) (hash : Str → Option Str) (hh : ∀ p h, hash p = some h → 10 ∉ h ∧ Inert h) (md text : Str)
    (ht : text.length < 2 ^ 64) (es : List PwEntry) (hes : parsePasswdFile strong text = .ok es) (hf : ∀ e ∈ es, ∀ f ∈ e.fields, Inert f)
    (recs : List UserRec) (fin : Bool) (h : outputLDIF strong hash md text = .ok (recs, fin))
    (out : Str) (hout : Renders vars (printUsers recs) out) :
    LdifBody out (recs.map (userRecord company base domain)) := by
  obtain ⟨hv, hl, hR, hclean, -, -, hsays⟩ := users_filled hc hb hd hvars strong hash hh md text ht es hes hf recs fin h
  clear h
  have hcom : ∀ r ∈ recs, contains (b!"# " ++ natText r.line ++ b!": " ++ trimSpace r.name) b!"{{" = false ∧
      (∀ x, (x = 10 ∨ x = 13) → x ∉ b!"# " ++ natText r.line ++ b!": " ++ trimSpace r.name) := by
    intro r hr
    have hdig : ∀ c ∈ natText r.line, isDigitByte c = true := natTextGo_digits 20 r.line
    constructor
    · refine braces_append (braces_none ?_) (braces_infix (hR r hr).1.name.2 ?_) (.inl (by rw [List.getLast?_append]; exact (by decide : (some (32 : UInt8)) ≠ some 123)))
      · simp only [List.mem_append, not_or]
        exact ⟨⟨by decide, fun hm => absurd (hdig _ hm) (by decide)⟩, by decide⟩
      · obtain ⟨x, y, e, -⟩ := (vocab_trimSpace r.name _).1 rfl
        exact ⟨x, y, e.symm⟩
    · intro x hx
      have h1 : x ∉ natText r.line := fun hm => by
        have := hdig x hm
        rcases hx with rfl | rfl <;> exact absurd this (by decide)
      have h2 : x ∉ trimSpace r.name := fun hm => by
        have := hv r hr (b!"uid", r.name) (by simp [UserRec.attrs])
        rcases hx with rfl | rfl
        · exact this.1 (trimSpace_sub hm)
        · exact this.2 (trimSpace_sub hm)
      rcases hx with rfl | rfl <;> simp [h1, h2]
  let filled : UserRec → List Str := fun r => (b!"# " ++ natText r.line ++ b!": " ++ trimSpace r.name) :: (filledAttrs company base domain r).map attrLine
  have hrend : Renders vars (printUsers recs) (lfText (recs.flatMap fun r => filled r ++ [[]])) := by
    rw [printUsers_lf]
    unfold lfText
    rw [← joinWith_ended, ← joinWith_ended]
    refine Renders.lines (matched_append (flatMap_renders fun r hr => matched_append ?_ (.cons _ _ _ _ (.text [] rfl) .nil)) (.cons _ _ _ _ (.text [] rfl) .nil))
    exact .cons _ _ _ _ (.text _ (hcom r hr).1) (hR r hr).2
  rw [renders_unique hout hrend]
  refine ⟨recs.flatMap fun r => filled r ++ [[]], _, hasLines_lf _ fun l hm => ?_, ?_, hsays⟩
  · obtain ⟨r, hr, hm⟩ := List.mem_flatMap.1 hm
    have hin : ∀ l ∈ (filledAttrs company base domain r).map attrLine ++ [[]], 10 ∉ l ∧ 13 ∉ l :=
      fun l hm => hclean l (List.mem_flatMap.2 ⟨r, hr, hm⟩)
    rcases List.mem_append.1 hm with hm | hm
    · rcases List.mem_cons.1 hm with rfl | hm
      · exact ⟨(hcom r hr).2 10 (.inl rfl), (hcom r hr).2 13 (.inr rfl)⟩
      · exact hin l (List.mem_append_left _ hm)
    · exact hin l (List.mem_append_right _ hm)
  · clear hv hl hR hclean hsays hout hrend hcom
    induction recs with
    | nil => exact .done
    | cons r recs ih =>
      rw [List.flatMap_cons, List.append_assoc]
      refine .record _ _ _ _ (by dsimp only; rw [filled_head]; simp) ?_ ih
      have := RecordLines.comment (b!" " ++ natText r.line ++ b!": " ++ trimSpace r.name) [] _ _
        (recordLines_attrs (filledAttrs company base domain r) fun q hq => by
          obtain ⟨p, hp, e⟩ := filled_type hq
          have := attrs_first newUsersBase r p hp
          rw [e] at this
          exact ⟨this.1, this.2.1, this.2.2.1⟩)
      simpa [filled] using this

theorem user_types {r : UserRec} {tv : Str × Str} (h : tv ∈ (userRecord company base domain r).values) :
    tv.1 ∈ [b!"objectClass", b!"uid", b!"uidNumber", b!"gidNumber", b!"userPassword", b!"mail", b!"mailAlternateAddress", b!"cn", b!"givenName", b!"sn"] := by
  have e : (userRecord company base domain r).values = ((filledAttrs company base domain r).drop 1).map fun p => (p.1, p.2.dropWhile (· = 32)) := by
    simp [userRecord, filledAttrs]
  rw [e] at h
  obtain ⟨q, hq, rfl⟩ := List.mem_map.1 h
  obtain ⟨p, hp, e⟩ := filled_drop_type hq
  have := attrs_names _ r p hp
  rw [e] at this
  exact this

theorem user_pwType {C : CaseEnv} (hC : C.Lawful) {r : UserRec} {tv : Str × Str} (h : tv ∈ (userRecord company base domain r).values) :
    C.eqFold b!"userPassword" tv.1 = true ↔ tv.1 = b!"userPassword" := by
  have hm := user_types h
  have hl : ∀ t ∈ [b!"objectClass", b!"uid", b!"uidNumber", b!"gidNumber", b!"userPassword", b!"mail", b!"mailAlternateAddress", b!"cn",
      b!"givenName", b!"sn"], IsAscii t ∧ (b!"userPassword".map lowerByte = t.map lowerByte ↔ t = b!"userPassword") := by decide +kernel
  rw [hC.eqFold_ascii _ _ (by decide +kernel) (hl _ hm).1]
  exact (hl _ hm).2

/-- C108: a file that begins with the entries above the users and goes on with what newusers printed, the variables replaced by their values, has been
loaded into a new database, with exit code 0, and the server is started on that database. A user whose password is given in the input of newusers can
log in with it. -/
theorem C108_login_partial {V : Env} {G : GobEnv} {H : Host} {L : LdifLib} {levelOk : Str → Bool} {loopback : Bool} {env : Str → Str} {flags : List Flag}
    {top : DN} (hC : V.C.Lawful) (hG : G.Lawful) (hL : L.Lawful) (hK : V.K.Lawful) (hB : BaseOk V.C top)
    (hargon : ∀ p salt h, V.K.argonCreate p salt = some h → 10 ∉ h ∧ Inert h)
    (hc : varValue vars b!"Company" = some company) (hb : varValue vars b!"BaseDN" = some base) (hd : varValue vars b!"MailDomain" = some domain)
    (hvars : ∀ x, (x = 10 ∨ x = 13) → x ∉ company ∧ x ∉ base ∧ x ∉ domain)
    (strong : Str → Bool) (salt : Str → Str) (md text : Str) (ht : text.length < 2 ^ 64)
    (es : List PwEntry) (hes : parsePasswdFile strong text = .ok es) (hf : ∀ e ∈ es, ∀ f ∈ e.fields, Inert f)
    (users : List UserRec) (h : outputLDIF strong (hashFor V.K salt b!"{ARGON2}") md text = .ok (users, true))
    (out : Str) (hout : Renders vars (printUsers users) out)
    (above : Str) (rs : List LdifRecord) (habove : LdifBody above rs) (hone : ∀ r ∈ rs, OnePassword V.C r)
    (o : BoltdbOpts) (w w' : FileWorld) (input baseText : Str) (b : DN) (hi : o.inputFile = some input) (hbo : o.baseDN = some baseText)
    (hl : levelOk o.logLevel = true) (hnew : (w.dbs o.boltdbFile).content = some Db.empty) (hk : w.locks o.boltdbFile = .free)
    (hin : w.texts input = some (.whole (above ++ b!"\n\n" ++ out))) (hbt : parseDN V.C baseText = some b) (hbf : foldDN V.C b = top)
    (names : List DN) (hn : Matched (LdifRecord.Named V.C) (rs ++ users.map (userRecord company base domain)) names)
    (hlen : (rs ++ users.map (userRecord company base domain)).length < 2 ^ 64)
    (hload : loadCmd V.C G L levelOk o w = (.ok (), w'))
    (s : Started) (hs : launch V H loopback env flags = .serves s) (cfg : BoltCfg) (hbk : s.backend = .bolt o.boltdbFile cfg)
    (b' : DN) (hb' : parseDN V.C (optBase.value env flags) = some b') (hbf' : foldDN V.C b' = top)
    (db : Db) (hdb : w'.dbs o.boltdbFile = .ready db)
    (e : PwEntry) (he : e ∈ es) (hpw : e.passwd ≠ []) (dn : Str) (n n' : DN) (htext : TextOk V.C dn) (hdn : parseDN V.C dn = some n)
    (hdn' : parseDN V.C (b!"uid=" ++ e.name ++ b!",ou=Users,ou=" ++ company ++ b!"," ++ base) = some n') (hsame : foldDN V.C n = foldDN V.C n')
    (or : Oracle) (id : Int) (bound : Str) :
    let answer := handlePacket V (boltSrv V G cfg s.genPwLen s.stats) or (wMsg id (wBind dn e.passwd)) bound db
    answer.resps = [.result id 1 0] ∧ answer.next = .go (normalize V.C n) ∧ answer.st = db := by
  obtain ⟨r, stored, hm, hrn, hst, hst', hv⟩ := printed_password hC hK strong salt md text es hes users h e he hpw
  have hbody := C108_filled_partial hc hb hd hvars strong _ (argon_inert hargon salt) md text ht es hes hf users true h out hout
  have hall : LdifInput L (above ++ b!"\n\n" ++ out) (rs ++ users.map (userRecord company base domain)) := .inl ((ldif_append hbody).1 habove)
  have hone' : ∀ x ∈ rs ++ users.map (userRecord company base domain), OnePassword V.C x := by
    intro x hx
    rcases List.mem_append.1 hx with hx | hx
    · exact hone x hx
    · obtain ⟨u, -, rfl⟩ := List.mem_map.1 hx
      intro tv h1 tw h2 h3 h4
      rw [(user_pwType hC h1).1 h3, (user_pwType hC h2).1 h4]
  obtain ⟨k1, k2, -⟩ := C100_bind_partial hC hG hL hB o w w' input baseText _ b hi hbo hl hnew hk hin hbt hbf _ hall names hn hlen hload s hs cfg hbk b' hb' hbf'
    db hdb hone' dn e.passwd htext or id bound
  have hmem : userRecord company base domain r ∈ rs ++ users.map (userRecord company base domain) := List.mem_append_right _ (List.mem_map_of_mem hm)
  have hnamed : (userRecord company base domain r).Named V.C (foldDN V.C n) := by
    obtain ⟨k, -, m, g1, g2, g3⟩ := matched_mem_left hn _ hmem
    have hd : (userRecord company base domain r).dn = b!"uid=" ++ e.name ++ b!",ou=Users,ou=" ++ company ++ b!"," ++ base := by
      rw [← hrn]; rfl
    rw [hd, hdn'] at g1
    cases g1
    exact ⟨n', by rw [hd]; exact hdn', g2, hsame.symm⟩
  have hadm : (userRecord company base domain r).admits V.C V.K e.passwd := by
    have hval : ((userRecord company base domain r).values.filter fun tv => V.C.eqFold b!"userPassword" tv.1) = [(b!"userPassword", stored)] := by
      rw [List.filter_congr (q := fun tv => tv.1 = b!"userPassword") fun tv htv => by rw [Bool.eq_iff_iff, user_pwType hC htv]; simp]
      unfold userRecord
      rw [hst]
      cases r.gidNumber <;> cases r.givenName <;> cases r.sn <;> simp [List.filter_map, Function.comp_def, hst']
    exact ⟨_, _, _, hval, hv⟩
  obtain ⟨m, j1, j2, j3⟩ := k2 (.inr ⟨hpw, n, hdn, _, hmem, hnamed, hadm⟩)
  rw [hdn] at j1
  cases j1
  exact ⟨j2, j3, k1⟩

end
/-! ## Examples -/

/-- The text of the users cannot be loaded as printed. -/
example : (loadCmd asciiCase gobInstance goLdif (· == b!"info") loOpts (loWorld (printUsers loginUsers))).1.exitCode = some 1 :=
  (C108_unfilled_fails asciiCase_lawful goLdif_lawful (fun _ => true) (hashFor hexCrypto (fun _ => []) b!"{ARGON2}") (fun p h e => (argon_inert hexCrypto_inert _ p h e).1)
    b!"lg.io" loginText (by decide +kernel) _ _ true (show outputLDIF _ _ _ _ = .ok (loginUsers, true) by decide +kernel) (by decide +kernel) (by decide +kernel)
    loOpts (loWorld (printUsers loginUsers)) b!"in.ldif" b!"DC=lg" [[⟨b!"DC", b!"lg"⟩]] Db.empty rfl rfl rfl rfl rfl (by decide +kernel) (by decide +kernel)
    (by decide +kernel) rfl).1

/-- The entries above the users. -/
def aboveText : Str := b!"dn: dc=lg\ndc: lg\n\ndn: ou=Acme,dc=lg\nou: Acme\n\ndn: ou=Users,ou=Acme,dc=lg\nou: Users\n"

def aboveRecords : List LdifRecord := [⟨b!"dc=lg", [(b!"dc", b!"lg")]⟩, ⟨b!"ou=Acme,dc=lg", [(b!"ou", b!"Acme")]⟩, ⟨b!"ou=Users,ou=Acme,dc=lg", [(b!"ou", b!"Users")]⟩]

theorem above_body : LdifBody aboveText aboveRecords := by
  have line : ∀ l : Str, l ≠ [] → l.head? ≠ some 32 → l.head? ≠ some 35 → Folded l [l] := fun l h1 h2 h3 => ⟨l, [], rfl, by simp, h1, h2, h3⟩
  have two : ∀ a b : Str, Folded a [a] → Folded b [b] → RecordLines [a, b] [a, b] := fun a b ha hb => .line a [a] [b] [b] ha (.line b [b] [] [] hb .done)
  have rec_ : ∀ dn t v : Str, (dn.head? ≠ some 32) → v.head? ≠ some 32 → ldifType t = true ∧ t ≠ b!"control" ∧ t ≠ b!"changetype" →
      RecordSays ⟨dn, [(t, v)]⟩ [b!"dn" ++ 58 :: List.replicate 1 32 ++ dn, t ++ 58 :: List.replicate 1 32 ++ v] := fun dn t v h1 h2 h3 =>
    .mk _ _ _ (.plain b!"dn" dn 1 h1 (by simp)) (by simp) (.cons _ _ _ _ ⟨.plain t v 1 h2 (by simp), h3⟩ .nil)
  refine ⟨[b!"dn: dc=lg", b!"dc: lg", [], b!"dn: ou=Acme,dc=lg", b!"ou: Acme", [], b!"dn: ou=Users,ou=Acme,dc=lg", b!"ou: Users"],
    [[b!"dn: dc=lg", b!"dc: lg"], [b!"dn: ou=Acme,dc=lg", b!"ou: Acme"], [b!"dn: ou=Users,ou=Acme,dc=lg", b!"ou: Users"]], hasLines_lf _ (by decide +kernel), ?_, ?_⟩
  · exact .record _ [b!"dn: dc=lg", b!"dc: lg"] _ _ (by simp) (two _ _ (line _ (by decide) (by decide) (by decide)) (line _ (by decide) (by decide) (by decide)))
      (.record _ [b!"dn: ou=Acme,dc=lg", b!"ou: Acme"] _ _ (by simp) (two _ _ (line _ (by decide) (by decide) (by decide)) (line _ (by decide) (by decide) (by decide)))
        (.last _ _ (by simp) (two _ _ (line _ (by decide) (by decide) (by decide)) (line _ (by decide) (by decide) (by decide)))))
  · exact .cons _ _ _ _ (rec_ b!"dc=lg" b!"dc" b!"lg" (by decide) (by decide) (by decide +kernel))
      (.cons _ _ _ _ (rec_ b!"ou=Acme,dc=lg" b!"ou" b!"Acme" (by decide) (by decide) (by decide +kernel))
        (.cons _ _ _ _ (rec_ b!"ou=Users,ou=Acme,dc=lg" b!"ou" b!"Users" (by decide) (by decide) (by decide +kernel)) .nil))

def filledText : Str := (tinyEngine loginVars 0 (printUsers loginUsers)).getD []

def userNames : List DN := let above := [[⟨b!"ou", b!"users"⟩], [⟨b!"ou", b!"acme"⟩], [⟨b!"dc", b!"lg"⟩]]
  [above.drop 2, above.drop 1, above, [⟨b!"uid", b!"ann"⟩] :: above, [⟨b!"uid", b!"bob"⟩] :: above]

def usersEnv : Env := { toyEnv with K := hexCrypto }

def usersWorld : FileWorld := loWorld (aboveText ++ b!"\n\n" ++ filledText)

def usersAfter : Res Unit × FileWorld := loadCmd asciiCase gobInstance goLdif (· == b!"info") loOpts usersWorld

theorem usersNamed : Matched (LdifRecord.Named asciiCase) (aboveRecords ++ loginUsers.map (userRecord b!"Acme" b!"dc=lg" b!"lg.io")) userNames := by
  have named : ∀ (r : LdifRecord) (k n : DN), parseDN asciiCase r.dn = some n → NameOk n → foldDN asciiCase n = k → r.Named asciiCase k := fun r k n h1 h2 h3 => ⟨n, h1, h2, h3⟩
  exact .cons _ _ _ _ (named _ _ [[⟨b!"dc", b!"lg"⟩]] (by decide +kernel) (by decide +kernel) (by decide +kernel))
    (.cons _ _ _ _ (named _ _ [[⟨b!"ou", b!"Acme"⟩], [⟨b!"dc", b!"lg"⟩]] (by decide +kernel) (by decide +kernel) (by decide +kernel))
    (.cons _ _ _ _ (named _ _ [[⟨b!"ou", b!"Users"⟩], [⟨b!"ou", b!"Acme"⟩], [⟨b!"dc", b!"lg"⟩]] (by decide +kernel) (by decide +kernel) (by decide +kernel))
    (.cons _ _ _ _ (named _ _ [[⟨b!"uid", b!"ann"⟩], [⟨b!"ou", b!"Users"⟩], [⟨b!"ou", b!"Acme"⟩], [⟨b!"dc", b!"lg"⟩]] (by decide +kernel) (by decide +kernel) (by decide +kernel))
    (.cons _ _ _ _ (named _ _ [[⟨b!"uid", b!"bob"⟩], [⟨b!"ou", b!"Users"⟩], [⟨b!"ou", b!"Acme"⟩], [⟨b!"dc", b!"lg"⟩]] (by decide +kernel) (by decide +kernel) (by decide +kernel)) .nil))))

theorem usersAfter_ok : usersAfter = (.ok (), usersAfter.2) := Prod.ext (by decide +kernel) rfl

theorem usersAfter_db : usersAfter.2.dbs b!"idmbolt.db" = .ready (usersAfter.2.db b!"idmbolt.db") := by
  have : (match usersAfter.2.dbs b!"idmbolt.db" with | .ready _ => true | _ => false) = true := by decide +kernel
  unfold FileWorld.db
  cases h : usersAfter.2.dbs b!"idmbolt.db" <;> rw [h] at this <;> simp at this ⊢

theorem usersLaunch : ∃ s, launch usersEnv toyHost true (fun _ => []) loFlags = .serves s ∧ s.backend = .bolt b!"idmbolt.db" loCfg := ⟨_, rfl, rfl⟩

/-- Ann logs in. -/
example (s : Started) (h1 : launch usersEnv toyHost true (fun _ => []) loFlags = .serves s) (h2 : s.backend = .bolt b!"idmbolt.db" loCfg) :=
  C108_login_partial (vars := loginVars) (company := b!"Acme") (base := b!"dc=lg") (domain := b!"lg.io") (V := usersEnv) (levelOk := (· == b!"info"))
    asciiCase_lawful gobInstance_lawful goLdif_lawful hexCrypto_lawful loBase hexCrypto_inert (by decide +kernel) (by decide +kernel) (by decide +kernel)
    (by rintro x (rfl | rfl) <;> decide +kernel) (fun _ => true) (fun _ => []) b!"lg.io" loginText (by decide +kernel) loginEntries (by decide +kernel) (by decide +kernel)
    loginUsers (by decide +kernel) filledText (tinyEngine_renders (start := 0) (by decide +kernel)) aboveText aboveRecords above_body (by decide +kernel)
    loOpts usersWorld _ b!"in.ldif" b!"DC=lg" [[⟨b!"DC", b!"lg"⟩]] rfl rfl rfl rfl rfl rfl (by decide +kernel) (by decide +kernel) userNames usersNamed (by decide)
    usersAfter_ok s h1 loCfg h2 [[⟨b!"dc", b!"LG"⟩]] (by decide +kernel) (by decide +kernel) _ usersAfter_db loginEntries[0] (by simp [loginEntries]) (by decide +kernel)
    b!"UID=ann,ou=users,ou=acme,dc=lg" [[⟨b!"UID", b!"ann"⟩], [⟨b!"ou", b!"users"⟩], [⟨b!"ou", b!"acme"⟩], [⟨b!"dc", b!"lg"⟩]]
    [[⟨b!"uid", b!"ann"⟩], [⟨b!"ou", b!"Users"⟩], [⟨b!"ou", b!"Acme"⟩], [⟨b!"dc", b!"lg"⟩]] (by decide +kernel) (by decide +kernel) (by decide +kernel) (by decide +kernel)
    toyOracle 7 []

/-- both outcomes -/
example : let bind := fun pw => (handlePacket usersEnv (boltSrv usersEnv gobInstance loCfg 16 false) toyOracle (wMsg 7 (wBind b!"UID=ann,ou=users,ou=acme,dc=lg" pw)) []
      (usersAfter.2.db b!"idmbolt.db")).resps
    bind b!"pw" = [.result 7 1 0] ∧ bind b!"ann" = [.result 7 1 49] := by decide +kernel

end Idm
