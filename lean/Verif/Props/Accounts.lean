import Verif.Props.TemplateLang
/-!
# C93: what newusers printed, at a server that is running
-/
namespace Idm

section
variable {V : Env} {H : Host} {loopback : Bool} {env : Str → Str} {flags : List Flag}

theorem askedVars_values (env : Str → Str) (flags : List Flag) :
    varValue (askedVars env flags) b!"Company" = some (companyAsked env flags) ∧ varValue (askedVars env flags) b!"BaseDN" = some (baseAsked env flags) ∧
    varValue (askedVars env flags) b!"MailDomain" = some (domainAsked env flags) := by
  have h := fun n v => C73_variables b!"dc=lg,dc=local" b!"lg.local" (optBase.value env flags) (optCompany.value env flags) (optMailDomain.value env flags) []
    (by simp) n v
  refine ⟨(h _ _).2 (.inr ⟨by simp, .inl ⟨rfl, rfl⟩⟩), (h _ _).2 (.inr ⟨by simp, .inr (.inl ⟨rfl, rfl⟩)⟩), (h _ _).2 (.inr ⟨by simp, .inr (.inr ⟨rfl, rfl⟩)⟩)⟩

theorem joinWith_ended (c : UInt8) : ∀ ls : List Str, joinWith c (ls ++ [[]]) = ls.flatMap (· ++ [c])
  | [] => rfl
  | [p] => by simp [joinWith]
  | p :: q :: ls => by
    rw [List.cons_append, List.cons_append, joinWith, ← List.cons_append, joinWith_ended c (q :: ls)]
    simp

/-- C93: what newusers printed, as a file of a server started with these options, becomes an LDIF file with one record for each user, in order;
it has no version. Company, base DN and mail domain are those of the options. -/
theorem C93_becomes_partial (hg : GoEngine H) (dir : Str)
    (hvars : ∀ x, (x = 10 ∨ x = 13) → x ∉ companyAsked env flags ∧ x ∉ baseAsked env flags ∧ x ∉ domainAsked env flags)
    (strong : Str → Bool) (hash : Str → Option Str) (hh : ∀ p h, hash p = some h → 10 ∉ h ∧ Inert h) (md text : Str)
    (ht : text.length < 2 ^ 64) (es : List PwEntry) (hes : parsePasswdFile strong text = .ok es) (hf : ∀ e ∈ es, ∀ f ∈ e.fields, Inert f)
    (recs : List UserRec) (fin : Bool) (h : outputLDIF strong hash md text = .ok (recs, fin))
    {lines : List Str} (hl : HasLines lines (printUsers recs)) (hlen : ∀ l ∈ lines, l.length + 1 < 65536) :
    ∃ out, Becomes (H.engine dir) (askedVars env flags) (printUsers recs) out ∧
      LdifBody out (recs.map (userRecord (companyAsked env flags) (baseAsked env flags) (domainAsked env flags))) := by
  obtain ⟨hc, hb, hd⟩ := askedVars_values env flags
  obtain ⟨-, -, hR, hclean, -, hlast, hsays⟩ := users_text hc hb hd hvars strong hash hh md text ht es hes hf recs fin h (hasLines_short hl hlen)
  have hrun := C105_variables hg dir _ 1000 _ _ hR
  rw [hasLines_template hl hlen] at hrun
  refine ⟨_, ⟨lines, linesRead_all hl hlen, hrun⟩, ?_⟩
  by_cases hne : recs = []
  · subst hne
    exact ⟨[], [], .none, .done, .nil⟩
  · obtain ⟨ls, e, hfl⟩ := hlast hne
    refine ⟨ls, _, ?_, hfl, hsays⟩
    rw [e, joinWith_ended]
    exact hasLines_lf ls fun l hm => hclean l (by rw [e]; simp [hm])

/-- C93: what newusers printed, as the main file. -/
theorem C93_files_partial (hg : GoEngine H) (path : Str)
    (hvars : ∀ x, (x = 10 ∨ x = 13) → x ∉ companyAsked env flags ∧ x ∉ baseAsked env flags ∧ x ∉ domainAsked env flags)
    (strong : Str → Bool) (hash : Str → Option Str) (hh : ∀ p h, hash p = some h → 10 ∉ h ∧ Inert h) (md text : Str)
    (ht : text.length < 2 ^ 64) (es : List PwEntry) (hes : parsePasswdFile strong text = .ok es) (hf : ∀ e ∈ es, ∀ f ∈ e.fields, Inert f)
    (recs : List UserRec) (fin : Bool) (h : outputLDIF strong hash md text = .ok (recs, fin))
    {lines : List Str} (hl : HasLines lines (printUsers recs)) (hlen : ∀ l ∈ lines, l.length + 1 < 65536)
    (hfile : H.isDir path = some false) (hread : H.read path = some (.whole (printUsers recs))) :
    FilesSay H (askedVars env flags) path (recs.map (userRecord (companyAsked env flags) (baseAsked env flags) (domainAsked env flags))) := by
  obtain ⟨out, h1, ls, rs, h2, h3, h4⟩ := C93_becomes_partial hg (dirPath path) hvars strong hash hh md text ht es hes hf recs fin h hl hlen
  exact .file _ out _ hfile hread h1 ⟨ls, rs, h2, h3, .plain _ _ h4⟩

/-- What opens the record of a user. -/
theorem user_opens (hC : V.C.Lawful) {company base domain : Str} (r : UserRec) (pw : Str) :
    (userRecord company base domain r).opensLast V.C V.K pw ↔
      ∃ stored, r.userPassword = some stored ∧ validatePw V.C V.K pw (stored.dropWhile (· = 32)) = .ok true := by
  have hes : EntrySays (userRecord company base domain r) ⟨(userRecord company base domain r).dn, gather [] (userRecord company base domain r).values⟩ :=
    entrySays_gather _
  rw [← opens_last hes]
  unfold Opens
  rw [passwordOf_user hC hes]
  constructor
  · rintro ⟨x, hx, hv⟩
    obtain ⟨v, hv1, rfl⟩ := Option.map_eq_some_iff.1 hx
    exact ⟨v, hv1, hv⟩
  · rintro ⟨v, hv1, hv⟩
    exact ⟨_, by rw [hv1]; rfl, hv⟩

/-- The records that count have different names. -/
theorem latest_distinct (hL : H.lib.Lawful) (hcwd : isAbsPath H.cwd = true) (hh : optHandler.value env flags = b!"ldif")
    (s : Started) (h : launch V H loopback env flags = .serves s) {evs : List Happens} {rs cs : List LdifRecord} {dir : Str}
    (hlat : Latest V.C H env flags evs rs cs dir) : Distinct V.C rs := by
  induction hlat with
  | start rs cs dir hf _ _ =>
    obtain ⟨_, _, -, -, -, hn, -⟩ := C99_serves_partial hL hcwd hf hh s h
    exact hn
  | packet _ _ _ _ _ _ _ _ _ ih => exact ih
  | both _ _ _ _ _ _ _ _ _ _ hd _ _ _ _ => exact hd
  | confBad _ _ _ _ _ _ _ _ ih => exact ih
  | mainBad _ _ _ _ _ _ _ _ _ _ _ _ ih => exact ih

theorem distinct_same {C : CaseEnv} {rs : List LdifRecord} (h : Distinct C rs) {r r' : LdifRecord} (hr : r ∈ rs) (hr' : r' ∈ rs)
    (e : C.lower r.dn = C.lower r'.dn) : r = r' := by
  induction rs with
  | nil => cases hr
  | cons x rs ih =>
    unfold Distinct at h ih
    rw [List.map_cons, List.nodup_cons] at h
    rcases List.mem_cons.1 hr with rfl | h1 <;> rcases List.mem_cons.1 hr' with rfl | h2
    · rfl
    · exact absurd (List.mem_map.2 ⟨r', h2, e.symm⟩) h.1
    · exact absurd (List.mem_map.2 ⟨r, h1, e⟩) h.1
    · exact ih h.2 h1 h2

/-- C93: an LDIF server is running, and the records that count, after all packets and signals that have come, are those of the users that
newusers printed, perhaps among others. A bind as one of these users (the name may be spelled in any case), who is not a config user as well,
succeeds exactly with the passwords that the value printed for this user accepts. -/
theorem C93_served_partial (hC : V.C.Lawful) {W : WalkOrd} (hW : W.Lawful) (hL : H.lib.Lawful) (hcwd : isAbsPath H.cwd = true)
    (hh : optHandler.value env flags = b!"ldif")
    (s : Started) (h : launch V H loopback env flags = .serves s) (base : DN) (hbn : parseDN V.C (optBase.value env flags) = some base)
    {evs : List Happens} {rs cs : List LdifRecord} {dir : Str} (hlat : Latest V.C H env flags evs rs cs dir) {l : Live} (hl : LivesOn V W H s evs l)
    (r : UserRec) (hr : userRecord (companyAsked env flags) (baseAsked env flags) (domainAsked env flags) r ∈ rs)
    (dn name pw : Str) (hname : parseNormalize V.C dn = some name)
    (hdn : V.C.lower dn = V.C.lower (b!"uid=" ++ r.name ++ b!",ou=Users,ou=" ++ companyAsked env flags ++ b!"," ++ baseAsked env flags))
    (hconf : ∀ c ∈ cs, V.C.lower c.dn ≠ V.C.lower dn) (hbase : normalize V.C base <:+ V.C.lower dn)
    (hpw : pw ≠ []) (o : Oracle) (id : Int) (bound : Str) :
    let out := handlePacket V (ldifSrv V W (askedCfg V.C env flags loopback base) s.genPwLen s.stats) o (wMsg id (wBind dn pw)) bound l.st
    let accepted := ∃ stored, r.userPassword = some stored ∧ validatePw V.C V.K pw (stored.dropWhile (· = 32)) = .ok true
    (accepted → out.resps = [.result id 1 0] ∧ out.next = .go name) ∧
    (¬ accepted → ∃ code, code ≠ 0 ∧ out.resps = [.result id 1 code] ∧ out.next = .go bound) := by
  intro out accepted
  have hd := latest_distinct hL hcwd hh s h hlat
  have hne : V.C.lower dn ≠ [] := by
    rw [hdn]
    have : b!"uid=" ++ r.name ++ b!",ou=Users,ou=" ++ companyAsked env flags ++ b!"," ++ baseAsked env flags =
      [] ++ 117 :: (b!"id=" ++ r.name ++ b!",ou=Users,ou=" ++ companyAsked env flags ++ b!"," ++ baseAsked env flags) := by simp
    rw [this, hC.lower_split _ _ _ (by decide)]
    simp
  have key : (∃ x ∈ rs, V.C.lower x.dn = V.C.lower dn ∧ x.opensLast V.C V.K pw) ↔ accepted := by
    constructor
    · rintro ⟨x, hx, e, ho⟩
      cases distinct_same hd hx hr (by rw [e, hdn]; rfl)
      exact (user_opens hC r pw).1 ho
    · intro ha
      exact ⟨_, hr, hdn.symm, (user_opens hC r pw).2 ha⟩
  obtain ⟨k1, k2⟩ := C101_bind_partial hC hW hL hcwd hh s h base hbn hlat hl dn name pw hne hname hpw o id bound
  have hno : ¬ ∃ c ∈ cs, V.C.lower c.dn = V.C.lower dn := fun ⟨c, hc, e⟩ => hconf c hc e
  refine ⟨fun ha => k1 (.inr ⟨hno, hbase, key.2 ha⟩), fun ha => k2 ?_⟩
  rintro (⟨hx, -⟩ | ⟨-, -, hx⟩)
  · exact hno hx
  · exact ha (key.1 hx)

/-- C93: a user whose password is given in the input of newusers can log in with it at a running server for which the records of the users that
newusers printed count. -/
theorem C93_served_login_partial (hC : V.C.Lawful) (hK : V.K.Lawful) {W : WalkOrd} (hW : W.Lawful) (hL : H.lib.Lawful) (hcwd : isAbsPath H.cwd = true)
    (hh : optHandler.value env flags = b!"ldif")
    (s : Started) (h : launch V H loopback env flags = .serves s) (base : DN) (hbn : parseDN V.C (optBase.value env flags) = some base)
    {evs : List Happens} {rs cs : List LdifRecord} {dir : Str} (hlat : Latest V.C H env flags evs rs cs dir) {l : Live} (hl : LivesOn V W H s evs l)
    (strong : Str → Bool) (salt : Str → Str) (md text : Str) (es : List PwEntry) (hes : parsePasswdFile strong text = .ok es)
    (recs : List UserRec) (ho : outputLDIF strong (hashFor V.K salt b!"{ARGON2}") md text = .ok (recs, true))
    (hr : ∀ r ∈ recs, userRecord (companyAsked env flags) (baseAsked env flags) (domainAsked env flags) r ∈ rs)
    (e : PwEntry) (he : e ∈ es) (hpw : e.passwd ≠ [])
    (dn name : Str) (hname : parseNormalize V.C dn = some name)
    (hdn : V.C.lower dn = V.C.lower (b!"uid=" ++ e.name ++ b!",ou=Users,ou=" ++ companyAsked env flags ++ b!"," ++ baseAsked env flags))
    (hconf : ∀ c ∈ cs, V.C.lower c.dn ≠ V.C.lower dn) (hbase : normalize V.C base <:+ V.C.lower dn) (o : Oracle) (id : Int) (bound : Str) :
    let out := handlePacket V (ldifSrv V W (askedCfg V.C env flags loopback base) s.genPwLen s.stats) o (wMsg id (wBind dn e.passwd)) bound l.st
    out.resps = [.result id 1 0] ∧ out.next = .go name := by
  obtain ⟨r, stored, hm, hrn, hs, hst, hv⟩ := printed_password hC hK strong salt md text es hes recs ho e he hpw
  exact (C93_served_partial hC hW hL hcwd hh s h base hbn hlat hl r (hr r hm) dn name e.passwd hname (by rw [hdn, hrn]) hconf hbase hpw o id bound).1
    ⟨stored, hs, by rw [hst]; exact hv⟩

end

/-! ## An example -/

/-- A host with what newusers printed for ann and bob as the main file. -/
def newHost : Host := tplHost (fun p => if p = b!"/srv/d/a.ldif" then some false else none) (fun _ => [])
  fun p => if p = b!"/srv/d/a.ldif" then some (.whole (printUsers loginUsers)) else none

def newFlags : List Flag := [.str b!"ldif-main" b!"d/a.ldif", .str b!"ldap-base-dn" b!"DC=lg"]

theorem new_files : FilesSay newHost (askedVars (fun _ => []) newFlags) (absPath newHost.cwd (optMain.value (fun _ => []) newFlags))
    (loginUsers.map (userRecord b!"Default" b!"DC=lg" b!"lg.local")) := by
  rw [show absPath newHost.cwd (optMain.value (fun _ => []) newFlags) = b!"/srv/d/a.ldif" by decide +kernel]
  exact C93_files_partial (H := newHost) (env := fun _ => []) (flags := newFlags) (tplHost_engine _ _ _) b!"/srv/d/a.ldif"
    (by rintro x (rfl | rfl) <;> decide +kernel) (fun _ => true)
    (hashFor hexCrypto (fun _ => []) b!"{ARGON2}") (argon_inert hexCrypto_inert _) b!"lg.io" loginText (by decide +kernel) loginEntries (by decide +kernel)
    (by decide +kernel) loginUsers true (by decide +kernel)
    (lines := loginUsers.flatMap fun r => userLines r ++ [[]]) (by rw [printUsers_lf]; exact hasLines_lf _ (by decide +kernel)) (by decide +kernel) rfl rfl

/-- the server starts, and ann logs in -/
theorem new_starts : ∃ s, launch loginEnv newHost true (fun _ => []) newFlags = .serves s :=
  (C99_starts (V := loginEnv) (H := newHost) goLdif_lawful (by decide) new_files (by decide +kernel) ((setFlags_known _ initialVars).1 ⟨_, rfl⟩) (Or.inl (by decide +kernel))
    (by decide +kernel) (by decide +kernel) (by decide +kernel) (by decide +kernel) (base := [[⟨b!"DC", b!"lg"⟩]]) (admin := []) (by decide +kernel) (by decide +kernel)
    (by decide +kernel)).2 (by decide +kernel)

example (s : Started) (h : launch loginEnv newHost true (fun _ => []) newFlags = .serves s) (l : Live)
    (hl : LivesOn loginEnv ldOrd newHost s [.packet toyOracle (wMsg 3 (wBind b!"cn=x" b!"y")) [] false] l) (o : Oracle) :
    (handlePacket loginEnv (ldifSrv loginEnv ldOrd (askedCfg asciiCase (fun _ => []) newFlags true [[⟨b!"DC", b!"lg"⟩]]) s.genPwLen s.stats) o
      (wMsg 7 (wBind b!"UID=ann,ou=users,ou=default,dc=lg" b!"pw")) [] l.st).resps = [.result 7 1 0] :=
  (C93_served_login_partial (V := loginEnv) asciiCase_lawful hexCrypto_lawful ldOrd_lawful (H := newHost) (env := fun _ => []) (flags := newFlags)
    goLdif_lawful (by decide) (by decide +kernel) s h [[⟨b!"DC", b!"lg"⟩]] (by decide +kernel)
    (.packet _ _ _ b!"/srv/d" _ _ _ _ (.start _ [] _ new_files
      (by rw [show absPath newHost.cwd (optMain.value (fun _ => []) newFlags) = b!"/srv/d/a.ldif" by decide +kernel]; exact .inr ⟨rfl, by decide +kernel⟩)
      (.inl ⟨by decide +kernel, rfl⟩))) hl
    (fun _ => true) (fun _ => []) b!"lg.io" loginText loginEntries (by decide +kernel) loginUsers (by decide +kernel)
    (fun r hr => List.mem_map.2 ⟨r, hr, rfl⟩) loginEntries[0] (by simp [loginEntries]) (by decide +kernel)
    b!"UID=ann,ou=users,ou=default,dc=lg" b!"uid=ann,ou=users,ou=default,dc=lg" (by decide +kernel) (by decide +kernel) (by simp) (by decide +kernel) o 7 []).1

end Idm
