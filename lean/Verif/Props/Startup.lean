import Verif.Spec.Startup
import Verif.Spec.LdifFormat
import Verif.Props.BoltWrite
import Verif.Props.Spelling
/-!
# C80-C82: starting the server
-/
namespace Idm

/-! ## Options -/

/-- The value an option on the command line gives to the option `nm`. -/
def textOf (nm : Str) : Flag → Option Str
  | .str n v => if n = nm then some v else none
  | .bool _ _ => none

def switchOf (nm : Str) : Flag → Option Bool
  | .bool n v => if n = nm then some v else none
  | .str _ _ => none

theorem lastText_cons (nm : Str) (f : Flag) (fs : List Flag) :
    lastText nm (f :: fs) = (lastText nm fs).or (textOf nm f) := by
  unfold lastText
  cases f with
  | bool n v => simp [textOf]
  | str n v =>
    by_cases h : n = nm
    · simp only [List.filterMap_cons, h, if_true, textOf, List.getLast?_cons]
      cases (List.filterMap _ fs).getLast? <;> rfl
    · simp [List.filterMap_cons, h, textOf]

theorem lastSwitch_cons (nm : Str) (f : Flag) (fs : List Flag) :
    lastSwitch nm (f :: fs) = (lastSwitch nm fs).or (switchOf nm f) := by
  unfold lastSwitch
  cases f with
  | str n v => simp [switchOf]
  | bool n v =>
    by_cases h : n = nm
    · simp only [List.filterMap_cons, h, if_true, switchOf, List.getLast?_cons]
      cases (List.filterMap _ fs).getLast? <;> rfl
    · simp [List.filterMap_cons, h, switchOf]

theorem setFlags_text {get : Vars → Str} {nm : Str}
    (h1 : ∀ v f v', setFlag v f = some v' → get v' = (textOf nm f).getD (get v)) :
    ∀ (flags : List Flag) (v v' : Vars), setFlags v flags = some v' → get v' = (lastText nm flags).getD (get v)
  | [], v, v', h => by cases h; rfl
  | f :: fs, v, v', h => by
    simp only [setFlags, Option.bind_eq_some_iff] at h
    obtain ⟨u, hu, h⟩ := h
    rw [setFlags_text h1 fs u v' h, lastText_cons, h1 v f u hu]
    cases lastText nm fs <;> rfl

theorem setFlags_switch {get : Vars → Bool} {nm : Str}
    (h1 : ∀ v f v', setFlag v f = some v' → get v' = (switchOf nm f).getD (get v)) :
    ∀ (flags : List Flag) (v v' : Vars), setFlags v flags = some v' → get v' = (lastSwitch nm flags).getD (get v)
  | [], v, v', h => by cases h; rfl
  | f :: fs, v, v', h => by
    simp only [setFlags, Option.bind_eq_some_iff] at h
    obtain ⟨u, hu, h⟩ := h
    rw [setFlags_switch h1 fs u v' h, lastSwitch_cons, h1 v f u hu]
    cases lastSwitch nm fs <;> rfl

theorem ite_cases {α : Type} {c : Prop} [Decidable c] {a b x : α} (h : (if c then a else b) = x) : (c ∧ a = x) ∨ b = x := by
  by_cases hc : c
  · rw [if_pos hc] at h; exact Or.inl ⟨hc, h⟩
  · rw [if_neg hc] at h; exact Or.inr h

/-- What an option on the command line does: every variable has the value given to its option, if that is the one given. -/
theorem setFlag_vars (v : Vars) (f : Flag) (v' : Vars) (h : setFlag v f = some v') :
    v'.logLevel = (textOf b!"log-level" f).getD v.logLevel ∧
    v'.handler = (textOf b!"ldap-handler" f).getD v.handler ∧
    v'.listen = (textOf b!"ldap-listen" f).getD v.listen ∧
    v'.listenTLS = (textOf b!"ldaps-listen" f).getD v.listenTLS ∧
    v'.tlsCert = (textOf b!"tls-cert-file" f).getD v.tlsCert ∧
    v'.tlsKey = (textOf b!"tls-key-file" f).getD v.tlsKey ∧
    v'.baseDN = (textOf b!"ldap-base-dn" f).getD v.baseDN ∧
    v'.adminDN = (textOf b!"ldap-admin-dn" f).getD v.adminDN ∧
    v'.boltFile = (textOf b!"boltdb-file" f).getD v.boltFile ∧
    v'.ldifMain = (textOf b!"ldif-main" f).getD v.ldifMain ∧
    v'.ldifConfig = (textOf b!"ldif-config" f).getD v.ldifConfig ∧
    v'.company = (textOf b!"ldif-template-default-company" f).getD v.company ∧
    v'.mailDomain = (textOf b!"ldif-template-default-mail-domain" f).getD v.mailDomain ∧
    v'.metricsListen = (textOf b!"metrics-listen" f).getD v.metricsListen ∧
    v'.anon = (switchOf b!"ldap-allow-local-anonymous" f).getD v.anon ∧
    v'.withMetrics = (switchOf b!"with-metrics" f).getD v.withMetrics := by
  cases f with
  | str n s =>
    unfold setFlag at h
    dsimp only at h
    iterate 15
      rcases ite_cases h with ⟨hn, h⟩ | h
      · subst hn
        cases h
        exact ⟨rfl, rfl, rfl, rfl, rfl, rfl, rfl, rfl, rfl, rfl, rfl, rfl, rfl, rfl, rfl, rfl⟩
    cases h
  | bool n b =>
    unfold setFlag at h
    dsimp only at h
    iterate 5
      rcases ite_cases h with ⟨hn, h⟩ | h
      · subst hn
        cases h
        exact ⟨rfl, rfl, rfl, rfl, rfl, rfl, rfl, rfl, rfl, rfl, rfl, rfl, rfl, rfl, rfl, rfl⟩
    cases h

/-- An option is set exactly if there is such an option. -/
theorem setFlag_known (v : Vars) (f : Flag) : (∃ v', setFlag v f = some v') ↔ Known [f] := by
  simp only [Known, List.mem_singleton, forall_eq]
  cases f with
  | str n s =>
    constructor
    · rintro ⟨v', h⟩
      unfold setFlag at h
      dsimp only at h
      iterate 15
        rcases ite_cases h with ⟨hn, -⟩ | h
        · subst hn; dsimp only; decide
      cases h
    · intro h
      simp only [textOptions, List.map_cons, List.map_nil, List.mem_cons, List.not_mem_nil, or_false] at h
      rcases h with h | h | h | h | h | h | h | h | h | h | h | h | h | h | h <;> subst h <;> exact ⟨_, rfl⟩
  | bool n s =>
    constructor
    · rintro ⟨v', h⟩
      unfold setFlag at h
      dsimp only at h
      iterate 5
        rcases ite_cases h with ⟨hn, -⟩ | h
        · subst hn; dsimp only; decide
      cases h
    · intro h
      simp only [switches, List.mem_cons, List.not_mem_nil, or_false] at h
      rcases h with h | h | h | h | h <;> subst h <;> exact ⟨_, rfl⟩

theorem setFlags_known : ∀ (flags : List Flag) (v : Vars), (∃ v', setFlags v flags = some v') ↔ Known flags
  | [], v => by simp [setFlags, Known]
  | f :: fs, v => by
    have hk : Known (f :: fs) ↔ Known [f] ∧ Known fs := by
      unfold Known
      constructor
      · intro h
        exact ⟨fun g hg => h g (by simp at hg; simp [hg]), fun g hg => h g (by simp [hg])⟩
      · rintro ⟨h1, h2⟩ g hg
        rcases List.mem_cons.1 hg with rfl | hg
        · exact h1 _ (by simp)
        · exact h2 g hg
    rw [hk, ← setFlag_known v f]
    simp only [setFlags, Option.bind_eq_some_iff]
    constructor
    · rintro ⟨v', u, h1, h2⟩
      exact ⟨⟨u, h1⟩, (setFlags_known fs u).1 ⟨v', h2⟩⟩
    · rintro ⟨⟨u, h1⟩, h2⟩
      obtain ⟨v', h3⟩ := (setFlags_known fs u).2 h2
      exact ⟨v', u, h1, h3⟩

theorem value_of {env : Str → Str} {flags : List Flag} {o : OptDoc} {x d : Str} (h : x = (lastText o.name flags).getD d)
    (hd : d = match o.env with
      | some e => if env e = [] then o.default else env e
      | none => o.default) : x = o.value env flags := by
  unfold OptDoc.value
  rw [h, hd]
  cases lastText o.name flags <;> cases o.env <;> rfl

theorem orEnv_eq (env : Str → Str) (name old : Str) :
    orEnv env name old = if env (withEnvBase name) = [] then old else env (withEnvBase name) := by
  unfold orEnv
  by_cases h : env (withEnvBase name) = [] <;> simp [h]

/-- The variables after the command line has been read. -/
theorem vars_values {env : Str → Str} {flags : List Flag} {v : Vars} (h : setFlags (setDefaults env initialVars) flags = some v) :
    v.logLevel = optLevel.value env flags ∧ v.handler = optHandler.value env flags ∧ v.listen = optListen.value env flags ∧
    v.listenTLS = optListenTLS.value env flags ∧ v.tlsCert = optCert.value env flags ∧ v.tlsKey = optKey.value env flags ∧
    v.baseDN = optBase.value env flags ∧ v.adminDN = optAdmin.value env flags ∧ v.boltFile = optBoltFile.value env flags ∧
    v.ldifMain = optMain.value env flags ∧ v.ldifConfig = optConfig.value env flags ∧ v.company = optCompany.value env flags ∧
    v.mailDomain = optMailDomain.value env flags ∧ v.metricsListen = optMetricsListen.value env flags ∧ v.anon = wantsAnon flags ∧
    (v.withMetrics && decide (v.metricsListen ≠ [])) = wantsMetrics env flags := by
  have T := fun (get : Vars → Str) (nm : Str) h1 => setFlags_text (get := get) (nm := nm) h1 flags _ v h
  have S := fun (get : Vars → Bool) (nm : Str) h1 => setFlags_switch (get := get) (nm := nm) h1 flags _ v h
  have hid : ∀ e : Str, e = if e = [] then [] else e := by
    intro e; by_cases he : e = [] <;> simp [he]
  have hm : v.metricsListen = optMetricsListen.value env flags :=
    value_of (T Vars.metricsListen _ fun v f v' h => (setFlag_vars v f v' h).2.2.2.2.2.2.2.2.2.2.2.2.2.1) rfl
  refine ⟨value_of (T Vars.logLevel _ fun v f v' h => (setFlag_vars v f v' h).1) rfl,
    value_of (T Vars.handler _ fun v f v' h => (setFlag_vars v f v' h).2.1) rfl,
    value_of (T Vars.listen _ fun v f v' h => (setFlag_vars v f v' h).2.2.1) (orEnv_eq _ _ _),
    value_of (T Vars.listenTLS _ fun v f v' h => (setFlag_vars v f v' h).2.2.2.1) (orEnv_eq _ _ _),
    value_of (T Vars.tlsCert _ fun v f v' h => (setFlag_vars v f v' h).2.2.2.2.1) (orEnv_eq _ _ _),
    value_of (T Vars.tlsKey _ fun v f v' h => (setFlag_vars v f v' h).2.2.2.2.2.1) (orEnv_eq _ _ _),
    value_of (T Vars.baseDN _ fun v f v' h => (setFlag_vars v f v' h).2.2.2.2.2.2.1) (orEnv_eq _ _ _),
    value_of (T Vars.adminDN _ fun v f v' h => (setFlag_vars v f v' h).2.2.2.2.2.2.2.1) (orEnv_eq _ _ _),
    value_of (T Vars.boltFile _ fun v f v' h => (setFlag_vars v f v' h).2.2.2.2.2.2.2.2.1) (orEnv_eq _ _ _),
    value_of (T Vars.ldifMain _ fun v f v' h => (setFlag_vars v f v' h).2.2.2.2.2.2.2.2.2.1) (hid _),
    value_of (T Vars.ldifConfig _ fun v f v' h => (setFlag_vars v f v' h).2.2.2.2.2.2.2.2.2.2.1) (hid _),
    value_of (T Vars.company _ fun v f v' h => (setFlag_vars v f v' h).2.2.2.2.2.2.2.2.2.2.2.1) (orEnv_eq _ _ _),
    value_of (T Vars.mailDomain _ fun v f v' h => (setFlag_vars v f v' h).2.2.2.2.2.2.2.2.2.2.2.2.1) (orEnv_eq _ _ _),
    hm, S Vars.anon _ fun v f v' h => (setFlag_vars v f v' h).2.2.2.2.2.2.2.2.2.2.2.2.2.2.1, ?_⟩
  have hw := S Vars.withMetrics _ fun v f v' h => (setFlag_vars v f v' h).2.2.2.2.2.2.2.2.2.2.2.2.2.2.2
  rw [hm, hw]
  rfl

/-! ## The server that is started -/

section
variable {V : Env} {H : Host} {loopback : Bool} {env : Str → Str} {flags : List Flag}

theorem toConfig_values {v : Vars} (h : setFlags (setDefaults env initialVars) flags = some v) :
    toConfig v = ⟨optHandler.value env flags, optListen.value env flags, optListenTLS.value env flags, optCert.value env flags,
      optKey.value env flags, optBase.value env flags, optAdmin.value env flags, wantsAnon flags, optBoltFile.value env flags,
      optMain.value env flags, optConfig.value env flags, optCompany.value env flags, optMailDomain.value env flags,
      wantsMetrics env flags⟩ := by
  obtain ⟨-, h2, h3, h4, h5, h6, h7, h8, h9, h10, h11, h12, h13, -, h15, h16⟩ := vars_values h
  unfold toConfig
  rw [← h2, ← h3, ← h4, ← h5, ← h6, ← h7, ← h8, ← h9, ← h10, ← h11, ← h12, ← h13, ← h15, ← h16]

theorem checkTLS_iff {v : Vars} (h : setFlags (setDefaults env initialVars) flags = some v) :
    checkTLSConfig v = true ↔ TlsComplete env flags := by
  obtain ⟨-, -, -, h4, h5, h6, -⟩ := vars_values h
  unfold checkTLSConfig TlsComplete
  rw [← h4, ← h5, ← h6]
  by_cases h1 : v.listenTLS = [] <;> by_cases h2 : v.tlsCert = [] <;> by_cases h3 : v.tlsKey = [] <;> simp [h1, h2, h3]

theorem parseNormalize_some {C : CaseEnv} {s n : Str} : parseNormalize C s = some n ↔ ∃ name, parseDN C s = some name ∧ n = normalize C name := by
  unfold parseNormalize
  cases parseDN C s <;> simp [eq_comm]

/-- `NewServer` succeeds exactly if a server is asked for that can be set up, and that is the one. -/
theorem newServer_iff {v : Vars} (h : setFlags (setDefaults env initialVars) flags = some v) (s : Started) :
    newServer V H loopback (toConfig v) = some s ↔
      ((AsksBolt V H env flags s.backend ∧ s.enforce = true) ∨ (AsksLdif V H loopback env flags s.backend ∧ s.enforce = false)) ∧
        s.genPwLen = 16 ∧ s.stats = wantsMetrics env flags ∧ s.config = toConfig v := by
  have hc := toConfig_values h
  obtain ⟨sb, se, sg, ss, sc⟩ := s
  rw [hc]
  unfold newServer
  dsimp only
  by_cases h1 : optHandler.value env flags = b!"ldif"
  · rw [if_pos h1]
    have hb : ¬ AsksBolt V H env flags sb := by
      rintro ⟨h2, -⟩
      rw [h1] at h2
      exact absurd h2 (by decide)
    simp only [hb, false_and, false_or, Option.bind_eq_bind, Option.bind_eq_some_iff, Option.some.injEq, Started.mk.injEq]
    have key : newLdifBackend V H loopback ⟨optHandler.value env flags, optListen.value env flags, optListenTLS.value env flags, optCert.value env flags,
      optKey.value env flags, optBase.value env flags, optAdmin.value env flags, wantsAnon flags, optBoltFile.value env flags,
      optMain.value env flags, optConfig.value env flags, optCompany.value env flags, optMailDomain.value env flags,
      wantsMetrics env flags⟩ = some sb ↔ AsksLdif V H loopback env flags sb := by
      unfold newLdifBackend AsksLdif newLdifCfg
      dsimp only
      by_cases hm : optMain.value env flags = []
      · simp [hm]
      · rw [if_neg hm]
        by_cases hbase : optBase.value env flags = []
        · simp [hbase]
        · rw [if_neg hbase]
          simp only [Option.bind_eq_bind, Option.bind_eq_some_iff, parseNormalize_some, openLdif]
          have hmain : ∀ recs, H.mainRecords ⟨optHandler.value env flags, optListen.value env flags, optListenTLS.value env flags,
              optCert.value env flags, optKey.value env flags, optBase.value env flags, optAdmin.value env flags, wantsAnon flags,
              optBoltFile.value env flags, optMain.value env flags, optConfig.value env flags, optCompany.value env flags,
              optMailDomain.value env flags, wantsMetrics env flags⟩ = some recs ↔ ∃ dir, MainYields H env flags dir recs := by
            intro recs
            unfold Host.mainRecords MainYields Host.basePath DirYields FileYields startVars
            dsimp only
            rcases hd : H.isDir (absPath H.cwd (optMain.value env flags)) with _ | _ | _ <;> simp [autoStart]
          have hcf : ∀ dir recs recs', MainYields H env flags dir recs → (H.confRecords ⟨optHandler.value env flags, optListen.value env flags,
              optListenTLS.value env flags, optCert.value env flags, optKey.value env flags, optBase.value env flags, optAdmin.value env flags,
              wantsAnon flags, optBoltFile.value env flags, optMain.value env flags, optConfig.value env flags, optCompany.value env flags,
              optMailDomain.value env flags, wantsMetrics env flags⟩ = some recs' ↔
                FileYields H env flags dir (absPath H.cwd (optConfig.value env flags)) recs') := by
            intro dir recs recs' hy
            unfold Host.confRecords Host.basePath FileYields startVars
            dsimp only
            rcases hy with ⟨h1, rfl, -⟩ | ⟨h1, rfl, -⟩ <;> simp [h1, autoStart]
          by_cases hconf : optConfig.value env flags = []
          · rw [hconf] at hmain
            simp only [hconf, ne_eq, not_true_eq_false, decide_false, if_false, false_and, or_false, true_and]
            constructor
            · rintro ⟨cfg, ⟨n, ⟨name, hn, rfl⟩, m, ⟨admin, ha, rfl⟩, hcfg⟩, m, hl, hsb⟩
              cases hcfg
              dsimp only at hl
              cases he : V.C.eqFold (optBase.value env flags) (normalize V.C name) with
              | false => simp [he] at hl
              | true =>
                simp only [he, Bool.not_true, Bool.false_eq_true, if_false, Option.bind_eq_some_iff] at hl
                obtain ⟨recs, hr, ht⟩ := hl
                cases hsb
                obtain ⟨dir, hr⟩ := (hmain recs).1 hr
                exact ⟨h1, hm, hbase, name, admin, dir, recs, m, hn, ha, he, hr, ht, rfl⟩
            · rintro ⟨-, -, -, name, admin, dir, recs, m, hn, ha, he, hr, ht, rfl⟩
              refine ⟨_, ⟨_, ⟨name, hn, rfl⟩, _, ⟨admin, ha, rfl⟩, rfl⟩, m, ?_, rfl⟩
              simp [he, (hmain recs).2 ⟨dir, hr⟩, ht]
          · simp only [hconf, ne_eq, not_false_eq_true, decide_true, if_true, false_and, false_or, true_and, Option.bind_eq_bind, Option.bind_eq_some_iff]
            constructor
            · rintro ⟨cfg, ⟨n, ⟨name, hn, rfl⟩, m, ⟨admin, ha, rfl⟩, hcfg⟩, m, hl, m', hl', hsb⟩
              cases hcfg
              dsimp only at hl hl'
              cases he : V.C.eqFold (optBase.value env flags) (normalize V.C name) with
              | false => simp [he] at hl
              | true =>
                simp only [he, Bool.not_true, Bool.false_eq_true, if_false, Option.bind_eq_some_iff] at hl
                obtain ⟨recs, hr, ht⟩ := hl
                cases he' : V.C.eqFold (optBase.value env flags) (V.C.lower (optBase.value env flags)) with
                | false => simp [he'] at hl'
                | true =>
                  simp only [he', Bool.not_true, Bool.false_eq_true, if_false, Option.bind_eq_some_iff] at hl'
                  obtain ⟨recs', hr', ht'⟩ := hl'
                  cases hsb
                  obtain ⟨dir, hr⟩ := (hmain recs).1 hr
                  exact ⟨h1, hm, hbase, name, admin, dir, recs, m, hn, ha, he, hr, ht, rfl, recs', m', (hcf dir recs recs' hr).1 hr', ht', rfl⟩
            · rintro ⟨-, -, -, name, admin, dir, recs, m, hn, ha, he, hr, ht, he', recs', m', hr', ht', rfl⟩
              refine ⟨_, ⟨_, ⟨name, hn, rfl⟩, _, ⟨admin, ha, rfl⟩, rfl⟩, m, ?_, m', ?_, rfl⟩
              · simp [he, (hmain recs).2 ⟨dir, hr⟩, ht]
              · simp [he', (hcf dir recs recs' hr).2 hr', ht']
    rw [← key]
    constructor
    · rintro ⟨b, hb', rfl, rfl, rfl, rfl, rfl⟩
      exact ⟨⟨hb', rfl⟩, rfl, rfl, rfl⟩
    · rintro ⟨⟨hb, rfl⟩, rfl, rfl, rfl⟩
      exact ⟨_, hb, rfl, rfl, rfl, rfl, rfl⟩
  · rw [if_neg h1]
    have hb : ¬ AsksLdif V H loopback env flags sb := fun h2 => h1 h2.1
    by_cases h2 : optHandler.value env flags = b!"boltdb"
    · rw [if_pos h2]
      simp only [hb, false_and, or_false, Option.bind_eq_bind, Option.bind_eq_some_iff, Option.some.injEq, Started.mk.injEq]
      have key : newBoltBackend V H ⟨optHandler.value env flags, optListen.value env flags, optListenTLS.value env flags, optCert.value env flags,
        optKey.value env flags, optBase.value env flags, optAdmin.value env flags, wantsAnon flags, optBoltFile.value env flags,
        optMain.value env flags, optConfig.value env flags, optCompany.value env flags, optMailDomain.value env flags,
        wantsMetrics env flags⟩ = some sb ↔ AsksBolt V H env flags sb := by
        unfold newBoltBackend AsksBolt newBoltCfg
        dsimp only
        by_cases hm : optBoltFile.value env flags = []
        · simp [hm]
        · rw [if_neg hm]
          by_cases hbase : optBase.value env flags = []
          · simp [hbase]
          · rw [if_neg hbase]
            simp only [Option.bind_eq_bind, Option.bind_eq_some_iff, parseNormalize_some]
            constructor
            · rintro ⟨cfg, ⟨n, ⟨name, hn, rfl⟩, m, ⟨admin, ha, rfl⟩, hcfg⟩, hl⟩
              cases hcfg
              dsimp only at hl
              cases ho : H.boltOpens (optBoltFile.value env flags) (normalize V.C name) with
              | false => simp [ho] at hl
              | true =>
                simp only [ho, if_true, Option.some.injEq] at hl
                exact ⟨h2, hm, hbase, name, admin, hn, ha, ho, hl.symm⟩
            · rintro ⟨-, -, -, name, admin, hn, ha, ho, rfl⟩
              refine ⟨_, ⟨_, ⟨name, hn, rfl⟩, _, ⟨admin, ha, rfl⟩, rfl⟩, ?_⟩
              simp [ho]
              rfl
      rw [← key]
      constructor
      · rintro ⟨b, hb', rfl, rfl, rfl, rfl, rfl⟩
        exact ⟨⟨hb', rfl⟩, rfl, rfl, rfl⟩
      · rintro ⟨⟨hb, rfl⟩, rfl, rfl, rfl⟩
        exact ⟨_, hb, rfl, rfl, rfl, rfl, rfl⟩
    · rw [if_neg h2]
      have hb' : ¬ AsksBolt V H env flags sb := fun h3 => h2 h3.1
      simp [hb, hb']

/-- C80: the server that runs is the one asked for: the last value on the command line, else a non-empty value in the environment, else
the default decides every setting. -/
theorem C80_options (s : Started) (h : launch V H loopback env flags = .serves s) :
    ((AsksBolt V H env flags s.backend ∧ s.enforce = true) ∨ (AsksLdif V H loopback env flags s.backend ∧ s.enforce = false)) ∧
    s.stats = wantsMetrics env flags ∧
    ∀ l, l ∈ s.listeners ↔
      (optListen.value env flags ≠ [] ∧ l = .plain (optListen.value env flags)) ∨
      (optListenTLS.value env flags ≠ [] ∧ l = .tls (optListenTLS.value env flags) (optCert.value env flags) (optKey.value env flags)) := by
  unfold launch at h
  cases hv : setFlags (setDefaults env initialVars) flags with
  | none => rw [hv] at h; cases h
  | some v =>
    rw [hv] at h
    dsimp only at h
    rcases ite_cases h with ⟨-, h⟩ | h
    · cases h
    rcases ite_cases h with ⟨-, h⟩ | h
    · cases h
    cases hs : newServer V H loopback (toConfig v) with
    | none => rw [hs] at h; cases h
    | some s' =>
      rw [hs] at h
      cases h
      obtain ⟨h1, -, h3, h4⟩ := (newServer_iff hv s).1 hs
      refine ⟨h1, h3, fun l => ?_⟩
      unfold Started.listeners
      rw [h4, toConfig_values hv]
      dsimp only
      by_cases e1 : optListen.value env flags = [] <;> by_cases e2 : optListenTLS.value env flags = [] <;> simp [e1, e2]

/-- C81: what becomes of `idmd serve`: exit code 1 for a wrong command line or a TLS listener without certificate or key, 64 if the server
cannot be set up, and otherwise it serves. -/
theorem C81_outcome :
    (launch V H loopback env flags = .exits 1 ↔ ¬ Known flags ∨ ¬ TlsComplete env flags) ∧
    (launch V H loopback env flags = .exits 64 ↔ Known flags ∧ TlsComplete env flags ∧
      (H.levelOk (optLevel.value env flags) = false ∨ ¬ ∃ b, AsksBolt V H env flags b ∨ AsksLdif V H loopback env flags b)) ∧
    ((∃ s, launch V H loopback env flags = .serves s) ↔ Known flags ∧ TlsComplete env flags ∧
      H.levelOk (optLevel.value env flags) = true ∧ ∃ b, AsksBolt V H env flags b ∨ AsksLdif V H loopback env flags b) := by
  unfold launch
  cases hv : setFlags (setDefaults env initialVars) flags with
  | none =>
    have hk : ¬ Known flags := fun h => by
      obtain ⟨v, h⟩ := (setFlags_known flags (setDefaults env initialVars)).2 h
      rw [hv] at h
      cases h
    simp [hk]
  | some v =>
    have hk : Known flags := (setFlags_known flags _).1 ⟨v, hv⟩
    have hl := (vars_values hv).1
    have ht := checkTLS_iff hv
    dsimp only
    cases hc : checkTLSConfig v with
    | false =>
      have : ¬ TlsComplete env flags := fun h => by rw [ht.2 h] at hc; cases hc
      simp [hk, this]
    | true =>
      have htls : TlsComplete env flags := ht.1 hc
      rw [← hl]
      cases hlev : H.levelOk v.logLevel with
      | false => simp [hk, htls]
      | true =>
        cases hs : newServer V H loopback (toConfig v) with
        | none =>
          have hno : ¬ ∃ b, AsksBolt V H env flags b ∨ AsksLdif V H loopback env flags b := by
            rintro ⟨b, hb | hb⟩
            · have := (newServer_iff (V := V) (H := H) (loopback := loopback) hv ⟨b, true, 16, wantsMetrics env flags, toConfig v⟩).2
                ⟨Or.inl ⟨hb, rfl⟩, rfl, rfl, rfl⟩
              rw [hs] at this; cases this
            · have := (newServer_iff (V := V) (H := H) (loopback := loopback) hv ⟨b, false, 16, wantsMetrics env flags, toConfig v⟩).2
                ⟨Or.inr ⟨hb, rfl⟩, rfl, rfl, rfl⟩
              rw [hs] at this; cases this
          simp only [Bool.not_true, Bool.false_eq_true, if_false, hk, htls, hno, not_true_eq_false, not_false_eq_true, or_true, and_true,
            or_self, false_or, iff_true, and_false, iff_false]
          refine ⟨?_, trivial, ?_⟩
          · intro h; cases h
          · rintro ⟨s, h⟩; cases h
        | some s =>
          have hyes : ∃ b, AsksBolt V H env flags b ∨ AsksLdif V H loopback env flags b := by
            obtain ⟨h1 | h1, -⟩ := (newServer_iff hv s).1 hs
            · exact ⟨_, Or.inl h1.1⟩
            · exact ⟨_, Or.inr h1.1⟩
          simp [hk, htls, hyes]

/-- C81: no TLS listener without certificate and key. -/
theorem C81_tls (s : Started) (h : launch V H loopback env flags = .serves s) (a c k : Str) (hl : Listen.tls a c k ∈ s.listeners) :
    c ≠ [] ∧ k ≠ [] := by
  obtain ⟨-, ht, -⟩ := C81_outcome.2.2.1 ⟨s, h⟩
  rcases ((C80_options s h).2.2 _).1 hl with ⟨-, h1⟩ | ⟨h1, h2⟩
  · cases h1
  · cases h2
    rcases ht with ht | ht
    · exact absurd ht h1
    · exact ht

/-- C81: the database server serves the base DN given as option, however it is spelled, and its store has the same one, if the name does not
end in a blank (`C81_blank_base_fails`). `BaseOk` is what the theorems about the database server ask of the base DN. -/
theorem C81_base_partial (hC : V.C.Lawful) (s : Started) (h : launch V H loopback env flags = .serves s) (file : Str) (cfg : BoltCfg)
    (hb : s.backend = .bolt file cfg) (base : DN) (hr : Rfc4514 base) (hne : base ≠ []) (hend : EndOk base) (t : Str) (hs : SpellsDN V.C base t)
    (ht : V.C.trimSpace (optBase.value env flags) = t) :
    cfg.base = render (foldDN V.C base) ∧ cfg.store = render (foldDN V.C base) ∧ BaseOk V.C (foldDN V.C base) := by
  obtain ⟨hk, -, -⟩ := C80_options s h
  have hn := rfc4514_nameOk base hr
  rw [hb] at hk
  rcases hk with ⟨⟨-, -, -, name, ad, h1, -, -, h3⟩, -⟩ | ⟨⟨-, -, -, _, _, _, _, _, -, -, -, -, -, h3⟩, -⟩
  · rw [C78_read_partial V.C hC base hr t _ hs ht] at h1
    cases h1
    cases h3
    refine ⟨rfl, ?_, by simpa [foldDN] using hne, foldDN_nameOk hC hn, foldDN_idem hC base, foldDN_endOk hC hend⟩
    rw [show normalize V.C base = render (foldDN V.C base) from rfl, parseDN_render hC _ (foldDN_nameOk hC hn) (foldDN_endOk hC hend)]
    show normalize V.C _ = _
    rw [normalize, foldDN_idem hC]
  · rcases h3 with ⟨-, h3⟩ | ⟨-, -, _, _, -, -, h3⟩ <;> cases h3

/-- C82: the administrator is the name given as option, however it is spelled: who has bound, under any spelling of a name, as the
administrator may write, and everybody else may not. (Missing: adds if metrics are enabled, see `C60_metrics_fails`.) -/
theorem C82_administrator_partial (hC : V.C.Lawful) {G : GobEnv} (s : Started) (h : launch V H loopback env flags = .serves s)
    (file : Str) (cfg : BoltCfg) (hb : s.backend = .bolt file cfg)
    (admin : DN) (hra : Rfc4514 admin) (hne : admin ≠ []) (sa : Str) (hsa : SpellsDN V.C admin sa)
    (hta : V.C.trimSpace (optAdmin.value env flags) = sa)
    (name : DN) (hrn : Rfc4514 name) (dn sn : Str) (hsn : SpellsDN V.C name sn) (htn : V.C.trimSpace dn = sn)
    (o : Oracle) (id : Int) (pw bound : Str) (db : Db)
    (hok : (handlePacket V (boltSrv V G cfg s.genPwLen s.stats) o (wMsg id (wBind dn pw)) bound db).resps = [.result id 1 0]) :
    ∃ i, (handlePacket V (boltSrv V G cfg s.genPwLen s.stats) o (wMsg id (wBind dn pw)) bound db).next = .go i ∧
      ∀ (w : Write), wantsMetrics env flags = false ∨ w.respTag ≠ 9 → (∀ t ∈ w.names, ∃ nm, parseDN V.C t = some nm) → w.kindsOk → ∀ (o' : Oracle) (id' : Int) (db' : Db),
        handlePacket V (boltSrv V G cfg s.genPwLen s.stats) o' (wMsg id' w.packet) i db' =
          if SameName V.C admin name then writeAnswer id' w i (boltStep V.C G (validatePw V.C V.K) cfg.store db' w.op)
          else ⟨[.result id' w.respTag 50], .go i, db'⟩ := by
  obtain ⟨hk, hst, -⟩ := C80_options s h
  have hcfg : cfg.admin = normalize V.C admin := by
    rw [hb] at hk
    rcases hk with ⟨⟨-, -, -, base, ad, -, h2, -, h3⟩, -⟩ | ⟨⟨-, -, -, _, _, _, _, _, -, -, -, -, -, h3⟩, -⟩
    · rw [C78_read_partial V.C hC admin hra sa _ hsa hta] at h2
      cases h2
      cases h3
      rfl
    · rcases h3 with ⟨-, h3⟩ | ⟨-, -, _, _, -, -, h3⟩ <;> cases h3
  have hpa : parseNormalize V.C (optAdmin.value env flags) = some cfg.admin := by
    rw [hcfg]
    exact parseNormalize_some.2 ⟨admin, C78_read_partial V.C hC admin hra sa _ hsa hta, rfl⟩
  have hadm : cfg.admin ≠ [] := by
    rw [hcfg]
    exact render_ne_nil (foldDN_nameOk hC (rfc4514_nameOk admin hra)) (by intro e; exact hne (by simpa [foldDN] using e))
  have hsame := C78_same_entry_partial V.C hC admin name hra hrn sa (optAdmin.value env flags) sn dn hsa hta hsn htn
  rw [wBind_packet] at hok ⊢
  have hbind : ∃ i, (stepBind V (boltSrv V G cfg s.genPwLen s.stats) id bound (wBind dn pw) db).next = .go i ∧ parseNormalize V.C dn = some i := by
    rcases stepBind_cases V (boltSrv V G cfg s.genPwLen s.stats) id bound (wBind dn pw) db with
      ⟨code, e, hc, -⟩ | ⟨d, dn', b, e, h1, h2, h3, -⟩ | e | e | ⟨e, -⟩ <;> rw [e] at hok ⊢
    · simp only [List.cons.injEq, Resp.result.injEq, and_true, true_and] at hok
      exact absurd hok hc
    · have : d = octet dn := by
        have : (wBind dn pw).kids[1]? = some (octet dn) := rfl
        rw [this] at h1
        exact (Option.some.inj h1).symm
      subst this
      have : dn' = dn := by
        have h4 : (octet dn).val = .str dn := rfl
        rw [h4] at h2
        cases h2
        rfl
      subst this
      exact ⟨b, rfl, h3⟩
    all_goals simp at hok
  obtain ⟨i, h1, h2⟩ := hbind
  refine ⟨i, h1, fun w hw hn hkd o' id' db' => ?_⟩
  rw [← hst] at hw
  rw [hpa, h2] at hsame
  by_cases hs : SameName V.C admin name
  · rw [if_pos hs]
    have hi : cfg.admin = i := Option.some.inj (hsame.2 hs)
    subst hi
    exact C60_admin_performs w hw hn hkd hadm o' id' db'
  · rw [if_neg hs]
    exact C60_others_refused w hw hn hkd i (fun e => hs (hsame.1 (by rw [e]))) o' id' db'

/-- C82: without an administrator nobody may write. (Missing: adds if metrics are enabled.) -/
theorem C82_no_administrator_partial (hC : V.C.Lawful) {G : GobEnv} (s : Started) (h : launch V H loopback env flags = .serves s)
    (file : Str) (cfg : BoltCfg) (hb : s.backend = .bolt file cfg)
    (hadm : optAdmin.value env flags = []) (w : Write) (hw : wantsMetrics env flags = false ∨ w.respTag ≠ 9) (hn : ∀ t ∈ w.names, ∃ nm, parseDN V.C t = some nm) (hkd : w.kindsOk)
    (bound : Str) (o : Oracle) (id : Int) (db : Db) :
    handlePacket V (boltSrv V G cfg s.genPwLen s.stats) o (wMsg id w.packet) bound db = ⟨[.result id w.respTag 50], .go bound, db⟩ := by
  obtain ⟨hk, hst, -⟩ := C80_options s h
  have hcfg : cfg.admin = [] := by
    rw [hb] at hk
    rcases hk with ⟨⟨-, -, -, base, ad, -, h2, -, h3⟩, -⟩ | ⟨⟨-, -, -, _, _, _, _, _, -, -, -, -, -, h3⟩, -⟩
    · have hnil : parseDN V.C [] = some [] := parseDN_render hC [] (by simp [NameOk]) (by simp [EndOk])
      rw [hadm, hnil] at h2
      cases h2
      cases h3
      rfl
    · rcases h3 with ⟨-, h3⟩ | ⟨-, -, _, _, -, -, h3⟩ <;> cases h3
  rw [← hst] at hw
  by_cases hne : bound = []
  · subst hne
    rw [write_packet V _ w hw]
    cases w <;> simp [handleAdd, handleDelete, handleModify, handleModifyDN, reply, rcInsufficientAccessRights]
  · exact C60_others_refused w hw hn hkd bound (by rw [hcfg]; exact hne) o id db

end

/-! ## Examples -/

/-- A host with an LDIF file, and a directory with another one. -/
def toyHost : Host where
  levelOk := fun l => l = b!"info" ∨ l = b!"debug"
  boltOpens := fun _ _ => true
  cwd := b!"/srv"
  isDir := fun p => if p = b!"/srv" ∨ p = b!"/srv/d" then some true else if p = b!"/srv/m.ldif" ∨ p = b!"/srv/d/u.ldif" then some false else none
  list := fun p => if p = b!"/srv/d" then [b!"README", b!"u.ldif"] else [b!"d", b!"m.ldif"]
  read := fun p => if p = b!"/srv/m.ldif" then some (.whole b!"dn: dc=lg\ndc: lg\n")
    else if p = b!"/srv/d/u.ldif" then some (.whole b!"# a user\ndn: uid=a,dc=lg\nuid: a\n") else none
  engine := fun _ _ _ text => some text
  lib := goLdif

/-- An environment with an LDAPS address and an administrator. -/
def toyVars : Str → Str := fun n =>
  if n = b!"IDMD_DEFAULT_LDAPS_LISTEN" then b!":636"
  else if n = b!"IDMD_DEFAULT_LDAP_ADMINDN" then b!"uid=root"
  else []

def toyFlags : List Flag :=
  [.str b!"ldap-handler" b!"boltdb", .str b!"ldap-base-dn" b!"dc=old", .str b!"ldap-base-dn" b!"DC=lg", .str b!"ldap-admin-dn" b!"UID = Admin,dc=lg",
   .str b!"tls-cert-file" b!"c.pem", .str b!"tls-key-file" b!"k.pem", .bool b!"ldap-allow-local-anonymous" true]

/-- A database server; the administrator is read from the command line and not from the environment, the LDAPS address from the environment. -/
example : ∃ s, launch toyEnv toyHost true toyVars toyFlags = .serves s ∧ s.backend = .bolt b!"idmbolt.db" toyCfg ∧
    s.listeners = [.plain b!"127.0.0.1:10389", .tls b!":636" b!"c.pem" b!"k.pem"] ∧ s.stats = false ∧
    wantsMetrics toyVars toyFlags = false :=
  ⟨⟨.bolt b!"idmbolt.db" toyCfg, true, 16, false, toConfig ((setFlags (setDefaults toyVars initialVars) toyFlags).getD initialVars)⟩,
    by rfl, rfl, by decide +kernel, rfl, by decide +kernel⟩

/-- The administrator is spelled differently; the bind of C82 succeeds. -/
example : SpellsDN asciiCase [[⟨b!"UID", b!"Admin"⟩], [⟨b!"dc", b!"lg"⟩]] (b!"UID = Admin,dc=lg") ∧
    Rfc4514 [[⟨b!"UID", b!"Admin"⟩], [⟨b!"dc", b!"lg"⟩]] ∧ optAdmin.value toyVars toyFlags = b!"UID = Admin,dc=lg" ∧
    (handlePacket toyEnv (boltSrv toyEnv gobInstance toyCfg 16 false) toyOracle (wMsg 3 (wBind b!"uid=ADMIN,dc=lg" b!"secret")) [] toyDb).resps =
      [.result 3 1 0] := by
  refine ⟨?_, by decide +kernel, by decide +kernel, by decide +kernel⟩
  refine .more _ _ _ (b!"UID = Admin") 44 _ (.one _ _ ⟨[], b!" ", b!" ", [], b!"Admin", by simp [Blanks], by simp [Blanks], by simp [Blanks],
    by simp [Blanks], ?_, by decide, Or.inl rfl, by decide⟩) (Or.inl rfl) (.one _ _ (.one _ _ ⟨[], [], [], [], b!"lg", by simp [Blanks], by simp [Blanks],
    by simp [Blanks], by simp [Blanks], ?_, by decide, Or.inl rfl, by decide⟩))
  · exact .plain _ _ _ _ (by decide) (by decide) (by decide) (by decide) <| .plain _ _ _ _ (by decide) (by decide) (by decide) (by decide) <|
      .plain _ _ _ _ (by decide) (by decide) (by decide) (by decide) <| .plain _ _ _ _ (by decide) (by decide) (by decide) (by decide) <|
      .plain _ _ _ _ (by decide) (by decide) (by decide) (by decide) <| .nil _
  · exact .plain _ _ _ _ (by decide) (by decide) (by decide) (by decide) <| .plain _ _ _ _ (by decide) (by decide) (by decide) (by decide) <| .nil _

/-- The other outcomes: no key, an unknown handler, an LDIF server. -/
example : launch toyEnv toyHost true toyVars [] = .exits 1 ∧
    launch toyEnv toyHost true (fun _ => []) [.str b!"ldap-handler" b!"sql"] = .exits 64 ∧
    (∃ s, launch toyEnv toyHost true (fun _ => []) [.str b!"ldif-main" b!"m.ldif"] = .serves s) := by
  refine ⟨by rfl, by rfl, C81_outcome.2.2.2 ⟨(setFlags_known _ initialVars).1 ⟨_, rfl⟩, Or.inl (by decide), by decide, ?_⟩⟩
  refine ⟨_, Or.inr ⟨by decide, by decide, by decide, [[⟨b!"dc", b!"lg"⟩], [⟨b!"dc", b!"local"⟩]], [], b!"/srv", [some ⟨b!"dc=lg", [⟨b!"dc", [b!"lg"]⟩]⟩], _,
    by decide +kernel, by decide +kernel, by decide +kernel, Or.inr ⟨by decide +kernel, by decide +kernel, by unfold FileYields; decide +kernel⟩, rfl, Or.inl ⟨by decide, rfl⟩⟩⟩

/-- C81 applies to the example above. -/
example : Rfc4514 [[⟨b!"DC", b!"lg"⟩]] ∧ EndOk [[⟨b!"DC", b!"lg"⟩]] ∧ optBase.value toyVars toyFlags = b!"DC=lg" ∧ SpellsDN asciiCase [[⟨b!"DC", b!"lg"⟩]] b!"DC=lg" := by
  refine ⟨by decide +kernel, by decide +kernel, by decide +kernel, .one _ _ (.one _ _ ⟨[], [], [], [], b!"lg", by simp [Blanks], by simp [Blanks],
    by simp [Blanks], by simp [Blanks], ?_, by decide, Or.inl rfl, by decide⟩)⟩
  exact .plain _ _ _ _ (by decide) (by decide) (by decide) (by decide) <| .plain _ _ _ _ (by decide) (by decide) (by decide) (by decide) <| .nil _

/-- No call of a store with the empty base DN succeeds on an empty database. -/
theorem empty_base_refuses (C : CaseEnv) (G : GobEnv) (validate : Str → Str → Res Bool) (op : Op) :
    (boltStep C G validate [] Db.empty op).1 ≠ .ok () := by
  cases op with
  | add e =>
    simp only [boltStep, entryPut]
    split
    · simp
    · simp
    · rename_i r rest _
      split
      · simp
      · unfold update
        have : (entryPutBody G [] (normalize C (r :: rest)) (normalize C rest) e).run Db.empty = .err .other := by
          by_cases hn : normalize C (r :: rest) = []
          · rw [hn]; rfl
          · unfold entryPutBody
            simp only [hn, ne_eq, not_false_eq_true, if_true]
            rfl
        rw [this]
        simp
  | delete dn =>
    simp only [boltStep, entryDelete]
    split
    · simp
    · simp
    · exact fun h => by cases h
  | modify dn cs =>
    simp only [boltStep, entryModify]
    split
    · simp
    · exact fun h => by cases h
  | rename req =>
    simp only [boltStep, entryModifyDN]
    split
    · simp
    · split
      · simp
      · simp
      · split
        · simp
        · exact fun h => by cases h
  | password req =>
    simp only [boltStep, updatePassword]
    split
    · simp
    · exact fun h => by cases h

/-- C81 fails for a base DN that ends in a blank: the server starts, but its store has another base DN, and nothing can ever be written to a
new database, not even the entry of the base. -/
theorem C81_blank_base_fails : ∃ (flags : List Flag) (s : Started) (cfg : BoltCfg), launch toyEnv toyHost true (fun _ => []) flags = .serves s ∧
    s.backend = .bolt b!"idmbolt.db" cfg ∧ optBase.value (fun _ => []) flags = b!"dc=lg\\20" ∧ cfg.base = b!"dc=lg\\ " ∧ cfg.store = [] ∧
    ∀ (G : GobEnv) (ops : List Op), (boltRun asciiCase G (validatePw asciiCase toyCrypto) cfg.store Db.empty ops).2 = Db.empty ∧
      .ok () ∉ (boltRun asciiCase G (validatePw asciiCase toyCrypto) cfg.store Db.empty ops).1 := by
  refine ⟨[.str b!"ldap-handler" b!"boltdb", .str b!"ldap-base-dn" b!"dc=lg\\20", .str b!"ldap-admin-dn" b!"uid=admin"],
    _, _, rfl, rfl, by decide +kernel, by decide +kernel, by decide +kernel, ?_⟩
  intro G ops
  have hst : (configuredBase asciiCase b!"dc=lg\\ ") = [] := by decide +kernel
  show (boltRun asciiCase G (validatePw asciiCase toyCrypto) (configuredBase asciiCase b!"dc=lg\\ ") Db.empty ops).2 = Db.empty ∧
    .ok () ∉ (boltRun asciiCase G (validatePw asciiCase toyCrypto) (configuredBase asciiCase b!"dc=lg\\ ") Db.empty ops).1
  rw [hst]
  induction ops with
  | nil => exact ⟨rfl, by simp [boltRun]⟩
  | cons op ops ih =>
    have h1 := empty_base_refuses asciiCase G (validatePw asciiCase toyCrypto) op
    have h2 := C08_refused_changes_nothing _ _ op h1
    unfold boltRun
    simp only [h2, List.mem_cons, not_or]
    exact ⟨ih.1, fun h => h1 h.symm, ih.2⟩

/-- Not every spelling of a base DN is accepted: the LDIF server refuses to start with a blank in it, the database server does not. -/
theorem C81_ldif_base_fails :
    parseNormalize asciiCase b!"dc=lg, dc=local" = parseNormalize asciiCase b!"dc=lg,dc=local" ∧
    launch toyEnv toyHost true (fun _ => []) [.str b!"ldif-main" b!"m.ldif", .str b!"ldap-base-dn" b!"dc=lg, dc=local"] = .exits 64 ∧
    (∃ s, launch toyEnv toyHost true (fun _ => []) [.str b!"ldif-main" b!"m.ldif", .str b!"ldap-base-dn" b!"DC=lg,dc=local"] = .serves s) ∧
    (∃ s, launch toyEnv toyHost true (fun _ => []) [.str b!"ldap-handler" b!"boltdb", .str b!"ldap-base-dn" b!"dc=lg, dc=local"] = .serves s) := by
  refine ⟨by decide +kernel, by rfl, ⟨_, by rfl⟩, ⟨_, rfl⟩⟩

end Idm
