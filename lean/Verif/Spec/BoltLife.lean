import Verif.Spec.Durable
import Verif.Spec.Loaded
import Verif.Spec.Launch
import Verif.Spec.FilterText
/-!
# Specification: the answers of the database server over its whole life
-/
namespace Idm

section
variable {ι : Type}

/-- The life is that of a server started from the command line on this database file, with this base DN (in any of its spellings). -/
def LaunchedOn (V : Env) (base : DN) (file : Str) (l : Life ι) : Prop :=
  ∃ H loopback env flags s b, launch V H loopback env flags = .serves s ∧ s.backend = .bolt file l.cfg ∧ s.genPwLen = l.genPwLen ∧
    s.stats = l.stats ∧ parseDN V.C (optBase.value env flags) = some b ∧ foldDN V.C b = base

/-- Servers are started from the command line on the database file one after the other: each begins with what the one before left in the file when
it ended, was stopped or was killed. -/
def ServerLives (V : Env) (G : GobEnv) (base : DN) (file : Str) : Db → List (Life ι) → Prop
  | _, [] => True
  | db, l :: ls => LaunchedOn V base file l ∧ ParReach V G l.cfg l.genPwLen l.stats db l.proc ∧ ServerLives V G base file l.proc.disk ls

/-- The directory that the first `n` changes of the log make out of `d`. -/
def dirUpTo (V : Env) (base : DN) (d : Dir) (log : List (Made ι)) (n : Nat) : Dir :=
  (specRun V.C (validatePw V.C V.K) base d ((log.take n).map (·.op))).2

/-- How searches are answered: a search (without size limit) that was answered when `saw k id` changes had been made got, none twice, the entries of
the directory of that moment that are in scope and satisfy the filter, each reduced to the attributes asked for, and then success; none if there was
no entry of the name searched below. The conditions are those of C33; of a substring filter only the first component counts. -/
def SearchesFit (V : Env) (base : DN) (d₀ : Dir) (lives : List (Life ι)) (log : List (Made ι)) (saw : Nat → ι → Nat) : Prop :=
  ∀ k l id c o rs mid at_ name scope f wf attrs, lives[k]? = some l → Answered l id c (wMsg mid (wSearch at_ scope 0 wf attrs)) o rs →
    parseDN V.C at_ = some name → NameOk name → name ≠ [] → scope ≤ 2 → Wire f wf → FilterOk f → Supported f → NoRepeat V.C attrs →
    let d := dirUpTo V base d₀ log (saw k id)
    (scope ≠ 2 → ∀ x ∈ d, PlainFirst x.entry.dn ∧ ∀ nm, parseDN V.C x.entry.dn = some nm → CaseSame V.C nm name) →
    (d.has (foldDN V.C name) = true → ∃ found : List Node, (found.map (·.name)).Nodup ∧
      (∀ x, x ∈ found ↔ x ∈ d ∧ InScope scope (foldDN V.C name) x.name ∧ Sat V.C (fun _ _ => False) x.entry (firstOnly f)) ∧
      rs = found.map (fun x => .entry mid (reduced V.C attrs x.entry)) ++ [.searchDone mid 0 (some [])]) ∧
    (d.has (foldDN V.C name) = false → rs = [.searchDone mid 0 (some [])])

/-- How binds are answered: with success exactly if name and password were right, or anonymous access enabled, in the directory of that moment. -/
def BindsFit (V : Env) (base : DN) (d₀ : Dir) (lives : List (Life ι)) (log : List (Made ι)) (saw : Nat → ι → Nat) : Prop :=
  ∀ k l id c o rs mid dn pw, lives[k]? = some l → Answered l id c (wMsg mid (wBind dn pw)) o rs → TextOk V.C dn →
    ∃ code, rs = [.result mid 1 code] ∧ (code = 0 ↔ MayBind V.C V.K l.cfg.anon base (dirUpTo V base d₀ log (saw k id)) dn pw)

/-- Nobody ever asked to change or delete an entry of that name, or to give it another name. -/
def Untouched (V : Env) (lives : List (Life ι)) (name : DN) : Prop := ∀ op, Asked V lives op → ¬ TakesAway V.C name op ∧ ¬ Edits V.C name op

end
end Idm
