import Verif.Spec.NewUsers
import Verif.Spec.LdifFormat
/-!
# Names and mail addresses in the comment field of a passwd file
-/
namespace Idm

/-- Regular expressions: a byte of a set; one after the other; at most `n` times; any number of times. -/
inductive Rx where
  | set (p : UInt8 → Bool)
  | seq (a b : Rx)
  | upTo (n : Nat) (a : Rx)
  | many (a : Rx)

/-- The whole text matches the expression. -/
inductive Rx.Matches : Rx → Str → Prop where
  | set (p : UInt8 → Bool) (c : UInt8) : p c = true → Rx.Matches (.set p) [c]
  | seq (a b : Rx) (s t : Str) : Rx.Matches a s → Rx.Matches b t → Rx.Matches (.seq a b) (s ++ t)
  | upToNone (n : Nat) (a : Rx) : Rx.Matches (.upTo n a) []
  | upToMore (n : Nat) (a : Rx) (s t : Str) : Rx.Matches a s → Rx.Matches (.upTo n a) t → Rx.Matches (.upTo (n + 1) a) (s ++ t)
  | manyNone (a : Rx) : Rx.Matches (.many a) []
  | manyMore (a : Rx) (s t : Str) : Rx.Matches a s → Rx.Matches (.many a) t → Rx.Matches (.many a) (s ++ t)

/-- `[a-zA-Z0-9...]` with further characters. -/
def rxAlnum (more : Str) : Rx := .set fun c => (97 ≤ c && c ≤ 122) || (65 ≤ c && c ≤ 90) || (48 ≤ c && c ≤ 57) || more.contains c

/-- `[a-zA-Z0-9](?:[a-zA-Z0-9-]{0,61}[a-zA-Z0-9])?` -/
def rxLabel : Rx := .seq (rxAlnum []) (.upTo 1 (.seq (.upTo 61 (rxAlnum b!"-")) (rxAlnum [])))

/-- The expression of the HTML standard for mail addresses, as in cmd/idmd/gen/newusers/utils.go:
``[a-zA-Z0-9.!#$%&'*+\/=?^_`{|}~-]+@label(?:\.label)*`` with `label` from above. -/
def rxMail : Rx :=
  .seq (.seq (rxAlnum b!".!#$%&'*+/=?^_`{|}~-") (.many (rxAlnum b!".!#$%&'*+/=?^_`{|}~-")))
    (.seq (.set (· == 64)) (.seq rxLabel (.many (.seq (.set (· == 46)) rxLabel))))

/-- The full name of a user: the comment field up to the first comma; without comment field the name. -/
def fullName (e : PwEntry) : Str := if e.gecos = [] then e.name else e.gecos.takeWhile (· ≠ 44)

/-- An address at the domain `md` is left to the server's domain; others stay as they are. -/
inductive OwnDomain (md : Str) : Str → Str → Prop where
  | own (w : Str) : md ≠ [] → OwnDomain md (w ++ 64 :: md) (w ++ b!"@{{.MailDomain}}")
  | other (v : Str) : (md ≠ [] → ¬ ∃ w, v = w ++ 64 :: md) → OwnDomain md v v

/-- The further addresses of a user: those parts of the comment field, separated by commas, that are mail addresses; not the first part. -/
def furtherMails [∀ s, Decidable (rxMail.Matches s)] (e : PwEntry) : List Str :=
  if e.gecos = [] then [] else ((splitOn 44 e.gecos).drop 1).filter fun v => decide (rxMail.Matches v)

end Idm
