import Verif.Spec.Session
import Verif.Spec.Directory
import Verif.Model.BoltHandler
/-!
# Specification vocabulary for the server with the BoltDB store
-/
namespace Idm

/-- The request type (RFC 4511 application tag) that asks for a change of the directory. -/
def Op.tag : Op → Nat
  | .add _ => 8
  | .delete _ => 10
  | .modify _ _ => 6
  | .rename _ => 12
  | .password _ => 23

/-- Who may ask for a change: the administrator for any, a user for the password of the entry they are bound as; nobody who is not
bound under a name. -/
def Permitted (C : CaseEnv) (admin bound : Str) (op : Op) : Prop :=
  bound ≠ [] ∧ (bound = admin ∨ ∃ r, op = .password r ∧ parseNormalize C r.userIdentity = some bound)

/-- What the server was told by a request that it answered with success. -/
def Succeeded (rs : List Resp) : Prop := ∃ r, rs = [r] ∧ r.code? = some 0

/-- The entries differ at most in the values of `userPassword`. -/
def SameButPassword (C : CaseEnv) (e e' : Entry) : Prop :=
  e'.dn = e.dn ∧ e'.attrs.filter (fun a => C.fold a.name ≠ C.fold sUserPassword) = e.attrs.filter (fun a => C.fold a.name ≠ C.fold sUserPassword)

/-- `h` is the first value of the first attribute called `userPassword` (ignoring case). -/
def PasswordOf (C : CaseEnv) (e : Entry) (h : Str) : Prop :=
  ∃ before a after more, e.attrs = before ++ a :: after ∧ (∀ b ∈ before, C.eqFold sUserPassword b.name = false) ∧
    C.eqFold sUserPassword a.name = true ∧ a.vals = h :: more

/-- Who may bind. Anonymous: no name and no password, if that is enabled. Otherwise a name whose text ends in that of the base, that names
an entry of the directory, with a password that is not empty and that the entry's first `userPassword` value validates. -/
def MayBind (C : CaseEnv) (K : CryptoEnv) (anon : Bool) (base : DN) (d : Dir) (dn pw : Str) : Prop :=
  (dn = [] ∧ pw = [] ∧ anon = true) ∨
  (pw ≠ [] ∧ ∃ name e h, parseDN C dn = some name ∧ render base <:+ render (foldDN C name) ∧ d.get (foldDN C name) = some e ∧
    PasswordOf C e h ∧ validatePw C K pw h = .ok true)

/-- `body` encodes a password modify request (RFC 3062) with these optional parts. -/
def PwBody (V : Env) (body : Str) (user old new : Option Str) : Prop :=
  ∃ p, V.berDecode body = some p ∧
    p.kids = user.toList.map (ctxStr 0) ++ old.toList.map (ctxStr 1) ++ new.toList.map (ctxStr 2)

/-- The user whose password is to be changed: the one named, or else the one bound. -/
def pwTarget (user : Option Str) (bound : Str) : Str := match user with
  | some (c :: cs) => c :: cs
  | _ => bound

end Idm
