/-!
# Bytes, strings, results

Go strings and byte slices are lists of bytes. A Go function that returns `(T, error)` is modelled by `Res T`; a run-time
panic and a computation that never returns are outcomes of their own.
-/
namespace Idm

/-- A Go `string` or `[]byte`. -/
abbrev Str := List UInt8

open Lean in
/-- `b!"abc"` is the list of bytes of the literal. -/
macro:max "b!" s:str : term => do
  let elems ← s.getString.toUTF8.toList.toArray.mapM fun b =>
    `(($(Syntax.mkNumLit (toString b.toNat)) : UInt8))
  `(([$elems,*] : Idm.Str))

/-- The kinds of error values the code distinguishes.

* `ldap code inner` is `*ldap.Error{ResultCode: code, Err: ...}` of go-ldap's error.go; `inner` says whether `Err` is non-nil.
* `exists_`, `notFound`, `nonLeaf` are the sentinels of pkg/ldbbolt/ldbbolt.go:48-52.
* `other` is any other error; texts are not modelled. -/
inductive Err where
  | ldap (code : Nat) (inner : Bool)
  | exists_
  | notFound
  | nonLeaf
  | other
  deriving DecidableEq, Repr

/-- Outcome of a Go call: a value, an error value, a run-time panic, or no return (endless recursion / blocking forever). -/
inductive Res (α : Type) where
  | ok (a : α)
  | err (e : Err)
  | panic
  | hang
  deriving DecidableEq, Repr

namespace Res
variable {α β : Type}

def bind (x : Res α) (f : α → Res β) : Res β :=
  match x with
  | ok a => f a
  | err e => err e
  | panic => panic
  | hang => hang

instance : Monad Res where
  pure := ok
  bind := bind

@[simp] theorem pure_eq (a : α) : (pure a : Res α) = ok a := rfl
@[simp] theorem ok_bind (a : α) (f : α → Res β) : (ok a >>= f) = f a := rfl
@[simp] theorem err_bind (e : Err) (f : α → Res β) : ((err e : Res α) >>= f) = err e := rfl
@[simp] theorem panic_bind (f : α → Res β) : ((panic : Res α) >>= f) = panic := rfl
@[simp] theorem hang_bind (f : α → Res β) : ((hang : Res α) >>= f) = hang := rfl

end Res

/-! ## LDAP result codes (go-ldap error.go, RFC 4511) -/

def rcSuccess : Nat := 0
def rcOperationsError : Nat := 1
def rcProtocolError : Nat := 2
def rcSizeLimitExceeded : Nat := 4
def rcInvalidDNSyntax : Nat := 34
def rcInappropriateAuthentication : Nat := 48
def rcInvalidCredentials : Nat := 49
def rcInsufficientAccessRights : Nat := 50
def rcUnwillingToPerform : Nat := 53
def rcNotAllowedOnRDN : Nat := 67
def rcEntryAlreadyExists : Nat := 68
def rcOther : Nat := 80
def rcDecodingError : Nat := 84

/-! ## ASCII -/

/-- A statement about all bytes is one about 256 numbers. -/
theorem forall_byte_iff (p : UInt8 → Prop) : (∀ c, p c) ↔ ∀ n : Fin 256, p (UInt8.ofFin n) :=
  ⟨fun h _ => h _, fun h c => h c.toFin⟩

instance (p : UInt8 → Prop) [DecidablePred p] : Decidable (∀ c, p c) :=
  decidable_of_iff _ (forall_byte_iff p).symm

/-- ASCII lower-casing of one byte. -/
def lowerByte (c : UInt8) : UInt8 := if 65 ≤ c ∧ c ≤ 90 then c + 32 else c

/-- ASCII upper-casing of one byte. -/
def upperByte (c : UInt8) : UInt8 := if 97 ≤ c ∧ c ≤ 122 then c - 32 else c

/-- All bytes are ASCII. -/
def IsAscii (s : Str) : Prop := ∀ c ∈ s, c < 128

instance (s : Str) : Decidable (IsAscii s) := by unfold IsAscii; infer_instance

/-- ASCII white space, the part of Go's `unicode.IsSpace` below 128. -/
def isSpaceByte (c : UInt8) : Bool := c == 32 || (9 ≤ c && c ≤ 13)

/-- Remove leading and trailing elements satisfying `p` (`strings.TrimFunc` on bytes). -/
def trimBy (p : UInt8 → Bool) (s : Str) : Str :=
  ((s.dropWhile p).reverse.dropWhile p).reverse

/-- Go's `strings.HasSuffix`. -/
def hasSuffix (s sfx : Str) : Bool := sfx.isSuffixOf s

/-- Go's `strings.HasPrefix`. -/
def hasPrefix (s pfx : Str) : Bool := pfx.isPrefixOf s

/-- Go's `strings.Contains`. -/
def contains (s sub : Str) : Bool :=
  sub.isPrefixOf s || match s with
    | [] => false
    | _ :: t => contains t sub

end Idm
