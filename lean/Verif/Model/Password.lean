import Verif.Model.Fold
/-!
# Passwords, `/repo/pkg/ldappassword/ldappassword.go`
-/
namespace Idm

/-- The cryptographic functions used: `argon2id.ComparePasswordAndHash` and `CreateHash` (with the salt drawn as an argument), crypt(3)
(`none` is an error; without the build tag of crypt.go it always is one), SHA-1, and base64 decoding. Comparing with argon2id can panic:
golang.org/x/crypto/argon2 does for hashes that name zero rounds or threads. It always comes to an end: `.hang` counts as an error. -/
structure CryptoEnv where
  argonCompare : (password hash : Str) → Res Bool
  argonCreate : (password salt : Str) → Option Str
  crypt : (password salt : Str) → Option Str
  sha1 : Str → Str
  b64dec : Str → Option Str

/-- What is assumed: argon2id recognises the password a hash was created from. -/
structure CryptoEnv.Lawful (K : CryptoEnv) : Prop where
  argon : ∀ p salt h, K.argonCreate p salt = some h → K.argonCompare p h = .ok true

def chLBrace : UInt8 := 123
def chRBrace : UInt8 := 125
def chDollar : UInt8 := 36

/-- Lines 24-31 of `Validate`: split `{SCHEME}rest` into scheme with braces and rest. -/
def splitScheme (hash : Str) : Str × Str :=
  match hash with
  | c :: _ =>
    if c = chLBrace ∧ chRBrace ∈ hash then
      (hash.takeWhile (· ≠ chRBrace) ++ [chRBrace], (hash.dropWhile (· ≠ chRBrace)).drop 1)
    else ([], hash)
  | [] => ([], [])

/-- `Validate`, ldappassword.go:23-93. Panics: `hash[0]` of an empty hash, argon2id, `hash[:2]` of a short crypt hash (line 56),
`decodedBytes[len-4:]` of fewer than 4 bytes (line 79). The salt passed to crypt for `$id$salt$encrypted` is the whole hash
(`strings.Join(hashParts[:4], "$")`), which crypt(3) accepts. -/
def validatePw (C : CaseEnv) (K : CryptoEnv) (password hash : Str) : Res Bool :=
  if hash = [] then .panic
  else
    let alg := (splitScheme hash).1
    let h := (splitScheme hash).2
    let up := C.upper alg
    if up = [] then if h = password then .ok true else .err .other
    else if up = b!"{ARGON2}" then
      match K.argonCompare password h with
      | .ok true => .ok true
      | .panic => .panic
      | _ => .err .other
    else if up = b!"{CRYPT}" then
      if h.length < 2 then .panic
      else
        let salt := if h.head? = some chDollar ∧ 3 ≤ h.count chDollar then h else h.take 2
        match K.crypt password salt with
        | none => .err .other
        | some enc => if h = enc then .ok true else .err .other
    else if up = b!"{SSHA}" then
      match K.b64dec h with
      | none => .err .other
      | some d =>
        if d.length < 4 then .panic
        else
          let salt := d.drop (d.length - 4)
          if d = K.sha1 (password ++ salt) ++ salt then .ok true else .err .other
    else .err .other

/-- `Hash`, ldappassword.go:95-114. `salt` is the salt argon2id draws. -/
def hashPw (K : CryptoEnv) (salt : Str) (password alg : Str) : Res Str :=
  if alg = [] ∨ alg = b!"{CLEARTEXT}" then .ok password
  else if alg = b!"{ARGON2}" then
    match K.argonCreate password salt with
    | none => .err .other
    | some h => .ok (b!"{ARGON2}" ++ h)
  else .err .other

/-- The constant `chars`, ldappassword.go:122. -/
def pwChars : Str := b!"0123456789ABCDEFGHIJKLMNOPQRSTUVWXYZabcdefghijklmnopqrstuvwxyz-=+!@#$%^&*."

/-- `GenerateRandomPassword`, ldappassword.go:121-133. `rnd i` is the `i`-th answer of `rand.Int(rand.Reader, n)`: an error or a
number; an index out of range is a panic (crypto/rand promises a number below `n`). `i` counts the numbers drawn so far. -/
def generatePw (rnd : Nat → Option Nat) (i : Nat) : (length : Nat) → Res Str
  | 0 => .ok []
  | n + 1 =>
    match rnd i with
    | none => .err .other
    | some k =>
      match pwChars[k]? with
      | none => .panic
      | some c => do
        let rest ← generatePw rnd (i + 1) n
        .ok (c :: rest)

/-- An instance: "hashes" that contain the password, no crypt, a constant digest, base64 decoding replaced by the identity. -/
def toyCrypto : CryptoEnv where
  argonCompare p h := .ok (h = b!"$argon2id$" ++ p)
  argonCreate p _ := some (b!"$argon2id$" ++ p)
  crypt _ _ := none
  sha1 s := s.reverse
  b64dec s := some s

theorem toyCrypto_lawful : toyCrypto.Lawful where
  argon := by intro p salt h; simp only [toyCrypto, Option.some.injEq]; rintro rfl; simp

end Idm
