import Verif.Model.NewUsers
/-!
# `idmd gen passwd`, `/repo/cmd/idmd/gen/passwd/passwd.go` and `prompt.go`: where the secret comes from

What is done with the secret is `passwdTool` in `Model/NewUsers`.
-/
namespace Idm

/-- The flags, passwd.go:54-64. `none`/`false` in the first three: the flag is not on the command line (`Flags().Changed`; so `--generate=false`
counts as generate). Not modelled: the flags for the cost of ARGON2. -/
structure PasswdOpts where
  secret : Option Str
  secretFile : Option Str
  generate : Bool
  scheme : Str
  omitNewline : Bool
  minStrength : Int

/-- What the command finds around it: the files (by cleaned path; `none` cannot be read), `filepath.Clean`, the answer of the password
generator, what the user types at the two prompts, the estimate of strength (zxcvbn), and the salt. -/
structure PasswdWorld where
  readFile : Str → Option Str
  clean : Str → Str
  generated : Option Str
  typed : Str
  confirmed : Str
  strength : Str → Int
  salt : Str

/-- `promptForPassword`, prompt.go:14-32. -/
def promptForPassword (W : PasswdWorld) : Res Str :=
  if W.typed ≠ W.confirmed ∨ W.typed = [] then .err .other else .ok W.typed

/-- The function literal of passwd.go:76-106: how many of the flags were counted in `exclusive`, the secret and the scheme. Its error is lost:
the only use of `err` after it is as the target of an assignment. -/
def pickSecret (W : PasswdWorld) (o : PasswdOpts) : Nat × Str × Str :=
  let r1 : Nat × Str := match o.secret with
    | some s => (1, s)
    | none => (0, [])
  match (match o.secretFile with
      | some f =>
        if r1.1 = 0 then (W.readFile (W.clean f)).map fun s => (r1.1 + 1, s)
        else some (r1.1 + 1, r1.2)
      | none => some r1) with
  | none => (r1.1, r1.2, o.scheme)
  | some r2 =>
    if o.generate then
      if r2.1 = 0 then
        match W.generated with
        | none => (r2.1, [], o.scheme)
        | some s => (r2.1 + 1, s, b!"{CLEARTEXT}")
      else (r2.1 + 1, r2.2, o.scheme)
    else (r2.1, r2.2, o.scheme)

/-- `passwd`, passwd.go:69-149: what is printed (exit code 0), or an error (exit code 1, nothing on standard output). -/
def passwdCmd (K : CryptoEnv) (W : PasswdWorld) (o : PasswdOpts) : Res Str :=
  let p := pickSecret W o
  if p.1 > 1 then .err .other
  else
    (if p.1 = 0 then promptForPassword W else .ok p.2.1).bind fun secret =>
      (passwdTool K (fun s => !decide (W.strength s < o.minStrength)) W.salt secret p.2.2).bind fun out =>
        .ok (out ++ if o.omitNewline then [] else [10])

end Idm
