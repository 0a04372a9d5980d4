import Verif.Spec.Reload
import Verif.Spec.LdifParallel
import Verif.Model.ReloadParallel
/-!
# What an LDIF server serves while requests overlap and files are reloaded
-/
namespace Idm

section
variable {ι : Type}

/-- What counts after all that was seen (the last first): the records `rs` of the main files and those, `cs`, of the config file, as they were when
the server looked at them last and they could be used. `dir` is the directory from which the config file may include files the next time: that of
the main files when they were looked at last. -/
inductive Counts (C : CaseEnv) (H : Host) (env : Str → Str) (flags : List Flag) : List (FSeen ι) → List LdifRecord → List LdifRecord → Str → Prop where
  | start (rs cs : List LdifRecord) (dir : Str) : FilesSay H (askedVars env flags) (absPath H.cwd (optMain.value env flags)) rs →
      IncludeDir H (absPath H.cwd (optMain.value env flags)) dir → ConfSays H (askedVars env flags) H.cwd (optConfig.value env flags) dir cs →
      Counts C H env flags [] rs cs dir
  | seen (log : List (FSeen ι)) (rs cs : List LdifRecord) (dir : Str) (e : LSeen ι) :
      Counts C H env flags log rs cs dir → Counts C H env flags (.seen e :: log) rs cs dir
  | confGood (log : List (FSeen ι)) (rs cs cs' : List LdifRecord) (dir : Str) (d : Disk) : Counts C H env flags log rs cs dir →
      ConfSays (H.now d) (askedVars env flags) H.cwd (optConfig.value env flags) dir cs' → Distinct C cs' →
      Counts C H env flags (.conf d :: log) rs cs' dir
  | confBad (log : List (FSeen ι)) (rs cs : List LdifRecord) (dir : Str) (d : Disk) : Counts C H env flags log rs cs dir →
      optConfig.value env flags ≠ [] → FileBad C (H.now d) (askedVars env flags) dir (absPath H.cwd (optConfig.value env flags)) →
      Counts C H env flags (.conf d :: log) rs cs dir
  | mainGood (log : List (FSeen ι)) (rs cs rs' : List LdifRecord) (dir dir' : Str) (d : Disk) : Counts C H env flags log rs cs dir →
      FilesSay (H.now d) (askedVars env flags) (absPath H.cwd (optMain.value env flags)) rs' → Distinct C rs' →
      IncludeDir (H.now d) (absPath H.cwd (optMain.value env flags)) dir' → Counts C H env flags (.main d :: log) rs' cs dir'
  | mainBad (log : List (FSeen ι)) (rs cs : List LdifRecord) (dir dir' : Str) (d : Disk) : Counts C H env flags log rs cs dir →
      MainBad C (H.now d) (askedVars env flags) (absPath H.cwd (optMain.value env flags)) →
      (IncludeDir (H.now d) (absPath H.cwd (optMain.value env flags)) dir' ∨ (d.isDir (absPath H.cwd (optMain.value env flags)) = none ∧ dir' = dir)) →
      Counts C H env flags (.main d :: log) rs cs dir'

/-- What is seen of the requests and answers, the first first. -/
def iosOf (log : List (FSeen ι)) : List (Seen ι) := (log.filterMap fun e =>
  match e with
  | .seen (.io x) => some x
  | _ => none).reverse

/-- The packet `p` of connection `c` arrived as request `id` and was answered with `rs`: `before` and `between` is what was seen (the last first) before
it arrived and then until it was answered. -/
def AnsweredIn (log : List (FSeen ι)) (id : ι) (c : Nat) (p : Packet) (o : Oracle) (rs : List Resp) (before between : List (FSeen ι)) : Prop :=
  ∃ after, log = after ++ .seen (.io (.answer id rs)) :: (between ++ .seen (.io (.arrive id (.packet c p o))) :: before)

end
end Idm
