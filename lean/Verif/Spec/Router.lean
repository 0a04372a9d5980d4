import Verif.Spec.Wire
/-!
# Which handler is responsible for a name, and what the client is told

Names and suffixes are compared as texts, as the code does (C35 says where this differs from comparing names).
-/
namespace Idm

/-- Among the registered suffixes `s` is responsible for the name: the name ends in it, and all others it ends in have fewer commas. The empty
suffix stands behind all others. -/
def Responsible (suffixes : List Str) (s name : Str) : Prop :=
  s ∈ suffixes ∧ s <:+ name ∧ ∀ t ∈ suffixes, t ≠ s → t <:+ name → t = [] ∨ t.count 44 < s.count 44

/-- No two handlers are registered under one suffix. -/
def OnePerSuffix {α : Type} (fns : List (Str × α)) : Prop := (fns.map (·.1)).Nodup

instance {α : Type} (fns : List (Str × α)) : Decidable (OnePerSuffix fns) := by unfold OnePerSuffix; infer_instance

/-- What the client is told of the answer of a write handler, under the response type `tag`. -/
def handlerAnswer {σ : Type} (id : Int) (tag : Nat) (bound : Str) : Res (Nat × Bool) × σ → Out σ
  | (.ok (code, _), st) => ⟨[.result id tag code], .go bound, st⟩
  | (.err (.ldap code _), st) => ⟨[.result id tag code], .go bound, st⟩
  | (.err _, st) => ⟨[.result id tag 1], .go bound, st⟩
  | (.panic, st) => ⟨[], .crash, st⟩
  | (.hang, st) => ⟨[], .hang, st⟩

/-- A response that neither contains data nor reports that something was done: the end of a search may report success. -/
def Resp.Empty : Resp → Prop
  | .result _ _ code => code ≠ 0
  | .entry _ _ => False
  | .searchDone _ code _ => code = 0 ∨ code = 1
  | .extended _ code _ genPw => code ≠ 0 ∧ genPw = none

end Idm
