import Verif.Spec.Directory
/-!
# Specification: search scopes, histories
-/
namespace Idm

/-- RFC 4511 section 4.5.1.2: `n` is in scope of a search at `k`. Scope 0 is the entry itself, 1 its direct children, 2 the entry and
everything below it. -/
def InScope (scope : Nat) (k n : DN) : Prop :=
  (scope = 0 ∧ n = k) ∨ (scope = 1 ∧ ∃ r, n = r :: k) ∨ (scope = 2 ∧ ∃ p, n = p ++ k)

/-- The store serves the directory `d`: whatever name (with attribute types that need no escapes, however written) and scope is asked
for, the answer is exactly the entries of `d` in scope, none twice; and an error if there is no entry of that name. -/
def Serves (C : CaseEnv) (G : GobEnv) (db : Db) (d : Dir) : Prop :=
  ∀ text name, parseDN C text = some name → NameOk name → ∀ scope,
    (d.has (foldDN C name) = true →
      ∃ found : List Node,
        boltSearch C G db text scope = .ok (found.map (·.entry), none) ∧
        (found.map (·.name)).Nodup ∧
        ∀ n, n ∈ found ↔ n ∈ d ∧ InScope scope (foldDN C name) n.name) ∧
    (d.has (foldDN C name) = false → boltSearch C G db text scope = .ok ([], some .other))

/-- If the text is a name then its attribute types need no escapes. -/
def TextOk (C : CaseEnv) (s : Str) : Prop := ∀ n, parseDN C s = some n → NameOk n

/-- A history of fewer than 2^64 calls (ids are 64 bit) whose names have attribute types that need no escapes. -/
structure HistOk (C : CaseEnv) (ops : List Op) : Prop where
  ok : ∀ op ∈ ops, op.Ok C
  len : ops.length < 2 ^ 64

instance decForallSome {α : Type} (o : Option α) (P : α → Prop) [DecidablePred P] : Decidable (∀ n, o = some n → P n) :=
  match o with
  | none => .isTrue (by simp)
  | some a => if h : P a then .isTrue (by simpa using h) else .isFalse fun H => h (H a rfl)

instance (C : CaseEnv) (s : Str) : Decidable (TextOk C s) := by unfold TextOk; infer_instance

instance (C : CaseEnv) (op : Op) : Decidable (op.Ok C) := by
  cases op <;> unfold Op.Ok <;> infer_instance

instance (C : CaseEnv) (ops : List Op) : Decidable (HistOk C ops) :=
  decidable_of_iff ((∀ op ∈ ops, op.Ok C) ∧ ops.length < 2 ^ 64) ⟨fun h => ⟨h.1, h.2⟩, fun h => ⟨h.1, h.2⟩⟩

instance (C : CaseEnv) (base : DN) : Decidable (BaseOk C base) :=
  decidable_of_iff (base ≠ [] ∧ NameOk base ∧ foldDN C base = base ∧ EndOk base)
    ⟨fun h => ⟨h.1, h.2.1, h.2.2.1, h.2.2.2⟩, fun h => ⟨h.1, h.2, h.3, h.4⟩⟩

end Idm
