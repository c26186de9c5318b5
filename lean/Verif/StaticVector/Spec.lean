import Verif.StaticVector.Model

/-!
# Specification of static vectors

The objects are plain lists with value semantics.  An operation is legal when the objects it names are alive
and the index is in range; `none` marks an illegal operation.
-/

namespace Verif.StaticVector.Spec
variable {α : Type}

/-- The objects: `none` once destroyed. -/
abbrev State (α : Type) := List (Option (List α))

/-- A live object's contents. -/
def live (s : State α) (i : Nat) : Option (List α) := (s[i]?).join

/-- Meaning of each operation on plain lists. -/
def step [DecidableEq α] (dflt : α) (s : State α) : Op α → Option (Out α × State α)
  | .construct n => some (.none, s ++ [some (List.replicate n dflt)])
  | .copyConstruct j => do let t ← live s j; some (.none, s ++ [some t])
  | .destroy i => do let _ ← live s i; some (.none, s.set i none)
  | .assign i j => do let _ ← live s i; let t ← live s j; some (.none, s.set i (some t))
  | .set i k x => do
    let v ← live s i
    if k < v.length then some (.none, s.set i (some (v.set k x))) else none
  | .get i k => do let v ← live s i; let x ← v[k]?; some (.val x, s)
  | .eq i j => do let v ← live s i; let t ← live s j; some (.bool (decide (v = t)), s)
  | .size i => do let v ← live s i; some (.num v.length, s)

/-- A history; `none` if some operation is illegal. -/
def run [DecidableEq α] (dflt : α) : State α → List (Op α) → Option (List (Out α) × State α)
  | s, [] => some ([], s)
  | s, op :: ops => do
    let (o, s) ← step dflt s op
    let (os, s) ← run dflt s ops
    some (o :: os, s)

end Verif.StaticVector.Spec
