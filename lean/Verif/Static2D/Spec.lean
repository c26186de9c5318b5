import Verif.Static2D.Model

/-! # Specification of fixed rows × columns arrays: value semantics -/

namespace Verif.Static2D.Spec
variable {α : Type}

/-- A rectangle of cells. -/
structure Grid (α : Type) where
  width : Nat
  height : Nat
  cell : (row col : Nat) → α

/-- Writing one cell. -/
def Grid.write (g : Grid α) (r c : Nat) (x : α) : Grid α :=
  { g with cell := fun r' c' => if r' = r ∧ c' = c then x else g.cell r' c' }

/-- The objects: `none` once destroyed. -/
abbrev State (α : Type) := List (Option (Grid α))

/-- A live object. -/
def live (s : State α) (i : Nat) : Option (Grid α) := (s[i]?).join

/-- Assignment as the library supports it: equal dimensions, or an empty source. -/
def assignable (g t : Grid α) : Prop := (g.width = t.width ∧ g.height = t.height) ∨ t.width * t.height = 0

instance (g t : Grid α) : Decidable (assignable g t) := by unfold assignable; infer_instance

/-- The meaning of the operations, with `none` for illegal uses: dead objects, indices out of range, sizes that
do not fit in the address space.  With `all = true` every assignment is legal (the full property); with
`all = false` only those the code supports. -/
def step (all : Bool) (dflt : α) (s : State α) : Op α → Option (Out α × State α)
  | .construct w h =>
    if w * h < 2 ^ 64 then some (.none, s ++ [some { width := w, height := h, cell := fun _ _ => dflt }]) else none
  | .copyConstruct j => do let t ← live s j; some (.none, s ++ [some t])
  | .destroy i => do let _ ← live s i; some (.none, s.set i none)
  | .assign i j => do
    let g ← live s i
    let t ← live s j
    if all ∨ assignable g t then some (.none, s.set i (some t)) else none
  | .set i r c x => do
    let g ← live s i
    if r < g.height ∧ c < g.width then some (.none, s.set i (some (g.write r c x))) else none
  | .get i r c => do
    let g ← live s i
    if r < g.height ∧ c < g.width then some (.val (g.cell r c), s) else none
  | .width i => do let g ← live s i; some (.num g.width, s)
  | .height i => do let g ← live s i; some (.num g.height, s)

/-- A history. -/
def run (all : Bool) (dflt : α) : State α → List (Op α) → Option (List (Out α) × State α)
  | s, [] => some ([], s)
  | s, op :: ops => do
    let (o, s) ← step all dflt s op
    let (os, s) ← run all dflt s ops
    some (o :: os, s)

end Verif.Static2D.Spec
