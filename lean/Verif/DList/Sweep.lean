import Verif.DList.Model

/-!
# Loops over a list that change it (templates/detachable_list.h, templates/detachable_list_util.h)

The loop is the caller's, written with `First`, `Last`, `Next`, `Prev` and the calls of `Verif.DList.Model`:

    for (Node = List.First(); Node != NULL; Node = Next)  {  Next = Node->Next();  ...  }

What the caller does with a node (`body`) is any list of calls on any of the objects; it may depend on the round, on the node
and on its value.
-/

namespace Verif.DList
open Verif.Links

variable {α : Type}

/-- `Node->Next()` or `Node->Prev()`: detachable_list.h:26-27 -/
def follow (fwd : Bool) (w : W α) (x : Nat) : CRes (Option Nat) := if fwd then getNx w.lh x else getPv w.lh x

/-- `First()` or `Last()`: detachable_list_util.h:331-332 -/
def start (fwd : Bool) (w : W α) (l : Nat) : CRes (Option Nat) := do
  let o ← getObj w l
  .ok (if fwd then o.ends.first else o.ends.last)

/-- The loop that reads the next node before the calls of the body: detachable_list.h:26-27, 33 and the calls of
detachable_list_util.h 16-333.  The result has the nodes visited, with the values found. -/
def sweepLoop (fwd : Bool) (body : Nat → Nat → α → List (Op α)) : Nat → Nat → W α → Option Nat → CRes (List (Nat × α) × W α)
  | 0, _, _, _ => .error .diverges
  | _ + 1, _, w, none => .ok ([], w)
  | k + 1, i, w, some x => do
    let v ← getVal w x
    let n ← follow fwd w x
    let (_, w) ← run w (body i x v)
    let (vis, w) ← sweepLoop fwd body k (i + 1) w n
    .ok ((x, v) :: vis, w)

/-- The whole loop, from `First()` or `Last()` on (detachable_list_util.h 331-332).  A loop of more rounds than there were ever
nodes when it began is taken not to end. -/
def sweep (fwd : Bool) (body : Nat → Nat → α → List (Op α)) (w : W α) (l : Nat) : CRes (List (Nat × α) × W α) := do
  let x ← start fwd w l
  sweepLoop fwd body (w.fresh + 1) 0 w x

/-- The loop that reads the next node after the calls of the body: detachable_list.h:26-27, 33 -/
def lateLoop (fwd : Bool) (body : Nat → Nat → α → List (Op α)) : Nat → Nat → W α → Option Nat → CRes (List (Nat × α) × W α)
  | 0, _, _, _ => .error .diverges
  | _ + 1, _, w, none => .ok ([], w)
  | k + 1, i, w, some x => do
    let v ← getVal w x
    let (_, w) ← run w (body i x v)
    let n ← follow fwd w x
    let (vis, w) ← lateLoop fwd body k (i + 1) w n
    .ok ((x, v) :: vis, w)

/-- The whole loop (detachable_list_util.h 331-332). -/
def late (fwd : Bool) (body : Nat → Nat → α → List (Op α)) (w : W α) (l : Nat) : CRes (List (Nat × α) × W α) := do
  let x ← start fwd w l
  lateLoop fwd body (w.fresh + 1) 0 w x

/-- The body that removes the nodes whose value is not to be kept: detachable_list_util.h:316-323 -/
def removeUnless (keep : α → Bool) (l : Nat) : Nat → Nat → α → List (Op α) :=
  fun _ x v => if keep v then [] else [.remove l (some x)]

/-- The body that moves the nodes whose value is not to be kept to the end of list `m`:
detachable_list_util.h:184-206, 286-314 -/
def moveUnless (keep : α → Bool) (l m : Nat) : Nat → Nat → α → List (Op α) :=
  fun _ x v => if keep v then [] else [.detach l (some x), .insertBeforeN m none x]

end Verif.DList
