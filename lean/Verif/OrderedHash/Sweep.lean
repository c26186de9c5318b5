import Verif.OrderedHash.Model

/-!
# Loops over a detachable ordered hash that change it (templates/detachable_ordered_hash.h, detachable_ordered_hash_util.h)

As `Verif.DList.Sweep`, for the ordered list of the nodes of a hash.  The loop is the caller's:

    for (Node = Hash.FirstList(); Node != NULL; Node = Next)  {  Next = Node->NextList();  ...  }

What the caller does with a node (`body`) is any list of calls; it may depend on the round, the node, its key and its value.
-/

namespace Verif.OrderedHash
open Verif.Links

variable {α : Type}

/-- `Node->Value` (detachable_ordered_hash.h 129). -/
def getVal (w : W α) (x : Nat) : CRes α := if w.lh.live x then .ok (w.val x) else .error .badPtr

/-- `Node->NextList()` or `Node->PrevList()`: detachable_ordered_hash.h:74-75 -/
def follow (fwd : Bool) (w : W α) (x : Nat) : CRes (Option Nat) := if fwd then getNx w.lh x else getPv w.lh x

/-- `FirstList()` or `LastList()`: detachable_ordered_hash_util.h:533-534 -/
def start (fwd : Bool) (w : W α) : Option Nat := if fwd then w.ends.first else w.ends.last

/-- The loop that reads the next node before the calls of the body: detachable_ordered_hash.h:74-77, 129 and the calls of
detachable_ordered_hash_util.h 162-536.  The result has the nodes visited, with the keys and values found. -/
def sweepLoop (hf : List UInt8 → Nat) (fwd : Bool) (body : Nat → Nat → Key → α → List (Op α)) :
    Nat → Nat → W α → Option Nat → CRes (List (Nat × Key × α) × W α)
  | 0, _, _, _ => .error .diverges
  | _ + 1, _, w, none => .ok ([], w)
  | k + 1, i, w, some x => do
    let key ← getKey w x
    let v ← getVal w x
    let n ← follow fwd w x
    let (_, w) ← run hf w (body i x key v)
    let (vis, w) ← sweepLoop hf fwd body k (i + 1) w n
    .ok ((x, key, v) :: vis, w)

/-- The whole loop (detachable_ordered_hash_util.h 533-534).  A loop of more rounds than there were ever nodes when it began
is taken not to end. -/
def sweep (hf : List UInt8 → Nat) (fwd : Bool) (body : Nat → Nat → Key → α → List (Op α)) (w : W α) :
    CRes (List (Nat × Key × α) × W α) :=
  sweepLoop hf fwd body (w.fresh + 1) 0 w (start fwd w)

/-- The loop that reads the next node after the calls of the body: detachable_ordered_hash.h:74-77, 129 -/
def lateLoop (hf : List UInt8 → Nat) (fwd : Bool) (body : Nat → Nat → Key → α → List (Op α)) :
    Nat → Nat → W α → Option Nat → CRes (List (Nat × Key × α) × W α)
  | 0, _, _, _ => .error .diverges
  | _ + 1, _, w, none => .ok ([], w)
  | k + 1, i, w, some x => do
    let key ← getKey w x
    let v ← getVal w x
    let (_, w) ← run hf w (body i x key v)
    let n ← follow fwd w x
    let (vis, w) ← lateLoop hf fwd body k (i + 1) w n
    .ok ((x, key, v) :: vis, w)

/-- The whole loop (detachable_ordered_hash_util.h 533-534). -/
def late (hf : List UInt8 → Nat) (fwd : Bool) (body : Nat → Nat → Key → α → List (Op α)) (w : W α) :
    CRes (List (Nat × Key × α) × W α) :=
  lateLoop hf fwd body (w.fresh + 1) 0 w (start fwd w)

/-- The body that removes the nodes that are not to be kept: detachable_ordered_hash_util.h:408-415 -/
def removeUnless (keep : Key → α → Bool) : Nat → Nat → Key → α → List (Op α) :=
  fun _ x k v => if keep k v then [] else [.remove (some x)]

end Verif.OrderedHash
