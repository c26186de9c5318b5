import Verif.PackedHash.Model

/-!
# Model of positions in a `PackedOrderedHash<T>` (templates/packed_ordered_hash_util.h 300-441)

A caller holds one variable `size_t Pos` and uses it with `Next`, `Prev`, `Get` and `Find`, mixed with any other calls.
-/

namespace Verif.PackedHash
open Verif.Links
open Verif.OrderedHash (Key)

variable {α : Type}

/-- The object and the caller's `Pos` (packed_ordered_hash_util.h 300-367). -/
structure C (α : Type) where
  w : W α
  i : Nat

/-- What the caller does (packed_ordered_hash_util.h 266-441). -/
inductive CAct (α : Type) where
  /-- `Pos = GetNextPos()` -/
  | start
  /-- `Next(Pos)` -/
  | next
  /-- `Prev(Pos)` -/
  | prev
  /-- `Get(Pos)` -/
  | get
  /-- `Unset(Get(Pos))` -/
  | unsetHere
  /-- `Node = Get(Pos); if (Node != NULL)  Node->Value = Value` -/
  | setHere (v : α)
  /-- `Find(Key, Pos)` -/
  | seek (k : Key)
  | call (op : Op α)

/-- What the caller gets to see: of a node its key and value (packed_ordered_hash_util.h 266-441). -/
inductive CRet (α : Type) where
  | void
  | node (e : Option (Key × α))
  | bool (b : Bool)
  | ret (r : Ret α)
  deriving DecidableEq

/-- Key and value of a node that may be NULL (packed_ordered_hash.h 27-29). -/
def entryOf (w : W α) : Option Nat → CRes (Option (Key × α))
  | none => .ok none
  | some x => do
    let e ← getEntry w x
    .ok (some e)

/-- One action: `Get` is packed_ordered_hash_util.h:301-304, `Find` with a position 316-334 and 448-473 (`Pos` is
0xFFFFFFFF at the end of the chain), `Next` 338-349, `Prev` 352-366, `Unset` 276-298, `GetNextPos` 439. -/
def cstep (hf : List UInt8 → UInt64) (dflt : α) (c : C α) : CAct α → CRes (CRet α × C α)
  | .start => .ok (.void, { c with i := c.w.pos })
  | .next => do
    let (r, i) ← next c.w c.i
    let e ← entryOf c.w r
    .ok (.node e, { c with i := i })
  | .prev => do
    let (r, i) ← prev c.w c.i
    let e ← entryOf c.w r
    .ok (.node e, { c with i := i })
  | .get => do
    let r ← getPos c.w c.i
    let e ← entryOf c.w r
    .ok (.node e, c)
  | .unsetHere => do
    let r ← getPos c.w c.i
    let (b, w) ← unset c.w r
    .ok (.bool b, { c with w := w })
  | .setHere v => do
    let r ← getPos c.w c.i
    match r with
    | none => .ok (.bool false, c)
    | some x => do
      let _ ← getVal c.w x
      .ok (.bool true, { c with w := { c.w with val := upd c.w.val x (some v) } })
  | .seek k => do
    let r ← find hf c.w k
    let e ← entryOf c.w r
    match r with
    | none => .ok (.node e, { c with i := nil32 })
    | some x => .ok (.node e, { c with i := x })
  | .call op => do
    let (r, w) ← step hf dflt c.w op
    .ok (.ret r, { c with w := w })

/-- A sequence of actions (packed_ordered_hash_util.h 266-441). -/
def crun (hf : List UInt8 → UInt64) (dflt : α) : C α → List (CAct α) → CRes (List (CRet α) × C α)
  | c, [] => .ok ([], c)
  | c, a :: as => do
    let (r, c) ← cstep hf dflt c a
    let (rs, c) ← crun hf dflt c as
    .ok (r :: rs, c)

end Verif.PackedHash
