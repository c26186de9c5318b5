import Verif.OrderedHash.Model

/-!
# Several detachable ordered hashes over the same nodes (templates/detachable_ordered_hash_util.h)

`Verif.OrderedHash.Model` has one hash object.  Here there is a family of hash objects, one for each number, and one memory for
the nodes of all of them: a node that is detached from one hash can be inserted into another.  Each call runs the function of
`Verif.OrderedHash.Model` on the nodes and on the members of the hash it is made on.

The hash keys (`UseSipHash`, `Key1`, `Key2`) of object `i` are the number `seed i`; `hf` gives the hash function for them.
-/

namespace Verif.OrderedHash
open Verif.Links

variable {α : Type}

/-- The members of a hash object that change: detachable_ordered_hash_util.h:546-550 -/
structure Obj where
  tbl : List (Option Nat)
  npp : Nat
  ends : Ends
  num : Nat

/-- The nodes, and the hash objects.  Of `mem` only the nodes count.  detachable_ordered_hash_util.h:543-550 -/
structure MW (α : Type) where
  mem : W α
  obj : Nat → Obj

/-- What a call on hash `i` works on: detachable_ordered_hash_util.h:543-550 -/
def MW.view (m : MW α) (i : Nat) : W α :=
  { m.mem with tbl := (m.obj i).tbl, npp := (m.obj i).npp, ends := (m.obj i).ends, num := (m.obj i).num }

/-- What a call on hash `i` leaves behind: detachable_ordered_hash_util.h:543-550 -/
def MW.put (m : MW α) (i : Nat) (w : W α) : MW α := { mem := w, obj := upd m.obj i ⟨w.tbl, w.npp, w.ends, w.num⟩ }

/-- The constructors, hash `i` with the size `size i`: detachable_ordered_hash_util.h:20-40 -/
def MW.construct (dflt : α) (size : Nat → Nat) : MW α :=
  { mem := OrderedHash.construct dflt 0
    obj := fun i => ⟨List.replicate (size i) none, if size i = 0 then 0 else nextPrimePos (size i), ⟨none, none⟩, 0⟩ }

/-- All calls: on a node, or on a hash (detachable_ordered_hash.h 81-112, detachable_ordered_hash_util.h 162-535). -/
inductive MOp (α : Type) where
  | create (k : Key) (v : α)
  | delete (x : Nat)
  | setKey (x : Nat) (k : Key)
  | setValue (x : Nat) (v : α)
  | on (i : Nat) (op : Op α)

/-- One call (detachable_ordered_hash.h 81-112, detachable_ordered_hash_util.h 162-535). -/
def mstep (hf : Nat → List UInt8 → Nat) (seed : Nat → Nat) (m : MW α) : MOp α → CRes (Ret × MW α)
  | .create k v => .ok (.node (some (createNode m.mem k v).1), { m with mem := (createNode m.mem k v).2 })
  | .delete x => do let w ← deleteNode m.mem x; .ok (.void, { m with mem := w })
  | .setKey x (.int i) => do let w ← setIntKey m.mem x i; .ok (.void, { m with mem := w })
  | .setKey x (.str bs) => do let w ← setStrKey m.mem x bs; .ok (.void, { m with mem := w })
  | .setValue x v =>
    if m.mem.lh.live x then .ok (.void, { m with mem := { m.mem with val := upd m.mem.val x v } }) else .error .badPtr
  | .on i op => do
    let (r, w) ← step (hf (seed i)) (m.view i) op
    .ok (r, m.put i w)

/-- A history of calls (calls of detachable_ordered_hash_util.h 162-535). -/
def mrun (hf : Nat → List UInt8 → Nat) (seed : Nat → Nat) : MW α → List (MOp α) → CRes (List Ret × MW α)
  | m, [] => .ok ([], m)
  | m, op :: ops => do
    let (r, m) ← mstep hf seed m op
    let (rs, m) ← mrun hf seed m ops
    .ok (r :: rs, m)

end Verif.OrderedHash
