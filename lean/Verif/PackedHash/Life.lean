import Verif.PackedHash.Model

/-!
# What a `PackedOrderedHash<T>` owns (templates/packed_ordered_hash_util.h)

The table of `Verif.PackedHash.Model` together with the blocks of memory and the value objects it takes and gives back.
Nodes are moved by raw `memcpy`, so the value object of a node and the pointer to its string move along with it: both are
carried in the value member of the table (`Cell`).  A value object is numbered when `new (&Node->Value) T` makes it and is
alive until `~T()`; a block is numbered when `new` returns it and is live until `delete`.  Destroying an object that is not
alive, assigning to one, and freeing a block that is not live are undefined behaviour.

Simplifications: those of `Verif.PackedHash.Model`; `T` has no exceptions; moving an object by `memcpy` is allowed, which the
language grants only for trivially copyable types.
-/

namespace Verif.PackedHash
open Verif.Links
open Verif.OrderedHash (Key)

variable {α : Type}

/-- The rest of a node: value, number of the value object, block of the string (packed_ordered_hash.h 20-40). -/
structure Cell (α : Type) where
  v : α
  obj : Nat
  blk : Option Nat

/-- A table, the block of its array, which of the blocks ever allocated are live and which of the value objects ever
constructed are alive (packed_ordered_hash_util.h 529-538). -/
structure L (α : Type) where
  w : W (Cell α)
  arr : Option Nat
  mem : List Bool
  objs : List Bool

/-- `delete[]` of a block, or `~T()` of an object (packed_ordered_hash_util.h 58, 60, 65, 288, 291). -/
def endLife (live : List Bool) (b : Nat) : CRes (List Bool) :=
  if live[b]? = some true then .ok (live.set b false) else .error .badPtr

/-- `InternalResizeHash`: a new array if it goes past its second line; the old one is not freed
(packed_ordered_hash_util.h 475-527). -/
def lInternal (hf : List UInt8 → UInt64) (o : L α) (n : Nat) : CRes (Bool × L α) := do
  let (b, w) ← internalResize hf o.w n
  if b then .ok (b, { o with w := w, arr := some o.mem.length, mem := o.mem ++ [true] })
  else .ok (b, { o with w := w })

/-- `ResizeHash` (packed_ordered_hash_util.h 430-436). -/
def lResize (hf : List UInt8 → UInt64) (o : L α) (m : Nat) : CRes (Bool × L α) := do
  let n ← growTo 64 1 m
  lInternal hf o n

/-- `Optimize` moves nodes only (packed_ordered_hash_util.h 375-413). -/
def lOptimize (o : L α) : CRes (L α) := do
  let w ← optimize o.w
  .ok { o with w := w }

/-- `AutoResizeHash` (packed_ordered_hash_util.h 421-428). -/
def lAuto (hf : List UInt8 → UInt64) (o : L α) : CRes (Bool × L α) :=
  if o.w.used < o.w.c90 then do
    let o ← lOptimize o
    .ok (true, o)
  else if o.w.used < o.w.r40 then lInternal hf o (o.w.cap / 2)
  else if o.w.pos = o.w.cap then lInternal hf o (o.w.cap * 2)
  else .ok (false, o)

/-- The constructors (packed_ordered_hash_util.h 25-30, 40-45). -/
def lConstruct (hf : List UInt8 → UInt64) (n : Nat) : CRes (L α) := do
  let (_, o) ← lResize hf ⟨{ (emptyTable 0 0 : W (Cell α)) with mask := 0, c90 := 0, r40 := 0 }, none, [], []⟩ n
  .ok o

/-- `if (NextNodePos == NumNodes)  AutoResizeHash()` (packed_ordered_hash_util.h 192, 231). -/
def lRoom (hf : List UInt8 → UInt64) (o : L α) : CRes (L α) :=
  if o.w.pos = o.w.cap then do
    let (_, o) ← lAuto hf o
    .ok o
  else .ok o

/-- `new (&Node->Value) T`, and `new char[StrLen + sizeof(size_t)]` for a string key
(packed_ordered_hash_util.h 195, 235, 247-251). -/
def lAppend (hf : List UInt8 → UInt64) (dflt : α) (o : L α) (k : Key) : CRes (Nat × L α) :=
  match k with
  | .int _ => do
    let (x, w) ← append hf ⟨dflt, o.objs.length, none⟩ o.w k
    .ok (x, { o with w := w, objs := o.objs ++ [true] })
  | .str _ => do
    let (x, w) ← append hf ⟨dflt, o.objs.length, some o.mem.length⟩ o.w k
    .ok (x, { o with w := w, objs := o.objs ++ [true], mem := o.mem ++ [true] })

/-- `Set(Key)` (packed_ordered_hash_util.h 183-212, 222-256). -/
def lSet (hf : List UInt8 → UInt64) (dflt : α) (o : L α) (k : Key) : CRes (Nat × L α) := do
  let r ← find hf o.w k
  match r with
  | some x => .ok (x, o)
  | none => do
    let o ← lRoom hf o
    lAppend hf dflt o k

/-- The value of a node, which must be an object that is alive (packed_ordered_hash.h 36). -/
def lVal (o : L α) (x : Nat) : CRes (Cell α) := do
  let c ← getVal o.w x
  if o.objs[c.obj]? = some true then .ok c else .error .badPtr

/-- `Set(Key, Value)`: `Node->Value = Value` assigns to the object that is there (packed_ordered_hash_util.h 214-220,
258-264). -/
def lSetV (hf : List UInt8 → UInt64) (dflt : α) (o : L α) (k : Key) (v : α) : CRes (L α) := do
  let (x, o) ← lSet hf dflt o k
  let c ← lVal o x
  .ok { o with w := { o.w with val := upd o.w.val x (some { c with v := v }) } }

/-- `Node->Value.~T()` and, if `StrKey` is not NULL, `delete[]` of its block
(packed_ordered_hash_util.h 58-60, 132-134, 288-293). -/
def endNode (o : L α) (x : Nat) : CRes (L α) := do
  let c ← getVal o.w x
  let objs ← endLife o.objs c.obj
  let sk ← get o.w o.w.sk x
  match sk, c.blk with
  | none, _ => .ok { o with objs := objs }
  | some _, none => .error .badPtr
  | some _, some b => do
    let mem ← endLife o.mem b
    .ok { o with objs := objs, mem := mem }

/-- `Unset` (packed_ordered_hash_util.h 266-298).  The value and the string end before the links are rewritten (in the code
after; neither reads what the other writes). -/
def lUnset (hf : List UInt8 → UInt64) (o : L α) (k : Key) : CRes (Bool × L α) := do
  let r ← find hf o.w k
  match r with
  | none => .ok (false, o)
  | some x => do
    let o ← endNode o x
    let (b, w) ← unset o.w (some x)
    .ok (b, { o with w := w })

/-- The loop over all nodes of the destructor and of `operator=` (packed_ordered_hash_util.h 53-64, 127-138). -/
def endNodes : Nat → L α → Nat → CRes (L α)
  | 0, o, _ => .ok o
  | k + 1, o, i => do
    let p ← get o.w o.w.pv i
    if p = nil32 then endNodes k o (i + 1)
    else do
      let o ← endNode o i
      endNodes k o (i + 1)

/-- All nodes and then `delete[] (char *)ArrayNodes` (packed_ordered_hash_util.h 53-66, 127-142).  Deleting NULL does
nothing. -/
def lRelease (o : L α) : CRes (L α) := do
  let o ← endNodes o.w.pos o 0
  match o.arr with
  | none => .ok o
  | some a => do
    let mem ← endLife o.mem a
    .ok { o with mem := mem, arr := none }

/-- The destructor (packed_ordered_hash_util.h 47-66). -/
def lDestroy (o : L α) : CRes (L α) := lRelease o

/-- `operator=` from another table `some src`, or from the table itself (packed_ordered_hash_util.h 116-180).  The part
behind the release is the text of the copy constructor (`copy`). -/
def lAssign (o : L α) (src : Option (W (Cell α))) : CRes (L α) :=
  match src with
  | none => .ok o
  | some s => do
    let o ← lRelease o
    let c ← copy s
    .ok { o with w := c }

/-- One call (packed_ordered_hash_util.h 183-441). -/
def lStep (hf : List UInt8 → UInt64) (dflt : α) (o : L α) : Op α → CRes (Ret α × L α)
  | .set k v => do let o ← lSetV hf dflt o k v; .ok (.void, o)
  | .touch k => do
    let (x, o) ← lSet hf dflt o k
    let c ← lVal o x
    .ok (.val (some c.v), o)
  | .unset k => do let (b, o) ← lUnset hf o k; .ok (.bool b, o)
  | .find k => do
    let r ← find hf o.w k
    match r with
    | none => .ok (.val none, o)
    | some x => do
      let c ← lVal o x
      .ok (.val (some c.v), o)
  | .resize n => do let (_, o) ← lResize hf o n; .ok (.void, o)
  | .optimize => do let o ← lOptimize o; .ok (.bool true, o)
  | .autoResize => do let (_, o) ← lAuto hf o; .ok (.void, o)
  | .size => .ok (.num o.w.used, o)

/-- A history of calls: what they returned and `GetHashSize()` after each (packed_ordered_hash_util.h 183-441). -/
def lRun (hf : List UInt8 → UInt64) (dflt : α) : L α → List (Op α) → CRes (List (Ret α) × List Nat × L α)
  | o, [] => .ok ([], [], o)
  | o, op :: ops => do
    let (r, o) ← lStep hf dflt o op
    let (rs, ns, o') ← lRun hf dflt o ops
    .ok (r :: rs, o.w.cap :: ns, o')

end Verif.PackedHash
