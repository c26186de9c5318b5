import Verif.BlockHeap

/-!
# Model of `StaticVector<T>` (templates/static_vector.h)

Several vector objects live in one world with a common heap, so that sharing of storage would be visible.
`dflt` is what `new T[n]` leaves in the cells; for scalar types that value is unspecified, and the theorems
hold for every `dflt`.
-/

namespace Verif.StaticVector
variable {α : Type}

/-- The members `ptr`, `Size`, static_vector.h:79-81 -/
structure Vec where
  ptr : Option Nat
  size : Nat
  deriving DecidableEq, Repr

/-- All objects ever constructed (`none`: destroyed) and the heap (static_vector.h 10-82). -/
structure World (α : Type) where
  heap : BHeap α
  objs : List (Option Vec)
  deriving DecidableEq, Repr

/-- A live object (static_vector.h 79-82). -/
def World.obj (w : World α) (i : Nat) : CRes Vec :=
  match w.objs[i]? with
  | some (some v) => .ok v
  | _ => .error .badPtr

/-- The memory behind a pointer that must not be NULL (static_vector.h 25-72). -/
def deref : Option Nat → CRes Nat
  | some p => .ok p
  | none => .error .nullDeref

/-- `delete[] ptr`; deleting NULL does nothing (static_vector.h 19-22, 37-42). -/
def freeOpt (h : BHeap α) : Option Nat → CRes (BHeap α)
  | some p => h.free p
  | none => .ok h

/-- `StaticVector(size_t Num)`, static_vector.h:13-17 -/
def construct (dflt : α) (w : World α) (num : Nat) : World α :=
  let (p, h) := w.heap.alloc (List.replicate num dflt)
  { heap := h, objs := w.objs ++ [some { ptr := some p, size := num }] }

/-- `~StaticVector()`, static_vector.h:19-22 -/
def destroy (w : World α) (i : Nat) : CRes (World α) := do
  let v ← w.obj i
  let h ← freeOpt w.heap v.ptr
  .ok { heap := h, objs := w.objs.set i none }

/-- The element loop `for (x = 0; x < Size; x++) ptr[x] = TempVector.ptr[x];`, lines 29 and 46.
With `Size == 0` no pointer is looked at. -/
def copyCells (h : BHeap α) (dst src : Option Nat) (size : Nat) : CRes (BHeap α) :=
  if size = 0 then .ok h
  else do
    let s ← deref src
    let d ← deref dst
    h.copyLoop d s size 0

/-- Copy constructor, static_vector.h:25-30 -/
def copyConstruct (dflt : α) (w : World α) (j : Nat) : CRes (World α) := do
  let t ← w.obj j
  let (p, h) := w.heap.alloc (List.replicate t.size dflt)                    -- lines 27-28
  let h ← copyCells h (some p) t.ptr t.size                                  -- line 29
  .ok { heap := h, objs := w.objs ++ [some { ptr := some p, size := t.size }] }

/-- Replacement of the storage in `operator=`, static_vector.h:37-44 -/
def resize (dflt : α) (h : BHeap α) (v t : Vec) : CRes (BHeap α × Vec) :=
  if v.size ≠ t.size then do                                                 -- line 37
    let h ← freeOpt h v.ptr                                                  -- line 39
    if t.size = 0 then .ok (h, { ptr := none, size := t.size })              -- line 42
    else
      let (p, h) := h.alloc (List.replicate t.size dflt)                     -- line 43
      .ok (h, { ptr := some p, size := t.size })
  else .ok (h, v)

/-- `operator=`, static_vector.h:33-50: object `i` = object `j` -/
def assign (dflt : α) (w : World α) (i j : Nat) : CRes (World α) := do
  let v ← w.obj i
  let t ← w.obj j
  if i = j then .ok w                                                        -- line 35
  else do
    let (h, v) ← resize dflt w.heap v t
    let h ← copyCells h v.ptr t.ptr v.size                                   -- line 46
    .ok { heap := h, objs := w.objs.set i (some v) }

/-- `operator[]` as an rvalue, static_vector.h:56 -/
def get (w : World α) (i k : Nat) : CRes α := do
  let v ← w.obj i
  let p ← deref v.ptr
  w.heap.load p k

/-- `operator[]` as an lvalue, static_vector.h:56 -/
def set (w : World α) (i k : Nat) (x : α) : CRes (World α) := do
  let v ← w.obj i
  let p ← deref v.ptr
  let h ← w.heap.store p k x
  .ok { w with heap := h }

/-- The comparison loop of `operator==`, static_vector.h:67-68: `n` cells from `x` on. -/
def eqLoop [DecidableEq α] (h : BHeap α) (p q : Nat) : (n x : Nat) → CRes Bool
  | 0, _ => .ok true
  | n + 1, x => do
    let a ← h.load p x
    let b ← h.load q x
    if a = b then eqLoop h p q n (x + 1) else .ok false

/-- `operator==`, static_vector.h:62-71 (`operator!=` is its negation, 74-77) -/
def eq [DecidableEq α] (w : World α) (i j : Nat) : CRes Bool := do
  let v ← w.obj i
  let t ← w.obj j
  if v.size ≠ t.size then .ok false                                          -- line 64
  else if v.size = 0 then .ok true
  else do
    let p ← deref v.ptr
    let q ← deref t.ptr
    eqLoop w.heap p q v.size 0

/-- The user's operations (static_vector.h 13-77). -/
inductive Op (α : Type) where
  | construct (num : Nat)
  | copyConstruct (j : Nat)
  | destroy (i : Nat)
  | assign (i j : Nat)
  | set (i k : Nat) (x : α)
  | get (i k : Nat)
  | eq (i j : Nat)
  | size (i : Nat)

/-- What the user sees of an operation (static_vector.h 52-77). -/
inductive Out (α : Type) where
  | none
  | val (x : α)
  | bool (b : Bool)
  | num (n : Nat)
  deriving DecidableEq, Repr

/-- One operation (static_vector.h 13-77). -/
def step [DecidableEq α] (dflt : α) (w : World α) : Op α → CRes (Out α × World α)
  | .construct n => .ok (.none, construct dflt w n)
  | .copyConstruct j => do let w ← copyConstruct dflt w j; .ok (.none, w)
  | .destroy i => do let w ← destroy w i; .ok (.none, w)
  | .assign i j => do let w ← assign dflt w i j; .ok (.none, w)
  | .set i k x => do let w ← set w i k x; .ok (.none, w)
  | .get i k => do let x ← get w i k; .ok (.val x, w)
  | .eq i j => do let b ← eq w i j; .ok (.bool b, w)
  | .size i => do let v ← w.obj i; .ok (.num v.size, w)                      -- GetSize, line 52

/-- A history of operations: all results and the final world (calls of static_vector.h 13-77). -/
def run [DecidableEq α] (dflt : α) : World α → List (Op α) → CRes (List (Out α) × World α)
  | w, [] => .ok ([], w)
  | w, op :: ops => do
    let (o, w) ← step dflt w op
    let (os, w) ← run dflt w ops
    .ok (o :: os, w)

end Verif.StaticVector
