import Verif.BlockHeap

/-!
# Model of `Static2DArray<T>` (templates/static_2d_array.h)

Two heaps: the cells (`T[]` blocks) and the row tables (`T *[]` blocks).  A row pointer is a pair of the
cell block and an offset in it.  `size_t` products are reduced modulo `2^64`.  `dflt` is what `new T[n]`
leaves in the cells (unspecified for scalar types, so the theorems hold for every `dflt`).

`operator==` compares a cell with a row pointer (line 92).  Whether and how that compiles depends on `T`;
the comparison is a parameter `cmp`.
-/

namespace Verif.Static2D
variable {α : Type}

/-- A row pointer `T *`: block and offset (static_2d_array.h 106). -/
abbrev RowPtr := Nat × Nat

/-- Members, static_2d_array.h:104-107 -/
structure Arr where
  base : Option Nat
  rows : Option Nat
  width : Nat
  height : Nat
  deriving DecidableEq, Repr

/-- All objects ever constructed (`none`: destroyed) and the memory (static_2d_array.h 10-108). -/
structure World (α : Type) where
  cells : BHeap α
  tables : BHeap RowPtr
  objs : List (Option Arr)
  deriving DecidableEq, Repr

/-- `size_t` multiplication (static_2d_array.h 13-97). -/
def mulSz (a b : Nat) : Nat := a * b % 2 ^ 64

/-- A live object (static_2d_array.h 104-108). -/
def World.obj (w : World α) (i : Nat) : CRes Arr :=
  match w.objs[i]? with
  | some (some v) => .ok v
  | _ => .error .badPtr

/-- A pointer that is about to be dereferenced (static_2d_array.h 13-97). -/
def deref : Option Nat → CRes Nat
  | some p => .ok p
  | none => .error .nullDeref

/-- `delete[]`, which ignores NULL (static_2d_array.h 22-26, 47-66). -/
def freeOpt {β : Type} (h : BHeap β) : Option Nat → CRes (BHeap β)
  | some p => h.free p
  | none => .ok h

/-- The contents of a new row table, `ptr[x] = baseptr + (Width * x)`, lines 17, 37, 65 -/
def rowTable (p width height : Nat) : List RowPtr := (List.range height).map (fun x => (p, mulSz width x))

/-- `new T[Width * Height]`, `new T *[Height]` and the row loop, lines 15-17, 34-37, 63-65 -/
def build (dflt : α) (w : World α) (width height : Nat) : Arr × World α :=
  let (p, cells) := w.cells.alloc (List.replicate (mulSz width height) dflt)
  let (r, tables) := w.tables.alloc (rowTable p width height)
  ({ base := some p, rows := some r, width := width, height := height },
   { w with cells := cells, tables := tables })

/-- Constructor, static_2d_array.h:13-20 -/
def construct (dflt : α) (w : World α) (width height : Nat) : World α :=
  let (a, w) := build dflt w width height
  { w with objs := w.objs ++ [some a] }

/-- Destructor, static_2d_array.h:22-26 -/
def destroy (w : World α) (i : Nat) : CRes (World α) := do
  let a ← w.obj i
  let tables ← freeOpt w.tables a.rows
  let cells ← freeOpt w.cells a.base
  .ok { cells := cells, tables := tables, objs := w.objs.set i none }

/-- `for (x = 0; x < y; x++) baseptr[x] = TempArray.baseptr[x];`, lines 39 and 70 -/
def copyCells (h : BHeap α) (dst src : Option Nat) (n : Nat) : CRes (BHeap α) :=
  if n = 0 then .ok h
  else do
    let s ← deref src
    let d ← deref dst
    h.copyLoop d s n 0

/-- Copy constructor, static_2d_array.h:29-40 -/
def copyConstruct (dflt : α) (w : World α) (j : Nat) : CRes (World α) := do
  let t ← w.obj j
  let (a, w) := build dflt w t.width t.height
  let cells ← copyCells w.cells a.base t.base (mulSz a.width a.height)
  .ok { w with cells := cells, objs := w.objs ++ [some a] }

/-- The replacement of the storage in `operator=`, static_2d_array.h:47-67.  The test on line 56 is written
the wrong way round: non-empty arrays get NULL pointers. -/
def reshape (dflt : α) (w : World α) (a t : Arr) : CRes (Arr × World α) :=
  if a.width ≠ t.width ∨ a.height ≠ t.height then do                          -- line 47
    let tables ← freeOpt w.tables a.rows                                      -- line 49
    let cells ← freeOpt w.cells a.base                                        -- line 50
    if mulSz t.width t.height ≠ 0 then                                        -- line 56
      .ok ({ base := none, rows := none, width := t.width, height := t.height },
           { w with tables := tables, cells := cells })
    else
      .ok (build dflt { w with tables := tables, cells := cells } t.width t.height)
  else .ok (a, w)

/-- `operator=`, static_2d_array.h:43-74: object `i` = object `j` -/
def assign (dflt : α) (w : World α) (i j : Nat) : CRes (World α) := do
  let a ← w.obj i
  let t ← w.obj j
  if i = j then .ok w                                                         -- line 45
  else do
    let (a, w) ← reshape dflt w a t
    let cells ← copyCells w.cells a.base t.base (mulSz a.width a.height)      -- lines 69-70
    .ok { w with cells := cells, objs := w.objs.set i (some a) }

/-- `Array[row]`, static_2d_array.h:81 -/
def row (w : World α) (i r : Nat) : CRes RowPtr := do
  let a ← w.obj i
  let t ← deref a.rows
  w.tables.load t r

/-- `Array[row][col]` (static_2d_array.h 81). -/
def get (w : World α) (i r c : Nat) : CRes α := do
  let (p, off) ← row w i r
  w.cells.load p (off + c)

/-- `Array[row][col] = v` (static_2d_array.h 81). -/
def set (w : World α) (i r c : Nat) (v : α) : CRes (World α) := do
  let (p, off) ← row w i r
  let cells ← w.cells.store p (off + c) v
  .ok { w with cells := cells }

/-- The loop of `operator==`, line 92: `baseptr[x] == TempArray.ptr[x]` -/
def eqLoop (cmp : α → RowPtr → Bool) (w : World α) (p q : Nat) : (n x : Nat) → CRes Bool
  | 0, _ => .ok true
  | n + 1, x => do
    let a ← w.cells.load p x
    let b ← w.tables.load q x
    if cmp a b then eqLoop cmp w p q n (x + 1) else .ok false

/-- `operator==`, static_2d_array.h:87-96 -/
def eq (cmp : α → RowPtr → Bool) (w : World α) (i j : Nat) : CRes Bool := do
  let a ← w.obj i
  let t ← w.obj j
  if a.width ≠ t.width ∨ a.height ≠ t.height then .ok false                   -- line 89
  else if mulSz a.width a.height = 0 then .ok true
  else do
    let p ← deref a.base
    let q ← deref t.rows
    eqLoop cmp w p q (mulSz a.width a.height) 0

/-- The user's operations (static_2d_array.h 13-102). -/
inductive Op (α : Type) where
  | construct (width height : Nat)
  | copyConstruct (j : Nat)
  | destroy (i : Nat)
  | assign (i j : Nat)
  | set (i r c : Nat) (x : α)
  | get (i r c : Nat)
  | width (i : Nat)
  | height (i : Nat)

/-- What the user sees (static_2d_array.h 76-102). -/
inductive Out (α : Type) where
  | none
  | val (x : α)
  | num (n : Nat)
  deriving DecidableEq, Repr

/-- One operation (`GetWidth`, `GetHeight`: lines 76-77). -/
def step (dflt : α) (w : World α) : Op α → CRes (Out α × World α)
  | .construct x y => .ok (.none, construct dflt w x y)
  | .copyConstruct j => do let w ← copyConstruct dflt w j; .ok (.none, w)
  | .destroy i => do let w ← destroy w i; .ok (.none, w)
  | .assign i j => do let w ← assign dflt w i j; .ok (.none, w)
  | .set i r c x => do let w ← set w i r c x; .ok (.none, w)
  | .get i r c => do let x ← get w i r c; .ok (.val x, w)
  | .width i => do let a ← w.obj i; .ok (.num a.width, w)
  | .height i => do let a ← w.obj i; .ok (.num a.height, w)

/-- A history (calls of static_2d_array.h 13-102). -/
def run (dflt : α) : World α → List (Op α) → CRes (List (Out α) × World α)
  | w, [] => .ok ([], w)
  | w, op :: ops => do
    let (o, w) ← step dflt w op
    let (os, w) ← run dflt w ops
    .ok (o :: os, w)

/-- The world before the first operation (static_2d_array.h 10-108). -/
def emptyWorld : World α := { cells := [], tables := [], objs := [] }

end Verif.Static2D
