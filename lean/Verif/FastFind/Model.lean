import Verif.Base

/-!
# Model of `FastFind` and `FastReplace` (templates/fast_find_replace_util.h)

Pointers into the pattern and into the data are indices; NULL is `none`.  The pattern and the data
are lists holding exactly the `Size` elements the caller announced, so a read past the announced
size is undefined behaviour in the model.

`eq` is `operator==` of the element type (or the `ElementsEqual` function of the `Compare`
classes), and Lean equality of elements stands for "same bytes", the comparison `memcmp` makes.

Simplifications.
* `size_t` arithmetic is on unbounded numbers (no object is larger than the address space).
* Growth never fails (allocation failure throws or is the caller's business).
* The classes do not copy the pattern or the data; that the caller keeps them alive and unchanged
  is assumed.
* The five loops of `FindNext` differ only in the positions they compare first; they are one
  function taking the list of those positions.
-/

namespace Verif.FastFind

variable {α : Type} [DecidableEq α]

/-- The members of `FastFind` (fast_find_replace_util.h 391-393).  `obj` is the data object
`MxCurrPos` and `MxDataEnd` point into; `hasData` is `MxData != NULL`. -/
structure Find (α : Type) where
  pat : Option (List α)
  last : Option Nat
  min : Option Nat
  min2 : Option Nat
  mid : Option Nat
  lastPos : Nat
  minPos : Nat
  min2Pos : Nat
  midPos : Nat
  hasData : Bool
  obj : List α
  dataEnd : Nat
  cur : Nat
  deriving DecidableEq

/-- The constructor (fast_find_replace_util.h 36-39). -/
def Find.init : Find α :=
  ⟨none, none, none, none, none, 0, 0, 0, 0, false, [], 0, 0⟩

/-- The inner loop of `SetPattern` over `x2` (fast_find_replace_util.h 109-123); the first argument
is the number of rounds left, `x2 < SeenSize`. -/
def inner (eq : α → α → Bool) (p : List α) (x : Nat) :
    Nat → Nat → List Bool → Nat → CRes (List Bool × Nat)
  | 0, _, s, y => .ok (s, y)
  | k + 1, x2, s, y => do
    let a ← rd p (x + 1)
    let b ← rd p (x2 + 1)
    if eq a b then do
      let s ← wr s x2 true
      inner eq p x k (x2 + 1) s (y + 1)
    else inner eq p x k (x2 + 1) s y

/-- The outer loop of `SetPattern` over `x` and `Pos = Pattern + 1 + x` (fast_find_replace_util.h
101-135); the first argument is the number of rounds left, `Pos < MxPatternLast`.  The last three
arguments are `Min`, `MxPatternMin` and `MxPatternMin2`. -/
def outer (eq : α → α → Bool) (p : List α) :
    Nat → Nat → List Bool → Nat → Option Nat → Option Nat → CRes (Option Nat × Option Nat)
  | 0, _, _, _, a, b => .ok (a, b)
  | k + 1, x, s, mn, a, b => do
    let sn ← rd s x
    if sn then outer eq p k (x + 1) s mn a b
    else do
      let s ← wr s x true
      let (s, y) ← inner eq p x (p.length - 2 - (x + 1)) (x + 1) s 1
      if mn ≥ y then
        outer eq p k (x + 1) s y (some (x + 1)) (if p.length ≥ 10 then a else b)
      else outer eq p k (x + 1) s mn a b

/-- `(size_t)-1`, the start value of `Min` (fast_find_replace_util.h 88). -/
def sizeMax : Nat := 18446744073709551615

/-- Use of a pointer that must not be NULL (fast_find_replace_util.h 209-394). -/
def ptr : Option Nat → CRes Nat
  | none => .error .nullDeref
  | some i => .ok i

/-- Choice of the two rarest elements after the counting loop (fast_find_replace_util.h 149-168). -/
def adjust (size : Nat) (a b : Option Nat) : Option Nat × Option Nat :=
  let last := size - 1
  let (a, b) :=
    match a, b with
    | some i, none =>
      if size ≥ 10 then (some (i + (last - i) / 2), some i)
      else if i = last - 1 then (some (last / 2), none)
      else (some i, none)
    | a, b => (a, b)
  (a, if b.isSome ∧ b = some (last - 2) then some 1 else b)

/-- `(size_t)(u - v)` for pointers into the pattern (fast_find_replace_util.h 86-205). -/
def ptrDiff (u v : Nat) : Nat := if v ≤ u then u - v else sizeMax - (v - u - 1)

/-- The largest of the three gaps and its start (fast_find_replace_util.h 178-201); the pointer
differences are `size_t`, so a negative one would wrap. -/
def midpoint (last i j : Nat) : Option Nat :=
  let (y, s) := if 1 < ptrDiff j 0 then (ptrDiff j 0, 0) else (1, 0)
  let (y, s) := if y < ptrDiff i j then (ptrDiff i j, j) else (y, s)
  let (y, s) := if y < ptrDiff last i then (ptrDiff last i, i) else (y, s)
  if y > 1 then some (s + y / 2) else none

/-- `FastFind::SetPattern` (fast_find_replace_util.h 50-206); the pattern is `p`, `Size` its
length.  The `Seen` array has `Size - 2` cells (the code takes a 1024 byte stack array when that is
enough). -/
def setPattern (eq : α → α → Bool) (f : Find α) (p : List α) : CRes (Find α) :=
  if p.length = 0 then .ok { f with pat := none, lastPos := 0 }
  else
    let last := p.length - 1
    let f := { f with
      hasData := false, pat := some p, last := if p.length > 1 then some last else none,
      lastPos := last, min := none, min2 := none, mid := none }
    if p.length ≥ 5 then do
      let (a, b) ← outer eq p (p.length - 2) 0 (List.replicate (p.length - 2) false)
        sizeMax none none
      let (a, b) := adjust p.length a b
      let i ← ptr a
      let f := { f with min := some i, min2 := b, minPos := i, min2Pos := b.getD f.min2Pos }
      match b with
      | some j =>
        if p.length ≥ 15 then
          match midpoint last i j with
          | some m => .ok { f with mid := some m, midPos := m }
          | none => .ok f
        else .ok f
      | none => .ok f
    else .ok f

/-- `FastFind::SetData` (fast_find_replace_util.h 209-224). -/
def setData (f : Find α) (d : List α) : Find α :=
  let size := if d.length > f.lastPos then d.length - f.lastPos else 0
  if size = 0 then { f with hasData := false }
  else { f with hasData := true, obj := d, dataEnd := size, cur := 0 }

/-- The leading comparisons of a loop of `FindNext`, left to right, stopping at the first
difference; each entry is a pointer into the pattern and an offset from `MxCurrPos`
(fast_find_replace_util.h 242-360). -/
def probe (eq : α → α → Bool) (p d : List α) (cur : Nat) : List (Option Nat × Nat) → CRes Bool
  | [] => .ok true
  | (q, off) :: r => do
    let i ← ptr q
    let a ← rd p i
    let b ← rd d (cur + off)
    if eq a b then probe eq p d cur r else .ok false

/-- `for (x = 1; x < MxPatternLastPos && MxPattern[x] == MxCurrPos[x]; x++)  {}` followed by
`x == MxPatternLastPos` (e.g. fast_find_replace_util.h 262-263); the first argument is the number
of rounds left. -/
def midLoop (eq : α → α → Bool) (p d : List α) (cur : Nat) : Nat → Nat → CRes Bool
  | 0, _ => .ok true
  | k + 1, x => do
    let a ← rd p x
    let b ← rd d (cur + x)
    if eq a b then midLoop eq p d cur k (x + 1) else .ok false

/-- `!memcmp(MxPattern + 1, MxCurrPos + 1, n)` (e.g. fast_find_replace_util.h 258), `n` counted in
elements. -/
def midCmp (p d : List α) (cur n : Nat) : CRes Bool :=
  if 1 + n ≤ p.length ∧ cur + 1 + n ≤ d.length then
    .ok (decide ((p.drop 1).take n = (d.drop (cur + 1)).take n))
  else .error .oobRead

/-- How a loop of `FindNext` compares the inner elements (fast_find_replace_util.h 242-360). -/
inductive Middle where
  /-- not at all: one element patterns -/
  | none
  /-- element by element -/
  | loop
  /-- with `memcmp` -/
  | memcmp

/-- The comparison of the inner elements (fast_find_replace_util.h 242-360). -/
def middle (eq : α → α → Bool) (p d : List α) (cur lastPos : Nat) : Middle → CRes Bool
  | .none => .ok true
  | .loop => midLoop eq p d cur (lastPos - 1) 1
  | .memcmp => midCmp p d cur (lastPos - 1)

/-- The test one position has to pass in a loop of `FindNext` (fast_find_replace_util.h 242-360). -/
def candidate (eq : α → α → Bool) (p d : List α) (cur lastPos : Nat) (ps : List (Option Nat × Nat))
    (m : Middle) : CRes Bool := do
  let c ← probe eq p d cur ps
  if c then middle eq p d cur lastPos m else .ok false

/-- A loop of `FindNext`: the first position that passes all comparisons, or the end; the first
argument is the number of rounds left (fast_find_replace_util.h 242-360). -/
def scan (eq : α → α → Bool) (p d : List α) (lastPos : Nat) (ps : List (Option Nat × Nat))
    (m : Middle) : Nat → Nat → CRes Nat
  | 0, cur => .ok cur
  | k + 1, cur => do
    let c ← candidate eq p d cur lastPos ps m
    if c then .ok cur else scan eq p d lastPos ps m k (cur + 1)

/-- The choice between the five loops of `FindNext` (fast_find_replace_util.h 235-355). -/
def strategy (f : Find α) (useMemcmp : Bool) : List (Option Nat × Nat) × Middle :=
  let big := if useMemcmp then Middle.memcmp else Middle.loop
  if f.mid.isSome then
    ([(some 0, 0), (f.last, f.lastPos), (f.min, f.minPos), (f.min2, f.min2Pos), (f.mid, f.midPos)],
      big)
  else if f.min2.isSome then
    ([(some 0, 0), (f.last, f.lastPos), (f.min, f.minPos), (f.min2, f.min2Pos)], big)
  else if f.min.isSome then ([(some 0, 0), (f.last, f.lastPos), (f.min, f.minPos)], big)
  else if f.last.isSome then ([(some 0, 0), (f.last, f.lastPos)], .loop)
  else ([(some 0, 0)], .none)

/-- `FastFind::FindNext` (fast_find_replace_util.h 227-374); the result is an index into the data.
`useMemcmp = false` is also the behaviour of the `Compare` classes. -/
def findNext (eq : α → α → Bool) (useMemcmp : Bool) (f : Find α) : CRes (Option Nat × Find α) :=
  match f.hasData, f.pat with
  | true, some p => do
    let (ps, m) := strategy f useMemcmp
    let c ← scan eq p f.obj f.lastPos ps m (f.dataEnd - f.cur) f.cur
    if c < f.dataEnd then .ok (some c, { f with cur := c + 1 })
    else .ok (none, { f with cur := c, hasData := false })
  | _, _ => .ok (none, f)

/-- `FastFind::SkipMatch` (fast_find_replace_util.h 377-386).  Moving a pointer more than one past
the end of its object is undefined. -/
def skipMatch (f : Find α) (extra : Nat) : CRes (Option Nat × Find α) :=
  match f.hasData, f.pat with
  | true, some _ =>
    let c := f.cur + (f.lastPos + extra)
    if c ≤ f.obj.length then
      .ok (some c, { f with cur := c, hasData := if c ≥ f.dataEnd then false else true })
    else .error .badPtr
  | _, _ => .ok (none, f)

/-- A call on a `FastFind` object (fast_find_replace_util.h 50-394). -/
inductive Op (α : Type) where
  | setPattern (p : List α)
  | setData (d : List α)
  | findNext (useMemcmp : Bool)
  | skipMatch (extra : Nat)

/-- One call; only `FindNext` and `SkipMatch` return something (fast_find_replace_util.h 50-394). -/
def step (eq : α → α → Bool) (f : Find α) : Op α → CRes (Option Nat × Find α)
  | .setPattern p => (setPattern eq f p).map (fun f => (none, f))
  | .setData d => .ok (none, setData f d)
  | .findNext u => findNext eq u f
  | .skipMatch e => skipMatch f e

/-- A history of calls with their results (calls of fast_find_replace_util.h 50-394). -/
def run (eq : α → α → Bool) (f : Find α) : List (Op α) → CRes (List (Option Nat) × Find α)
  | [] => .ok ([], f)
  | o :: os => do
    let (r, f) ← step eq f o
    let (rs, f) ← run eq f os
    .ok (r :: rs, f)

/-! ## FastReplace -/

/-- The members of `FastReplace` (fast_find_replace_util.h 817-822 and the line after).  `buf` is
the block `MxData` points to; a cell that was never written is `none`. -/
structure Repl (α : Type) where
  find : Find α
  growth : Nat
  extra : Nat
  srcCurr : Nat
  srcEnd : Nat
  src : List α
  allocated : Bool
  buf : List (Option α)
  dataSize : Nat
  dataPos : Nat
  deriving DecidableEq

/-- `FastReplace::SetData` (fast_find_replace_util.h 518-541); `res` is the caller's buffer for the
static form (`ResultBufferSize` is its length). -/
def replSetData (f : Find α) (growth extra : Nat) (d : List α) (res : Option (List (Option α))) :
    Repl α :=
  match res with
  | none =>
    { find := setData f d, growth := growth, extra := extra, srcCurr := 0, srcEnd := d.length,
      src := d, allocated := true, buf := List.replicate (d.length + growth + extra) none,
      dataSize := d.length + growth, dataPos := 0 }
  | some b =>
    { find := setData f d, growth := growth, extra := extra, srcCurr := 0, srcEnd := d.length,
      src := d, allocated := false, buf := b, dataSize := b.length, dataPos := 0 }

/-- Moving the result to a block of `n` cells.  `AllocType::realloc` (the `Alloc` classes,
`alloc = true`) keeps as many cells as both blocks have; the plain classes copy the first `c` cells
with `memcpy` (fast_find_replace_util.h 563-571 and 609-617). -/
def regrow (alloc : Bool) (old : List (Option α)) (n c : Nat) : CRes (List (Option α)) :=
  if alloc then .ok (old.take n ++ List.replicate (n - old.length) none)
  else memcpyTo (List.replicate n none) 0 old c

/-- `MxSrcCurr`, `n` elements, copied to `MxData + MxDataPos` (fast_find_replace_util.h 588-592). -/
def putSrc (r : Repl α) (n : Nat) : CRes (Repl α) :=
  if n = 0 then .ok r
  else do
    let b ← memcpyTo r.buf r.dataPos ((r.src.drop r.srcCurr).map some) n
    .ok { r with buf := b, dataPos := r.dataPos + n }

/-- `FastReplace::FindNext` (fast_find_replace_util.h 543-595).  The distance from `MxSrcCurr` is
taken between pointers into the source. -/
def replFindNext (eq : α → α → Bool) (alloc um : Bool) (r : Repl α) :
    CRes (Option Nat × Repl α) := do
  let (np, f) ← findNext eq um r.find
  let r := { r with find := f }
  let dist := (match np with | none => r.srcEnd | some i => i) - r.srcCurr
  if r.dataSize < r.dataPos + dist ∨ (r.allocated = true ∧ np = none) then
    if r.allocated then do
      let n := r.dataPos + dist + (if np = none then 0 else r.growth)
      let b ← regrow alloc r.buf (n + r.extra) n
      let r ← putSrc { r with buf := b, dataSize := n } dist
      .ok (np, r)
    else do
      let r ← putSrc r (r.dataSize - r.dataPos)
      .ok (none, r)
  else do
    let r ← putSrc r dist
    .ok (np, r)

/-- The first half of `FastReplace::Replace` (fast_find_replace_util.h 599-627): the replacement is
appended to the result. -/
def replPut (alloc : Bool) (r : Repl α) (w : List α) : CRes (Repl α) :=
  if w.length = 0 then .ok r
  else if r.dataSize < r.dataPos + w.length then
    if r.allocated then do
      let n := r.dataPos + w.length + r.growth
      let b ← regrow alloc r.buf (n + r.extra) (r.dataSize + r.extra)
      let b ← memcpyTo b r.dataPos (w.map some) w.length
      .ok { r with buf := b, dataSize := n, dataPos := r.dataPos + w.length }
    else do
      let b ← memcpyTo r.buf r.dataPos (w.map some) (r.dataSize - r.dataPos)
      .ok { r with buf := b, dataPos := r.dataPos + (r.dataSize - r.dataPos) }
  else do
    let b ← memcpyTo r.buf r.dataPos (w.map some) w.length
    .ok { r with buf := b, dataPos := r.dataPos + w.length }

/-- `FastReplace::Replace` (fast_find_replace_util.h 597-632) with `PostPatternSize` 0, as
`ReplaceAll` calls it.  A NULL result of `SkipMatch` makes `MxSrcCurr` useless. -/
def replace (alloc : Bool) (r : Repl α) (w : List α) : CRes (Repl α) := do
  let r ← replPut alloc r w
  let (c, f) ← skipMatch r.find 0
  let c ← ptr c
  .ok { r with find := f, srcCurr := if c > r.srcEnd then r.srcEnd else c }

/-- The loop of `ReplaceAll` (fast_find_replace_util.h 715-724) and `StaticReplaceAll` (784-793);
the first argument bounds the rounds (running out of it is an endless loop). -/
def replLoop (eq : α → α → Bool) (alloc um : Bool) (w : List α) (limit : Nat) :
    Nat → Nat → Repl α → CRes (Nat × Repl α)
  | 0, _, _ => .error .diverges
  | k + 1, num, r => do
    let (p, r) ← replFindNext eq alloc um r
    if p.isSome ∧ num < limit then do
      let r ← replace alloc r w
      replLoop eq alloc um w limit k (num + 1) r
    else .ok (num, r)

/-- The growth size `ReplaceAll` uses (fast_find_replace_util.h 709, 778). -/
def growthFor (p w : List α) (g : Nat) : Nat :=
  if p.length < w.length ∧ g < (w.length - p.length) * 50 then (w.length - p.length) * 50 else g

/-- `ReplaceAll` (fast_find_replace_util.h 672-731, `res = none`) and `StaticReplaceAll` (737-798,
`res` the caller's buffer) with explicit sizes: the number of replacements, the result block and
the result size. -/
def replaceAll (eq : α → α → Bool) (alloc um : Bool) (res : Option (List (Option α)))
    (d p w : List α) (limit g extra : Nat) : CRes (Nat × List (Option α) × Nat) := do
  let f ← setPattern eq Find.init p
  let r := replSetData f (growthFor p w g) extra d res
  let (n, r) ← replLoop eq alloc um w limit (d.length + 1) 0 r
  .ok (n, r.buf, r.dataPos)

/-- `GetObjectSize` (fast_find_replace_util.h 655-662): the number of elements before the first
one that tests false; `x` runs over the object `o`. -/
def objectSize (nz : α → Bool) : List α → CRes Nat
  | [] => .error .oobRead
  | a :: o => if nz a then (objectSize nz o).map (· + 1) else .ok 0

/-- The size arguments of `ReplaceAll`: `(size_t)-1` (`none`) means "up to the zero element". -/
def sized (nz : α → Bool) (o : List α) (n : Option Nat) : CRes (List α) :=
  match n with
  | none => (objectSize nz o).map (fun k => o.take k)
  | some k => if k ≤ o.length then .ok (o.take k) else .error .oobRead

/-- `ReplaceAll` / `StaticReplaceAll` with the size conventions of the call (fast_find_replace_util.h
677, 707, 743, 776). -/
def replaceAllSized (eq : α → α → Bool) (nz : α → Bool) (alloc um : Bool)
    (res : Option (List (Option α))) (d po : List α) (pn : Option Nat) (wo : List α)
    (wn : Option Nat) (limit g extra : Nat) : CRes (Nat × List (Option α) × Nat) := do
  let p ← sized nz po pn
  let w ← sized nz wo wn
  replaceAll eq alloc um res d p w limit g extra

end Verif.FastFind
