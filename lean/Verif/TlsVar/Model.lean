import Verif.Tls.Model
import Verif.MixedVar.Model
import Verif.FastFind.Model

/-!
# Model of `Sync::TLS::MixedVar` (sync/sync_tls.cpp 250-478; sync_tls.h 98-242)

The text of a variable is a block of the thread-local allocator of `Verif.Tls`; all accesses go through its blocks.  A cell
`none` is a byte with indeterminate value (after `SetSize`).  `ok` tells whether the system's `malloc`/`realloc` succeed during
the call.

`IntToString` is the same text as in static_mixed_var.h, so the model of `Verif.MixedVar` is used.  As there, a C string is
the list of its characters up to the first zero byte, and the text printed for a double is a parameter.

Simplifications: all variables use the same allocator; arguments do not alias the variable's own text; sizes do not wrap;
`memcpy` of zero bytes from NULL does nothing; doubles are bit patterns.

`ReplaceData` runs the code of `FastReplaceAlloc<char, TLS>` with the search of `Verif.FastFind`.  When the text gets longer,
the result is built in another block; the old text does not change meanwhile (C40: blocks are disjoint), so its bytes are
read once.  Otherwise the text is both source and result and its current bytes are searched in each round; `ov` tells
whether the system's `memcpy` copes with overlapping ranges like `memmove` (undefined in C++).  The temporary memory of
`SetPattern` for patterns of over 1026 bytes is not modelled.
-/

namespace Verif.TlsVar
open Verif.Tls (St Ptr Cell)
open Verif.MixedVar (Mode toI64 cstr intToStringI intToStringU)

/-- Members (sync_tls.h 102-106). -/
structure Var where
  mode : Mode
  mxInt : Int
  dbl : UInt64
  ptr : Ptr
  pos : Nat
  deriving DecidableEq

/-- The constructor (sync_tls.cpp 250-252). -/
def construct : Var := { mode := .none, mxInt := 0, dbl := 0, ptr := .null, pos := 0 }

/-- `memcpy(MxStr + off, src, size)`; `src` holds exactly the bytes to copy (sync_tls.cpp 305, 318-319, 359). -/
def copyIn (s : St) (p : Ptr) (off : Nat) (src : List Cell) : CRes St :=
  if src.length = 0 then .ok s
  else match p with
  | .blk b => do
    let c ← s.heap.block b
    let c' ← memcpyTo c (1 + off) src src.length
    .ok { s with heap := s.heap.set b (some c') }
  | _ => .error .nullDeref

/-- The first `n` bytes of a text, read by `memcpy` (sync_tls.cpp 264, 284, 319). -/
def readAll (s : St) (p : Ptr) (n : Nat) : CRes (List Cell) :=
  if n = 0 then .ok []
  else match p with
  | .blk b => do
    let c ← s.heap.block b
    if 1 + n ≤ c.length then .ok ((c.drop 1).take n) else .error .oobRead
  | _ => .error .nullDeref

/-- `MxStr[MxStrPos] = '\0'` (sync_tls.cpp 307, 323, 361, 398, 411). -/
def term (s : St) (v : Var) : CRes (Var × St) := do
  let s ← Tls.poke s v.ptr v.pos 0
  .ok (v, s)

/-- `if (MxStr != NULL)  MxTLS->free(MxStr);` (sync_tls.cpp 303). -/
def freeOld (s : St) (v : Var) : CRes St :=
  if v.ptr = .null then .ok s else Tls.free s v.ptr true

/-- `SetData` (sync_tls.cpp 300-308); `src` are the `size` bytes. -/
def setCells (s : St) (v : Var) (ok : Bool) (src : List Cell) : CRes (Var × St) := do
  let s ← freeOld s v
  let (p, s) ← Tls.malloc s ok (src.length + 1)
  let s ← copyIn s p 0 src
  term s { v with mode := .str, ptr := p, pos := src.length }

/-- `PrependData` (sync_tls.cpp 315-324). -/
def prependCells (s : St) (v : Var) (ok : Bool) (src : List Cell) : CRes (Var × St) := do
  let (p, s) ← Tls.malloc s ok (src.length + v.pos + 1)
  let s ← copyIn s p 0 src
  let old ← readAll s v.ptr v.pos
  let s ← copyIn s p src.length old
  let s ← Tls.free s v.ptr true
  term s { v with ptr := p, pos := v.pos + src.length }

/-- `AppendData` (sync_tls.cpp 356-362). -/
def appendCells (s : St) (v : Var) (ok : Bool) (src : List Cell) : CRes (Var × St) := do
  let (p, s) ← Tls.realloc s ok v.ptr (v.pos + src.length + 1) true
  let s ← copyIn s p v.pos src
  term s { v with ptr := p, pos := v.pos + src.length }

/-- `AppendChar` (sync_tls.cpp 394-399). -/
def appendChar (s : St) (v : Var) (ok : Bool) (c : UInt8) : CRes (Var × St) := do
  let (p, s) ← Tls.realloc s ok v.ptr (v.pos + 2) true
  let s ← Tls.poke s p v.pos c
  term s { v with ptr := p, pos := v.pos + 1 }

/-- `MxStrPos && MxStr[MxStrPos - 1] == chr` (sync_tls.cpp 403, sync_tls.h 233). -/
def endsWith (s : St) (v : Var) (c : UInt8) : CRes Bool :=
  if v.pos = 0 then .ok false
  else do
    let x ← Tls.peek s v.ptr (v.pos - 1)
    match x with
    | none => .error .uninit
    | some x => .ok (x = c)

/-- `AppendMissingChar` (sync_tls.cpp 401-404). -/
def appendMissingChar (s : St) (v : Var) (ok : Bool) (c : UInt8) : CRes (Var × St) := do
  let e ← endsWith s v c
  if e then .ok (v, s) else appendChar s v ok c

/-- `RemoveTrailingChar` (sync_tls.h 231-238). -/
def removeTrailingChar (s : St) (v : Var) (c : UInt8) : CRes (Var × St) := do
  let e ← endsWith s v c
  if e then term s { v with pos := v.pos - 1 } else .ok (v, s)

/-- `SetSize` (sync_tls.cpp 406-412). -/
def setSize (s : St) (v : Var) (ok : Bool) (n : Nat) : CRes (Var × St) :=
  if v.pos < n then do
    let (p, s) ← Tls.realloc s ok v.ptr (n + 1) true
    term s { v with ptr := p, pos := n }
  else term s { v with pos := n }

/-- `if (IntToString(tempbuffer, sizeof(tempbuffer), val, radix))  f(tempbuffer);` (sync_tls.cpp 331-341, 369-379). -/
def withInt (s : St) (v : Var) (r : CRes (Bool × List UInt8)) (f : List Cell → CRes (Var × St)) : CRes (Var × St) := do
  let (done, t) ← r
  if done then f ((cstr t).map some) else .ok (v, s)

/-- The argument of the calls that take data and a size (sync_tls.cpp 300-367). -/
def arg (mem : List UInt8) (n : Nat) : CRes (List Cell) :=
  if n ≤ mem.length then .ok ((mem.take n).map some) else .error .oobRead

/-- The modifying calls of one variable (sync_tls.h 189-238). -/
inductive Call where
  | setBool (b : Bool)
  | setInt (n : Int)
  | setUInt (n : Nat)
  | setDouble (d : UInt64)
  | setStr (t : List UInt8)
  | setData (mem : List UInt8) (n : Nat)
  | prependStr (t : List UInt8)
  | prependData (mem : List UInt8) (n : Nat)
  | prependInt (n : Int) (radix : Nat)
  | prependUInt (n : Nat) (radix : Nat)
  | prependDouble (printed : List UInt8)
  | appendStr (t : List UInt8)
  | appendData (mem : List UInt8) (n : Nat)
  | appendInt (n : Int) (radix : Nat)
  | appendUInt (n : Nat) (radix : Nat)
  | appendDouble (printed : List UInt8)
  | appendChar (c : UInt8)
  | appendMissingChar (c : UInt8)
  | removeTrailingChar (c : UInt8)
  | setSize (n : Nat)

/-- One call (sync_tls.cpp 300-412, sync_tls.h 189-238). -/
def call (s : St) (v : Var) (ok : Bool) : Call → CRes (Var × St)
  | .setBool b => .ok ({ v with mode := .bool, mxInt := if b then 1 else 0 }, s)
  | .setInt n => .ok ({ v with mode := .int, mxInt := n }, s)
  | .setUInt n => .ok ({ v with mode := .uint, mxInt := toI64 n }, s)
  | .setDouble d => .ok ({ v with mode := .double, dbl := d }, s)
  | .setStr t => setCells s v ok ((cstr t).map some)
  | .setData mem n => do
    let src ← arg mem n
    setCells s v ok src
  | .prependStr t | .prependDouble t => prependCells s v ok ((cstr t).map some)
  | .prependData mem n => do
    let src ← arg mem n
    prependCells s v ok src
  | .prependInt n r => withInt s v (intToStringI (List.replicate 44 0) n r) (prependCells s v ok)
  | .prependUInt n r => withInt s v (intToStringU (List.replicate 44 0) n r) (prependCells s v ok)
  | .appendStr t | .appendDouble t => appendCells s v ok ((cstr t).map some)
  | .appendData mem n => do
    let src ← arg mem n
    appendCells s v ok src
  | .appendInt n r => withInt s v (intToStringI (List.replicate 44 0) n r) (appendCells s v ok)
  | .appendUInt n r => withInt s v (intToStringU (List.replicate 44 0) n r) (appendCells s v ok)
  | .appendChar c => appendChar s v ok c
  | .appendMissingChar c => appendMissingChar s v ok c
  | .removeTrailingChar c => removeTrailingChar s v c
  | .setSize n => setSize s v ok n

/-- The assignment operator with a different variable (sync_tls.cpp 277-298). -/
def assign (s : St) (v w : Var) (ok : Bool) : CRes (Var × St) :=
  if w.ptr = .null then do
    let s ← Tls.free s v.ptr true
    .ok ({ v with ptr := .null, pos := 0, mode := w.mode, mxInt := w.mxInt, dbl := w.dbl }, s)
  else do
    let s ← freeOld s v
    let (p, s) ← Tls.malloc s ok (w.pos + 1)
    let src ← readAll s w.ptr w.pos
    let s ← copyIn s p 0 src
    let (v, s) ← term s { v with ptr := p, pos := w.pos }
    .ok ({ v with mode := w.mode, mxInt := w.mxInt, dbl := w.dbl }, s)

/-- The copy constructor (sync_tls.cpp 260-274).  It does not initialise `MxStr`, and `SetData` reads it. -/
def copyConstruct (w : Var) : CRes Var :=
  if w.ptr = .null then .ok { w with pos := 0 } else .error .uninit

/-- The destructor (sync_tls.cpp 254-257). -/
def destroy (s : St) (v : Var) : CRes St := freeOld s v

/-! ## ReplaceData -/

/-- The bytes of a text; indeterminate ones must not be read (fast_find_replace_util.h 227-374). -/
def bytes : List Cell → CRes (List UInt8)
  | [] => .ok []
  | none :: _ => .error .uninit
  | some x :: t => do
    let r ← bytes t
    .ok (x :: r)

/-- `n` bytes of the source from `a` on (fast_find_replace_util.h 590). -/
def slice (l : List UInt8) (a n : Nat) : CRes (List UInt8) :=
  if a + n ≤ l.length then .ok ((l.drop a).take n) else .error .oobRead

/-- The members of `FastReplaceAlloc<char, TLS>` with a result of its own (fast_find_replace_util.h 817-822); `MxExtraAlloc`
is 1. -/
structure Grow where
  find : FastFind.Find UInt8
  growth : Nat
  srcCurr : Nat
  src : List UInt8
  ptr : Ptr
  dataSize : Nat
  dataPos : Nat

/-- `AllocType::realloc` to `n` bytes and the extra one (fast_find_replace_util.h 560-563, 609-612, sync_tls.h 69-72). -/
def Grow.resize (s : St) (g : Grow) (ok : Bool) (n : Nat) : CRes (Grow × St) := do
  let (p, s) ← Tls.realloc s ok g.ptr (n + 1) true
  .ok ({ g with ptr := p, dataSize := n }, s)

/-- `FindNext` (fast_find_replace_util.h 543-595). -/
def Grow.findNext (s : St) (g : Grow) (ok : Bool) : CRes (Option Nat × Grow × St) := do
  let (np, f) ← FastFind.findNext (· == ·) true g.find
  let g := { g with find := f }
  let dist := (match np with | none => g.src.length | some i => i) - g.srcCurr
  let (g, s) ← if g.dataSize < g.dataPos + dist ∨ np = none then
      g.resize s ok (g.dataPos + dist + (if np = none then 0 else g.growth))
    else .ok (g, s)
  let x ← slice g.src g.srcCurr dist
  let s ← copyIn s g.ptr g.dataPos (x.map some)
  .ok (np, { g with dataPos := g.dataPos + dist }, s)

/-- `Replace` (fast_find_replace_util.h 597-632). -/
def Grow.replace (s : St) (g : Grow) (ok : Bool) (w : List UInt8) : CRes (Grow × St) := do
  let (g, s) ← if g.dataSize < g.dataPos + w.length then g.resize s ok (g.dataPos + w.length + g.growth) else .ok (g, s)
  let s ← copyIn s g.ptr g.dataPos (w.map some)
  let (c, f) ← FastFind.skipMatch g.find 0
  let c ← FastFind.ptr c
  .ok ({ g with dataPos := g.dataPos + w.length, find := f, srcCurr := if c > g.src.length then g.src.length else c }, s)

/-- The loop of `ReplaceAll` (fast_find_replace_util.h 715-724); the first argument bounds the rounds (running out of it is an
endless loop). -/
def Grow.loop (ok : Bool) (w : List UInt8) : Nat → Nat → St → Grow → CRes (Nat × Grow × St)
  | 0, _, _, _ => .error .diverges
  | k + 1, num, s, g => do
    let (p, g, s) ← g.findNext s ok
    if p.isSome ∧ num < FastFind.sizeMax then do
      let (g, s) ← g.replace s ok w
      Grow.loop ok w k (num + 1) s g
    else .ok (num, g, s)

/-- `FastReplaceAlloc<char, TLS>::ReplaceAll` with the default growth 1024 (fast_find_replace_util.h 672-731). -/
def growAll (s : St) (ok : Bool) (d p w : List UInt8) : CRes (Nat × Grow × St) := do
  let f ← FastFind.setPattern (· == ·) FastFind.Find.init p
  let growth := FastFind.growthFor p w 1024
  let (q, s) ← Tls.malloc s ok (d.length + growth + 1)
  Grow.loop ok w (d.length + 1) 0 s
    { find := FastFind.setData f d, growth := growth, srcCurr := 0, src := d, ptr := q, dataSize := d.length + growth,
      dataPos := 0 }

/-- The same object with the text as source and result (fast_find_replace_util.h 532-537); `buf` are the bytes of the text,
its length is `MxDataSize` and `MxSrcEnd`. -/
structure Shrink where
  find : FastFind.Find UInt8
  srcCurr : Nat
  buf : List UInt8
  dataPos : Nat

/-- `memcpy(MxData + MxDataPos, MxSrcCurr, SrcDist)` in one object (fast_find_replace_util.h 588-592). -/
def shiftIn (ov : Bool) (buf : List UInt8) (dst src n : Nat) : CRes (List UInt8) :=
  if n = 0 then .ok buf
  else if ov = false ∧ dst < src + n ∧ src < dst + n then .error .badPtr
  else memmoveIn buf dst src n

/-- `FindNext` (fast_find_replace_util.h 543-595). -/
def Shrink.findNext (g : Shrink) (ov : Bool) : CRes (Option Nat × Shrink) := do
  let (np, f) ← FastFind.findNext (· == ·) true { g.find with obj := g.buf }
  let dist := (match np with | none => g.buf.length | some i => i) - g.srcCurr
  if g.buf.length < g.dataPos + dist then do
    let b ← shiftIn ov g.buf g.dataPos g.srcCurr (g.buf.length - g.dataPos)
    .ok (none, { g with find := f, buf := b, dataPos := g.buf.length })
  else do
    let b ← shiftIn ov g.buf g.dataPos g.srcCurr dist
    .ok (np, { g with find := f, buf := b, dataPos := g.dataPos + dist })

/-- `Replace` (fast_find_replace_util.h 597-632). -/
def Shrink.replace (g : Shrink) (w : List UInt8) : CRes Shrink := do
  let n := if g.buf.length < g.dataPos + w.length then g.buf.length - g.dataPos else w.length
  let b ← memcpyTo g.buf g.dataPos w n
  let (c, f) ← FastFind.skipMatch g.find 0
  let c ← FastFind.ptr c
  .ok { find := f, srcCurr := if c > g.buf.length then g.buf.length else c, buf := b, dataPos := g.dataPos + n }

/-- The loop of `StaticReplaceAll` (fast_find_replace_util.h 784-793). -/
def Shrink.loop (ov : Bool) (w : List UInt8) : Nat → Nat → Shrink → CRes (Nat × Shrink)
  | 0, _, _ => .error .diverges
  | k + 1, num, g => do
    let (p, g) ← g.findNext ov
    if p.isSome ∧ num < FastFind.sizeMax then do
      let g ← g.replace w
      Shrink.loop ov w k (num + 1) g
    else .ok (num, g)

/-- `StaticReplaceAll(MxStr, MxStrPos, MxStr, MxStrPos, ...)` (fast_find_replace_util.h 737-798). -/
def shrinkAll (ov : Bool) (d p w : List UInt8) : CRes (Nat × Shrink) := do
  let f ← FastFind.setPattern (· == ·) FastFind.Find.init p
  Shrink.loop ov w (d.length + 1) 0 { find := FastFind.setData f d, srcCurr := 0, buf := d, dataPos := 0 }

/-- `ReplaceData` (sync_tls.cpp 414-437).  Without a text, `StaticReplaceAll` makes a result and throws it away; then `MxStr[0]`
is written. -/
def replaceData (s : St) (v : Var) (ok ov : Bool) (src dest : List UInt8) : CRes (Nat × Var × St) := do
  let cs ← readAll s v.ptr v.pos
  let d ← bytes cs
  if src.length < dest.length then do
    let (n, g, s) ← growAll s ok d src dest
    let s ← Tls.free s v.ptr true
    let (v, s) ← term s { v with ptr := g.ptr, pos := g.dataPos }
    .ok (n, v, s)
  else if v.ptr = .null then .error .nullDeref
  else do
    let (n, g) ← shrinkAll ov d src dest
    let s ← copyIn s v.ptr 0 (g.buf.map some)
    let (v, s) ← term s { v with pos := g.dataPos }
    .ok (n, v, s)

/-- A thread's allocator and its variables (sync_tls.cpp 250-412). -/
structure World where
  s : St
  v : Nat → Option Var

/-- `TLS::ThreadInit(m)` and no variables (sync_tls.cpp 60-66). -/
def World.start (m : Nat) : World := { s := Tls.threadInit .empty m, v := fun _ => none }

/-- The calls (sync_tls.cpp 250-412). -/
inductive Op where
  | create (i : Nat)
  | destroy (i : Nat)
  | assign (i j : Nat) (ok : Bool)
  | call (i : Nat) (ok : Bool) (c : Call)
  | replace (i : Nat) (ok ov : Bool) (src dest : List UInt8)

/-- Use of a variable that does not exist (sync_tls.cpp 250-412). -/
def World.get (w : World) (i : Nat) : CRes Var :=
  match w.v i with
  | some v => .ok v
  | none => .error .badPtr

/-- One step of the program (sync_tls.cpp 250-442). -/
def step (w : World) : Op → CRes World
  | .create i => .ok { w with v := Tls.setAt w.v i (some construct) }
  | .destroy i => do
    let v ← w.get i
    let s ← destroy w.s v
    .ok { s := s, v := Tls.setAt w.v i none }
  | .assign i j ok => do
    let v ← w.get i
    let u ← w.get j
    if i = j then .ok w
    else do
      let (v, s) ← assign w.s v u ok
      .ok { s := s, v := Tls.setAt w.v i (some v) }
  | .call i ok c => do
    let v ← w.get i
    let (v, s) ← call w.s v ok c
    .ok { s := s, v := Tls.setAt w.v i (some v) }
  | .replace i ok ov src dest => do
    let v ← w.get i
    let (_, v, s) ← replaceData w.s v ok ov src dest
    .ok { s := s, v := Tls.setAt w.v i (some v) }

end Verif.TlsVar
