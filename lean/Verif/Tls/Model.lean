import Verif.BlockHeap

/-!
# Model of the thread-local allocator (sync/sync_tls.cpp 58-234)

One thread's cache.  The blocks got from the system (`::malloc`, `::realloc`) live in a `BHeap`, whose
block numbers are never reused, so two blocks overlap exactly when they are the same block.  A pointer
handed out by `TLS::malloc` points to the second byte of its block; the first one holds the bucket
number.  `none` is a byte with indeterminate value.

* `::malloc` and `::realloc` may fail; each operation is told by an argument whether they succeed.
* The buckets are `Queue<char>` objects linked through the cached blocks themselves; here they are
  lists (`Verif.Queue` proves that they behave like that).  Pushing a block into a queue overwrites its
  contents with the queue node, `sizeof(QueueNode<char>) = 16` bytes.
* `m` is the number of buckets (`MaxCacheBits` of `ThreadInit`).

Not modelled here: `TLS::MixedVar` (`Verif.TlsVar`), the thread-specific pointer itself.
-/

namespace Verif.Tls

/-- A byte; `none` is an indeterminate value (sync_tls.cpp 58-234). -/
abbrev Cell := Option UInt8

/-- Values of a data pointer: NULL, the address 1 (`(std::uint8_t *)NULL + 1`), the second byte of a
block. -/
inductive Ptr where
  | null
  | one
  | blk (b : Nat)
  deriving DecidableEq

/-- The thread's cache and the blocks of the system (sync_tls.cpp 58-234). -/
structure St where
  heap : BHeap Cell
  /-- number of buckets; `none`: `ThreadInit` was not called (or `ThreadEnd` was) -/
  main : Option Nat
  bk : Nat → List Nat

/-- A function changed at one place (sync_tls.cpp 58-234). -/
def setAt {α : Type} (f : Nat → α) (o : Nat) (x : α) : Nat → α := fun i => if i = o then x else f i

/-- Before `ThreadInit` (sync_tls.cpp 60-66). -/
def St.empty : St := { heap := [], main := none, bk := fun _ => [] }

/-- `ThreadInit` (sync_tls.cpp 60-66). -/
def threadInit (s : St) (bits : Nat) : St :=
  match s.main with
  | some _ => s
  | none => { s with main := some bits, bk := fun _ => [] }

/-- The loop of `NormalizeBitPosition` (sync_tls.cpp 231), `n` rounds before `Pos` gets 64. -/
def normLoop : Nat → Nat → Nat → CRes Nat
  | 0, _, _ => .error .badShift
  | n + 1, pos, size => if 2 ^ pos < size then normLoop n (pos + 1) size else .ok pos

/-- `NormalizeBitPosition` (sync_tls.cpp 227-235); the new size is `2 ^ Pos`. -/
def normPos (size : Nat) : CRes Nat := normLoop 61 3 size

/-- `sizeof(QueueNode<char>)` (detachable_queue.h 16-34). -/
def nodeSize : Nat := 16

/-- `::malloc` (sync_tls.cpp 68-102). -/
def sysMalloc (s : St) (ok : Bool) (n : Nat) : Option (Nat × St) :=
  if ok then
    some ((s.heap.alloc (List.replicate n none)).1,
      { s with heap := (s.heap.alloc (List.replicate n none)).2 })
  else none

/-- Storing the position in front of the data (sync_tls.cpp 99-101). -/
def putPos (s : St) (b pos : Nat) : CRes (Ptr × St) := do
  let h ← s.heap.store b 0 (some (UInt8.ofNat pos))
  .ok (.blk b, { s with heap := h })

/-- `TLS::malloc` (sync_tls.cpp 68-102). -/
def malloc (s : St) (ok : Bool) (size : Nat) : CRes (Ptr × St) :=
  if size = 0 then .ok (.null, s)
  else match s.main with
  | none => .ok (.null, s)
  | some m => do
    let pos ← normPos size
    if m ≤ pos then
      match sysMalloc s ok (2 ^ pos + 1) with
      | none => .error .nullDeref
      | some (b, s) => putPos s b pos
    else
      match s.bk pos with
      | b :: rest => putPos { s with bk := setAt s.bk pos rest } b pos
      | [] =>
        match sysMalloc s ok (if 2 ^ pos + 1 < nodeSize then nodeSize else 2 ^ pos + 1) with
        | none => .ok (.null, s)
        | some (b, s) => putPos s b pos

/-- `((std::uint8_t *)Data)[-1]` -/
def getPos (s : St) (b : Nat) : CRes Nat := do
  let c ← s.heap.load b 0
  match c with
  | none => .error .uninit
  | some v => .ok v.toNat

/-- `TLS::free` (sync_tls.cpp 162-184). -/
def free (s : St) (p : Ptr) (cache : Bool) : CRes St :=
  match p with
  | .null => .ok s
  | .one =>
    match s.main with
    | none => .ok s
    | some _ => .error .nullDeref
  | .blk b =>
    match s.main with
    | none => .ok s
    | some m => do
      let pos ← getPos s b
      if m ≤ pos then do
        let h ← s.heap.free b
        .ok { s with heap := h }
      else if !cache then do
        let h ← s.heap.free b
        .ok { s with heap := h }
      else do
        let c ← s.heap.block b
        if c.length < nodeSize then .error .oobWrite
        else .ok { s with heap := s.heap.set b (some (List.replicate c.length none)),
                          bk := setAt s.bk pos (s.bk pos ++ [b]) }

/-- `::realloc` to `n` bytes: the block moves, keeping its contents as far as they fit (sync_tls.cpp 104-142). -/
def sysRealloc (s : St) (ok : Bool) (b n : Nat) : CRes (Option (Nat × St)) :=
  if ok then do
    let c ← s.heap.block b
    let h ← s.heap.free b
    .ok (some ((h.alloc (c.take n ++ List.replicate (n - c.length) none)).1,
      { s with heap := (h.alloc (c.take n ++ List.replicate (n - c.length) none)).2 }))
  else .ok none

/-- `memcpy(Data2, Data, 1 << Pos2)` (sync_tls.cpp 132). -/
def copyOver (s : St) (dst : Ptr) (src pos2 : Nat) : CRes St :=
  if 31 ≤ pos2 then .error .signedOverflow
  else match dst with
  | .blk d => do
    let c ← s.heap.block src
    let e ← s.heap.block d
    let e' ← memcpyTo e 1 (c.drop 1) (2 ^ pos2)
    .ok { s with heap := s.heap.set d (some e') }
  | _ => .error .nullDeref

/-- `TLS::realloc` (sync_tls.cpp 104-142). -/
def realloc (s : St) (ok : Bool) (p : Ptr) (newSize : Nat) (cache : Bool) : CRes (Ptr × St) :=
  if newSize = 0 then do
    let s ← free s p cache
    .ok (.null, s)
  else match p with
  | .null => malloc s ok newSize
  | .one => .error .nullDeref
  | .blk b => do
    let pos ← normPos newSize
    let pos2 ← getPos s b
    if pos ≤ pos2 then .ok (p, s)
    else match s.main with
    | none => .ok (.null, s)
    | some m =>
      if m ≤ pos ∧ m ≤ pos2 then do
        let r ← sysRealloc s ok b (1 + 2 ^ pos)
        match r with
        | none => .ok (.one, s)
        | some (b2, s) => .ok (.blk b2, s)
      else do
        let (p2, s) ← malloc s ok (2 ^ pos)
        let s ← copyOver s p2 b pos2
        let s ← free s p cache
        .ok (p2, s)

/-- `TLS::dup_malloc` (sync_tls.cpp 144-160).  The result is a block of the system's `malloc`; the
returned pointer is to its first byte. -/
def dupMalloc (s : St) (ok : Bool) (p : Ptr) (cache : Bool) : CRes (Option Nat × St) :=
  match p with
  | .null => .ok (none, s)
  | .one => .error .nullDeref
  | .blk b => do
    let pos ← getPos s b
    if 31 ≤ pos then .error .signedOverflow
    else match sysMalloc s ok (2 ^ pos) with
    | none => .ok (none, s)
    | some (d, s) => do
      let c ← s.heap.block b
      let e ← s.heap.block d
      let e' ← memcpyTo e 0 (c.drop 1) (2 ^ pos)
      let s ← free { s with heap := s.heap.set d (some e') } p cache
      .ok (some d, s)

/-- `while ((Node = RawData[x].Shift()) != NULL) ::free(Node);` (sync_tls.cpp 216-219). -/
def freeNodes : List Nat → BHeap Cell → CRes (BHeap Cell)
  | [], h => .ok h
  | b :: bs, h => do
    let h ← h.free b
    freeNodes bs h

/-- The loop over the buckets (sync_tls.cpp 214-220), `n` buckets from `x` on. -/
def freeBuckets (bk : Nat → List Nat) : Nat → Nat → BHeap Cell → CRes (BHeap Cell)
  | 0, _, h => .ok h
  | n + 1, x, h => do
    let h ← freeNodes (bk x) h
    freeBuckets bk n (x + 1) h

/-- `TLS::ThreadEnd` (sync_tls.cpp 203-225). -/
def threadEnd (s : St) : CRes (Bool × St) :=
  match s.main with
  | none => .ok (false, s)
  | some m => do
    let h ← freeBuckets s.bk m 0 s.heap
    .ok (true, { s with heap := h, main := none, bk := fun _ => [] })

/-- `GetBucketInfo` (sync_tls.cpp 186-201): `Nodes` and `Size` if it returns true. -/
def getBucketInfo (s : St) (num : Nat) : CRes (Option (Nat × Nat)) :=
  match s.main with
  | none => .ok none
  | some m =>
    if m ≤ num then .ok none
    else if 31 ≤ num then .error .signedOverflow
    else .ok (some ((s.bk num).length,
      (if 2 ^ num < nodeSize then nodeSize else 2 ^ num) * (s.bk num).length % 2 ^ 64))

/-- The user reads byte `i` of the data (blocks of sync_tls.cpp 68-142). -/
def peek (s : St) (p : Ptr) (i : Nat) : CRes Cell :=
  match p with
  | .blk b => s.heap.load b (1 + i)
  | _ => .error .nullDeref

/-- The user writes byte `i` of the data (blocks of sync_tls.cpp 68-142). -/
def poke (s : St) (p : Ptr) (i : Nat) (v : UInt8) : CRes St :=
  match p with
  | .blk b => do
    let h ← s.heap.store b (1 + i) (some v)
    .ok { s with heap := h }
  | _ => .error .nullDeref

/-- The operations of a history (sync_tls.cpp 68-183). -/
inductive Op where
  | malloc (ok : Bool) (size : Nat)
  | realloc (ok : Bool) (p : Ptr) (size : Nat) (cache : Bool)
  | free (p : Ptr) (cache : Bool)
  | peek (p : Ptr) (i : Nat)
  | poke (p : Ptr) (i : Nat) (v : UInt8)

/-- What a call gives back (sync_tls.cpp 68-183). -/
inductive Out where
  | ptr (p : Ptr)
  | unit
  | cell (c : Cell)
  deriving DecidableEq

/-- One call (sync_tls.cpp 68-183). -/
def step (s : St) : Op → CRes (Out × St)
  | .malloc ok n => do
    let (p, s) ← malloc s ok n
    .ok (.ptr p, s)
  | .realloc ok p n c => do
    let (p, s) ← realloc s ok p n c
    .ok (.ptr p, s)
  | .free p c => do
    let s ← free s p c
    .ok (.unit, s)
  | .peek p i => do
    let c ← peek s p i
    .ok (.cell c, s)
  | .poke p i v => do
    let s ← poke s p i v
    .ok (.unit, s)

/-- A history of operations, with their results (calls of sync_tls.cpp 68-183). -/
def run : St → List Op → CRes (List (Op × Out) × St)
  | s, [] => .ok ([], s)
  | s, op :: ops => do
    let (o, s) ← step s op
    let (h, s) ← run s ops
    .ok ((op, o) :: h, s)

end Verif.Tls
