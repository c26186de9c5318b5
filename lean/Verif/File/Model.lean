import Verif.BlockHeap

/-!
# Model of the POSIX `File` class (utf8/utf8_file_dir.cpp 1193-1380, 1584-1627, 1847-1962)

The state joins the object's fields with the kernel's view of the open file: the bytes and the file
offset.  Nobody else uses the file.  The kernel may interrupt a call (`EINTR`), fail it, or transfer
fewer bytes than asked for; each operation takes the list of what the kernel does to its successive
system calls, and calls after the end of that list transfer everything.

Positions are 64-bit unsigned numbers (`Nat` below `2 ^ 64`, arithmetic modulo `2 ^ 64` is written out).
The kernel's offsets are below `2 ^ 63`.

The type `α` of the bytes is a parameter: `Copy` writes bytes with indeterminate value.

Not modelled: `O_APPEND`, files changed by others, holes (writing starts inside the file), `Flush`,
the permission calls.
-/

namespace Verif.File

/-- 64-bit subtraction. -/
def sub64 (a b : Nat) : Nat := (a + 2 ^ 64 - b) % 2 ^ 64

/-- The object (`MxRead`, `MxWrite`, `MxCurrPos`, `MxMaxPos`; utf8_file_dir.h) and the open file. -/
structure F (α : Type) where
  /-- kernel: contents of the file -/
  data : List α
  /-- kernel: file offset -/
  off : Nat
  /-- `MxFile != -1` -/
  opened : Bool
  rd : Bool
  wr : Bool
  curr : Nat
  max : Nat
  deriving DecidableEq

variable {α : Type}

/-- `SeekType` (utf8_file_dir.h 89-106). -/
inductive Whence where
  | start
  | fromEnd
  | forward
  | backward
  | other
  deriving DecidableEq

/-- The switch of `Seek` (utf8_file_dir.cpp 1287-1294). -/
def seekTarget (f : F α) (w : Whence) (pos : Nat) : Nat :=
  match w with
  | .start => if pos ≤ f.max then pos else f.max
  | .fromEnd => if pos ≤ f.max then f.max - pos else 0
  | .forward => if (f.curr + pos) % 2 ^ 64 ≤ f.max then (f.curr + pos) % 2 ^ 64 else f.max
  | .backward => if f.curr ≥ pos then f.curr - pos else 0
  | .other => f.curr

/-- `Seek` (utf8_file_dir.cpp 1281-1301).  `lseek64` refuses negative offsets. -/
def seek (f : F α) (w : Whence) (pos : Nat) : Bool × F α :=
  if !f.opened then (false, f)
  else if 2 ^ 63 ≤ seekTarget f w pos then (false, f)
  else (true, { f with off := seekTarget f w pos, curr := seekTarget f w pos })

/-- What the kernel does to a call of `read` or `write` (utf8_file_dir.cpp 1303-1349). -/
inductive Sys where
  | intr
  | fail
  /-- transfers about `k` bytes -/
  | some (k : Nat)
  deriving DecidableEq

/-- `UpdateMaxPos` (utf8_file_dir.cpp 1360-1369). -/
def updateMax (f : F α) : F α :=
  if !f.opened then f else { f with max := f.data.length }

/-- Result of `Read` (utf8_file_dir.cpp 1303-1326). -/
inductive ReadRes (α : Type) where
  /-- returned false without touching `DataRead` -/
  | refused
  /-- returned false, `DataRead` is 0 -/
  | failed
  | got (bs : List α)
  deriving DecidableEq

/-- The kernel transfers `n` bytes to the reader; `Read` returns true (utf8_file_dir.cpp 1321-1325). -/
def gotBytes (f : F α) (n : Nat) : ReadRes α × F α :=
  (.got ((f.data.drop f.off).take n),
    { f with off := f.off + ((f.data.drop f.off).take n).length,
             curr := (f.curr + ((f.data.drop f.off).take n).length) % 2 ^ 64 })

/-- The loop around `::read` (utf8_file_dir.cpp 1316-1325).  A short read transfers at least one byte,
unless the end of the file is reached. -/
def readLoop (f : F α) (n : Nat) : List Sys → ReadRes α × F α
  | [] => gotBytes f n
  | .intr :: o => readLoop f n o
  | .fail :: _ => (.failed, f)
  | .some k :: _ => gotBytes f (min n (max 1 k))

/-- The size check of `Read` (utf8_file_dir.cpp 1307-1311), first part: is an update of `MxMaxPos`
needed? -/
def readUpdate (f : F α) (n : Nat) : F α := if n > sub64 f.max f.curr then updateMax f else f

/-- Second part: the number of bytes to ask for (utf8_file_dir.cpp 1303-1326). -/
def readSize (f : F α) (n : Nat) : Nat := if n > sub64 f.max f.curr then sub64 f.max f.curr else n

/-- `Read` (utf8_file_dir.cpp 1303-1326). -/
def read (f : F α) (n : Nat) (o : List Sys) : ReadRes α × F α :=
  if !f.opened || !f.rd then (.refused, f)
  else if readSize (readUpdate f n) n = 0 then (.got [], readUpdate f n)
  else readLoop (readUpdate f n) (readSize (readUpdate f n) n) o

/-- Result of `Write` (utf8_file_dir.cpp 1328-1349). -/
inductive WriteRes where
  | refused
  /-- returned false with this `DataWritten` -/
  | failed (n : Nat)
  | done (n : Nat)
  deriving DecidableEq

/-- The kernel stores bytes at the offset (utf8_file_dir.cpp 1328-1349). -/
def store (f : F α) (bs : List α) : F α :=
  { f with data := f.data.take f.off ++ bs ++ f.data.drop (f.off + bs.length),
           off := f.off + bs.length }

/-- End of `Write` (utf8_file_dir.cpp 1345-1348). -/
def writeEnd (f : F α) (written : Nat) : WriteRes × F α :=
  (.done written,
    { f with curr := (f.curr + written) % 2 ^ 64,
             max := if (f.curr + written) % 2 ^ 64 > f.max then (f.curr + written) % 2 ^ 64 else f.max })

/-- `::write` of `n` bytes at `buf + pos`; `none`: it fails because the file gets too large
(utf8_file_dir.cpp 1328-1349). -/
def sysWrite (f : F α) (buf : List α) (pos n : Nat) : CRes (Option (F α)) :=
  if pos + n ≤ buf.length then
    if f.off + n < 2 ^ 63 then .ok (some (store f ((buf.drop pos).take n))) else .ok none
  else .error .oobRead

/-- The loop of `Write` (utf8_file_dir.cpp 1336-1344).  An interrupted call returns -1, and -1 is used
as the number of bytes written: the pointer goes back by one byte, the size grows. -/
def writeLoop (buf : List α) (f : F α) (pos size written : Nat) : List Sys → CRes (WriteRes × F α)
  | [] => do
    let r ← sysWrite f buf pos size
    match r with
    | none => .ok (.failed written, f)
    | some f => .ok (writeEnd f ((written + size) % 2 ^ 64))
  | .intr :: o =>
    if pos = 0 then .error .badPtr
    else writeLoop buf f (pos - 1) (size + 1) ((written + 2 ^ 64 - 1) % 2 ^ 64) o
  | .fail :: _ => .ok (.failed written, f)
  | .some k :: o => do
    let r ← sysWrite f buf pos (min k size)
    match r with
    | none => .ok (.failed written, f)
    | some f =>
      if size - min k size = 0 then .ok (writeEnd f ((written + min k size) % 2 ^ 64))
      else writeLoop buf f (pos + min k size) (size - min k size) ((written + min k size) % 2 ^ 64) o

/-- `Write` (utf8_file_dir.cpp 1328-1349) of `size` bytes at `buf + pos`. -/
def write (f : F α) (buf : List α) (pos size : Nat) (o : List Sys) : CRes (WriteRes × F α) :=
  if !f.opened || !f.wr then .ok (.refused, f)
  else if size = 0 then .ok (.done 0, f)
  else writeLoop buf f pos size 0 o

/-! ## Opening -/

/-- `ShareType` (utf8_file_dir.h 89-106). -/
inductive Share where
  | none
  | read
  | write
  | both
  | other
  deriving DecidableEq

/-- `Close` (utf8_file_dir.cpp 1371-1380). -/
def close (f : F α) : F α := { f with opened := false }

/-- Before `Open` (utf8_file_dir.cpp 1193-1205). -/
def F.fresh : F α := { data := [], off := 0, opened := false, rd := false, wr := false, curr := 0, max := 0 }

/-- The access modes of `Open` (utf8_file_dir.cpp 1211-1230); `Flags & O_ACCMODE` is 0, 1, 2 or 3. -/
def setAccess (f : F α) (access : Nat) : Option (F α) :=
  if access = 0 then some { f with rd := true, wr := false }
  else if access = 1 then some { f with rd := false, wr := true }
  else if access = 2 then some { f with rd := true, wr := true }
  else none

/-- `Open` (utf8_file_dir.cpp 1207-1279).  `nameOk`: the name is valid; `file`: the contents found by
`::open` (after creation and truncation), `none` if it fails; `lockOk`: `flock` succeeds. -/
def openFile (f : F α) (access : Nat) (share : Share) (nameOk : Bool) (file : Option (List α))
    (lockOk : Bool) : Bool × F α :=
  match setAccess (close f) access with
  | none => (false, close f)
  | some f =>
    if !nameOk then (false, f)
    else match file with
    | none => (false, { f with opened := false })
    | some data =>
      if share = .other then (false, { f with opened := true, data := data, off := 0 })
      else if !lockOk then (false, { f with opened := true, data := data, off := 0 })
      else (true, updateMax { f with opened := true, data := data, off := 0, curr := 0 })

/-! ## `LineInput` -/

/-- A byte of a buffer; `none` is an indeterminate value (utf8_file_dir.cpp 1600) -/
abbrev Cell := Option UInt8

/-- `memchr(p, c, n)` in block `b`, looking from index `i` (utf8_file_dir.cpp 1895-1907). -/
def memchr (b : List Cell) (c : UInt8) : Nat → Nat → CRes (Option Nat)
  | 0, _ => .ok none
  | n + 1, i => do
    let x ← rd b i
    match x with
    | none => .error .uninit
    | some v => if v = c then .ok (some i) else memchr b c n (i + 1)

/-- Getting the storage of one round (utf8_file_dir.cpp 1871-1887); `blk = none`: first round.
`alt`: the caller gave a realloc function. -/
def grow (alt : Bool) (blk : Option (List Cell)) (currSize hint : Nat) : CRes (List Cell) :=
  match blk with
  | none => .ok (List.replicate (currSize + 1) none)
  | some b =>
    if alt then .ok (b ++ List.replicate hint none)
    else memcpyTo (List.replicate (currSize + 1) none) 0 b currSize

/-- Bytes delivered by `Read` (utf8_file_dir.cpp 1303-1326). -/
def ReadRes.bytes : ReadRes α → List α
  | .got bs => bs
  | _ => []

/-- Should the loop end after a complete chunk (utf8_file_dir.cpp 1898-1901)? -/
def stop (b : List Cell) (currSize : Nat) : CRes Bool := do
  let n ← memchr b 10 currSize 0
  match n with
  | some _ => .ok true
  | none => do
    let r ← memchr b 13 currSize 0
    match r with
    | some i => .ok (decide (i < currSize - 1))
    | none => .ok false

/-- The loop of `LineInput` (utf8_file_dir.cpp 1869-1902), `fuel` rounds; `os` is what the kernel does
in the calls of `Read`.  Returns the block, `CurrSize` and the file. -/
def lineLoop (alt : Bool) (hint : Nat) : Nat → List (List Sys) → F UInt8 → Option (List Cell) → Nat →
    CRes (List Cell × Nat × F UInt8)
  | 0, _, _, _, _ => .error .diverges
  | fuel + 1, os, f, blk, currSize => do
    let b ← grow alt blk currSize hint
    let (r, f) : ReadRes UInt8 × F UInt8 := read f hint (os.headD [])
    let b ← memcpyTo b (currSize - hint) (r.bytes.map some) r.bytes.length
    if r.bytes.length < hint then .ok (b, currSize - (hint - r.bytes.length), f)
    else do
      let s ← stop b currSize
      if s then .ok (b, currSize, f)
      else lineLoop alt hint fuel os.tail f (some b) (currSize + hint)

/-- Replacing NUL characters (utf8_file_dir.cpp 1904-1907), from index `i` on. -/
def noNul : Nat → Nat → List Cell → CRes (List Cell)
  | 0, _, b => .ok b
  | n + 1, i, b => do
    let x ← rd b i
    match x with
    | none => .error .uninit
    | some v =>
      let b ← (if v = 0 then wr b i (some 32) else .ok b)
      noNul n (i + 1) b

/-- Choosing the terminator (utf8_file_dir.cpp 1909-1916): positions of line feed and carriage
return. -/
def choose (n r : Option Nat) : Option Nat × Option Nat :=
  match n, r with
  | some n, some r => if n < r then (some n, none) else if r + 1 < n then (none, some r) else (some n, some r)
  | _, _ => (n, r)

/-- The end of `LineInput` (utf8_file_dir.cpp 1918-1931). -/
def finish (b : List Cell) (currSize : Nat) (f : F UInt8) (n r : Option Nat) : CRes (List Cell × F UInt8) :=
  match n, r with
  | some n, some r => do
    let b ← wr b r (some 0)
    .ok (b, (seek f .backward (currSize - n - 1)).2)
  | some n, none => do
    let b ← wr b n (some 0)
    .ok (b, (seek f .backward (currSize - n - 1)).2)
  | none, some r => do
    let b ← wr b r (some 0)
    .ok (b, (seek f .backward (currSize - r - 1)).2)
  | none, none => do
    let b ← wr b currSize (some 0)
    .ok (b, f)

/-- `LineInput` (utf8_file_dir.cpp 1860-1932).  The result is the returned block; `none`: NULL. -/
def lineInput (f : F UInt8) (hint : Nat) (alt : Bool) (os : List (List Sys)) (fuel : Nat) :
    CRes (Option (List Cell) × F UInt8) :=
  if !f.opened || !f.rd then .ok (none, f)
  else do
    let (b, currSize, f) ← lineLoop alt hint fuel os f none hint
    let b ← noNul currSize 0 b
    let n ← memchr b 10 currSize 0
    let r ← memchr b 13 currSize 0
    let (b, f) ← finish b currSize f (choose n r).1 (choose n r).2
    .ok (some b, f)

/-! ## `Copy` -/

/-- The loop of `Copy` (utf8_file_dir.cpp 1602-1606): `buf` is the local buffer, `os` and `ws` say
what the kernel does in the reads and writes. -/
def copyLoop : Nat → List (List Sys) → List (List Sys) → F Cell → F Cell → List Cell →
    CRes (F Cell × F Cell)
  | 0, _, _, _, _, _ => .error .diverges
  | fuel + 1, os, ws, src, dst, buf => do
    let (r, src) : ReadRes Cell × F Cell := read src 8192 (os.headD [])
    match r with
    | .got [] => .ok (src, dst)
    | .got (x :: bs) => do
      let buf ← memcpyTo buf 0 (x :: bs) (bs.length + 1)
      let (_, dst) ← write dst buf 0 8192 (ws.headD [])
      copyLoop fuel os.tail ws.tail src dst buf
    | _ => .ok (src, dst)

/-- `ftruncate` to a length (utf8_file_dir.cpp 1609). -/
def truncate (data : List Cell) (n : Nat) : List Cell :=
  data.take n ++ List.replicate (n - data.length) (some 0)

/-- `Copy` (utf8_file_dir.cpp 1584-1627), for a source file `src` and a previous destination `old`
that can be opened; returns the destination's bytes afterwards (it always returns true then). -/
def copy (src old : List Cell) (os ws : List (List Sys)) (fuel : Nat) : CRes (List Cell) := do
  let (_, d) ← copyLoop fuel os ws (openFile F.fresh 0 .both true (some src) true).2
    (openFile F.fresh 1 .none true (some old) true).2 (List.replicate 8192 none)
  .ok (truncate d.data d.curr)

/-! ## `LoadEntireFile` -/

/-- `LoadEntireFile` (utf8_file_dir.cpp 1934-1962).  The heap holds the blocks of the allocator.
Result: the returned value, `Result` (`none`: NULL) and `BytesRead`. -/
def loadEntire (h : BHeap Cell) (file : Option (List UInt8)) (nameOk lockOk : Bool) (o : List Sys) :
    CRes ((Bool × Option Nat × Nat) × BHeap Cell) :=
  match openFile F.fresh 0 .both nameOk file lockOk with
  | (false, _) => .ok ((false, none, 0), h)
  | (true, f) => do
    let (p, h) : Nat × BHeap Cell := h.alloc (List.replicate f.max none)
    match read f f.max o with
    | (.got bs, _) => do
      let b ← h.block p
      let b ← memcpyTo b 0 (bs.map some) bs.length
      if f.max ≠ bs.length then do
        let h ← (BHeap.free (h.set p (some b)) p)
        .ok ((false, none, 0), h)
      else .ok ((true, some p, f.max), h.set p (some b))
    | _ => do
      let h ← h.free p
      .ok ((false, none, 0), h)

end Verif.File
