import Verif.NamedMem.Model

/-!
# Model of the life of the sync objects (POSIX branch)

Constructors, `Create` and destructors of `Semaphore` (sync_semaphore.cpp 60-112), `Event` (sync_event.cpp 67-119),
`ReadWriteLock` (sync_readwritelock.cpp 185-258) and `SharedMem` (sync_sharedmem.cpp 71-110), and which memory their
other functions use.

* Memory is a list of numbered blocks, each from `new char[]` or from `mmap`; numbers are not used twice.  Use of
  memory that was given back, giving it back twice or in the wrong way, and accesses outside it are undefined
  behaviour.
* Of a private block the model knows which of its `pthread` objects are initialised (`live`).  The ones in named
  memory stay for other processes and are never destroyed.
* What `InitUnixNamedMem` finds under the name is an input (`Found`); its part in sharing the memory is
  `Verif.NamedMem`, the name of the object `Verif.ShmName`.
* `size_t` arithmetic wraps around at 2^64.

Simplified: `new` succeeds; what a call on a created object returns is an input; whole calls are steps (no other
thread uses an object while it is created or destroyed).
-/

namespace Verif.SyncLife
open Verif.NamedMem (alignSize)

/-- Quantities of the platform: the alignment unit (sync_util.cpp 97-109), the sizes of `pthread_mutex_t` and
`pthread_cond_t`, the page size. -/
structure Par where
  al : Nat
  msz : Nat
  csz : Nat
  page : Nat

/-- `AlignUnixSize` (sync_util.cpp 111-118). -/
def Par.A (p : Par) (n : Nat) : Nat := alignSize p.al n % 18446744073709551616

/-- Part of an object in memory; `pt` if it is a `pthread` object (sync_util.h 53-81). -/
structure Part where
  off : Nat
  len : Nat
  pt : Bool
  deriving DecidableEq

/-- `GetUnixSemaphoreSize` (sync_util.cpp 326-329). -/
def Par.semSize (p : Par) : Nat := p.A p.msz + p.A 4 + p.A 4 + p.A p.csz

/-- `GetUnixSemaphore` (sync_util.cpp 331-343). -/
def Par.semParts (p : Par) (o : Nat) : List Part :=
  [⟨o, p.msz, true⟩, ⟨o + p.A p.msz, 4, false⟩, ⟨o + p.A p.msz + p.A 4, 4, false⟩,
    ⟨o + p.A p.msz + p.A 4 + p.A 4, p.csz, true⟩]

/-- `GetUnixEventSize` (sync_util.cpp 464-467). -/
def Par.eventSize (p : Par) : Nat := p.A p.msz + p.A 2 + p.A 4 + p.A p.csz

/-- `GetUnixEvent` (sync_util.cpp 469-482). -/
def Par.eventParts (p : Par) (o : Nat) : List Part :=
  [⟨o, p.msz, true⟩, ⟨o + p.A p.msz, 1, false⟩, ⟨o + p.A p.msz + 1, 1, false⟩, ⟨o + p.A p.msz + p.A 2, 4, false⟩,
    ⟨o + p.A p.msz + p.A 2 + p.A 4, p.csz, true⟩]

/-- The classes; `Mutex` is in `MutexModel.lean` (sync_semaphore.h, sync_event.h, sync_readwritelock.h,
sync_sharedmem.h 12-58). -/
inductive Cls where
  | sem | event | lock | mem
  deriving DecidableEq

/-- What `Create` asks for; `n` is the `Size` given to `SharedMem` (sync_semaphore.cpp 95, sync_event.cpp 102,
sync_readwritelock.cpp 225, sync_sharedmem.cpp 91). -/
def Par.objSize (p : Par) (n : Nat) : Cls → Nat
  | .sem => p.semSize
  | .event => p.eventSize
  | .lock => p.semSize + p.A 4 + p.eventSize + p.semSize
  | .mem => n

/-- The pointers `Create` computes (sync_semaphore.cpp 101, sync_event.cpp 108, sync_readwritelock.cpp 231-243). -/
def Par.parts (p : Par) (o : Nat) : Cls → List Part
  | .sem => p.semParts o
  | .event => p.eventParts o
  | .lock => p.semParts o ++ [⟨o + p.semSize, 4, false⟩] ++ p.eventParts (o + p.semSize + p.A 4) ++
      p.semParts (o + p.semSize + p.A 4 + p.eventSize)
  | .mem => []

/-- `StartPos` of a named object (sync_util.cpp 124). -/
def Par.start (p : Par) : Nat := p.A 1 + p.A p.msz + p.A 4

/-- The mutex and the reference counter of a named object (sync_util.cpp 232-233, 270-274, 310-317). -/
def Par.header (p : Par) : List Part := [⟨0, 1, false⟩, ⟨p.A 1, p.msz, false⟩, ⟨p.A 1 + p.A p.msz, 4, false⟩]

/-- A block of memory (sync_util.cpp 134, 223, 257). -/
structure Blk where
  named : Bool
  len : Nat
  alive : Bool
  live : List Nat
  deriving DecidableEq

/-- An object; of a pointer into a block the number of the block and the offset; `size`, `first` and `data` are
`MxSize`, `MxFirst` and `MxMem` of `SharedMem`, whose `MxMemInternal` is `mem`; `wrap` is where the pointers in the
wrappers lead, none if they were never set (sync_semaphore.h 44-53, sync_sharedmem.h 29-42). -/
structure Obj where
  cls : Cls
  named : Bool
  mem : Option Nat
  wrap : Option (Nat × Nat)
  size : Nat
  first : Bool
  data : Option (Nat × Nat)
  deriving DecidableEq

/-- Memory and objects (`none`: destroyed) (sync_semaphore.cpp 60-112). -/
structure W where
  blks : List Blk
  objs : List (Option Obj)

/-- A live block (sync_semaphore.cpp 60-112). -/
def getBlk (bs : List Blk) (b : Nat) : CRes Blk :=
  match bs[b]? with
  | some k => if k.alive then .ok k else .error .badPtr
  | none => .error .badPtr

/-- Number of pages that `n` bytes take (mmap(2), munmap(2) at sync_util.cpp 223, 257, 323). -/
def Par.pages (p : Par) (n : Nat) : Nat := (n + (p.page - 1)) / p.page

/-- How many bytes of a block can be used: of a mapping, whole pages (sync_util.cpp 134, 223, 257). -/
def Par.usable (p : Par) (k : Blk) : Nat := if k.named then p.pages k.len * p.page else k.len

/-- An access (sync_util.cpp 97-632). -/
def touch (p : Par) (bs : List Blk) (b off len : Nat) : CRes Unit := do
  let k ← getBlk bs b
  if off + len ≤ p.usable k then .ok () else .error .oobWrite

/-- Accesses to all of these parts (sync_util.cpp 97-632). -/
def touchAll (p : Par) (bs : List Blk) (b : Nat) : List Part → CRes Unit
  | [] => .ok ()
  | q :: qs => do
    touch p bs b q.off q.len
    touchAll p bs b qs

/-- `InitUnixSemaphore`, `InitUnixEvent`: the parts are written, `pthread` objects initialised
(sync_util.cpp 345-368, 484-506). -/
def initParts (p : Par) (bs : List Blk) (b : Nat) : List Part → CRes (List Blk)
  | [] => .ok bs
  | q :: qs => do
    touch p bs b q.off q.len
    let k ← getBlk bs b
    if q.pt ∧ k.named = false then
      if q.off ∈ k.live then .error .badPtr
      else initParts p (bs.set b { k with live := k.live ++ [q.off] }) b qs
    else initParts p bs b qs

/-- `FreeUnixSemaphore`, `FreeUnixEvent`: the `pthread` objects are destroyed (sync_util.cpp 457-461, 625-629). -/
def freeParts (p : Par) (bs : List Blk) (b : Nat) : List Part → CRes (List Blk)
  | [] => .ok bs
  | q :: qs =>
    if q.pt then do
      touch p bs b q.off q.len
      let k ← getBlk bs b
      if q.off ∈ k.live then freeParts p (bs.set b { k with live := k.live.erase q.off }) b qs
      else .error .uninit
    else freeParts p bs b qs

/-- `delete[] MxMem` (sync_semaphore.cpp 75, 89). -/
def delete (bs : List Blk) (b : Nat) : CRes (List Blk) := do
  let k ← getBlk bs b
  if k.named then .error .badPtr else .ok (bs.set b { k with alive := false })

/-- `UnmapUnixNamedMem` (sync_util.cpp 308-324); fewer pages than were mapped: the rest stays; more: memory of others is
taken away. -/
def unmap (p : Par) (bs : List Blk) (b size : Nat) : CRes (List Blk) := do
  touchAll p bs b p.header
  let k ← getBlk bs b
  if k.named then
    let n := p.pages ((p.start + size) % 18446744073709551616)
    if n = p.pages k.len then .ok (bs.set b { k with alive := false })
    else if n < p.pages k.len then .ok bs
    else .error .badPtr
  else .error .badPtr

/-- What `InitUnixNamedMem` finds under the name: it cannot be opened, or it is new, or it is in use
(sync_util.cpp 214-300). -/
inductive Found where
  | no | new | used
  deriving DecidableEq

/-- `InitUnixNamedMem` (sync_util.cpp 120-301): the new block, whether it is to be initialised, and `StartPos`; `none` for
the result -1.  The zeroing of an object that nobody had open is in `Verif.NamedMem`. -/
def initMem (p : Par) (bs : List Blk) (name : Option Found) (size : Nat) : CRes (List Blk × Option (Nat × Nat × Bool)) :=
  match name with
  | none =>
    .ok (bs ++ [⟨false, p.A (size % 18446744073709551616), true, []⟩], some (bs.length, 0, true))
  | some .no => .ok (bs, none)
  | some f =>
    let total := p.A ((size + p.start) % 18446744073709551616)
    if total = 0 then .ok (bs, none)
    else do
      let bs' := bs ++ [⟨true, total, true, []⟩]
      touchAll p bs' bs.length p.header
      .ok (bs', some (bs.length, p.start, f = .new))

/-- Giving back what the object has, in destructors and at the start of `Create` (sync_semaphore.cpp 68-77, 82-91,
sync_event.cpp 75-84, 89-98, sync_readwritelock.cpp 193-204, 209-220, sync_sharedmem.cpp 79, 86). -/
def release (p : Par) (bs : List Blk) (o : Obj) : CRes (List Blk) :=
  match o.mem with
  | none => .ok bs
  | some b =>
    if o.cls = .mem then unmap p bs b o.size
    else if o.named then unmap p bs b (p.objSize 0 o.cls)
    else
      match o.wrap with
      | none => .error .uninit
      | some (b', pos) => do
        let bs ← freeParts p bs b' (p.parts pos o.cls)
        delete bs b

/-- `this` (sync_semaphore.cpp 60-112). -/
def getObj (w : W) (i : Nat) : CRes Obj :=
  match w.objs[i]? with
  | some (some o) => .ok o
  | _ => .error .badPtr

/-- Constructors (sync_semaphore.cpp 62, sync_event.cpp 69, sync_readwritelock.cpp 187, sync_sharedmem.cpp 73). -/
def construct (w : W) (c : Cls) : W := { w with objs := w.objs ++ [some ⟨c, false, none, none, 0, false, none⟩] }

/-- `UnixNamedMemReady` (sync_util.cpp 303-306). -/
def ready (p : Par) (bs : List Blk) (b : Nat) : CRes Unit := touch p bs b (p.A 1) p.msz

/-- `Create` of the classes but `SharedMem`, from line 93 on (sync_semaphore.cpp 93-112, sync_event.cpp 100-119,
sync_readwritelock.cpp 222-258). -/
def createSync (p : Par) (bs : List Blk) (o : Obj) (name : Option Found) : CRes (Bool × List Blk × Obj) := do
  let o := { o with mem := none, named := name.isSome }
  let (bs, r) ← initMem p bs name (p.objSize 0 o.cls)
  match r with
  | none => .ok (false, bs, o)
  | some (b, pos, new) => do
    let o := { o with mem := some b, wrap := some (b, pos) }
    if new then do
      let bs ← initParts p bs b (p.parts pos o.cls)
      if o.named then do
        ready p bs b
        .ok (true, bs, o)
      else .ok (true, bs, o)
    else .ok (true, bs, o)

/-- `SharedMem::Create` from line 88 on (sync_sharedmem.cpp 88-109). -/
def createMem (p : Par) (bs : List Blk) (o : Obj) (f : Found) (size : Nat) : CRes (Bool × List Blk × Obj) := do
  let o := { o with mem := none, data := none }
  let (bs, r) ← initMem p bs (some f) size
  match r with
  | none => .ok (false, bs, o)
  | some (b, pos, new) => do
    let o := { o with mem := some b, data := some (b, pos), size := size }
    if new then do
      ready p bs b
      .ok (true, bs, { o with first := true })
    else .ok (true, bs, o)

/-- `Create` (sync_semaphore.cpp 80-112, sync_event.cpp 87-119, sync_readwritelock.cpp 207-258, sync_sharedmem.cpp 82-109);
`name` is `none` for a NULL name, else what is found under it. -/
def create (p : Par) (w : W) (i : Nat) (name : Option Found) (size : Nat) : CRes (Bool × W) := do
  let o ← getObj w i
  if o.cls = .mem then
    match name with
    | none => .ok (false, w)
    | some f => do
      let bs ← release p w.blks o
      let (r, bs, o) ← createMem p bs o f size
      .ok (r, ⟨bs, w.objs.set i (some o)⟩)
  else do
    let bs ← release p w.blks o
    let (r, bs, o) ← createSync p bs o name
    .ok (r, ⟨bs, w.objs.set i (some o)⟩)

/-- The functions of `Semaphore`, `Event` and `ReadWriteLock`: without memory they refuse, otherwise they use the object
(sync_semaphore.cpp 114-131, sync_event.cpp 121-141, sync_readwritelock.cpp 260-360); `r` is what they return. -/
def use (p : Par) (w : W) (i : Nat) (r : Bool) : CRes (Bool × W) := do
  let o ← getObj w i
  match o.mem with
  | none => .ok (false, w)
  | some _ =>
    match o.wrap with
    | none => .error .uninit
    | some (b, pos) => do
      touchAll p w.blks b (p.parts pos o.cls)
      .ok (r, w)

/-- The user of a `SharedMem` accesses `n` bytes at `RawData() + off` (sync_sharedmem.h 26). -/
def access (p : Par) (w : W) (i off n : Nat) : CRes (Bool × W) := do
  let o ← getObj w i
  match o.data with
  | none => .error .nullDeref
  | some (b, pos) => do
    touch p w.blks b (pos + off) n
    .ok (true, w)

/-- Destructors (sync_semaphore.cpp 66-78, sync_event.cpp 73-85, sync_readwritelock.cpp 191-205,
sync_sharedmem.cpp 77-80). -/
def destroy (p : Par) (w : W) (i : Nat) : CRes (Bool × W) := do
  let o ← getObj w i
  let bs ← release p w.blks o
  .ok (true, ⟨bs, w.objs.set i none⟩)

/-- The calls (sync_semaphore.cpp 60-131). -/
inductive Op where
  | construct (c : Cls)
  | create (i : Nat) (name : Option Found) (size : Nat)
  | use (i : Nat) (r : Bool)
  | access (i off n : Nat)
  | destroy (i : Nat)

/-- One call (sync_semaphore.cpp 60-131). -/
def step (p : Par) (w : W) : Op → CRes (Bool × W)
  | .construct c => .ok (true, construct w c)
  | .create i name size => create p w i name size
  | .use i r => use p w i r
  | .access i off n => access p w i off n
  | .destroy i => destroy p w i

/-- A history of calls (sync_semaphore.cpp 60-131). -/
def run (p : Par) (w : W) : List Op → CRes (List Bool × W)
  | [] => .ok ([], w)
  | o :: os => do
    let (r, w) ← step p w o
    let (rs, w) ← run p w os
    .ok (r :: rs, w)

end Verif.SyncLife
