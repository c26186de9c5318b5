import Verif.ShmName.Model
import Verif.Mutex.Model

/-!
# Model of creating, using and destroying sync objects on Windows

`Semaphore` (sync/sync_semaphore.cpp 10-59), `Event` (sync_event.cpp 10-67), the constructor, destructor and `Create` of
`ReadWriteLock` (sync_readwritelock.cpp 14-66), `SharedMem` (sync_sharedmem.cpp 17-70) and `Mutex`
(sync_mutex.cpp 10-126): any number of objects of any number of processes, and the objects of the kernel.

* A handle is a number; numbers are not used twice (also not by different processes), so every use of a closed handle shows as
  undefined behaviour.  Views of shared memory are numbered in the same way.
* An object of the kernel is there as long as it has an open handle or view.  Names are one space for all kinds; creating
  under the name of an object of the same kind opens that one, of another kind fails.
* Every system call may fail; whether it does is an input.
* Each call is one step.  For `Semaphore` and `Event` that is what it is, a call makes at most one system call that matters; for
  `Lock` and `Unlock` of `Mutex` it is justified by C101; the calls of `ReadWriteLock` are `Verif.WinRwLock`.

Simplified: names are ASCII without backslash (no code pages, no `Global\`); waits are over when the call returns, a call that
would wait longer is one that times out; abandoned mutexes are in `Verif.WinMutex`.
C strings are lists of their bytes without the terminator.
-/

namespace Verif.WinSync
open Verif.ShmName (decimal)
open Verif.Mutex (dec32)

/-- Text of a name (sync_semaphore.h 19). -/
abbrev Str := List UInt8

/-! ## The kernel -/

/-- What an object of the kernel is (sync_semaphore.cpp 33, sync_event.cpp 33, sync_sharedmem.cpp 49, sync_mutex.cpp 53). -/
inductive KSt where
  | sem (cnt max : Nat)
  | event (manual sig : Bool)
  | mapping (bytes : Nat)
  | mutex (own : Option Nat) (cnt : Nat)
  deriving DecidableEq

/-- The kind of a kernel object (sync_semaphore.cpp 33, sync_event.cpp 33, sync_sharedmem.cpp 49, sync_mutex.cpp 53). -/
def KSt.kind : KSt → Nat
  | .sem _ _ => 0
  | .event _ _ => 1
  | .mapping _ => 2
  | .mutex _ _ => 3

/-- An object of the kernel with its name (sync_semaphore.cpp 33, sync_event.cpp 33, sync_sharedmem.cpp 49, sync_mutex.cpp 53). -/
structure KObj where
  name : Option Str
  st : KSt
  deriving DecidableEq

/-- The classes (sync_semaphore.h 13, sync_event.h 13, sync_readwritelock.h 13, sync_sharedmem.h 13, sync_mutex.h 13). -/
inductive Cls where
  | sem
  | event
  | rw
  | mem
  | mutex
  deriving DecidableEq

/-- The members: the handles (`none` is `NULL`; `ReadWriteLock` has four, `MxWinRSemMutex`, `MxWinRSemaphore`, `MxWinRWaitEvent`
and `MxWinWWaitMutex`, the others one), `MxMem`, `MxFirst` and `MxSize` of `SharedMem`, `MxOwnerID` and `MxCount` of `Mutex`
(sync_semaphore.cpp 12, sync_event.cpp 12, sync_readwritelock.cpp 16, sync_sharedmem.cpp 19, sync_mutex.cpp 12). -/
structure Obj where
  cls : Cls
  hs : List (Option Nat)
  view : Option Nat
  first : Bool
  size : Nat
  own : Option Nat
  cnt : Nat

/-- The objects of the kernel, the handles and the views (`none`: closed), the blocks that `new` gave and `delete` has not
got back, and the objects (`none`: destroyed) (sync_semaphore.cpp 12-59, sync_event.cpp 12-66, sync_readwritelock.cpp 17-184, sync_sharedmem.cpp
19-70, sync_mutex.cpp 12-126). -/
structure W where
  kobjs : List KObj
  handles : List (Option Nat)
  views : List (Option Nat)
  blocks : Nat
  objs : List (Option Obj)

/-- Nothing at all (sync_semaphore.cpp 12). -/
def W.init : W := ⟨[], [], [], 0, []⟩

/-- A kernel object is there while it has a handle or a view (sync_sharedmem.h 20). -/
def alive (w : W) (k : Nat) : Bool := decide (some k ∈ w.handles ∨ some k ∈ w.views)

/-- The kernel object with this name (sync_semaphore.cpp 33). -/
def find (w : W) (n : Str) : Option Nat :=
  (List.range w.kobjs.length).find? fun k => alive w k && (match w.kobjs[k]? with
    | some o => decide (o.name = some n)
    | none => false)

/-- A new handle (sync_semaphore.cpp 33). -/
def handleTo (w : W) (k : Nat) : W × Option Nat :=
  ({ w with handles := w.handles ++ [some k] }, some w.handles.length)

/-- Opening by name (sync_sharedmem.cpp 52). -/
def kopen (w : W) (n : Str) (kind : Nat) : W × Option Nat :=
  match find w n with
  | none => (w, none)
  | some k =>
    match w.kobjs[k]? with
    | some o => if o.st.kind = kind then handleTo w k else (w, none)
    | none => (w, none)

/-- A new kernel object and its handle (sync_semaphore.cpp 33). -/
def kfresh (w : W) (name : Option Str) (st : KSt) : W × Option Nat :=
  handleTo { w with kobjs := w.kobjs ++ [⟨name, st⟩] } w.kobjs.length

/-- `CreateSemaphoreA`, `CreateEventA`, `CreateFileMappingA`, `CreateMutexA` (sync_semaphore.cpp 33, sync_event.cpp 33,
sync_readwritelock.cpp 53-59, sync_sharedmem.cpp 49, sync_mutex.cpp 53). -/
def kcreate (w : W) (name : Option Str) (st : KSt) (fails : Bool) : W × Option Nat :=
  if fails then (w, none)
  else match name with
    | none => kfresh w none st
    | some n => if (find w n).isSome then kopen w n st.kind else kfresh w name st

/-- Use of a handle (sync_semaphore.cpp 44, 55, sync_event.cpp 44, 54, 63, sync_sharedmem.cpp 63, sync_mutex.cpp 34, 90, 120). -/
def handle (w : W) (h : Nat) : CRes Nat :=
  match w.handles[h]? with
  | some (some k) => .ok k
  | _ => .error .badPtr

/-- The kernel object (sync_semaphore.cpp 44, 55, sync_event.cpp 44, 54, 63, sync_sharedmem.cpp 63, sync_mutex.cpp 34, 90, 120). -/
def kstate (w : W) (k : Nat) : CRes KSt :=
  match w.kobjs[k]? with
  | some o => .ok o.st
  | none => .error .badPtr

/-- The kernel object changes (sync_semaphore.cpp 44, 55, sync_event.cpp 44, 54, 63, sync_mutex.cpp 34, 90, 120). -/
def setK (w : W) (k : Nat) (st : KSt) : W :=
  { w with kobjs := w.kobjs.modify k fun o => { o with st := st } }

/-- `CloseHandle` (sync_semaphore.cpp 18, 23, sync_event.cpp 18, 23, sync_readwritelock.cpp 22-25, 30-33,
sync_sharedmem.cpp 26, 34, sync_mutex.cpp 21, 35). -/
def close (w : W) (h : Nat) : CRes W := do
  let _ ← handle w h
  .ok { w with handles := w.handles.set h none }

/-- Closing what is not `NULL` (sync_semaphore.cpp 18, 23, sync_event.cpp 18, 23, sync_readwritelock.cpp 22-25, 30-33 (in the other
order), sync_sharedmem.cpp 26, 34, sync_mutex.cpp 21). -/
def closeAll (w : W) : List (Option Nat) → CRes W
  | [] => .ok w
  | none :: hs => closeAll w hs
  | some h :: hs => do
    let w ← close w h
    closeAll w hs

/-- `UnmapViewOfFile` (sync_sharedmem.cpp 25, 33). -/
def unmap (w : W) : Option Nat → CRes W
  | none => .ok w
  | some v =>
    match w.views[v]? with
    | some (some _) => .ok { w with views := w.views.set v none }
    | _ => .error .badPtr

/-! ## Objects -/

/-- `this` (sync_semaphore.cpp 12-59). -/
def getObj (w : W) (i : Nat) : CRes Obj :=
  match w.objs[i]? with
  | some (some o) => .ok o
  | _ => .error .badPtr

/-- Storing into the members (sync_semaphore.cpp 12-59). -/
def setObj (w : W) (i : Nat) (o : Obj) : W := { w with objs := w.objs.set i (some o) }

/-- How many handles a class has (sync_readwritelock.cpp 16). -/
def Cls.slots : Cls → Nat
  | .rw => 4
  | _ => 1

/-- The constructors (sync_semaphore.cpp 12-14, sync_event.cpp 12-14, sync_readwritelock.cpp 16-18, sync_sharedmem.cpp 19-21,
sync_mutex.cpp 12-15). -/
def construct (w : W) (c : Cls) : W :=
  { w with objs := w.objs ++ [some ⟨c, List.replicate c.slots none, none, false, 0, none, 0⟩] }

/-- `sprintf` into a block of `cap` characters (sync_readwritelock.cpp 49-58, sync_sharedmem.cpp 45-48). -/
def fmt (cap : Nat) (s : Str) : CRes Str := if s.length + 1 ≤ cap then .ok s else .error .oobWrite

/-- `Semaphore::Create` (sync_semaphore.cpp 21-38).  `CreateSemaphoreA` wants a positive maximum. -/
def semCreate (w : W) (i : Nat) (name : Option Str) (val : Int) (fails : Bool) : CRes (Bool × W) := do
  let o ← getObj w i
  let w ← closeAll w o.hs
  let (w, h) := kcreate w name (.sem val.toNat val.toNat) (fails || decide (val ≤ 0))
  .ok (h.isSome, setObj w i { o with hs := [h] })

/-- `Event::Create` (sync_event.cpp 21-38). -/
def evCreate (w : W) (i : Nat) (name : Option Str) (manual prefire fails : Bool) : CRes (Bool × W) := do
  let o ← getObj w i
  let w ← closeAll w o.hs
  let (w, h) := kcreate w name (.event manual prefire) fails
  .ok (h.isSome, setObj w i { o with hs := [h] })

/-- `"-Sync_ReadWrite-"` and a digit (sync_readwritelock.cpp 52-58). -/
def rwSuffix (d : Nat) : Str := [45, 83, 121, 110, 99, 95, 82, 101, 97, 100, 87, 114, 105, 116, 101, 45, UInt8.ofNat (48 + d)]

/-- `Name2` (sync_readwritelock.cpp 48-58). -/
def rwName (name : Option Str) (d : Nat) : CRes (Option Str) :=
  match name with
  | none => .ok none
  | some n => do
    let s ← fmt (n.length + 20) (n ++ rwSuffix d)
    .ok (some s)

/-- `LONG_MAX` (sync_readwritelock.cpp 55). -/
def longMax : Nat := 2147483647

/-- `ReadWriteLock::Create` (sync_readwritelock.cpp 28-66). -/
def rwCreate (w : W) (i : Nat) (name : Option Str) (f0 f1 f2 f3 : Bool) : CRes (Bool × W) := do
  let o ← getObj w i
  let w ← closeAll w o.hs
  let w := { w with blocks := w.blocks + (if name.isSome then 1 else 0) }
  let n ← rwName name 0
  let (w, a) := kcreate w n (.sem 1 1) f0
  let n ← rwName name 1
  let (w, b) := kcreate w n (.sem longMax longMax) f1
  let n ← rwName name 2
  let (w, c) := kcreate w n (.event true true) f2
  let n ← rwName name 3
  let (w, d) := kcreate w n (.sem 1 1) f3
  let w := { w with blocks := w.blocks - (if name.isSome then 1 else 0) }
  .ok (a.isSome && b.isSome && c.isSome && d.isSome, setObj w i { o with hs := [a, b, c, d] })

/-- The text of `"%s-%u-Sync_SharedMem"` (sync_sharedmem.cpp 48); `unsigned int` has 32 bits. -/
def memText (n : Str) (size : Nat) : Str :=
  n ++ [45] ++ decimal (size % 4294967296) ++ [45, 83, 121, 110, 99, 95, 83, 104, 97, 114, 101, 100, 77, 101, 109]

/-- `MapViewOfFile` (sync_sharedmem.cpp 63): a view of the first `n` bytes, of all of them if `n` is 0. -/
def map (w : W) (k n : Nat) (fails : Bool) : CRes (W × Option Nat) := do
  let st ← kstate w k
  match st with
  | .mapping bytes =>
    if fails = false ∧ n ≤ bytes then .ok ({ w with views := w.views ++ [some k] }, some w.views.length)
    else .ok (w, none)
  | _ => .ok (w, none)

/-- The end of `SharedMem::Create`, with the handle (sync_sharedmem.cpp 61-69). -/
def memMap (w : W) (i : Nat) (o : Obj) (first : Bool) (h size : Nat) (fails : Bool) : CRes (Bool × W) := do
  let w := { w with blocks := w.blocks - 1 }
  let k ← handle w h
  let (w, v) ← map w k (size % 4294967296) fails
  match v with
  | none => .ok (false, setObj w i { o with hs := [some h], view := none, first := first })
  | some v => .ok (true, setObj w i { o with hs := [some h], view := some v, first := first, size := size })

/-- `SharedMem::Create` (sync_sharedmem.cpp 29-70).  `CreateFileMappingA` wants a positive size; `f0`, `f1` and `f2` are the
failures of creating, opening and mapping. -/
def memCreate (w : W) (i : Nat) (name : Option Str) (size : Nat) (f0 f1 f2 : Bool) : CRes (Bool × W) := do
  let o ← getObj w i
  match name with
  | none => .ok (false, w)
  | some n => do
    let w ← unmap w o.view
    let w ← closeAll w o.hs
    let w := { w with blocks := w.blocks + 1 }
    let s ← fmt (n.length + 30) (memText n size)
    let existed := (find w s).isSome
    match kcreate w (some s) (.mapping (size % 4294967296)) (f0 || decide (size % 4294967296 = 0)) with
    | (w, some h) => memMap w i o (!existed) h size f2
    | (w, none) =>
      match if f1 then (w, none) else kopen w s 2 with
      | (w, none) => .ok (false, setObj w i { o with hs := [none], view := none, first := false })
      | (w, some h) => memMap w i o false h size f2

/-- `ReleaseMutex` by thread `t` (sync_mutex.cpp 34, 120). -/
def release (w : W) (k t : Nat) : CRes W := do
  let st ← kstate w k
  match st with
  | .mutex own cnt =>
    if own = some t then .ok (setK w k (if cnt ≤ 1 then .mutex none 0 else .mutex own (cnt - 1)))
    else .ok w
  | _ => .ok w

/-- The last part of `Mutex::Create`, under the critical section (sync_mutex.cpp 47-63). -/
def mutexMake (w : W) (i : Nat) (o : Obj) (name : Option Str) (fails : Bool) : CRes (Bool × W) :=
  let (w, h) := kcreate w name (.mutex none 0) fails
  .ok (h.isSome, setObj w i { o with hs := [h] })

/-- `Mutex::Create` called by thread `t` (sync_mutex.cpp 25-64). -/
def mutexCreate (w : W) (i t : Nat) (name : Option Str) (fails : Bool) : CRes (Bool × W) := do
  let o ← getObj w i
  if 0 < o.cnt then
    if o.own = some t then
      match o.hs with
      | some h :: _ => do
        let k ← handle w h
        let w ← release w k t
        let w ← close w h
        mutexMake w i { o with hs := [none], cnt := 0, own := none } name fails
      | _ => .error .nullDeref
    else .ok (false, w)
  else mutexMake w i o name fails

/-- `Mutex::Lock` by thread `t` (sync_mutex.cpp 66-99); `fails`: the wait fails or times out. -/
def mutexLock (w : W) (i t : Nat) (fails : Bool) : CRes (Bool × W) := do
  let o ← getObj w i
  match o.hs with
  | some h :: _ =>
    if o.own = some t then .ok (true, setObj w i { o with cnt := (o.cnt + 1) % 4294967296 })
    else do
      let k ← handle w h
      let st ← kstate w k
      match st with
      | .mutex own cnt =>
        if fails = false ∧ (own = none ∨ own = some t) then
          .ok (true, setObj (setK w k (.mutex (some t) (cnt + 1))) i { o with own := some t, cnt := 1 })
        else .ok (false, w)
      | _ => .ok (false, w)
  | _ => .ok (false, w)

/-- `Mutex::Unlock` by thread `t` (sync_mutex.cpp 101-126). -/
def mutexUnlock (w : W) (i t : Nat) (all : Bool) : CRes (Bool × W) := do
  let o ← getObj w i
  match o.hs with
  | some h :: _ =>
    if o.own = some t then
      let c := dec32 (if all then 1 else o.cnt)
      if c = 0 then do
        let k ← handle w h
        let w ← release w k t
        .ok (true, setObj w i { o with own := none, cnt := 0 })
      else .ok (true, setObj w i { o with cnt := c })
    else .ok (false, w)
  | _ => .ok (false, w)

/-- `Unlock(true)` of `~Mutex` (sync_mutex.cpp 19); nothing for the other classes. -/
def unlockAll (w : W) (i t : Nat) (o : Obj) : CRes (Bool × W) :=
  if o.cls = .mutex then mutexUnlock w i t true else .ok (true, w)

/-- The destructors, called by thread `t` (sync_semaphore.cpp 16-19, sync_event.cpp 16-19, sync_readwritelock.cpp 20-26,
sync_sharedmem.cpp 23-27, sync_mutex.cpp 17-23). -/
def destroy (w : W) (i t : Nat) : CRes W := do
  let o ← getObj w i
  let (_, w) ← unlockAll w i t o
  let w ← unmap w o.view
  let w ← closeAll w o.hs
  .ok { w with objs := w.objs.set i none }

/-- `Semaphore::Lock` (sync_semaphore.cpp 40-48); `fails`: the wait fails, or times out if there is nothing to take. -/
def semLock (w : W) (i : Nat) (fails : Bool) : CRes (Bool × W) := do
  let o ← getObj w i
  match o.hs with
  | some h :: _ => do
    let k ← handle w h
    let st ← kstate w k
    match st with
    | .sem cnt max => if fails = false ∧ 0 < cnt then .ok (true, setK w k (.sem (cnt - 1) max)) else .ok (false, w)
    | _ => .ok (false, w)
  | _ => .ok (false, w)

/-- `Semaphore::Unlock` (sync_semaphore.cpp 50-59): the result, `*PrevCount` if it is written, and the state. -/
def semUnlock (w : W) (i : Nat) (fails : Bool) : CRes ((Bool × Option Nat) × W) := do
  let o ← getObj w i
  match o.hs with
  | some h :: _ => do
    let k ← handle w h
    let st ← kstate w k
    match st with
    | .sem cnt max =>
      if fails = false ∧ cnt < max then .ok ((true, some cnt), setK w k (.sem (cnt + 1) max)) else .ok ((false, none), w)
    | _ => .ok ((false, none), w)
  | _ => .ok ((false, none), w)

/-- `Event::Wait` (sync_event.cpp 40-48); `fails`: the wait fails, or times out if the event is not signalled. -/
def evWait (w : W) (i : Nat) (fails : Bool) : CRes (Bool × W) := do
  let o ← getObj w i
  match o.hs with
  | some h :: _ => do
    let k ← handle w h
    let st ← kstate w k
    match st with
    | .event manual sig => if fails = false ∧ sig = true then .ok (true, setK w k (.event manual manual)) else .ok (false, w)
    | _ => .ok (false, w)
  | _ => .ok (false, w)

/-- `Event::Fire` (sync_event.cpp 50-57) with `sig`, `Event::Reset` (59-66) without. -/
def evSet (w : W) (i : Nat) (sig fails : Bool) : CRes (Bool × W) := do
  let o ← getObj w i
  match o.hs with
  | some h :: _ => do
    let k ← handle w h
    let st ← kstate w k
    match st with
    | .event manual _ => if fails = false then .ok (true, setK w k (.event manual sig)) else .ok (false, w)
    | _ => .ok (false, w)
  | _ => .ok (false, w)

/-- The calls of `ReadWriteLock` begin with a test of handles: whether it is passed (sync_readwritelock.cpp 72, 121, 143, 178). -/
def rwReady (o : Obj) (needs : List Nat) : Bool := needs.all fun s => (o.hs[s]?.join).isSome

/-- The handles `ReadLock` tests (sync_readwritelock.cpp 72). -/
def readLockNeeds : List Nat := [1, 0, 2, 3]
/-- The handles `WriteLock` tests (sync_readwritelock.cpp 121). -/
def writeLockNeeds : List Nat := [2, 3]
/-- The handles `ReadUnlock` tests (sync_readwritelock.cpp 144). -/
def readUnlockNeeds : List Nat := [0, 1, 2]
/-- The handle `WriteUnlock` tests (sync_readwritelock.cpp 178). -/
def writeUnlockNeeds : List Nat := [3]

/-! ## Histories -/

/-- The calls; the booleans are failures of system calls (sync_semaphore.cpp 12-59, sync_event.cpp 12-66, sync_readwritelock.cpp 17-184, sync_sharedmem.cpp
19-70, sync_mutex.cpp 12-126). -/
inductive Op where
  | construct (c : Cls)
  | semCreate (i : Nat) (name : Option Str) (val : Int) (fails : Bool)
  | evCreate (i : Nat) (name : Option Str) (manual prefire fails : Bool)
  | rwCreate (i : Nat) (name : Option Str) (f0 f1 f2 f3 : Bool)
  | memCreate (i : Nat) (name : Option Str) (size : Nat) (f0 f1 f2 : Bool)
  | mutexCreate (i t : Nat) (name : Option Str) (fails : Bool)
  | mutexLock (i t : Nat) (fails : Bool)
  | mutexUnlock (i t : Nat) (all : Bool)
  | semLock (i : Nat) (fails : Bool)
  | semUnlock (i : Nat) (fails : Bool)
  | evWait (i : Nat) (fails : Bool)
  | evFire (i : Nat) (fails : Bool)
  | evReset (i : Nat) (fails : Bool)
  | destroy (i t : Nat)

/-- The result of a call, and `*PrevCount` (sync_semaphore.cpp 50-59). -/
structure Out where
  result : Bool
  prev : Option Nat := none
  deriving DecidableEq

/-- A call that gives only its result (sync_semaphore.cpp 12-59). -/
def plain (r : CRes (Bool × W)) : CRes (Out × W) := do
  let (b, w) ← r
  .ok (⟨b, none⟩, w)

/-- One call (sync_semaphore.cpp 12-59, sync_event.cpp 12-66, sync_readwritelock.cpp 17-184, sync_sharedmem.cpp
19-70, sync_mutex.cpp 12-126). -/
def step (w : W) : Op → CRes (Out × W)
  | .construct c => .ok (⟨true, none⟩, construct w c)
  | .semCreate i name val fails => plain (semCreate w i name val fails)
  | .evCreate i name manual prefire fails => plain (evCreate w i name manual prefire fails)
  | .rwCreate i name f0 f1 f2 f3 => plain (rwCreate w i name f0 f1 f2 f3)
  | .memCreate i name size f0 f1 f2 => plain (memCreate w i name size f0 f1 f2)
  | .mutexCreate i t name fails => plain (mutexCreate w i t name fails)
  | .mutexLock i t fails => plain (mutexLock w i t fails)
  | .mutexUnlock i t all => plain (mutexUnlock w i t all)
  | .semLock i fails => plain (semLock w i fails)
  | .semUnlock i fails => do
    let ((b, p), w) ← semUnlock w i fails
    .ok (⟨b, p⟩, w)
  | .evWait i fails => plain (evWait w i fails)
  | .evFire i fails => plain (evSet w i true fails)
  | .evReset i fails => plain (evSet w i false fails)
  | .destroy i t => do
    let w ← destroy w i t
    .ok (⟨true, none⟩, w)

/-- A history (sync_semaphore.cpp 12-59, sync_event.cpp 12-66, sync_readwritelock.cpp 17-184, sync_sharedmem.cpp
19-70, sync_mutex.cpp 12-126). -/
def exec (w : W) : List Op → CRes (List Out × W)
  | [] => .ok ([], w)
  | o :: os => do
    let (r, w) ← step w o
    let (rs, w) ← exec w os
    .ok (r :: rs, w)

end Verif.WinSync
