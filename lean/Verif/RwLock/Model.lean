import Verif.Base

/-!
# Model of `Sync::ReadWriteLock`, POSIX branch (sync/sync_readwritelock.cpp 258-360)

A transition system with any number of threads.

* The two semaphores (initial value and maximum 1) and the manual event (initially signalled) have
  atomic operations; `Verif.RwLock.FullModel` has the real ones, and `Full.full_refines` shows that
  this makes no difference.
* The counter of readers lives in shared memory; its loads and stores are steps of their own.
* Times are not modelled: any wait may run out of time or fail at any moment (`fail`), also the
  waits without limit, and so may every release, fire and reset.  The "remaining time" tests of lines
  272 and 312 are part of that.

Ghosts: `rd t` and `wr t` are the read locks and the write lock thread `t` has got and not yet begun
to give back, going by its calls alone.  With `free = false` a thread calls an unlock only for a lock
it has (the calls are paired); with `free = true` it may call anything.

Not modelled: `Create` (see `Verif.NamedMem`) and calls before it.
-/

namespace Verif.RwLock

/-- Where a thread is (sync_readwritelock.cpp 258-360). -/
inductive Pc where
  | idle
  /-- `ReadLock`: before the wait for the write mutex (sync_readwritelock.cpp 268) -/
  | rW
  /-- before the wait for the counter mutex (272) -/
  | rC
  /-- before resetting the event (280) -/
  | rReset
  /-- before the load of `MxRCount[0]++` (289) -/
  | rLoad
  /-- before the store of `MxRCount[0]++` (289) -/
  | rStore (v : Nat)
  /-- before releasing the counter mutex, then returning `r` (282, 292) -/
  | rRelC (r : Bool)
  /-- before releasing the write mutex, then returning `r` (274, 283, 293) -/
  | rRelW (r : Bool)
  /-- before returning `r` (276, 285, 295) -/
  | rRet (r : Bool)
  /-- `WriteLock`: before the wait for the write mutex (308) -/
  | wW
  /-- before the wait for the event (312) -/
  | wE
  /-- before releasing the write mutex, then returning false (314) -/
  | wRel
  /-- before returning `r` (316, 319) -/
  | wRet (r : Bool)
  /-- `ReadUnlock`: before the wait for the counter mutex (327) -/
  | uC
  /-- before the test of the counter (330) -/
  | uTest
  /-- before the load of `MxRCount[0]--` (330) -/
  | uLoad
  /-- before the store of `MxRCount[0]--` (330) -/
  | uStore (v : Nat)
  /-- before the test whether readers are left (339) -/
  | uZero
  /-- before firing the event (339) -/
  | uFire
  /-- before releasing the counter mutex, then returning false (333) -/
  | uBad
  /-- before returning false (335) -/
  | uBadRet
  /-- before releasing the counter mutex, then returning `r` (341, 347) -/
  | uRel (r : Bool)
  /-- before returning `r` (343, 349) -/
  | uRet (r : Bool)
  /-- `WriteUnlock`: before releasing the write mutex (357) -/
  | xRel
  /-- before returning true (359) -/
  | xRet
  deriving DecidableEq

/-- The state (sync_readwritelock.cpp 258-360). -/
structure S where
  /-- `MxPthreadWWaitMutex` has its unit -/
  wsem : Bool
  /-- `MxPthreadRCountMutex` has its unit -/
  csem : Bool
  /-- `MxPthreadRWaitEvent` is signalled -/
  ev : Bool
  /-- `MxRCount[0]` -/
  rc : Nat
  pc : Nat → Pc
  /-- ghost -/
  rd : Nat → Nat
  /-- ghost -/
  wr : Nat → Bool

/-- Calls and returns, and (ghosts) the moments at which readers and writers come and go
(sync_readwritelock.cpp 258-360). -/
inductive Label where
  | callRead (t : Nat)
  | retRead (t : Nat) (r : Bool)
  | callWrite (t : Nat)
  | retWrite (t : Nat) (r : Bool)
  | callReadUnlock (t : Nat)
  | retReadUnlock (t : Nat) (r : Bool)
  | callWriteUnlock (t : Nat)
  | retWriteUnlock (t : Nat) (r : Bool)
  | enterR (t : Nat)
  | exitR (t : Nat)
  | enterW (t : Nat)
  | exitW (t : Nat)
  deriving DecidableEq

/-- Actions (sync_readwritelock.cpp 258-360). -/
inductive Act where
  | callRead (t : Nat)
  | callWrite (t : Nat)
  | callReadUnlock (t : Nat)
  | callWriteUnlock (t : Nat)
  /-- thread `t` makes its next step -/
  | run (t : Nat)
  /-- the operation in the next step of `t` fails or times out -/
  | fail (t : Nat)

/-- A function changed at one place (sync_readwritelock.cpp 258-360). -/
def setAt {α : Type} (f : Nat → α) (o : Nat) (x : α) : Nat → α := fun i => if i = o then x else f i

/-- Thread `t` goes to `p` (sync_readwritelock.cpp 258-360). -/
def S.goto (s : S) (t : Nat) (p : Pc) : S := { s with pc := setAt s.pc t p }

/-- After `Create` (sync_readwritelock.cpp 207-256). -/
def init : S :=
  { wsem := true, csem := true, ev := true, rc := 0, pc := fun _ => .idle, rd := fun _ => 0,
    wr := fun _ => false }

/-- The return from `ReadLock` (sync_readwritelock.cpp 276, 285, 295). -/
def retRead (s : S) (t : Nat) (r : Bool) : S × List Label :=
  (({ s with rd := if r then setAt s.rd t (s.rd t + 1) else s.rd } : S).goto t .idle, [.retRead t r])

/-- The return from `WriteLock` (sync_readwritelock.cpp 316, 319). -/
def retWrite (s : S) (t : Nat) (r : Bool) : S × List Label :=
  (({ s with wr := if r then setAt s.wr t true else s.wr } : S).goto t .idle, [.retWrite t r])

/-- The next step of a thread; `none` if it cannot move now (sync_readwritelock.cpp 258-360). -/
def run (s : S) (t : Nat) : Option (S × List Label) :=
  match s.pc t with
  | .idle => none
  | .rW => if s.wsem then some (({ s with wsem := false } : S).goto t .rC, []) else none
  | .rC => if s.csem then some (({ s with csem := false } : S).goto t .rReset, []) else none
  | .rReset => some (({ s with ev := false } : S).goto t .rLoad, [])
  | .rLoad => some (s.goto t (.rStore s.rc), [])
  | .rStore v =>
    some (({ s with rc := (v + 1) % 4294967296 } : S).goto t (.rRelC true), [.enterR t])
  | .rRelC r => some (({ s with csem := true } : S).goto t (.rRelW r), [])
  | .rRelW r => some (({ s with wsem := true } : S).goto t (.rRet r), [])
  | .rRet r => some (retRead s t r)
  | .wW => if s.wsem then some (({ s with wsem := false } : S).goto t .wE, []) else none
  | .wE => if s.ev then some (s.goto t (.wRet true), [.enterW t]) else none
  | .wRel => some (({ s with wsem := true } : S).goto t (.wRet false), [])
  | .wRet r => some (retWrite s t r)
  | .uC => if s.csem then some (({ s with csem := false } : S).goto t .uTest, []) else none
  | .uTest => some (s.goto t (if s.rc ≠ 0 then .uLoad else .uBad), [])
  | .uLoad => some (s.goto t (.uStore s.rc), [])
  | .uStore v =>
    some (({ s with rc := if v = 0 then 4294967295 else v - 1 } : S).goto t .uZero, [.exitR t])
  | .uZero => some (s.goto t (if s.rc = 0 then .uFire else .uRel true), [])
  | .uFire => some (({ s with ev := true } : S).goto t (.uRel true), [])
  | .uBad => some (({ s with csem := true } : S).goto t .uBadRet, [])
  | .uBadRet => some (s.goto t .idle, [.retReadUnlock t false])
  | .uRel r => some (({ s with csem := true } : S).goto t (.uRet r), [])
  | .uRet r => some (s.goto t .idle, [.retReadUnlock t r])
  | .xRel => some (({ s with wsem := true } : S).goto t .xRet, [.exitW t])
  | .xRet => some (s.goto t .idle, [.retWriteUnlock t true])

/-- Failures and time-outs (sync_readwritelock.cpp 268, 272, 280, 308, 312, 327, 339; results of
releases are ignored everywhere). -/
def fail (s : S) (t : Nat) : Option (S × List Label) :=
  match s.pc t with
  | .rW => some (s.goto t .idle, [.retRead t false])
  | .rC => some (s.goto t (.rRelW false), [])
  | .rReset => some (s.goto t (.rRelC false), [])
  | .rRelC r => some (s.goto t (.rRelW r), [])
  | .rRelW r => some (s.goto t (.rRet r), [])
  | .wW => some (s.goto t .idle, [.retWrite t false])
  | .wE => some (s.goto t .wRel, [])
  | .wRel => some (s.goto t (.wRet false), [])
  | .uC => some (s.goto t .idle, [.retReadUnlock t false])
  | .uFire => some (s.goto t (.uRel false), [])
  | .uBad => some (s.goto t .uBadRet, [])
  | .uRel r => some (s.goto t (.uRet r), [])
  | .xRel => some (s.goto t .xRet, [.exitW t])
  | _ => none

/-- One action; `none` if it is not possible in this state (sync_readwritelock.cpp 258-360). -/
def step (free : Bool) (s : S) : Act → Option (S × List Label)
  | .callRead t => if s.pc t = .idle then some (s.goto t .rW, [.callRead t]) else none
  | .callWrite t => if s.pc t = .idle then some (s.goto t .wW, [.callWrite t]) else none
  | .callReadUnlock t =>
    if s.pc t = .idle ∧ (free = true ∨ 0 < s.rd t) then
      some (({ s with rd := setAt s.rd t (s.rd t - 1) } : S).goto t .uC, [.callReadUnlock t])
    else none
  | .callWriteUnlock t =>
    if s.pc t = .idle ∧ (free = true ∨ s.wr t = true) then
      some (({ s with wr := setAt s.wr t false } : S).goto t .xRel, [.callWriteUnlock t])
    else none
  | .run t => run s t
  | .fail t => fail s t

/-- An execution: the actions one after the other (impossible ones change nothing), with the labels
in order (sync_readwritelock.cpp 258-360). -/
def exec (free : Bool) (s : S) : List Act → S × List Label
  | [] => (s, [])
  | a :: as =>
    match step free s a with
    | none => exec free s as
    | some (s', l) => ((exec free s' as).1, l ++ (exec free s' as).2)

end Verif.RwLock
