import Verif.Base

/-!
# Model of `Sync::Mutex`, POSIX branch (sync/sync_mutex.cpp 129-257)

A transition system with any number of threads and any number of `Mutex` objects sharing one
semaphore: an unnamed mutex is one object with its own semaphore, the objects of a named mutex (one
per process, say) share the semaphore in named memory.

* `MxPthreadMutex` is the semaphore with initial value and maximum 1.  Its operations are single
  steps here; `Verif.Mutex.FullModel` has the real ones, and `Full.full_refines` shows that this makes
  no difference.
* `MxPthreadCritSection` of an object is a pthread mutex (a cell holding its owner); unlocking one
  that is not owned is undefined behaviour.  Accesses to `MxOwnerID` and `MxCount` are steps of
  their own.
* `MxOwnerID` 0 (no owner) is `none`; thread ids are assumed not to be 0.

Not modelled: `Create`, the destructor, and a failure of the second
`pthread_mutex_lock` in `Lock` (line 224, whose result the code ignores).
-/

namespace Verif.Mutex

/-- `INFINITE` (sync_util.h 16). -/
def infinite : Nat := 4294967295

/-- Where a thread is; `o` is the object it works on (sync_mutex.cpp 207-257). -/
inductive Pc where
  | idle
  /-- `Lock(Wait)`: before locking the critical section (sync_mutex.cpp 209) -/
  | lCs (o wait : Nat)
  /-- before the test of `MxOwnerID` (212) -/
  | lTest (o wait : Nat)
  /-- before the load of `MxCount++` (214) -/
  | lLoad (o : Nat)
  /-- before the store of `MxCount++` (214) -/
  | lStore (o v : Nat)
  /-- before unlocking and returning true (215, 227) -/
  | lUnl (o : Nat)
  /-- before unlocking (220) -/
  | lOut (o wait : Nat)
  /-- before `WaitForUnixSemaphore` (222) -/
  | lWait (o wait : Nat)
  /-- before locking the critical section again (224) -/
  | lCs2 (o : Nat)
  /-- before `MxOwnerID = ...` (225) -/
  | lOwn (o : Nat)
  /-- before `MxCount = 1` (226) -/
  | lCnt (o : Nat)
  /-- `Unlock(All)`: before locking the critical section (234) -/
  | uCs (o : Nat) (all : Bool)
  /-- before the test of `MxOwnerID` (237) -/
  | uTest (o : Nat) (all : Bool)
  /-- before unlocking and returning false (239) -/
  | uBad (o : Nat) (all : Bool)
  /-- before `if (All) MxCount = 1` (244) -/
  | uAll (o : Nat) (all : Bool)
  /-- before the load of `MxCount--` (245) -/
  | uLoad (o : Nat) (all : Bool)
  /-- before the store of `MxCount--` (245) -/
  | uStore (o : Nat) (all : Bool) (v : Nat)
  /-- before `if (!MxCount)` (246) -/
  | uZero (o : Nat) (all : Bool)
  /-- before `MxOwnerID = 0` (248) -/
  | uOwn (o : Nat) (all : Bool)
  /-- before `ReleaseUnixSemaphore` (251) -/
  | uRel (o : Nat) (all : Bool)
  /-- before unlocking and returning true (254) -/
  | uUnl (o : Nat) (all : Bool)
  deriving DecidableEq

/-- The semaphore (`true`: value 1), the objects and the positions of the threads. -/
structure S where
  sem : Bool
  cs : Nat → Option Nat
  oid : Nat → Option Nat
  cnt : Nat → Nat
  pc : Nat → Pc

/-- Calls and returns, failures of system calls, and (ghosts) the moments at which calls take
effect (sync_mutex.cpp 207-257). -/
inductive Label where
  | callLock (t o wait : Nat)
  | retLock (t o : Nat) (r : Bool)
  | callUnlock (t o : Nat) (all : Bool)
  | retUnlock (t o : Nat) (all r : Bool)
  /-- a system call of the thread failed -/
  | sysFail (t : Nat)
  /-- the mutex was free and is now held -/
  | acquire (t o : Nat)
  /-- the holder locks again -/
  | again (t o : Nat)
  /-- the holder unlocks (everything, if `all`) -/
  | leave (t o : Nat) (all : Bool)
  /-- an unlock is refused -/
  | refuse (t o : Nat)
  /-- a lock runs out of time -/
  | giveUp (t o : Nat)
  deriving DecidableEq

/-- Actions (sync_mutex.cpp 207-257). -/
inductive Act where
  | callLock (t o wait : Nat)
  | callUnlock (t o : Nat) (all : Bool)
  /-- thread `t` makes its next step -/
  | run (t : Nat)
  /-- the system call in the next step of `t` fails or, in the semaphore wait, times out -/
  | fail (t : Nat)

/-- Thread `t` goes to `p` (sync_mutex.cpp 207-257). -/
def S.goto (s : S) (t : Nat) (p : Pc) : S := { s with pc := fun u => if u = t then p else s.pc u }

/-- A function changed at one place (sync_mutex.cpp 207-257). -/
def setAt {α : Type} (f : Nat → α) (o : Nat) (x : α) : Nat → α := fun i => if i = o then x else f i

/-- After the constructor and `Create` (sync_mutex.cpp 129-132, 152-205). -/
def init : S :=
  { sem := true, cs := fun _ => none, oid := fun _ => none, cnt := fun _ => 0, pc := fun _ => .idle }

/-- Locking the critical section of an object (sync_mutex.cpp 207-257). -/
def lock (s : S) (t o : Nat) (p : Pc) : CRes (Option (S × List Label)) :=
  match s.cs o with
  | none => .ok (some (({ s with cs := setAt s.cs o (some t) } : S).goto t p, []))
  | some _ => .ok none

/-- Unlocking it (sync_mutex.cpp 207-257). -/
def unlock (s : S) (t o : Nat) (p : Pc) (ls : List Label) : CRes (Option (S × List Label)) :=
  if s.cs o = some t then .ok (some (({ s with cs := setAt s.cs o none } : S).goto t p, ls))
  else .error .badUnlock

/-- `--` on a 32-bit counter (sync_mutex.cpp 245). -/
def dec32 (n : Nat) : Nat := if n = 0 then 4294967295 else n - 1

/-- The next step of a thread; `none` if it cannot move now (sync_mutex.cpp 207-257). -/
def run (s : S) (t : Nat) : CRes (Option (S × List Label)) :=
  match s.pc t with
  | .idle => .ok none
  | .lCs o wait => lock s t o (.lTest o wait)
  | .lTest o wait =>
    if s.oid o = some t then .ok (some (s.goto t (.lLoad o), []))
    else .ok (some (s.goto t (.lOut o wait), []))
  | .lLoad o => .ok (some (s.goto t (.lStore o (s.cnt o)), []))
  | .lStore o v =>
    .ok (some (({ s with cnt := setAt s.cnt o ((v + 1) % 4294967296) } : S).goto t (.lUnl o),
      [.again t o]))
  | .lUnl o => unlock s t o .idle [.retLock t o true]
  | .lOut o wait => unlock s t o (.lWait o wait) []
  | .lWait o wait =>
    if s.sem then .ok (some (({ s with sem := false } : S).goto t (.lCs2 o), [.acquire t o]))
    else if wait = 0 then .ok (some (s.goto t .idle, [.giveUp t o, .retLock t o false]))
    else .ok none
  | .lCs2 o => lock s t o (.lOwn o)
  | .lOwn o => .ok (some (({ s with oid := setAt s.oid o (some t) } : S).goto t (.lCnt o), []))
  | .lCnt o => .ok (some (({ s with cnt := setAt s.cnt o 1 } : S).goto t (.lUnl o), []))
  | .uCs o all => lock s t o (.uTest o all)
  | .uTest o all =>
    if s.oid o ≠ some t then .ok (some (s.goto t (.uBad o all), [.refuse t o]))
    else .ok (some (s.goto t (.uAll o all), []))
  | .uBad o all => unlock s t o .idle [.retUnlock t o all false]
  | .uAll o all =>
    .ok (some (({ s with cnt := if all then setAt s.cnt o 1 else s.cnt } : S).goto t
      (.uLoad o all), []))
  | .uLoad o all => .ok (some (s.goto t (.uStore o all (s.cnt o)), []))
  | .uStore o all v =>
    .ok (some (({ s with cnt := setAt s.cnt o (dec32 v) } : S).goto t (.uZero o all), []))
  | .uZero o all =>
    if s.cnt o = 0 then .ok (some (s.goto t (.uOwn o all), []))
    else .ok (some (s.goto t (.uUnl o all), [.leave t o all]))
  | .uOwn o all => .ok (some (({ s with oid := setAt s.oid o none } : S).goto t (.uRel o all), []))
  | .uRel o all =>
    .ok (some (({ s with sem := true } : S).goto t (.uUnl o all), [.leave t o all]))
  | .uUnl o all => unlock s t o .idle [.retUnlock t o all true]

/-- Failures: locking the critical section (sync_mutex.cpp 209, 234), the semaphore wait (222), and
the semaphore release (251, whose result is ignored). -/
def fail (s : S) (t : Nat) : Option (S × List Label) :=
  match s.pc t with
  | .lCs o _ => some (s.goto t .idle, [.sysFail t, .retLock t o false])
  | .lWait o _ => some (s.goto t .idle, [.giveUp t o, .retLock t o false])
  | .uCs o all => some (s.goto t .idle, [.sysFail t, .retUnlock t o all false])
  | .uRel o all => some (s.goto t (.uUnl o all), [.leave t o all])
  | _ => none

/-- One action; `none` if it is not possible in this state (sync_mutex.cpp 207-257). -/
def step (s : S) : Act → CRes (Option (S × List Label))
  | .callLock t o wait =>
    .ok (if s.pc t = .idle then some (s.goto t (.lCs o wait), [.callLock t o wait]) else none)
  | .callUnlock t o all =>
    .ok (if s.pc t = .idle then some (s.goto t (.uCs o all), [.callUnlock t o all]) else none)
  | .run t => run s t
  | .fail t => .ok (fail s t)

/-- An execution: the actions one after the other (impossible ones change nothing), with the labels
in order (sync_mutex.cpp 207-257). -/
def exec (s : S) : List Act → CRes (S × List Label)
  | [] => .ok (s, [])
  | a :: as => do
    let r ← step s a
    match r with
    | none => exec s as
    | some (s', l) => do
      let (s'', ls) ← exec s' as
      .ok (s'', l ++ ls)

end Verif.Mutex
