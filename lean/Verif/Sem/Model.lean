import Verif.Base

/-!
# Model of the POSIX semaphore (sync/sync_util.cpp 346-461)

Any number of threads (of any number of processes sharing the memory) work on one semaphore.  The
model is a transition system: an action says which thread moves and how the system calls in that
step turn out.  Every access to the shared counter is its own step, so that exclusion comes only
from the pthread mutex.

* The pthread mutex is a cell holding its owner.  Locking it is possible when it is free; unlocking
  a mutex the thread does not own is undefined behaviour.
* The condition variable is the set of threads blocked on it.  `pthread_cond_wait` releases the
  mutex and joins the set in one step.  `pthread_cond_signal` moves one thread (any) out of the set,
  if there is one; a thread may also leave it spuriously or with an error (time out).  A thread that
  left it has to take the mutex before it goes on.
* `pthread_mutex_lock` and reading the clock may fail; every failure branch of the code is there.

Not modelled: destruction while in use, and the time-out arithmetic (a timed wait may end at any
time).
-/

namespace Verif.Sem

/-- `INFINITE` (sync_util.h 15). -/
def infinite : Nat := 4294967295

/-- Where a thread is (sync_util.cpp 346-461). -/
inductive Pc where
  /-- outside -/
  | idle
  /-- `WaitForUnixSemaphore(Wait)`: before locking (sync_util.cpp 372-380) -/
  | wLock (wait : Nat)
  /-- before `if (MxCount[0])` (384) -/
  | wTest (wait : Nat)
  /-- before the store of `MxCount[0]--` (386, 401, 430), `v` is the value loaded -/
  | wDec (v : Nat)
  /-- blocked in `pthread_cond_wait` or `pthread_cond_timedwait` (395, 424) -/
  | wBlocked (wait : Nat)
  /-- left the condition variable with result 0 or not, waiting for the mutex -/
  | wWoken (wait : Nat) (zero : Bool)
  /-- before `while (!MxCount[0])` (397, 426) -/
  | wRetest (wait : Nat)
  /-- before `pthread_mutex_unlock`, `r` is `Result` (436) -/
  | wUnlock (r : Bool)
  /-- `ReleaseUnixSemaphore`: before locking (443) -/
  | rLock
  /-- before `*PrevVal = MxCount[0]` (445) -/
  | rPrev
  /-- before the load of `MxCount[0]++` (446) -/
  | rLoad (prev : Nat)
  /-- before the store of `MxCount[0]++` (446) -/
  | rStore (prev v : Nat)
  /-- before `if (MxCount[0] > MxMax[0])` (447) -/
  | rClamp (prev : Nat)
  /-- before `pthread_cond_signal` (450) -/
  | rSignal (prev : Nat)
  /-- before `pthread_mutex_unlock` (452) -/
  | rUnlock (prev : Nat)
  deriving DecidableEq

/-- The shared state and the positions of the threads (sync_util.cpp 346-461). -/
structure S where
  count : Nat
  max : Nat
  owner : Option Nat
  queue : List Nat
  pc : Nat → Pc

/-- What happens in a step: calls, returns, and the moments at which a unit is taken or given.  The
last two are ghosts used to state linearizability; nothing in the model depends on them (sync_util.cpp 346-461). -/
inductive Label where
  | callWait (t wait : Nat)
  | retWait (t : Nat) (r : Bool)
  | callRelease (t : Nat)
  /-- `prev` is `*PrevVal` -/
  | retRelease (t : Nat) (r : Bool) (prev : Nat)
  | take (t : Nat)
  | give (t prev : Nat)
  deriving DecidableEq

/-- Actions (sync_util.cpp 346-461). -/
inductive Act where
  /-- thread `t` calls `WaitForUnixSemaphore` -/
  | callWait (t wait : Nat)
  /-- thread `t` calls `ReleaseUnixSemaphore` -/
  | callRelease (t : Nat)
  /-- thread `t` makes its next step; `pick` is the thread a signal goes to -/
  | run (t pick : Nat)
  /-- the system call in the next step of `t` fails -/
  | fail (t : Nat)
  /-- `t` leaves the condition variable without a signal -/
  | wake (t : Nat) (zero : Bool)

/-- Thread `t` goes to `p` (sync_util.cpp 346-461). -/
def S.goto (s : S) (t : Nat) (p : Pc) : S := { s with pc := fun u => if u = t then p else s.pc u }

/-- `InitUnixSemaphore` (sync_util.cpp 346-368). -/
def init (start max : Nat) : S :=
  { count := if start > max then max else start
    max := max, owner := none, queue := [], pc := fun _ => .idle }

/-- Blocking on the condition variable (sync_util.cpp 395, 424): the mutex must be held. -/
def block (s : S) (t wait : Nat) : CRes (Option (S × List Label)) :=
  if s.owner = some t then
    .ok (some (({ s with owner := none, queue := t :: s.queue } : S).goto t (.wBlocked wait), []))
  else .error .badUnlock

/-- The next step of a thread; `none` if it cannot move now (sync_util.cpp 346-461). -/
def run (s : S) (t pick : Nat) : CRes (Option (S × List Label)) :=
  match s.pc t with
  | .idle => .ok none
  | .wLock wait =>
    match s.owner with
    | none => .ok (some (({ s with owner := some t } : S).goto t (.wTest wait), []))
    | some _ => .ok (if wait = 0 then some (s.goto t .idle, [.retWait t false]) else none)
  | .wTest wait =>
    if s.count ≠ 0 then .ok (some (s.goto t (.wDec s.count), []))
    else if wait = 0 then .ok (some (s.goto t (.wUnlock false), []))
    else block s t wait
  | .wDec v => .ok (some (({ s with count := v - 1 } : S).goto t (.wUnlock true), [.take t]))
  | .wBlocked _ => .ok none
  | .wWoken wait zero =>
    match s.owner with
    | none =>
      .ok (some (({ s with owner := some t } : S).goto t
        (if zero then .wRetest wait else .wUnlock false), []))
    | some _ => .ok none
  | .wRetest wait =>
    if s.count ≠ 0 then .ok (some (s.goto t (.wDec s.count), [])) else block s t wait
  | .wUnlock r =>
    if s.owner = some t then .ok (some (({ s with owner := none } : S).goto t .idle, [.retWait t r]))
    else .error .badUnlock
  | .rLock =>
    match s.owner with
    | none => .ok (some (({ s with owner := some t } : S).goto t .rPrev, []))
    | some _ => .ok none
  | .rPrev => .ok (some (s.goto t (.rLoad s.count), []))
  | .rLoad prev => .ok (some (s.goto t (.rStore prev s.count), []))
  | .rStore prev v =>
    .ok (some (({ s with count := (v + 1) % 4294967296 } : S).goto t (.rClamp prev), []))
  | .rClamp prev =>
    .ok (some (({ s with count := if s.count > s.max then s.max else s.count } : S).goto t
      (.rSignal prev), [.give t prev]))
  | .rSignal prev =>
    match s.queue with
    | [] => .ok (some (s.goto t (.rUnlock prev), []))
    | _ :: _ =>
      match s.pc pick with
      | .wBlocked wait =>
        .ok (some ((({ s with queue := s.queue.erase pick } : S).goto pick (.wWoken wait true)).goto t
          (.rUnlock prev), []))
      | _ => .ok none
  | .rUnlock prev =>
    if s.owner = some t then
      .ok (some (({ s with owner := none } : S).goto t .idle, [.retRelease t true prev]))
    else .error .badUnlock

/-- Failing system calls: locking (sync_util.cpp 375, 379, 443) and the clock (414).  The latter
returns without unlocking the mutex. -/
def fail (s : S) (t : Nat) : Option (S × List Label) :=
  match s.pc t with
  | .wLock _ => some (s.goto t .idle, [.retWait t false])
  | .wTest wait =>
    if s.count = 0 ∧ wait ≠ 0 ∧ wait ≠ infinite then some (s.goto t .idle, [.retWait t false])
    else none
  | .rLock => some (s.goto t .idle, [.retRelease t false 0])
  | _ => none

/-- One action; `none` if it is not possible in this state (sync_util.cpp 346-461). -/
def step (s : S) : Act → CRes (Option (S × List Label))
  | .callWait t wait =>
    .ok (if s.pc t = .idle then some (s.goto t (.wLock wait), [.callWait t wait]) else none)
  | .callRelease t => .ok (if s.pc t = .idle then some (s.goto t .rLock, [.callRelease t]) else none)
  | .run t pick => run s t pick
  | .fail t => .ok (fail s t)
  | .wake t zero =>
    .ok (match s.pc t with
      | .wBlocked wait =>
        some (({ s with queue := s.queue.erase t } : S).goto t (.wWoken wait zero), [])
      | _ => none)

/-- An execution: the actions one after the other (impossible ones change nothing), with the labels
in order (sync_util.cpp 346-461). -/
def exec (s : S) : List Act → CRes (S × List Label)
  | [] => .ok (s, [])
  | a :: as => do
    let r ← step s a
    match r with
    | none => exec s as
    | some (s', l) => do
      let (s'', ls) ← exec s' as
      .ok (s'', l ++ ls)

end Verif.Sem
