import Verif.Base

/-!
# Model of the POSIX event (sync/sync_util.cpp 484-629)

A transition system in the style of the semaphore (see `Verif/Sem/Model.lean` for the treatment of
the pthread mutex and condition variable): any number of threads, any interleaving, spurious
wake-ups, time-outs and failing system calls.

Not modelled: destruction while in use, and the time-out arithmetic (a timed wait may end at any
time).
-/

namespace Verif.Event

/-- `INFINITE` (sync_util.h 15). -/
def infinite : Nat := 4294967295

/-- Where a thread is (sync_util.cpp 484-629). -/
inductive Pc where
  /-- outside -/
  | idle
  /-- `WaitForUnixEvent(Wait)`: before locking (sync_util.cpp 510-518) -/
  | wLock (wait : Nat)
  /-- before the first test (523) -/
  | wTest (wait : Nat)
  /-- before `MxWaiting[0]++` (532, 571) -/
  | wInc (wait : Nat)
  /-- before `pthread_cond_wait` or `pthread_cond_timedwait` (537, 577) -/
  | wEnter (wait : Nat)
  /-- blocked there -/
  | wBlocked (wait : Nat)
  /-- left the condition variable with result 0 or not, waiting for the mutex -/
  | wWoken (wait : Nat) (zero : Bool)
  /-- before `while (MxSignaled[0] == 0)` (539, 579) -/
  | wRetest (wait : Nat)
  /-- before `MxWaiting[0]--` (541, 581), `zero` is `Result2 == 0` -/
  | wDec (zero : Bool)
  /-- before `MxSignaled[0] = 0` of an automatic event (526, 546, 586) -/
  | wClear
  /-- before `pthread_mutex_unlock`, `r` is `Result` (561, 592) -/
  | wUnlock (r : Bool)
  /-- `FireUnixEvent`: before locking (599) -/
  | fLock
  /-- before `MxSignaled[0] = 1` (601) -/
  | fSet
  /-- before the broadcast or signal (604, 605) -/
  | fSignal
  /-- before `pthread_mutex_unlock` (607) -/
  | fUnlock
  /-- `ResetUnixEvent`: before the test of `MxManual[0]` (615) -/
  | tManual
  /-- before locking (616) -/
  | tLock
  /-- before `MxSignaled[0] = 0` (618) -/
  | tSet
  /-- before `pthread_mutex_unlock` (620) -/
  | tUnlock
  deriving DecidableEq

/-- The shared state and the positions of the threads (sync_util.cpp 484-506). -/
structure S where
  manual : Bool
  signaled : Bool
  waiting : Nat
  owner : Option Nat
  queue : List Nat
  pc : Nat → Pc

/-- Calls, returns, and (ghosts) the moments at which a wait passes, the event is fired or reset
(sync_util.cpp 508-623). -/
inductive Label where
  | callWait (t wait : Nat)
  | retWait (t : Nat) (r : Bool)
  | callFire (t : Nat)
  | retFire (t : Nat) (r : Bool)
  | callReset (t : Nat)
  | retReset (t : Nat) (r : Bool)
  | pass (t : Nat)
  | fire (t : Nat)
  | reset (t : Nat)
  deriving DecidableEq

/-- Actions (sync_util.cpp 508-623). -/
inductive Act where
  | callWait (t wait : Nat)
  | callFire (t : Nat)
  | callReset (t : Nat)
  /-- thread `t` makes its next step; `pick` is the thread a signal goes to -/
  | run (t pick : Nat)
  /-- the system call in the next step of `t` fails -/
  | fail (t : Nat)
  /-- `t` leaves the condition variable without a signal -/
  | wake (t : Nat) (zero : Bool)

/-- Thread `t` goes to `p` (sync_util.cpp 508-623). -/
def S.goto (s : S) (t : Nat) (p : Pc) : S := { s with pc := fun u => if u = t then p else s.pc u }

/-- `InitUnixEvent` (sync_util.cpp 484-506). -/
def init (manual signaled : Bool) : S :=
  { manual := manual, signaled := signaled, waiting := 0, owner := none, queue := []
    pc := fun _ => .idle }

/-- Blocking on the condition variable (sync_util.cpp 537, 577): the mutex must be held. -/
def block (s : S) (t wait : Nat) : CRes (Option (S × List Label)) :=
  if s.owner = some t then
    .ok (some (({ s with owner := none, queue := t :: s.queue } : S).goto t (.wBlocked wait), []))
  else .error .badUnlock

/-- Locking the mutex and going on at `p` (sync_util.cpp 508-623). -/
def lock (s : S) (t : Nat) (p : Pc) : CRes (Option (S × List Label)) :=
  match s.owner with
  | none => .ok (some (({ s with owner := some t } : S).goto t p, []))
  | some _ => .ok none

/-- Unlocking the mutex and returning (sync_util.cpp 508-623). -/
def unlock (s : S) (t : Nat) (l : Label) : CRes (Option (S × List Label)) :=
  if s.owner = some t then .ok (some (({ s with owner := none } : S).goto t .idle, [l]))
  else .error .badUnlock

/-- `pthread_cond_broadcast` (sync_util.cpp 604). -/
def wakeAll (s : S) : S :=
  { s with
    queue := []
    pc := fun u => match s.pc u with
      | .wBlocked wait => .wWoken wait true
      | p => p }

/-- `--` on a 32-bit counter (sync_util.cpp 541, 581). -/
def dec32 (n : Nat) : Nat := if n = 0 then 4294967295 else n - 1

/-- The next step of a thread; `none` if it cannot move now (sync_util.cpp 508-623). -/
def run (s : S) (t pick : Nat) : CRes (Option (S × List Label)) :=
  match s.pc t with
  | .idle => .ok none
  | .wLock wait =>
    if wait = 0 ∧ s.owner ≠ none then .ok (some (s.goto t .idle, [.retWait t false]))
    else lock s t (.wTest wait)
  | .wTest wait =>
    if s.signaled ∧ (s.manual ∨ s.waiting = 0) then
      if s.manual then .ok (some (s.goto t (.wUnlock true), [.pass t]))
      else .ok (some (s.goto t .wClear, []))
    else if wait = 0 then .ok (some (s.goto t (.wUnlock false), []))
    else .ok (some (s.goto t (.wInc wait), []))
  | .wInc wait =>
    .ok (some (({ s with waiting := (s.waiting + 1) % 4294967296 } : S).goto t (.wEnter wait), []))
  | .wEnter wait => block s t wait
  | .wBlocked _ => .ok none
  | .wWoken wait zero => lock s t (if zero then .wRetest wait else .wDec false)
  | .wRetest wait =>
    if s.signaled then .ok (some (s.goto t (.wDec true), [])) else block s t wait
  | .wDec zero =>
    let s := { s with waiting := dec32 s.waiting }
    if zero then
      if s.manual then .ok (some (s.goto t (.wUnlock true), [.pass t]))
      else .ok (some (s.goto t .wClear, []))
    else .ok (some (s.goto t (.wUnlock false), []))
  | .wClear => .ok (some (({ s with signaled := false } : S).goto t (.wUnlock true), [.pass t]))
  | .wUnlock r => unlock s t (.retWait t r)
  | .fLock => lock s t .fSet
  | .fSet => .ok (some (({ s with signaled := true } : S).goto t .fSignal, [.fire t]))
  | .fSignal =>
    if s.manual then .ok (some ((wakeAll s).goto t .fUnlock, []))
    else
      match s.queue with
      | [] => .ok (some (s.goto t .fUnlock, []))
      | _ :: _ =>
        match s.pc pick with
        | .wBlocked wait =>
          .ok (some ((({ s with queue := s.queue.erase pick } : S).goto pick
            (.wWoken wait true)).goto t .fUnlock, []))
        | _ => .ok none
  | .fUnlock => unlock s t (.retFire t true)
  | .tManual =>
    if s.manual then .ok (some (s.goto t .tLock, []))
    else .ok (some (s.goto t .idle, [.retReset t false]))
  | .tLock => lock s t .tSet
  | .tSet => .ok (some (({ s with signaled := false } : S).goto t .tUnlock, [.reset t]))
  | .tUnlock => unlock s t (.retReset t true)

/-- Failing system calls: locking (sync_util.cpp 513, 517, 599, 616) and the clock (559-564; the
mutex is unlocked then). -/
def fail (s : S) (t : Nat) : Option (S × List Label) :=
  match s.pc t with
  | .wLock _ => some (s.goto t .idle, [.retWait t false])
  | .wInc wait =>
    if wait ≠ infinite then some (s.goto t (.wUnlock false), []) else none
  | .fLock => some (s.goto t .idle, [.retFire t false])
  | .tLock => some (s.goto t .idle, [.retReset t false])
  | _ => none

/-- One action; `none` if it is not possible in this state (sync_util.cpp 508-623). -/
def step (s : S) : Act → CRes (Option (S × List Label))
  | .callWait t wait =>
    .ok (if s.pc t = .idle then some (s.goto t (.wLock wait), [.callWait t wait]) else none)
  | .callFire t => .ok (if s.pc t = .idle then some (s.goto t .fLock, [.callFire t]) else none)
  | .callReset t => .ok (if s.pc t = .idle then some (s.goto t .tManual, [.callReset t]) else none)
  | .run t pick => run s t pick
  | .fail t => .ok (fail s t)
  | .wake t zero =>
    .ok (match s.pc t with
      | .wBlocked wait =>
        some (({ s with queue := s.queue.erase t } : S).goto t (.wWoken wait zero), [])
      | _ => none)

/-- An execution: the actions one after the other (impossible ones change nothing), with the labels
in order (sync_util.cpp 508-623). -/
def exec (s : S) : List Act → CRes (S × List Label)
  | [] => .ok (s, [])
  | a :: as => do
    let r ← step s a
    match r with
    | none => exec s as
    | some (s', l) => do
      let (s'', ls) ← exec s' as
      .ok (s'', l ++ ls)

end Verif.Event
