import Verif.Crash.LockModel
import Verif.Client.WinModel
import Verif.WinRwLock.Model

/-!
# Killed users on Windows

Semaphores, events and the parts of reader-writer locks are objects of the kernel, every operation on them is one step,
and all but mutexes keep their state when a thread or process that uses them ends (mutexes are in C102).  A killed thread
makes no further step.
-/

namespace Verif.Crash

/-- Whose step it is (sync_semaphore.cpp 40-59, sync_event.cpp 40-66). -/
def winWho : Client.Win.Act → Nat
  | .callWait t _ | .callFire t | .callReset t | .run t | .fail t => t

/-- The actions one after the other, impossible ones change nothing (sync_semaphore.cpp 40-59, sync_event.cpp 40-66). -/
def winExec (s : Client.Win.W) : List Client.Win.Act → CRes (Client.Win.W × List Event.Label)
  | [] => .ok (s, [])
  | a :: as => do
    match ← Client.Win.step s a with
    | none => winExec s as
    | some (s', l) => do
      let r ← winExec s' as
      .ok (r.1, l ++ r.2)

/-- A semaphore or event whose users can be killed (sync_semaphore.cpp 40-59, sync_event.cpp 40-66). -/
def winRun (s : Client.Win.W) (d : Nat → Bool) (as : List (CAct Client.Win.Act)) :
    CRes (Client.Win.W × List Event.Label) :=
  winExec s (moves winWho (fun _ => false) d as)

/-- A reader-writer lock whose users can be killed; they unlock only what they have locked
(sync_readwritelock.cpp 68-184). -/
def winRwRun (s : WinRwLock.S) (d : Nat → Bool) (as : List (CAct RwLock.Act)) : WinRwLock.S × List RwLock.Label :=
  WinRwLock.exec false s (moves RwLock.Full.actor (fun _ => false) d as)

/-- The thread has got `MxWinWWaitMutex` and has not given it back: in `ReadLock` from the wait for `MxWinRSemMutex`
to the last release, in `WriteLock` from the wait for the event to the return, and in `WriteUnlock`
(sync_readwritelock.cpp 83-112, 132-139, 181). -/
def winMidway : WinRwLock.Pc → Bool
  | .rM | .rS | .rReset | .rRelS | .rRelM _ | .rRelW _ | .wE | .wRel | .wRet true | .xRel => true
  | _ => false

/-- The thread has got `MxWinRSemMutex` in `ReadUnlock` and has not given it back
(sync_readwritelock.cpp 152-171). -/
def winLeaving : WinRwLock.Pc → Bool
  | .uRel | .uFire | .uBad | .uRelM _ => true
  | _ => false

end Verif.Crash
