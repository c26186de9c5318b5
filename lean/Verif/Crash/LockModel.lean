import Verif.Crash.Model
import Verif.Mutex.FullModel
import Verif.RwLock.FullModel

/-!
# Killed users of a named mutex or reader-writer lock

`Sync::Mutex` (sync/sync_mutex.cpp 152-257) and `Sync::ReadWriteLock` (sync/sync_readwritelock.cpp 190-360) on POSIX keep
semaphores and an event in the shared memory.  Whoever is killed makes no further step, neither in their code nor in that
of the objects below (sync_util.cpp 346-629).
-/

namespace Verif.Crash

/-- Whose step it is (sync_mutex.cpp 207-257). -/
def mutexWho : Mutex.Full.Act → Nat
  | .mutex a => Mutex.Full.actor a
  | .enter t | .run t _ | .fail t | .wake t _ => t

/-- Leaving the condition variable (sync_util.cpp 395, 424). -/
def mutexLeaves : Mutex.Full.Act → Bool
  | .wake _ _ => true
  | _ => false

/-- A mutex whose users can be killed (sync_mutex.cpp 207-257). -/
def mutexRun (c : Mutex.Full.S) (d : Nat → Bool) (as : List (CAct Mutex.Full.Act)) :
    CRes (Mutex.Full.S × List Mutex.Label) :=
  Mutex.Full.exec c (moves mutexWho mutexLeaves d as)

/-- Whose step it is, inside an object (sync_readwritelock.cpp 258-360). -/
def innerWho : RwLock.Full.Inner → Nat
  | .run t _ | .fail t | .wake t _ => t

/-- Leaving a condition variable (sync_util.cpp 395, 424, 537, 577). -/
def innerLeaves : RwLock.Full.Inner → Bool
  | .wake _ _ => true
  | _ => false

/-- Whose step it is (sync_readwritelock.cpp 258-360). -/
def rwWho : RwLock.Full.Act → Nat
  | .lock a => RwLock.Full.actor a
  | .enter t _ | .late t => t
  | .inW a | .inC a | .inE a => innerWho a

/-- Leaving a condition variable (sync_util.cpp 395, 424, 537, 577). -/
def rwLeaves : RwLock.Full.Act → Bool
  | .inW a | .inC a | .inE a => innerLeaves a
  | _ => false

/-- A reader-writer lock whose users can be killed; they unlock only what they have locked
(sync_readwritelock.cpp 258-360). -/
def rwRun (s : RwLock.Full.S) (d : Nat → Bool) (as : List (CAct RwLock.Full.Act)) :
    CRes (RwLock.Full.S × List RwLock.Label) :=
  RwLock.Full.exec false s (moves rwWho rwLeaves d as)

/-- The thread has got the write mutex of the lock and has not begun to give it back: in `ReadLock` from the wait for the
counter mutex to the release of it, in `WriteLock` from the wait for the readers to the return
(sync_readwritelock.cpp 272-292, 312-319). -/
def midway : RwLock.Pc → Bool
  | .rC | .rReset | .rLoad | .rStore _ | .rRelC _ | .wE | .wRet true => true
  | _ => false

end Verif.Crash
