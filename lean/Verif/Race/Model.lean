import Verif.Race.Spec
import Verif.Mutex.FullModel
import Verif.RwLock.FullModel
import Verif.WinMutex.Model

/-!
# The accesses to plain variables in the synchronisation objects

What the next step of a thread reads and writes, without the operations on pthread objects (mutexes and condition
variables), on kernel objects and on critical sections, which synchronise.

The variables are `MxCount[0]`, `MxMax[0]` of a semaphore, `MxManual[0]`, `MxSignaled[0]`, `MxWaiting[0]` of an event,
`MxOwnerID`, `MxCount` of each `Mutex` object and `MxRCount[0]` of a read-write lock.  They are different
memory locations (sync_util.cpp 350-354, 488-494: two `volatile char` side by side are two memory locations).

Pointers to them (`MxCount`, `MxMax`, ... themselves) are written by `Create` only, before other threads have the object.
-/

namespace Verif.Race

/-- A read (sync_util.cpp 370-623). -/
def rd {L : Type} (x : L) : Access L := ⟨x, false⟩

/-- A write (sync_util.cpp 370-623). -/
def wt {L : Type} (x : L) : Access L := ⟨x, true⟩

/-- The variables of a semaphore (sync_util.cpp 346-368). -/
inductive SemLoc where
  | count
  | max
  deriving DecidableEq

/-- The accesses in `WaitForUnixSemaphore` and `ReleaseUnixSemaphore`
(sync_util.cpp 382-384, 397-399, 426-428, 445-448). -/
def semAcc : Sem.Pc → List (Access SemLoc)
  | .wTest _ | .wRetest _ | .rPrev | .rLoad _ => [rd .count]
  | .wDec _ | .rStore _ _ => [wt .count]
  | .rClamp _ => [rd .count, rd .max, wt .count]
  | _ => []

/-- The variables of an event (sync_util.cpp 484-506). -/
inductive EvLoc where
  | manual
  | signaled
  | waiting
  deriving DecidableEq

/-- The accesses in `WaitForUnixEvent`, `FireUnixEvent` and `ResetUnixEvent`; line 615 is
outside of the lock (sync_util.cpp 520-526, 531-546, 569-586, 601-605, 615-618). -/
def evAcc : Event.Pc → List (Access EvLoc)
  | .wTest _ => [rd .signaled, rd .manual, rd .waiting]
  | .wInc _ => [rd .waiting, wt .waiting]
  | .wRetest _ => [rd .signaled]
  | .wDec _ => [rd .waiting, wt .waiting, rd .manual]
  | .wClear | .fSet | .tSet => [wt .signaled]
  | .fSignal | .tManual => [rd .manual]
  | _ => []

/-- The variables of the objects of a mutex (sync_mutex.cpp 129-132). -/
inductive MxLoc where
  | oid (o : Nat)
  | cnt (o : Nat)
  deriving DecidableEq

/-- The accesses in `Lock` and `Unlock` (sync_mutex.cpp 212-214, 225-226, 237, 244-248; the same in
the Windows branch, 71-74, 94-95, 106, 113-117). -/
def mxAcc : Mutex.Pc → List (Access MxLoc)
  | .lTest o _ | .uTest o _ => [rd (.oid o)]
  | .lLoad o | .uLoad o _ | .uZero o _ => [rd (.cnt o)]
  | .lStore o _ | .lCnt o | .uStore o _ _ => [wt (.cnt o)]
  | .uAll o all => if all then [wt (.cnt o)] else []
  | .lOwn o | .uOwn o _ => [wt (.oid o)]
  | _ => []

/-- The accesses in the code of the read-write lock to `MxRCount[0]`, its only variable
(sync_readwritelock.cpp 289, 330, 339). -/
def rwAcc : RwLock.Pc → List (Access Unit)
  | .rLoad | .uTest | .uLoad | .uZero => [rd ()]
  | .rStore _ | .uStore _ => [wt ()]
  | _ => []

/-- Accesses seen as accesses to variables of a part of a larger object (sync_mutex.cpp 134-150,
sync_readwritelock.cpp 187-205). -/
def part {L M : Type} (f : L → M) (as : List (Access L)) : List (Access M) := as.map fun a => ⟨f a.loc, a.write⟩

/-- The variables of a mutex: those of its objects and of its semaphore (sync_mutex.cpp 129-205). -/
inductive MutexLoc where
  | obj (x : MxLoc)
  | sem (x : SemLoc)
  deriving DecidableEq

/-- What a thread in a `Mutex` call is about to access (sync_mutex.cpp 207-257 over sync_util.cpp 346-461). -/
def mutexAcc (c : Mutex.Full.S) (t : Nat) : List (Access MutexLoc) :=
  part .obj (mxAcc (c.m.pc t)) ++ part .sem (semAcc (c.s.pc t))

/-- The variables of a read-write lock: its counter, those of the write mutex, of the counter mutex and
of the event (sync_readwritelock.cpp 207-256). -/
inductive RwLoc where
  | rc
  | w (x : SemLoc)
  | c (x : SemLoc)
  | e (x : EvLoc)
  deriving DecidableEq

/-- What a thread in a `ReadWriteLock` call is about to access (sync_readwritelock.cpp 258-360 over
sync_util.cpp 346-629). -/
def rwlockAcc (s : RwLock.Full.S) (t : Nat) : List (Access RwLoc) :=
  part (fun _ => .rc) (rwAcc (s.l.pc t)) ++ part .w (semAcc (s.w.pc t)) ++ part .c (semAcc (s.c.pc t)) ++
    part .e (evAcc (s.e.pc t))

/-! ## Values of the variables, to say what an access is -/

/-- The value of a variable of a semaphore (sync_util.cpp 346-368). -/
def semGet (s : Sem.S) : SemLoc → Nat
  | .count => s.count
  | .max => s.max

/-- The same state with another value in a variable (sync_util.cpp 346-368). -/
def semSet (s : Sem.S) (v : Nat) : SemLoc → Sem.S
  | .count => { s with count := v }
  | .max => { s with max := v }

/-- The type of a variable of an event (sync_util.cpp 488-494). -/
def EvLoc.ty : EvLoc → Type
  | .manual => Bool
  | .signaled => Bool
  | .waiting => Nat

/-- The value of a variable of an event (sync_util.cpp 484-506). -/
def evGet (s : Event.S) : (x : EvLoc) → x.ty
  | .manual => s.manual
  | .signaled => s.signaled
  | .waiting => s.waiting

/-- The same state with another value in a variable (sync_util.cpp 484-506). -/
def evSet (s : Event.S) : (x : EvLoc) → x.ty → Event.S
  | .manual, v => { s with manual := v }
  | .signaled, v => { s with signaled := v }
  | .waiting, v => { s with waiting := v }

/-- The type of a variable of a mutex (sync_mutex.h 58). -/
def MxLoc.ty : MxLoc → Type
  | .oid _ => Option Nat
  | .cnt _ => Nat

/-- The value of a variable of a mutex (sync_mutex.cpp 129-132). -/
def mxGet (s : Mutex.S) : (x : MxLoc) → x.ty
  | .oid o => s.oid o
  | .cnt o => s.cnt o

/-- The same state with another value in a variable (sync_mutex.cpp 129-132). -/
def mxSet (s : Mutex.S) : (x : MxLoc) → x.ty → Mutex.S
  | .oid o, v => { s with oid := Mutex.setAt s.oid o v }
  | .cnt o, v => { s with cnt := Mutex.setAt s.cnt o v }

/-- The value of a variable of a mutex, Windows branch (sync_mutex.cpp 12-15). -/
def wmGet (s : WinMutex.S) : (x : MxLoc) → x.ty
  | .oid o => s.oid o
  | .cnt o => s.cnt o

/-- The same state with another value in a variable (sync_mutex.cpp 12-15). -/
def wmSet (s : WinMutex.S) : (x : MxLoc) → x.ty → WinMutex.S
  | .oid o, v => { s with oid := Mutex.setAt s.oid o v }
  | .cnt o, v => { s with cnt := Mutex.setAt s.cnt o v }

/-- What a step gives, with the state changed afterwards (sync_util.cpp 346-623). -/
def after {S L : Type} (f : S → S) : CRes (Option (S × L)) → CRes (Option (S × L))
  | .error e => .error e
  | .ok none => .ok none
  | .ok (some (s, l)) => .ok (some (f s, l))

/-- The thread of an action (sync_util.cpp 346-461). -/
def semWho : Sem.Act → Nat
  | .callWait t _ => t
  | .callRelease t => t
  | .run t _ => t
  | .fail t => t
  | .wake t _ => t

/-- The thread of an action (sync_util.cpp 484-623). -/
def evWho : Event.Act → Nat
  | .callWait t _ => t
  | .callFire t => t
  | .callReset t => t
  | .run t _ => t
  | .fail t => t
  | .wake t _ => t

/-- The thread of an action (sync_mutex.cpp 66-126). -/
def wmWho : WinMutex.Act → Nat
  | .callLock t _ _ => t
  | .callUnlock t _ _ => t
  | .run t => t
  | .fail t => t
  | .die t => t

/-! ## The second lock in `Lock`, whose result is not tested -/

/-- The second `pthread_mutex_lock` in `Lock` fails and the call goes on without the lock
(sync_mutex.cpp 224). -/
def goOn (s : Mutex.S) (t : Nat) : Mutex.S :=
  match s.pc t with
  | .lCs2 o => s.goto t (.lOwn o)
  | _ => s

end Verif.Race
