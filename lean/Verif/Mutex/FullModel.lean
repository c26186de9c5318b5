import Verif.Mutex.Model
import Verif.Sem.Model

/-!
# Model of `Sync::Mutex` on the real semaphore (sync/sync_mutex.cpp 207-257 over sync_util.cpp 346-461)

The mutex of `Verif.Mutex.Model` and the semaphore of `Verif.Sem.Model` run together: a thread that
comes to line 222 calls `WaitForUnixSemaphore` and moves through it step by step, one that comes to
line 251 does the same with `ReleaseUnixSemaphore`, and both go on with the result that call returns.
All steps of all threads, inside and outside the semaphore, interleave freely.  The field `sem` of
the mutex (the atomic semaphore) is not used here.
-/

namespace Verif.Mutex.Full

/-- The objects and positions of the threads in the mutex code, and the semaphore with the positions
of the threads inside it (sync_mutex.cpp 207-257 over sync_util.cpp 346-461). -/
structure S where
  m : Mutex.S
  s : Sem.S

/-- Actions (sync_mutex.cpp 207-257 over sync_util.cpp 346-461). -/
inductive Act where
  /-- a call, or a step of the mutex code that is not a semaphore operation -/
  | mutex (a : Mutex.Act)
  /-- thread `t` calls the semaphore function it is about to call (222, 251) -/
  | enter (t : Nat)
  /-- a step inside the semaphore -/
  | run (t pick : Nat)
  /-- a failing system call inside the semaphore -/
  | fail (t : Nat)
  /-- `t` leaves the condition variable without a signal -/
  | wake (t : Nat) (zero : Bool)

/-- The semaphore of a mutex: initial value and maximum 1 (sync_mutex.cpp 182, 197). -/
def init : S := { m := Mutex.init, s := Sem.init 1 1 }

/-- The thread of an action (sync_mutex.cpp 207-257 over sync_util.cpp 346-461). -/
def actor : Mutex.Act → Nat
  | .callLock t _ _ => t
  | .callUnlock t _ _ => t
  | .run t => t
  | .fail t => t

/-- Positions before a semaphore operation (sync_mutex.cpp 222, 251). -/
def atSem : Pc → Bool
  | .lWait _ _ => true
  | .uRel _ _ => true
  | _ => false

/-- What the mutex code does when something happens in the semaphore (sync_mutex.cpp 222-224,
251-254): it goes on when the call returns.  The labels `acquire` and `leave` are put where the
semaphore puts its ghosts. -/
def react (m : Mutex.S) : Sem.Label → Mutex.S × List Label
  | .take t =>
    match m.pc t with
    | .lWait o _ => (m, [.acquire t o])
    | _ => (m, [])
  | .retWait t r =>
    match m.pc t with
    | .lWait o _ =>
      if r then (m.goto t (.lCs2 o), []) else (m.goto t .idle, [.giveUp t o, .retLock t o false])
    | _ => (m, [])
  | .give t _ =>
    match m.pc t with
    | .uRel o all => (m, [.leave t o all])
    | _ => (m, [])
  | .retRelease t r _ =>
    match m.pc t with
    | .uRel o all => (m.goto t (.uUnl o all), if r then [] else [.leave t o all])
    | _ => (m, [])
  | _ => (m, [])

/-- All of them, in order (sync_mutex.cpp 207-257 over sync_util.cpp 346-461). -/
def reacts (m : Mutex.S) : List Sem.Label → Mutex.S × List Label
  | [] => (m, [])
  | l :: ls => ((reacts (react m l).1 ls).1, (react m l).2 ++ (reacts (react m l).1 ls).2)

/-- A step of the semaphore, seen from the mutex (sync_mutex.cpp 207-257 over sync_util.cpp 346-461). -/
def inSem (c : S) : Option (Sem.S × List Sem.Label) → Option (S × List Label)
  | none => none
  | some (s', ls) => some ({ m := (reacts c.m ls).1, s := s' }, (reacts c.m ls).2)

/-- A step of the mutex code outside the semaphore (sync_mutex.cpp 207-257 over sync_util.cpp 346-461). -/
def inMutex (c : S) : Option (Mutex.S × List Label) → Option (S × List Label)
  | none => none
  | some (m', ls) => some ({ m := m', s := c.s }, ls)

/-- Which semaphore function a thread calls, and with what (sync_mutex.cpp 222, 251). -/
def entry (m : Mutex.S) (t : Nat) : Option Sem.Act :=
  match m.pc t with
  | .lWait _ wait => some (.callWait t wait)
  | .uRel _ _ => some (.callRelease t)
  | _ => none

/-- One action; `none` if it is not possible in this state (sync_mutex.cpp 207-257 over sync_util.cpp 346-461). -/
def step (c : S) : Act → CRes (Option (S × List Label))
  | .mutex a =>
    if atSem (c.m.pc (actor a)) then .ok none else do
      let r ← Mutex.step c.m a
      .ok (inMutex c r)
  | .enter t =>
    match entry c.m t with
    | none => .ok none
    | some a => do
      let r ← Sem.step c.s a
      .ok (inSem c r)
  | .run t pick => do
    let r ← Sem.step c.s (.run t pick)
    .ok (inSem c r)
  | .fail t => do
    let r ← Sem.step c.s (.fail t)
    .ok (inSem c r)
  | .wake t zero => do
    let r ← Sem.step c.s (.wake t zero)
    .ok (inSem c r)

/-- An execution: the actions one after the other (impossible ones change nothing), with the labels
in order (sync_mutex.cpp 207-257 over sync_util.cpp 346-461). -/
def exec (c : S) : List Act → CRes (S × List Label)
  | [] => .ok (c, [])
  | a :: as => do
    let r ← step c a
    match r with
    | none => exec c as
    | some (c', l) => do
      let (c'', ls) ← exec c' as
      .ok (c'', l ++ ls)

end Verif.Mutex.Full
