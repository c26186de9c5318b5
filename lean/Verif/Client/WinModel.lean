import Verif.Client.EventModel

/-!
# `Sync::Semaphore` and `Sync::Event` on Windows, for programs with many threads

One object of the kernel, a semaphore (sync/sync_semaphore.cpp 12-59) or an event (sync/sync_event.cpp 12-66), with any
number of threads that call it, through one `Semaphore` or `Event` or through several that share a name.  A call is three
steps: it is made, the kernel does its work at one moment, and it returns.  Between them the other threads may do anything.

* The wait of a call may time out or fail at any moment; one with time limit 0 does so at once if there is nothing to take.
  `ReleaseSemaphore`, `SetEvent` and `ResetEvent` may fail.
* Labels are those of `Verif.Event.Model`: `Unlock` of a semaphore is a fire.

Not modelled here: `Create` and the destructor (they are in `Verif.WinSync.Model`), calls before `Create`, and
`*PrevCount`.
-/

namespace Verif.Client.Win

open Verif.Event (Label)

/-- A semaphore with its maximum, or an event (sync_semaphore.cpp 33, sync_event.cpp 33). -/
inductive Kind where
  | sem (max : Nat)
  | event (manual : Bool)

/-- Where a thread is (sync_semaphore.cpp 40-59, sync_event.cpp 40-66). -/
inductive Pc where
  | idle
  /-- before or in `WaitForSingleObject` (sync_semaphore.cpp 44, sync_event.cpp 44) -/
  | wait (limit : Nat)
  /-- after it; `r`: the result was `WAIT_OBJECT_0` -/
  | waited (r : Bool)
  /-- before `ReleaseSemaphore` or `SetEvent` (sync_semaphore.cpp 55, sync_event.cpp 54) -/
  | signal
  /-- after it, with its result -/
  | signaled (r : Bool)
  /-- before `ResetEvent` (sync_event.cpp 63) -/
  | reset
  /-- after it, with its result -/
  | cleared (r : Bool)
  deriving DecidableEq

/-- The object of the kernel (an event is signalled if `val` is not 0) and the positions of the threads
(sync_semaphore.cpp 33, sync_event.cpp 33). -/
structure W where
  kind : Kind
  val : Nat
  pc : Nat → Pc

/-- Actions (sync_semaphore.cpp 40-59, sync_event.cpp 40-66). -/
inductive Act where
  | callWait (t limit : Nat)
  | callFire (t : Nat)
  | callReset (t : Nat)
  /-- thread `t` makes its next step -/
  | run (t : Nat)
  /-- the system call in the next step of `t` fails or times out -/
  | fail (t : Nat)

/-- After `Semaphore::Create(Name, n)` (sync_semaphore.cpp 33): `n` is the value and the maximum. -/
def sem (n : Nat) : W := ⟨.sem n, n, fun _ => .idle⟩

/-- After `Event::Create(Name, manual, prefire)` (sync_event.cpp 33). -/
def event (manual prefire : Bool) : W := ⟨.event manual, prefire.toNat, fun _ => .idle⟩

/-- Thread `t` goes to `p` (sync_semaphore.cpp 40-59, sync_event.cpp 40-66). -/
def W.goto (s : W) (t : Nat) (p : Pc) : W := { s with pc := put s.pc t p }

/-- What is left after a successful wait (sync_semaphore.cpp 44, sync_event.cpp 44). -/
def left (k : Kind) (n : Nat) : Nat :=
  match k with
  | .event true => n
  | _ => n - 1

/-- The value after `ReleaseSemaphore` or `SetEvent`; `none`: it fails, the semaphore is at its maximum
(sync_semaphore.cpp 55, sync_event.cpp 54). -/
def raised (k : Kind) (n : Nat) : Option Nat :=
  match k with
  | .sem max => if n < max then some (n + 1) else none
  | .event _ => some 1

/-- The next step of a thread; `none` if it cannot move now (sync_semaphore.cpp 40-59, sync_event.cpp 40-66). -/
def run (s : W) (t : Nat) : Option (W × List Label) :=
  match s.pc t with
  | .idle => none
  | .wait limit =>
    if s.val = 0 then if limit = 0 then some (s.goto t (.waited false), []) else none
    else some (({ s with val := left s.kind s.val } : W).goto t (.waited true), [.pass t])
  | .waited r => some (s.goto t .idle, [.retWait t r])
  | .signal =>
    match raised s.kind s.val with
    | some n => some (({ s with val := n } : W).goto t (.signaled true), [.fire t])
    | none => some (s.goto t (.signaled false), [])
  | .signaled r => some (s.goto t .idle, [.retFire t r])
  | .reset => some (({ s with val := 0 } : W).goto t (.cleared true), [.reset t])
  | .cleared r => some (s.goto t .idle, [.retReset t r])

/-- A wait times out, a system call fails (sync_semaphore.cpp 45, 55, sync_event.cpp 45, 54, 63). -/
def fail (s : W) (t : Nat) : Option (W × List Label) :=
  match s.pc t with
  | .wait _ => some (s.goto t (.waited false), [])
  | .signal => some (s.goto t (.signaled false), [])
  | .reset => some (s.goto t (.cleared false), [])
  | _ => none

/-- One action; `none` if it is not possible now.  A semaphore has no `Reset`
(sync_semaphore.cpp 40-59, sync_event.cpp 40-66). -/
def step (s : W) : Act → CRes (Option (W × List Label))
  | .callWait t limit => .ok (if s.pc t = .idle then some (s.goto t (.wait limit), [.callWait t limit]) else none)
  | .callFire t => .ok (if s.pc t = .idle then some (s.goto t .signal, [.callFire t]) else none)
  | .callReset t =>
    match s.kind with
    | .sem _ => .ok none
    | .event _ => .ok (if s.pc t = .idle then some (s.goto t .reset, [.callReset t]) else none)
  | .run t => .ok (run s t)
  | .fail t => .ok (fail s t)

end Verif.Client.Win
