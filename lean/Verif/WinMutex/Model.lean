import Verif.Mutex.Model

/-!
# Model of `Sync::Mutex`, Windows branch (sync/sync_mutex.cpp 66-126)

A transition system with any number of threads and any number of `Mutex` objects for one kernel mutex: an unnamed
mutex is one object with its own kernel mutex, the objects of a named mutex (in one process or in several) share it.

* A thread is its thread id, which is not 0; a thread that begins after the end of another one and gets its id is the
  same thread here.  `MxOwnerID` 0 (no owner) is `none`.
* The kernel mutex belongs to a thread and counts how often this thread has waited for it successfully (the limit of
  2^31 on that count is not modelled).  If its owner ends it is abandoned: the next wait succeeds, but with
  `WAIT_ABANDONED`.
* `MxWinCritSection` of an object is a cell with its owner; leaving one that is not owned is undefined behaviour.
  Entering never fails.  Accesses to `MxOwnerID` and `MxCount` are steps of their own.
* Times are not modelled: a wait may time out (or fail) at any moment, one with time limit 0 does so at once.
* A thread may end only outside of the calls.

Not modelled here: `Create`, the destructor and calls before `Create`.  Positions and labels are those of
`Verif.Mutex.Model` (lines 209-254 there are lines 68-123 here, in the same order).
-/

namespace Verif.WinMutex
open Verif.Mutex (Label Pc setAt dec32)

/-- The kernel mutex (owner, count, abandoned), the objects and the positions of the threads
(sync_mutex.cpp 66-126). -/
structure S where
  kown : Option Nat
  kcnt : Nat
  ab : Bool
  cs : Nat → Option Nat
  oid : Nat → Option Nat
  cnt : Nat → Nat
  pc : Nat → Pc

/-- Actions (sync_mutex.cpp 66-126). -/
inductive Act where
  | callLock (t o wait : Nat)
  | callUnlock (t o : Nat) (all : Bool)
  /-- thread `t` makes its next step -/
  | run (t : Nat)
  /-- the wait in the next step of `t` times out or fails, or its `ReleaseMutex` fails -/
  | fail (t : Nat)
  /-- thread `t` ends -/
  | die (t : Nat)

/-- Thread `t` goes to `p` (sync_mutex.cpp 66-126). -/
def S.goto (s : S) (t : Nat) (p : Pc) : S := { s with pc := setAt s.pc t p }

/-- After the constructor and `Create` (sync_mutex.cpp 12-15, 53). -/
def init : S :=
  { kown := none, kcnt := 0, ab := false, cs := fun _ => none, oid := fun _ => none, cnt := fun _ => 0,
    pc := fun _ => .idle }

/-- `EnterCriticalSection` (sync_mutex.cpp 68, 93, 103). -/
def enter (s : S) (t o : Nat) (p : Pc) : CRes (Option (S × List Label)) :=
  match s.cs o with
  | none => .ok (some (({ s with cs := setAt s.cs o (some t) } : S).goto t p, []))
  | some _ => .ok none

/-- `LeaveCriticalSection` (sync_mutex.cpp 82, 87, 96, 108, 123). -/
def leave (s : S) (t o : Nat) (p : Pc) (ls : List Label) : CRes (Option (S × List Label)) :=
  if s.cs o = some t then .ok (some (({ s with cs := setAt s.cs o none } : S).goto t p, ls))
  else .error .badUnlock

/-- `WaitForSingleObject` on the kernel mutex when it succeeds (sync_mutex.cpp 90): the owner and the count after. -/
def got (s : S) (t : Nat) : S := { s with kown := some t, kcnt := s.kcnt + 1, ab := false }

/-- `ReleaseMutex` (sync_mutex.cpp 120); it fails if the caller is not the owner. -/
def released (s : S) (t : Nat) : S :=
  if s.kown = some t then { s with kown := if s.kcnt = 1 then none else some t, kcnt := s.kcnt - 1 } else s

/-- The next step of a thread; `none` if it cannot move now (sync_mutex.cpp 66-126). -/
def run (s : S) (t : Nat) : CRes (Option (S × List Label)) :=
  match s.pc t with
  | .idle => .ok none
  | .lCs o wait => enter s t o (.lTest o wait)
  | .lTest o wait =>
    if s.oid o = some t then .ok (some (s.goto t (.lLoad o), []))
    else .ok (some (s.goto t (.lOut o wait), []))
  | .lLoad o => .ok (some (s.goto t (.lStore o (s.cnt o)), []))
  | .lStore o v =>
    .ok (some (({ s with cnt := setAt s.cnt o ((v + 1) % 4294967296) } : S).goto t (.lUnl o), [.again t o]))
  | .lUnl o => leave s t o .idle [.retLock t o true]
  | .lOut o wait => leave s t o (.lWait o wait) []
  | .lWait o wait =>
    if s.kown = none ∨ s.kown = some t then
      if s.ab then .ok (some ((got s t).goto t .idle, [.giveUp t o, .retLock t o false]))
      else .ok (some ((got s t).goto t (.lCs2 o), [.acquire t o]))
    else if wait = 0 then .ok (some (s.goto t .idle, [.giveUp t o, .retLock t o false]))
    else .ok none
  | .lCs2 o => enter s t o (.lOwn o)
  | .lOwn o => .ok (some (({ s with oid := setAt s.oid o (some t) } : S).goto t (.lCnt o), []))
  | .lCnt o => .ok (some (({ s with cnt := setAt s.cnt o 1 } : S).goto t (.lUnl o), []))
  | .uCs o all => enter s t o (.uTest o all)
  | .uTest o all =>
    if s.oid o ≠ some t then .ok (some (s.goto t (.uBad o all), [.refuse t o]))
    else .ok (some (s.goto t (.uAll o all), []))
  | .uBad o all => leave s t o .idle [.retUnlock t o all false]
  | .uAll o all =>
    .ok (some (({ s with cnt := if all then setAt s.cnt o 1 else s.cnt } : S).goto t (.uLoad o all), []))
  | .uLoad o all => .ok (some (s.goto t (.uStore o all (s.cnt o)), []))
  | .uStore o all v => .ok (some (({ s with cnt := setAt s.cnt o (dec32 v) } : S).goto t (.uZero o all), []))
  | .uZero o all =>
    if s.cnt o = 0 then .ok (some (s.goto t (.uOwn o all), []))
    else .ok (some (s.goto t (.uUnl o all), [.leave t o all]))
  | .uOwn o all => .ok (some (({ s with oid := setAt s.oid o none } : S).goto t (.uRel o all), []))
  | .uRel o all => .ok (some ((released s t).goto t (.uUnl o all), [.leave t o all]))
  | .uUnl o all => leave s t o .idle [.retUnlock t o all true]

/-- Failures: the wait (sync_mutex.cpp 90) and `ReleaseMutex` (120, whose result is ignored). -/
def fail (s : S) (t : Nat) : Option (S × List Label) :=
  match s.pc t with
  | .lWait o _ => some (s.goto t .idle, [.giveUp t o, .retLock t o false])
  | .uRel o all => some (s.goto t (.uUnl o all), [.leave t o all])
  | _ => none

/-- What the end of a thread does to the kernel mutex (sync_mutex.cpp 90). -/
def ended (s : S) (t : Nat) : S :=
  if s.kown = some t then { s with kown := none, kcnt := 0, ab := true } else s

/-- One action; `none` if it is not possible in this state (sync_mutex.cpp 66-126). -/
def step (s : S) : Act → CRes (Option (S × List Label))
  | .callLock t o wait =>
    .ok (if s.pc t = .idle then some (s.goto t (.lCs o wait), [.callLock t o wait]) else none)
  | .callUnlock t o all =>
    .ok (if s.pc t = .idle then some (s.goto t (.uCs o all), [.callUnlock t o all]) else none)
  | .run t => run s t
  | .fail t => .ok (fail s t)
  | .die t => .ok (if s.pc t = .idle then some (ended s t, []) else none)

/-- The action is a failure of `ReleaseMutex` (sync_mutex.cpp 120). -/
def faults (s : S) : Act → Bool
  | .fail t => match s.pc t with
    | .uRel _ _ => true
    | _ => false
  | _ => false

/-- An execution: the actions one after the other (impossible ones change nothing), with the labels
in order (sync_mutex.cpp 66-126). -/
def exec (s : S) : List Act → CRes (S × List Label)
  | [] => .ok (s, [])
  | a :: as => do
    let r ← step s a
    match r with
    | none => exec s as
    | some (s', l) => do
      let (s'', ls) ← exec s' as
      .ok (s'', l ++ ls)

end Verif.WinMutex
