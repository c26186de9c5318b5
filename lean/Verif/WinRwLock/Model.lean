import Verif.RwLock.Model

/-!
# Model of `Sync::ReadWriteLock`, Windows branch (sync/sync_readwritelock.cpp 68-184)

A transition system with any number of threads (of any number of processes, if the lock has a name).

* The three semaphores and the manual event are objects of the Windows kernel: every operation on them is
  one step.  `ReleaseSemaphore` fails without effect if the maximum is reached.
* Times are not modelled: any wait may run out of time or fail at any moment (`fail`), and so may
  every release, set and reset.  The "remaining time" tests of lines 83, 92 and 132 are part of that.

Labels and ghosts are those of `Verif.RwLock.Model`: `rd t` and `wr t` are the read locks and the write lock
thread `t` has got and not yet begun to give back.  With `free = false` a thread calls an unlock only
for a lock it has (the calls are paired); with `free = true` it may call anything.

Not modelled here: `Create`, the destructor and calls before `Create`.
-/

namespace Verif.WinRwLock
open Verif.RwLock (Label Act setAt)

/-- `LONG_MAX`, a 32-bit number on Windows (sync_readwritelock.cpp 55). -/
def longMax : Nat := 2147483647

/-- Where a thread is (sync_readwritelock.cpp 68-184). -/
inductive Pc where
  | idle
  /-- `ReadLock`: before the wait for `MxWinWWaitMutex` (sync_readwritelock.cpp 78) -/
  | rW
  /-- before the wait for `MxWinRSemMutex` (83) -/
  | rM
  /-- before the wait for `MxWinRSemaphore` (92) -/
  | rS
  /-- before resetting the event (101) -/
  | rReset
  /-- before releasing `MxWinRSemaphore`, the lock has failed (103) -/
  | rRelS
  /-- before releasing `MxWinRSemMutex`, then returning `r` (94, 104, 111) -/
  | rRelM (r : Bool)
  /-- before releasing `MxWinWWaitMutex`, then returning `r` (85, 95, 105, 112) -/
  | rRelW (r : Bool)
  /-- before returning `r` (87, 97, 107, 114) -/
  | rRet (r : Bool)
  /-- `WriteLock`: before the wait for `MxWinWWaitMutex` (127) -/
  | wW
  /-- before the wait for the event (132) -/
  | wE
  /-- before releasing `MxWinWWaitMutex`, then returning false (134) -/
  | wRel
  /-- before returning `r` (136, 139) -/
  | wRet (r : Bool)
  /-- `ReadUnlock`: before the wait for `MxWinRSemMutex` (147) -/
  | uM
  /-- before releasing `MxWinRSemaphore` (152) -/
  | uRel
  /-- before setting the event (162) -/
  | uFire
  /-- before releasing `MxWinRSemMutex`, then returning false (154) -/
  | uBad
  /-- before returning false (156) -/
  | uBadRet
  /-- before releasing `MxWinRSemMutex`, then returning `r` (164, 171) -/
  | uRelM (r : Bool)
  /-- before returning `r` (166, 173) -/
  | uRet (r : Bool)
  /-- `WriteUnlock`: before releasing `MxWinWWaitMutex` (181) -/
  | xRel
  /-- before returning true (183) -/
  | xRet
  deriving DecidableEq

/-- The state (sync_readwritelock.cpp 68-184). -/
structure S where
  /-- `MxWinWWaitMutex` has its unit -/
  wsem : Bool
  /-- `MxWinRSemMutex` has its unit -/
  msem : Bool
  /-- the count of `MxWinRSemaphore` -/
  rsem : Nat
  /-- `MxWinRWaitEvent` is signalled -/
  ev : Bool
  pc : Nat → Pc
  /-- ghost -/
  rd : Nat → Nat
  /-- ghost -/
  wr : Nat → Bool

/-- Thread `t` goes to `p` (sync_readwritelock.cpp 68-184). -/
def S.goto (s : S) (t : Nat) (p : Pc) : S := { s with pc := setAt s.pc t p }

/-- After `Create` (sync_readwritelock.cpp 51-59). -/
def init : S :=
  { wsem := true, msem := true, rsem := longMax, ev := true, pc := fun _ => .idle, rd := fun _ => 0,
    wr := fun _ => false }

/-- The return from `ReadLock` (sync_readwritelock.cpp 87, 97, 107, 114). -/
def retRead (s : S) (t : Nat) (r : Bool) : S × List Label :=
  (({ s with rd := if r then setAt s.rd t (s.rd t + 1) else s.rd } : S).goto t .idle, [.retRead t r])

/-- The return from `WriteLock` (sync_readwritelock.cpp 136, 139). -/
def retWrite (s : S) (t : Nat) (r : Bool) : S × List Label :=
  (({ s with wr := if r then setAt s.wr t true else s.wr } : S).goto t .idle, [.retWrite t r])

/-- The next step of a thread; `none` if it cannot move now (sync_readwritelock.cpp 68-184). -/
def run (s : S) (t : Nat) : Option (S × List Label) :=
  match s.pc t with
  | .idle => none
  | .rW => if s.wsem then some (({ s with wsem := false } : S).goto t .rM, []) else none
  | .rM => if s.msem then some (({ s with msem := false } : S).goto t .rS, []) else none
  | .rS => if 0 < s.rsem then some (({ s with rsem := s.rsem - 1 } : S).goto t .rReset, []) else none
  | .rReset => some (({ s with ev := false } : S).goto t (.rRelM true), [.enterR t])
  | .rRelS =>
    some (({ s with rsem := if s.rsem < longMax then s.rsem + 1 else s.rsem } : S).goto t (.rRelM false), [])
  | .rRelM r => some (({ s with msem := true } : S).goto t (.rRelW r), [])
  | .rRelW r => some (({ s with wsem := true } : S).goto t (.rRet r), [])
  | .rRet r => some (retRead s t r)
  | .wW => if s.wsem then some (({ s with wsem := false } : S).goto t .wE, []) else none
  | .wE => if s.ev then some (s.goto t (.wRet true), [.enterW t]) else none
  | .wRel => some (({ s with wsem := true } : S).goto t (.wRet false), [])
  | .wRet r => some (retWrite s t r)
  | .uM => if s.msem then some (({ s with msem := false } : S).goto t .uRel, []) else none
  | .uRel =>
    if s.rsem < longMax then
      some (({ s with rsem := s.rsem + 1 } : S).goto t (if s.rsem = longMax - 1 then .uFire else .uRelM true),
        [.exitR t])
    else some (s.goto t .uBad, [])
  | .uFire => some (({ s with ev := true } : S).goto t (.uRelM true), [])
  | .uBad => some (({ s with msem := true } : S).goto t .uBadRet, [])
  | .uBadRet => some (s.goto t .idle, [.retReadUnlock t false])
  | .uRelM r => some (({ s with msem := true } : S).goto t (.uRet r), [])
  | .uRet r => some (s.goto t .idle, [.retReadUnlock t r])
  | .xRel => some (({ s with wsem := true } : S).goto t .xRet, [.exitW t])
  | .xRet => some (s.goto t .idle, [.retWriteUnlock t true])

/-- Failures and time-outs (sync_readwritelock.cpp 78, 83, 92, 101, 127, 132, 147, 152, 162; results of
other releases are ignored). -/
def fail (s : S) (t : Nat) : Option (S × List Label) :=
  match s.pc t with
  | .rW => some (s.goto t .idle, [.retRead t false])
  | .rM => some (s.goto t (.rRelW false), [])
  | .rS => some (s.goto t (.rRelM false), [])
  | .rReset => some (s.goto t .rRelS, [])
  | .rRelS => some (s.goto t (.rRelM false), [])
  | .rRelM r => some (s.goto t (.rRelW r), [])
  | .rRelW r => some (s.goto t (.rRet r), [])
  | .wW => some (s.goto t .idle, [.retWrite t false])
  | .wE => some (s.goto t .wRel, [])
  | .wRel => some (s.goto t (.wRet false), [])
  | .uM => some (s.goto t .idle, [.retReadUnlock t false])
  | .uRel => some (s.goto t .uBad, [])
  | .uFire => some (s.goto t (.uRelM false), [])
  | .uBad => some (s.goto t .uBadRet, [])
  | .uRelM r => some (s.goto t (.uRet r), [])
  | .xRel => some (s.goto t .xRet, [.exitW t])
  | _ => none

/-- One action; `none` if it is not possible in this state (sync_readwritelock.cpp 68-184). -/
def step (free : Bool) (s : S) : Act → Option (S × List Label)
  | .callRead t => if s.pc t = .idle then some (s.goto t .rW, [.callRead t]) else none
  | .callWrite t => if s.pc t = .idle then some (s.goto t .wW, [.callWrite t]) else none
  | .callReadUnlock t =>
    if s.pc t = .idle ∧ (free = true ∨ 0 < s.rd t) then
      some (({ s with rd := setAt s.rd t (s.rd t - 1) } : S).goto t .uM, [.callReadUnlock t])
    else none
  | .callWriteUnlock t =>
    if s.pc t = .idle ∧ (free = true ∨ s.wr t = true) then
      some (({ s with wr := setAt s.wr t false } : S).goto t .xRel, [.callWriteUnlock t])
    else none
  | .run t => run s t
  | .fail t => fail s t

/-- The action is the failure of a system call other than a wait that may time out and the reset of the event
(sync_readwritelock.cpp 68-184; line 147 waits without limit). -/
def faults (s : S) : Act → Bool
  | .fail t =>
    match s.pc t with
    | .rW | .rM | .rS | .rReset | .wW | .wE => false
    | _ => true
  | _ => false

/-- An execution: the actions one after the other (impossible ones change nothing), with the labels
in order (sync_readwritelock.cpp 68-184). -/
def exec (free : Bool) (s : S) : List Act → S × List Label
  | [] => (s, [])
  | a :: as =>
    match step free s a with
    | none => exec free s as
    | some (s', l) => ((exec free s' as).1, l ++ (exec free s' as).2)

end Verif.WinRwLock
