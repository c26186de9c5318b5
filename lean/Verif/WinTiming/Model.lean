import Verif.Timing.Model

/-!
# Model of the time arithmetic of the sync classes, Windows branch

* `Util::GetUnixMicrosecondTime` (sync/sync_util.cpp 46-60, the same in environment/environment_appinfo.cpp);
* how long `ReadWriteLock::ReadLock` and `WriteLock` wait (sync/sync_readwritelock.cpp 68-140).

One call is followed from its beginning, with a count of the microseconds since then.  Only the waits take time.  What other threads do is in the
answers of the waits; what the objects then hold is in `Verif.WinRwLock`.
-/

namespace Verif.WinTiming
open Verif.Timing (infinite u64)

/-- `GetUnixMicrosecondTime` (sync/sync_util.cpp 46-60) for a `FILETIME` with these halves. -/
def micros (high low : Nat) : Nat := u64 (((high * 4294967296 + low) / 10 : Nat) - 11644473600000000)

/-- The objects a lock call waits for (sync_readwritelock.cpp 78, 83, 92, 127, 132). -/
inductive Obj where
  | wmutex
  | smutex
  | sem
  | event
  deriving DecidableEq

/-- The system as one call sees it (sync_readwritelock.cpp 68-140): `clock e` is what `GetUnixMicrosecondTime` returns `e` microseconds after
the beginning of the call; `wait o l e` says whether a wait for `o` with limit `l` that begins then gets the object, and after how many
microseconds it returns; `reset` whether `ResetEvent` succeeds. -/
structure Sys where
  clock : Nat → Nat
  wait : Obj → Nat → Nat → Bool × Nat
  reset : Bool

/-- The value of `StartTime` and of `CurrTime` (sync_readwritelock.cpp 75, 82, 91, 124, 131). -/
def seconds (S : Sys) (wait e : Nat) : Nat := if wait = infinite then 0 else S.clock e / 1000000

/-- A wait with the time left (sync_readwritelock.cpp 82-83, 91-92, 131-132): whether it got the object, and when it returned. -/
def next (S : Sys) (wait start : Nat) (o : Obj) (e : Nat) : Bool × Nat :=
  let d := u64 ((seconds S wait e : Int) - start)
  if wait < d then (false, e)
  else
    let r := S.wait o (((wait : Int) - d) % 4294967296).toNat e
    (r.1, e + r.2)

/-- What follows a wait if it got the object; otherwise the call returns false (sync_readwritelock.cpp 79, 83-88, 92-98, 128, 132-137). -/
def andThen (r : Bool × Nat) (f : Nat → Bool × Nat) : Bool × Nat := if r.1 then f r.2 else (false, r.2)

/-- `ReadLock` (sync_readwritelock.cpp 68-115): the result, and how long it took. -/
def readLock (S : Sys) (wait : Nat) : Bool × Nat :=
  andThen (S.wait .wmutex wait 0) fun e =>
    andThen (next S wait (seconds S wait 0) .smutex e) fun e =>
      andThen (next S wait (seconds S wait 0) .sem e) fun e => (S.reset, e)

/-- `WriteLock` (sync_readwritelock.cpp 117-140): the result, and how long it took. -/
def writeLock (S : Sys) (wait : Nat) : Bool × Nat :=
  andThen (S.wait .wmutex wait 0) fun e =>
    andThen (next S wait (seconds S wait 0) .event e) fun e => (true, e)

end Verif.WinTiming
