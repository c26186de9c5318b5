import Verif.Base

/-!
# Model of the time arithmetic of the sync classes, POSIX branch

* `Util::GetUnixMicrosecondTime` (sync/sync_util.cpp 88-95, the same in environment/environment_appinfo.cpp 54-61);
* the deadline of a timed wait (sync/sync_util.cpp 412-418 for semaphores, 557-569 for events);
* the time left for the second wait in `ReadWriteLock::ReadLock` and `WriteLock`
  (sync/sync_readwritelock.cpp 258-276, 298-317).

`time_t` and `long` have 64 bits.  The readings of the clock are parameters.  What the waits do with
their limits is in `Verif.Sem`, `Verif.Event` and `Verif.RwLock`.
-/

namespace Verif.Timing

/-- `INFINITE` (sync/sync_util.h 16). -/
def infinite : Nat := 0xFFFFFFFF

/-- `struct timespec`, `struct timeval` (sync_util.cpp 88-95, 412-418). -/
structure Stamp where
  sec : Int
  frac : Int
  deriving DecidableEq

/-- A result of signed 64-bit arithmetic. -/
def long (i : Int) : CRes Int :=
  if -9223372036854775808 ≤ i ∧ i ≤ 9223372036854775807 then .ok i else .error .signedOverflow

/-- A conversion to `uint64_t`. -/
def u64 (i : Int) : Nat := (i % 18446744073709551616).toNat

/-- `GetUnixMicrosecondTime` (sync/sync_util.cpp 88-95); `none`: gettimeofday fails. -/
def micros : Option Stamp → Nat
  | none => 0
  | some t =>
    (u64 t.sec * 1000000 % 18446744073709551616 + u64 t.frac) % 18446744073709551616

/-- The deadline of a timed wait that begins at `now` (sync/sync_util.cpp 415-418, 566-569).  The
product in line 416 is computed in `uint32_t`. -/
def deadline (now : Stamp) (wait : Nat) : CRes Stamp := do
  let sec ← long (now.sec + (wait / 1000 : Nat))
  let nsec ← long (now.frac + (wait % 1000 * 1000000 % 4294967296 : Nat))
  let sec ← long (sec + nsec.tdiv 1000000000)
  .ok ⟨sec, nsec.tmod 1000000000⟩

/-- The time left for the second wait: `none` if the lock gives up without trying.  `t0` and `t1`
are the two results of `GetUnixMicrosecondTime` (sync_readwritelock.cpp 265, 271-272 and 305, 311-312). -/
def left (wait t0 t1 : Nat) : Option Nat :=
  let start := if wait = infinite then 0 else t0 / 1000000
  let curr := if wait = infinite then 0 else t1 / 1000000
  let d := (curr + 18446744073709551616 - start) % 18446744073709551616
  if wait < d then none else some ((wait - d) % 4294967296)

end Verif.Timing
