import Verif.Timing.Model

/-!
# Model of the clock of timed waits on macOS (sync/sync_util.cpp 63-76)

`mach_host_self` gives the task one more right to the host port at every call, `host_get_clock_service` one to the clock
port, and `mach_port_deallocate` takes one away.  `mach_timespec_t` has 32 unsigned bits for the seconds.  The answers of
the system are parameters.
-/

namespace Verif.Timing.Mac

/-- The rights of the task to the host port and to the clock port (sync_util.cpp 66-71). -/
structure Ports where
  host : Nat
  clock : Nat
  deriving DecidableEq

/-- What the system answers in one call (sync_util.cpp 69-71); `time` is the time of the calendar clock, `none`: it fails. -/
structure Answers where
  service : Bool
  time : Option Stamp
  dealloc : Bool

/-- `CSGX__ClockGetTimeRealtime`; `none`: it returns -1 (sync_util.cpp 63-76). -/
def clock (p : Ports) (a : Answers) : Option Stamp × Ports :=
  let p := { p with host := p.host + 1 }
  if !a.service then (none, p)
  else
    let p := { p with clock := p.clock + 1 }
    match a.time with
    | none => (none, p)
    | some t =>
      if !a.dealloc then (none, p)
      else (some ⟨t.sec % 4294967296, t.frac⟩, { p with clock := p.clock - 1 })

/-- The deadline of a timed wait; `none`: the wait gives up (sync_util.cpp 414-418, 559-569). -/
def deadline (p : Ports) (a : Answers) (wait : Nat) : CRes (Option Stamp × Ports) :=
  match clock p a with
  | (none, p) => .ok (none, p)
  | (some now, p) => do
    let d ← Timing.deadline now wait
    .ok (some d, p)

/-- The clock is read once after the other (sync_util.cpp 414, 559). -/
def clocks (p : Ports) : List Answers → Ports
  | [] => p
  | a :: as => clocks (clock p a).2 as

end Verif.Timing.Mac
