import Verif.Event.Spec

/-!
# What a semaphore and an event are

Only the labels of an execution are used; the release of a semaphore is a fire.
-/

namespace Verif.Crash.Spec

open Verif.Event (Label)

/-- The atomic semaphore with at most `max` units.  `none`: not a possible history. -/
def units (max : Nat) : Nat → List Label → Option Nat
  | n, [] => some n
  | n, .pass _ :: ls => if 0 < n then units max (n - 1) ls else none
  | n, .fire _ :: ls => if n < max then units max (n + 1) ls else none
  | _, .reset _ :: _ => none
  | n, _ :: ls => units max n ls

/-- The atomic event: passing needs the signal and, for an automatic event, consumes it; both kinds can be reset. -/
def signal (manual : Bool) : Bool → List Label → Option Bool
  | b, [] => some b
  | b, .pass _ :: ls => if b then signal manual manual ls else none
  | _, .fire _ :: ls => signal manual true ls
  | _, .reset _ :: ls => signal manual false ls
  | b, _ :: ls => signal manual b ls

end Verif.Crash.Spec
