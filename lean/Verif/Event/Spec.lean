import Verif.Event.Model

/-!
# What an event is

Only the labels of an execution are used.
-/

namespace Verif.Event.Spec

/-- The atomic event: passing needs the signal and, for an automatic event, consumes it.  `none`:
not a possible history. -/
def atomic (manual : Bool) : Bool → List Label → Option Bool
  | b, [] => some b
  | b, .pass _ :: ls => if b then atomic manual (b && manual) ls else none
  | _, .fire _ :: ls => atomic manual true ls
  | _, .reset _ :: ls => if manual then atomic manual false ls else none
  | b, _ :: ls => atomic manual b ls

/-- What a thread is doing, as far as its own calls and effects tell. -/
inductive Phase where
  | out
  | waiting
  | passed
  | firing
  | fired
  | resetting
  | reset
  deriving DecidableEq

/-- How a label of the thread moves its phase: each call has exactly the effect its result reports,
between call and return. -/
def move : Phase → Label → Option Phase
  | .out, .callWait _ _ => some .waiting
  | .waiting, .pass _ => some .passed
  | .passed, .retWait _ true => some .out
  | .waiting, .retWait _ false => some .out
  | .out, .callFire _ => some .firing
  | .firing, .fire _ => some .fired
  | .fired, .retFire _ true => some .out
  | .firing, .retFire _ false => some .out
  | .out, .callReset _ => some .resetting
  | .resetting, .reset _ => some .reset
  | .reset, .retReset _ true => some .out
  | .resetting, .retReset _ false => some .out
  | _, _ => none

/-- The thread of a label. -/
def who : Label → Nat
  | .callWait t _ => t
  | .retWait t _ => t
  | .callFire t => t
  | .retFire t _ => t
  | .callReset t => t
  | .retReset t _ => t
  | .pass t => t
  | .fire t => t
  | .reset t => t

/-- The phase of thread `t` after a history; `none` if the history is impossible for it. -/
def phase (t : Nat) : Option Phase → List Label → Option Phase
  | p, [] => p
  | p, l :: ls => phase t (if who l = t then p.bind (move · l) else p) ls

/-- Number of waits that have succeeded. -/
def waits (ls : List Label) : Nat := ls.countP fun
  | .retWait _ true => true
  | _ => false

/-- Number of fires that have been called. -/
def fires (ls : List Label) : Nat := ls.countP fun
  | .callFire _ => true
  | _ => false

end Verif.Event.Spec
