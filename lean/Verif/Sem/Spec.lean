import Verif.Sem.Model

/-!
# What a counting semaphore is

Only the labels of an execution are used.
-/

namespace Verif.Sem.Spec

/-- The atomic counting semaphore: taking needs a unit; giving reports the value before and stops at
the maximum (values are 32-bit numbers).  `none`: not a possible history. -/
def atomic (max : Nat) : Nat → List Label → Option Nat
  | n, [] => some n
  | n, .take _ :: ls => if 0 < n then atomic max (n - 1) ls else none
  | n, .give _ prev :: ls =>
    if prev = n then atomic max (min max ((n + 1) % 4294967296)) ls else none
  | n, _ :: ls => atomic max n ls

/-- What a thread is doing, as far as its own calls and effects tell. -/
inductive Phase where
  | out
  | waiting
  | took
  | releasing
  | gave (prev : Nat)
  deriving DecidableEq

/-- How a label of thread `t` moves its phase: a wait that returns true took exactly one unit between
call and return, one that returns false took none; a release that returns true gave exactly once and
reports the value it found, one that returns false gave nothing. -/
def move : Phase → Label → Option Phase
  | .out, .callWait _ _ => some .waiting
  | .waiting, .take _ => some .took
  | .took, .retWait _ true => some .out
  | .waiting, .retWait _ false => some .out
  | .out, .callRelease _ => some .releasing
  | .releasing, .give _ p => some (.gave p)
  | .gave p, .retRelease _ true q => if p = q then some .out else none
  | .releasing, .retRelease _ false _ => some .out
  | _, _ => none

/-- The thread of a label. -/
def who : Label → Nat
  | .callWait t _ => t
  | .retWait t _ => t
  | .callRelease t => t
  | .retRelease t _ _ => t
  | .take t => t
  | .give t _ => t

/-- The phase of thread `t` after a history; `none` if the history is impossible for it. -/
def phase (t : Nat) : Option Phase → List Label → Option Phase
  | p, [] => p
  | p, l :: ls => phase t (if who l = t then p.bind (move · l) else p) ls

/-- Number of waits that have succeeded. -/
def waits (ls : List Label) : Nat := ls.countP fun
  | .retWait _ true => true
  | _ => false

/-- Number of releases that have been called. -/
def releases (ls : List Label) : Nat := ls.countP fun
  | .callRelease _ => true
  | _ => false

end Verif.Sem.Spec
