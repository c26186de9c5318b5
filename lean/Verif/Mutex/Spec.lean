import Verif.Mutex.Model

/-!
# What a re-entrant mutex is

Only the labels of an execution are used.  A holder is a thread together with the object through
which it locked.
-/

namespace Verif.Mutex.Spec

/-- The state of the mutex: nobody, or thread and object of the holder and how often it has locked. -/
abbrev Holder := Option (Nat × Nat × Nat)

def isHolder (t o : Nat) : Holder → Bool
  | some (t', o', _) => t' = t && o' = o
  | none => false

/-- The atomic re-entrant mutex; `none`: not possible in this state. -/
def effect (h : Holder) : Label → Option Holder
  | .acquire t o => if h = none then some (some (t, o, 1)) else none
  | .again t o => if isHolder t o h then some (h.map fun x => (t, o, x.2.2 + 1)) else none
  | .leave t o all =>
    if isHolder t o h then
      some (h.bind fun x => if all ∨ x.2.2 = 1 then none else some (t, o, x.2.2 - 1))
    else none
  | .refuse t o => if isHolder t o h then none else some h
  | .giveUp t o => if isHolder t o h then none else some h
  | _ => some h

/-- The state after a history; `none`: not a possible history. -/
def atomic (h : Holder) : List Label → Option Holder
  | [] => some h
  | l :: ls => (effect h l).bind (atomic · ls)

/-- What a thread is doing, as far as its own labels tell. -/
inductive Phase where
  | out
  | locking (o : Nat)
  | locked (o : Nat)
  | lockFailed (o : Nat)
  | unlocking (o : Nat) (all : Bool)
  | left (o : Nat) (all : Bool)
  | unlockFailed (o : Nat) (all : Bool)
  deriving DecidableEq

/-- Every call has exactly the effect its result reports, between call and return; a call fails only
if a system call failed, the time ran out, or (unlock) the caller was refused. -/
def move : Phase → Label → Option Phase
  | .out, .callLock _ o _ => some (.locking o)
  | .locking o, .acquire _ p => if o = p then some (.locked o) else none
  | .locking o, .again _ p => if o = p then some (.locked o) else none
  | .locked o, .retLock _ p true => if o = p then some .out else none
  | .locking o, .giveUp _ p => if o = p then some (.lockFailed o) else none
  | .locking o, .sysFail _ => some (.lockFailed o)
  | .lockFailed o, .retLock _ p false => if o = p then some .out else none
  | .out, .callUnlock _ o all => some (.unlocking o all)
  | .unlocking o all, .leave _ p b => if o = p ∧ all = b then some (.left o all) else none
  | .left o all, .retUnlock _ p b true => if o = p ∧ all = b then some .out else none
  | .unlocking o all, .refuse _ p => if o = p then some (.unlockFailed o all) else none
  | .unlocking o all, .sysFail _ => some (.unlockFailed o all)
  | .unlockFailed o all, .retUnlock _ p b false => if o = p ∧ all = b then some .out else none
  | _, _ => none

/-- The thread of a label. -/
def who : Label → Nat
  | .callLock t _ _ => t
  | .retLock t _ _ => t
  | .callUnlock t _ _ => t
  | .retUnlock t _ _ _ => t
  | .sysFail t => t
  | .acquire t _ => t
  | .again t _ => t
  | .leave t _ _ => t
  | .refuse t _ => t
  | .giveUp t _ => t

/-- The phase of thread `t` after a history; `none` if the history is impossible for it. -/
def phase (t : Nat) : Option Phase → List Label → Option Phase
  | p, [] => p
  | p, l :: ls => phase t (if who l = t then p.bind (move · l) else p) ls

/-- How often thread `t` has locked through object `o`, going by the results of its calls alone. -/
def depth (t o : Nat) : Nat → List Label → Nat
  | d, [] => d
  | d, .retLock t' o' true :: ls => depth t o (if t' = t ∧ o' = o then d + 1 else d) ls
  | d, .retUnlock t' o' all true :: ls =>
    depth t o (if t' = t ∧ o' = o then (if all then 0 else d - 1) else d) ls
  | d, _ :: ls => depth t o d ls

/-- Thread `t` holds the mutex through `o`: it has locked more often than unlocked, and is not inside
a call. -/
def Holds (t o : Nat) (ls : List Label) : Prop :=
  0 < depth t o 0 ls ∧ phase t (some .out) ls = some .out

/-- The nesting depth of every thread stays below the range of a 32-bit counter throughout a
history. -/
def Shallow (ls : List Label) : Prop := ∀ q, q <+: ls → ∀ t o, depth t o 0 q < 4294967295

end Verif.Mutex.Spec
