import Verif.Guard.Model
import Verif.RwLock.FullModel

/-!
# Threads with guards on one reader-writer lock (sync/sync_readwritelock.cpp 258-382)

Every thread runs a program of `Verif.Guard.Model`; its calls are those of the reader-writer lock on the real semaphores and
event (`Verif.RwLock.FullModel`), with `free = true`: the lock itself does not care who calls which unlock.  All steps of all
threads, in their programs and inside the lock, interleave freely, and anything inside the lock may fail.
-/

namespace Verif.Guard
open Verif.RwLock (Label setAt)

/-- `ReadLock` with `AutoReadUnlock`, `WriteLock` with `AutoWriteUnlock` (sync_readwritelock.cpp 364-382). -/
inductive Way where
  | read
  | write
  deriving DecidableEq

/-- The lock and the threads (sync_readwritelock.cpp 258-382). -/
structure Sys where
  lk : RwLock.Full.S
  th : Nat → T Way

/-- The call of a thread (sync_readwritelock.cpp 258-382). -/
def callOf (t : Nat) : Ev Way → Option RwLock.Act
  | .callLock .read => some (.callRead t)
  | .callLock .write => some (.callWrite t)
  | .callUnlock .read => some (.callReadUnlock t)
  | .callUnlock .write => some (.callWriteUnlock t)
  | _ => none

/-- A call of thread `t` returns to its program (sync_readwritelock.cpp 258-360). -/
def back (th : Nat → T Way) (t : Nat) (r : Bool) : Nat → T Way :=
  match returned (th t) r with
  | none => th
  | some (x, _) => setAt th t x

/-- The same, from the label (sync_readwritelock.cpp 276, 285, 295, 316, 319, 335, 343, 349, 359). -/
def note (th : Nat → T Way) : Label → Nat → T Way
  | .retRead t r => back th t r
  | .retWrite t r => back th t r
  | .retReadUnlock t r => back th t r
  | .retWriteUnlock t r => back th t r
  | _ => th

/-- All of them (sync_readwritelock.cpp 258-382). -/
def notes (th : Nat → T Way) (ls : List Label) : Nat → T Way := ls.foldl note th

/-- Actions: a step of a program, or a step inside the lock (sync_readwritelock.cpp 258-382). -/
inductive SAct where
  | prog (t : Nat) (choice : Bool)
  | lock (a : RwLock.Full.Act)

/-- The action is a call, which only programs make (sync_readwritelock.cpp 258-360). -/
def isCall : RwLock.Full.Act → Bool
  | .lock (.callRead _) | .lock (.callWrite _) | .lock (.callReadUnlock _) | .lock (.callWriteUnlock _) => true
  | _ => false

/-- A step of the lock, whose results go to the programs (sync_readwritelock.cpp 258-382). -/
def inside (s : Sys) (th : Nat → T Way) (a : RwLock.Full.Act) : CRes (Option (Sys × List Label)) := do
  let r ← RwLock.Full.step true s.lk a
  match r with
  | none => .ok none
  | some (lk, ls) => .ok (some (⟨lk, notes th ls⟩, ls))

/-- One action; `none` if it is not possible (sync_readwritelock.cpp 258-382). -/
def sstep (s : Sys) : SAct → CRes (Option (Sys × List Label))
  | .prog t choice =>
    match step (s.th t) (.run choice) with
    | none => .ok none
    | some (x, evs) =>
      match evs.filterMap (callOf t) with
      | [] => .ok (some ({ s with th := setAt s.th t x }, []))
      | a :: _ => inside s (setAt s.th t x) (.lock a)
  | .lock a => if isCall a then .ok none else inside s s.th a

/-- An execution (sync_readwritelock.cpp 258-382). -/
def sexec (s : Sys) : List SAct → CRes (Sys × List Label)
  | [] => .ok (s, [])
  | a :: as => do
    let r ← sstep s a
    match r with
    | none => sexec s as
    | some (s', l) => do
      let (s'', ls) ← sexec s' as
      .ok (s'', l ++ ls)

/-- The lock after `Create`, every thread before its program (sync_readwritelock.cpp 207-256). -/
def sinit (progs : Nat → List (Cmd Way)) : Sys := ⟨RwLock.Full.init, fun t => start (progs t)⟩

end Verif.Guard
