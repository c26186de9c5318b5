import Verif.Client.PropsOrder
import Verif.Client.MutexCore

/-!
# Programs that nest locks on several mutexes

Not code of the library but of its users: every thread runs a script of `Lock` and `Unlock` calls on the mutexes
0, 1, ... N - 1, one after the other.  A call that returns false is repeated.  All steps of the library
(`Verif.Mutex.Full.step`, sync_mutex.cpp 207-257 over sync_util.cpp 346-461) interleave freely.
-/

namespace Verif.Client.Nest

open Verif.Mutex (Label)
open Verif.Mutex.Full (Act S init step)

/-- A call of the script (sync_mutex.cpp 207-257). -/
inductive Op where
  | lock (i : Nat)
  | unlock (i : Nat)
  deriving DecidableEq

/-- What the script of a thread makes of a call or a result on mutex `i`; `none`: the script does not make this call now.
Every thread uses object 0 of each mutex (calls of sync_mutex.cpp 207-257). -/
def see (i : Nat) (td : Nat → List Op) : Label → Option (Nat → List Op)
  | .callLock t o _ => if o = 0 ∧ (td t).head? = some (.lock i) then some td else none
  | .callUnlock t o all => if o = 0 ∧ all = false ∧ (td t).head? = some (.unlock i) then some td else none
  | .retLock t _ true => some (put td t (td t).tail)
  | .retUnlock t _ _ true => some (put td t (td t).tail)
  | _ => some td

/-- The same for the labels of a step (calls of sync_mutex.cpp 207-257). -/
def follow (i : Nat) (td : Nat → List Op) : List Label → Option (Nat → List Op)
  | [] => some td
  | l :: ls => (see i td l).bind (follow i · ls)

/-- The mutexes, what has happened on each, and what the threads still have to do (calls of sync_mutex.cpp 207-257). -/
structure G where
  c : Nat → S
  ls : Nat → List Label
  todo : Nat → List Op

/-- One step of the program: any step on one of the mutexes that is not a failing system call inside the semaphore, if
the scripts agree (sync_mutex.cpp 207-257 over sync_util.cpp 346-461). -/
def Next (N : Nat) (g g' : G) : Prop :=
  ∃ i a c l td, i < N ∧ Mutex.Full.isFail a = false ∧ step (g.c i) a = .ok (some (c, l)) ∧
    follow i g.todo l = some td ∧ g' = ⟨put g.c i c, put g.ls i (g.ls i ++ l), td⟩

/-- The states the program can reach (calls of sync_mutex.cpp 207-257). -/
inductive Run (N : Nat) (P : Nat → List Op) : G → Prop
  | start : Run N P ⟨fun _ => init, fun _ => [], P⟩
  | next {g g' : G} : Run N P g → Next N g g' → Run N P g'

end Verif.Client.Nest
