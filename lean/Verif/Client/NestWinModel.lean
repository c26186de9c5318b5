import Verif.Client.NestModel
import Verif.Client.PropsOrderWin

/-!
# Programs that nest locks on several mutexes, Windows branch

The scripts are those of `Verif.Client.NestModel`; the steps of the library are those of `Verif.WinMutex.step`
(sync_mutex.cpp 66-126).
-/

namespace Verif.Client.Nest

open Verif.Mutex (Label)

/-- The mutexes, what has happened on each, and what the threads still have to do (calls of sync_mutex.cpp 66-126). -/
structure WinG where
  s : Nat → WinMutex.S
  ls : Nat → List Label
  todo : Nat → List Op

/-- The action is the end of a thread (sync_mutex.cpp 90). -/
def ends : WinMutex.Act → Bool
  | .die _ => true
  | _ => false

/-- One step of the program: any step on one of the mutexes, if the scripts agree.  No thread ends, and no
`ReleaseMutex` fails (sync_mutex.cpp 66-126). -/
def WinNext (N : Nat) (g g' : WinG) : Prop :=
  ∃ i a s l td, i < N ∧ ends a = false ∧ WinMutex.faults (g.s i) a = false ∧ WinMutex.step (g.s i) a = .ok (some (s, l)) ∧
    follow i g.todo l = some td ∧ g' = ⟨put g.s i s, put g.ls i (g.ls i ++ l), td⟩

/-- The states the program can reach (calls of sync_mutex.cpp 66-126). -/
inductive WinRun (N : Nat) (P : Nat → List Op) : WinG → Prop
  | start : WinRun N P ⟨fun _ => WinMutex.init, fun _ => [], P⟩
  | next {g g' : WinG} : WinRun N P g → WinNext N g g' → WinRun N P g'

end Verif.Client.Nest
