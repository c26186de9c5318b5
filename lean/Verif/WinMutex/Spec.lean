import Verif.WinMutex.Model
import Verif.Mutex.Spec

/-!
# What a re-entrant mutex with several objects is

Only the labels of an execution are used.  Every lock that is not given back is an entry: the thread and the object
through which it locked.  A thread may lock through several objects.  `Holds`, `Shallow`, `depth` and `phase` are those of
`Verif.Mutex.Spec`.
-/

namespace Verif.WinMutex.Spec

open Verif.Mutex (Label)
open Verif.Mutex.Spec

/-- The locks that are not given back. -/
abbrev Held := List (Nat × Nat)

/-- The atomic mutex; `none`: not possible in this state. -/
def effect (h : Held) : Label → Option Held
  | .acquire t o => if (∀ x ∈ h, x.1 = t) ∧ (t, o) ∉ h then some ((t, o) :: h) else none
  | .again t o => if (t, o) ∈ h then some ((t, o) :: h) else none
  | .leave t o all =>
    if (t, o) ∈ h then some (if all then h.filter (· ≠ (t, o)) else h.erase (t, o)) else none
  | .refuse t o => if (t, o) ∈ h then none else some h
  | .giveUp t o => if (t, o) ∈ h then none else some h
  | _ => some h

/-- The state after a history; `none`: not a possible history. -/
def atomic (h : Held) : List Label → Option Held
  | [] => some h
  | l :: ls => (effect h l).bind (atomic · ls)

/-- No thread ends while it holds the mutex, going by the results of its calls. -/
def Orderly (as : List Act) : Prop :=
  ∀ p t q, as = p ++ .die t :: q → ∀ s ls, exec init p = .ok (s, ls) → ∀ o, depth t o 0 ls = 0

end Verif.WinMutex.Spec
