import Verif.Sem.Model
import Verif.Event.Model

/-!
# Threads and processes that are killed

Named objects lie in memory that several processes share (sync/sync_util.cpp 120-340), and a process can be killed at
any moment.  Its threads then make no further step: the internal mutex is an ordinary one (`pthread_mutex_init` with
`PTHREAD_PROCESS_SHARED` and nothing else, sync_util.cpp 357-366 and 495-504), so nobody unlocks it for them.  Whether
the condition variable still counts a killed thread that slept in it is left open: it can stay there, so that a
signal may go to it, or leave at any moment.
-/

namespace Verif.Crash

/-- What happens: something a thread does, or a thread is killed (sync_util.cpp 346-629). -/
inductive CAct (A : Type) where
  | act (a : A)
  | kill (t : Nat)

/-- Who is dead afterwards (sync_util.cpp 346-629). -/
def dead {A : Type} (d : Nat → Bool) : List (CAct A) → Nat → Bool
  | [] => d
  | .act _ :: as => dead d as
  | .kill t :: as => dead (fun u => decide (u = t) || d u) as

/-- The actions that happen: those of a killed thread do not, except that it leaves the condition variable
(sync_util.cpp 346-629). -/
def moves {A : Type} (who : A → Nat) (leaves : A → Bool) (d : Nat → Bool) : List (CAct A) → List A
  | [] => []
  | .act a :: as => if d (who a) = true ∧ leaves a = false then moves who leaves d as else a :: moves who leaves d as
  | .kill t :: as => moves who leaves (fun u => decide (u = t) || d u) as

/-- Whose step it is (sync_util.cpp 346-461). -/
def semWho : Sem.Act → Nat
  | .callWait t _ | .callRelease t | .run t _ | .fail t | .wake t _ => t

/-- Leaving the condition variable (sync_util.cpp 395, 424). -/
def semLeaves : Sem.Act → Bool
  | .wake _ _ => true
  | _ => false

/-- Whose step it is (sync_util.cpp 463-629). -/
def evWho : Event.Act → Nat
  | .callWait t _ | .callFire t | .callReset t | .run t _ | .fail t | .wake t _ => t

/-- Leaving the condition variable (sync_util.cpp 537, 577). -/
def evLeaves : Event.Act → Bool
  | .wake _ _ => true
  | _ => false

/-- A semaphore whose users can be killed (sync_util.cpp 346-461). -/
def semRun (s : Sem.S) (d : Nat → Bool) (as : List (CAct Sem.Act)) : CRes (Sem.S × List Sem.Label) :=
  Sem.exec s (moves semWho semLeaves d as)

/-- An event whose users can be killed (sync_util.cpp 463-629). -/
def evRun (s : Event.S) (d : Nat → Bool) (as : List (CAct Event.Act)) : CRes (Event.S × List Event.Label) :=
  Event.exec s (moves evWho evLeaves d as)

/-- Nobody is dead (sync_util.cpp 346-629). -/
def nobody : Nat → Bool := fun _ => false

end Verif.Crash
