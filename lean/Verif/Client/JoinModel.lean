import Verif.Client.SemModel

/-!
# Waiting for several workers with one semaphore

Workers `0 .. n - 1` each write a result and then release the semaphore once, again if that fails.  Thread `n` waits until as many waits
have succeeded as the semaphore has units at the beginning, and one for each worker; then it reads the results.  The library is the semaphore with
all its steps (sync/sync_util.cpp 346-455).  `Semaphore::Create` begins with the maximum (sync_semaphore.cpp 106), so `k` is that there, 0 with
`InitUnixSemaphore`.
-/

namespace Verif.Client.Join

open Verif.Sem (Label)

/-- Where a worker is: `again` is after a failed release (calls of sync_util.cpp 441-455). -/
inductive Cl where
  | working
  | releasing
  | again
  | finished
  deriving DecidableEq

/-- Workers and the thread that waits: whether it is inside a wait, and how many have succeeded (calls of sync_util.cpp 370-455). -/
structure P where
  cl : Nat → Cl
  waiting : Bool
  got : Nat

/-- What the program does at a call and with a result; `none`: it does not make this call now (calls of sync_util.cpp 370-455). -/
def see (n : Nat) (p : P) : Label → Option P
  | .callWait u _ => if u = n ∧ p.waiting = false then some { p with waiting := true } else none
  | .retWait u r =>
    some (if u = n ∧ p.waiting = true then { p with waiting := false, got := p.got + (if r then 1 else 0) } else p)
  | .callRelease u =>
    if u < n ∧ (p.cl u = .working ∨ p.cl u = .again) then some { p with cl := put p.cl u .releasing } else none
  | .retRelease u r _ =>
    some (if u < n ∧ p.cl u = .releasing then { p with cl := put p.cl u (if r then .finished else .again) } else p)
  | _ => some p

/-- The same for the labels of a step (calls of sync_util.cpp 370-455). -/
def follow (n : Nat) (p : P) : List Label → Option P
  | [] => some p
  | l :: ls => (see n p l).bind (follow n · ls)

/-- The program with the library, the calls and results so far, what the workers have written, and what has been read of it (calls of sync_util.cpp 370-455). -/
structure St (L σ : Type) where
  lib : L
  tr : List Label
  p : P
  data : Nat → σ
  seen : List (Nat × σ)

/-- What happens: a step of the library, a worker writes to its result, thread `n` reads one (calls of sync_util.cpp 370-455). -/
inductive Do (A σ : Type) where
  | lib (a : A)
  | build (t : Nat) (d : σ)
  | read (t : Nat)

/-- One step; workers write only before they release, thread `n` reads only when it has waited for all (calls of sync_util.cpp 370-455). -/
def next {L A σ : Type} (step : L → A → CRes (Option (L × List Label))) (n k : Nat) (s : St L σ) : Do A σ → Option (St L σ)
  | .lib a =>
    match step s.lib a with
    | .ok (some (c, ls)) => (follow n s.p ls).map fun p => { s with lib := c, tr := s.tr ++ ls, p := p }
    | _ => none
  | .build t d => if t < n ∧ s.p.cl t = .working then some { s with data := put s.data t d } else none
  | .read t => if t < n ∧ s.p.waiting = false ∧ s.p.got = k + n then some { s with seen := s.seen ++ [(t, s.data t)] } else none

/-- At the beginning all work (calls of sync_util.cpp 370-455). -/
def begin0 {L σ : Type} (e : L) (d : Nat → σ) : St L σ := ⟨e, [], ⟨fun _ => .working, false, 0⟩, d, []⟩

/-- Any number of steps; those that are not possible are left out (calls of sync_util.cpp 370-455). -/
def run {L A σ : Type} (step : L → A → CRes (Option (L × List Label))) (n k : Nat) (s : St L σ) : List (Do A σ) → St L σ
  | [] => s
  | a :: as =>
    match next step n k s a with
    | none => run step n k s as
    | some s' => run step n k s' as

end Verif.Client.Join
