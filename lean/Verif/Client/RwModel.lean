import Verif.Client.MutexModel
import Verif.RwLock.Model

/-!
# A program that protects its data with a `Sync::ReadWriteLock`

Any number of threads read under `ReadLock` and change the data under `WriteLock`, as often as they like while they
are inside; loads and stores are steps of their own.  The library is given by its steps (`Verif.RwLock.Full.step`
for POSIX, `Verif.WinRwLock.step` for Windows, sync/sync_readwritelock.cpp 68-184 and 258-360).
-/

namespace Verif.Client.Rw

open Verif.RwLock (Label)

/-- Where a thread of the program is (calls of sync_readwritelock.cpp 68-184, 258-360). -/
inductive Cl (σ : Type) where
  | idle
  /-- `ReadLock` has been called -/
  | rlocking
  /-- `ReadLock` has returned true; what the thread has read since -/
  | reading (seen : List σ)
  | runlocking
  /-- `WriteLock` has been called -/
  | wlocking
  /-- `WriteLock` has returned true; what the thread has loaded last and not used yet -/
  | writing (v : Option σ)
  | wunlocking
  /-- an unlock has reported a failure: the thread does not use the lock again -/
  | gone

/-- What the program does at a call and with a result; `none`: it does not make this call now
(calls of sync_readwritelock.cpp 68-184, 258-360). -/
def see {σ : Type} (cl : Nat → Cl σ) : Label → Option (Nat → Cl σ)
  | .callRead t =>
    match cl t with
    | .idle => some (put cl t .rlocking)
    | _ => none
  | .retRead t r =>
    match cl t with
    | .rlocking => some (put cl t (if r then .reading [] else .idle))
    | _ => some cl
  | .callReadUnlock t =>
    match cl t with
    | .reading _ => some (put cl t .runlocking)
    | _ => none
  | .retReadUnlock t r =>
    match cl t with
    | .runlocking => some (put cl t (if r then .idle else .gone))
    | _ => some cl
  | .callWrite t =>
    match cl t with
    | .idle => some (put cl t .wlocking)
    | _ => none
  | .retWrite t r =>
    match cl t with
    | .wlocking => some (put cl t (if r then .writing none else .idle))
    | _ => some cl
  | .callWriteUnlock t =>
    match cl t with
    | .writing _ => some (put cl t .wunlocking)
    | _ => none
  | .retWriteUnlock t r =>
    match cl t with
    | .wunlocking => some (put cl t (if r then .idle else .gone))
    | _ => some cl
  | _ => some cl

/-- The same for the labels of a step (calls of sync_readwritelock.cpp 68-184, 258-360). -/
def follow {σ : Type} (cl : Nat → Cl σ) : List Label → Option (Nat → Cl σ)
  | [] => some cl
  | l :: ls => (see cl l).bind (follow · ls)

/-- A writer says it is ready (calls of sync_readwritelock.cpp 170-184, 345-360). -/
def ready : Label → Bool
  | .callWriteUnlock _ => true
  | _ => false

/-- The library with what has happened so far, the threads, the data, the threads that have stored, in order, and
those that had stored when `WriteUnlock` was last called (calls of sync_readwritelock.cpp 68-184, 258-360). -/
structure St (S σ : Type) where
  lib : S
  tr : List Label
  cl : Nat → Cl σ
  data : σ
  stores : List Nat
  done : List Nat

/-- The states the program can reach: `f t` is what thread `t` computes
(calls of sync_readwritelock.cpp 68-184, 258-360). -/
inductive Run {S A σ : Type} (step : S → A → CRes (Option (S × List Label))) (init : S)
    (f : Nat → σ → σ) (d : σ) : St S σ → Prop
  | start : Run step init f d ⟨init, [], fun _ => .idle, d, [], []⟩
  /-- a step of the library, or a call -/
  | lib {s : St S σ} {a : A} {c : S} {ls : List Label} {cl : Nat → Cl σ} : Run step init f d s →
      step s.lib a = .ok (some (c, ls)) → follow s.cl ls = some cl →
      Run step init f d { s with
        lib := c, tr := s.tr ++ ls, cl := cl, done := if ls.any ready then s.stores else s.done }
  /-- a reader reads -/
  | read {s : St S σ} {t : Nat} {seen : List σ} : Run step init f d s → s.cl t = .reading seen →
      Run step init f d { s with cl := put s.cl t (.reading (seen ++ [s.data])) }
  /-- a writer loads -/
  | load {s : St S σ} {t : Nat} {v : Option σ} : Run step init f d s → s.cl t = .writing v →
      Run step init f d { s with cl := put s.cl t (.writing (some s.data)) }
  /-- a writer stores what it computes from what it has loaded -/
  | store {s : St S σ} {t : Nat} {v : σ} : Run step init f d s → s.cl t = .writing (some v) →
      Run step init f d { s with
        cl := put s.cl t (.writing none), data := f t v, stores := s.stores ++ [t] }

/-! ## The same as a function, for examples -/

/-- What happens next (calls of sync_readwritelock.cpp 68-184, 258-360). -/
inductive Do (A : Type) where
  | lib (a : A)
  | read (t : Nat)
  | load (t : Nat)
  | store (t : Nat)

/-- One such step of the program; `none` if it does not do this now; what the library cannot do now does nothing
(calls of sync_readwritelock.cpp 68-184, 258-360). -/
def play1 {S A σ : Type} (step : S → A → CRes (Option (S × List Label))) (f : Nat → σ → σ) (s : St S σ) :
    Do A → Option (St S σ)
  | .lib a =>
    match step s.lib a with
    | .ok (some (c, ls)) =>
      (follow s.cl ls).map fun cl =>
        { s with lib := c, tr := s.tr ++ ls, cl := cl, done := if ls.any ready then s.stores else s.done }
    | _ => some s
  | .read t =>
    match s.cl t with
    | .reading seen => some { s with cl := put s.cl t (.reading (seen ++ [s.data])) }
    | _ => none
  | .load t =>
    match s.cl t with
    | .writing _ => some { s with cl := put s.cl t (.writing (some s.data)) }
    | _ => none
  | .store t =>
    match s.cl t with
    | .writing (some v) =>
      some { s with cl := put s.cl t (.writing none), data := f t v, stores := s.stores ++ [t] }
    | _ => none

/-- Several steps (calls of sync_readwritelock.cpp 68-184, 258-360). -/
def play {S A σ : Type} (step : S → A → CRes (Option (S × List Label))) (f : Nat → σ → σ) (s : St S σ) :
    List (Do A) → Option (St S σ)
  | [] => some s
  | a :: as => (play1 step f s a).bind (play step f · as)

end Verif.Client.Rw
