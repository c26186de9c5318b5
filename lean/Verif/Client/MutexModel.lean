import Verif.Mutex.Spec
import Verif.WinMutex.Model

/-!
# A program that protects its data with a `Sync::Mutex`

Not code of the library but of its users: any number of threads run

    if (Mutex.Lock(Wait)) { v = data; data = f(v); ... Mutex.Unlock(); }

Loading and storing the data are separate steps, which interleave freely with the steps of the other threads
inside and outside the library.  The library is given by its steps (`Verif.Mutex.Full.step` for POSIX,
`Verif.WinMutex.step` for Windows, sync/sync_mutex.cpp 66-126 and 207-257).
-/

namespace Verif.Client

open Verif.Mutex (Label)

/-- Where a thread of the program is; `o` is the object it uses (calls of sync_mutex.cpp 66-126, 207-257). -/
inductive Cl (σ : Type) where
  /-- outside -/
  | idle
  /-- `Lock` has been called -/
  | locking (o : Nat)
  /-- `Lock` has returned true -/
  | inside (o : Nat)
  /-- the same, and the data has been loaded -/
  | loaded (o : Nat) (v : σ)
  /-- `Unlock` has been called -/
  | unlocking (o : Nat)

/-- A function changed at one place (calls of sync_mutex.cpp 66-126, 207-257). -/
def put {α : Type} (f : Nat → α) (t : Nat) (x : α) : Nat → α := fun u => if u = t then x else f u

/-- What the program does at a call and with a result; `none`: it does not make this call now.  It locks when it
is outside and unlocks what it has locked; after a failed `Unlock` it is still inside
(calls of sync_mutex.cpp 66-126, 207-257). -/
def see {σ : Type} (cl : Nat → Cl σ) : Label → Option (Nat → Cl σ)
  | .callLock t o _ =>
    match cl t with
    | .idle => some (put cl t (.locking o))
    | _ => none
  | .retLock t o true => some (put cl t (.inside o))
  | .retLock t _ false => some (put cl t .idle)
  | .callUnlock t o _ =>
    match cl t with
    | .inside p => if p = o then some (put cl t (.unlocking o)) else none
    | _ => none
  | .retUnlock t _ _ true => some (put cl t .idle)
  | .retUnlock t o _ false => some (put cl t (.inside o))
  | _ => some cl

/-- The same for the labels of a step (calls of sync_mutex.cpp 66-126, 207-257). -/
def follow {σ : Type} (cl : Nat → Cl σ) : List Label → Option (Nat → Cl σ)
  | [] => some cl
  | l :: ls => (see cl l).bind (follow · ls)

/-- The library with what has happened so far, the threads, the data, and the threads that have stored, in order
(calls of sync_mutex.cpp 66-126, 207-257). -/
structure St (S σ : Type) where
  lib : S
  tr : List Label
  cl : Nat → Cl σ
  data : σ
  stores : List Nat

/-- A thread that is outside (it may end: `quits` says which actions end a thread;
calls of sync_mutex.cpp 66-126, 207-257). -/
def away {σ : Type} : Cl σ → Bool
  | .idle => true
  | _ => false

/-- The states the program can reach: `f t` is what thread `t` computes
(calls of sync_mutex.cpp 66-126, 207-257). -/
inductive Run {S A σ : Type} (step : S → A → CRes (Option (S × List Label))) (init : S)
    (quits : A → Option Nat) (f : Nat → σ → σ) (d : σ) : St S σ → Prop
  | start : Run step init quits f d ⟨init, [], fun _ => .idle, d, []⟩
  /-- a step of the library, or a call -/
  | lib {s : St S σ} {a : A} {c : S} {ls : List Label} {cl : Nat → Cl σ} : Run step init quits f d s →
      step s.lib a = .ok (some (c, ls)) → follow s.cl ls = some cl →
      (∀ t, quits a = some t → away (s.cl t) = true) →
      Run step init quits f d { s with lib := c, tr := s.tr ++ ls, cl := cl }
  /-- `v = data` -/
  | load {s : St S σ} {t o : Nat} : Run step init quits f d s → s.cl t = .inside o →
      Run step init quits f d { s with cl := put s.cl t (.loaded o s.data) }
  /-- `data = f(v)` -/
  | store {s : St S σ} {t o : Nat} {v : σ} : Run step init quits f d s → s.cl t = .loaded o v →
      Run step init quits f d { s with cl := put s.cl t (.inside o), data := f t v, stores := s.stores ++ [t] }

/-- Which thread an action ends, on Windows; the end of a thread does nothing on POSIX
(sync_mutex.cpp 66-126 are calls of running threads). -/
def winQuits : WinMutex.Act → Option Nat
  | .die t => some t
  | _ => none

/-! ## The same as a function, for examples -/

/-- What happens next: something in the library, a load or a store (calls of sync_mutex.cpp 66-126, 207-257). -/
inductive Do (A : Type) where
  | lib (a : A)
  | load (t : Nat)
  | store (t : Nat)

/-- One such step of the program; `none` if it does not do this now (calls of sync_mutex.cpp 66-126, 207-257). -/
def play1 {S A σ : Type} (step : S → A → CRes (Option (S × List Label))) (quits : A → Option Nat)
    (f : Nat → σ → σ) (s : St S σ) : Do A → Option (St S σ)
  | .lib a =>
    match step s.lib a with
    | .ok (some (c, ls)) =>
      if (quits a).all (fun t => away (s.cl t)) = true then
        (follow s.cl ls).map fun cl => { s with lib := c, tr := s.tr ++ ls, cl := cl }
      else none
    | _ => none
  | .load t =>
    match s.cl t with
    | .inside o => some { s with cl := put s.cl t (.loaded o s.data) }
    | _ => none
  | .store t =>
    match s.cl t with
    | .loaded o v => some { s with cl := put s.cl t (.inside o), data := f t v, stores := s.stores ++ [t] }
    | _ => none

/-- Several steps (calls of sync_mutex.cpp 66-126, 207-257). -/
def play {S A σ : Type} (step : S → A → CRes (Option (S × List Label))) (quits : A → Option Nat)
    (f : Nat → σ → σ) (s : St S σ) : List (Do A) → Option (St S σ)
  | [] => some s
  | a :: as => (play1 step quits f s a).bind (play step quits f · as)

end Verif.Client
