import Verif.Client.SemModel
import Verif.Event.Model

/-!
# Programs that use a `Sync::Event`

A mailbox with two automatic events, and data that is published with an event.  The library is given by
its steps: those of `Verif.Event.Model` on POSIX (sync/sync_util.cpp 463-629, called by sync/sync_event.cpp 121-141), those
of `Verif.Client.WinModel` on Windows (sync_event.cpp 41-66).
-/

namespace Verif.Client.Event

open Verif.Event (Label)

/-! ## A mailbox

The ring buffer of `Verif.Client.SemModel` with one slot: `Wait` is `Wait`, `Fire` is the release.  `Reset`
may be called by anyone: it does nothing to an automatic event on POSIX, and takes away its signal on Windows. -/

/-- A label of the event as one of a semaphore (sync_event.cpp 121-141). -/
def asSem : Label → Option Verif.Sem.Label
  | .callWait t w => some (.callWait t w)
  | .retWait t r => some (.retWait t r)
  | .callFire t => some (.callRelease t)
  | .retFire t r => some (.retRelease t r 0)
  | .pass t => some (.take t)
  | .fire t => some (.give t 0)
  | .callReset _ | .retReset _ _ | .reset _ => none

/-- The steps of an event, seen as those of a semaphore (sync_event.cpp 41-66, 121-141). -/
def boxStep {L A : Type} (step : L → A → CRes (Option (L × List Label))) (s : L) (a : A) :
    CRes (Option (L × List Verif.Sem.Label)) :=
  match step s a with
  | .error e => .error e
  | .ok none => .ok none
  | .ok (some (c, ls)) => .ok (some (c, ls.filterMap asSem))

/-! ## Publication -/

/-- Where a thread other than the publisher is; `inside`: its `Wait` has returned true, and this is what it has read
since (calls of sync_event.cpp 41-66, 121-141). -/
inductive Cl (σ : Type) where
  | idle
  | waiting
  | inside (seen : List σ)

/-- The event with what has happened so far, whether the publisher (thread 0) has called `Fire`, the readers, the data
(calls of sync_event.cpp 41-66, 121-141). -/
structure St (L σ : Type) where
  lib : L
  tr : List Label
  pub : Bool
  cl : Nat → Cl σ
  data : σ

/-- What the program does at a call and with a result; `none`: it does not make this call.  Only the publisher
fires, as often as it likes; anyone may reset (calls of sync_event.cpp 41-66, 121-141). -/
def see {σ : Type} (pub : Bool) (cl : Nat → Cl σ) : Label → Option (Bool × (Nat → Cl σ))
  | .callFire t => if t = 0 then some (true, cl) else none
  | .callWait t _ =>
    match cl t with
    | .idle => some (pub, put cl t .waiting)
    | _ => none
  | .retWait t r =>
    match cl t with
    | .waiting => some (pub, put cl t (if r then .inside [] else .idle))
    | _ => some (pub, cl)
  | _ => some (pub, cl)

/-- The same for the labels of a step (calls of sync_event.cpp 41-66, 121-141). -/
def follow {σ : Type} (pub : Bool) (cl : Nat → Cl σ) : List Label → Option (Bool × (Nat → Cl σ))
  | [] => some (pub, cl)
  | l :: ls => (see pub cl l).bind fun r => follow r.1 r.2 ls

/-- The states the program can reach with an event that begins as `e` and makes the steps `step` (calls of sync_event.cpp 41-66, 121-141). -/
inductive Run {L A σ : Type} (step : L → A → CRes (Option (L × List Label))) (e : L) (d : σ) : St L σ → Prop
  | start : Run step e d ⟨e, [], false, fun _ => .idle, d⟩
  | lib {s : St L σ} {a : A} {c : L} {ls : List Label} {pub : Bool} {cl : Nat → Cl σ} : Run step e d s →
      step s.lib a = .ok (some (c, ls)) → follow s.pub s.cl ls = some (pub, cl) →
      Run step e d { s with lib := c, tr := s.tr ++ ls, pub := pub, cl := cl }
  /-- the publisher works on the data, as long as it has not called `Fire` -/
  | build {s : St L σ} (x : σ) : Run step e d s → s.pub = false → Run step e d { s with data := x }
  /-- a reader whose `Wait` has returned true reads -/
  | read {s : St L σ} {t : Nat} {seen : List σ} : Run step e d s → s.cl t = .inside seen →
      Run step e d { s with cl := put s.cl t (.inside (seen ++ [s.data])) }
  /-- and is done with it -/
  | leave {s : St L σ} {t : Nat} {seen : List σ} : Run step e d s → s.cl t = .inside seen →
      Run step e d { s with cl := put s.cl t .idle }

/-- What happens next, for examples (calls of sync_event.cpp 41-66, 121-141). -/
inductive Move (A σ : Type) where
  | lib (a : A)
  | build (x : σ)
  | read (t : Nat)

/-- One such step; `none` if the program does not do this now (calls of sync_event.cpp 41-66, 121-141). -/
def play1 {L A σ : Type} (step : L → A → CRes (Option (L × List Label))) (s : St L σ) : Move A σ → Option (St L σ)
  | .lib a =>
    match step s.lib a with
    | .ok (some (c, ls)) =>
      (follow s.pub s.cl ls).map fun r => { s with lib := c, tr := s.tr ++ ls, pub := r.1, cl := r.2 }
    | _ => none
  | .build x => if s.pub = false then some { s with data := x } else none
  | .read t =>
    match s.cl t with
    | .inside seen => some { s with cl := put s.cl t (.inside (seen ++ [s.data])) }
    | _ => none

/-- Several steps (calls of sync_event.cpp 41-66, 121-141). -/
def play {L A σ : Type} (step : L → A → CRes (Option (L × List Label))) (s : St L σ) :
    List (Move A σ) → Option (St L σ)
  | [] => some s
  | a :: as => (play1 step s a).bind (play step · as)

end Verif.Client.Event
