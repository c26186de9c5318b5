import Verif.Client.MutexModel
import Verif.Sem.Model

/-!
# Programs that use a `Sync::Semaphore`

Two programs: a pool of resources, used by any number of threads through `Semaphore` (sync/sync_semaphore.cpp
114-131), and a ring buffer between a producer and a consumer, on `WaitForUnixSemaphore` and `ReleaseUnixSemaphore`
(a `Semaphore` begins with as many units as it can have, sync_semaphore.cpp 106, and does not report a failed
release, 127).  The library is the semaphore of `Verif.Sem.Model` (sync/sync_util.cpp 346-461), with all its steps.
-/

namespace Verif.Client.Sem

open Verif.Sem (Label Act S step init)

/-! ## A pool -/

/-- Where a thread is that does `if (Sem.Lock(Wait)) { ... Sem.Unlock(); }`; `Unlock` says true in any case (calls of sync_semaphore.cpp 39-58, 114-131). -/
inductive Cl where
  | idle
  | waiting
  | inside
  | releasing
  deriving DecidableEq

/-- What the program does at a call and with a result; `none`: it does not make this call now
(calls of sync_semaphore.cpp 39-58, 114-131). -/
def see (cl : Nat → Cl) : Label → Option (Nat → Cl)
  | .callWait t _ =>
    match cl t with
    | .idle => some (put cl t .waiting)
    | _ => none
  | .retWait t r =>
    match cl t with
    | .waiting => some (put cl t (if r then .inside else .idle))
    | _ => some cl
  | .callRelease t =>
    match cl t with
    | .inside => some (put cl t .releasing)
    | _ => none
  | .retRelease t _ _ =>
    match cl t with
    | .releasing => some (put cl t .idle)
    | _ => some cl
  | _ => some cl

/-- The same for the labels of a step (calls of sync_semaphore.cpp 39-58, 114-131). -/
def follow (cl : Nat → Cl) : List Label → Option (Nat → Cl)
  | [] => some cl
  | l :: ls => (see cl l).bind (follow · ls)

/-- The program: steps of the library, as long as the program makes the calls; the library begins with `e` and
makes the steps `step` (calls of sync_semaphore.cpp 39-58, 114-131). -/
inductive Run {L A : Type} (step : L → A → CRes (Option (L × List Label))) (e : L) : L → List Label → (Nat → Cl) → Prop
  | start : Run step e e [] (fun _ => .idle)
  | lib {s c : L} {a : A} {tr ls : List Label} {cl cl' : Nat → Cl} : Run step e s tr cl →
      step s a = .ok (some (c, ls)) → follow cl ls = some cl' → Run step e c (tr ++ ls) cl'

/-- The same as a function, for examples (calls of sync_semaphore.cpp 39-58, 114-131). -/
def play {L A : Type} (step : L → A → CRes (Option (L × List Label))) (s : L) (tr : List Label) (cl : Nat → Cl) :
    List A → Option (L × List Label × (Nat → Cl))
  | [] => some (s, tr, cl)
  | a :: as =>
    match step s a with
    | .ok (some (c, ls)) => (follow cl ls).bind fun cl' => play step c (tr ++ ls) cl' as
    | _ => none

/-! ## A ring buffer -/

/-- Where producer and consumer are: `use` is after a successful `Wait`, `give` after the slot has been used
(calls of sync_util.cpp 346-461). -/
inductive Pos where
  | idle
  | waiting
  | use
  | give
  | releasing
  deriving DecidableEq

/-- Thread `t`, which waits for this semaphore (calls of sync_util.cpp 346-461). -/
def seeWait (t : Nat) (p : Pos) : Label → Option Pos
  | .callWait u _ => if u = t ∧ p = .idle then some .waiting else none
  | .retWait u r => some (if u = t ∧ p = .waiting then (if r then .use else .idle) else p)
  | _ => some p

/-- Thread `t`, which releases this semaphore, again and again until that succeeds
(calls of sync_util.cpp 346-461). -/
def seeRelease (t : Nat) (p : Pos) : Label → Option Pos
  | .callRelease u => if u = t ∧ p = .give then some .releasing else none
  | .retRelease u r _ => some (if u = t ∧ p = .releasing then (if r then .idle else .give) else p)
  | _ => some p

/-- The labels of a step of a semaphore that `t` waits for and `u` releases (calls of
sync_util.cpp 346-461). -/
def watch (t u : Nat) (p q : Pos) : List Label → Option (Pos × Pos)
  | [] => some (p, q)
  | l :: ls => do
    let p' ← seeWait t p l
    let q' ← seeRelease u q l
    watch t u p' q' ls

/-- The semaphores for the empty and the full slots with what has happened to them, where producer (thread 0) and
consumer (thread 1) are, the slots, how many items have been put in, and what has been taken out
(calls of sync_util.cpp 346-461); `L` are the states of a semaphore. -/
structure Ring (L α : Type) where
  empty : L
  trE : List Label
  full : L
  trF : List Label
  prod : Pos
  cons : Pos
  slots : Nat → Option α
  i : Nat
  out : List (Option α)

/-- The states that can be reached with `n` slots and the items `inp 0`, `inp 1`, ...; the semaphores begin as `e`
and `f` and make the steps `step` (calls of sync_util.cpp 346-461). -/
inductive Reach {L A α : Type} (step : L → A → CRes (Option (L × List Label))) (e f : L) (n : Nat) (inp : Nat → α) :
    Ring L α → Prop
  | start : Reach step e f n inp ⟨e, [], f, [], .idle, .idle, fun _ => none, 0, []⟩
  | empty {s : Ring L α} {a : A} {c : L} {ls : List Label} {p q : Pos} : Reach step e f n inp s →
      step s.empty a = .ok (some (c, ls)) → watch 0 1 s.prod s.cons ls = some (p, q) →
      Reach step e f n inp { s with empty := c, trE := s.trE ++ ls, prod := p, cons := q }
  | full {s : Ring L α} {a : A} {c : L} {ls : List Label} {p q : Pos} : Reach step e f n inp s →
      step s.full a = .ok (some (c, ls)) → watch 1 0 s.cons s.prod ls = some (p, q) →
      Reach step e f n inp { s with full := c, trF := s.trF ++ ls, cons := p, prod := q }
  /-- the producer fills slot `i % n` -/
  | put {s : Ring L α} : Reach step e f n inp s → s.prod = .use →
      Reach step e f n inp { s with
        slots := Client.put s.slots (s.i % n) (some (inp s.i)), i := s.i + 1, prod := .give }
  /-- the consumer reads the next slot -/
  | get {s : Ring L α} : Reach step e f n inp s → s.cons = .use →
      Reach step e f n inp { s with out := s.out ++ [s.slots (s.out.length % n)], cons := .give }

/-- What happens next, for examples (calls of sync_util.cpp 346-461). -/
inductive Do (A : Type) where
  | empty (a : A)
  | full (a : A)
  | put
  | get

/-- One such step; `none` if the program does not do this now (calls of sync_util.cpp 346-461). -/
def turn {L A α : Type} (step : L → A → CRes (Option (L × List Label))) (n : Nat) (inp : Nat → α) (s : Ring L α) :
    Do A → Option (Ring L α)
  | .empty a =>
    match step s.empty a with
    | .ok (some (c, ls)) =>
      (watch 0 1 s.prod s.cons ls).map fun r => { s with empty := c, trE := s.trE ++ ls, prod := r.1, cons := r.2 }
    | _ => none
  | .full a =>
    match step s.full a with
    | .ok (some (c, ls)) =>
      (watch 1 0 s.cons s.prod ls).map fun r => { s with full := c, trF := s.trF ++ ls, cons := r.1, prod := r.2 }
    | _ => none
  | .put =>
    if s.prod = .use then
      some { s with slots := Client.put s.slots (s.i % n) (some (inp s.i)), i := s.i + 1, prod := .give }
    else none
  | .get =>
    if s.cons = .use then some { s with out := s.out ++ [s.slots (s.out.length % n)], cons := .give } else none

/-- Several steps (calls of sync_util.cpp 346-461). -/
def turns {L A α : Type} (step : L → A → CRes (Option (L × List Label))) (n : Nat) (inp : Nat → α) (s : Ring L α) :
    List (Do A) → Option (Ring L α)
  | [] => some s
  | a :: as => (turn step n inp s a).bind (turns step n inp · as)

end Verif.Client.Sem
