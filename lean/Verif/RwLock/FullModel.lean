import Verif.RwLock.Model
import Verif.Sem.Model
import Verif.Event.Model

/-!
# Model of `Sync::ReadWriteLock` on the real semaphores and event (sync/sync_readwritelock.cpp
258-360 over sync_util.cpp 346-629)

The lock of `Verif.RwLock.Model` runs together with two semaphores of `Verif.Sem.Model` and the event
of `Verif.Event.Model`: a thread that comes to one of their operations calls the function, moves
through it step by step, and goes on with the result it returns.  All steps of all threads, inside
and outside, interleave freely.  The fields `wsem`, `csem` and `ev` of the lock (the atomic objects)
are not used here.

Simplified: the time limit passed on by `ReadLock` and `WriteLock` may be any (the arithmetic of lines
266-272 and 306-312 is left out), and they may find at any time that no time is left.
-/

namespace Verif.RwLock.Full

/-- The lock, the two semaphores and the event (sync_readwritelock.cpp 258-360 over sync_util.cpp 346-629). -/
structure S where
  l : RwLock.S
  /-- `MxPthreadWWaitMutex` -/
  w : Sem.S
  /-- `MxPthreadRCountMutex` -/
  c : Sem.S
  /-- `MxPthreadRWaitEvent` -/
  e : Event.S

/-- The operations on the objects (sync_readwritelock.cpp 258-360 over sync_util.cpp 346-629). -/
inductive Op where
  | waitW
  | relW
  | waitC
  | relC
  | waitE
  | fire
  | reset
  deriving DecidableEq

/-- The operation a thread is about to call (sync_readwritelock.cpp 268, 272, 274, 280, 282, 283,
292, 293, 308, 312, 314, 327, 333, 339, 341, 347, 357). -/
def op : Pc → Option Op
  | .rW | .wW => some .waitW
  | .rC | .uC => some .waitC
  | .rReset => some .reset
  | .rRelC _ | .uBad | .uRel _ => some .relC
  | .rRelW _ | .wRel | .xRel => some .relW
  | .wE => some .waitE
  | .uFire => some .fire
  | _ => none

/-- Where the thread goes on after the operation succeeded
(sync_readwritelock.cpp 258-360 over sync_util.cpp 346-629). -/
def next : Pc → Pc
  | .rW => .rC
  | .rC => .rReset
  | .rReset => .rLoad
  | .rRelC r => .rRelW r
  | .rRelW r => .rRet r
  | .wW => .wE
  | .wE => .wRet true
  | .wRel => .wRet false
  | .uC => .uTest
  | .uFire => .uRel true
  | .uBad => .uBadRet
  | .uRel r => .uRet r
  | .xRel => .xRet
  | p => p

/-- Ghost labels at the moment the operation takes effect
(sync_readwritelock.cpp 258-360 over sync_util.cpp 346-629). -/
def ghosts (t : Nat) : Pc → List Label
  | .wE => [.enterW t]
  | .xRel => [.exitW t]
  | _ => []

/-- What happens in an object, seen from the lock (sync_readwritelock.cpp 258-360 over sync_util.cpp 346-629). -/
inductive Ev where
  | call
  | effect
  | ret (r : Bool)

/-- Labels of a semaphore (sync_readwritelock.cpp 258-360 over sync_util.cpp 346-629). -/
def ofSem : Sem.Label → Nat × Ev
  | .callWait t _ => (t, .call)
  | .callRelease t => (t, .call)
  | .take t => (t, .effect)
  | .give t _ => (t, .effect)
  | .retWait t r => (t, .ret r)
  | .retRelease t r _ => (t, .ret r)

/-- Labels of an event (sync_readwritelock.cpp 258-360 over sync_util.cpp 346-629). -/
def ofEvent : Event.Label → Nat × Ev
  | .callWait t _ => (t, .call)
  | .callFire t => (t, .call)
  | .callReset t => (t, .call)
  | .pass t => (t, .effect)
  | .fire t => (t, .effect)
  | .reset t => (t, .effect)
  | .retWait t r => (t, .ret r)
  | .retFire t r => (t, .ret r)
  | .retReset t r => (t, .ret r)

/-- What the lock does when something happens in an object: it goes on when the call returns, after a
failure as in `RwLock.fail` (sync_readwritelock.cpp 258-360 over sync_util.cpp 346-629). -/
def react (l : RwLock.S) (x : Nat × Ev) : RwLock.S × List Label :=
  match x.2 with
  | .call => (l, [])
  | .effect => (l, ghosts x.1 (l.pc x.1))
  | .ret true => (l.goto x.1 (next (l.pc x.1)), [])
  | .ret false =>
    match fail l x.1 with
    | some r => r
    | none => (l, [])

/-- All of them, in order (sync_readwritelock.cpp 258-360 over sync_util.cpp 346-629). -/
def reacts (l : RwLock.S) : List (Nat × Ev) → RwLock.S × List Label
  | [] => (l, [])
  | x :: xs => ((reacts (react l x).1 xs).1, (react l x).2 ++ (reacts (react l x).1 xs).2)

/-- The steps a thread makes inside an object (sync_readwritelock.cpp 258-360 over sync_util.cpp 346-629). -/
inductive Inner where
  | run (t pick : Nat)
  /-- a system call fails -/
  | fail (t : Nat)
  /-- `t` leaves the condition variable without a signal -/
  | wake (t : Nat) (zero : Bool)

/-- The step as one of a semaphore (sync_readwritelock.cpp 258-360 over sync_util.cpp 346-629). -/
def Inner.sem : Inner → Sem.Act
  | .run t pick => .run t pick
  | .fail t => .fail t
  | .wake t zero => .wake t zero

/-- The step as one of an event (sync_readwritelock.cpp 258-360 over sync_util.cpp 346-629). -/
def Inner.event : Inner → Event.Act
  | .run t pick => .run t pick
  | .fail t => .fail t
  | .wake t zero => .wake t zero

/-- Actions (sync_readwritelock.cpp 258-360 over sync_util.cpp 346-629). -/
inductive Act where
  /-- a call of the lock, or a step of its code that is not an operation on an object -/
  | lock (a : RwLock.Act)
  /-- thread `t` calls the operation it is about to call, with some time limit -/
  | enter (t wait : Nat)
  /-- no time is left for the second wait (272, 312) -/
  | late (t : Nat)
  | inW (a : Inner)
  | inC (a : Inner)
  | inE (a : Inner)

/-- After `Create`: both semaphores with initial value and maximum 1, the event manual and signalled
(sync_readwritelock.cpp 247-250). -/
def init : S :=
  { l := RwLock.init, w := Sem.init 1 1, c := Sem.init 1 1, e := Event.init true true }

/-- The thread of an action of the lock (sync_readwritelock.cpp 258-360 over sync_util.cpp 346-629). -/
def actor : RwLock.Act → Nat
  | .callRead t => t
  | .callWrite t => t
  | .callReadUnlock t => t
  | .callWriteUnlock t => t
  | .run t => t
  | .fail t => t

/-- A step of the write mutex (sync_readwritelock.cpp 258-360 over sync_util.cpp 346-629). -/
def atW (s : S) (a : Sem.Act) : CRes (Option (S × List Label)) := do
  let r ← Sem.step s.w a
  match r with
  | none => .ok none
  | some (w', ls) =>
    .ok (some ({ s with l := (reacts s.l (ls.map ofSem)).1, w := w' }, (reacts s.l (ls.map ofSem)).2))

/-- A step of the counter mutex (sync_readwritelock.cpp 258-360 over sync_util.cpp 346-629). -/
def atC (s : S) (a : Sem.Act) : CRes (Option (S × List Label)) := do
  let r ← Sem.step s.c a
  match r with
  | none => .ok none
  | some (c', ls) =>
    .ok (some ({ s with l := (reacts s.l (ls.map ofSem)).1, c := c' }, (reacts s.l (ls.map ofSem)).2))

/-- A step of the event (sync_readwritelock.cpp 258-360 over sync_util.cpp 346-629). -/
def atE (s : S) (a : Event.Act) : CRes (Option (S × List Label)) := do
  let r ← Event.step s.e a
  match r with
  | none => .ok none
  | some (e', ls) =>
    .ok (some ({ s with l := (reacts s.l (ls.map ofEvent)).1, e := e' },
      (reacts s.l (ls.map ofEvent)).2))

/-- The thread is inside none of the objects (sync_readwritelock.cpp 258-360 over sync_util.cpp 346-629). -/
def outside (s : S) (t : Nat) : Bool :=
  decide (s.w.pc t = .idle) && decide (s.c.pc t = .idle) && decide (s.e.pc t = .idle)

/-- The time test before the second wait fails (sync_readwritelock.cpp 272, 312). -/
def late (s : S) (t : Nat) : Option (S × List Label) :=
  if outside s t then
    match s.l.pc t with
    | .rC => some ({ s with l := s.l.goto t (.rRelW false) }, [])
    | .wE => some ({ s with l := s.l.goto t .wRel }, [])
    | _ => none
  else none

/-- A step of the lock outside the objects (sync_readwritelock.cpp 258-360 over sync_util.cpp 346-629). -/
def inLock (s : S) : Option (RwLock.S × List Label) → Option (S × List Label)
  | none => none
  | some (l', ls) => some ({ s with l := l' }, ls)

/-- The time limit for the counter mutex: `ReadUnlock` has none (sync_readwritelock.cpp 272, 327). -/
def limit : Pc → Nat → Nat
  | .uC, _ => Sem.infinite
  | _, wait => wait

/-- One action; `none` if it is not possible in this state
(sync_readwritelock.cpp 258-360 over sync_util.cpp 346-629). -/
def step (free : Bool) (s : S) : Act → CRes (Option (S × List Label))
  | .lock a =>
    if (op (s.l.pc (actor a))).isSome then .ok none
    else .ok (inLock s (RwLock.step free s.l a))
  | .enter t wait =>
    match op (s.l.pc t) with
    | none => .ok none
    | some .waitW => atW s (.callWait t wait)
    | some .relW => atW s (.callRelease t)
    | some .waitC => atC s (.callWait t (limit (s.l.pc t) wait))
    | some .relC => atC s (.callRelease t)
    | some .waitE => atE s (.callWait t wait)
    | some .fire => atE s (.callFire t)
    | some .reset => atE s (.callReset t)
  | .late t => .ok (late s t)
  | .inW a => atW s a.sem
  | .inC a => atC s a.sem
  | .inE a => atE s a.event

/-- An execution: the actions one after the other (impossible ones change nothing), with the labels
in order (sync_readwritelock.cpp 258-360 over sync_util.cpp 346-629). -/
def exec (free : Bool) (s : S) : List Act → CRes (S × List Label)
  | [] => .ok (s, [])
  | a :: as => do
    let r ← step free s a
    match r with
    | none => exec free s as
    | some (s', l) => do
      let (s'', ls) ← exec free s' as
      .ok (s'', l ++ ls)

/-- The action lets a system call fail: inside an object, or by ending a wait without limit as if time
had run out (sync_readwritelock.cpp 258-360 over sync_util.cpp 346-629). -/
def faults (s : S) : Act → Bool
  | .inW (.fail _) | .inC (.fail _) | .inE (.fail _) => true
  | .inW (.wake t false) => decide (s.w.pc t = .wBlocked Sem.infinite)
  | .inC (.wake t false) => decide (s.c.pc t = .wBlocked Sem.infinite)
  | .inE (.wake t false) => decide (s.e.pc t = .wBlocked Event.infinite)
  | _ => false

/-- A thread blocked in one of the objects (sync_readwritelock.cpp 258-360 over sync_util.cpp 346-629). -/
def inside (s : S) (t : Nat) : Prop :=
  (∃ w, s.w.pc t = .wBlocked w) ∨ (∃ w, s.c.pc t = .wBlocked w) ∨ ∃ w, s.e.pc t = .wBlocked w

end Verif.RwLock.Full
