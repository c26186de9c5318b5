import Verif.SyncLife.Model

/-!
# Model of the life of `Sync::Mutex` (sync_mutex.cpp 127-258, POSIX branch)

The memory of a mutex is that of a semaphore (`Obj` with class `sem`); besides it has an owner and a counter.  `down` are
the blocks whose semaphore was taken through them and not released: of a named mutex the other processes wait for these.

Simplified: whole calls are steps (see `Verif.Mutex` for the steps inside); whether waiting for a semaphore that is not
`down` succeeds is an input.
-/

namespace Verif.SyncLife.Mtx

/-- A mutex (sync_mutex.h 49-58); thread numbers are positive, 0 is nobody. -/
structure M where
  obj : Obj
  owner : Nat
  count : Nat

/-- Memory, mutexes (`none`: destroyed) (sync_mutex.cpp 127-258). -/
structure W where
  blks : List Blk
  down : List Nat
  ms : List (Option M)

/-- `this` (sync_mutex.cpp 127-258). -/
def getM (w : W) (i : Nat) : CRes M :=
  match w.ms[i]? with
  | some (some m) => .ok m
  | _ => .error .badPtr

/-- The constructor (sync_mutex.cpp 129-132). -/
def construct (w : W) : W := { w with ms := w.ms ++ [some ⟨⟨.sem, false, none, none, 0, false, none⟩, 0, 0⟩] }

/-- Use of the semaphore through the pointers of `MxPthreadMutex`: the block (sync_mutex.cpp 220, 248). -/
def semBlk (p : Par) (w : W) (m : M) : CRes Nat :=
  match m.obj.wrap with
  | none => .error .uninit
  | some (b, pos) => do
    touchAll p w.blks b (p.parts pos .sem)
    .ok b

/-- `Create` (sync_mutex.cpp 152-201) by thread `t`. -/
def create (p : Par) (w : W) (i t : Nat) (name : Option Found) : CRes (Bool × W) := do
  let m ← getM w i
  if m.count > 0 then
    if m.owner = t then do
      let bs ← release p w.blks m.obj
      let (r, bs, o) ← createSync p bs m.obj name
      .ok (r, { w with blks := bs, ms := w.ms.set i (some ⟨o, 0, 0⟩) })
    else .ok (false, w)
  else do
    let (r, bs, o) ← createSync p w.blks m.obj name
    .ok (r, { w with blks := bs, ms := w.ms.set i (some ⟨o, m.owner, m.count⟩) })

/-- `Lock` (sync_mutex.cpp 203-228) by thread `t`; `got`: the wait succeeds if it can. -/
def lock (p : Par) (w : W) (i t : Nat) (got : Bool) : CRes (Bool × W) := do
  let m ← getM w i
  if m.owner = t then .ok (true, { w with ms := w.ms.set i (some { m with count := (m.count + 1) % 4294967296 }) })
  else do
    let b ← semBlk p w m
    if got = true ∧ b ∉ w.down then
      .ok (true, { w with down := b :: w.down, ms := w.ms.set i (some { m with owner := t, count := 1 }) })
    else .ok (false, w)

/-- `Unlock` (sync_mutex.cpp 230-257) by thread `t`. -/
def unlock (p : Par) (w : W) (i t : Nat) (all : Bool) : CRes (Bool × W) := do
  let m ← getM w i
  if m.owner ≠ t then .ok (false, w)
  else
    let c := ((if all then 1 else m.count) + 4294967295) % 4294967296
    if c = 0 then do
      let b ← semBlk p w m
      .ok (true, { w with down := w.down.erase b, ms := w.ms.set i (some { m with owner := 0, count := 0 }) })
    else .ok (true, { w with ms := w.ms.set i (some { m with count := c }) })

/-- The destructor (sync_mutex.cpp 134-150) called by thread `t`. -/
def destroy (p : Par) (w : W) (i t : Nat) : CRes (Bool × W) := do
  let (_, w) ← unlock p w i t true
  let m ← getM w i
  let bs ← release p w.blks m.obj
  .ok (true, { w with blks := bs, ms := w.ms.set i none })

/-- The calls, each by a thread (sync_mutex.cpp 127-258). -/
inductive Op where
  | construct
  | create (i t : Nat) (name : Option Found)
  | lock (i t : Nat) (got : Bool)
  | unlock (i t : Nat) (all : Bool)
  | destroy (i t : Nat)

/-- One call (sync_mutex.cpp 127-258). -/
def step (p : Par) (w : W) : Op → CRes (Bool × W)
  | .construct => .ok (true, construct w)
  | .create i t name => create p w i t name
  | .lock i t got => lock p w i t got
  | .unlock i t all => unlock p w i t all
  | .destroy i t => destroy p w i t

/-- A history of calls (sync_mutex.cpp 127-258). -/
def run (p : Par) (w : W) : List Op → CRes (List Bool × W)
  | [] => .ok ([], w)
  | o :: os => do
    let (r, w) ← step p w o
    let (rs, w) ← run p w os
    .ok (r :: rs, w)

end Verif.SyncLife.Mtx
