import Verif.Client.RingCore

/-! # A pool guarded by a `Semaphore` (C137) and a ring buffer with two semaphores (C138) -/

namespace Verif.Client.Sem

open Verif.Sem (Label Act S step init isRet isCall)

/-! ## The pool -/

/-- However many threads there are, whatever they call, whichever calls fail or time out and however their steps
interleave: at most as many threads as `Create` was told are inside. -/
theorem pool_bound (n : Nat) (s : S) (tr : List Label) (cl : Nat → Cl) (h : Run step (init n n) s tr cl) (ts : List Nat)
    (hn : ts.Nodup) (hi : ∀ t ∈ ts, cl t = .inside) : ts.length ≤ n :=
  pool (by have := sem_credit n n; rwa [Nat.min_self] at this) h hn hi

/-- Two units, three threads: 1 and 2 are inside, 3 waits; when 1 leaves, 3 gets in. -/
example : ∃ s tr cl s' tr' cl', Run step (init 2 2) s tr cl ∧ cl 1 = .inside ∧ cl 2 = .inside ∧ cl 3 = .waiting ∧
    Run step (init 2 2) s' tr' cl' ∧ cl' 1 = .idle ∧ cl' 2 = .inside ∧ cl' 3 = .inside :=
  let as := [Act.callWait 1 0] ++ List.replicate 4 (.run 1 0) ++ [.callWait 2 0] ++ List.replicate 4 (.run 2 0) ++
    [.callWait 3 Verif.Sem.infinite] ++ List.replicate 2 (.run 3 0)
  ⟨_, _, _, _, _, _, run_play as .start rfl, rfl, rfl, rfl,
    run_play (as ++ [.callRelease 1] ++ List.replicate 7 (.run 1 3) ++ List.replicate 4 (.run 3 0)) .start rfl,
    rfl, rfl, rfl⟩

/-! ## The ring buffer -/

/-- One producer and one consumer, whatever time limits they give, whichever calls fail or time out and however their
steps interleave: what has been taken out are the first items that were put in, in order, each once; never more than
`n` items are in the buffer; and every item that is in it is in its slot. -/
theorem ring_in_order {α : Type} (n : Nat) (inp : Nat → α) (s : Ring S α)
    (h : Reach step (init n n) (init 0 n) n inp s) :
    s.out = ((List.range s.out.length).map fun k => some (inp k)) ∧ s.out.length ≤ s.i ∧ s.i ≤ s.out.length + n ∧
    ∀ k, s.out.length ≤ k → k < s.i → s.slots (k % n) = some (inp k) :=
  reach_in_order (by have := sem_credit n n; rwa [Nat.min_self] at this)
    (by have := sem_credit 0 n; rwa [Nat.zero_min] at this) h

/-- A slot is filled only when its item has been taken out, and read only when it has been filled. -/
theorem ring_turns {α : Type} (n : Nat) (inp : Nat → α) (s : Ring S α)
    (h : Reach step (init n n) (init 0 n) n inp s) :
    (s.prod = .use → ∀ k, s.out.length ≤ k → k < s.i → k % n ≠ s.i % n) ∧
    (s.cons = .use → s.slots (s.out.length % n) = some (inp s.out.length)) :=
  reach_in_turn (by have := sem_credit n n; rwa [Nat.min_self] at this)
    (by have := sem_credit 0 n; rwa [Nat.zero_min] at this) h

/-- The producer puts an item in. -/
def produce : List (Do Act) :=
  [.empty (.callWait 0 5)] ++ List.replicate 4 (.empty (.run 0 1)) ++ [.put, .full (.callRelease 0)] ++
    List.replicate 7 (.full (.run 0 1))

/-- The consumer takes one out. -/
def consume : List (Do Act) :=
  [.full (.callWait 1 5)] ++ List.replicate 4 (.full (.run 1 0)) ++ [.get, .empty (.callRelease 1)] ++
    List.replicate 7 (.empty (.run 1 0))

/-- Two slots; three items put in, two taken out, and the producer waits for a slot: it is full again. -/
example : ∃ s : Ring S Nat, Reach step (init 2 2) (init 0 2) 2 (fun k => k * k + 7) s ∧ s.out = [some 7, some 8] ∧ s.i = 4 ∧ s.prod = .waiting ∧
    s.slots 0 = some 11 ∧ s.slots 1 = some 16 :=
  ⟨_, reach_turns (produce ++ consume ++ produce ++ produce ++ consume ++ produce ++ [.empty (.callWait 0 5)] ++
    List.replicate 2 (.empty (.run 0 1))) .start rfl, rfl, rfl, rfl, rfl, rfl⟩

/-- A failing `ReleaseUnixSemaphore` is repeated. -/
example : ∃ s : Ring S Nat, Reach step (init 2 2) (init 0 2) 2 (fun k => k) s ∧ s.out = [some 0] ∧ s.trF.countP isFail = 1 :=
  ⟨_, reach_turns ([.empty (.callWait 0 5)] ++ List.replicate 4 (.empty (.run 0 1)) ++ [.put, .full (.callRelease 0),
    .full (.fail 0), .full (.callRelease 0)] ++ List.replicate 7 (.full (.run 0 1)) ++ consume) .start rfl, rfl, rfl⟩

end Verif.Client.Sem
