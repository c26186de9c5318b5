import Verif.Client.EventCore

/-! # A mailbox with two automatic events (C139) and publication with an event (C140) -/

namespace Verif.Client.Event

open Verif.Event (Label Act S step init)
open Verif.Client.Sem (Ring Reach)

/-! ## The mailbox -/

/-- One sender and one receiver, an automatic event that begins signalled and one that does not; whatever time limits
they give, whichever calls fail or time out and however their steps interleave: what has been received are the first
items that were sent, in order, each once; at most one item is under way, and it is in the box. -/
theorem mailbox_in_order {α : Type} (inp : Nat → α) (s : Ring S α)
    (h : Reach (boxStep step) (init false true) (init false false) 1 inp s) :
    s.out = ((List.range s.out.length).map fun k => some (inp k)) ∧ s.out.length ≤ s.i ∧ s.i ≤ s.out.length + 1 ∧
    (s.out.length < s.i → s.slots 0 = some (inp s.out.length)) := by
  obtain ⟨h1, h2, h3, h4⟩ := Sem.reach_in_order (n := 1) (box_credit (posix_credit true)) (box_credit (posix_credit false)) h
  refine ⟨h1, h2, h3, fun hlt => ?_⟩
  have := h4 _ (Nat.le_refl _) hlt
  rwa [Nat.mod_one] at this

/-- The box is filled only when everything sent has been received, and read only when there is an item that has not
been. -/
theorem mailbox_turns {α : Type} (inp : Nat → α) (s : Ring S α)
    (h : Reach (boxStep step) (init false true) (init false false) 1 inp s) :
    (s.prod = .use → s.i = s.out.length) ∧ (s.cons = .use → s.slots 0 = some (inp s.out.length)) := by
  obtain ⟨h1, h2⟩ := Sem.reach_in_turn (n := 1) (box_credit (posix_credit true)) (box_credit (posix_credit false)) h
  obtain ⟨_, h3, _, _⟩ := Sem.reach_in_order (n := 1) (box_credit (posix_credit true)) (box_credit (posix_credit false)) h
  refine ⟨fun hu => ?_, fun hu => by have := h2 hu; rwa [Nat.mod_one] at this⟩
  by_cases hlt : s.out.length < s.i
  · exact absurd (by rw [Nat.mod_one, Nat.mod_one]) (h1 hu _ (Nat.le_refl _) hlt)
  · omega

/-- The sender puts an item in. -/
def send : List (Sem.Do Act) :=
  [.empty (.callWait 0 5)] ++ List.replicate 4 (.empty (.run 0 1)) ++ [.put, .full (.callFire 0)] ++
    List.replicate 4 (.full (.run 0 1))

/-- The receiver takes it out. -/
def receive : List (Sem.Do Act) :=
  [.full (.callWait 1 5)] ++ List.replicate 4 (.full (.run 1 0)) ++ [.get, .empty (.callFire 1)] ++
    List.replicate 4 (.empty (.run 1 0))

/-- Three items sent, two received, the sender waits. -/
example : ∃ s : Ring S Nat, Reach (boxStep step) (init false true) (init false false) 1 (fun k => k * k + 7) s ∧
    s.out = [some 7, some 8] ∧ s.i = 3 ∧ s.prod = .waiting ∧ s.slots 0 = some 11 :=
  ⟨_, Sem.reach_turns (send ++ receive ++ send ++ receive ++ send ++ [.empty (.callWait 0 5)] ++
    List.replicate 2 (.empty (.run 0 1))) .start rfl, rfl, rfl, rfl, rfl⟩

/-! ## Publication -/

/-- Whoever has come back from `Wait` with true: the publisher has called `Fire`, so the data does not change any
more, and everything this thread has read is the data as it is now. -/
theorem published {σ : Type} (manual : Bool) (d : σ) (s : St S σ) (h : Run step (init manual false) d s) (t : Nat)
    (seen : List σ) (hc : s.cl t = .inside seen) : s.pub = true ∧ ∀ x ∈ seen, x = s.data :=
  have hi := run_inv (posix_notBefore manual) h
  ⟨hi.pub (posix_notBefore manual) hc, hi.seen t seen hc⟩

/-- A manual event, two readers that wait while the publisher still works on the data: both read the finished data. -/
example : ∃ s : St S Nat, Run step (init true false) 0 s ∧ s.cl 1 = .inside [42, 42] ∧ s.cl 2 = .inside [42] ∧ s.data = 42 :=
  ⟨_, run_play ([.build 7, .lib (.callWait 1 Verif.Event.infinite)] ++ List.replicate 4 (.lib (.run 1 0)) ++
    [.build 41, .lib (.callWait 2 Verif.Event.infinite)] ++ List.replicate 4 (.lib (.run 2 0)) ++
    [.build 42, .lib (.callFire 0)] ++ List.replicate 4 (.lib (.run 0 0)) ++ List.replicate 4 (.lib (.run 1 0)) ++
    [.read 1] ++ List.replicate 4 (.lib (.run 2 0)) ++ [.read 2, .read 1]) .start rfl, rfl, rfl, rfl⟩

end Verif.Client.Event
