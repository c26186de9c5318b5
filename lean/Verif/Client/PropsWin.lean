import Verif.Client.WinCore

/-! # The programs of C137, C139 and C140 on Windows -/

namespace Verif.Client.Win

open Verif.Event (Label)
open Verif.Client.Sem (Ring Reach)

/-- The pool of C137 with the Windows semaphore: at most as many threads as `Create` was told are inside. -/
theorem win_pool_bound (n : Nat) (s : W) (tr : List Verif.Sem.Label) (cl : Nat → Sem.Cl)
    (h : Sem.Run (Event.boxStep step) (sem n) s tr cl) (ts : List Nat) (hn : ts.Nodup) (hi : ∀ t ∈ ts, cl t = .inside) :
    ts.length ≤ n :=
  Sem.pool (Event.box_credit (credit (fun _ => rfl) rfl)) h hn hi

/-- Two units, three threads: 1 and 2 are inside, 3 waits; when 1 leaves, 3 gets in. -/
example : ∃ s tr cl s' tr' cl', Sem.Run (Event.boxStep step) (sem 2) s tr cl ∧ cl 1 = .inside ∧ cl 2 = .inside ∧
    cl 3 = .waiting ∧
    Sem.Run (Event.boxStep step) (sem 2) s' tr' cl' ∧ cl' 1 = .idle ∧ cl' 2 = .inside ∧ cl' 3 = .inside :=
  let as := [Act.callWait 1 0, .run 1, .callWait 2 0, .callWait 3 5, .run 2, .run 2, .run 1]
  ⟨_, _, _, _, _, _, Sem.run_play as .start rfl, rfl, rfl, rfl,
    Sem.run_play (as ++ [.callFire 1, .run 1, .run 3, .run 3, .run 1]) .start rfl, rfl, rfl, rfl⟩

/-- The mailbox of C139 with two Windows events. -/
theorem win_mailbox_in_order {α : Type} (inp : Nat → α) (s : Ring W α)
    (h : Reach (Event.boxStep step) (event false true) (event false false) 1 inp s) :
    s.out = ((List.range s.out.length).map fun k => some (inp k)) ∧ s.out.length ≤ s.i ∧ s.i ≤ s.out.length + 1 ∧
    (s.out.length < s.i → s.slots 0 = some (inp s.out.length)) := by
  obtain ⟨h1, h2, h3, h4⟩ := Sem.reach_in_order (n := 1) (Event.box_credit (credit (fun _ => rfl) rfl))
    (Event.box_credit (credit (fun _ => rfl) rfl)) h
  refine ⟨h1, h2, h3, fun hlt => ?_⟩
  have := h4 _ (Nat.le_refl _) hlt
  rwa [Nat.mod_one] at this

/-- The box is filled only when everything sent has been received, and read only when there is an item that has not
been. -/
theorem win_mailbox_turns {α : Type} (inp : Nat → α) (s : Ring W α)
    (h : Reach (Event.boxStep step) (event false true) (event false false) 1 inp s) :
    (s.prod = .use → s.i = s.out.length) ∧ (s.cons = .use → s.slots 0 = some (inp s.out.length)) := by
  obtain ⟨h1, h2⟩ := Sem.reach_in_turn (n := 1) (Event.box_credit (credit (fun _ => rfl) rfl))
    (Event.box_credit (credit (fun _ => rfl) rfl)) h
  obtain ⟨_, h3, _⟩ := win_mailbox_in_order inp s h
  refine ⟨fun hu => ?_, fun hu => by have := h2 hu; rwa [Nat.mod_one] at this⟩
  by_cases hlt : s.out.length < s.i
  · exact absurd (by rw [Nat.mod_one, Nat.mod_one]) (h1 hu _ (Nat.le_refl _) hlt)
  · omega

/-- The sender puts an item in, the receiver takes it out. -/
def send : List (Sem.Do Act) :=
  [.empty (.callWait 0 5), .empty (.run 0), .empty (.run 0), .put, .full (.callFire 0), .full (.run 0), .full (.run 0)]

def receive : List (Sem.Do Act) :=
  [.full (.callWait 1 5), .full (.run 1), .full (.run 1), .get, .empty (.callFire 1), .empty (.run 1), .empty (.run 1)]

/-- Three items sent, two received, the sender waits. -/
example : ∃ s : Ring W Nat, Reach (Event.boxStep step) (event false true) (event false false) 1 (fun k => k * k + 7) s ∧
    s.out = [some 7, some 8] ∧ s.i = 3 ∧ s.prod = .waiting ∧ s.slots 0 = some 11 :=
  ⟨_, Sem.reach_turns (send ++ receive ++ send ++ receive ++ send ++ [.empty (.callWait 0 5)]) .start rfl, rfl, rfl, rfl,
    rfl⟩

/-- Publication of C140 with a Windows event, manual or not. -/
theorem win_published {σ : Type} (manual : Bool) (d : σ) (s : Event.St W σ) (h : Event.Run step (event manual false) d s)
    (t : Nat) (seen : List σ) (hc : s.cl t = .inside seen) : s.pub = true ∧ ∀ x ∈ seen, x = s.data :=
  have he : Event.NotBefore step (event manual false) := notBefore (fun _ => rfl) rfl
  have hi := Event.run_inv he h
  ⟨hi.pub he hc, hi.seen t seen hc⟩

/-- A manual event, two readers that wait while the publisher still works on the data: both read the finished data. -/
example : ∃ s : Event.St W Nat, Event.Run step (event true false) 0 s ∧ s.cl 1 = .inside [42, 42] ∧
    s.cl 2 = .inside [42] ∧ s.data = 42 :=
  ⟨_, Event.run_play [.build 7, .lib (.callWait 1 5), .lib (.callWait 2 5), .build 42, .lib (.callFire 0), .lib (.run 0),
    .lib (.run 1), .lib (.run 2), .lib (.run 2), .lib (.run 1), .read 1, .read 2, .read 1] .start rfl, rfl, rfl, rfl⟩

end Verif.Client.Win
