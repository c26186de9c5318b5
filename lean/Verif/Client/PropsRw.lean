import Verif.Client.RwCore

/-! # Data protected by a `ReadWriteLock` is read whole and loses no update (C136) -/

namespace Verif.Client.Rw

open Verif.RwLock (Label)
open Verif.RwLock.Spec (Few)
open Spec (serial)

variable {S A σ : Type}

theorem serial_fold (f : Nat → σ → σ) (d : σ) (ts : List Nat) : ts.foldl (fun d t => f t d) d = serial f d ts := by
  induction ts generalizing d with
  | nil => rfl
  | cons t ts ih => exact ih _

theorem good_reads {step : S → A → CRes (Option (S × List Label))} {init : S} {P : List Label → Prop}
    (g : Good step init P) {f : Nat → σ → σ} {d : σ} {s : St S σ} (h : Run step init f d s) (hP : P s.tr) :
    s.data = serial f d s.stores ∧ (∀ t v, s.cl t = .writing (some v) → v = s.data) ∧ s.done <+: s.stores ∧
    ∀ t seen, s.cl t = .reading seen → s.done = s.stores ∧ ∀ x ∈ seen, x = serial f d s.done := by
  have hi := inv g h hP
  have hd : s.data = serial f d s.stores := by rw [← serial_fold]; exact hi.data
  refine ⟨hd, hi.loaded, hi.pre, fun t seen e => ?_⟩
  have hc := calm g h hP e
  refine ⟨hc, fun x hx => ?_⟩
  rw [hc, ← hd]
  exact hi.seen t seen e x hx

/-- POSIX: whatever the threads do, whichever calls fail or time out and however the steps interleave, as long as
fewer than 2^32 - 1 readers are inside at once: the data is what the stores give one after the other, what a
writer has loaded is what the data still is, and everything a reader has seen since its `ReadLock` is the data as
it was when `WriteUnlock` was last called, with no store since. -/
theorem posix_reads_whole (f : Nat → σ → σ) (d : σ) (s : St RwLock.Full.S σ)
    (h : Run (RwLock.Full.step false) RwLock.Full.init f d s) (hf : Few s.tr) :
    s.data = serial f d s.stores ∧ (∀ t v, s.cl t = .writing (some v) → v = s.data) ∧ s.done <+: s.stores ∧
    ∀ t seen, s.cl t = .reading seen → s.done = s.stores ∧ ∀ x ∈ seen, x = serial f d s.done :=
  good_reads posix_good h hf

/-- Windows: the same for any number of readers. -/
theorem win_reads_whole (f : Nat → σ → σ) (d : σ) (s : St WinRwLock.S σ)
    (h : Run (fun s a => .ok (WinRwLock.step false s a)) WinRwLock.init f d s) :
    s.data = serial f d s.stores ∧ (∀ t v, s.cl t = .writing (some v) → v = s.data) ∧ s.done <+: s.stores ∧
    ∀ t seen, s.cl t = .reading seen → s.done = s.stores ∧ ∀ x ∈ seen, x = serial f d s.done :=
  good_reads win_good h trivial

/-! ## Examples -/

theorem run_play {step : S → A → CRes (Option (S × List Label))} {init : S} {f : Nat → σ → σ} {d : σ}
    (as : List (Do A)) : ∀ {s s' : St S σ}, Run step init f d s → play step f s as = some s' →
    Run step init f d s' := by
  induction as with
  | nil => intro s s' h e; cases e; exact h
  | cons a as ih =>
    intro s s' h e
    rw [play] at e
    cases e1 : play1 step f s a with
    | none => rw [e1] at e; cases e
    | some s1 =>
      rw [e1] at e
      refine ih ?_ e
      cases a with
      | lib a =>
        simp only [play1] at e1
        split at e1
        · rename_i c ls hs
          cases hf : follow s.cl ls with
          | none => rw [hf] at e1; cases e1
          | some cl => rw [hf] at e1; cases e1; exact .lib h hs hf
        · cases e1; exact h
      | read t =>
        simp only [play1] at e1
        split at e1
        · cases e1; exact .read h (by assumption)
        · cases e1
      | load t =>
        simp only [play1] at e1
        split at e1
        · cases e1; exact .load h (by assumption)
        · cases e1
      | store t =>
        simp only [play1] at e1
        split at e1
        · cases e1; exact .store h (by assumption)
        · cases e1

/-- Writer 3 changes the data twice; reader 1 calls in between and gets in after `WriteUnlock`; readers 1 and 2 read
together, 1 twice, while writer 4 waits. -/
def demo {A : Type} (call : RwLock.Act → A) (go : Nat → List (Do A)) : List (Do A) :=
  [.lib (call (.callWrite 3))] ++ go 3 ++ [.load 3, .store 3, .lib (call (.callRead 1))] ++ go 1 ++
    [.load 3, .store 3, .lib (call (.callWriteUnlock 3))] ++ go 3 ++ go 1 ++ [.read 1, .lib (call (.callRead 2))] ++
    go 2 ++ [.read 2, .lib (call (.callWrite 4))] ++ go 4 ++ [.read 1]

/-- On POSIX. -/
def posixDemo : List (Do RwLock.Full.Act) :=
  demo .lock fun t => ((List.replicate 6 (RwLock.Full.go t ++ List.replicate 9 (.inW (.run t 1)))).flatten).map .lib

/-- One half of a pair, then the other. -/
def firstTwo : Nat → Nat × Nat → Nat × Nat := fun t p => if p.1 = p.2 then (p.1 + t, p.2) else (p.1, p.1)

/-- The two halves of a pair are changed one after the other; the readers see (3, 3), never (3, 0). -/
example : ∃ s : St WinRwLock.S (Nat × Nat),
    Run (fun s a => .ok (WinRwLock.step false s a)) WinRwLock.init firstTwo (0, 0) s ∧ s.data = (3, 3) ∧
    s.stores = [3, 3] ∧ s.cl 1 = .reading [(3, 3), (3, 3)] ∧ s.cl 2 = .reading [(3, 3)] ∧ s.cl 4 = .wlocking :=
  ⟨_, run_play (demo id fun t => List.replicate 9 (.lib (.run t))) .start rfl, rfl, rfl, rfl, rfl, rfl⟩

set_option maxRecDepth 100000 in
example : ∃ s : St RwLock.Full.S (Nat × Nat),
    Run (RwLock.Full.step false) RwLock.Full.init firstTwo (0, 0) s ∧ s.data = (3, 3) ∧
    s.stores = [3, 3] ∧ s.cl 1 = .reading [(3, 3), (3, 3)] ∧ s.cl 2 = .reading [(3, 3)] ∧ s.cl 4 = .wlocking :=
  ⟨_, run_play posixDemo .start rfl, rfl, rfl, rfl, rfl, rfl⟩

end Verif.Client.Rw
