import Verif.Client.MutexCore
import Verif.Client.MutexSpec

/-! # Data protected by a `Mutex` loses no update (C135) -/

namespace Verif.Client

open Verif.Mutex (Label)
open Spec (serial)

variable {S A σ : Type}

theorem serial_fold (f : Nat → σ → σ) (d : σ) (ts : List Nat) : ts.foldl (fun d t => f t d) d = serial f d ts := by
  induction ts generalizing d with
  | nil => rfl
  | cons t ts ih => exact ih _

/-- POSIX: whatever the threads do, whichever calls fail or time out and however the steps interleave, the data is what
the stores give one after the other, and a thread that has loaded the data and not yet stored has loaded what
the data still is. -/
theorem posix_no_lost_update (f : Nat → σ → σ) (d : σ) (s : St Mutex.Full.S σ)
    (h : Run Mutex.Full.step Mutex.Full.init (fun _ => none) f d s) :
    s.data = serial f d s.stores ∧ ∀ t o v, s.cl t = .loaded o v → v = s.data := by
  have hi := inv posix_good h
  exact ⟨by rw [← serial_fold]; exact hi.data, hi.seen⟩

/-- Windows: the same, also if threads end while they are outside. -/
theorem win_no_lost_update (f : Nat → σ → σ) (d : σ) (s : St WinMutex.S σ)
    (h : Run WinMutex.step WinMutex.init winQuits f d s) :
    s.data = serial f d s.stores ∧ ∀ t o v, s.cl t = .loaded o v → v = s.data := by
  have hi := inv win_good h
  exact ⟨by rw [← serial_fold]; exact hi.data, hi.seen⟩

/-- A thread is inside: its `Lock` has returned true and it has not called `Unlock` (successfully) since. -/
def In (c : Cl σ) : Prop := (∃ o, c = .inside o) ∨ ∃ o v, c = .loaded o v

theorem in_one {step : S → A → CRes (Option (S × List Label))} {init : S} {quits : A → Option Nat}
    (g : Good step init quits) {f : Nat → σ → σ} {d : σ} {s : St S σ} (h : Run step init quits f d s) {t u : Nat}
    (ht : In (s.cl t)) (hu : In (s.cl u)) : t = u := by
  have hi := inv g h
  have key : ∀ t, In (s.cl t) → ∃ o, Verif.Mutex.Spec.Holds t o s.tr := by
    intro t h
    rcases h with ⟨o, h⟩ | ⟨o, v, h⟩
    · exact ⟨o, holds_of hi.j (.inl h)⟩
    · exact ⟨o, holds_of hi.j (.inr ⟨v, h⟩)⟩
  obtain ⟨o, h1⟩ := key t ht
  obtain ⟨o', h2⟩ := key u hu
  exact g.one _ _ hi.trace hi.sh t o u o' h1 h2

/-- At most one thread of the program is inside, whichever objects of the mutex the threads use. -/
theorem posix_one_inside (f : Nat → σ → σ) (d : σ) (s : St Mutex.Full.S σ)
    (h : Run Mutex.Full.step Mutex.Full.init (fun _ => none) f d s) (t u : Nat) (ht : In (s.cl t)) (hu : In (s.cl u)) :
    t = u := in_one posix_good h ht hu

/-- The same on Windows. -/
theorem win_one_inside (f : Nat → σ → σ) (d : σ) (s : St WinMutex.S σ)
    (h : Run WinMutex.step WinMutex.init winQuits f d s) (t u : Nat) (ht : In (s.cl t)) (hu : In (s.cl u)) :
    t = u := in_one win_good h ht hu

/-! ## Examples -/

theorem run_play {step : S → A → CRes (Option (S × List Label))} {init : S} {quits : A → Option Nat}
    {f : Nat → σ → σ} {d : σ} (as : List (Do A)) : ∀ {s s' : St S σ}, Run step init quits f d s →
    play step quits f s as = some s' → Run step init quits f d s' := by
  induction as with
  | nil => intro s s' h e; cases e; exact h
  | cons a as ih =>
    intro s s' h e
    rw [play] at e
    cases e1 : play1 step quits f s a with
    | none => rw [e1] at e; cases e
    | some s1 =>
      rw [e1] at e
      refine ih ?_ e
      cases a with
      | lib a =>
        simp only [play1] at e1
        split at e1
        · rename_i c ls hs
          split at e1
          · rename_i hq
            cases hf : follow s.cl ls with
            | none => rw [hf] at e1; cases e1
            | some cl =>
              rw [hf] at e1
              cases e1
              refine .lib h hs hf fun t ht => ?_
              rw [ht] at hq
              exact hq
          · cases e1
        · cases e1
      | load t =>
        simp only [play1] at e1
        split at e1
        · cases e1; exact .load h (by assumption)
        · cases e1
      | store t =>
        simp only [play1] at e1
        split at e1
        · cases e1; exact .store h (by assumption)
        · cases e1

/-- Threads 1 and 2 lock through different objects of a mutex; thread 2 blocks while thread 1 is between its load and
its store, and gets in afterwards. -/
def posixDemo : List (Do Mutex.Full.Act) :=
  let m a := Do.lib (Mutex.Full.Act.mutex a)
  [m (.callLock 1 0 Mutex.infinite)] ++ List.replicate 3 (m (.run 1)) ++ [.lib (.enter 1)] ++
    List.replicate 4 (.lib (.run 1 0)) ++ List.replicate 4 (m (.run 1)) ++ [.load 1] ++
    [m (.callLock 2 7 Mutex.infinite)] ++ List.replicate 3 (m (.run 2)) ++ [.lib (.enter 2)] ++
    List.replicate 2 (.lib (.run 2 0)) ++ [.store 1] ++
    [m (.callUnlock 1 0 false)] ++ List.replicate 7 (m (.run 1)) ++ [.lib (.enter 1)] ++
    List.replicate 7 (.lib (.run 1 2)) ++ [m (.run 1)] ++ List.replicate 4 (.lib (.run 2 0)) ++
    List.replicate 4 (m (.run 2)) ++ [.load 2, .store 2, .load 2]

/-- Thread 1 appends 1, thread 2 appends 2 and has loaded again. -/
example : ∃ s : St Mutex.Full.S (List Nat),
    Run Mutex.Full.step Mutex.Full.init (fun _ => none) (fun t l => l ++ [t]) [9] s ∧
    s.data = [9, 1, 2] ∧ s.stores = [1, 2] ∧ s.cl 1 = .idle ∧ s.cl 2 = .loaded 7 [9, 1, 2] :=
  ⟨_, run_play posixDemo .start rfl, rfl, rfl, rfl, rfl⟩

/-- The same on Windows; thread 1 ends before thread 2 gets in. -/
def winDemo : List (Do WinMutex.Act) :=
  [.lib (.callLock 1 0 4294967295)] ++ List.replicate 8 (.lib (.run 1)) ++ [.load 1] ++
    [.lib (.callLock 2 7 4294967295)] ++ List.replicate 3 (.lib (.run 2)) ++ [.store 1] ++
    [.lib (.callUnlock 1 0 false)] ++ List.replicate 9 (.lib (.run 1)) ++ [.lib (.die 1)] ++
    List.replicate 5 (.lib (.run 2)) ++ [.load 2, .store 2, .load 2]

example : ∃ s : St WinMutex.S (List Nat),
    Run WinMutex.step WinMutex.init winQuits (fun t l => l ++ [t]) [9] s ∧
    s.data = [9, 1, 2] ∧ s.stores = [1, 2] ∧ s.cl 1 = .idle ∧ s.cl 2 = .loaded 7 [9, 1, 2] :=
  ⟨_, run_play winDemo .start rfl, rfl, rfl, rfl, rfl⟩

example : serial (fun t l => l ++ [t]) [9] [1, 2] = [9, 1, 2] := rfl

end Verif.Client
