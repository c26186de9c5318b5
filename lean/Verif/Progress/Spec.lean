import Verif.Base

/-!
# What "calls do not spin and do not deadlock" means

For a transition system with actions `A`: `step s a` is what the action does, `.ok none` if it is not
possible.
-/

namespace Verif.Progress

variable {S A L : Type}

/-- What one thread did in an execution. -/
structure Tally where
  /-- steps of its own inside the calls -/
  moves : Nat
  /-- calls -/
  calls : Nat
  /-- how often it was put to sleep (blocked on a condition variable) -/
  sleeps : Nat

/-- Counting, for a thread whose steps are the actions `own`, whose calls are the actions `call`, and which
sleeps in the states `asleep`.  Actions that are not possible change nothing and are not counted. -/
def tally (step : S → A → CRes (Option (S × L))) (own call : A → Bool) (asleep : S → Bool) :
    S → List A → Tally
  | _, [] => ⟨0, 0, 0⟩
  | s, a :: as =>
    match step s a with
    | .ok (some (s', _)) =>
      let r := tally step own call asleep s' as
      ⟨r.moves + (own a).toNat, r.calls + (call a).toNat, r.sleeps + (asleep s' && !asleep s).toNat⟩
    | _ => tally step own call asleep s as

/-- States reached from `s0` by steps none of which is bad. -/
inductive Reach (step : S → A → CRes (Option (S × L))) (bad : S → A → Bool) (s0 : S) : S → Prop
  | refl : Reach step bad s0 s0
  | step {s s' : S} {a : A} {l : L} : Reach step bad s0 s → bad s a = false →
      step s a = .ok (some (s', l)) → Reach step bad s0 s'

/-- One of the actions `own` is possible. -/
def CanGo (step : S → A → CRes (Option (S × L))) (own : A → Prop) (s : S) : Prop :=
  ∃ a r, own a ∧ step s a = .ok (some r)

theorem tally_le {step : S → A → CRes (Option (S × L))} {own call : A → Bool} {asleep : S → Bool}
    (P : S → Prop) (f : S → Nat) (k : Nat)
    (h : ∀ s a s' l, P s → step s a = .ok (some (s', l)) → P s' ∧
      f s' + (own a).toNat ≤ f s + k * (call a).toNat + 2 * (asleep s' && !asleep s).toNat)
    (as : List A) {s : S} (hs : P s) :
    (tally step own call asleep s as).moves ≤
      f s + k * (tally step own call asleep s as).calls + 2 * (tally step own call asleep s as).sleeps := by
  induction as generalizing s with
  | nil => exact Nat.zero_le _
  | cons a as ih =>
    rw [tally]
    split
    · rename_i s' l e
      obtain ⟨hp, hf⟩ := h s a s' l hs e
      have := ih hp
      simp only [Nat.mul_add]
      omega
    · exact ih hs

theorem Reach.inv {step : S → A → CRes (Option (S × L))} {bad : S → A → Bool} {s0 s : S}
    (P : S → Prop) (h0 : P s0)
    (h : ∀ s a s' l, P s → bad s a = false → step s a = .ok (some (s', l)) → P s')
    (hr : Reach step bad s0 s) : P s := by
  induction hr with
  | refl => exact h0
  | step _ hb he ih => exact h _ _ _ _ ih hb he

end Verif.Progress
