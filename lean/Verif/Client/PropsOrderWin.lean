import Verif.Client.PropsOrder
import Verif.WinMutex.Props

/-!
# Mutexes taken in a fixed order, Windows branch

A program with several mutexes (sync_mutex.cpp 66-126).  Every mutex has its own execution, over the same
threads; nothing is assumed about how the executions interleave.
-/

namespace Verif.Client.Order

open Verif.Mutex (Label infinite critAt phOf)
open Verif.Mutex.Spec (depth phase Shallow Holds)
open Verif.WinMutex (Clean)
open Verif.WinMutex.Spec (Orderly)

/-! ## What is claimed -/

/-- While a thread asks for mutex `i` it holds none above `i`.  It may hold `i` itself, through any object. -/
def WinOrdered (N : Nat) (ls : Nat → List Label) : Prop :=
  ∀ t i j o p, i < N → j < N → Asking t o (ls i) → 0 < depth t p 0 (ls j) → j ≤ i

/-- Thread `u` can make its next step inside a call of the mutex. -/
def WinGoes (u : Nat) (s : WinMutex.S) : Prop := ∃ r, WinMutex.step s (.run u) = .ok (some r)

/-- Thread `u` is not inside a call of any mutex. -/
def WinOutside (N : Nat) (s : Nat → WinMutex.S) (u : Nat) : Prop := ∀ k, k < N → (s k).pc u = .idle

/-! ## Proofs -/

/-- Who is not able to move can not do it because it must wait, not because the step is undefined. -/
theorem win_stuck {s : WinMutex.S} (hc : ∀ t o, critAt (s.pc t) = some o → s.cs o = some t) {u : Nat}
    (hu : ¬ WinGoes u s) : WinMutex.run s u = .ok none := by
  cases e : WinMutex.run s u with
  | ok r =>
    cases r with
    | none => rfl
    | some x => exact absurd ⟨x, e⟩ hu
  | error x =>
    exfalso
    unfold WinMutex.run WinMutex.enter WinMutex.leave at e
    cases hpc : s.pc u with
    | lUnl o => rw [hpc] at e; dsimp only at e; rw [if_pos (hc u o (by rw [hpc]; rfl))] at e; cases e
    | lOut o w => rw [hpc] at e; dsimp only at e; rw [if_pos (hc u o (by rw [hpc]; rfl))] at e; cases e
    | uBad o w => rw [hpc] at e; dsimp only at e; rw [if_pos (hc u o (by rw [hpc]; rfl))] at e; cases e
    | uUnl o w => rw [hpc] at e; dsimp only at e; rw [if_pos (hc u o (by rw [hpc]; rfl))] at e; cases e
    | lWait o w =>
      rw [hpc] at e; dsimp only at e
      split at e
      · split at e <;> cases e
      · split at e <;> cases e
    | _ => rw [hpc] at e; dsimp only at e; first | cases e | (split at e <;> cases e)

/-- When nobody can move, whoever is inside a call is asking for the mutex. -/
theorem win_asking (as : List WinMutex.Act) (ho : Orderly as) (hcl : Clean as) (s : WinMutex.S)
    (ls : List Label) (h : WinMutex.exec WinMutex.init as = .ok (s, ls)) (hk : Shallow ls)
    (hq : ∀ t, ¬ WinGoes t s) :
    (∀ t, WinMutex.run s t = .ok none) ∧ ∀ u, s.pc u ≠ .idle → ∃ o, Asking u o ls := by
  obtain ⟨h', D, hi, ha, hp⟩ := WinMutex.exec_ok as true ho (fun _ => hcl) h hk
  have hq' : ∀ t, WinMutex.run s t = .ok none := fun t => win_stuck (fun t o => (hi.crit t o).mp) (hq t)
  refine ⟨hq', fun u hu => ?_⟩
  have hcs : ∀ o, s.cs o = none := fun o => by
    cases e : s.cs o with
    | none => rfl
    | some t => exact absurd (hq' t) (WinMutex.crit_moves ((hi.crit t o).mpr e) e)
  have hc : critAt (s.pc u) = none := by
    cases e : critAt (s.pc u) with
    | none => rfl
    | some o => rw [(hi.crit u o), hcs] at e; cases e
  have hn := hq' u
  have hph := hp u
  unfold WinMutex.run WinMutex.enter at hn
  cases hpc : s.pc u with
  | idle => exact absurd hpc hu
  | lWait o wait => rw [hpc] at hph; exact ⟨o, hph⟩
  | lCs o wait => rw [hpc] at hph; exact ⟨o, hph⟩
  | lCs2 o => rw [hpc] at hn; dsimp only at hn; rw [hcs] at hn; cases hn
  | uCs o all => rw [hpc] at hn; dsimp only at hn; rw [hcs] at hn; cases hn
  | _ => rw [hpc] at hc; cases hc

/-- Among mutexes asked for in a fixed order nobody is stuck, Windows: while a thread is inside a call, some
thread can make a step inside a call, or some thread holds one of the mutexes and is not inside any call. -/
theorem win_ordered_locks_go_partial (N : Nat) (as : Nat → List WinMutex.Act) (s : Nat → WinMutex.S)
    (ls : Nat → List Label) (h : ∀ i, i < N → WinMutex.exec WinMutex.init (as i) = .ok (s i, ls i))
    (hk : ∀ i, i < N → Shallow (ls i)) (hd : ∀ i, i < N → Orderly (as i)) (hcl : ∀ i, i < N → Clean (as i))
    (ho : WinOrdered N ls) (t i : Nat) (hi : i < N) (hin : (s i).pc t ≠ .idle) :
    (∃ j u, j < N ∧ WinGoes u (s j)) ∨
      ∃ j u o, j < N ∧ 0 < depth u o 0 (ls j) ∧ WinOutside N s u := by
  by_cases hgo : ∃ j u, j < N ∧ WinGoes u (s j)
  · exact Or.inl hgo
  · refine Or.inr ?_
    have hask : ∀ j, j < N → (∀ t, WinMutex.run (s j) t = .ok none) ∧
        ∀ u, (s j).pc u ≠ .idle → ∃ o, Asking u o (ls j) := fun j hj =>
      win_asking (as j) (hd j hj) (hcl j hj) (s j) (ls j) (h j hj) (hk j hj)
        (fun u g => hgo ⟨j, u, hj, g⟩)
    have key : ∀ n i t, i < N → N - i ≤ n → (s i).pc t ≠ .idle →
        ∃ j u o, j < N ∧ 0 < depth u o 0 (ls j) ∧ WinOutside N s u := by
      intro n
      induction n with
      | zero => intro i t hi hn; omega
      | succ n ih =>
        intro i t hi hn hin
        obtain ⟨u, o, hd', hout'⟩ := WinMutex.win_mutex_no_lost_wakeup (as i) (hd i hi) (hcl i hi) (s i)
          (ls i) (h i hi) (hk i hi) (hask i hi).1 t hin
        by_cases hout : WinOutside N s u
        · exact ⟨i, u, o, hi, hd', hout⟩
        · have ⟨k, hkN, hkin⟩ : ∃ k, k < N ∧ (s k).pc u ≠ .idle := by
            refine Classical.byContradiction fun hne => hout fun k hk' => ?_
            exact Classical.byContradiction fun hx => hne ⟨k, hk', hx⟩
          obtain ⟨p, hp⟩ := (hask k hkN).2 u hkin
          have hle := ho u k i p o hkN hi hp hd'
          have hne : i ≠ k := by
            rintro rfl
            rw [Asking, hout'] at hp
            cases hp
          exact ih k u hkN (by omega) hkin
    exact key (N - i) i t hi (Nat.le_refl _) hin

/-! ## Cases -/

/-- Thread `a` locks a mutex and thread `b` waits for it. -/
def winHeld (a b : Nat) : List WinMutex.Act :=
  [.callLock a 0 infinite] ++ List.replicate 8 (.run a) ++ [.callLock b 7 infinite] ++
    List.replicate 4 (.run b)

theorem winHeld_die {a b : Nat} {p q : List WinMutex.Act} {t : Nat} : winHeld a b ≠ p ++ .die t :: q := by
  intro h
  have : WinMutex.Act.die t ∈ winHeld a b := by rw [h]; simp
  simp [winHeld] at this

theorem winHeld_fail {a b t : Nat} : WinMutex.Act.fail t ∉ winHeld a b := by simp [winHeld]

theorem winHeld_clean (a b : Nat) : Clean (winHeld a b) := by
  intro p x q e s ls _
  cases x with
  | fail t => exact absurd (by rw [e]; simp) (winHeld_fail (a := a) (b := b) (t := t))
  | _ => rfl

/-- The state after `winHeld`. -/
structure WinAfter (a b : Nat) (s : WinMutex.S) : Prop where
  run : WinMutex.exec WinMutex.init (winHeld a b) = .ok (s, heldLs a b)
  rest : ∀ u, u ≠ b → s.pc u = .idle
  waits : s.pc b = .lWait 7 infinite ∧ s.kown = some a

theorem winHeld_12 : ∃ s, WinAfter 1 2 s := by
  refine ⟨_, rfl, ?_, rfl, rfl⟩
  intro u hu
  match u with
  | 0 => rfl
  | 1 => rfl
  | 2 => exact absurd rfl hu
  | k + 3 => rfl

theorem winHeld_21 : ∃ s, WinAfter 2 1 s := by
  refine ⟨_, rfl, ?_, rfl, rfl⟩
  intro u hu
  match u with
  | 0 => rfl
  | 1 => exact absurd rfl hu
  | 2 => rfl
  | k + 3 => rfl

theorem winHeld_13 : ∃ s, WinAfter 1 3 s := by
  refine ⟨_, rfl, ?_, rfl, rfl⟩
  intro u hu
  match u with
  | 0 => rfl
  | 1 => rfl
  | 2 => rfl
  | 3 => exact absurd rfl hu
  | k + 4 => rfl

theorem WinAfter.still {a b : Nat} {s : WinMutex.S} (h : WinAfter a b s) (hab : a ≠ b) (u : Nat) :
    ¬ WinGoes u s := by
  rintro ⟨r, hr⟩
  have hr : WinMutex.run s u = .ok (some r) := hr
  unfold WinMutex.run at hr
  by_cases hu : u = b
  · subst hu
    rw [h.waits.1] at hr
    dsimp only at hr
    rw [h.waits.2, if_neg (by simp [hab]), if_neg (by decide)] at hr
    cases hr
  · rw [h.rest u hu] at hr
    cases hr

/-- The order matters on Windows, too. -/
theorem win_unordered_deadlock : ∃ (as : Nat → List WinMutex.Act) (s : Nat → WinMutex.S) (ls : Nat → List Label),
    (∀ i, i < 2 → WinMutex.exec WinMutex.init (as i) = .ok (s i, ls i)) ∧ (∀ i, i < 2 → Shallow (ls i)) ∧
    (∀ i, i < 2 → Orderly (as i)) ∧ (∀ i, i < 2 → Clean (as i)) ∧
    0 < depth 1 0 0 (ls 0) ∧ Asking 1 7 (ls 1) ∧ 0 < depth 2 0 0 (ls 1) ∧ Asking 2 7 (ls 0) ∧
    ¬ ((∃ j u, j < 2 ∧ WinGoes u (s j)) ∨ ∃ j u o, j < 2 ∧ 0 < depth u o 0 (ls j) ∧ WinOutside 2 s u) := by
  obtain ⟨c0, h0⟩ := winHeld_12
  obtain ⟨c1, h1⟩ := winHeld_21
  refine ⟨fun i => if i = 0 then winHeld 1 2 else winHeld 2 1, fun i => if i = 0 then c0 else c1,
    fun i => if i = 0 then heldLs 1 2 else heldLs 2 1, ?_, ?_, ?_, ?_, by decide, rfl, by decide, rfl, ?_⟩
  · intro i _; dsimp only; split
    · exact h0.run
    · exact h1.run
  · intro i _; dsimp only; split <;> exact held_short _ _
  · intro i _; dsimp only; split <;> exact fun p t q e => absurd e winHeld_die
  · intro i _; dsimp only; split <;> exact winHeld_clean _ _
  · rintro (⟨j, u, _, hg⟩ | ⟨j, u, o, _, hd, hout⟩)
    · dsimp only at hg; split at hg
      · exact h0.still (by decide) u hg
      · exact h1.still (by decide) u hg
    · dsimp only at hd; split at hd
      · obtain ⟨rfl, -⟩ := held_depth hd
        have : c1.pc 1 = .idle := hout 1 (by omega)
        rw [h1.waits.1] at this
        cases this
      · obtain ⟨rfl, -⟩ := held_depth hd
        have : c0.pc 2 = .idle := hout 0 (by omega)
        rw [h0.waits.1] at this
        cases this

/-- The hypotheses are met: thread 1 holds both mutexes and is busy elsewhere; thread 2 waits for the first,
thread 3 for the second. -/
example : ∃ (as : Nat → List WinMutex.Act) (s : Nat → WinMutex.S) (ls : Nat → List Label),
    (∀ i, i < 2 → WinMutex.exec WinMutex.init (as i) = .ok (s i, ls i)) ∧ (∀ i, i < 2 → Shallow (ls i)) ∧
    (∀ i, i < 2 → Orderly (as i)) ∧ (∀ i, i < 2 → Clean (as i)) ∧ WinOrdered 2 ls ∧
    (s 0).pc 2 ≠ .idle ∧ (s 1).pc 3 ≠ .idle ∧ ¬ ∃ j u, j < 2 ∧ WinGoes u (s j) := by
  obtain ⟨c0, h0⟩ := winHeld_12
  obtain ⟨c1, h1⟩ := winHeld_13
  refine ⟨fun i => if i = 0 then winHeld 1 2 else winHeld 1 3, fun i => if i = 0 then c0 else c1,
    fun i => if i = 0 then heldLs 1 2 else heldLs 1 3, ?_, ?_, ?_, ?_, ?_, ?_, ?_, ?_⟩
  · intro i _; dsimp only; split
    · exact h0.run
    · exact h1.run
  · intro i _; dsimp only; split <;> exact held_short _ _
  · intro i _; dsimp only; split <;> exact fun p t q e => absurd e winHeld_die
  · intro i _; dsimp only; split <;> exact winHeld_clean _ _
  · intro t i j o p _ _ ha hd
    have e1 : t = 1 := by
      dsimp only at hd; split at hd <;> exact (held_depth hd).1
    subst e1
    dsimp only at ha
    split at ha <;> cases (held_asking (by decide) ha).1
  · show c0.pc 2 ≠ .idle
    rw [h0.waits.1]; exact (fun e => nomatch e)
  · show c1.pc 3 ≠ .idle
    rw [h1.waits.1]; exact (fun e => nomatch e)
  · rintro ⟨j, u, _, hg⟩
    dsimp only at hg; split at hg
    · exact h0.still (by decide) u hg
    · exact h1.still (by decide) u hg

end Verif.Client.Order
