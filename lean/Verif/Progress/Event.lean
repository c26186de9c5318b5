import Verif.Progress.Spec
import Verif.Event.Wake

/-! # The event: positions, and what is left to do -/

namespace Verif.Progress.Event

open Verif.Event

/-- The steps of thread `t`. -/
def own (t : Nat) : Act → Bool
  | .run u _ | .fail u => u == t
  | _ => false

/-- The calls of thread `t`. -/
def call (t : Nat) : Act → Bool
  | .callWait u _ | .callFire u | .callReset u => u == t
  | _ => false

/-- Thread `t` is blocked on the condition variable. -/
def asleep (t : Nat) (s : S) : Bool := blocked (s.pc t)

/-- Steps until the call returns or blocks. -/
def left : Pc → Nat
  | .idle => 0
  | .wUnlock _ => 1
  | .wClear => 2
  | .wDec _ => 3
  | .wRetest _ => 4
  | .wWoken _ _ => 5
  | .wBlocked _ => 5
  | .wEnter _ => 4
  | .wInc _ => 5
  | .wTest _ => 6
  | .wLock _ => 7
  | .fUnlock => 1
  | .fSignal => 2
  | .fSet => 3
  | .fLock => 4
  | .tUnlock => 1
  | .tSet => 2
  | .tLock => 3
  | .tManual => 4

/-- A step changes the positions of the threads in this way. -/
def Effect (t : Nat) (s : S) (a : Act) (s' : S) : Prop :=
  left (s'.pc t) + (own t a).toNat ≤
    left (s.pc t) + 7 * (call t a).toNat + 2 * (asleep t s' && !asleep t s).toNat

theorem effect_goto {t u : Nat} {s s1 : S} {p : Pc} {a : Act} (hp : s1.pc = s.pc) (ho : own t a = (u == t))
    (hc : call t a = false) (h : left p + 1 ≤ left (s.pc u)) :
    Effect t s a (s1.goto u p) := by
  unfold Effect
  rw [ho, hc]
  show left (if t = u then p else s1.pc t) + _ ≤ _
  by_cases e : t = u
  · subst e
    rw [if_pos rfl, beq_self_eq_true]
    exact Nat.le_trans h (by omega)
  · rw [if_neg e, hp, beq_eq_false_iff_ne.mpr (Ne.symm e)]
    simp only [Bool.toNat_false]
    omega

theorem effect_block {t u w pick : Nat} {s s' : S} {ls : List Label} (h4 : left (s.pc u) = 4)
    (h : block s u w = .ok (some (s', ls))) : Effect t s (.run u pick) s' := by
  unfold block at h
  split at h <;> cases h
  unfold Effect
  show left (if t = u then Pc.wBlocked w else s.pc t) + ((u == t)).toNat ≤
    left (s.pc t) + 7 * 0 + 2 * (blocked (if t = u then Pc.wBlocked w else s.pc t) && !blocked (s.pc t)).toNat
  by_cases e : t = u
  · subst e
    have : blocked (s.pc t) = false := by
      cases hp : s.pc t <;> rw [hp] at h4 <;> first | rfl | (simp [left] at h4; done)
    rw [if_pos rfl, beq_self_eq_true, h4, this]
    simp [left, blocked]
  · rw [if_neg e, beq_eq_false_iff_ne.mpr (Ne.symm e)]
    simp only [Bool.toNat_false]
    omega

theorem run_effect {t u pick : Nat} {s s' : S} {ls : List Label}
    (h : run s u pick = .ok (some (s', ls))) : Effect t s (.run u pick) s' := by
  have g : ∀ (s1 : S) (p : Pc), s1.pc = s.pc → left p + 1 ≤ left (s.pc u) →
      Effect t s (.run u pick) (s1.goto u p) := fun s1 p h1 h2 => effect_goto h1 rfl rfl h2
  have gl : ∀ p, lock s u p = .ok (some (s', ls)) → left p + 1 ≤ left (s.pc u) →
      Effect t s (.run u pick) s' := by
    intro p hl hle
    unfold lock at hl
    split at hl <;> cases hl
    exact g _ _ rfl hle
  have gu : ∀ l, unlock s u l = .ok (some (s', ls)) → 1 ≤ left (s.pc u) →
      Effect t s (.run u pick) s' := by
    intro l hl hle
    unfold unlock at hl
    split at hl <;> cases hl
    exact g _ _ rfl (by simpa [left] using hle)
  unfold run at h
  cases hp : s.pc u <;> rw [hp] at h <;> dsimp only at h
  case idle => cases h
  case wBlocked w => cases h
  case wLock w =>
    split at h
    · cases h; exact g _ _ rfl (by rw [hp]; simp [left])
    · exact gl _ h (by rw [hp]; simp [left])
  case wTest w =>
    split at h
    · split at h <;> cases h <;> exact g _ _ rfl (by rw [hp]; simp [left])
    · split at h <;> cases h <;> exact g _ _ rfl (by rw [hp]; simp [left])
  case wInc w => cases h; exact g _ _ rfl (by rw [hp]; simp [left])
  case wEnter w => exact effect_block (by rw [hp]; rfl) h
  case wWoken w z => exact gl _ h (by rw [hp]; cases z <;> simp [left])
  case wRetest w =>
    split at h
    · cases h; exact g _ _ rfl (by rw [hp]; simp [left])
    · exact effect_block (by rw [hp]; rfl) h
  case wDec z =>
    split at h
    · split at h <;> cases h <;> exact g { s with waiting := dec32 s.waiting } _ rfl (by rw [hp]; simp [left])
    · cases h; exact g { s with waiting := dec32 s.waiting } _ rfl (by rw [hp]; simp [left])
  case wClear => cases h; exact g _ _ rfl (by rw [hp]; simp [left])
  case wUnlock r => exact gu _ h (by rw [hp]; simp [left])
  case fLock => exact gl _ h (by rw [hp]; simp [left])
  case fSet => cases h; exact g _ _ rfl (by rw [hp]; simp [left])
  case fUnlock => exact gu _ h (by rw [hp]; simp [left])
  case tManual => split at h <;> cases h <;> exact g _ _ rfl (by rw [hp]; simp [left])
  case tLock => exact gl _ h (by rw [hp]; simp [left])
  case tSet => cases h; exact g _ _ rfl (by rw [hp]; simp [left])
  case tUnlock => exact gu _ h (by rw [hp]; simp [left])
  case fSignal =>
    split at h
    · cases h
      unfold Effect
      show left (if t = u then Pc.fUnlock else (wakeAll s).pc t) + ((u == t)).toNat ≤ _
      by_cases e : t = u
      · subst e
        rw [if_pos rfl, beq_self_eq_true, hp]
        simp only [left, Bool.toNat_true]
        omega
      · rw [if_neg e, beq_eq_false_iff_ne.mpr (Ne.symm e)]
        have : left ((wakeAll s).pc t) = left (s.pc t) := by
          unfold wakeAll
          dsimp only
          split
          · rename_i w hw; rw [hw]; rfl
          · rfl
        rw [this]
        simp only [Bool.toNat_false]
        omega
    · split at h
      · cases h; exact g _ _ rfl (by rw [hp]; simp [left])
      · split at h <;> cases h
        rename_i w hw
        have hpu : pick ≠ u := by intro e; rw [e, hp] at hw; cases hw
        unfold Effect
        show left (if t = u then _ else if t = pick then Pc.wWoken w true else s.pc t) + ((u == t)).toNat ≤ _
        by_cases e : t = u
        · subst e
          rw [if_pos rfl, beq_self_eq_true, hp]
          simp only [left, Bool.toNat_true]
          omega
        · rw [if_neg e, beq_eq_false_iff_ne.mpr (Ne.symm e)]
          by_cases e2 : t = pick
          · subst e2
            rw [if_pos rfl, hw]
            simp only [left, Bool.toNat_false]
            omega
          · rw [if_neg e2]
            simp only [Bool.toNat_false]
            omega

theorem fail_effect {t u : Nat} {s s' : S} {ls : List Label}
    (h : fail s u = some (s', ls)) : Effect t s (.fail u) s' := by
  have g : ∀ (s1 : S) (p : Pc), s1.pc = s.pc → left p + 1 ≤ left (s.pc u) →
      Effect t s (.fail u) (s1.goto u p) := fun s1 p h1 h2 => effect_goto h1 rfl rfl h2
  unfold fail at h
  cases hp : s.pc u <;> rw [hp] at h <;> dsimp only at h
  case wInc w => split at h <;> cases h; exact g _ _ rfl (by rw [hp]; simp [left])
  all_goals cases h <;> exact g _ _ rfl (by rw [hp]; simp [left])

theorem call_effect {t u : Nat} {s : S} {p : Pc} {a : Act} (hi : s.pc u = .idle) (ho : own t a = false)
    (hc : call t a = (u == t)) (hl : left p ≤ 7) : Effect t s a (s.goto u p) := by
  unfold Effect
  rw [ho, hc]
  show left (if t = u then p else s.pc t) + _ ≤ _
  by_cases e : t = u
  · subst e
    rw [if_pos rfl, beq_self_eq_true, hi]
    show left p + 0 ≤ 0 + 7 * 1 + _
    omega
  · rw [if_neg e, beq_eq_false_iff_ne.mpr (Ne.symm e)]
    simp only [Bool.toNat_false]
    omega

theorem step_effect {t : Nat} {s s' : S} {a : Act} {ls : List Label}
    (h : step s a = .ok (some (s', ls))) : Effect t s a s' := by
  cases a with
  | run u pick => exact run_effect h
  | fail u =>
    unfold step at h
    dsimp only at h
    exact fail_effect (Except.ok.inj h)
  | wake u z =>
    unfold step at h
    dsimp only at h
    split at h <;> cases h
    rename_i w hw
    unfold Effect
    show left (if t = u then Pc.wWoken w z else s.pc t) + 0 ≤ left (s.pc t) + 7 * 0 + _
    by_cases e : t = u
    · subst e
      rw [if_pos rfl, hw]
      show 5 + 0 ≤ 5 + 7 * 0 + _
      omega
    · rw [if_neg e]; omega
  | _ =>
    unfold step at h
    dsimp only at h
    split at h <;> cases h
    exact call_effect (by assumption) rfl rfl (by simp [left])

/-! ## Who holds the mutex -/

/-- Whoever holds the mutex is in its critical section. -/
def Held (s : S) : Prop := ∀ t, s.owner = some t → crit (s.pc t) = true

theorem held_goto {s s1 : S} {u : Nat} {p : Pc} (h : Held s)
    (hp : ∀ t, crit (s.pc t) = true → s1.pc t = s.pc t)
    (ho : (s1.owner = s.owner ∧ (crit (s.pc u) = true → crit p = true)) ∨ s1.owner = none ∨
      (s1.owner = some u ∧ crit p = true)) : Held (s1.goto u p) := by
  intro t ht
  have ht : s1.owner = some t := ht
  show crit (if t = u then p else s1.pc t) = true
  rcases ho with ⟨ho, hc⟩ | ho | ⟨ho, hc⟩
  · rw [ho] at ht
    have := h t ht
    by_cases e : t = u
    · rw [if_pos e]; subst e; exact hc this
    · rw [if_neg e, hp t this]; exact this
  · rw [ho] at ht; cases ht
  · rw [ho] at ht; cases ht
    rw [if_pos rfl]; exact hc

theorem held_block {s s' : S} {u w : Nat} {ls : List Label} (h : Held s)
    (he : block s u w = .ok (some (s', ls))) : Held s' := by
  unfold block at he
  split at he <;> cases he
  exact held_goto (s1 := { s with owner := none, queue := u :: s.queue }) h (fun _ _ => rfl) (.inr (.inl rfl))

theorem run_held {u pick : Nat} {s s' : S} {ls : List Label} (hh : Held s)
    (h : run s u pick = .ok (some (s', ls))) : Held s' := by
  have gl : ∀ p, lock s u p = .ok (some (s', ls)) → crit p = true → Held s' := by
    intro p hl hc
    unfold lock at hl
    split at hl <;> cases hl
    exact held_goto hh (fun _ _ => rfl) (.inr (.inr ⟨rfl, hc⟩))
  have gu : ∀ l, unlock s u l = .ok (some (s', ls)) → Held s' := by
    intro l hl
    unfold unlock at hl
    split at hl <;> cases hl
    exact held_goto (s1 := { s with owner := none }) hh (fun _ _ => rfl) (.inr (.inl rfl))
  unfold run at h
  cases hp : s.pc u <;> rw [hp] at h <;> dsimp only at h
  case idle => cases h
  case wBlocked w => cases h
  case wLock w =>
    split at h
    · cases h; exact held_goto hh (fun _ _ => rfl) (.inl ⟨rfl, by rw [hp]; exact fun e => nomatch e⟩)
    · exact gl _ h rfl
  case wTest w =>
    split at h
    · split at h <;> cases h <;> exact held_goto hh (fun _ _ => rfl) (.inl ⟨rfl, fun _ => rfl⟩)
    · split at h <;> cases h <;> exact held_goto hh (fun _ _ => rfl) (.inl ⟨rfl, fun _ => rfl⟩)
  case wEnter w => exact held_block hh h
  case wWoken w z => exact gl _ h (by cases z <;> rfl)
  case wRetest w =>
    split at h
    · cases h; exact held_goto hh (fun _ _ => rfl) (.inl ⟨rfl, fun _ => rfl⟩)
    · exact held_block hh h
  case wDec z =>
    split at h
    · split at h <;> cases h <;>
        exact held_goto (s1 := { s with waiting := dec32 s.waiting }) hh (fun _ _ => rfl) (.inl ⟨rfl, fun _ => rfl⟩)
    · cases h
      exact held_goto (s1 := { s with waiting := dec32 s.waiting }) hh (fun _ _ => rfl) (.inl ⟨rfl, fun _ => rfl⟩)
  case wUnlock r => exact gu _ h
  case fUnlock => exact gu _ h
  case tUnlock => exact gu _ h
  case fLock => exact gl _ h rfl
  case tLock => exact gl _ h rfl
  case tManual =>
    split at h <;> cases h <;>
      exact held_goto hh (fun _ _ => rfl) (.inl ⟨rfl, by rw [hp]; exact fun e => nomatch e⟩)
  case fSignal =>
    split at h
    · cases h
      refine held_goto hh (fun t ht => ?_) (.inl ⟨rfl, fun _ => rfl⟩)
      unfold wakeAll
      dsimp only
      split
      · rename_i w hw; rw [hw] at ht; cases ht
      · rfl
    · split at h
      · cases h; exact held_goto hh (fun _ _ => rfl) (.inl ⟨rfl, fun _ => rfl⟩)
      · split at h <;> cases h
        rename_i w hw
        have h1 : Held (({ s with queue := s.queue.erase pick } : S).goto pick (.wWoken w true)) :=
          held_goto hh (fun _ _ => rfl) (.inl ⟨rfl, by rw [hw]; exact fun e => nomatch e⟩)
        exact held_goto h1 (fun _ _ => rfl) (.inl ⟨rfl, fun _ => rfl⟩)
  all_goals cases h; exact held_goto hh (fun _ _ => rfl) (.inl ⟨rfl, fun _ => rfl⟩)

theorem step_held {s s' : S} {a : Act} {ls : List Label} (hh : Held s)
    (h : step s a = .ok (some (s', ls))) : Held s' := by
  cases a with
  | run u pick => exact run_held hh h
  | fail u =>
    unfold step fail at h
    dsimp only at h
    cases hp : s.pc u <;> rw [hp] at h <;> dsimp only at h
    case wInc w =>
      split at h <;> cases h
      exact held_goto hh (fun _ _ => rfl) (.inl ⟨rfl, fun _ => rfl⟩)
    all_goals cases h <;> exact held_goto hh (fun _ _ => rfl) (.inl ⟨rfl, by rw [hp]; exact fun e => nomatch e⟩)
  | wake u z =>
    unfold step at h
    dsimp only at h
    split at h <;> cases h
    rename_i w hw
    exact held_goto hh (fun _ _ => rfl) (.inl ⟨rfl, by rw [hw]; exact fun e => nomatch e⟩)
  | _ =>
    unfold step at h
    dsimp only at h
    split at h <;> cases h
    rename_i hp
    exact held_goto hh (fun _ _ => rfl) (.inl ⟨rfl, by rw [hp]; exact fun e => nomatch e⟩)

/-! ## Who can go on -/

/-- A thread in its critical section can go on. -/
theorem crit_goes {s : S} {t : Nat} (hi : Inv s) (hc : crit (s.pc t) = true) :
    ∃ pick r, run s t pick = .ok (some r) := by
  have ho := hi.crit t hc
  have hb : ∀ w, ∃ r, block s t w = .ok (some r) := fun w => ⟨_, by rw [block, if_pos ho]⟩
  have hu : ∀ l, ∃ r, unlock s t l = .ok (some r) := fun w => ⟨_, by rw [unlock, if_pos ho]⟩
  unfold run
  cases hp : s.pc t <;> rw [hp] at hc <;> first | (cases hc; done) | dsimp only
  case wTest w =>
    refine ⟨0, ?_⟩
    split
    · split <;> exact ⟨_, rfl⟩
    · split <;> exact ⟨_, rfl⟩
  case wEnter w => exact ⟨0, hb w⟩
  case wRetest w =>
    refine ⟨0, ?_⟩
    split
    · exact ⟨_, rfl⟩
    · exact hb w
  case wDec z =>
    refine ⟨0, ?_⟩
    split
    · split <;> exact ⟨_, rfl⟩
    · exact ⟨_, rfl⟩
  case wUnlock r => exact ⟨0, hu _⟩
  case fUnlock => exact ⟨0, hu _⟩
  case tUnlock => exact ⟨0, hu _⟩
  case fSignal =>
    by_cases hm : s.manual = true
    · exact ⟨0, _, by rw [if_pos hm]⟩
    · cases hq : s.queue with
      | nil => exact ⟨0, _, by rw [if_neg hm]⟩
      | cons x xs =>
        have hx := (hi.queue x).1 (by rw [hq]; exact List.mem_cons_self)
        refine ⟨x, ?_⟩
        rw [if_neg hm]
        dsimp only
        cases hpx : s.pc x <;> rw [hpx] at hx <;> first | (cases hx; done) | exact ⟨_, rfl⟩
  all_goals exact ⟨0, _, rfl⟩

/-- A thread inside that is not asleep can go on, or waits for one that can. -/
theorem goes {s : S} {t : Nat} (hi : Inv s) (hh : Held s) (h1 : s.pc t ≠ .idle)
    (h2 : blocked (s.pc t) = false) : (∃ pick r, run s t pick = .ok (some r)) ∨
      ∃ u, u ≠ t ∧ s.owner = some u ∧ ∃ pick r, run s u pick = .ok (some r) := by
  by_cases hc : crit (s.pc t) = true
  · exact .inl (crit_goes hi hc)
  · cases ho : s.owner with
    | none =>
      left
      have hl : ∀ p, ∃ r, lock s t p = .ok (some r) := fun p => ⟨_, by rw [lock, ho]⟩
      refine ⟨0, ?_⟩
      unfold run
      cases hp : s.pc t <;> rw [hp] at hc h1 h2 <;>
        first | exact absurd rfl hc | exact absurd rfl h1 | (cases h2; done) | exact hl _ | skip
      case wLock w =>
        dsimp only
        rw [if_neg (fun e => e.2 ho)]
        exact hl _
      case tManual => dsimp only; split <;> exact ⟨_, rfl⟩
    | some u =>
      right
      have hu := hh u ho
      exact ⟨u, fun e => hc (by rw [← e]; exact hu), rfl, crit_goes hi hu⟩

end Verif.Progress.Event
