import Verif.Progress.Spec
import Verif.Sem.Wake

/-! # The semaphore: positions, and what is left to do -/

namespace Verif.Progress.Sem

open Verif.Sem

/-- The steps of thread `t`. -/
def own (t : Nat) : Act → Bool
  | .run u _ | .fail u => u == t
  | _ => false

/-- The calls of thread `t`. -/
def call (t : Nat) : Act → Bool
  | .callWait u _ | .callRelease u => u == t
  | _ => false

/-- Thread `t` is blocked on the condition variable. -/
def asleep (t : Nat) (s : S) : Bool := blocked (s.pc t)

/-- The clock fails while the mutex is held (sync_util.cpp 414). -/
def clock (s : S) : Act → Bool
  | .fail t =>
    match s.pc t with
    | .wTest _ => true
    | _ => false
  | _ => false

/-- Steps until the call returns or blocks. -/
def left : Pc → Nat
  | .idle => 0
  | .wUnlock _ => 1
  | .wDec _ => 2
  | .wRetest _ => 3
  | .wWoken _ _ => 4
  | .wBlocked _ => 4
  | .wTest _ => 3
  | .wLock _ => 4
  | .rUnlock _ => 1
  | .rSignal _ => 2
  | .rClamp _ => 3
  | .rStore _ _ => 4
  | .rLoad _ => 5
  | .rPrev => 6
  | .rLock => 7

/-- A step changes the positions of the threads in this way. -/
def Effect (t : Nat) (s : S) (a : Act) (s' : S) : Prop :=
  left (s'.pc t) + (own t a).toNat ≤
    left (s.pc t) + 7 * (call t a).toNat + 2 * (asleep t s' && !asleep t s).toNat

theorem effect_goto {t u : Nat} {s s1 : S} {p : Pc} {a : Act} (hp : s1.pc = s.pc) (ho : own t a = (u == t))
    (hc : call t a = false) (h : left p + 1 ≤ left (s.pc u)) :
    Effect t s a (s1.goto u p) := by
  unfold Effect
  rw [ho, hc]
  show left (if t = u then p else s1.pc t) + _ ≤ _
  by_cases e : t = u
  · subst e
    rw [if_pos rfl, beq_self_eq_true]
    exact Nat.le_trans h (by omega)
  · rw [if_neg e, hp, beq_eq_false_iff_ne.mpr (Ne.symm e)]
    simp only [Bool.toNat_false]
    omega

theorem effect_block {t u w pick : Nat} {s s' : S} {ls : List Label} (h3 : left (s.pc u) = 3)
    (h : block s u w = .ok (some (s', ls))) : Effect t s (.run u pick) s' := by
  unfold block at h
  split at h <;> cases h
  unfold Effect
  show left (if t = u then Pc.wBlocked w else s.pc t) + ((u == t)).toNat ≤
    left (s.pc t) + 7 * 0 + 2 * (blocked (if t = u then Pc.wBlocked w else s.pc t) && !blocked (s.pc t)).toNat
  by_cases e : t = u
  · subst e
    have : blocked (s.pc t) = false := by
      cases hp : s.pc t <;> rw [hp] at h3 <;> first | rfl | (simp [left] at h3; done)
    rw [if_pos rfl, beq_self_eq_true, h3, this]
    simp [left, blocked]
  · rw [if_neg e, beq_eq_false_iff_ne.mpr (Ne.symm e)]
    simp only [Bool.toNat_false]
    omega

theorem run_effect {t u pick : Nat} {s s' : S} {ls : List Label}
    (h : run s u pick = .ok (some (s', ls))) : Effect t s (.run u pick) s' := by
  have g : ∀ (s1 : S) (p : Pc), s1.pc = s.pc → left p + 1 ≤ left (s.pc u) →
      Effect t s (.run u pick) (s1.goto u p) := fun s1 p h1 h2 => effect_goto h1 rfl rfl h2
  unfold run at h
  cases hp : s.pc u <;> rw [hp] at h <;> dsimp only at h
  case idle => cases h
  case wLock w =>
    split at h
    · cases h; exact g _ _ rfl (by rw [hp]; simp [left])
    · split at h <;> cases h
      exact g _ _ rfl (by rw [hp]; simp [left])
  case wTest w =>
    split at h
    · cases h; exact g _ _ rfl (by rw [hp]; simp [left])
    · split at h
      · cases h; exact g _ _ rfl (by rw [hp]; simp [left])
      · exact effect_block (by rw [hp]; rfl) h
  case wDec v => cases h; exact g _ _ rfl (by rw [hp]; simp [left])
  case wBlocked w => cases h
  case wWoken w z =>
    split at h <;> cases h
    exact g _ _ rfl (by rw [hp]; cases z <;> simp [left])
  case wRetest w =>
    split at h
    · cases h; exact g _ _ rfl (by rw [hp]; simp [left])
    · exact effect_block (by rw [hp]; rfl) h
  case wUnlock r => split at h <;> cases h; exact g _ _ rfl (by rw [hp]; simp [left])
  case rLock => split at h <;> cases h; exact g _ _ rfl (by rw [hp]; simp [left])
  case rPrev => cases h; exact g _ _ rfl (by rw [hp]; simp [left])
  case rLoad => cases h; exact g _ _ rfl (by rw [hp]; simp [left])
  case rStore => cases h; exact g _ _ rfl (by rw [hp]; simp [left])
  case rClamp => cases h; exact g _ _ rfl (by rw [hp]; simp [left])
  case rUnlock => split at h <;> cases h; exact g _ _ rfl (by rw [hp]; simp [left])
  case rSignal =>
    split at h
    · cases h; exact g _ _ rfl (by rw [hp]; simp [left])
    · split at h <;> cases h
      rename_i w hw
      have hpu : pick ≠ u := by intro e; rw [e, hp] at hw; cases hw
      unfold Effect
      show left (if t = u then _ else if t = pick then Pc.wWoken w true else s.pc t) + ((u == t)).toNat ≤ _
      by_cases e : t = u
      · subst e
        rw [if_pos rfl, beq_self_eq_true, hp]
        simp only [left, Bool.toNat_true]
        omega
      · rw [if_neg e, beq_eq_false_iff_ne.mpr (Ne.symm e)]
        by_cases e2 : t = pick
        · subst e2
          rw [if_pos rfl, hw]
          simp only [left, Bool.toNat_false]
          omega
        · rw [if_neg e2]
          simp only [Bool.toNat_false]
          omega

theorem fail_effect {t u : Nat} {s s' : S} {ls : List Label}
    (h : fail s u = some (s', ls)) : Effect t s (.fail u) s' := by
  have g : ∀ (s1 : S) (p : Pc), s1.pc = s.pc → left p + 1 ≤ left (s.pc u) →
      Effect t s (.fail u) (s1.goto u p) := fun s1 p h1 h2 => effect_goto h1 rfl rfl h2
  unfold fail at h
  cases hp : s.pc u <;> rw [hp] at h <;> dsimp only at h
  case wTest w => split at h <;> cases h; exact g _ _ rfl (by rw [hp]; simp [left])
  all_goals cases h <;> exact g _ _ rfl (by rw [hp]; simp [left])

theorem call_effect {t u : Nat} {s : S} {p : Pc} {a : Act} (hi : s.pc u = .idle) (ho : own t a = false)
    (hc : call t a = (u == t)) (hl : left p ≤ 7) : Effect t s a (s.goto u p) := by
  unfold Effect
  rw [ho, hc]
  show left (if t = u then p else s.pc t) + _ ≤ _
  by_cases e : t = u
  · subst e
    rw [if_pos rfl, beq_self_eq_true, hi]
    show left p + 0 ≤ 0 + 7 * 1 + _
    omega
  · rw [if_neg e, beq_eq_false_iff_ne.mpr (Ne.symm e)]
    simp only [Bool.toNat_false]
    omega

theorem step_effect {t : Nat} {s s' : S} {a : Act} {ls : List Label}
    (h : step s a = .ok (some (s', ls))) : Effect t s a s' := by
  cases a with
  | run u pick => exact run_effect h
  | fail u =>
    unfold step at h
    dsimp only at h
    exact fail_effect (Except.ok.inj h)
  | callWait u w =>
    unfold step at h
    dsimp only at h
    split at h <;> cases h
    exact call_effect (by assumption) rfl rfl (by simp [left])
  | callRelease u =>
    unfold step at h
    dsimp only at h
    split at h <;> cases h
    exact call_effect (by assumption) rfl rfl (by simp [left])
  | wake u z =>
    unfold step at h
    dsimp only at h
    split at h <;> cases h
    rename_i w hw
    unfold Effect
    show left (if t = u then Pc.wWoken w z else s.pc t) + 0 ≤ left (s.pc t) + 7 * 0 + _
    by_cases e : t = u
    · subst e
      rw [if_pos rfl, hw]
      show 4 + 0 ≤ 4 + 7 * 0 + _
      omega
    · rw [if_neg e]; omega

/-! ## Who holds the mutex -/

/-- Whoever holds the mutex is in its critical section. -/
def Held (s : S) : Prop := ∀ t, s.owner = some t → crit (s.pc t) = true

theorem held_goto {s s1 : S} {u : Nat} {p : Pc} (h : Held s) (hp : s1.pc = s.pc)
    (ho : (s1.owner = s.owner ∧ (crit (s.pc u) = true → crit p = true)) ∨ s1.owner = none ∨
      (s1.owner = some u ∧ crit p = true)) : Held (s1.goto u p) := by
  intro t ht
  have ht : s1.owner = some t := ht
  show crit (if t = u then p else s1.pc t) = true
  rcases ho with ⟨ho, hc⟩ | ho | ⟨ho, hc⟩
  · rw [ho] at ht
    have := h t ht
    by_cases e : t = u
    · rw [if_pos e]; subst e; exact hc this
    · rw [if_neg e, hp]; exact this
  · rw [ho] at ht; cases ht
  · rw [ho] at ht; cases ht
    rw [if_pos rfl]; exact hc

theorem held_block {s s' : S} {u w : Nat} {ls : List Label} (h : Held s)
    (he : block s u w = .ok (some (s', ls))) : Held s' := by
  unfold block at he
  split at he <;> cases he
  exact held_goto (s1 := { s with owner := none, queue := u :: s.queue }) h rfl (.inr (.inl rfl))

theorem run_held {u pick : Nat} {s s' : S} {ls : List Label} (hh : Held s)
    (h : run s u pick = .ok (some (s', ls))) : Held s' := by
  unfold run at h
  cases hp : s.pc u <;> rw [hp] at h <;> dsimp only at h
  case idle => cases h
  case wBlocked w => cases h
  case wLock w =>
    split at h
    · cases h; exact held_goto hh rfl (.inr (.inr ⟨rfl, rfl⟩))
    · split at h <;> cases h
      exact held_goto hh rfl (.inl ⟨rfl, by rw [hp]; exact fun e => nomatch e⟩)
  case wTest w =>
    split at h
    · cases h; exact held_goto hh rfl (.inl ⟨rfl, fun _ => rfl⟩)
    · split at h
      · cases h; exact held_goto hh rfl (.inl ⟨rfl, fun _ => rfl⟩)
      · exact held_block hh h
  case wWoken w z =>
    split at h <;> cases h
    exact held_goto hh rfl (.inr (.inr ⟨rfl, by cases z <;> rfl⟩))
  case wRetest w =>
    split at h
    · cases h; exact held_goto hh rfl (.inl ⟨rfl, fun _ => rfl⟩)
    · exact held_block hh h
  case wUnlock r => split at h <;> cases h; exact held_goto hh rfl (.inr (.inl rfl))
  case rUnlock r => split at h <;> cases h; exact held_goto hh rfl (.inr (.inl rfl))
  case rLock => split at h <;> cases h; exact held_goto hh rfl (.inr (.inr ⟨rfl, rfl⟩))
  case rSignal =>
    split at h
    · cases h; exact held_goto hh rfl (.inl ⟨rfl, fun _ => rfl⟩)
    · split at h <;> cases h
      rename_i w hw
      have h1 : Held (({ s with queue := s.queue.erase pick } : S).goto pick (.wWoken w true)) :=
        held_goto hh rfl (.inl ⟨rfl, by rw [hw]; exact fun e => nomatch e⟩)
      exact held_goto h1 rfl (.inl ⟨rfl, fun _ => rfl⟩)
  all_goals cases h; exact held_goto hh rfl (.inl ⟨rfl, fun _ => rfl⟩)

theorem step_held {s s' : S} {a : Act} {ls : List Label} (hh : Held s) (hb : clock s a = false)
    (h : step s a = .ok (some (s', ls))) : Held s' := by
  cases a with
  | run u pick => exact run_held hh h
  | fail u =>
    unfold step fail at h
    dsimp only at h
    unfold clock at hb
    dsimp only at hb
    cases hp : s.pc u <;> rw [hp] at h hb <;> dsimp only at h hb
    case wTest w => cases hb
    all_goals cases h <;> exact held_goto hh rfl (.inl ⟨rfl, by rw [hp]; exact fun e => nomatch e⟩)
  | callWait u w =>
    unfold step at h
    dsimp only at h
    split at h <;> cases h
    rename_i hp
    exact held_goto hh rfl (.inl ⟨rfl, by rw [hp]; exact fun e => nomatch e⟩)
  | callRelease u =>
    unfold step at h
    dsimp only at h
    split at h <;> cases h
    rename_i hp
    exact held_goto hh rfl (.inl ⟨rfl, by rw [hp]; exact fun e => nomatch e⟩)
  | wake u z =>
    unfold step at h
    dsimp only at h
    split at h <;> cases h
    rename_i w hw
    exact held_goto hh rfl (.inl ⟨rfl, by rw [hw]; exact fun e => nomatch e⟩)

/-! ## Who can go on -/

/-- A thread in its critical section can go on. -/
theorem crit_goes {s : S} {n t : Nat} (hi : Inv s n) (hc : crit (s.pc t) = true) :
    ∃ pick r, run s t pick = .ok (some r) := by
  have ho := hi.crit t hc
  have hb : ∀ w, ∃ r, block s t w = .ok (some r) := fun w => ⟨_, by rw [block, if_pos ho]⟩
  unfold run
  cases hp : s.pc t <;> rw [hp] at hc <;> first | (cases hc; done) | dsimp only
  case wTest w =>
    refine ⟨0, ?_⟩
    split
    · exact ⟨_, rfl⟩
    · split
      · exact ⟨_, rfl⟩
      · exact hb w
  case wRetest w =>
    refine ⟨0, ?_⟩
    split
    · exact ⟨_, rfl⟩
    · exact hb w
  case wUnlock r => exact ⟨0, _, by rw [if_pos ho]⟩
  case rUnlock r => exact ⟨0, _, by rw [if_pos ho]⟩
  case rSignal =>
    cases hq : s.queue with
    | nil => exact ⟨0, _, rfl⟩
    | cons x xs =>
      have hx := (hi.queue x).1 (by rw [hq]; exact List.mem_cons_self)
      refine ⟨x, ?_⟩
      dsimp only
      cases hpx : s.pc x <;> rw [hpx] at hx <;> first | (cases hx; done) | exact ⟨_, rfl⟩
  all_goals exact ⟨0, _, rfl⟩

/-- A thread inside that is not asleep can go on, or waits for one that can. -/
theorem goes {s : S} {n t : Nat} (hi : Inv s n) (hh : Held s) (h1 : s.pc t ≠ .idle)
    (h2 : blocked (s.pc t) = false) : (∃ pick r, run s t pick = .ok (some r)) ∨
      ∃ u, u ≠ t ∧ s.owner = some u ∧ ∃ pick r, run s u pick = .ok (some r) := by
  by_cases hc : crit (s.pc t) = true
  · exact .inl (crit_goes hi hc)
  · cases ho : s.owner with
    | none =>
      left
      refine ⟨0, ?_⟩
      unfold run
      cases hp : s.pc t <;> rw [hp] at hc h1 h2 <;>
        first | exact absurd rfl hc | exact absurd rfl h1 | (cases h2; done) | (rw [ho]; exact ⟨_, rfl⟩)
    | some u =>
      right
      have hu := hh u ho
      exact ⟨u, fun e => hc (by rw [← e]; exact hu), rfl, crit_goes hi hu⟩

end Verif.Progress.Sem
