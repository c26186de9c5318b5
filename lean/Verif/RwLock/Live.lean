import Verif.RwLock.Lemmas

/-! # Who keeps the others waiting -/

namespace Verif.RwLock

open Spec

/-- Positions at which the event may be closed although no reader is counted. -/
def busyE : Pc → Bool
  | .rLoad | .rStore _ | .uZero | .uFire => true
  | _ => false

/-- A taken mutex or a closed event has somebody to open it, and the counted readers are those that
have a read lock or are coming or going. -/
structure Live (s : S) (R : List Nat) : Prop where
  w : s.wsem = true ∨ ∃ t, ownW (s.pc t) = true ∨ s.wr t = true
  c : s.csem = true ∨ ∃ t, ownC (s.pc t) = true
  e : s.ev = true ∨ s.rc ≠ 0 ∨ ∃ t, busyE (s.pc t) = true
  n : ∀ t, R.count t ≤ s.rd t + pend (s.pc t)
  b : ∀ t, s.pc t ≠ .uBad

theorem Live.upd {s s' : S} {R R' : List Nat} {t : Nat} {q : Pc} (h : Live s R)
    (hs : s'.pc = setAt s.pc t q) (hwr : ∀ u, u ≠ t → s'.wr u = s.wr u)
    (hrd : ∀ u, u ≠ t → s'.rd u = s.rd u)
    (h1 : s'.wsem = true ∨ ownW q = true ∨
      (s'.wsem = s.wsem ∧ (ownW (s.pc t) = true ∨ s.wr t = true → ownW q = true ∨ s'.wr t = true)))
    (h2 : s'.csem = true ∨ ownC q = true ∨ (s'.csem = s.csem ∧ (ownC (s.pc t) = true → ownC q = true)))
    (h3 : s'.ev = true ∨ s'.rc ≠ 0 ∨ busyE q = true ∨
      (s'.ev = s.ev ∧ s'.rc = s.rc ∧ busyE (s.pc t) = false))
    (h4 : ∀ u, u ≠ t → R'.count u = R.count u) (h5 : R'.count t ≤ s'.rd t + pend q)
    (h6 : q ≠ .uBad) : Live s' R' := by
  have ht : s'.pc t = q := by rw [hs]; exact if_pos rfl
  have hu : ∀ u, u ≠ t → s'.pc u = s.pc u := fun u e => by rw [hs]; exact if_neg e
  refine ⟨?_, ?_, ?_, fun u => ?_, fun u => ?_⟩
  · rcases h1 with h1 | h1 | ⟨e, h1⟩
    · exact Or.inl h1
    · exact Or.inr ⟨t, Or.inl (by rw [ht]; exact h1)⟩
    · rcases h.w with hw | ⟨u, hw⟩
      · exact Or.inl (e.trans hw)
      · by_cases hut : u = t
        · subst hut
          exact Or.inr ⟨u, by rw [ht]; exact h1 hw⟩
        · exact Or.inr ⟨u, by rw [hu u hut, hwr u hut]; exact hw⟩
  · rcases h2 with h1 | h1 | ⟨e, h1⟩
    · exact Or.inl h1
    · exact Or.inr ⟨t, by rw [ht]; exact h1⟩
    · rcases h.c with hw | ⟨u, hw⟩
      · exact Or.inl (e.trans hw)
      · by_cases hut : u = t
        · subst hut
          exact Or.inr ⟨u, by rw [ht]; exact h1 hw⟩
        · exact Or.inr ⟨u, by rw [hu u hut]; exact hw⟩
  · rcases h3 with h1 | h1 | h1 | ⟨e1, e2, h1⟩
    · exact Or.inl h1
    · exact Or.inr (Or.inl h1)
    · exact Or.inr (Or.inr ⟨t, by rw [ht]; exact h1⟩)
    · rcases h.e with hw | hw | ⟨u, hw⟩
      · exact Or.inl (e1.trans hw)
      · exact Or.inr (Or.inl (by rw [e2]; exact hw))
      · by_cases hut : u = t
        · subst hut; rw [h1] at hw; cases hw
        · exact Or.inr (Or.inr ⟨u, by rw [hu u hut]; exact hw⟩)
  · by_cases hut : u = t
    · subst hut; rw [ht]; exact h5
    · rw [hu u hut, hrd u hut, h4 u hut]; exact h.n u
  · by_cases hut : u = t
    · subst hut; rw [ht]; exact h6
    · rw [hu u hut]; exact h.b u

theorem setAt_ne {α : Type} {f : Nat → α} {t u : Nat} {x : α} (h : u ≠ t) : setAt f t x u = f u :=
  if_neg h

theorem setAt_eq {α : Type} {f : Nat → α} {t : Nat} {x : α} : setAt f t x t = x := if_pos rfl

theorem live_run {s s' : S} {R R' : List Nat} {W W' tw tc : Option Nat} {t : Nat} {ls : List Label}
    (hi : Inv s R W tw tc) (hb : R.length < 4294967295) (hl : Live s R)
    (hs : run s t = some (s', ls)) (ha : atomic (R, W) ls = some (R', W')) : Live s' R' := by
  have hn := hl.n t
  have hc := hi.cnt t
  unfold run at hs
  cases hpc : s.pc t <;> rw [hpc] at hs hn hc <;> dsimp only at hs
  case idle => cases hs
  case rStore v =>
    cases hs
    have hv := hi.vrs t v hpc
    simp only [atomic, effect] at ha
    split at ha
    · cases ha
      refine hl.upd (t := t) (q := .rRelC true) rfl (fun _ _ => rfl) (fun _ _ => rfl) (by simp [ownW])
        (by simp [ownC]) ?_ (fun u hu => List.count_cons_of_ne (Ne.symm hu)) ?_ (by simp)
      · refine Or.inr (Or.inl ?_)
        show (v + 1) % 4294967296 ≠ 0
        have := hi.rc
        omega
      · simp [pend] at hn ⊢; exact hn
    · cases ha
  case uStore v =>
    cases hs
    simp only [atomic, effect] at ha
    split at ha
    · cases ha
      refine hl.upd (t := t) (q := .uZero) rfl (fun _ _ => rfl) (fun _ _ => rfl)
        (Or.inr (Or.inr ⟨rfl, by rw [hpc]; exact fun e => e.imp (by simp [ownW]) id⟩)) (by simp [ownC]) (by simp [busyE])
        (fun u hu => List.count_erase_of_ne hu) ?_ (by simp)
      simp only [pend, List.count_erase_self] at hn ⊢
      show R.count t - 1 ≤ s.rd t + 0
      omega
    · cases ha
  case uTest =>
    cases hs
    cases ha
    have : s.rc ≠ 0 := by
      simp only [pend] at hc
      rw [hi.rc]
      intro e
      rw [List.length_eq_zero_iff.mp e] at hc
      simp at hc
    rw [if_pos this]
    refine hl.upd (t := t) (q := .uLoad) rfl (fun _ _ => rfl) (fun _ _ => rfl)
      (Or.inr (Or.inr ⟨rfl, by rw [hpc]; exact fun e => e.imp (by simp [ownW]) id⟩)) (by simp [ownC])
      (Or.inr (Or.inr (Or.inr ⟨rfl, rfl, by rw [hpc]; rfl⟩))) (fun _ _ => rfl) hn (by simp)
  case uBad => exact absurd hpc (hl.b t)
  case uZero =>
    cases hs
    cases ha
    by_cases h0 : s.rc = 0
    · rw [if_pos h0]
      exact hl.upd (t := t) (q := .uFire) rfl (fun _ _ => rfl) (fun _ _ => rfl)
        (Or.inr (Or.inr ⟨rfl, by rw [hpc]; exact fun e => e.imp (by simp [ownW]) id⟩)) (by simp [ownC])
        (by simp [busyE]) (fun _ _ => rfl) hn (by simp)
    · rw [if_neg h0]
      exact hl.upd (t := t) (q := .uRel true) rfl (fun _ _ => rfl) (fun _ _ => rfl)
        (Or.inr (Or.inr ⟨rfl, by rw [hpc]; exact fun e => e.imp (by simp [ownW]) id⟩)) (by simp [ownC])
        (Or.inr (Or.inl h0)) (fun _ _ => rfl) hn (by simp)
  case rRet r =>
    cases hs
    cases ha
    refine hl.upd (t := t) (q := .idle) rfl (fun _ _ => rfl) (fun u hu => ?_)
      (Or.inr (Or.inr ⟨rfl, by rw [hpc]; exact fun e => e.imp (by simp [ownW]) id⟩))
      (Or.inr (Or.inr ⟨rfl, by rw [hpc]; simp [ownC]⟩))
      (Or.inr (Or.inr (Or.inr ⟨rfl, rfl, by rw [hpc]; rfl⟩))) (fun _ _ => rfl) ?_ (by simp)
    · show (if r then setAt s.rd t (s.rd t + 1) else s.rd) u = _
      cases r
      · rfl
      · exact setAt_ne hu
    · show _ ≤ (if r then setAt s.rd t (s.rd t + 1) else s.rd) t + 0
      cases r
      · exact hn
      · simp only [if_true, setAt_eq]; simpa [pend] using hn
  case wRet r =>
    cases hs
    cases ha
    refine hl.upd (t := t) (q := .idle) rfl (fun u hu => ?_) (fun _ _ => rfl)
      (Or.inr (Or.inr ⟨rfl, fun e => Or.inr ?_⟩))
      (Or.inr (Or.inr ⟨rfl, by rw [hpc]; simp [ownC]⟩))
      (Or.inr (Or.inr (Or.inr ⟨rfl, rfl, by rw [hpc]; rfl⟩))) (fun _ _ => rfl) ?_ (by simp)
    · show (if r then setAt s.wr t true else s.wr) u = _
      cases r
      · rfl
      · exact setAt_ne hu
    · show (if r then setAt s.wr t true else s.wr) t = true
      cases r
      · rw [hpc] at e; simpa [ownW] using e
      · exact setAt_eq
    · cases r <;> exact hn
  case rRelC r =>
    cases hs
    cases ha
    refine hl.upd (t := t) (q := .rRelW r) rfl (fun _ _ => rfl) (fun _ _ => rfl) (by simp [ownW])
      (Or.inl rfl) (Or.inr (Or.inr (Or.inr ⟨rfl, rfl, by rw [hpc]; rfl⟩))) (fun _ _ => rfl)
      (by cases r <;> exact hn) (by simp)
  case rRelW r =>
    cases hs
    cases ha
    refine hl.upd (t := t) (q := .rRet r) rfl (fun _ _ => rfl) (fun _ _ => rfl) (Or.inl rfl)
      (Or.inr (Or.inr ⟨rfl, by rw [hpc]; simp [ownC]⟩))
      (Or.inr (Or.inr (Or.inr ⟨rfl, rfl, by rw [hpc]; rfl⟩))) (fun _ _ => rfl)
      (by cases r <;> exact hn) (by simp)
  all_goals
    first
    | (split at hs
       · cases hs
         first
         | (cases ha
            refine hl.upd (t := t) rfl (fun _ _ => rfl) (fun _ _ => rfl) ?_ ?_ ?_ (fun _ _ => rfl) hn (by simp) <;>
              simp [ownW, ownC, busyE, hpc, S.goto])
         | (simp only [atomic, effect] at ha
            split at ha
            · cases ha
              refine hl.upd (t := t) rfl (fun _ _ => rfl) (fun _ _ => rfl) ?_ ?_ ?_ (fun u _ => by simp_all) (by simp_all [pend, S.goto]) (by simp) <;>
                simp [ownW, ownC, busyE, hpc, S.goto]
            · cases ha)
       · cases hs)
    | (cases hs
       first
       | (cases ha
          refine hl.upd (t := t) rfl (fun _ _ => rfl) (fun _ _ => rfl) ?_ ?_ ?_ (fun _ _ => rfl) hn (by simp) <;>
            simp [ownW, ownC, busyE, hpc, S.goto])
       | (simp only [atomic, effect] at ha
          split at ha
          · cases ha
            refine hl.upd (t := t) rfl (fun _ _ => rfl) (fun _ _ => rfl) ?_ ?_ ?_ (fun u _ => by simp_all) (by simp_all [pend, S.goto]) (by simp) <;>
              simp [ownW, ownC, busyE, hpc, S.goto]
          · cases ha))

/-- Positions at which a failure is no harm: the waits of `ReadLock` and `WriteLock`, and the reset. -/
def soft : Pc → Bool
  | .rW | .rC | .rReset | .wW | .wE => true
  | _ => false

theorem live_fail {s s' : S} {R R' : List Nat} {W W' : Option Nat} {t : Nat} {ls : List Label}
    (hl : Live s R) (hsoft : soft (s.pc t) = true)
    (hs : fail s t = some (s', ls)) (ha : atomic (R, W) ls = some (R', W')) : Live s' R' := by
  have hn := hl.n t
  unfold fail at hs
  cases hpc : s.pc t <;> rw [hpc] at hs hn hsoft <;> dsimp only at hs <;> first | (cases hsoft; done) | skip
  all_goals
    cases hs
    cases ha
    refine hl.upd (t := t) rfl (fun _ _ => rfl) (fun _ _ => rfl) ?_ ?_ ?_ (fun _ _ => rfl) hn (by simp) <;>
      simp [ownW, ownC, busyE, hpc, S.goto]

theorem live_step {s s' : S} {R R' : List Nat} {W W' tw tc : Option Nat} {a : Act} {ls : List Label}
    (hi : Inv s R W tw tc) (hb : R.length < 4294967295) (hl : Live s R)
    (hf : ∀ t, a = .fail t → soft (s.pc t) = true)
    (hs : step false s a = some (s', ls)) (ha : atomic (R, W) ls = some (R', W')) : Live s' R' := by
  cases a with
  | callRead t =>
    have hn := hl.n t
    unfold step at hs; dsimp only at hs
    split at hs
    · rename_i hpc
      rw [hpc] at hn
      cases hs
      cases ha
      refine hl.upd (t := t) rfl (fun _ _ => rfl) (fun _ _ => rfl) ?_ ?_ ?_ (fun _ _ => rfl) hn (by simp) <;>
        simp [ownW, ownC, busyE, hpc, S.goto]
    · cases hs
  | callWrite t =>
    have hn := hl.n t
    unfold step at hs; dsimp only at hs
    split at hs
    · rename_i hpc
      rw [hpc] at hn
      cases hs
      cases ha
      refine hl.upd (t := t) rfl (fun _ _ => rfl) (fun _ _ => rfl) ?_ ?_ ?_ (fun _ _ => rfl) hn (by simp) <;>
        simp [ownW, ownC, busyE, hpc, S.goto]
    · cases hs
  | callReadUnlock t =>
    have hn := hl.n t
    unfold step at hs; dsimp only at hs
    split at hs
    · rename_i hpc
      rw [hpc.1] at hn
      have h0 : 0 < s.rd t := hpc.2.resolve_left (fun e => nomatch e)
      cases hs
      cases ha
      refine hl.upd (t := t) (q := .uC) rfl (fun _ _ => rfl) (fun u hu => setAt_ne hu) ?_ ?_ ?_
        (fun _ _ => rfl) ?_ (by simp)
      · simp [ownW, hpc.1, S.goto]
      · simp [ownC, hpc.1, S.goto]
      · simp [busyE, hpc.1, S.goto]
      · show _ ≤ setAt s.rd t (s.rd t - 1) t + 1
        rw [setAt_eq]
        simp only [pend] at hn
        omega
    · cases hs
  | callWriteUnlock t =>
    have hn := hl.n t
    unfold step at hs; dsimp only at hs
    split at hs
    · rename_i hpc
      rw [hpc.1] at hn
      cases hs
      cases ha
      refine hl.upd (t := t) (q := .xRel) rfl (fun u hu => setAt_ne hu) (fun _ _ => rfl) ?_ ?_ ?_
        (fun _ _ => rfl) hn (by simp)
      · simp [ownW]
      · simp [ownC, hpc.1, S.goto]
      · simp [busyE, hpc.1, S.goto]
    · cases hs
  | run t => exact live_run hi hb hl hs ha
  | fail t => exact live_fail hl (hf t rfl) hs ha

theorem init_live : Live init [] :=
  ⟨Or.inl rfl, Or.inl rfl, Or.inl rfl, fun _ => Nat.le_refl _, fun _ => (nomatch ·)⟩

/-- Blocked for good unless somebody else moves. -/
def stuck (s : S) (t : Nat) : Prop :=
  (s.pc t = .rW ∧ s.wsem = false) ∨ (s.pc t = .wW ∧ s.wsem = false) ∨ (s.pc t = .rC ∧ s.csem = false) ∨
    (s.pc t = .uC ∧ s.csem = false) ∨ (s.pc t = .wE ∧ s.ev = false)

/-- If everybody is outside or blocked, and somebody is blocked, somebody has a lock. -/
theorem live_held {s : S} {R : List Nat} {W tw tc : Option Nat} (hi : Inv s R W tw tc) (hl : Live s R)
    (hq : ∀ t, s.pc t = .idle ∨ stuck s t) (u : Nat) (hu : stuck s u) :
    ∃ t, 0 < s.rd t ∨ s.wr t = true := by
  have hcs : s.csem = true := by
    rcases hl.c with h | ⟨t, ht⟩
    · exact h
    · rcases hq t with e | ⟨e, _⟩ | ⟨e, _⟩ | ⟨e, _⟩ | ⟨e, _⟩ | ⟨e, _⟩ <;> rw [e] at ht <;> cases ht
  have hev : s.ev = false → ∃ t, 0 < s.rd t := by
    intro hev
    rcases hl.e with h | h | ⟨t, ht⟩
    · rw [hev] at h; cases h
    · rw [hi.rc] at h
      cases R with
      | nil => exact absurd rfl h
      | cons t R =>
        refine ⟨t, ?_⟩
        have := hl.n t
        rw [List.count_cons_self] at this
        have hp : pend (s.pc t) = 0 := by
          rcases hq t with e | ⟨e, _⟩ | ⟨e, _⟩ | ⟨e, _⟩ | ⟨e, h⟩ | ⟨e, _⟩
          · rw [e]; rfl
          · rw [e]; rfl
          · rw [e]; rfl
          · rw [e]; rfl
          · rw [hcs] at h; cases h
          · rw [e]; rfl
        omega
    · rcases hq t with e | ⟨e, _⟩ | ⟨e, _⟩ | ⟨e, _⟩ | ⟨e, _⟩ | ⟨e, _⟩ <;> rw [e] at ht <;> cases ht
  have hws : s.wsem = false → ∃ t, 0 < s.rd t ∨ s.wr t = true := by
    intro hws
    rcases hl.w with h | ⟨t, ht⟩
    · rw [hws] at h; cases h
    · rcases ht with ht | ht
      · rcases hq t with e | ⟨e, _⟩ | ⟨e, _⟩ | ⟨e, h⟩ | ⟨e, _⟩ | ⟨e, h⟩
        · rw [e] at ht; cases ht
        · rw [e] at ht; cases ht
        · rw [e] at ht; cases ht
        · rw [hcs] at h; cases h
        · rw [e] at ht; cases ht
        · obtain ⟨t, h⟩ := hev h; exact ⟨t, Or.inl h⟩
      · exact ⟨t, Or.inr ht⟩
  rcases hu with ⟨_, h⟩ | ⟨_, h⟩ | ⟨_, h⟩ | ⟨_, h⟩ | ⟨_, h⟩
  · exact hws h
  · exact hws h
  · rw [hcs] at h; cases h
  · rw [hcs] at h; cases h
  · obtain ⟨t, h⟩ := hev h; exact ⟨t, Or.inl h⟩

end Verif.RwLock
