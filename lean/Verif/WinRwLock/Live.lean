import Verif.WinRwLock.Lemmas

/-! # Who keeps the others waiting -/

namespace Verif.WinRwLock

open Verif.RwLock (Label Act setAt)
open Verif.RwLock.Spec

/-- A taken mutex or a closed event has somebody to open it, the counted readers are those that
have a read lock or are coming or going, and no unit of the semaphore is lost. -/
structure Live (s : S) (R : List Nat) : Prop where
  w : s.wsem = true ∨ ∃ t, ownW (s.pc t) = true ∨ s.wr t = true
  c : s.msem = true ∨ ∃ t, ownM (s.pc t) = true
  e : s.ev = true ∨ R ≠ [] ∨ ∃ t, s.pc t = .uFire
  n : ∀ t, R.count t ≤ s.rd t + pend (s.pc t)
  b : ∀ t, s.pc t ≠ .uBad
  x1 : (∃ t, holdS (s.pc t) = true) ∨ s.rsem + R.length = longMax
  x2 : ∀ t, holdS (s.pc t) = true → s.rsem + R.length + 1 = longMax

theorem setAt_ne {α : Type} {f : Nat → α} {t u : Nat} {x : α} (h : u ≠ t) : setAt f t x u = f u :=
  if_neg h

theorem setAt_eq {α : Type} {f : Nat → α} {t : Nat} {x : α} : setAt f t x t = x := if_pos rfl

theorem Live.upd {s s' : S} {R R' : List Nat} {t : Nat} {q : Pc} (h : Live s R)
    (hs : s'.pc = setAt s.pc t q) (hwr : ∀ u, u ≠ t → s'.wr u = s.wr u)
    (hrd : ∀ u, u ≠ t → s'.rd u = s.rd u)
    (h1 : s'.wsem = true ∨ ownW q = true ∨
      (s'.wsem = s.wsem ∧ (ownW (s.pc t) = true ∨ s.wr t = true → ownW q = true ∨ s'.wr t = true)))
    (h2 : s'.msem = true ∨ ownM q = true ∨ (s'.msem = s.msem ∧ (ownM (s.pc t) = true → ownM q = true)))
    (h3 : s'.ev = true ∨ R' ≠ [] ∨ q = .uFire ∨ (s'.ev = s.ev ∧ R' = R ∧ s.pc t ≠ .uFire))
    (h4 : ∀ u, u ≠ t → R'.count u = R.count u) (h5 : R'.count t ≤ s'.rd t + pend q)
    (h6 : q ≠ .uBad)
    (h7 : (holdS q = true ∧ s'.rsem + R'.length + 1 = longMax ∧ ∀ u, u ≠ t → holdS (s.pc u) = false) ∨
      (holdS q = false ∧ s'.rsem + R'.length = longMax ∧ ∀ u, u ≠ t → holdS (s.pc u) = false) ∨
      (holdS q = false ∧ holdS (s.pc t) = false ∧ s'.rsem + R'.length = s.rsem + R.length)) : Live s' R' := by
  have ht : s'.pc t = q := by rw [hs]; exact if_pos rfl
  have hu : ∀ u, u ≠ t → s'.pc u = s.pc u := fun u e => by rw [hs]; exact if_neg e
  refine ⟨?_, ?_, ?_, fun u => ?_, fun u => ?_, ?_, fun u => ?_⟩
  · rcases h1 with h1 | h1 | ⟨e, h1⟩
    · exact Or.inl h1
    · exact Or.inr ⟨t, Or.inl (by rw [ht]; exact h1)⟩
    · rcases h.w with hw | ⟨u, hw⟩
      · exact Or.inl (e.trans hw)
      · by_cases hut : u = t
        · subst hut
          exact Or.inr ⟨u, by rw [ht]; exact h1 hw⟩
        · exact Or.inr ⟨u, by rw [hu u hut, hwr u hut]; exact hw⟩
  · rcases h2 with h1 | h1 | ⟨e, h1⟩
    · exact Or.inl h1
    · exact Or.inr ⟨t, by rw [ht]; exact h1⟩
    · rcases h.c with hw | ⟨u, hw⟩
      · exact Or.inl (e.trans hw)
      · by_cases hut : u = t
        · subst hut
          exact Or.inr ⟨u, by rw [ht]; exact h1 hw⟩
        · exact Or.inr ⟨u, by rw [hu u hut]; exact hw⟩
  · rcases h3 with h1 | h1 | h1 | ⟨e1, e2, h1⟩
    · exact Or.inl h1
    · exact Or.inr (Or.inl h1)
    · exact Or.inr (Or.inr ⟨t, by rw [ht]; exact h1⟩)
    · rcases h.e with hw | hw | ⟨u, hw⟩
      · exact Or.inl (e1.trans hw)
      · exact Or.inr (Or.inl (by rw [e2]; exact hw))
      · by_cases hut : u = t
        · subst hut; exact absurd hw h1
        · exact Or.inr (Or.inr ⟨u, by rw [hu u hut]; exact hw⟩)
  · by_cases hut : u = t
    · subst hut; rw [ht]; exact h5
    · rw [hu u hut, hrd u hut, h4 u hut]; exact h.n u
  · by_cases hut : u = t
    · subst hut; rw [ht]; exact h6
    · rw [hu u hut]; exact h.b u
  · rcases h7 with ⟨a, -, -⟩ | ⟨-, a, -⟩ | ⟨-, a, b⟩
    · exact Or.inl ⟨t, by rw [ht]; exact a⟩
    · exact Or.inr a
    · rcases h.x1 with ⟨u, hw⟩ | hw
      · by_cases hut : u = t
        · subst hut; rw [a] at hw; cases hw
        · exact Or.inl ⟨u, by rw [hu u hut]; exact hw⟩
      · exact Or.inr (b.trans hw)
  · intro hh
    by_cases hut : u = t
    · subst hut
      rw [ht] at hh
      rcases h7 with ⟨-, a, -⟩ | ⟨a, -, -⟩ | ⟨a, -, -⟩
      · exact a
      · rw [a] at hh; cases hh
      · rw [a] at hh; cases hh
    · rw [hu u hut] at hh
      rcases h7 with ⟨-, -, a⟩ | ⟨-, -, a⟩ | ⟨-, -, b⟩
      · rw [a u hut] at hh; cases hh
      · rw [a u hut] at hh; cases hh
      · rw [b]; exact h.x2 u hh

theorem others {s : S} {R : List Nat} {W tw tc : Option Nat} {t : Nat} (hi : Inv s R W tw tc)
    (h : ownM (s.pc t) = true) : ∀ u, u ≠ t → holdS (s.pc u) = false := by
  intro u hu
  cases e : holdS (s.pc u) with
  | false => rfl
  | true =>
    have e1 := hi.hc u (holdS_own e)
    rw [hi.hc t h] at e1
    exact absurd (Option.some.inj e1).symm hu

/-- Without anybody between semaphore and event all units are there. -/
theorem exact_sem {s : S} {R : List Nat} {W tw tc : Option Nat} {t : Nat} (hi : Inv s R W tw tc) (hl : Live s R)
    (h : ownM (s.pc t) = true) (hn : holdS (s.pc t) = false) : s.rsem + R.length = longMax := by
  rcases hl.x1 with ⟨u, hu⟩ | h'
  · by_cases e : u = t
    · subst e; rw [hn] at hu; cases hu
    · rw [others hi h u e] at hu; cases hu
  · exact h'

theorem live_run {s s' : S} {R R' : List Nat} {W W' tw tc : Option Nat} {t : Nat} {ls : List Label}
    (hi : Inv s R W tw tc) (hl : Live s R)
    (hs : run s t = some (s', ls)) (ha : atomic (R, W) ls = some (R', W')) : Live s' R' := by
  have hn := hl.n t
  have hc := hi.cnt t
  have hx := hl.x2 t
  have ho := fun h => others (t := t) hi h
  have hE := fun h h' => exact_sem (t := t) hi hl h h'
  unfold run at hs
  cases hpc : s.pc t <;> rw [hpc] at hs hn hc hx ho hE <;> dsimp only at hs
  case idle => cases hs
  case rS =>
    split at hs
    · rename_i hpos
      cases hs
      cases ha
      have := hE rfl rfl
      refine hl.upd (t := t) (q := .rReset) rfl (fun _ _ => rfl) (fun _ _ => rfl) (by simp [ownW])
        (by simp [ownM]) (by simp [hpc, S.goto]) (fun _ _ => rfl) hn (by simp)
        (Or.inl ⟨rfl, ?_, ho rfl⟩)
      show s.rsem - 1 + R.length + 1 = longMax
      omega
    · cases hs
  case rReset =>
    cases hs
    simp only [atomic, effect] at ha
    split at ha
    · cases ha
      refine hl.upd (t := t) (q := .rRelM true) rfl (fun _ _ => rfl) (fun _ _ => rfl) (by simp [ownW])
        (by simp [ownM]) (by simp) (fun u hu => List.count_cons_of_ne (Ne.symm hu)) ?_ (by simp)
        (Or.inr (Or.inl ⟨rfl, ?_, ho rfl⟩))
      · simp [pend, S.goto] at hn ⊢; exact hn
      · have := hx rfl
        rw [List.length_cons]
        show s.rsem + (R.length + 1) = longMax
        omega
    · cases ha
  case rRelS =>
    cases hs
    cases ha
    have := hx rfl
    refine hl.upd (t := t) (q := .rRelM false) rfl (fun _ _ => rfl) (fun _ _ => rfl) (by simp [ownW])
      (by simp [ownM]) (by simp [hpc, S.goto]) (fun _ _ => rfl) hn (by simp)
      (Or.inr (Or.inl ⟨rfl, ?_, ho rfl⟩))
    show (if s.rsem < longMax then s.rsem + 1 else s.rsem) + R.length = longMax
    rw [if_pos (by omega)]
    omega
  case uRel =>
    have hpos : 0 < R.length := by
      have : 0 < R.count t := by simp only [pend] at hc; omega
      exact List.length_pos_of_mem (List.count_pos_iff.mp this)
    have hex := hE rfl rfl
    rw [if_pos (by omega)] at hs
    cases hs
    simp only [atomic, effect] at ha
    split at ha
    · rename_i hmem
      cases ha
      have hlen := List.length_erase_of_mem hmem
      have h7 : s.rsem + 1 + (R.erase t).length = s.rsem + R.length := by omega
      have hcn : (R.erase t).count t ≤ s.rd t + 0 := by
        simp only [pend, List.count_erase_self] at hn ⊢
        omega
      by_cases hm : s.rsem = longMax - 1
      · rw [if_pos hm]
        exact hl.upd (t := t) (q := .uFire) rfl (fun _ _ => rfl) (fun _ _ => rfl)
          (Or.inr (Or.inr ⟨rfl, by rw [hpc]; exact fun e => e.imp (by simp [ownW]) id⟩)) (by simp [ownM]) (by simp)
          (fun u hu => List.count_erase_of_ne hu) hcn (by simp) (Or.inr (Or.inr ⟨rfl, by rw [hpc]; rfl, h7⟩))
      · rw [if_neg hm]
        refine hl.upd (t := t) (q := .uRelM true) rfl (fun _ _ => rfl) (fun _ _ => rfl)
          (Or.inr (Or.inr ⟨rfl, by rw [hpc]; exact fun e => e.imp (by simp [ownW]) id⟩)) (by simp [ownM])
          (Or.inr (Or.inl ?_))
          (fun u hu => List.count_erase_of_ne hu) hcn (by simp) (Or.inr (Or.inr ⟨rfl, by rw [hpc]; rfl, h7⟩))
        intro e
        rw [e, List.length_nil] at hlen
        omega
    · cases ha
  case uBad => exact absurd hpc (hl.b t)
  case rRet r =>
    cases hs
    cases ha
    refine hl.upd (t := t) (q := .idle) rfl (fun _ _ => rfl) (fun u hu => ?_)
      (Or.inr (Or.inr ⟨rfl, by rw [hpc]; exact fun e => e.imp (by simp [ownW]) id⟩))
      (Or.inr (Or.inr ⟨rfl, by rw [hpc]; simp [ownM]⟩))
      (Or.inr (Or.inr (Or.inr ⟨rfl, rfl, by rw [hpc]; simp⟩))) (fun _ _ => rfl) ?_ (by simp)
      (Or.inr (Or.inr ⟨rfl, by rw [hpc]; rfl, rfl⟩))
    · show (if r then setAt s.rd t (s.rd t + 1) else s.rd) u = _
      cases r
      · rfl
      · exact setAt_ne hu
    · show _ ≤ (if r then setAt s.rd t (s.rd t + 1) else s.rd) t + 0
      cases r
      · exact hn
      · simp only [if_true, setAt_eq]; simpa [pend] using hn
  case wRet r =>
    cases hs
    cases ha
    refine hl.upd (t := t) (q := .idle) rfl (fun u hu => ?_) (fun _ _ => rfl)
      (Or.inr (Or.inr ⟨rfl, fun e => Or.inr ?_⟩))
      (Or.inr (Or.inr ⟨rfl, by rw [hpc]; simp [ownM]⟩))
      (Or.inr (Or.inr (Or.inr ⟨rfl, rfl, by rw [hpc]; simp⟩))) (fun _ _ => rfl) ?_ (by simp)
      (Or.inr (Or.inr ⟨rfl, by rw [hpc]; rfl, rfl⟩))
    · show (if r then setAt s.wr t true else s.wr) u = _
      cases r
      · rfl
      · exact setAt_ne hu
    · show (if r then setAt s.wr t true else s.wr) t = true
      cases r
      · rw [hpc] at e; simpa [ownW] using e
      · exact setAt_eq
    · cases r <;> exact hn
  case rRelM r =>
    cases hs
    cases ha
    exact hl.upd (t := t) (q := .rRelW r) rfl (fun _ _ => rfl) (fun _ _ => rfl) (by simp [ownW])
      (Or.inl rfl) (Or.inr (Or.inr (Or.inr ⟨rfl, rfl, by rw [hpc]; simp⟩))) (fun _ _ => rfl)
      (by cases r <;> exact hn) (by simp) (Or.inr (Or.inr ⟨rfl, by rw [hpc]; rfl, rfl⟩))
  case rRelW r =>
    cases hs
    cases ha
    exact hl.upd (t := t) (q := .rRet r) rfl (fun _ _ => rfl) (fun _ _ => rfl) (Or.inl rfl)
      (Or.inr (Or.inr ⟨rfl, by rw [hpc]; simp [ownM]⟩))
      (Or.inr (Or.inr (Or.inr ⟨rfl, rfl, by rw [hpc]; simp⟩))) (fun _ _ => rfl)
      (by cases r <;> exact hn) (by simp) (Or.inr (Or.inr ⟨rfl, by rw [hpc]; rfl, rfl⟩))
  all_goals
    first
    | (split at hs
       · cases hs
         first
         | (cases ha
            refine hl.upd (t := t) rfl (fun _ _ => rfl) (fun _ _ => rfl) ?_ ?_ ?_ (fun _ _ => rfl) hn (by simp)
              (Or.inr (Or.inr ⟨rfl, by rw [hpc]; rfl, rfl⟩)) <;>
              simp [ownW, ownM, hpc, S.goto])
         | (simp only [atomic, effect] at ha
            split at ha
            · cases ha
              refine hl.upd (t := t) rfl (fun _ _ => rfl) (fun _ _ => rfl) ?_ ?_ ?_ (fun u _ => by simp_all)
                (by simp_all [pend, S.goto]) (by simp) (Or.inr (Or.inr ⟨rfl, by rw [hpc]; rfl, by simp_all [S.goto]⟩)) <;>
                simp_all [ownW, ownM, S.goto]
            · cases ha)
       · cases hs)
    | (cases hs
       first
       | (cases ha
          refine hl.upd (t := t) rfl (fun _ _ => rfl) (fun _ _ => rfl) ?_ ?_ ?_ (fun _ _ => rfl) hn (by simp)
            (Or.inr (Or.inr ⟨rfl, by rw [hpc]; rfl, rfl⟩)) <;>
            simp [ownW, ownM, hpc, S.goto])
       | (simp only [atomic, effect] at ha
          split at ha
          · cases ha
            refine hl.upd (t := t) rfl (fun _ _ => rfl) (fun _ _ => rfl) ?_ ?_ ?_ (fun u _ => by simp_all)
              (by simp_all [pend, S.goto]) (by simp) (Or.inr (Or.inr ⟨rfl, by rw [hpc]; rfl, by simp_all [S.goto]⟩)) <;>
              simp_all [ownW, ownM, S.goto]
          · cases ha))

theorem live_fail {s s' : S} {R R' : List Nat} {W W' tw tc : Option Nat} {t : Nat} {ls : List Label}
    (hi : Inv s R W tw tc) (hl : Live s R) (hsoft : faults s (.fail t) = false)
    (hs : fail s t = some (s', ls)) (ha : atomic (R, W) ls = some (R', W')) : Live s' R' := by
  have hn := hl.n t
  have hx := hl.x2 t
  have ho := fun h => others (t := t) hi h
  unfold faults at hsoft
  unfold fail at hs
  cases hpc : s.pc t <;> simp only [hpc] at hs hn hsoft hx ho <;> first | (cases hsoft; done) | skip
  case rReset =>
    cases hs
    cases ha
    exact hl.upd (t := t) (q := .rRelS) rfl (fun _ _ => rfl) (fun _ _ => rfl) (by simp [ownW])
      (by simp [ownM]) (by simp [hpc, S.goto]) (fun _ _ => rfl) hn (by simp)
      (Or.inl ⟨rfl, hx rfl, ho rfl⟩)
  all_goals
    cases hs
    cases ha
    refine hl.upd (t := t) rfl (fun _ _ => rfl) (fun _ _ => rfl) ?_ ?_ ?_ (fun _ _ => rfl) hn (by simp)
      (Or.inr (Or.inr ⟨rfl, by rw [hpc]; rfl, rfl⟩)) <;>
      simp [ownW, ownM, hpc, S.goto]

theorem live_step {s s' : S} {R R' : List Nat} {W W' tw tc : Option Nat} {a : Act} {ls : List Label}
    (hi : Inv s R W tw tc) (hl : Live s R) (hf : faults s a = false)
    (hs : step false s a = some (s', ls)) (ha : atomic (R, W) ls = some (R', W')) : Live s' R' := by
  cases a with
  | callRead t =>
    have hn := hl.n t
    unfold step at hs; dsimp only at hs
    split at hs
    · rename_i hpc
      rw [hpc] at hn
      cases hs
      cases ha
      refine hl.upd (t := t) rfl (fun _ _ => rfl) (fun _ _ => rfl) ?_ ?_ ?_ (fun _ _ => rfl) hn (by simp)
        (Or.inr (Or.inr ⟨rfl, by rw [hpc]; rfl, rfl⟩)) <;>
        simp [ownW, ownM, hpc, S.goto]
    · cases hs
  | callWrite t =>
    have hn := hl.n t
    unfold step at hs; dsimp only at hs
    split at hs
    · rename_i hpc
      rw [hpc] at hn
      cases hs
      cases ha
      refine hl.upd (t := t) rfl (fun _ _ => rfl) (fun _ _ => rfl) ?_ ?_ ?_ (fun _ _ => rfl) hn (by simp)
        (Or.inr (Or.inr ⟨rfl, by rw [hpc]; rfl, rfl⟩)) <;>
        simp [ownW, ownM, hpc, S.goto]
    · cases hs
  | callReadUnlock t =>
    have hn := hl.n t
    unfold step at hs; dsimp only at hs
    split at hs
    · rename_i hpc
      rw [hpc.1] at hn
      have h0 : 0 < s.rd t := hpc.2.resolve_left (fun e => nomatch e)
      cases hs
      cases ha
      refine hl.upd (t := t) (q := .uM) rfl (fun _ _ => rfl) (fun u hu => setAt_ne hu) ?_ ?_ ?_
        (fun _ _ => rfl) ?_ (by simp) (Or.inr (Or.inr ⟨rfl, by rw [hpc.1]; rfl, rfl⟩))
      · simp [ownW, hpc.1, S.goto]
      · simp [ownM, hpc.1, S.goto]
      · simp [hpc.1, S.goto]
      · show _ ≤ setAt s.rd t (s.rd t - 1) t + 1
        rw [setAt_eq]
        simp only [pend] at hn
        omega
    · cases hs
  | callWriteUnlock t =>
    have hn := hl.n t
    unfold step at hs; dsimp only at hs
    split at hs
    · rename_i hpc
      rw [hpc.1] at hn
      cases hs
      cases ha
      refine hl.upd (t := t) (q := .xRel) rfl (fun u hu => setAt_ne hu) (fun _ _ => rfl) ?_ ?_ ?_
        (fun _ _ => rfl) hn (by simp) (Or.inr (Or.inr ⟨rfl, by rw [hpc.1]; rfl, rfl⟩))
      · simp [ownW]
      · simp [ownM, hpc.1, S.goto]
      · simp [hpc.1, S.goto]
    · cases hs
  | run t => exact live_run hi hl hs ha
  | fail t => exact live_fail hi hl hf hs ha

theorem init_live : Live init [] :=
  ⟨Or.inl rfl, Or.inl rfl, Or.inl rfl, fun _ => Nat.le_refl _, fun _ => (nomatch ·), Or.inr rfl, fun _ => (nomatch ·)⟩

theorem stuck_pc {s : S} {t : Nat} (h : run s t = none) : s.pc t = .idle ∨
    (s.pc t = .rW ∧ s.wsem = false) ∨ (s.pc t = .wW ∧ s.wsem = false) ∨ (s.pc t = .rM ∧ s.msem = false) ∨
    (s.pc t = .uM ∧ s.msem = false) ∨ (s.pc t = .wE ∧ s.ev = false) ∨ (s.pc t = .rS ∧ s.rsem = 0) := by
  unfold run at h
  cases hpc : s.pc t <;> rw [hpc] at h <;> dsimp only at h <;> first | (cases h; done) | skip
  case idle => exact Or.inl rfl
  case uRel => split at h <;> cases h
  all_goals
    split at h
    · cases h
    · rename_i h'
      simp at h'
      simp [h']

/-- If nobody can go on, somebody is inside a call, and the limit is not reached, then somebody has a lock. -/
theorem live_held {s : S} {R : List Nat} {W tw tc : Option Nat} (hi : Inv s R W tw tc) (hl : Live s R)
    (hq : ∀ t, run s t = none) (hb : R.length < longMax) (u : Nat) (hu : s.pc u ≠ .idle) :
    ∃ t, 0 < s.rd t ∨ s.wr t = true := by
  have hq' := fun t => stuck_pc (hq t)
  have hS : ∀ t, s.pc t ≠ .rS := by
    intro t e
    have hex := exact_sem (t := t) hi hl (by rw [e]; rfl) (by rw [e]; rfl)
    rcases hq' t with h | ⟨h, _⟩ | ⟨h, _⟩ | ⟨h, _⟩ | ⟨h, _⟩ | ⟨h, _⟩ | ⟨_, h⟩ <;> first | (rw [e] at h; cases h; done) | skip
    omega
  have hM : s.msem = true := by
    rcases hl.c with h | ⟨t, ht⟩
    · exact h
    · rcases hq' t with e | ⟨e, _⟩ | ⟨e, _⟩ | ⟨e, _⟩ | ⟨e, _⟩ | ⟨e, _⟩ | ⟨e, _⟩ <;>
        first | exact absurd e (hS t) | (rw [e] at ht; cases ht; done)
  have hev : s.ev = false → ∃ t, 0 < s.rd t := by
    intro hev
    rcases hl.e with h | h | ⟨t, ht⟩
    · rw [hev] at h; cases h
    · cases R with
      | nil => exact absurd rfl h
      | cons t R =>
        refine ⟨t, ?_⟩
        have := hl.n t
        rw [List.count_cons_self] at this
        have hp : pend (s.pc t) = 0 := by
          rcases hq' t with e | ⟨e, _⟩ | ⟨e, _⟩ | ⟨e, _⟩ | ⟨e, h⟩ | ⟨e, _⟩ | ⟨e, _⟩ <;>
            first | (rw [hM] at h; cases h; done) | (rw [e]; rfl)
        omega
    · rcases hq' t with e | ⟨e, _⟩ | ⟨e, _⟩ | ⟨e, _⟩ | ⟨e, _⟩ | ⟨e, _⟩ | ⟨e, _⟩ <;> rw [e] at ht <;> cases ht
  have hws : s.wsem = false → ∃ t, 0 < s.rd t ∨ s.wr t = true := by
    intro hws
    rcases hl.w with h | ⟨t, ht⟩
    · rw [hws] at h; cases h
    · rcases ht with ht | ht
      · rcases hq' t with e | ⟨e, _⟩ | ⟨e, _⟩ | ⟨e, h⟩ | ⟨e, _⟩ | ⟨e, h⟩ | ⟨e, _⟩ <;>
          first | (rw [e] at ht; cases ht; done) | (rw [hM] at h; cases h; done) | exact absurd e (hS t) | skip
        obtain ⟨t, h⟩ := hev h
        exact ⟨t, Or.inl h⟩
      · exact ⟨t, Or.inr ht⟩
  rcases hq' u with e | ⟨_, h⟩ | ⟨_, h⟩ | ⟨_, h⟩ | ⟨_, h⟩ | ⟨_, h⟩ | ⟨e, _⟩
  · exact absurd e hu
  · exact hws h
  · exact hws h
  · rw [hM] at h; cases h
  · rw [hM] at h; cases h
  · obtain ⟨t, h⟩ := hev h; exact ⟨t, Or.inl h⟩
  · exact absurd e (hS u)

theorem exec_live (as : List Act) : ∀ {s : S} {R W tw tc} (_ : Inv s R W tw tc) (_ : Live s R)
    (_ : ∀ p a q, as = p ++ a :: q → faults (exec false s p).1 a = false),
    ∃ R' W' tw' tc', Inv (exec false s as).1 R' W' tw' tc' ∧ Live (exec false s as).1 R' ∧
      R'.length = readers R.length (exec false s as).2 := by
  induction as with
  | nil =>
    intro s R W tw tc hi hl _
    exact ⟨R, W, tw, tc, hi, hl, rfl⟩
  | cons a as ih =>
    intro s R W tw tc hi hl hf
    have hok := step_ok a hi
    have h0 := hf [] a as rfl
    cases hs : step false s a with
    | none =>
      rw [exec, hs]
      refine ih hi hl fun p b q e => ?_
      have := hf (a :: p) b q (by rw [e]; rfl)
      rw [exec, hs] at this
      exact this
    | some x =>
      obtain ⟨s1, l1⟩ := x
      obtain ⟨R1, W1, tw1, tc1, hi1, ha1, hr1, hp1, hg1⟩ := hok s1 l1 hs
      rw [exec, hs]
      dsimp only
      rw [RwLock.readers_append, ← hr1]
      refine ih hi1 (live_step hi hl h0 hs ha1) fun p b q e => ?_
      have := hf (a :: p) b q (by rw [e]; rfl)
      rw [exec, hs] at this
      exact this

end Verif.WinRwLock
