import Verif.Mutex.Spec

/-! # Invariants of the mutex -/

namespace Verif.Mutex

open Spec

/-- The object whose critical section a thread is in. -/
def critAt : Pc → Option Nat
  | .lTest o _ | .lLoad o | .lStore o _ | .lUnl o | .lOut o _ | .lOwn o | .lCnt o => some o
  | .uTest o _ | .uBad o _ | .uAll o _ | .uLoad o _ | .uStore o _ _ | .uZero o _ | .uOwn o _
  | .uRel o _ | .uUnl o _ => some o
  | _ => none

/-- `MxCount` of the object holds the depth unless its owner is at one of these positions. -/
def unstable : Pc → Option Nat
  | .lCnt o | .uLoad o _ | .uStore o _ _ | .uZero o _ | .uOwn o _ => some o
  | _ => none

/-- Positions of a holder that is not (yet or any more) in `MxOwnerID`. -/
def window : Pc → Option Nat
  | .lCs2 o | .lOwn o | .uRel o _ => some o
  | _ => none

/-- What a position of thread `t` says about the objects and the abstract state. -/
def Val (s : S) (h : Holder) (t : Nat) : Pc → Prop
  | .lLoad o | .uAll o _ => s.oid o = some t
  | .lStore o v => s.oid o = some t ∧ v = s.cnt o
  | .lOut o _ | .lWait o _ => s.oid o ≠ some t
  | .lCs2 o | .lOwn o => s.oid o ≠ some t ∧ h = some (t, o, 1)
  | .lCnt o => s.oid o = some t ∧ h = some (t, o, 1)
  | .uLoad o all => s.oid o = some t ∧ ∃ d, h = some (t, o, d) ∧ s.cnt o = if all then 1 else d
  | .uStore o all v =>
    s.oid o = some t ∧ ∃ d, h = some (t, o, d) ∧ v = if all then 1 else d
  | .uZero o all =>
    s.oid o = some t ∧ ∃ d, h = some (t, o, d) ∧ s.cnt o = if all then 0 else d - 1
  | .uOwn o all => s.oid o = some t ∧ ∃ d, h = some (t, o, d) ∧ (all = true ∨ d = 1)
  | .uRel o all => s.oid o ≠ some t ∧ ∃ d, h = some (t, o, d) ∧ (all = true ∨ d = 1)
  | _ => True

structure Inv (s : S) (h : Holder) : Prop where
  crit : ∀ t o, critAt (s.pc t) = some o → s.cs o = some t
  sem : s.sem = true → h = none
  oid : ∀ o t, s.oid o = some t → ∃ d, h = some (t, o, d) ∧
    (unstable (s.pc t) ≠ some o → s.cnt o = d)
  pos : ∀ t o d, h = some (t, o, d) → 0 < d ∧ (s.oid o = some t ∨ window (s.pc t) = some o)
  val : ∀ t, Val s h t (s.pc t)

/-- The phase belonging to a position. -/
def phOf : Pc → Phase
  | .idle => .out
  | .lCs o _ | .lTest o _ | .lLoad o | .lStore o _ | .lOut o _ | .lWait o _ => .locking o
  | .lUnl o | .lCs2 o | .lOwn o | .lCnt o => .locked o
  | .uCs o all | .uTest o all | .uAll o all | .uLoad o all | .uStore o all _ | .uZero o all
  | .uOwn o all | .uRel o all => .unlocking o all
  | .uBad o all => .unlockFailed o all
  | .uUnl o all => .left o all

theorem goto_pc (s : S) (t u : Nat) (p : Pc) :
    (s.goto t p).pc u = if u = t then p else s.pc u := rfl

theorem Val.frame {s s' : S} {h h' : Holder} {u : Nat} {p : Pc} (hv : Val s h u p)
    (hcnt : ∀ o, critAt p = some o → s'.cnt o = s.cnt o)
    (hoid : ∀ o, s'.oid o = some u ↔ s.oid o = some u)
    (hh : ∀ o d, h = some (u, o, d) → h' = some (u, o, d)) : Val s' h' u p := by
  cases p with
  | lLoad o => exact (hoid o).mpr hv
  | uAll o all => exact (hoid o).mpr hv
  | lStore o v => exact ⟨(hoid o).mpr hv.1, by rw [hcnt o rfl]; exact hv.2⟩
  | lOut o w => exact fun e => hv ((hoid o).mp e)
  | lWait o w => exact fun e => hv ((hoid o).mp e)
  | lCs2 o => exact ⟨fun e => hv.1 ((hoid o).mp e), hh _ _ hv.2⟩
  | lOwn o => exact ⟨fun e => hv.1 ((hoid o).mp e), hh _ _ hv.2⟩
  | lCnt o => exact ⟨(hoid o).mpr hv.1, hh _ _ hv.2⟩
  | uLoad o all =>
    obtain ⟨h1, d, h2, h3⟩ := hv
    exact ⟨(hoid o).mpr h1, d, hh _ _ h2, by rw [hcnt o rfl]; exact h3⟩
  | uStore o all v =>
    obtain ⟨h1, d, h2, h3⟩ := hv
    exact ⟨(hoid o).mpr h1, d, hh _ _ h2, h3⟩
  | uZero o all =>
    obtain ⟨h1, d, h2, h3⟩ := hv
    exact ⟨(hoid o).mpr h1, d, hh _ _ h2, by rw [hcnt o rfl]; exact h3⟩
  | uOwn o all =>
    obtain ⟨h1, d, h2, h3⟩ := hv
    exact ⟨(hoid o).mpr h1, d, hh _ _ h2, h3⟩
  | uRel o all =>
    obtain ⟨h1, d, h2, h3⟩ := hv
    exact ⟨fun e => h1 ((hoid o).mp e), d, hh _ _ h2, h3⟩
  | _ => trivial

theorem Inv.upd {s s' : S} {h h' : Holder} {t : Nat} {p : Pc} (hi : Inv s h)
    (hs : ∀ u, s'.pc u = if u = t then p else s.pc u)
    (hcs : ∀ u o, u ≠ t → s.cs o = some u → s'.cs o = some u)
    (hcs' : ∀ o, critAt p = some o → s'.cs o = some t)
    (hsem : s'.sem = true → h' = none)
    (hcnt : ∀ u o, u ≠ t → s.cs o = some u ∨ s.oid o = some u → s'.cnt o = s.cnt o)
    (hoid : ∀ u o, u ≠ t → (s'.oid o = some u ↔ s.oid o = some u))
    (hh : ∀ u o d, u ≠ t → (h = some (u, o, d) ↔ h' = some (u, o, d)))
    (hoid' : ∀ o, s'.oid o = some t → ∃ d, h' = some (t, o, d) ∧
      (unstable p ≠ some o → s'.cnt o = d))
    (hpos : ∀ o d, h' = some (t, o, d) → 0 < d ∧ (s'.oid o = some t ∨ window p = some o))
    (hv : Val s' h' t p) : Inv s' h' := by
  refine ⟨fun u o hu => ?_, hsem, fun o u hu => ?_, fun u o d hu => ?_, fun u => ?_⟩
  · rw [hs] at hu
    by_cases hut : u = t
    · rw [if_pos hut] at hu; rw [hut]; exact hcs' o hu
    · rw [if_neg hut] at hu; exact hcs u o hut (hi.crit u o hu)
  · by_cases hut : u = t
    · subst hut
      rw [hs, if_pos rfl]; exact hoid' o hu
    · rw [hs, if_neg hut]
      have ho := (hoid u o hut).mp hu
      obtain ⟨d, h1, h2⟩ := hi.oid o u ho
      exact ⟨d, (hh u o d hut).mp h1, fun e => by rw [hcnt u o hut (Or.inr ho)]; exact h2 e⟩
  · by_cases hut : u = t
    · subst hut
      rw [hs, if_pos rfl]; exact hpos o d hu
    · rw [hs, if_neg hut, hoid u o hut]
      exact hi.pos u o d ((hh u o d hut).mpr hu)
  · by_cases hut : u = t
    · rw [hs, if_pos hut, hut]; exact hv
    · rw [hs, if_neg hut]
      exact (hi.val u).frame (fun o ho => hcnt u o hut (Or.inl (hi.crit u o ho)))
        (fun o => hoid u o hut) (fun o d => (hh u o d hut).mp)

/-- What a step does to the abstract state, the phases and the invariant. -/
def StepOk (s : S) (h : Holder) (r : Option (S × List Label)) : Prop :=
  ∀ s' ls, r = some (s', ls) → ∃ h', Inv s' h' ∧ atomic h ls = some h' ∧ ∀ t, phase t (some (phOf (s.pc t))) ls = some (phOf (s'.pc t))

theorem StepOk.none {s : S} {h : Holder} : StepOk s h none := fun _ _ h => nomatch h

theorem phase_one {t : Nat} {p : Option Phase} {l : Label} (h : who l = t) :
    phase t p [l] = p.bind (move · l) := by
  rw [phase, if_pos h]; rfl

theorem StepOk.some {s s' : S} {h h' : Holder} {t : Nat} {p : Pc} {ls : List Label}
    (hi : Inv s' h')
    (ha : atomic h ls = some h')
    (hs : ∀ u, s'.pc u = if u = t then p else s.pc u)
    (hw : ∀ l ∈ ls, who l = t)
    (hp : phase t (some (phOf (s.pc t))) ls = some (phOf p)) : StepOk s h (some (s', ls)) := by
  intro s'' ls' e
  cases e
  refine ⟨h', hi, ha, fun u => ?_⟩
  rw [hs]
  by_cases hut : u = t
  · rw [if_pos hut, hut]; exact hp
  · rw [if_neg hut]
    clear hp ha hi
    induction ls with
    | nil => rfl
    | cons l ls ih =>
      rw [phase, if_neg]
      · exact ih fun l hl => hw l (List.mem_cons_of_mem _ hl)
      · rw [hw l (List.mem_cons_self ..)]; exact fun e => hut e.symm

/-- Steps that change neither the semaphore nor any object except its critical section. -/
theorem plain_inv {s s' : S} {h : Holder} {t : Nat} {p : Pc} (hi : Inv s h)
    (hs : ∀ u, s'.pc u = if u = t then p else s.pc u)
    (h1 : s'.sem = s.sem) (h2 : s'.oid = s.oid) (h3 : s'.cnt = s.cnt)
    (hcs : ∀ u o, u ≠ t → s.cs o = some u → s'.cs o = some u)
    (hcs' : ∀ o, critAt p = some o → s'.cs o = some t)
    (hun : ∀ o, unstable (s.pc t) = some o → unstable p = some o)
    (hwin : ∀ o d, h = some (t, o, d) → window (s.pc t) = some o → window p = some o)
    (hv : Val s' h t p) : Inv s' h := by
  refine hi.upd hs hcs hcs' (by rw [h1]; exact hi.sem) (fun _ _ _ _ => by rw [h3])
    (fun _ _ _ => by rw [h2]) (fun _ _ _ _ => Iff.rfl) (fun o ho => ?_) (fun o d e => ?_) hv
  · rw [h2] at ho
    obtain ⟨d, e1, e2⟩ := hi.oid o t ho
    exact ⟨d, e1, fun e => by rw [h3]; exact e2 fun e' => e (hun o e')⟩
  · have := hi.pos t o d e
    rw [h2]
    exact ⟨this.1, this.2.imp id (hwin o d e)⟩

theorem lock_ok {s : S} {h : Holder} {t o : Nat} {p : Pc} (hi : Inv s h)
    (hun : unstable (s.pc t) = none) (hwin : window (s.pc t) = window p)
    (hc : critAt p = some o)
    (hv : ∀ s' : S, s'.oid = s.oid → s'.cnt = s.cnt → Val s' h t p) (hph : phOf (s.pc t) = phOf p) :
    ∃ r, lock s t o p = .ok r ∧ StepOk s h r := by
  unfold lock
  cases ho : s.cs o with
  | some u => exact ⟨_, rfl, .none⟩
  | none =>
    refine ⟨_, rfl, StepOk.some (t := t) (p := p) (h' := h) ?_ rfl (fun u => rfl)
      (fun l hl => nomatch hl) (by rw [hph]; rfl)⟩
    refine plain_inv hi (t := t) (p := p) (fun u => rfl) rfl rfl rfl ?_ ?_ ?_ ?_
      (hv _ rfl rfl)
    · intro u o' _ hu
      show setAt s.cs o (some t) o' = some u
      unfold setAt
      split
      · rename_i e; rw [e, ho] at hu; cases hu
      · exact hu
    · intro o' ho'
      rw [hc] at ho'
      cases ho'
      show setAt s.cs o (some t) o = some t
      unfold setAt; rw [if_pos rfl]
    · intro o' e; rw [hun] at e; cases e
    · intro o' d _ e; rw [← hwin]; exact e

theorem unlock_ok {s : S} {h : Holder} {t o : Nat} {p : Pc} {ls : List Label} (hi : Inv s h)
    (hc : critAt (s.pc t) = some o)
    (hun : unstable (s.pc t) = none) (hwin : window (s.pc t) = none)
    (hc' : critAt p = none)
    (hv : ∀ s' : S, s'.oid = s.oid → s'.cnt = s.cnt → Val s' h t p)
    (ha : atomic h ls = some h) (hw : ∀ l ∈ ls, who l = t)
    (hph : phase t (some (phOf (s.pc t))) ls = some (phOf p)) :
    ∃ r, unlock s t o p ls = .ok r ∧ StepOk s h r := by
  have ho := hi.crit t o hc
  refine ⟨_, if_pos ho, StepOk.some (t := t) (p := p) (h' := h) ?_ ha (fun u => rfl)
    hw hph⟩
  refine plain_inv hi (t := t) (p := p) (fun u => rfl) rfl rfl rfl ?_ ?_ ?_ ?_
    (hv _ rfl rfl)
  · intro u o' hut hu
    show setAt s.cs o none o' = some u
    unfold setAt
    split
    · rename_i e; rw [e, ho] at hu; cases hu; exact absurd rfl hut
    · exact hu
  · intro o' ho'; rw [hc'] at ho'; cases ho'
  · intro o' e; rw [hun] at e; cases e
  · intro o' d _ e; rw [hwin] at e; cases e

/-- Steps that only move the thread. -/
theorem move_ok {s : S} {h : Holder} {t : Nat} {p : Pc} {ls : List Label} (hi : Inv s h)
    (hcs' : ∀ o, critAt p = some o → s.cs o = some t)
    (hun : ∀ o, unstable (s.pc t) = some o → unstable p = some o)
    (hwin : ∀ o d, h = some (t, o, d) → window (s.pc t) = some o → window p = some o)
    (hv : Val s h t p) (ha : atomic h ls = some h) (hw : ∀ l ∈ ls, who l = t)
    (hph : phase t (some (phOf (s.pc t))) ls = some (phOf p)) :
    StepOk s h (some (s.goto t p, ls)) := by
  refine StepOk.some (t := t) (p := p) (h' := h) ?_ ha (fun u => rfl) hw hph
  refine plain_inv hi (t := t) (p := p) (fun u => rfl) rfl rfl rfl (fun _ _ _ e => e) hcs' hun hwin ?_
  · exact hv.frame (fun _ _ => rfl) (fun _ => Iff.rfl) (fun _ _ e => e)

theorem setAt_self {α : Type} (f : Nat → α) (o : Nat) (x : α) : setAt f o x o = x := if_pos rfl
theorem setAt_ne {α : Type} (f : Nat → α) {o i : Nat} (x : α) (h : i ≠ o) :
    setAt f o x i = f i := if_neg h

theorem isHolder_self (t o d : Nat) : isHolder t o (some (t, o, d)) = true := by
  simp [isHolder]

theorem isHolder_iff (t o : Nat) (h : Holder) :
    isHolder t o h = true ↔ ∃ d, h = some (t, o, d) := by
  cases h with
  | none => exact ⟨fun e => (nomatch e), fun ⟨_, e⟩ => (nomatch e)⟩
  | some x =>
    obtain ⟨a, b, c⟩ := x
    simp only [isHolder, Bool.and_eq_true, decide_eq_true_eq, Option.some.injEq, Prod.mk.injEq]
    exact ⟨fun e => ⟨c, e.1, e.2, rfl⟩, fun ⟨_, e1, e2, _⟩ => ⟨e1, e2⟩⟩

theorem not_holder {s : S} {h : Holder} {t o : Nat} (hi : Inv s h) (h1 : s.oid o ≠ some t)
    (h2 : window (s.pc t) = none) : isHolder t o h = false := by
  cases e : isHolder t o h
  · rfl
  · obtain ⟨d, e⟩ := (isHolder_iff t o h).mp e
    rcases (hi.pos t o d e).2 with e' | e'
    · exact absurd e' h1
    · rw [h2] at e'; cases e'

/-- Steps of the holder that change the counter of its object (and perhaps the depth). -/
theorem cnt_inv {s : S} {h h' : Holder} {t o c : Nat} {p : Pc} (hi : Inv s h)
    (hsem : s.sem = true → h' = none)
    (hc : s.cs o = some t) (ho : s.oid o = some t) (hc' : ∀ o', critAt p = some o' → o' = o)
    (hh : ∃ d, h = some (t, o, d)) (hh' : ∃ d, h' = some (t, o, d) ∧ 0 < d ∧
      (unstable p ≠ some o → c = d))
    (hv : Val (({ s with cnt := setAt s.cnt o c } : S).goto t p) h' t p) :
    Inv (({ s with cnt := setAt s.cnt o c } : S).goto t p) h' := by
  obtain ⟨d, hd⟩ := hh
  obtain ⟨d', hd', hp', hs'⟩ := hh'
  refine hi.upd (t := t) (p := p) (fun u => rfl) (fun _ _ _ e => e)
    (fun o' e => by rw [hc' o' e]; exact hc) hsem
    (fun u o' hut hu => ?_) (fun _ _ _ => Iff.rfl) (fun u o' e hut => ?_) (fun o' e => ?_)
    (fun o' e he => ?_) hv
  · show setAt s.cnt o c o' = s.cnt o'
    refine setAt_ne _ _ fun e => ?_
    subst e
    rcases hu with hu | hu
    · rw [hc] at hu; cases hu; exact hut rfl
    · rw [ho] at hu; cases hu; exact hut rfl
  · rw [hd, hd']
    refine ⟨fun e => ?_, fun e => ?_⟩ <;> cases e <;> exact absurd rfl hut
  · obtain ⟨d1, h1, _⟩ := hi.oid o' t e
    rw [hd] at h1
    cases h1
    exact ⟨d', hd', fun e => by show setAt s.cnt o c o = d'; rw [setAt_self]; exact hs' e⟩
  · rw [hd'] at he
    cases he
    exact ⟨hp', Or.inl ho⟩

theorem run_ok {s : S} {h : Holder} {t : Nat} (hi : Inv s h)
    (hk : ∀ o d, phOf (s.pc t) = .locking o → h = some (t, o, d) → d + 1 < 4294967296) :
    ∃ r, run s t = .ok r ∧ StepOk s h r := by
  unfold run
  have hval := hi.val t
  have hcrit := hi.crit t
  cases hpc : s.pc t with
  | idle => exact ⟨_, rfl, .none⟩
  | lCs o wait =>
    exact lock_ok hi (by rw [hpc]; rfl) (by rw [hpc]; rfl) rfl
      (fun _ _ _ => trivial) (by rw [hpc]; rfl)
  | lTest o wait =>
    have hc := hcrit o (by rw [hpc]; rfl)
    dsimp only
    split
    · rename_i ho
      exact ⟨_, rfl, move_ok hi (fun _ e => by cases e; exact hc) (by rw [hpc]; exact fun _ e => e)
        (by rw [hpc]; exact fun _ _ _ e => (nomatch e)) ho rfl
        (fun _ e => (nomatch e)) (by rw [hpc]; rfl)⟩
    · rename_i ho
      exact ⟨_, rfl, move_ok hi (fun _ e => by cases e; exact hc) (by rw [hpc]; exact fun _ e => e)
        (by rw [hpc]; exact fun _ _ _ e => (nomatch e)) ho rfl
        (fun _ e => (nomatch e)) (by rw [hpc]; rfl)⟩
  | lLoad o =>
    have hc := hcrit o (by rw [hpc]; rfl)
    rw [hpc] at hval
    exact ⟨_, rfl, move_ok hi (fun _ e => by cases e; exact hc) (by rw [hpc]; exact fun _ e => e)
        (by rw [hpc]; exact fun _ _ _ e => (nomatch e))
        ⟨hval, rfl⟩ rfl (fun _ e => (nomatch e)) (by rw [hpc]; rfl)⟩
  | lStore o v =>
    have hc := hcrit o (by rw [hpc]; rfl)
    rw [hpc] at hval
    obtain ⟨ho, rfl⟩ := hval
    obtain ⟨d, hd, hs⟩ := hi.oid o t ho
    have hcd := hs (by rw [hpc]; exact fun e => nomatch e)
    have hbd := hk o d (by rw [hpc]; rfl) hd
    have hm : (s.cnt o + 1) % 4294967296 = d + 1 := by
      rw [hcd]; exact Nat.mod_eq_of_lt (by omega)
    dsimp only
    rw [hm]
    refine ⟨_, rfl, StepOk.some (t := t) (p := .lUnl o) (h' := some (t, o, d + 1)) ?_ ?_
      (fun u => rfl) (fun l hl => by rw [List.mem_singleton.mp hl]; rfl) ?_⟩
    · refine cnt_inv hi (fun e => ?_) hc ho (fun _ e => by cases e; rfl) ⟨d, hd⟩
        ⟨d + 1, rfl, by omega, fun _ => rfl⟩ trivial
      have := hi.sem e; rw [hd] at this; cases this
    · rw [hd]
      show (effect _ _).bind _ = _
      rw [effect, if_pos (isHolder_self ..)]; rfl
    · rw [hpc, phase_one (t := t) (by rfl)]
      show (if o = o then some (Phase.locked o) else none) = some (.locked o)
      exact if_pos rfl
  | lUnl o =>
    refine unlock_ok hi (by rw [hpc]; rfl) (by rw [hpc]; rfl) (by rw [hpc]; rfl) rfl
      (fun _ _ _ => trivial) rfl
      (fun l hl => by rw [List.mem_singleton.mp hl]; rfl) ?_
    rw [hpc, phase_one (t := t) (by rfl)]
    show (if o = o then some Phase.out else none) = some .out
    exact if_pos rfl
  | lOut o wait =>
    rw [hpc] at hval
    exact unlock_ok hi (by rw [hpc]; rfl) (by rw [hpc]; rfl) (by rw [hpc]; rfl) rfl
      (fun s' e _ => by
        show s'.oid o ≠ some t
        rw [e]; exact hval) rfl
      (fun l hl => nomatch hl) (by rw [hpc]; rfl)
  | lWait o wait =>
    rw [hpc] at hval
    have ho : s.oid o ≠ some t := hval
    have hnh := not_holder hi ho (by rw [hpc]; rfl)
    dsimp only
    split
    · rename_i hsem
      have hn := hi.sem hsem
      subst hn
      refine ⟨_, rfl, StepOk.some (t := t) (p := .lCs2 o) (h' := some (t, o, 1)) ?_ rfl
        (fun u => rfl) (fun l hl => by rw [List.mem_singleton.mp hl]; rfl) ?_⟩
      · refine hi.upd (t := t) (p := .lCs2 o) (fun u => rfl) (fun _ _ _ e => e)
          (fun _ e => nomatch e) (fun e => nomatch e) (fun _ _ _ _ => rfl) (fun _ _ _ => Iff.rfl)
          (fun u o' d hut => ⟨fun e => (nomatch e), fun e => ?_⟩) (fun o' e => ?_)
          (fun o' d e => ?_) ⟨ho, rfl⟩
        · cases e; exact absurd rfl hut
        · obtain ⟨_, e', _⟩ := hi.oid o' t e
          cases e'
        · cases e; exact ⟨Nat.one_pos, Or.inr rfl⟩
      · rw [hpc, phase_one (t := t) (by rfl)]
        show (if o = o then some (Phase.locked o) else none) = some (.locked o)
        exact if_pos rfl
    · split
      · refine ⟨_, rfl, move_ok hi (fun _ e => nomatch e) (by rw [hpc]; exact fun _ e => e)
          (by rw [hpc]; exact fun _ _ _ e => (nomatch e)) trivial ?_
          (fun l hl => ?_) ?_⟩
        · show (effect h (.giveUp t o)).bind _ = _
          rw [effect, hnh]; rfl
        · rcases List.mem_cons.mp hl with e | e
          · rw [e]; rfl
          · rw [List.mem_singleton.mp e]; rfl
        · rw [hpc]
          simp [phase, who, phOf, move]
      · exact ⟨_, rfl, .none⟩
  | lCs2 o =>
    rw [hpc] at hval
    exact lock_ok hi (by rw [hpc]; rfl) (by rw [hpc]; rfl) rfl
      (fun s' e _ => ⟨by rw [e]; exact hval.1, hval.2⟩) (by rw [hpc]; rfl)
  | lOwn o =>
    have hc := hcrit o (by rw [hpc]; rfl)
    rw [hpc] at hval
    obtain ⟨ho, hh⟩ := hval
    refine ⟨_, rfl, StepOk.some (t := t) (p := .lCnt o) (h' := h) ?_ rfl
      (fun u => rfl) (fun l hl => nomatch hl) (by rw [hpc]; rfl)⟩
    refine hi.upd (t := t) (p := .lCnt o) (fun u => rfl) (fun _ _ _ e => e)
      (fun _ e => by cases e; exact hc) hi.sem (fun _ _ _ _ => rfl)
      (fun u o' hut => ?_) (fun _ _ _ _ => Iff.rfl) (fun o' e => ?_) (fun o' d e => ?_)
        ⟨setAt_self .., hh⟩
    · show setAt s.oid o (some t) o' = some u ↔ _
      by_cases e : o' = o
      · subst e
        rw [setAt_self]
        refine ⟨fun e => ?_, fun e => ?_⟩
        · cases e; exact absurd rfl hut
        · obtain ⟨d, h1, _⟩ := hi.oid _ u e
          rw [hh] at h1; cases h1; exact absurd rfl hut
      · rw [setAt_ne _ _ e]
    · have e : setAt s.oid o (some t) o' = some t := e
      by_cases e' : o' = o
      · subst e'
        exact ⟨1, hh, fun e => absurd rfl e⟩
      · rw [setAt_ne _ _ e'] at e
        obtain ⟨d, h1, _⟩ := hi.oid _ t e
        rw [hh] at h1; cases h1; exact absurd rfl e'
    · rw [hh] at e
      cases e
      exact ⟨Nat.one_pos, Or.inl (setAt_self ..)⟩
  | lCnt o =>
    have hc := hcrit o (by rw [hpc]; rfl)
    rw [hpc] at hval
    obtain ⟨ho, hh⟩ := hval
    refine ⟨_, rfl, StepOk.some (t := t) (p := .lUnl o) (h' := h) ?_ rfl
      (fun u => rfl) (fun l hl => nomatch hl) (by rw [hpc]; rfl)⟩
    refine cnt_inv hi hi.sem hc ho (fun _ e => by cases e; rfl) ⟨1, hh⟩
      ⟨1, hh, Nat.one_pos, fun _ => rfl⟩ trivial
  | uCs o all =>
    exact lock_ok hi (by rw [hpc]; rfl) (by rw [hpc]; rfl) rfl
      (fun _ _ _ => trivial) (by rw [hpc]; rfl)
  | uTest o all =>
    have hc := hcrit o (by rw [hpc]; rfl)
    dsimp only
    split
    · rename_i ho
      have hnh := not_holder hi ho (by rw [hpc]; rfl)
      refine ⟨_, rfl, move_ok hi (fun _ e => by cases e; exact hc) (by rw [hpc]; exact fun _ e => e)
        (by rw [hpc]; exact fun _ _ _ e => (nomatch e)) trivial ?_
        (fun l hl => by rw [List.mem_singleton.mp hl]; rfl) ?_⟩
      · show (effect h (.refuse t o)).bind _ = _
        rw [effect, hnh]; rfl
      · rw [hpc, phase_one (t := t) (by rfl)]
        show (if o = o then some (Phase.unlockFailed o all) else none) = some (.unlockFailed o all)
        exact if_pos rfl
    · rename_i ho
      have ho : s.oid o = some t := Decidable.not_not.mp ho
      exact ⟨_, rfl, move_ok hi (fun _ e => by cases e; exact hc) (by rw [hpc]; exact fun _ e => e)
        (by rw [hpc]; exact fun _ _ _ e => (nomatch e)) ho rfl
        (fun _ e => (nomatch e)) (by rw [hpc]; rfl)⟩
  | uBad o all =>
    refine unlock_ok hi (by rw [hpc]; rfl) (by rw [hpc]; rfl) (by rw [hpc]; rfl) rfl
      (fun _ _ _ => trivial) rfl
      (fun l hl => by rw [List.mem_singleton.mp hl]; rfl) ?_
    rw [hpc, phase_one (t := t) (by rfl)]
    show (if o = o ∧ all = all then some Phase.out else none) = some .out
    exact if_pos ⟨rfl, rfl⟩
  | uAll o all =>
    have hc := hcrit o (by rw [hpc]; rfl)
    rw [hpc] at hval
    have ho : s.oid o = some t := hval
    obtain ⟨d, hd, hs⟩ := hi.oid o t ho
    have hcd := hs (by rw [hpc]; exact fun e => nomatch e)
    have hpos := (hi.pos t o d hd).1
    cases all
    · refine ⟨_, rfl, move_ok hi (fun _ e => by cases e; exact hc) (by rw [hpc]; exact fun _ e => (nomatch e))
        (by rw [hpc]; exact fun _ _ _ e => (nomatch e))
        ⟨ho, d, hd, hcd⟩ rfl (fun _ e => (nomatch e)) (by rw [hpc]; rfl)⟩
    · refine ⟨_, rfl, StepOk.some (t := t) (p := .uLoad o true) (h' := h) ?_ rfl
        (fun u => rfl) (fun l hl => nomatch hl) (by rw [hpc]; rfl)⟩
      exact cnt_inv hi hi.sem hc ho (fun _ e => by cases e; rfl) ⟨d, hd⟩
        ⟨d, hd, hpos, fun e => absurd rfl e⟩ ⟨ho, d, hd, setAt_self ..⟩
  | uLoad o all =>
    have hc := hcrit o (by rw [hpc]; rfl)
    rw [hpc] at hval
    obtain ⟨ho, d, hd, hcd⟩ := hval
    exact ⟨_, rfl, move_ok hi (fun _ e => by cases e; exact hc)
        (by rw [hpc]; exact fun _ e => e)
        (by rw [hpc]; exact fun _ _ _ e => (nomatch e))
        ⟨ho, d, hd, hcd⟩ rfl (fun _ e => (nomatch e)) (by rw [hpc]; rfl)⟩
  | uStore o all v =>
    have hc := hcrit o (by rw [hpc]; rfl)
    rw [hpc] at hval
    obtain ⟨ho, d, hd, hcd⟩ := hval
    have hpos := (hi.pos t o d hd).1
    refine ⟨_, rfl, StepOk.some (t := t) (p := .uZero o all) (h' := h) ?_ rfl
      (fun u => rfl) (fun l hl => nomatch hl) (by rw [hpc]; rfl)⟩
    refine cnt_inv hi hi.sem hc ho (fun _ e => by cases e; rfl) ⟨d, hd⟩
      ⟨d, hd, hpos, fun e => absurd rfl e⟩ ⟨ho, d, hd, ?_⟩
    show setAt s.cnt o (dec32 v) o = _
    rw [setAt_self, hcd, dec32]
    cases all
    · show (if d = 0 then _ else d - 1) = d - 1
      rw [if_neg (by omega)]
    · rfl
  | uZero o all =>
    have hc := hcrit o (by rw [hpc]; rfl)
    rw [hpc] at hval
    obtain ⟨ho, d, hd, hcd⟩ := hval
    have hpos := (hi.pos t o d hd).1
    dsimp only
    split
    · rename_i h0
      refine ⟨_, rfl, move_ok hi (fun _ e => by cases e; exact hc)
        (by rw [hpc]; exact fun _ e => e)
        (by rw [hpc]; exact fun _ _ _ e => (nomatch e))
        ⟨ho, d, hd, ?_⟩ rfl (fun _ e => (nomatch e)) (by rw [hpc]; rfl)⟩
      cases all
      · right
        have hcd : s.cnt o = d - 1 := hcd
        omega
      · left; rfl
    · rename_i h0
      cases all
      · have hcd : s.cnt o = d - 1 := hcd
        have hd1 : d ≠ 1 := by omega
        refine ⟨_, rfl, StepOk.some (t := t) (p := .uUnl o false) (h' := some (t, o, d - 1))
          ?_ ?_ (fun u => rfl) (fun l hl => by rw [List.mem_singleton.mp hl]; rfl) ?_⟩
        · refine hi.upd (t := t) (p := .uUnl o false) (fun u => rfl) (fun _ _ _ e => e)
            (fun _ e => by cases e; exact hc) (fun e => ?_) (fun _ _ _ _ => rfl)
            (fun _ _ _ => Iff.rfl) (fun u o' d' hut => ?_) (fun o' e => ?_) (fun o' d' e => ?_)
            trivial
          · have := hi.sem e; rw [hd] at this; cases this
          · rw [hd]
            refine ⟨fun e => ?_, fun e => ?_⟩ <;> cases e <;> exact absurd rfl hut
          · obtain ⟨d1, h1, _⟩ := hi.oid o' t e
            rw [hd] at h1
            cases h1
            exact ⟨d - 1, rfl, fun _ => hcd⟩
          · cases e
            exact ⟨by omega, Or.inl ho⟩
        · rw [hd]
          show (effect _ _).bind _ = _
          rw [effect, if_pos (isHolder_self ..)]
          show (some (if false = true ∨ d = 1 then none else some (t, o, d - 1))).bind _ = _
          rw [if_neg (by simp [hd1])]; rfl
        · rw [hpc, phase_one (t := t) (by rfl)]
          show (if o = o ∧ false = false then some (Phase.left o false) else none) = _
          exact if_pos ⟨rfl, rfl⟩
      · exact absurd hcd h0
  | uOwn o all =>
    have hc := hcrit o (by rw [hpc]; rfl)
    rw [hpc] at hval
    obtain ⟨ho, d, hd, hcd⟩ := hval
    refine ⟨_, rfl, StepOk.some (t := t) (p := .uRel o all) (h' := h) ?_ rfl
      (fun u => rfl) (fun l hl => nomatch hl) (by rw [hpc]; rfl)⟩
    refine hi.upd (t := t) (p := .uRel o all) (fun u => rfl) (fun _ _ _ e => e)
      (fun _ e => by cases e; exact hc) hi.sem (fun _ _ _ _ => rfl)
      (fun u o' hut => ?_) (fun _ _ _ _ => Iff.rfl) (fun o' e => ?_) (fun o' d' e => ?_)
        ⟨?_, d, hd, hcd⟩
    · show setAt s.oid o none o' = some u ↔ _
      by_cases e : o' = o
      · subst e
        rw [setAt_self, ho]
        refine ⟨fun e => (nomatch e), fun e => ?_⟩
        cases e; exact absurd rfl hut
      · rw [setAt_ne _ _ e]
    · have e : setAt s.oid o none o' = some t := e
      by_cases e' : o' = o
      · subst e'
        rw [setAt_self] at e; cases e
      · rw [setAt_ne _ _ e'] at e
        obtain ⟨d, h1, _⟩ := hi.oid _ t e
        rw [hd] at h1; cases h1; exact absurd rfl e'
    · have := hi.pos t o' d' e
      rw [hd] at e
      cases e
      exact ⟨this.1, Or.inr rfl⟩
    · show setAt s.oid o none o ≠ some t
      rw [setAt_self]; exact fun e => nomatch e
  | uRel o all =>
    have hc := hcrit o (by rw [hpc]; rfl)
    rw [hpc] at hval
    obtain ⟨ho, d, hd, hcd⟩ := hval
    refine ⟨_, rfl, StepOk.some (t := t) (p := .uUnl o all) (h' := none) ?_ ?_
      (fun u => rfl) (fun l hl => by rw [List.mem_singleton.mp hl]; rfl) ?_⟩
    · refine hi.upd (t := t) (p := .uUnl o all) (fun u => rfl) (fun _ _ _ e => e)
        (fun _ e => by cases e; exact hc) (fun _ => rfl) (fun _ _ _ _ => rfl)
        (fun _ _ _ => Iff.rfl) (fun u o' d' hut => ?_) (fun o' e => ?_) (fun o' d' e => nomatch e)
        trivial
      · rw [hd]
        refine ⟨fun e => ?_, fun e => (nomatch e)⟩
        cases e; exact absurd rfl hut
      · obtain ⟨d1, h1, _⟩ := hi.oid o' t e
        rw [hd] at h1
        cases h1
        exact absurd e ho
    · rw [hd]
      show (effect _ _).bind _ = _
      rw [effect, if_pos (isHolder_self ..)]
      show (some (if all = true ∨ d = 1 then none else some (t, o, d - 1))).bind _ = _
      rw [if_pos hcd]; rfl
    · rw [hpc, phase_one (t := t) (by rfl)]
      show (if o = o ∧ all = all then some (Phase.left o all) else none) = _
      exact if_pos ⟨rfl, rfl⟩
  | uUnl o all =>
    refine unlock_ok hi (by rw [hpc]; rfl) (by rw [hpc]; rfl) (by rw [hpc]; rfl) rfl
      (fun _ _ _ => trivial) rfl
      (fun l hl => by rw [List.mem_singleton.mp hl]; rfl) ?_
    rw [hpc, phase_one (t := t) (by rfl)]
    show (if o = o ∧ all = all then some Phase.out else none) = some .out
    exact if_pos ⟨rfl, rfl⟩

theorem fail_ok {s : S} {h : Holder} {t : Nat} (hi : Inv s h) : StepOk s h (fail s t) := by
  unfold fail
  have hval := hi.val t
  have hcrit := hi.crit t
  cases hpc : s.pc t with
  | lCs o wait =>
    refine move_ok hi (fun _ e => nomatch e) (by rw [hpc]; exact fun _ e => e)
      (by rw [hpc]; exact fun _ _ _ e => (nomatch e)) trivial rfl (fun l hl => ?_) ?_
    · rcases List.mem_cons.mp hl with e | e
      · rw [e]; rfl
      · rw [List.mem_singleton.mp e]; rfl
    · rw [hpc]
      simp [phase, who, phOf, move]
  | lWait o wait =>
    rw [hpc] at hval
    have hnh := not_holder hi hval (by rw [hpc]; rfl)
    refine move_ok hi (fun _ e => nomatch e) (by rw [hpc]; exact fun _ e => e)
      (by rw [hpc]; exact fun _ _ _ e => (nomatch e)) trivial ?_ (fun l hl => ?_) ?_
    · show (effect h (.giveUp t o)).bind _ = _
      rw [effect, hnh]; rfl
    · rcases List.mem_cons.mp hl with e | e
      · rw [e]; rfl
      · rw [List.mem_singleton.mp e]; rfl
    · rw [hpc]
      simp [phase, who, phOf, move]
  | uCs o all =>
    refine move_ok hi (fun _ e => nomatch e) (by rw [hpc]; exact fun _ e => e)
      (by rw [hpc]; exact fun _ _ _ e => (nomatch e)) trivial rfl (fun l hl => ?_) ?_
    · rcases List.mem_cons.mp hl with e | e
      · rw [e]; rfl
      · rw [List.mem_singleton.mp e]; rfl
    · rw [hpc]
      simp [phase, who, phOf, move]
  | uRel o all =>
    have hc := hcrit o (by rw [hpc]; rfl)
    rw [hpc] at hval
    obtain ⟨ho, d, hd, hcd⟩ := hval
    refine StepOk.some (t := t) (p := .uUnl o all) (h' := none) ?_ ?_
      (fun u => rfl) (fun l hl => by rw [List.mem_singleton.mp hl]; rfl) ?_
    · refine hi.upd (t := t) (p := .uUnl o all) (fun u => rfl) (fun _ _ _ e => e)
        (fun _ e => by cases e; exact hc) (fun _ => rfl) (fun _ _ _ _ => rfl)
        (fun _ _ _ => Iff.rfl) (fun u o' d' hut => ?_) (fun o' e => ?_) (fun o' d' e => nomatch e)
        trivial
      · rw [hd]
        refine ⟨fun e => ?_, fun e => (nomatch e)⟩
        cases e; exact absurd rfl hut
      · obtain ⟨d1, h1, _⟩ := hi.oid o' t e
        rw [hd] at h1
        cases h1
        exact absurd e ho
    · rw [hd]
      show (effect _ _).bind _ = _
      rw [effect, if_pos (isHolder_self ..)]
      show (some (if all = true ∨ d = 1 then none else some (t, o, d - 1))).bind _ = _
      rw [if_pos hcd]; rfl
    · rw [hpc, phase_one (t := t) (by rfl)]
      show (if o = o ∧ all = all then some (Phase.left o all) else none) = _
      exact if_pos ⟨rfl, rfl⟩
  | _ => exact .none

theorem step_ok {s : S} {h : Holder} {a : Act} (hi : Inv s h)
    (hk : ∀ t o d, phOf (s.pc t) = .locking o → h = some (t, o, d) → d + 1 < 4294967296) :
    ∃ r, step s a = .ok r ∧ StepOk s h r := by
  cases a with
  | callLock t o wait =>
    refine ⟨_, rfl, ?_⟩
    by_cases hpc : s.pc t = .idle
    · rw [if_pos hpc]
      exact move_ok hi (fun _ e => nomatch e) (by rw [hpc]; exact fun _ e => e)
        (by rw [hpc]; exact fun _ _ _ e => (nomatch e)) trivial
        rfl (fun l hl => by rw [List.mem_singleton.mp hl]; rfl)
        (by rw [hpc, phase_one (t := t) (by rfl)]; rfl)
    · rw [if_neg hpc]; exact .none
  | callUnlock t o all =>
    refine ⟨_, rfl, ?_⟩
    by_cases hpc : s.pc t = .idle
    · rw [if_pos hpc]
      exact move_ok hi (fun _ e => nomatch e) (by rw [hpc]; exact fun _ e => e)
        (by rw [hpc]; exact fun _ _ _ e => (nomatch e)) trivial
        rfl (fun l hl => by rw [List.mem_singleton.mp hl]; rfl)
        (by rw [hpc, phase_one (t := t) (by rfl)]; rfl)
    · rw [if_neg hpc]; exact .none
  | run t => exact run_ok hi (hk t)
  | fail t => exact ⟨_, rfl, fail_ok hi⟩

theorem atomic_append (h : Holder) (as bs : List Label) :
    atomic h (as ++ bs) = (atomic h as).bind (atomic · bs) := by
  induction as generalizing h with
  | nil => rfl
  | cons l as ih =>
    rw [List.cons_append, atomic, atomic, Option.bind_assoc]
    congr 1
    funext x
    exact ih x

theorem phase_append (t : Nat) (p : Option Phase) (as bs : List Label) :
    phase t p (as ++ bs) = phase t (phase t p as) bs := by
  induction as generalizing p with
  | nil => rfl
  | cons l as ih => rw [List.cons_append, phase, ih]; rfl

theorem init_inv : Inv init none :=
  ⟨fun _ _ e => (nomatch e), fun _ => rfl, fun _ _ e => (nomatch e), fun _ _ _ e => (nomatch e),
    fun _ => trivial⟩

/-! ## What the results of the calls say about the holder -/

/-- Depth of the holder, for a thread and an object. -/
def at' (t o : Nat) (h : Holder) : Nat :=
  match h with
  | some (t', o', d) => if t' = t ∧ o' = o then d else 0
  | none => 0

/-- Observed depth against the depth of the holder. -/
def Agree (t o : Nat) (p : Phase) (d : Nat) (h : Holder) : Prop :=
  match p with
  | .locked o' => at' t o h = if o' = o then d + 1 else d
  | .left o' all => at' t o h = if o' = o then (if all then 0 else d - 1) else d
  | _ => at' t o h = d

theorem at_self (t o d : Nat) : at' t o (some (t, o, d)) = d := if_pos ⟨rfl, rfl⟩

theorem at_ne {t o t' o' d : Nat} (h : ¬ (t' = t ∧ o' = o)) : at' t o (some (t', o', d)) = 0 := if_neg h

/-- Effects of other threads, and through other objects, do not change the depth. -/
theorem effect_other {h h' : Holder} {l : Label} {t : Nat} (o : Nat) (he : effect h l = some h')
    (hw : who l ≠ t) : at' t o h' = at' t o h := by
  cases l with
  | acquire u p =>
    rw [effect] at he
    split at he <;> cases he
    rename_i e; subst e
    exact at_ne fun e => hw e.1
  | again u p =>
    rw [effect] at he
    split at he <;> cases he
    rename_i e
    obtain ⟨d, rfl⟩ := (isHolder_iff u p h).mp e
    show at' t o (some (u, p, d + 1)) = _
    rw [at_ne (t' := u) fun e => hw e.1, at_ne (t' := u) fun e => hw e.1]
  | leave u p all =>
    rw [effect] at he
    split at he <;> cases he
    rename_i e
    obtain ⟨d, rfl⟩ := (isHolder_iff u p h).mp e
    rw [at_ne (t' := u) fun e => hw e.1]
    show at' t o (if all = true ∨ d = 1 then none else some (u, p, d - 1)) = _
    split
    · rfl
    · exact at_ne fun e => hw e.1
  | refuse u p =>
    rw [effect] at he
    split at he <;> cases he
    rfl
  | giveUp u p =>
    rw [effect] at he
    split at he <;> cases he
    rfl
  | _ => cases he; rfl

/-- One label of the observed depth. -/
def obs (t o d : Nat) : Label → Nat
  | .retLock t' o' true => if t' = t ∧ o' = o then d + 1 else d
  | .retUnlock t' o' all true => if t' = t ∧ o' = o then (if all then 0 else d - 1) else d
  | _ => d

theorem depth_cons (t o d : Nat) (l : Label) (ls : List Label) :
    depth t o d (l :: ls) = depth t o (obs t o d l) ls := by
  cases l with
  | retLock t' o' r => cases r <;> rfl
  | retUnlock t' o' all r => cases r <;> rfl
  | _ => rfl

theorem obs_other {t o d : Nat} {l : Label} (hw : who l ≠ t) : obs t o d l = d := by
  cases l with
  | retLock t' o' r =>
    cases r
    · rfl
    · exact if_neg fun e => hw e.1
  | retUnlock t' o' all r =>
    cases r
    · rfl
    · exact if_neg fun e => hw e.1
  | _ => rfl

theorem agree_own {t o d : Nat} {p p' : Phase} {h h' : Holder} {l : Label} (hw : who l = t)
    (hm : move p l = some p') (he : effect h l = some h') (ha : Agree t o p d h) :
    Agree t o p' (obs t o d l) h' := by
  subst hw
  cases l with
  | callLock t o' w => cases p <;> cases hm; cases he; exact ha
  | callUnlock t o' all => cases p <;> cases hm; cases he; exact ha
  | sysFail t => cases p <;> cases hm <;> cases he <;> exact ha
  | refuse t o' =>
    cases p <;> try cases hm
    rw [effect] at he
    split at he <;> cases he
    rw [move] at hm
    split at hm <;> cases hm
    exact ha
  | giveUp t o' =>
    cases p <;> try cases hm
    rw [effect] at he
    split at he <;> cases he
    rw [move] at hm
    split at hm <;> cases hm
    exact ha
  | acquire t o' =>
    cases p <;> try cases hm
    rw [effect] at he
    split at he <;> cases he
    rename_i e; subst e
    rw [move] at hm
    split at hm <;> cases hm
    rename_i e; subst e
    have ha : 0 = d := ha
    subst ha
    show at' t o _ = if _ = o then 1 else 0
    rw [at']
    show (if t = t ∧ _ = o then 1 else 0) = _
    simp
  | again t o' =>
    cases p <;> try cases hm
    rw [effect] at he
    split at he <;> cases he
    rename_i he
    obtain ⟨e, rfl⟩ := (isHolder_iff t o' h).mp he
    clear he
    rw [move] at hm
    split at hm <;> cases hm
    rename_i e'; subst e'
    have ha : (if t = t ∧ _ = o then e else 0) = d := ha
    subst ha
    show (if t = t ∧ _ = o then e + 1 else 0) = if _ = o then (if t = t ∧ _ = o then e else 0) + 1 else (if t = t ∧ _ = o then e else 0)
    split
    · rename_i h'; rw [if_pos h'.2]
    · rename_i h'; rw [if_neg fun e => h' ⟨rfl, e⟩]
  | leave t o' all =>
    cases p <;> try cases hm
    rw [effect] at he
    split at he <;> cases he
    rename_i he
    obtain ⟨e, rfl⟩ := (isHolder_iff t o' h).mp he
    clear he
    rw [move] at hm
    split at hm <;> cases hm
    rename_i e'
    obtain ⟨e1, e2⟩ := e'
    subst e1 e2
    have ha : (if t = t ∧ _ = o then e else 0) = d := ha
    subst ha
    show at' t o (if _ = true ∨ e = 1 then none else some (t, _, e - 1)) =
      if _ = o then (if _ = true then 0 else (if t = t ∧ _ = o then e else 0) - 1)
      else (if t = t ∧ _ = o then e else 0)
    rename_i o1 all
    by_cases ho : o1 = o
    · subst ho
      simp only [and_self, if_true]
      cases all
      · by_cases h1 : e = 1
        · subst h1; rfl
        · simp [h1, at_self]
      · rfl
    · simp only [ho, and_false, if_false]
      split
      · rfl
      · exact at_ne fun e => ho e.2
  | retLock t o' r =>
    cases r
    · cases p <;> try cases hm
      rw [move] at hm
      split at hm <;> cases hm
      cases he
      exact ha
    · cases p <;> try cases hm
      rw [move] at hm
      split at hm <;> cases hm
      rename_i e; subst e
      cases he
      refine Eq.trans ha ?_
      show _ = if t = t ∧ _ = o then d + 1 else d
      simp
  | retUnlock t o' all r =>
    cases r
    · cases p <;> try cases hm
      rw [move] at hm
      split at hm <;> cases hm
      cases he
      exact ha
    · cases p <;> try cases hm
      rw [move] at hm
      split at hm <;> cases hm
      rename_i e
      obtain ⟨e1, e2⟩ := e
      subst e1 e2
      cases he
      refine Eq.trans ha ?_
      show _ = if t = t ∧ _ = o then _ else d
      simp

theorem phase_none (t : Nat) (ls : List Label) : phase t none ls = none := by
  induction ls with
  | nil => rfl
  | cons l ls ih =>
    rw [phase]
    split
    · exact ih
    · exact ih

theorem agree {t o d : Nat} {p p' : Phase} {h h' : Holder} {ls : List Label}
    (hp : phase t (some p) ls = some p') (ha : atomic h ls = some h') (hg : Agree t o p d h) :
    Agree t o p' (depth t o d ls) h' := by
  induction ls generalizing p h d with
  | nil => cases hp; cases ha; exact hg
  | cons l ls ih =>
    rw [atomic] at ha
    rw [phase] at hp
    rw [depth_cons]
    cases he : effect h l with
    | none => rw [he] at ha; cases ha
    | some h1 =>
      rw [he] at ha
      by_cases hw : who l = t
      · rw [if_pos hw] at hp
        cases hm : move p l with
        | none =>
          rw [show (some p).bind (move · l) = none from hm, phase_none] at hp; cases hp
        | some p1 =>
          rw [show (some p).bind (move · l) = some p1 from hm] at hp
          exact ih hp ha (agree_own hw hm he hg)
      · rw [if_neg hw] at hp
        rw [obs_other hw]
        refine ih hp ha ?_
        have := effect_other o he hw
        unfold Agree at hg ⊢
        rw [this]; exact hg

theorem exec_ok (as : List Act) : ∀ {s s' : S} {h : Holder} {pre ls : List Label} (_ : Inv s h)
    (_ : atomic none pre = some h) (_ : ∀ t, phase t (some .out) pre = some (phOf (s.pc t)))
    (_ : exec s as = .ok (s', ls)) (_ : Shallow (pre ++ ls)),
    ∃ h', Inv s' h' ∧ atomic none (pre ++ ls) = some h' ∧
      ∀ t, phase t (some .out) (pre ++ ls) = some (phOf (s'.pc t)) := by
  induction as with
  | nil =>
    intro s s' h pre ls hi ha hp he _
    cases he
    rw [List.append_nil]
    exact ⟨h, hi, ha, hp⟩
  | cons a as ih =>
    intro s s' h pre ls hi ha hp he hd
    have hk : ∀ t o d, phOf (s.pc t) = .locking o → h = some (t, o, d) → d + 1 < 4294967296 := by
      intro t o d e1 e
      have := agree (o := o) (d := 0) (h := none) (hp t) ha rfl
      rw [e, e1] at this
      have this : at' t o (some (t, o, d)) = depth t o 0 pre := this
      rw [at_self] at this
      have := hd pre ⟨ls, rfl⟩ t o
      omega
    obtain ⟨r, hr, hok⟩ := step_ok (a := a) hi hk
    rw [exec, hr, ok_bind] at he
    cases r with
    | none => exact ih hi ha hp he hd
    | some x =>
      obtain ⟨s1, l1⟩ := x
      obtain ⟨h1, hi1, ha1, hp1⟩ := hok s1 l1 rfl
      cases he2 : exec s1 as with
      | error e => simp only [he2, error_bind] at he; cases he
      | ok x =>
        obtain ⟨s2, l2⟩ := x
        simp only [he2, ok_bind] at he
        cases he
        rw [← List.append_assoc] at hd ⊢
        refine ih hi1 ?_ ?_ he2 hd
        · rw [atomic_append, ha]; exact ha1
        · intro t
          rw [phase_append, hp]; exact hp1 t

/-! ## Critical sections only -/

/-- Whoever is inside a critical section owns it. -/
def Owned (s : S) : Prop := ∀ t o, critAt (s.pc t) = some o → s.cs o = some t

theorem Owned.goto {s s' : S} {t : Nat} {p : Pc} (h : Owned s)
    (hs : ∀ u, s'.pc u = if u = t then p else s.pc u)
    (hcs : ∀ u o, u ≠ t → s.cs o = some u → s'.cs o = some u)
    (hcs' : ∀ o, critAt p = some o → s'.cs o = some t) : Owned s' := by
  intro u o hu
  rw [hs] at hu
  by_cases hut : u = t
  · rw [if_pos hut] at hu; rw [hut]; exact hcs' o hu
  · rw [if_neg hut] at hu; exact hcs u o hut (h u o hu)

theorem lock_owned {s : S} {t o : Nat} {p : Pc} (h : Owned s) (hc : critAt p = some o) :
    ∃ r, lock s t o p = .ok r ∧ ∀ s' ls, r = some (s', ls) → Owned s' := by
  unfold lock
  cases ho : s.cs o with
  | some u => exact ⟨_, rfl, fun _ _ e => nomatch e⟩
  | none =>
    refine ⟨_, rfl, fun s' ls e => ?_⟩
    cases e
    refine h.goto (t := t) (p := p) (fun _ => rfl) (fun u o' _ hu => ?_) (fun o' ho' => ?_)
    · show setAt s.cs o (some t) o' = some u
      refine (setAt_ne _ _ fun e => ?_).trans hu
      rw [e, ho] at hu; cases hu
    · rw [hc] at ho'
      cases ho'
      exact setAt_self ..

theorem unlock_owned {s : S} {t o : Nat} {p : Pc} {ls : List Label} (h : Owned s)
    (hc : critAt (s.pc t) = some o) (hc' : critAt p = none) :
    ∃ r, unlock s t o p ls = .ok r ∧ ∀ s' ls, r = some (s', ls) → Owned s' := by
  have ho := h t o hc
  refine ⟨_, if_pos ho, fun s' ls e => ?_⟩
  cases e
  refine h.goto (t := t) (p := p) (fun _ => rfl) (fun u o' hut hu => ?_)
    (fun o' ho' => by rw [hc'] at ho'; cases ho')
  show setAt s.cs o none o' = some u
  refine (setAt_ne _ _ fun e => ?_).trans hu
  rw [e, ho] at hu; cases hu; exact hut rfl

theorem run_owned {s : S} (t : Nat) (h : Owned s) :
    ∃ r, run s t = .ok r ∧ ∀ s' ls, r = some (s', ls) → Owned s' := by
  have hcrit := h t
  unfold run
  cases hpc : s.pc t with
  | lCs o wait => exact lock_owned h rfl
  | lCs2 o => exact lock_owned h rfl
  | uCs o all => exact lock_owned h rfl
  | lUnl o => exact unlock_owned h (by rw [hpc]; rfl) rfl
  | lOut o wait => exact unlock_owned h (by rw [hpc]; rfl) rfl
  | uBad o all => exact unlock_owned h (by rw [hpc]; rfl) rfl
  | uUnl o all => exact unlock_owned h (by rw [hpc]; rfl) rfl
  | idle => exact ⟨_, rfl, fun _ _ e => nomatch e⟩
  | lWait o wait =>
    dsimp only
    split
    · exact ⟨_, rfl, fun s' ls e => by
        cases e; exact h.goto (t := t) (p := .lCs2 o) (fun _ => rfl) (fun _ _ _ e => e) (fun _ e => nomatch e)⟩
    · split
      · exact ⟨_, rfl, fun s' ls e => by
          cases e; exact h.goto (t := t) (p := .idle) (fun _ => rfl) (fun _ _ _ e => e) (fun _ e => nomatch e)⟩
      · exact ⟨_, rfl, fun _ _ e => nomatch e⟩
  | lTest o wait =>
    have hc := hcrit o (by rw [hpc]; rfl)
    dsimp only
    split <;> exact ⟨_, rfl, fun s' ls e => by
      cases e; exact h.goto (t := t) (fun _ => rfl) (fun _ _ _ e => e) (fun _ e => by cases e; exact hc)⟩
  | uTest o wait =>
    have hc := hcrit o (by rw [hpc]; rfl)
    dsimp only
    split <;> exact ⟨_, rfl, fun s' ls e => by
      cases e; exact h.goto (t := t) (fun _ => rfl) (fun _ _ _ e => e) (fun _ e => by cases e; exact hc)⟩
  | uZero o wait =>
    have hc := hcrit o (by rw [hpc]; rfl)
    dsimp only
    split <;> exact ⟨_, rfl, fun s' ls e => by
      cases e; exact h.goto (t := t) (fun _ => rfl) (fun _ _ _ e => e) (fun _ e => by cases e; exact hc)⟩
  | lLoad o | lStore o v | lOwn o | lCnt o | uAll o a | uLoad o a | uStore o a v | uOwn o a | uRel o a =>
    have hc := hcrit o (by rw [hpc]; rfl)
    exact ⟨_, rfl, fun s' ls e => by
      cases e; exact h.goto (t := t) (fun _ => rfl) (fun _ _ _ e => e) (fun _ e => by cases e; exact hc)⟩

theorem step_owned {s : S} (a : Act) (h : Owned s) :
    ∃ r, step s a = .ok r ∧ ∀ s' ls, r = some (s', ls) → Owned s' := by
  cases a with
  | callLock t o wait =>
    refine ⟨_, rfl, fun s' ls e => ?_⟩
    split at e <;> cases e
    exact h.goto (t := t) (fun _ => rfl) (fun _ _ _ e => e) (fun _ e => nomatch e)
  | callUnlock t o all =>
    refine ⟨_, rfl, fun s' ls e => ?_⟩
    split at e <;> cases e
    exact h.goto (t := t) (fun _ => rfl) (fun _ _ _ e => e) (fun _ e => nomatch e)
  | run t => exact run_owned t h
  | fail t =>
    refine ⟨_, rfl, fun s' ls e => ?_⟩
    have hcrit := h t
    unfold fail at e
    split at e <;> cases e
    · exact h.goto (t := t) (fun _ => rfl) (fun _ _ _ e => e) (fun _ e => nomatch e)
    · exact h.goto (t := t) (fun _ => rfl) (fun _ _ _ e => e) (fun _ e => nomatch e)
    · exact h.goto (t := t) (fun _ => rfl) (fun _ _ _ e => e) (fun _ e => nomatch e)
    · rename_i o all hpc
      have hc := hcrit o (by rw [hpc]; rfl)
      exact h.goto (t := t) (fun _ => rfl) (fun _ _ _ e => e) (fun _ e => by cases e; exact hc)

theorem exec_owned (as : List Act) : ∀ {s : S}, Owned s → ∃ s' ls, exec s as = .ok (s', ls) := by
  induction as with
  | nil => exact fun _ => ⟨_, _, rfl⟩
  | cons a as ih =>
    intro s h
    obtain ⟨r, hr, hok⟩ := step_owned a h
    rw [exec, hr, ok_bind]
    cases r with
    | none => exact ih h
    | some x =>
      obtain ⟨s1, l1⟩ := x
      obtain ⟨s2, l2, he⟩ := ih (hok s1 l1 rfl)
      exact ⟨s2, l1 ++ l2, by simp only [he, ok_bind]⟩

end Verif.Mutex
