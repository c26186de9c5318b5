import Verif.WinMutex.Spec
import Verif.Mutex.Lemmas

/-! # Invariants of the mutex on Windows -/

namespace Verif.WinMutex

open Verif.Mutex (Label Pc setAt dec32 critAt unstable window phOf)
open Verif.Mutex.Spec (Phase phase move who depth Holds Shallow)
open Spec

/-- What a position of thread `t` says about the objects; `c` is the nesting depth by thread and object. -/
def Val (s : S) (c : Nat → Nat → Nat) (t : Nat) : Pc → Prop
  | .lLoad o | .uAll o _ => s.oid o = some t
  | .lStore o v => s.oid o = some t ∧ v = s.cnt o
  | .lOut o _ | .lWait o _ => s.oid o ≠ some t
  | .lCs2 o | .lOwn o => s.oid o ≠ some t ∧ c t o = 1
  | .lCnt o => s.oid o = some t ∧ c t o = 1
  | .uLoad o all => s.oid o = some t ∧ s.cnt o = if all then 1 else c t o
  | .uStore o all v => s.oid o = some t ∧ v = if all then 1 else c t o
  | .uZero o all => s.oid o = some t ∧ s.cnt o = if all then 0 else c t o - 1
  | .uOwn o all => s.oid o = some t ∧ (all = true ∨ c t o = 1)
  | .uRel o all => s.oid o ≠ some t ∧ 0 < c t o ∧ (all = true ∨ c t o = 1)
  | _ => True

/-- What holds of the kernel mutex between any two steps: `c` is the nesting depth by thread and object, `D` the objects
through which the mutex is held, `lv`: no `ReleaseMutex` has failed. -/
structure Ker (s : S) (c : Nat → Nat → Nat) (D : List Nat) (lv : Bool) : Prop where
  ker : ∀ t o, 0 < c t o → s.kown = some t ∧ o ∈ D
  dn : D.Nodup
  dk : D.length ≤ s.kcnt
  dm : ∀ o, o ∈ D → ∃ t, 0 < c t o
  live : lv = true → s.kcnt = D.length ∧ s.ab = false ∧ (s.kown ≠ none → D ≠ [])

/-- What holds between any two steps. -/
structure Inv (s : S) (c : Nat → Nat → Nat) (D : List Nat) (lv : Bool) : Prop where
  crit : ∀ t o, critAt (s.pc t) = some o ↔ s.cs o = some t
  ker : Ker s c D lv
  oid : ∀ o t, s.oid o = some t → 0 < c t o ∧ (unstable (s.pc t) ≠ some o → s.cnt o = c t o)
  pos : ∀ t o, 0 < c t o → s.oid o = some t ∨ window (s.pc t) = some o
  val : ∀ t, Val s c t (s.pc t)

theorem init_inv : Inv init (fun _ _ => 0) [] true :=
  ⟨by simp [init, critAt], by constructor <;> simp [init], by simp [init], by simp, fun _ => trivial⟩

theorem Ker.same {s s' : S} {c c' : Nat → Nat → Nat} {D : List Nat} {lv : Bool} (hk : Ker s c D lv)
    (h1 : s'.kown = s.kown) (h2 : s'.kcnt = s.kcnt) (h3 : s'.ab = s.ab)
    (hc : ∀ u o, 0 < c' u o ↔ 0 < c u o) : Ker s' c' D lv := by
  obtain ⟨g1, g2, g3, g4, g5⟩ := hk
  constructor
  · intro t o e; rw [h1]; exact g1 t o ((hc t o).mp e)
  · exact g2
  · rw [h2]; exact g3
  · intro o e; obtain ⟨t, e⟩ := g4 o e; exact ⟨t, (hc t o).mpr e⟩
  · rw [h1, h2, h3]; exact g5

theorem Val.frame {s s' : S} {c c' : Nat → Nat → Nat} {u : Nat} {p : Pc} (hv : Val s c u p)
    (hcnt : ∀ o, critAt p = some o → s'.cnt o = s.cnt o)
    (hoid : ∀ o, s'.oid o = some u ↔ s.oid o = some u)
    (hc : ∀ o, c' u o = c u o) : Val s' c' u p := by
  cases p <;> simp only [Val, ne_eq, hoid, hc] at * <;> first | trivial | exact hv | (rw [hcnt _ rfl]; exact hv)

theorem Inv.upd {s s' : S} {c c' : Nat → Nat → Nat} {D D' : List Nat} {lv lv' : Bool} {t : Nat} {p : Pc}
    (hi : Inv s c D lv) (hs : s'.pc = setAt s.pc t p)
    (hcs : ∀ u o, u ≠ t → (s'.cs o = some u ↔ s.cs o = some u))
    (hcs' : ∀ o, critAt p = some o ↔ s'.cs o = some t)
    (hcnt : ∀ u o, u ≠ t → s.cs o = some u ∨ s.oid o = some u → s'.cnt o = s.cnt o)
    (hoid : ∀ u o, u ≠ t → (s'.oid o = some u ↔ s.oid o = some u))
    (hc : ∀ u o, u ≠ t → c' u o = c u o)
    (hoid' : ∀ o, s'.oid o = some t → 0 < c' t o ∧ (unstable p ≠ some o → s'.cnt o = c' t o))
    (hpos : ∀ o, 0 < c' t o → s'.oid o = some t ∨ window p = some o)
    (hk : Ker s' c' D' lv') (hv : Val s' c' t p) : Inv s' c' D' lv' := by
  have hpc : ∀ u, s'.pc u = if u = t then p else s.pc u := fun u => by rw [hs]; rfl
  refine ⟨fun u o => ?_, hk, fun o u hu => ?_, fun u o hu => ?_, fun u => ?_⟩
  · rw [hpc]
    by_cases hut : u = t
    · rw [if_pos hut, hut]; exact hcs' o
    · rw [if_neg hut, hcs u o hut]; exact hi.crit u o
  · rw [hpc]
    by_cases hut : u = t
    · subst hut
      rw [if_pos rfl]; exact hoid' o hu
    · rw [if_neg hut, hc u o hut]
      have ho := (hoid u o hut).mp hu
      rw [hcnt u o hut (Or.inr ho)]
      exact hi.oid o u ho
  · rw [hpc]
    by_cases hut : u = t
    · subst hut
      rw [if_pos rfl]; exact hpos o hu
    · rw [if_neg hut, hoid u o hut]
      rw [hc u o hut] at hu
      exact hi.pos u o hu
  · rw [hpc]
    by_cases hut : u = t
    · rw [if_pos hut, hut]; exact hv
    · rw [if_neg hut]
      exact (hi.val u).frame (fun o ho => hcnt u o hut (Or.inl ((hi.crit u o).mp ho)))
        (fun o => hoid u o hut) (fun o => hc u o hut)

/-- Steps that change neither the kernel mutex nor any object except its critical section. -/
theorem Inv.plain {s s' : S} {c : Nat → Nat → Nat} {D : List Nat} {lv : Bool} {t : Nat} {p : Pc} (hi : Inv s c D lv)
    (hs : s'.pc = setAt s.pc t p) (h1 : s'.kown = s.kown) (h2 : s'.kcnt = s.kcnt) (h3 : s'.ab = s.ab)
    (h4 : s'.oid = s.oid) (h5 : s'.cnt = s.cnt)
    (hcs : ∀ u o, u ≠ t → (s'.cs o = some u ↔ s.cs o = some u))
    (hcs' : ∀ o, critAt p = some o ↔ s'.cs o = some t)
    (hun : ∀ o, unstable (s.pc t) = some o → unstable p = some o)
    (hwin : ∀ o, 0 < c t o → window (s.pc t) = some o → window p = some o)
    (hv : Val s' c t p) : Inv s' c D lv := by
  refine hi.upd hs hcs hcs' (fun _ _ _ _ => by rw [h5]) (fun _ _ _ => by rw [h4]) (fun _ _ _ => rfl)
    (fun o ho => ?_) (fun o e => ?_) (hi.ker.same h1 h2 h3 fun _ _ => Iff.rfl) hv
  · rw [h4] at ho
    obtain ⟨e1, e2⟩ := hi.oid o t ho
    exact ⟨e1, fun e => by rw [h5]; exact e2 fun e' => e (hun o e')⟩
  · rw [h4]
    exact (hi.pos t o e).imp id (hwin o e)

theorem setAt_self {α : Type} (f : Nat → α) (o : Nat) (x : α) : setAt f o x o = x := if_pos rfl
theorem setAt_ne {α : Type} (f : Nat → α) {o i : Nat} (x : α) (h : i ≠ o) :
    setAt f o x i = f i := if_neg h

/-- The depths of a state of the atomic mutex. -/
def dep (h : Held) : Nat → Nat → Nat := fun t o => h.count (t, o)

/-- What a step does to the abstract state, the phases and the invariant. -/
def StepOk (s : S) (h : Held) (lv : Bool) (r : Option (S × List Label)) : Prop :=
  ∀ s' ls, r = some (s', ls) → ∃ h' D', Inv s' (dep h') D' lv ∧ atomic h ls = some h' ∧
    ∀ t, phase t (some (phOf (s.pc t))) ls = some (phOf (s'.pc t))

theorem StepOk.none {s : S} {h : Held} {lv : Bool} : StepOk s h lv none := fun _ _ h => nomatch h

theorem phase_other {t u : Nat} {p : Option Phase} {ls : List Label} (hu : u ≠ t) (hw : ∀ l ∈ ls, who l = t) :
    phase u p ls = p := by
  induction ls generalizing p with
  | nil => rfl
  | cons l ls ih =>
    rw [phase, if_neg (by rw [hw l (List.mem_cons_self ..)]; exact fun e => hu e.symm)]
    exact ih fun l hl => hw l (List.mem_cons_of_mem _ hl)

theorem StepOk.mk {s s' : S} {h h' : Held} {D' : List Nat} {lv : Bool} {t : Nat} {p : Pc} {ls : List Label}
    (hi : Inv s' (dep h') D' lv) (ha : atomic h ls = some h') (hs : s'.pc = setAt s.pc t p)
    (hw : ∀ l ∈ ls, who l = t) (hp : phase t (some (phOf (s.pc t))) ls = some (phOf p)) :
    StepOk s h lv (some (s', ls)) := by
  intro s'' ls' e
  cases e
  refine ⟨h', D', hi, ha, fun u => ?_⟩
  rw [hs, setAt]
  by_cases hut : u = t
  · rw [if_pos hut, hut]; exact hp
  · rw [if_neg hut]; exact phase_other hut hw

theorem phase_one {t : Nat} {p : Option Phase} {l : Label} (h : who l = t) :
    phase t p [l] = p.bind (move · l) := by
  rw [phase, if_pos h]; rfl

theorem enter_ok {s : S} {h : Held} {D : List Nat} {lv : Bool} {t o : Nat} {p : Pc} (hi : Inv s (dep h) D lv)
    (hun : unstable (s.pc t) = none) (hwin : window (s.pc t) = window p)
    (hn : critAt (s.pc t) = none) (hc : critAt p = some o)
    (hv : ∀ s' : S, s'.oid = s.oid → s'.cnt = s.cnt → Val s' (dep h) t p) (hph : phOf (s.pc t) = phOf p) :
    ∃ r, enter s t o p = .ok r ∧ StepOk s h lv r := by
  unfold enter
  cases ho : s.cs o with
  | some u => exact ⟨_, rfl, .none⟩
  | none =>
    refine ⟨_, rfl, StepOk.mk (t := t) (p := p) (D' := D) ?_ rfl rfl (fun l hl => nomatch hl) (by rw [hph]; rfl)⟩
    refine hi.plain (t := t) (p := p) rfl rfl rfl rfl rfl rfl ?_ ?_ ?_ ?_ (hv _ rfl rfl)
    · intro u o' hut
      show setAt s.cs o (some t) o' = some u ↔ _
      unfold setAt
      split
      · rename_i e; rw [e, ho]
        exact ⟨fun e => absurd (Option.some.inj e).symm hut, fun e => nomatch e⟩
      · rfl
    · intro o'
      rw [hc]
      show _ ↔ setAt s.cs o (some t) o' = some t
      unfold setAt
      split
      · rename_i e; rw [e]; simp
      · rename_i e
        refine ⟨fun e' => absurd (Option.some.inj e').symm e, fun e' => ?_⟩
        rw [← hi.crit, hn] at e'; cases e'
    · intro o' e; rw [hun] at e; cases e
    · intro o' _ e; rw [← hwin]; exact e

theorem leave_ok {s : S} {h : Held} {D : List Nat} {lv : Bool} {t o : Nat} {p : Pc} {ls : List Label}
    (hi : Inv s (dep h) D lv) (hc : critAt (s.pc t) = some o)
    (hun : unstable (s.pc t) = none) (hwin : window (s.pc t) = none) (hc' : critAt p = none)
    (hv : ∀ s' : S, s'.oid = s.oid → s'.cnt = s.cnt → Val s' (dep h) t p)
    (ha : atomic h ls = some h) (hw : ∀ l ∈ ls, who l = t)
    (hph : phase t (some (phOf (s.pc t))) ls = some (phOf p)) :
    ∃ r, leave s t o p ls = .ok r ∧ StepOk s h lv r := by
  have ho := (hi.crit t o).mp hc
  refine ⟨_, if_pos ho, StepOk.mk (t := t) (p := p) (D' := D) ?_ ha rfl hw hph⟩
  refine hi.plain (t := t) (p := p) rfl rfl rfl rfl rfl rfl ?_ ?_ ?_ ?_ (hv _ rfl rfl)
  · intro u o' hut
    show setAt s.cs o none o' = some u ↔ _
    unfold setAt
    split
    · rename_i e; rw [e, ho]
      exact ⟨fun e => (nomatch e), fun e => absurd (Option.some.inj e).symm hut⟩
    · rfl
  · intro o'
    rw [hc']
    show _ ↔ setAt s.cs o none o' = some t
    unfold setAt
    split
    · simp
    · rename_i e
      refine ⟨fun e => (nomatch e), fun e' => ?_⟩
      rw [← hi.crit, hc] at e'; exact absurd (Option.some.inj e').symm e
  · intro o' e; rw [hun] at e; cases e
  · intro o' _ e; rw [hwin] at e; cases e

/-- Steps that only move the thread. -/
theorem move_ok {s : S} {h : Held} {D : List Nat} {lv : Bool} {t : Nat} {p : Pc} {ls : List Label}
    (hi : Inv s (dep h) D lv) (hcs' : critAt p = critAt (s.pc t))
    (hun : ∀ o, unstable (s.pc t) = some o → unstable p = some o)
    (hwin : ∀ o, 0 < dep h t o → window (s.pc t) = some o → window p = some o)
    (hv : Val s (dep h) t p) (ha : atomic h ls = some h) (hw : ∀ l ∈ ls, who l = t)
    (hph : phase t (some (phOf (s.pc t))) ls = some (phOf p)) :
    StepOk s h lv (some (s.goto t p, ls)) := by
  refine StepOk.mk (t := t) (p := p) (h' := h) (D' := D) ?_ ha rfl hw hph
  refine hi.plain (t := t) (p := p) rfl rfl rfl rfl rfl rfl (fun _ _ _ => Iff.rfl)
    (fun o => by rw [hcs']; exact hi.crit t o) hun hwin ?_
  exact hv.frame (fun _ _ => rfl) (fun _ => Iff.rfl) (fun _ => rfl)

theorem not_held {s : S} {c : Nat → Nat → Nat} {D : List Nat} {lv : Bool} {t o : Nat} (hi : Inv s c D lv)
    (h1 : s.oid o ≠ some t) (h2 : window (s.pc t) = none) : c t o = 0 := by
  rcases Nat.eq_zero_or_pos (c t o) with e | e
  · exact e
  · rcases hi.pos t o e with e' | e'
    · exact absurd e' h1
    · rw [h2] at e'; cases e'

theorem dep_mem {h : Held} {t o : Nat} : 0 < dep h t o ↔ (t, o) ∈ h := List.count_pos_iff

theorem dep_not {h : Held} {t o : Nat} (e : dep h t o = 0) : (t, o) ∉ h := fun e' => by
  have := dep_mem.mpr e'
  omega

theorem dep_cons (h : Held) (t o u p : Nat) :
    dep ((t, o) :: h) u p = if u = t ∧ p = o then dep h u p + 1 else dep h u p := by
  show List.count (u, p) ((t, o) :: h) = _
  rw [List.count_cons]
  by_cases e : u = t ∧ p = o
  · obtain ⟨rfl, rfl⟩ := e
    simp [dep]
  · rw [if_neg e, if_neg]
    · rfl
    · intro e'
      have := eq_of_beq e'
      cases this
      exact e ⟨rfl, rfl⟩

theorem dep_erase (h : Held) (t o u p : Nat) :
    dep (h.erase (t, o)) u p = if u = t ∧ p = o then dep h u p - 1 else dep h u p := by
  show List.count (u, p) (h.erase (t, o)) = _
  by_cases e : u = t ∧ p = o
  · obtain ⟨rfl, rfl⟩ := e
    rw [List.count_erase_self, if_pos ⟨rfl, rfl⟩]; rfl
  · rw [if_neg e, List.count_erase_of_ne]
    · rfl
    · intro e'
      cases e'
      exact e ⟨rfl, rfl⟩

theorem dep_filter (h : Held) (t o u p : Nat) :
    dep (h.filter (· ≠ (t, o))) u p = if u = t ∧ p = o then 0 else dep h u p := by
  show List.count (u, p) (h.filter (· ≠ (t, o))) = _
  by_cases e : u = t ∧ p = o
  · obtain ⟨rfl, rfl⟩ := e
    rw [if_pos ⟨rfl, rfl⟩, List.count_eq_zero]
    simp
  · rw [if_neg e, List.count_filter]
    · rfl
    · simp only [ne_eq, Prod.mk.injEq, decide_not, Bool.not_eq_eq_eq_not, Bool.not_true, decide_eq_false_iff_not]
      exact e

end Verif.WinMutex
