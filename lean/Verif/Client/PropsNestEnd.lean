import Verif.Client.PropsNestWin

/-!
# Programs that nest locks in a fixed order come to their end, Windows branch
-/

namespace Verif.Client.Nest

open Verif.Mutex (Label infinite Pc phOf window)
open Verif.Mutex.Spec (Phase phase move who depth Shallow)

/-! ## What is claimed -/

/-- A thread goes on with its script: a step inside a call, or the next call, `Lock` without a time limit. -/
def WinOwn (N : Nat) (g g' : WinG) : Prop :=
  ∃ u i a s l td, i < N ∧ (a = .run u ∨ a = .callLock u 0 infinite ∨ a = .callUnlock u 0 false) ∧
    WinMutex.step (g.s i) a = .ok (some (s, l)) ∧ follow i g.todo l = some td ∧
    g' = ⟨put g.s i s, put g.ls i (g.ls i ++ l), td⟩

/-- `k` such steps, by any threads in any order. -/
inductive WinSteps (N : Nat) : Nat → WinG → WinG → Prop
  | none {g : WinG} : WinSteps N 0 g g
  | more {k : Nat} {g g' g'' : WinG} : WinOwn N g g' → WinSteps N k g' g'' → WinSteps N (k + 1) g g''

/-! ## Proofs -/

/-- Calls with a time limit may return false once more. -/
def late (w : Nat) : Nat := if w = infinite then 0 else 60

/-- How far a thread is from the end of its call; outside it has the whole call before it. -/
def rank : Pc → Nat
  | .idle => 30
  | .lCs _ w => 20 + late w
  | .lTest _ w => 19 + late w
  | .lOut _ w => 18 + late w
  | .lWait _ w => 17 + late w
  | .lCs2 _ => 16
  | .lOwn _ => 15
  | .lCnt _ => 14
  | .lLoad _ => 10
  | .lStore _ _ => 9
  | .lUnl _ => 8
  | .uBad _ _ => 50
  | .uCs _ _ => 20
  | .uTest _ _ => 19
  | .uAll _ _ => 18
  | .uLoad _ _ => 17
  | .uStore _ _ _ => 16
  | .uZero _ _ => 15
  | .uOwn _ _ => 14
  | .uRel _ _ => 13
  | .uUnl _ _ => 12

def total : Nat → (Nat → Nat) → Nat
  | 0, _ => 0
  | n + 1, f => total n f + f n

theorem total_same : ∀ (n : Nat) {f f' : Nat → Nat}, (∀ j, j < n → f' j = f j) → total n f' = total n f
  | 0, _, _, _ => rfl
  | n + 1, f, f', h => by
    rw [total, total, total_same n (fun j hj => h j (by omega)), h n (by omega)]

theorem total_shift : ∀ (n : Nat) {f f' : Nat → Nat} {i : Nat}, i < n → (∀ j, j ≠ i → f' j = f j) →
    total n f' + f i = total n f + f' i
  | 0, _, _, _, hi, _ => absurd hi (Nat.not_lt_zero _)
  | n + 1, f, f', i, hi, h => by
    rw [total, total]
    by_cases e : i = n
    · subst e
      rw [total_same i (fun j hj => h j (by omega))]; omega
    · have := total_shift n (by omega : i < n) h
      rw [h n (by omega)]; omega

/-- What is left to do for thread `t`. -/
def left (N : Nat) (g : WinG) (t : Nat) : Nat :=
  40 * (g.todo t).length + total N fun i => rank ((g.s i).pc t)

/-- What a step does to the thread that makes it. -/
theorem run_cost {s s' : WinMutex.S} {u i : Nat} {l : List Label} {td td' : Nat → List Op}
    (h : WinMutex.run s u = .ok (some (s', l))) (hab : s.ab = false)
    (hut : ∀ o all, s.pc u = .uTest o all → s.oid o = some u) (htd : s.pc u ≠ .idle → td u ≠ [])
    (hf : follow i td l = some td') :
    (∀ v, v ≠ u → s'.pc v = s.pc v ∧ td' v = td v) ∧
      rank (s'.pc u) + 40 * (td' u).length < rank (s.pc u) + 40 * (td u).length := by
  have hlen : s.pc u ≠ .idle → (td u).tail.length + 1 = (td u).length := fun hn => by
    have := List.length_pos_iff.mpr (htd hn)
    rw [List.length_tail]; omega
  have hl0 : late 0 = 60 := rfl
  have hput : ∀ v, v ≠ u → put td u (td u).tail v = td v := fun v hv => put_ne _ _ hv
  have hgo : ∀ (x : WinMutex.S) (p : Pc) v, v ≠ u → (x.goto u p).pc v = x.pc v := fun x p v hv => if_neg hv
  have hgs : ∀ (x : WinMutex.S) (p : Pc), (x.goto u p).pc u = p := fun x p => if_pos rfl
  have hrel : (WinMutex.released s u).pc = s.pc := by unfold WinMutex.released; split <;> rfl
  unfold WinMutex.run WinMutex.enter WinMutex.leave at h
  cases hpc : s.pc u with
  | idle => rw [hpc] at h; cases h
  | uTest o all =>
    have := hut o all hpc
    rw [hpc] at h
    simp only [this, ne_eq, not_true_eq_false, if_false, Except.ok.injEq, Option.some.injEq, Prod.mk.injEq] at h
    obtain ⟨rfl, rfl⟩ := h
    cases hf
    exact ⟨fun v hv => ⟨hgo _ _ v hv, rfl⟩, by rw [hgs]; simp only [rank]; omega⟩
  | lWait o w =>
    rw [hpc] at h
    simp only [hab] at h
    split at h
    · simp only [Bool.false_eq_true, if_false, Except.ok.injEq, Option.some.injEq, Prod.mk.injEq] at h
      obtain ⟨rfl, rfl⟩ := h
      cases hf
      exact ⟨fun v hv => ⟨hgo _ _ v hv, rfl⟩, by rw [hgs]; simp only [rank]; omega⟩
    · split at h
      · rename_i e
        subst e
        simp only [Except.ok.injEq, Option.some.injEq, Prod.mk.injEq] at h
        obtain ⟨rfl, rfl⟩ := h
        cases hf
        exact ⟨fun v hv => ⟨hgo _ _ v hv, rfl⟩, by rw [hgs]; simp only [rank, hl0]; omega⟩
      · cases h
  | lUnl o =>
    have hlen := hlen (by rw [hpc]; exact fun e => nomatch e)
    rw [hpc] at h
    dsimp only at h
    split at h
    · simp only [Except.ok.injEq, Option.some.injEq, Prod.mk.injEq] at h
      obtain ⟨rfl, rfl⟩ := h
      cases hf
      exact ⟨fun v hv => ⟨hgo _ _ v hv, hput v hv⟩, by rw [hgs, put_self]; simp only [rank]; omega⟩
    · cases h
  | uUnl o all =>
    have hlen := hlen (by rw [hpc]; exact fun e => nomatch e)
    rw [hpc] at h
    dsimp only at h
    split at h
    · simp only [Except.ok.injEq, Option.some.injEq, Prod.mk.injEq] at h
      obtain ⟨rfl, rfl⟩ := h
      cases hf
      exact ⟨fun v hv => ⟨hgo _ _ v hv, hput v hv⟩, by rw [hgs, put_self]; simp only [rank]; omega⟩
    · cases h
  | uRel o all =>
    rw [hpc] at h
    simp only [Except.ok.injEq, Option.some.injEq, Prod.mk.injEq] at h
    obtain ⟨rfl, rfl⟩ := h
    cases hf
    exact ⟨fun v hv => ⟨by rw [hgo _ _ v hv, hrel], rfl⟩, by rw [hgs]; simp only [rank]; omega⟩
  | _ =>
    rw [hpc] at h
    dsimp only at h
    (try split at h) <;> first
      | (cases h; done)
      | (simp only [Except.ok.injEq, Option.some.injEq, Prod.mk.injEq] at h
         obtain ⟨rfl, rfl⟩ := h
         cases hf
         exact ⟨fun v hv => ⟨hgo _ _ v hv, rfl⟩, by rw [hgs]; simp only [rank]; omega⟩)

theorem own_next {N : Nat} {g g' : WinG} (h : WinOwn N g g') : WinNext N g g' := by
  obtain ⟨u, i, a, s, l, td, hi, ha, hs, hf, rfl⟩ := h
  refine ⟨i, a, s, l, td, hi, ?_, ?_, hs, hf, rfl⟩ <;> rcases ha with rfl | rfl | rfl <;> rfl

theorem inside_todo {N : Nat} {P : Nat → List Op} {g : WinG} (h : WinInv N P g) {i u : Nat} (hi : i < N)
    (hu : (g.s i).pc u ≠ .idle) :
    (g.s i).ab = false ∧ g.todo u ≠ [] ∧ ∀ o all, (g.s i).pc u = .uTest o all → (g.s i).oid o = some u := by
  obtain ⟨as, ha⟩ := h.run i
  obtain ⟨h', D, hinv, hat, hp⟩ := WinMutex.exec_ok as true ha.orderly (fun _ => ha.clean) ha.exec (h.shallow i hi)
  obtain ⟨p, hp1, hc⟩ := h.j.cur u i
  rw [hp u] at hp1
  cases hp1
  refine ⟨(hinv.ker.live rfl).2.1, fun e => ?_, fun o all hpc => ?_⟩
  · rw [e] at hc
    cases hpc : (g.s i).pc u <;> rw [hpc] at hc hu <;> first
      | exact hu rfl
      | (have := hc.2; cases this; done)
      | (have := hc.2.2; cases this; done)
  · have hag := WinMutex.agree (o := o) (d := 0) (h := []) (hp u) hat rfl
    rw [hpc] at hc hag
    obtain ⟨rfl, _, hh⟩ := hc
    have hag : WinMutex.dep h' u 0 = depth u 0 0 (g.ls i) := hag
    have hn := h.j.nested u
    cases e : g.todo u with
    | nil => rw [e] at hh; cases hh
    | cons op r =>
      rw [e] at hh hn
      cases hh
      have hd : 0 < depth u 0 0 (g.ls i) := hn.2.1
      rw [← hag] at hd
      refine (hinv.pos u 0 hd).resolve_right ?_
      rw [hpc]
      exact fun e => nomatch e

/-- Every step leaves less to do. -/
theorem own_less {N T : Nat} {P : Nat → List Op} (hT : ∀ t, T ≤ t → P t = []) {g g' : WinG} (h : WinInv N P g)
    (ho : WinOwn N g g') : total T (left N g') < total T (left N g) := by
  obtain ⟨u, i, a, s, l, td, hi, ha, hs, hf, rfl⟩ := ho
  have key : (∀ v, v ≠ u → s.pc v = (g.s i).pc v ∧ td v = g.todo v) ∧
      rank (s.pc u) + 40 * (td u).length < rank ((g.s i).pc u) + 40 * (g.todo u).length ∧ g.todo u ≠ [] := by
    rcases ha with rfl | rfl | rfl
    · have hin : (g.s i).pc u ≠ .idle := fun e => by
        change WinMutex.run (g.s i) u = _ at hs
        unfold WinMutex.run at hs
        rw [e] at hs
        cases hs
      obtain ⟨h1, h2, h3⟩ := inside_todo h hi hin
      obtain ⟨h4, h5⟩ := run_cost hs h1 h3 (fun _ => h2) hf
      exact ⟨h4, h5, h2⟩
    · simp only [WinMutex.step] at hs
      split at hs
      · rename_i hid
        cases hs
        simp only [follow, see] at hf
        split at hf
        · rename_i e
          cases hf
          refine ⟨fun v hv => ⟨if_neg hv, rfl⟩, ?_, fun e' => by rw [e'] at e; cases e.2⟩
          rw [hid, show ((g.s i).goto u (.lCs 0 infinite)).pc u = .lCs 0 infinite from if_pos rfl]
          simp only [rank, late, if_true]
          omega
        · cases hf
      · cases hs
    · simp only [WinMutex.step] at hs
      split at hs
      · rename_i hid
        cases hs
        simp only [follow, see] at hf
        split at hf
        · rename_i e
          cases hf
          refine ⟨fun v hv => ⟨if_neg hv, rfl⟩, ?_, fun e' => by rw [e'] at e; cases e.2.2⟩
          rw [hid, show ((g.s i).goto u (.uCs 0 false)).pc u = .uCs 0 false from if_pos rfl]
          simp only [rank]
          omega
        · cases hf
      · cases hs
  obtain ⟨k1, k2, k3⟩ := key
  have huT : u < T := by
    refine Classical.byContradiction fun hx => k3 ?_
    have := h.len u
    rw [hT u (by omega)] at this
    exact List.eq_nil_of_length_eq_zero (Nat.le_zero.mp this)
  have hoth : ∀ v, v ≠ u → left N ⟨put g.s i s, put g.ls i (g.ls i ++ l), td⟩ v = left N g v := fun v hv => by
    unfold left
    dsimp only
    rw [(k1 v hv).2]
    refine congrArg _ (total_same N fun j _ => ?_)
    by_cases e : j = i
    · subst e; rw [put_self, (k1 v hv).1]
    · rw [put_ne _ _ e]
  have h1 := total_shift T huT hoth
  have h2 : left N ⟨put g.s i s, put g.ls i (g.ls i ++ l), td⟩ u < left N g u := by
    unfold left
    dsimp only
    have := total_shift N (f := fun i => rank ((g.s i).pc u)) (f' := fun k => rank ((put g.s i s k).pc u)) hi
      (fun j hj => by rw [put_ne _ _ hj])
    rw [put_self] at this
    omega
  omega

theorem steps_bound {N T : Nat} {P : Nat → List Op} (hP : ∀ t, Nested N (fun _ => 0) (P t))
    (hl : ∀ t, (P t).length < 4294967293) (hT : ∀ t, T ≤ t → P t = []) {k : Nat} {g g' : WinG}
    (hs : WinSteps N k g g') : WinRun N P g → WinRun N P g' ∧ k ≤ total T (left N g) := by
  induction hs with
  | none => exact fun hr => ⟨hr, Nat.zero_le _⟩
  | more ho _ ih =>
    intro hr
    have h1 := own_less hT (win_run_inv hP hl hr) ho
    obtain ⟨h2, h3⟩ := ih (hr.next (own_next ho))
    exact ⟨h2, by omega⟩

/-- Programs of finitely many threads that nest their locks in a fixed order come to their end: from every state they can
reach there is a bound on the number of steps the threads can make, whatever the order of the threads, and when they can
make no more everything is finished. -/
theorem win_nested_program_ends_partial (N T : Nat) (P : Nat → List Op) (hP : ∀ t, Nested N (fun _ => 0) (P t))
    (hl : ∀ t, (P t).length < 4294967293) (hT : ∀ t, T ≤ t → P t = []) (g : WinG) (hr : WinRun N P g) :
    ∃ n, ∀ k g', WinSteps N k g g' → k ≤ n ∧ (WinFinished N g' ∨ ∃ g'', WinOwn N g' g'') := by
  refine ⟨total T (left N g), fun k g' hs => ?_⟩
  obtain ⟨h1, h2⟩ := steps_bound hP hl hT hs hr
  refine ⟨h2, ?_⟩
  rcases win_nested_program_goes_partial N P hP hl g' h1 with h | ⟨u, i, a, s, l, td, hi, ha, hs, hf⟩
  · exact Or.inl h
  · exact Or.inr ⟨_, u, i, a, s, l, td, hi, ha, hs, hf, rfl⟩

/-- So from every state they can reach they can be finished. -/
theorem win_nested_program_finishes_partial (N T : Nat) (P : Nat → List Op) (hP : ∀ t, Nested N (fun _ => 0) (P t))
    (hl : ∀ t, (P t).length < 4294967293) (hT : ∀ t, T ≤ t → P t = []) (g : WinG) (hr : WinRun N P g) :
    ∃ k g', WinSteps N k g g' ∧ WinFinished N g' := by
  have key : ∀ n (g : WinG), WinRun N P g → total T (left N g) ≤ n → ∃ k g', WinSteps N k g g' ∧ WinFinished N g' := by
    intro n
    induction n with
    | zero =>
      intro g hr hn
      rcases win_nested_program_goes_partial N P hP hl g hr with h | ⟨u, i, a, s, l, td, hi, ha, hs, hf⟩
      · exact ⟨0, g, .none, h⟩
      · have := own_less hT (win_run_inv hP hl hr) ⟨u, i, a, s, l, td, hi, ha, hs, hf, rfl⟩
        omega
    | succ n ih =>
      intro g hr hn
      rcases win_nested_program_goes_partial N P hP hl g hr with h | ⟨u, i, a, s, l, td, hi, ha, hs, hf⟩
      · exact ⟨0, g, .none, h⟩
      · have ho : WinOwn N g _ := ⟨u, i, a, s, l, td, hi, ha, hs, hf, rfl⟩
        have := own_less hT (win_run_inv hP hl hr) ho
        obtain ⟨k, g', h1, h2⟩ := ih _ (hr.next (own_next ho)) (by omega)
        exact ⟨k + 1, g', .more ho h1, h2⟩
  exact key _ g hr (Nat.le_refl _)

/-- Two threads with a lock in a lock; one has the outer mutex and the other waits for it. -/
example : (∀ t, Nested 2 (fun _ => 0) (same t)) ∧ (∀ t, 3 ≤ t → same t = []) ∧
    ∃ g, WinRun 2 same g ∧ (g.s 0).pc 2 ≠ .idle ∧ ¬ WinFinished 2 g := by
  have hp : ∃ g, winPlay 2 ⟨fun _ => WinMutex.init, fun _ => [], same⟩ (winTakes 1 0 ++ winWaits 2 0) = some g ∧
      (g.s 0).pc 2 = .lWait 0 infinite := ⟨_, rfl, rfl⟩
  obtain ⟨g, hg, h1⟩ := hp
  have h2 : (g.s 0).pc 2 ≠ .idle := by rw [h1]; exact (fun e => nomatch e)
  refine ⟨same_nested, fun t ht => ?_, g, winPlay_run _ .start hg, h2, fun hf => h2 ((hf 2).2 0 (by decide)).1⟩
  match t, ht with
  | k + 3, _ => rfl

end Verif.Client.Nest
