import Verif.Client.NestWinModel
import Verif.Client.PropsNest

/-!
# Programs that nest locks in a fixed order do not get stuck, Windows branch
-/

namespace Verif.Client.Nest

open Verif.Mutex (Label infinite)
open Verif.Mutex.Spec (Phase phase move who depth Shallow)
open Verif.WinMutex (Clean)
open Verif.WinMutex.Spec (Orderly)
open Verif.Client.Order (Asking WinOrdered WinGoes WinOutside win_ordered_locks_go_partial)

/-! ## What is claimed -/

/-- All threads have done everything, are outside the calls, and hold nothing. -/
def WinFinished (N : Nat) (g : WinG) : Prop :=
  ∀ t, g.todo t = [] ∧ ∀ i, i < N → (g.s i).pc t = .idle ∧ ∀ o, depth t o 0 (g.ls i) = 0

/-- Thread `u` can go on with its script: a step inside a call, or the next call, `Lock` without a time limit. -/
def WinCanMove (N : Nat) (g : WinG) (u : Nat) : Prop :=
  ∃ i a s l td, i < N ∧ (a = .run u ∨ a = .callLock u 0 infinite ∨ a = .callUnlock u 0 false) ∧
    WinMutex.step (g.s i) a = .ok (some (s, l)) ∧ follow i g.todo l = some td

/-! ## Proofs -/

theorem win_exec_snoc : ∀ (as : List WinMutex.Act) {c c1 c2 : WinMutex.S} {ls l : List Label} {a : WinMutex.Act},
    WinMutex.exec c as = .ok (c1, ls) → WinMutex.step c1 a = .ok (some (c2, l)) →
    WinMutex.exec c (as ++ [a]) = .ok (c2, ls ++ l)
  | [], c, c1, c2, ls, l, a, h, hs => by
    cases h
    rw [List.nil_append, WinMutex.exec, hs, ok_bind]
    simp [WinMutex.exec, ok_bind]
  | b :: as, c, c1, c2, ls, l, a, h, hs => by
    rw [WinMutex.exec] at h
    rw [List.cons_append, WinMutex.exec]
    cases e : WinMutex.step c b with
    | error e' => rw [e] at h; cases h
    | ok r =>
      rw [e, ok_bind] at h
      rw [ok_bind]
      cases r with
      | none => exact win_exec_snoc as h hs
      | some x =>
        obtain ⟨c3, l3⟩ := x
        cases e2 : WinMutex.exec c3 as with
        | error e' => simp only [e2, error_bind] at h; cases h
        | ok y =>
          obtain ⟨c4, l4⟩ := y
          simp only [e2, ok_bind] at h
          cases h
          simp only [win_exec_snoc as e2 hs, ok_bind, List.append_assoc]

/-- What is known about the executions of the mutexes. -/
structure WinPath (s : WinMutex.S) (ls : List Label) (as : List WinMutex.Act) : Prop where
  exec : WinMutex.exec WinMutex.init as = .ok (s, ls)
  alive : ∀ a ∈ as, ends a = false
  clean : Clean as

theorem WinPath.orderly {s : WinMutex.S} {ls : List Label} {as : List WinMutex.Act} (h : WinPath s ls as) : Orderly as := by
  intro p t q e
  have := h.alive (.die t) (by rw [e]; simp)
  cases this

theorem WinPath.snoc {s s' : WinMutex.S} {ls l : List Label} {as : List WinMutex.Act} {a : WinMutex.Act}
    (h : WinPath s ls as) (ha : ends a = false) (hf : WinMutex.faults s a = false)
    (hs : WinMutex.step s a = .ok (some (s', l))) : WinPath s' (ls ++ l) (as ++ [a]) := by
  refine ⟨win_exec_snoc as h.exec hs, fun b hb => ?_, fun p x q e s1 l1 he => ?_⟩
  · rcases List.mem_append.mp hb with hb | hb
    · exact h.alive b hb
    · rw [List.mem_singleton] at hb; subst hb; exact ha
  · rcases List.append_eq_append_iff.1 e with ⟨y, hp, hy⟩ | ⟨y, has, hy⟩
    · cases y with
      | nil =>
        rw [List.append_nil] at hp
        subst hp
        rw [List.nil_append] at hy
        cases hy
        rw [h.exec] at he
        cases he
        exact hf
      | cons z y =>
        rw [List.cons_append] at hy
        have := congrArg List.length hy
        simp at this
    · cases y with
      | nil =>
        rw [List.append_nil] at has
        subst has
        rw [List.nil_append] at hy
        cases hy
        rw [h.exec] at he
        cases he
        exact hf
      | cons z y =>
        rw [List.cons_append] at hy
        cases hy
        exact h.clean p x y has s1 l1 he

/-- What holds in all states the program reaches. -/
structure WinInv (N : Nat) (P : Nat → List Op) (g : WinG) : Prop where
  run : ∀ i, ∃ as, WinPath (g.s i) (g.ls i) as
  j : J N g.ls g.todo
  len : ∀ t, (g.todo t).length ≤ (P t).length
  shallow : ∀ i, i < N → Shallow (g.ls i)

theorem win_run_inv {N : Nat} {P : Nat → List Op} (hP : ∀ t, Nested N (fun _ => 0) (P t))
    (hl : ∀ t, (P t).length < 4294967293) {g : WinG} (hr : WinRun N P g) : WinInv N P g := by
  induction hr with
  | start =>
    refine ⟨fun _ => ⟨[], rfl, (fun _ h => nomatch h), fun p x q e => ?_⟩, nested_start hP, fun _ => Nat.le_refl _, ?_⟩
    · have := congrArg List.length e
      simp at this
    · intro i _ q hq t o
      rw [List.prefix_nil.mp hq]
      exact (by decide : 0 < 4294967295)
  | @next g g' hr hn h =>
    obtain ⟨i, a, c, l, td, hi, ha, hfa, hs, hf, rfl⟩ := hn
    obtain ⟨as, hex⟩ := h.run i
    have hex' := hex.snoc ha hfa hs
    have hki : Shallow (g.ls i ++ l) := by
      intro q hq t o
      obtain ⟨r, e⟩ := hq
      rcases List.append_eq_append_iff.1 e with ⟨x, e1, e2⟩ | ⟨x, rfl, rfl⟩
      · exact h.shallow i hi q ⟨x, e1.symm⟩ t o
      · rw [Mutex.depth_append]
        have h2 := Client.depth_le t o x (depth t o 0 (g.ls i))
        have h3 := win_short hs
        rw [List.length_append] at h3
        have h1 : depth t o 0 (g.ls i) ≤ (P t).length := by
          by_cases ho : o = 0
          · subst ho
            exact Nat.le_trans (nested_le _ (h.j.nested t) i hi) (h.len t)
          · rw [h.j.obj t i o ho]; exact Nat.zero_le _
        have := hl t
        omega
    refine ⟨fun k => ?_, J_follow l h.j hf
      (WinMutex.win_mutex_linearizable _ hex'.orderly c _ hex'.exec hki).2,
      fun t => Nat.le_trans (follow_len l hf t) (h.len t), fun k hk => ?_⟩
    · by_cases e : k = i
      · subst e
        exact ⟨as ++ [a], by dsimp only; rw [put_self, put_self]; exact hex'⟩
      · dsimp only; rw [put_ne _ _ e, put_ne _ _ e]; exact h.run k
    · by_cases e : k = i
      · subst e; dsimp only; rw [put_self]; exact hki
      · dsimp only; rw [put_ne _ _ e]; exact h.shallow k hk

theorem win_quiet {s s' : WinMutex.S} {u : Nat} {l : List Label} (h : WinMutex.run s u = .ok (some (s', l))) :
    ∀ y ∈ l, quiet y = true := by
  unfold WinMutex.run WinMutex.enter WinMutex.leave at h
  grind [quiet]

/-- A thread outside all calls makes the next call of its script. -/
theorem win_call_next {N : Nat} {P : Nat → List Op} {g : WinG} (h : WinInv N P g) {u : Nat} (hu : g.todo u ≠ [])
    (ho : WinOutside N g.s u) : WinCanMove N g u := by
  have hn := h.j.nested u
  cases e : g.todo u with
  | nil => exact absurd e hu
  | cons op r =>
    rw [e] at hn
    cases op with
    | lock i =>
      refine ⟨i, .callLock u 0 infinite, (g.s i).goto u (.lCs 0 infinite), [.callLock u 0 infinite], g.todo, hn.1,
        Or.inr (Or.inl rfl), ?_, ?_⟩
      · simp [WinMutex.step, ho i hn.1]
      · simp [follow, see, e]
    | unlock i =>
      refine ⟨i, .callUnlock u 0 false, (g.s i).goto u (.uCs 0 false), [.callUnlock u 0 false], g.todo, hn.1,
        Or.inr (Or.inr rfl), ?_, ?_⟩
      · simp [WinMutex.step, ho i hn.1]
      · simp [follow, see, e]

theorem win_inv_ordered {N : Nat} {P : Nat → List Op} {g : WinG} (h : WinInv N P g) : WinOrdered N g.ls := by
  intro t i j o p _ hj ha hd
  obtain ⟨q, hq, hc⟩ := h.j.cur t i
  have ha' : phase t (some .out) (g.ls i) = some (.locking o) := ha
  rw [ha'] at hq
  cases hq
  obtain ⟨rfl, hh⟩ := hc
  have hp : p = 0 := Classical.byContradiction fun hp => by rw [h.j.obj t j p hp] at hd; omega
  subst hp
  have hn := h.j.nested t
  cases e : g.todo t with
  | nil => rw [e] at hh; cases hh
  | cons op r =>
    rw [e] at hh hn
    cases hh
    exact hn.2.1 j hj hd

/-- Programs whose threads nest their locks in a fixed order are never stuck, Windows: in every state they can reach,
everything is finished or some thread can go on. -/
theorem win_nested_program_goes_partial (N : Nat) (P : Nat → List Op) (hP : ∀ t, Nested N (fun _ => 0) (P t))
    (hl : ∀ t, (P t).length < 4294967293) (g : WinG) (hr : WinRun N P g) :
    WinFinished N g ∨ ∃ u, WinCanMove N g u := by
  have h := win_run_inv hP hl hr
  by_cases hin : ∃ t i, i < N ∧ (g.s i).pc t ≠ .idle
  · obtain ⟨t, i, hi, hin⟩ := hin
    obtain ⟨as, has⟩ := Classical.axiomOfChoice h.run
    rcases win_ordered_locks_go_partial N as g.s g.ls (fun i _ => (has i).exec) (fun i hi => h.shallow i hi)
      (fun i _ => (has i).orderly) (fun i _ => (has i).clean) (win_inv_ordered h) t i hi hin with
      ⟨j, u, hj, ⟨c, l⟩, hs⟩ | ⟨j, u, o, hj, hd, hout⟩
    · obtain ⟨td, htd⟩ := follow_quiet (i := j) l g.todo (win_quiet hs)
      exact Or.inr ⟨u, j, .run u, c, l, td, hj, Or.inl rfl, hs, htd⟩
    · refine Or.inr ⟨u, win_call_next h (fun e => ?_) hout⟩
      have ho : o = 0 := Classical.byContradiction fun ho => by rw [h.j.obj u j o ho] at hd; omega
      subst ho
      have hn := h.j.nested u
      rw [e] at hn
      have := hn j hj
      dsimp only at this
      omega
  · have hidle : ∀ t, WinOutside N g.s t := fun t i hi => Classical.byContradiction fun hx => hin ⟨t, i, hi, hx⟩
    by_cases ht : ∃ t, g.todo t ≠ []
    · obtain ⟨t, ht⟩ := ht
      exact Or.inr ⟨t, win_call_next h ht (hidle t)⟩
    · refine Or.inl fun t => ?_
      have e : g.todo t = [] := Classical.byContradiction fun hx => ht ⟨t, hx⟩
      refine ⟨e, fun i hi => ⟨hidle t i hi, fun o => ?_⟩⟩
      by_cases ho : o = 0
      · subst ho
        have hn := h.j.nested t
        rw [e] at hn
        exact hn i hi
      · exact h.j.obj t i o ho

/-! ## Cases -/

/-- The program takes the given steps. -/
def winPlay (N : Nat) (g : WinG) : List (Nat × WinMutex.Act) → Option WinG
  | [] => some g
  | (i, a) :: r =>
    if i < N ∧ ends a = false ∧ WinMutex.faults (g.s i) a = false then
      match WinMutex.step (g.s i) a with
      | .ok (some (c, l)) =>
        match follow i g.todo l with
        | some td => winPlay N ⟨put g.s i c, put g.ls i (g.ls i ++ l), td⟩ r
        | none => none
      | _ => none
    else none

theorem winPlay_run {N : Nat} {P : Nat → List Op} : ∀ (r : List (Nat × WinMutex.Act)) {g g' : WinG}, WinRun N P g →
    winPlay N g r = some g' → WinRun N P g'
  | [], g, g', hr, h => by cases h; exact hr
  | (i, a) :: r, g, g', hr, h => by
    unfold winPlay at h
    split at h
    · rename_i hc
      split at h
      · rename_i c l hs
        split at h
        · rename_i td hf
          exact winPlay_run r (hr.next ⟨i, a, c, l, td, hc.1, hc.2.1, hc.2.2, hs, hf, rfl⟩) h
        · cases h
      · cases h
    · cases h

/-- Thread `t` locks mutex `i`, which is free. -/
def winTakes (t i : Nat) : List (Nat × WinMutex.Act) :=
  ([.callLock t 0 infinite] ++ List.replicate 8 (.run t) : List WinMutex.Act).map (Prod.mk i)

/-- Thread `t` waits for mutex `i`. -/
def winWaits (t i : Nat) : List (Nat × WinMutex.Act) :=
  ([.callLock t 0 infinite] ++ List.replicate 3 (.run t) : List WinMutex.Act).map (Prod.mk i)

set_option maxRecDepth 20000 in
/-- In opposite orders the program gets stuck: each thread has one mutex and waits for the other. -/
theorem win_opposite_stuck : ∃ g, WinRun 2 opposite g ∧ ¬ WinFinished 2 g ∧ ¬ ∃ u, WinCanMove 2 g u := by
  have hp : ∃ g, winPlay 2 ⟨fun _ => WinMutex.init, fun _ => [], opposite⟩
      (winTakes 1 0 ++ winTakes 2 1 ++ winWaits 1 1 ++ winWaits 2 0) = some g ∧
      (∀ u, WinMutex.run (g.s 0) u = .ok none) ∧ (∀ u, WinMutex.run (g.s 1) u = .ok none) ∧
      (g.s 0).pc 2 = .lWait 0 infinite ∧ (g.s 1).pc 1 = .lWait 0 infinite ∧
      (g.todo 1).head? = some (.lock 1) ∧ (g.todo 2).head? = some (.lock 0) ∧
      ∀ u, u ≠ 1 → u ≠ 2 → g.todo u = [] := by
    refine ⟨_, rfl, ?_, ?_, rfl, rfl, rfl, rfl, ?_⟩
    · intro u
      match u with
      | 0 | 1 | 2 | k + 3 => rfl
    · intro u
      match u with
      | 0 | 1 | 2 | k + 3 => rfl
    · intro u h1 h2
      match u with
      | 0 | k + 3 => rfl
      | 1 => exact absurd rfl h1
      | 2 => exact absurd rfl h2
  obtain ⟨g, hg, r0, r1, h0, h1, t1, t2, tr⟩ := hp
  refine ⟨g, winPlay_run _ .start hg, fun hf => ?_, ?_⟩
  · have := (hf 1).1; rw [this] at t1; cases t1
  · have hcall : ∀ u i op, i < 2 → (g.todo u).head? = some op → op = .lock i ∨ op = .unlock i →
        (g.s i).pc u = .lWait 0 infinite := by
      intro u i op hi ht ho
      by_cases e1 : u = 1
      · subst e1
        rw [t1] at ht
        cases ht
        rcases ho with ho | ho <;> cases ho
        exact h1
      · by_cases e2 : u = 2
        · subst e2
          rw [t2] at ht
          cases ht
          rcases ho with ho | ho <;> cases ho
          exact h0
        · rw [tr u e1 e2] at ht; cases ht
    rintro ⟨u, i, a, c, l, td, hi, rfl | rfl | rfl, hs, hf⟩
    · match i, hi with
      | 0, _ => have := r0 u; change WinMutex.run _ u = _ at hs; rw [this] at hs; cases hs
      | 1, _ => have := r1 u; change WinMutex.run _ u = _ at hs; rw [this] at hs; cases hs
    · have hl : l = [.callLock u 0 infinite] := by
        simp only [WinMutex.step] at hs
        grind
      subst hl
      simp only [follow, see] at hf
      split at hf
      · rename_i e
        have := hcall u i _ hi e.2 (Or.inl rfl)
        simp [WinMutex.step, this] at hs
      · cases hf
    · have hl : l = [.callUnlock u 0 false] := by
        simp only [WinMutex.step] at hs
        grind
      subst hl
      simp only [follow, see] at hf
      split at hf
      · rename_i e
        have := hcall u i _ hi e.2.2 (Or.inr rfl)
        simp [WinMutex.step, this] at hs
      · cases hf

set_option maxRecDepth 20000 in
/-- In the same order: thread 1 has both mutexes and thread 2 waits. -/
example : (∀ t, Nested 2 (fun _ => 0) (same t)) ∧ (∀ t, (same t).length < 4294967293) ∧
    ∃ g, WinRun 2 same g ∧ (g.s 0).pc 2 ≠ .idle ∧ depth 1 0 0 (g.ls 0) = 1 ∧ depth 1 0 0 (g.ls 1) = 1 := by
  have hp : ∃ g, winPlay 2 ⟨fun _ => WinMutex.init, fun _ => [], same⟩ (winTakes 1 0 ++ winWaits 2 0 ++ winTakes 1 1) =
      some g ∧
      (g.s 0).pc 2 = .lWait 0 infinite ∧ depth 1 0 0 (g.ls 0) = 1 ∧ depth 1 0 0 (g.ls 1) = 1 :=
    ⟨_, rfl, rfl, rfl, rfl⟩
  obtain ⟨g, hg, h1, h2⟩ := hp
  refine ⟨same_nested, ?_, g, winPlay_run _ .start hg, by rw [h1]; exact (fun e => nomatch e), h2⟩
  intro t
  match t with
  | 0 | 1 | 2 => exact (by decide)
  | k + 3 => show 0 < 4294967293; decide

end Verif.Client.Nest
