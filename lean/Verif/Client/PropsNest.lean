import Verif.Client.NestModel
import Verif.Mutex.Wrap

/-!
# Programs that nest locks in a fixed order do not get stuck
-/

namespace Verif.Client.Nest

open Verif.Mutex (Label)
open Verif.Mutex.Spec (Phase phase move who depth Shallow)
open Verif.Mutex.Full (Act S exec init step)
open Verif.Client.Order (Asking Ordered Goes Outside ordered_locks_go_partial)

/-! ## What is claimed -/

/-- A script makes sense for a thread that has locked mutex `j` `h j` times: it locks upwards (or again), unlocks only what
it has, and has nothing in the end. -/
def Nested (N : Nat) (h : Nat → Nat) : List Op → Prop
  | [] => ∀ j, j < N → h j = 0
  | .lock i :: r => i < N ∧ (∀ j, j < N → 0 < h j → j ≤ i) ∧ Nested N (put h i (h i + 1)) r
  | .unlock i :: r => i < N ∧ 0 < h i ∧ Nested N (put h i (h i - 1)) r

/-- All threads have done everything, are outside the calls, and hold nothing. -/
def Finished (N : Nat) (g : G) : Prop :=
  ∀ t, g.todo t = [] ∧ ∀ i, i < N → (g.c i).m.pc t = .idle ∧ ∀ o, depth t o 0 (g.ls i) = 0

/-- Actions of thread `u` itself, none of them a failing system call, a time running out or a wake-up without reason: a
step inside a call, or the next call of its script, `Lock` without a time limit. -/
def Own (u : Nat) (a : Act) : Prop :=
  (a = .mutex (.run u) ∨ a = .enter u ∨ ∃ pick, a = .run u pick) ∨
    a = .mutex (.callLock u 0 Mutex.infinite) ∨ a = .mutex (.callUnlock u 0 false)

/-- Thread `u` can go on with its script. -/
def CanMove (N : Nat) (g : G) (u : Nat) : Prop :=
  ∃ i a c l td, i < N ∧ Own u a ∧ step (g.c i) a = .ok (some (c, l)) ∧ follow i g.todo l = some td

/-! ## Proofs -/

/-- What a thread is doing in a mutex is what its script says. -/
def Cur (i : Nat) (td : List Op) : Phase → Prop
  | .out => True
  | .locking o | .locked o | .lockFailed o => o = 0 ∧ td.head? = some (.lock i)
  | .unlocking o all | .left o all | .unlockFailed o all => o = 0 ∧ all = false ∧ td.head? = some (.unlock i)

structure J (N : Nat) (L : Nat → List Label) (td : Nat → List Op) : Prop where
  nested : ∀ t, Nested N (fun j => depth t 0 0 (L j)) (td t)
  obj : ∀ t j o, o ≠ 0 → depth t o 0 (L j) = 0
  cur : ∀ t i, ∃ p, phase t (some .out) (L i) = some p ∧ Cur i (td t) p

theorem put_same (h : Nat → Nat) (i : Nat) : put h i (h i) = h := by
  funext j
  unfold put
  split
  · rename_i e; rw [e]
  · rfl

theorem cur_other {i k : Nat} {td : List Op} {p q : Phase} (hik : k ≠ i) (hp : p ≠ .out) (hi : Cur i td p)
    (hk : Cur k td q) : q = .out := by
  have h1 : td.head? = some (.lock i) ∨ td.head? = some (.unlock i) := by
    cases p <;> first | exact absurd rfl hp | exact Or.inl hi.2 | exact Or.inr hi.2.2
  have h2 : q = .out ∨ td.head? = some (.lock k) ∨ td.head? = some (.unlock k) := by
    cases q <;> first | exact Or.inl rfl | exact Or.inr (Or.inl hk.2) | exact Or.inr (Or.inr hk.2.2)
  rcases h2 with h2 | h2 | h2
  · exact h2
  all_goals
    rcases h1 with e | e <;> rw [e] at h2 <;> simp only [Option.some.injEq, Op.lock.injEq, Op.unlock.injEq, reduceCtorEq] at h2
    exact absurd h2.symm hik

theorem see_other {i : Nat} {td td' : Nat → List Op} {x : Label} {t : Nat} (h : see i td x = some td') (ht : who x ≠ t) :
    td' t = td t := by
  cases x with
  | callLock u o w => simp only [see, Option.ite_none_right_eq_some, Option.some.injEq] at h; rw [h.2]
  | callUnlock u o w => simp only [see, Option.ite_none_right_eq_some, Option.some.injEq] at h; rw [h.2]
  | retLock u o r =>
    cases r with
    | false => cases h; rfl
    | true => cases h; exact put_ne _ _ (fun e => ht e.symm)
  | retUnlock u o all r =>
    cases r with
    | false => cases h; rfl
    | true => cases h; exact put_ne _ _ (fun e => ht e.symm)
  | _ => cases h; rfl

theorem own {N i : Nat} {td td' : Nat → List Op} {x : Label} {p p' : Phase} {h : Nat → Nat}
    (hm : move p x = some p') (hc : Cur i (td (who x)) p) (hs : see i td x = some td')
    (hv : Nested N h (td (who x))) :
    Nested N (put h i (depth (who x) 0 (h i) [x])) (td' (who x)) ∧ Cur i (td' (who x)) p' ∧
      (∀ o, o ≠ 0 → depth (who x) o 0 [x] = 0) ∧ (td' (who x) = td (who x) ∨ p ≠ .out) := by
  cases x with
  | callLock u o w =>
    simp only [see, Option.ite_none_right_eq_some, Option.some.injEq] at hs
    obtain ⟨e, rfl⟩ := hs
    cases p <;> cases hm
    exact ⟨by show Nested N (put h i (h i)) _; rw [put_same]; exact hv,
      ⟨e.1, e.2⟩, fun _ _ => rfl, Or.inl rfl⟩
  | callUnlock u o all =>
    simp only [see, Option.ite_none_right_eq_some, Option.some.injEq] at hs
    obtain ⟨e, rfl⟩ := hs
    cases p <;> cases hm
    exact ⟨by show Nested N (put h i (h i)) _; rw [put_same]; exact hv,
      ⟨e.1, e.2.1, e.2.2⟩, fun _ _ => rfl, Or.inl rfl⟩
  | retLock u o r =>
    cases r with
    | false =>
      cases hs
      refine ⟨by show Nested N (put h i (h i)) _; rw [put_same]; exact hv,
        ?_, fun _ _ => rfl, Or.inl rfl⟩
      cases p <;> simp only [move, Option.ite_none_right_eq_some, Option.some.injEq, reduceCtorEq] at hm
      rw [← hm.2]
      trivial
    | true =>
      cases hs
      cases p <;> simp only [move, Option.ite_none_right_eq_some, Option.some.injEq, reduceCtorEq] at hm
      obtain ⟨rfl, rfl⟩ := hm
      obtain ⟨rfl, hh⟩ := hc
      change (td u).head? = some (.lock i) at hh
      change Nested N h (td u) at hv
      cases htd : td u with
      | nil => rw [htd] at hh; cases hh
      | cons a r =>
        rw [htd] at hh hv
        cases hh
        refine ⟨?_, trivial, fun o ho => ?_, Or.inr (fun e => nomatch e)⟩
        · show Nested N (put h i (depth u 0 (h i) [.retLock u 0 true])) (put td u (Op.lock i :: r).tail u)
          rw [put_self]
          have : depth u 0 (h i) [.retLock u 0 true] = h i + 1 := by simp [depth]
          rw [this]
          exact hv.2.2
        · show depth u o 0 [.retLock u 0 true] = 0
          have : ¬ 0 = o := fun e => ho e.symm
          simp [depth, this]
  | retUnlock u o all r =>
    cases r with
    | false =>
      cases hs
      refine ⟨by show Nested N (put h i (h i)) _; rw [put_same]; exact hv,
        ?_, fun _ _ => rfl, Or.inl rfl⟩
      cases p <;> simp only [move, Option.ite_none_right_eq_some, Option.some.injEq, reduceCtorEq] at hm
      rw [← hm.2]
      trivial
    | true =>
      cases hs
      cases p <;> simp only [move, Option.ite_none_right_eq_some, Option.some.injEq, reduceCtorEq] at hm
      obtain ⟨⟨rfl, rfl⟩, rfl⟩ := hm
      obtain ⟨rfl, rfl, hh⟩ := hc
      change (td u).head? = some (.unlock i) at hh
      change Nested N h (td u) at hv
      cases htd : td u with
      | nil => rw [htd] at hh; cases hh
      | cons a r =>
        rw [htd] at hh hv
        cases hh
        refine ⟨?_, trivial, fun o ho => ?_, Or.inr (fun e => nomatch e)⟩
        · show Nested N (put h i (depth u 0 (h i) [.retUnlock u 0 false true])) (put td u (Op.unlock i :: r).tail u)
          rw [put_self]
          have : depth u 0 (h i) [.retUnlock u 0 false true] = h i - 1 := by simp [depth]
          rw [this]
          exact hv.2.2
        · show depth u o 0 [.retUnlock u 0 false true] = 0
          simp [depth]
  | _ =>
    cases hs
    refine ⟨by show Nested N (put h i (h i)) _; rw [put_same]; exact hv, ?_, fun _ _ => rfl, Or.inl rfl⟩
    cases p <;> simp only [move, Option.ite_none_right_eq_some, Option.some.injEq, reduceCtorEq] at hm
    all_goals first
      | (obtain ⟨_, rfl⟩ := hm; exact hc)
      | (rw [← hm.2]; exact hc)

/-- One label. -/
theorem J_one {N i : Nat} {L : Nat → List Label} {td td' : Nat → List Op} {x : Label} (h : J N L td)
    (hs : see i td x = some td') (hp : ∀ t, (phase t (some .out) (L i ++ [x])).isSome = true) :
    J N (put L i (L i ++ [x])) td' := by
  obtain ⟨p, hp1, hc1⟩ := h.cur (who x) i
  have hmv : ∃ p', move p x = some p' := by
    have := hp (who x)
    rw [Mutex.phase_append, hp1, phase_self rfl] at this
    cases e : (some p).bind (move · x) with
    | none => rw [e] at this; cases this
    | some p' => exact ⟨p', e⟩
  obtain ⟨p', hm⟩ := hmv
  obtain ⟨h1, h2, h3, h4⟩ := own hm hc1 hs (h.nested (who x))
  refine ⟨fun t => ?_, fun t j o ho => ?_, fun t k => ?_⟩
  · by_cases ht : who x = t
    · subst ht
      have : (fun j => depth (who x) 0 0 (put L i (L i ++ [x]) j)) =
          put (fun j => depth (who x) 0 0 (L j)) i (depth (who x) 0 (depth (who x) 0 0 (L i)) [x]) := by
        funext j
        by_cases e : j = i
        · subst e; rw [put_self, put_self, Mutex.depth_append]
        · rw [put_ne _ _ e, put_ne _ _ e]
      rw [this]
      exact h1
    · have : (fun j => depth t 0 0 (put L i (L i ++ [x]) j)) = fun j => depth t 0 0 (L j) := by
        funext j
        by_cases e : j = i
        · subst e; rw [put_self, Mutex.depth_append, depth_other ht]
        · rw [put_ne _ _ e]
      rw [this, see_other hs ht]
      exact h.nested t
  · by_cases e : j = i
    · subst e
      rw [put_self, Mutex.depth_append, h.obj t j o ho]
      by_cases ht : who x = t
      · subst ht; exact h3 o ho
      · exact depth_other ht
    · rw [put_ne _ _ e]; exact h.obj t j o ho
  · by_cases ht : who x = t
    · subst ht
      by_cases e : k = i
      · subst e
        exact ⟨p', by rw [put_self, Mutex.phase_append, hp1, phase_self rfl]; exact hm, h2⟩
      · obtain ⟨q, hq, hcq⟩ := h.cur (who x) k
        refine ⟨q, by rw [put_ne _ _ e]; exact hq, ?_⟩
        rcases h4 with h4 | h4
        · rw [h4]; exact hcq
        · rw [cur_other e h4 hc1 hcq]; trivial
    · obtain ⟨q, hq, hcq⟩ := h.cur t k
      refine ⟨q, ?_, by rw [see_other hs ht]; exact hcq⟩
      by_cases e : k = i
      · subst e; rw [put_self, Mutex.phase_append, hq, phase_other ht]
      · rw [put_ne _ _ e]; exact hq

theorem put_put {α : Type} (f : Nat → α) (i : Nat) (a b : α) : put (put f i a) i b = put f i b := by
  funext j; unfold put; split <;> rfl

theorem J_follow {N i : Nat} : ∀ (l : List Label) {L : Nat → List Label} {td td' : Nat → List Op}, J N L td →
    follow i td l = some td' → (∀ t, (phase t (some .out) (L i ++ l)).isSome = true) →
    J N (put L i (L i ++ l)) td'
  | [], L, td, td', h, hs, _ => by
    cases hs
    have : put L i (L i ++ []) = L := by
      funext j
      unfold put
      split
      · rename_i e; rw [e, List.append_nil]
      · rfl
    rw [this]; exact h
  | x :: l, L, td, td', h, hs, hp => by
    unfold follow at hs
    cases e : see i td x with
    | none => rw [e] at hs; cases hs
    | some td1 =>
      rw [e] at hs
      have hp' : ∀ t, (phase t (some .out) ((L i ++ [x]) ++ l)).isSome = true := by
        intro t; rw [List.append_assoc]; exact hp t
      have h1 := J_one h e (fun t => phase_before (hp' t))
      have h2 := J_follow l h1 hs (by rw [put_self]; exact hp')
      rw [put_self, put_put, List.append_assoc] at h2
      exact h2

theorem nested_start {N : Nat} {P : Nat → List Op} (hP : ∀ t, Nested N (fun _ => 0) (P t)) : J N (fun _ => []) P :=
  ⟨hP, fun _ _ _ _ => rfl, fun _ _ => ⟨.out, rfl, trivial⟩⟩

theorem exec_snoc : ∀ (as : List Act) {c c1 c2 : S} {ls l : List Label} {a : Act}, exec c as = .ok (c1, ls) →
    step c1 a = .ok (some (c2, l)) → exec c (as ++ [a]) = .ok (c2, ls ++ l)
  | [], c, c1, c2, ls, l, a, h, hs => by
    cases h
    rw [List.nil_append, exec, hs, ok_bind]
    simp [exec, ok_bind]
  | b :: as, c, c1, c2, ls, l, a, h, hs => by
    rw [exec] at h
    rw [List.cons_append, exec]
    cases e : step c b with
    | error e' => rw [e] at h; cases h
    | ok r =>
      rw [e, ok_bind] at h
      rw [ok_bind]
      cases r with
      | none => exact exec_snoc as h hs
      | some x =>
        obtain ⟨c3, l3⟩ := x
        cases e2 : exec c3 as with
        | error e' => simp only [e2, error_bind] at h; cases h
        | ok y =>
          obtain ⟨c4, l4⟩ := y
          simp only [e2, ok_bind] at h
          cases h
          simp only [exec_snoc as e2 hs, ok_bind, List.append_assoc]

/-- What holds in all states the program reaches. -/
structure Inv (N : Nat) (P : Nat → List Op) (g : G) : Prop where
  run : ∀ i, ∃ as, exec init as = .ok (g.c i, g.ls i) ∧ ∀ t, Act.fail t ∉ as
  j : J N g.ls g.todo
  len : ∀ t, (g.todo t).length ≤ (P t).length
  shallow : ∀ i, i < N → Shallow (g.ls i)

theorem nested_le {N : Nat} : ∀ (r : List Op) {h : Nat → Nat}, Nested N h r → ∀ j, j < N → h j ≤ r.length
  | [], h, hn, j, hj => Nat.le_of_eq (hn j hj)
  | .lock i :: r, h, hn, j, hj => by
    have := nested_le r hn.2.2 j hj
    rw [List.length_cons]
    by_cases e : j = i
    · subst e; rw [put_self] at this; omega
    · rw [put_ne _ _ e] at this; omega
  | .unlock i :: r, h, hn, j, hj => by
    have := nested_le r hn.2.2 j hj
    rw [List.length_cons]
    by_cases e : j = i
    · subst e; rw [put_self] at this; omega
    · rw [put_ne _ _ e] at this; omega

theorem see_len {i : Nat} {td td' : Nat → List Op} {x : Label} (h : see i td x = some td') (t : Nat) :
    (td' t).length ≤ (td t).length := by
  by_cases ht : who x = t
  · subst ht
    cases x with
    | callLock u o w =>
      simp only [see, Option.ite_none_right_eq_some, Option.some.injEq] at h; rw [h.2]; exact Nat.le_refl _
    | callUnlock u o w =>
      simp only [see, Option.ite_none_right_eq_some, Option.some.injEq] at h; rw [h.2]; exact Nat.le_refl _
    | retLock u o r =>
      cases r with
      | false => cases h; exact Nat.le_refl _
      | true =>
        cases h
        show (put td u (td u).tail u).length ≤ (td u).length
        rw [put_self, List.length_tail]; omega
    | retUnlock u o all r =>
      cases r with
      | false => cases h; exact Nat.le_refl _
      | true =>
        cases h
        show (put td u (td u).tail u).length ≤ (td u).length
        rw [put_self, List.length_tail]; omega
    | _ => cases h; exact Nat.le_refl _
  · rw [see_other h ht]; exact Nat.le_refl _

theorem follow_len {i : Nat} : ∀ (l : List Label) {td td' : Nat → List Op}, follow i td l = some td' → ∀ t,
    (td' t).length ≤ (td t).length
  | [], td, td', h, t => by cases h; exact Nat.le_refl _
  | x :: l, td, td', h, t => by
    unfold follow at h
    cases e : see i td x with
    | none => rw [e] at h; cases h
    | some td1 => rw [e] at h; exact Nat.le_trans (follow_len l h t) (see_len e t)

theorem run_inv {N : Nat} {P : Nat → List Op} (hP : ∀ t, Nested N (fun _ => 0) (P t))
    (hl : ∀ t, (P t).length < 4294967293) {g : G} (hr : Run N P g) : Inv N P g := by
  induction hr with
  | start =>
    refine ⟨fun _ => ⟨[], rfl, fun _ h => nomatch h⟩, nested_start hP, fun _ => Nat.le_refl _, ?_⟩
    intro i _ q hq t o
    rw [List.prefix_nil.mp hq]
    exact (by decide : 0 < 4294967295)
  | @next g g' hr hn h =>
    obtain ⟨i, a, c, l, td, hi, ha, hs, hf, rfl⟩ := hn
    obtain ⟨as, hex, hfa⟩ := h.run i
    have hex' := exec_snoc as hex hs
    have hki : Shallow (g.ls i ++ l) := by
      intro q hq t o
      obtain ⟨r, e⟩ := hq
      rcases List.append_eq_append_iff.1 e with ⟨x, e1, e2⟩ | ⟨x, rfl, rfl⟩
      · exact h.shallow i hi q ⟨x, e1.symm⟩ t o
      · rw [Mutex.depth_append]
        have h2 := Client.depth_le t o x (depth t o 0 (g.ls i))
        have h3 := posix_short hs
        rw [List.length_append] at h3
        have h1 : depth t o 0 (g.ls i) ≤ (P t).length := by
          by_cases ho : o = 0
          · subst ho
            exact Nat.le_trans (nested_le _ (h.j.nested t) i hi) (h.len t)
          · rw [h.j.obj t i o ho]; exact Nat.zero_le _
        have := hl t
        omega
    refine ⟨fun k => ?_, J_follow l h.j hf
      (Mutex.Full.full_linearizable_partial _ c _ hex' hki).2,
      fun t => Nat.le_trans (follow_len l hf t) (h.len t), fun k hk => ?_⟩
    · by_cases e : k = i
      · subst e
        refine ⟨as ++ [a], by dsimp only; rw [put_self, put_self]; exact hex', fun t ht => ?_⟩
        rcases List.mem_append.mp ht with h | h
        · exact hfa t h
        · rw [List.mem_singleton] at h; subst h; cases ha
      · dsimp only; rw [put_ne _ _ e, put_ne _ _ e]; exact h.run k
    · by_cases e : k = i
      · subst e; dsimp only; rw [put_self]; exact hki
      · dsimp only; rw [put_ne _ _ e]; exact h.shallow k hk

/-- A label that is not a call. -/
def quiet : Label → Bool
  | .callLock .. => false
  | .callUnlock .. => false
  | _ => true

theorem follow_quiet {i : Nat} : ∀ (l : List Label) (td : Nat → List Op), (∀ x ∈ l, quiet x = true) →
    ∃ td', follow i td l = some td'
  | [], td, _ => ⟨td, rfl⟩
  | x :: l, td, h => by
    have h1 : ∃ td1, see i td x = some td1 := by
      have := h x (List.mem_cons_self ..)
      cases x with
      | callLock t o w => cases this
      | callUnlock t o w => cases this
      | retLock t o r => cases r <;> exact ⟨_, rfl⟩
      | retUnlock t o b r => cases r <;> exact ⟨_, rfl⟩
      | _ => exact ⟨_, rfl⟩
    obtain ⟨td1, h1⟩ := h1
    obtain ⟨td2, h2⟩ := follow_quiet l td1 (fun y hy => h y (List.mem_cons_of_mem _ hy))
    exact ⟨td2, by rw [follow, h1]; exact h2⟩

theorem react_quiet (m : Mutex.S) (x : Sem.Label) : ∀ y ∈ (Mutex.Full.react m x).2, quiet y = true := by
  cases x <;> simp only [Mutex.Full.react] <;> grind [quiet]

theorem reacts_quiet : ∀ (l : List Sem.Label) (m : Mutex.S), ∀ y ∈ (Mutex.Full.reacts m l).2, quiet y = true
  | [], _, y, hy => by cases hy
  | x :: l, m, y, hy => by
    rw [Mutex.Full.reacts] at hy
    rcases List.mem_append.mp hy with h | h
    · exact react_quiet m x y h
    · exact reacts_quiet l _ y h

theorem sem_quiet {c c' : S} {l : List Label} {b : Sem.Act}
    (h : (do let r ← Sem.step c.s b; (Except.ok (Mutex.Full.inSem c r) : CRes _)) = .ok (some (c', l))) :
    ∀ y ∈ l, quiet y = true := by
  cases e : Sem.step c.s b with
  | error e' => rw [e] at h; cases h
  | ok r =>
    rw [e, ok_bind] at h
    cases r with
    | none => cases h
    | some x => obtain ⟨s', ls⟩ := x; cases h; exact reacts_quiet ls c.m

theorem mrun_quiet {s s' : Mutex.S} {u : Nat} {l : List Label} (h : Mutex.run s u = .ok (some (s', l))) :
    ∀ y ∈ l, quiet y = true := by
  unfold Mutex.run Mutex.lock Mutex.unlock at h
  grind [quiet]

theorem goes_quiet {c c' : S} {l : List Label} {u : Nat} {a : Act}
    (ha : a = .mutex (.run u) ∨ a = .enter u ∨ ∃ pick, a = .run u pick) (h : step c a = .ok (some (c', l))) :
    ∀ y ∈ l, quiet y = true := by
  rcases ha with rfl | rfl | ⟨pick, rfl⟩
  · unfold step at h
    dsimp only at h
    split at h
    · cases h
    · cases e : Mutex.step c.m (.run u) with
      | error e' => rw [e] at h; cases h
      | ok r =>
        rw [e, ok_bind] at h
        cases r with
        | none => cases h
        | some x => obtain ⟨s', ls⟩ := x; cases h; exact mrun_quiet e
  · unfold step at h
    dsimp only at h
    split at h
    · cases h
    · exact sem_quiet h
  · exact sem_quiet (b := .run u pick) h

/-- A thread outside all calls makes the next call of its script. -/
theorem call_next {N : Nat} {P : Nat → List Op} {g : G} (h : Inv N P g) {u : Nat} (hu : g.todo u ≠ [])
    (ho : Outside N g.c u) : CanMove N g u := by
  have hn := h.j.nested u
  cases e : g.todo u with
  | nil => exact absurd e hu
  | cons op r =>
    rw [e] at hn
    cases op with
    | lock i =>
      refine ⟨i, .mutex (.callLock u 0 Mutex.infinite), ?_⟩
      refine ⟨⟨(g.c i).m.goto u (.lCs 0 Mutex.infinite), (g.c i).s⟩, [.callLock u 0 Mutex.infinite], g.todo, hn.1,
        Or.inr (Or.inl rfl), ?_, ?_⟩
      · simp [step, Mutex.Full.actor, ho i hn.1, Mutex.Full.atSem, Mutex.step, Mutex.Full.inMutex]
      · simp [follow, see, e]
    | unlock i =>
      refine ⟨i, .mutex (.callUnlock u 0 false), ?_⟩
      refine ⟨⟨(g.c i).m.goto u (.uCs 0 false), (g.c i).s⟩, [.callUnlock u 0 false], g.todo, hn.1,
        Or.inr (Or.inr rfl), ?_, ?_⟩
      · simp [step, Mutex.Full.actor, ho i hn.1, Mutex.Full.atSem, Mutex.step, Mutex.Full.inMutex]
      · simp [follow, see, e]

theorem inv_ordered {N : Nat} {P : Nat → List Op} {g : G} (h : Inv N P g) : Ordered N g.ls := by
  intro t i j o p _ hj ha hd
  obtain ⟨q, hq, hc⟩ := h.j.cur t i
  have ha' : phase t (some .out) (g.ls i) = some (.locking o) := ha
  rw [ha'] at hq
  cases hq
  obtain ⟨rfl, hh⟩ := hc
  have hp : p = 0 := Classical.byContradiction fun hp => by rw [h.j.obj t j p hp] at hd; omega
  subst hp
  have hn := h.j.nested t
  cases e : g.todo t with
  | nil => rw [e] at hh; cases hh
  | cons op r =>
    rw [e] at hh hn
    cases hh
    have := hn.2.1 j hj hd
    omega

/-- Programs whose threads nest their locks in a fixed order are never stuck: in every state they can reach, everything
is finished or some thread can go on. -/
theorem nested_program_goes_partial (N : Nat) (P : Nat → List Op) (hP : ∀ t, Nested N (fun _ => 0) (P t))
    (hl : ∀ t, (P t).length < 4294967293) (g : G) (hr : Run N P g) : Finished N g ∨ ∃ u, CanMove N g u := by
  have h := run_inv hP hl hr
  by_cases hin : ∃ t i, i < N ∧ (g.c i).m.pc t ≠ .idle
  · obtain ⟨t, i, hi, hin⟩ := hin
    obtain ⟨as, has⟩ := Classical.axiomOfChoice h.run
    rcases ordered_locks_go_partial N as g.c g.ls (fun i _ => (has i).1) (fun i hi => h.shallow i hi)
      (fun i _ => (has i).2) (inv_ordered h) t i hi hin with ⟨j, u, hj, a, ⟨c, l⟩, ha, hs⟩ | ⟨j, u, o, hj, hd, hout⟩
    · obtain ⟨td, htd⟩ := follow_quiet (i := j) l g.todo (goes_quiet ha hs)
      exact Or.inr ⟨u, j, a, c, l, td, hj, Or.inl ha, hs, htd⟩
    · refine Or.inr ⟨u, call_next h (fun e => ?_) hout⟩
      have ho : o = 0 := Classical.byContradiction fun ho => by rw [h.j.obj u j o ho] at hd; omega
      subst ho
      have hn := h.j.nested u
      rw [e] at hn
      have := hn j hj
      dsimp only at this
      omega
  · have hidle : ∀ t, Outside N g.c t := fun t i hi => Classical.byContradiction fun hx => hin ⟨t, i, hi, hx⟩
    by_cases ht : ∃ t, g.todo t ≠ []
    · obtain ⟨t, ht⟩ := ht
      exact Or.inr ⟨t, call_next h ht (hidle t)⟩
    · refine Or.inl fun t => ?_
      have e : g.todo t = [] := Classical.byContradiction fun hx => ht ⟨t, hx⟩
      refine ⟨e, fun i hi => ⟨hidle t i hi, fun o => ?_⟩⟩
      by_cases ho : o = 0
      · subst ho
        have hn := h.j.nested t
        rw [e] at hn
        exact hn i hi
      · exact h.j.obj t i o ho

/-! ## Cases -/

/-- The program takes the given steps. -/
def play (N : Nat) (g : G) : List (Nat × Act) → Option G
  | [] => some g
  | (i, a) :: r =>
    if i < N ∧ Mutex.Full.isFail a = false then
      match step (g.c i) a with
      | .ok (some (c, l)) =>
        match follow i g.todo l with
        | some td => play N ⟨put g.c i c, put g.ls i (g.ls i ++ l), td⟩ r
        | none => none
      | _ => none
    else none

theorem play_run {N : Nat} {P : Nat → List Op} : ∀ (r : List (Nat × Act)) {g g' : G}, Run N P g → play N g r = some g' →
    Run N P g'
  | [], g, g', hr, h => by cases h; exact hr
  | (i, a) :: r, g, g', hr, h => by
    unfold play at h
    split at h
    · rename_i hc
      split at h
      · rename_i c l hs
        split at h
        · rename_i td hf
          exact play_run r (hr.next ⟨i, a, c, l, td, hc.1, hc.2, hs, hf, rfl⟩) h
        · cases h
      · cases h
    · cases h

/-- Thread `t` locks mutex `i`, which is free. -/
def takes (t i : Nat) : List (Nat × Act) :=
  ([.mutex (.callLock t 0 Mutex.infinite)] ++ List.replicate 3 (.mutex (.run t)) ++ [.enter t] ++
    List.replicate 4 (.run t 0) ++ List.replicate 4 (.mutex (.run t)) : List Act).map (Prod.mk i)

/-- Thread `t` goes to sleep waiting for mutex `i`. -/
def sleeps (t i : Nat) : List (Nat × Act) :=
  ([.mutex (.callLock t 0 Mutex.infinite)] ++ List.replicate 3 (.mutex (.run t)) ++ [.enter t] ++
    List.replicate 2 (.run t 0) : List Act).map (Prod.mk i)

/-- A lock in another lock. -/
def inner (i j : Nat) : List Op := [.lock i, .lock j, .unlock j, .unlock i]

/-- Threads 1 and 2 take the mutexes 0 and 1 in the same order. -/
def same : Nat → List Op
  | 1 | 2 => inner 0 1
  | _ => []

/-- Threads 1 and 2 take them in opposite orders. -/
def opposite : Nat → List Op
  | 1 => inner 0 1
  | 2 => inner 1 0
  | _ => []

set_option maxRecDepth 20000 in
/-- In opposite orders the program gets stuck: each thread has one mutex and sleeps waiting for the other. -/
theorem opposite_stuck : ∃ g, Run 2 opposite g ∧ ¬ Finished 2 g ∧ ¬ ∃ u, CanMove 2 g u := by
  have hp : ∃ g, play 2 ⟨fun _ => init, fun _ => [], opposite⟩ (takes 1 0 ++ takes 2 1 ++ sleeps 1 1 ++ sleeps 2 0) =
      some g ∧
      ((g.c 0).m.pc 2 = .lWait 0 Mutex.infinite ∧ (g.c 0).s.pc 2 = .wBlocked Mutex.infinite) ∧
      ((g.c 1).m.pc 1 = .lWait 0 Mutex.infinite ∧ (g.c 1).s.pc 1 = .wBlocked Mutex.infinite) ∧
      (∀ u, u ≠ 2 → (g.c 0).m.pc u = .idle ∧ (g.c 0).s.pc u = .idle) ∧
      (∀ u, u ≠ 1 → (g.c 1).m.pc u = .idle ∧ (g.c 1).s.pc u = .idle) ∧
      (g.todo 1).head? = some (.lock 1) ∧ (g.todo 2).head? = some (.lock 0) ∧
      ∀ u, u ≠ 1 → u ≠ 2 → g.todo u = [] := by
    refine ⟨_, rfl, ⟨rfl, rfl⟩, ⟨rfl, rfl⟩, ?_, ?_, rfl, rfl, ?_⟩
    · intro u hu
      match u with
      | 0 | 1 | k + 3 => exact ⟨rfl, rfl⟩
      | 2 => exact absurd rfl hu
    · intro u hu
      match u with
      | 0 | 2 | k + 3 => exact ⟨rfl, rfl⟩
      | 1 => exact absurd rfl hu
    · intro u h1 h2
      match u with
      | 0 | k + 3 => rfl
      | 1 => exact absurd rfl h1
      | 2 => exact absurd rfl h2
  obtain ⟨g, hg, h02, h11, h0, h1, t1, t2, tr⟩ := hp
  refine ⟨g, play_run _ .start hg, fun hf => ?_, ?_⟩
  · have := (hf 1).1; rw [this] at t1; cases t1
  · have hst : ∀ u i, i < 2 → ((g.c i).m.pc u = .idle ∧ (g.c i).s.pc u = .idle) ∨
        (∃ o w, (g.c i).m.pc u = .lWait o w) ∧ ∃ w, (g.c i).s.pc u = .wBlocked w := by
      intro u i hi
      match i, hi with
      | 0, _ =>
        by_cases e : u = 2
        · subst e; exact Or.inr ⟨⟨_, _, h02.1⟩, _, h02.2⟩
        · exact Or.inl (h0 u e)
      | 1, _ =>
        by_cases e : u = 1
        · subst e; exact Or.inr ⟨⟨_, _, h11.1⟩, _, h11.2⟩
        · exact Or.inl (h1 u e)
    have hcall : ∀ u i op, i < 2 → (g.todo u).head? = some op → op = .lock i ∨ op = .unlock i →
        Mutex.Full.atSem ((g.c i).m.pc u) = true := by
      intro u i op hi ht ho
      by_cases e1 : u = 1
      · subst e1
        rw [t1] at ht
        cases ht
        rcases ho with ho | ho <;> cases ho
        rw [h11.1]; rfl
      · by_cases e2 : u = 2
        · subst e2
          rw [t2] at ht
          cases ht
          rcases ho with ho | ho <;> cases ho
          rw [h02.1]; rfl
        · rw [tr u e1 e2] at ht; cases ht
    rintro ⟨u, i, a, c, l, td, hi, ha | rfl | rfl, hs, hf⟩
    · exact Order.still (hst u i hi) ⟨a, (c, l), ha, hs⟩
    · have hl : l = [.callLock u 0 Mutex.infinite] := by
        simp only [step, Mutex.step] at hs
        grind [Mutex.Full.inMutex, ok_bind]
      subst hl
      simp only [follow, see] at hf
      split at hf
      · rename_i e
        have := hcall u i _ hi e.2 (Or.inl rfl)
        simp [step, Mutex.Full.actor, this] at hs
      · cases hf
    · have hl : l = [.callUnlock u 0 false] := by
        simp only [step, Mutex.step] at hs
        grind [Mutex.Full.inMutex, ok_bind]
      subst hl
      simp only [follow, see] at hf
      split at hf
      · rename_i e
        have := hcall u i _ hi e.2.2 (Or.inr rfl)
        simp [step, Mutex.Full.actor, this] at hs
      · cases hf

theorem same_nested : ∀ t, Nested 2 (fun _ => 0) (same t) := by
  intro t
  match t with
  | 0 | k + 3 => exact fun _ _ => rfl
  | 1 | 2 =>
    refine ⟨by decide, fun j _ h => absurd h (Nat.lt_irrefl 0), by decide, fun j hj _ => by omega, by decide, by decide,
      by decide, by decide, fun j hj => ?_⟩
    match j, hj with
    | 0, _ | 1, _ => rfl

set_option maxRecDepth 20000 in
/-- In the same order: thread 1 has both mutexes and thread 2 sleeps. -/
example : (∀ t, Nested 2 (fun _ => 0) (same t)) ∧ (∀ t, (same t).length < 4294967293) ∧
    ∃ g, Run 2 same g ∧ (g.c 0).m.pc 2 ≠ .idle ∧ depth 1 0 0 (g.ls 0) = 1 ∧ depth 1 0 0 (g.ls 1) = 1 := by
  have hp : ∃ g, play 2 ⟨fun _ => init, fun _ => [], same⟩ (takes 1 0 ++ sleeps 2 0 ++ takes 1 1) = some g ∧
      (g.c 0).m.pc 2 = .lWait 0 Mutex.infinite ∧ depth 1 0 0 (g.ls 0) = 1 ∧ depth 1 0 0 (g.ls 1) = 1 :=
    ⟨_, rfl, rfl, rfl, rfl⟩
  obtain ⟨g, hg, h1, h2⟩ := hp
  refine ⟨same_nested, ?_, g, play_run _ .start hg, by rw [h1]; exact (fun e => nomatch e), h2⟩
  intro t
  match t with
  | 0 | 1 | 2 => exact (by decide)
  | k + 3 => show 0 < 4294967293; decide

end Verif.Client.Nest
