import Verif.Mutex.PropsFull
import Verif.Progress.Props

/-!
# Mutexes taken in a fixed order

A program with several mutexes (sync_mutex.cpp 207-257, each on its own semaphore, sync_util.cpp 346-461).
Every mutex has its own execution, over the same threads; nothing is assumed about how the executions
interleave.
-/

namespace Verif.Client.Order

open Verif.Mutex (Label infinite)
open Verif.Mutex.Spec (depth phase Shallow)
open Verif.Mutex.Full (Act S exec init step)
open Verif.Progress (CanGo Reach)

/-! ## What is claimed -/

/-- Thread `t` has called `Lock` through object `o` and has not got the mutex. -/
def Asking (t o : Nat) (ls : List Label) : Prop := phase t (some .out) ls = some (.locking o)

/-- Mutexes are asked for in increasing order: while a thread asks for mutex `i` it holds only mutexes below
`i` (or `i` itself through the same object: locking again is allowed). -/
def Ordered (N : Nat) (ls : Nat → List Label) : Prop :=
  ∀ t i j o p, i < N → j < N → Asking t o (ls i) → 0 < depth t p 0 (ls j) → j < i ∨ (j = i ∧ p = o)

/-- Thread `u` can make its next step inside a call of the mutex. -/
def Goes (u : Nat) (c : S) : Prop :=
  CanGo step (fun a => a = .mutex (.run u) ∨ a = .enter u ∨ ∃ pick, a = .run u pick) c

/-- Thread `u` is not inside a call of any mutex. -/
def Outside (N : Nat) (c : Nat → S) (u : Nat) : Prop := ∀ k, k < N → (c k).m.pc u = .idle

/-! ## Proofs -/

theorem reach_of_exec {s0 : S} : ∀ (as : List Act) {c c' : S} {ls : List Label},
    Reach step Progress.Mutex.clock s0 c → exec c as = .ok (c', ls) → (∀ t, Act.fail t ∉ as) →
    Reach step Progress.Mutex.clock s0 c'
  | [], c, c', ls, hr, h, _ => by cases h; exact hr
  | a :: as, c, c', ls, hr, h, hf => by
    have hf' : ∀ t, Act.fail t ∉ as := fun t ht => hf t (List.mem_cons_of_mem _ ht)
    rw [exec] at h
    cases e : step c a with
    | error e' => rw [e] at h; cases h
    | ok r =>
      rw [e, ok_bind] at h
      cases r with
      | none => exact reach_of_exec as hr h hf'
      | some x =>
        obtain ⟨c1, l⟩ := x
        cases e2 : exec c1 as with
        | error e' => simp only [e2, error_bind] at h; cases h
        | ok y =>
          obtain ⟨c2, l2⟩ := y
          simp only [e2, ok_bind] at h
          cases h
          refine reach_of_exec as (hr.step ?_ e) e2 hf'
          cases a with
          | fail t => exact absurd (List.mem_cons_self ..) (hf t)
          | _ => rfl

/-- A thread asleep in the semaphore is asking for the mutex, and does not have it through the same object. -/
theorem asleep_asking (as : List Act) (c : S) (ls : List Label) (h : exec init as = .ok (c, ls))
    (hk : Shallow ls) (hf : ∀ t, Act.fail t ∉ as) {u w : Nat} (hu : c.s.pc u = .wBlocked w) :
    ∃ o, Asking u o ls ∧ depth u o 0 ls = 0 := by
  have hf' : ∀ a ∈ as, Mutex.Full.isFail a = false := fun a ha => by
    cases a with
    | fail t => exact absurd ha (hf t)
    | _ => rfl
  obtain ⟨n, h', hi, hb, hm, ha, hp⟩ := Mutex.Full.exec_busy as hf' (pre := []) Mutex.Full.init_inv
    (by intro t o e; cases e) Mutex.init_inv (fun e => nomatch e) rfl (fun _ => rfl) h hk
  rw [List.nil_append] at ha hp
  obtain ⟨o, w', hq⟩ := Mutex.Full.coh_waiting (hi.coh u) (by rw [hu]; exact Or.inl rfl)
  have hpc : (Mutex.Full.abs c (decide (n = 1))).pc u = .lWait o w' := by
    show Mutex.Full.adv (Sem.phOf (c.s.pc u)) (c.m.pc u) = _
    rw [hu, hq]; rfl
  have hph := hp u
  rw [hpc] at hph
  refine ⟨o, hph, ?_⟩
  have hag := Mutex.agree (o := o) (d := 0) hph ha rfl
  have hval := hm.val u
  rw [hpc] at hval
  have hat : Mutex.at' u o h' = depth u o 0 ls := hag
  rw [← hat]
  cases hh : h' with
  | none => rfl
  | some x =>
    obtain ⟨t, p, d⟩ := x
    by_cases hx : t = u ∧ p = o
    · obtain ⟨rfl, rfl⟩ := hx
      rcases (hm.pos t p d hh).2 with e | e
      · exact absurd e hval
      · rw [hpc] at e; cases e
    · simp [Mutex.at', hx]

theorem blocked_iff {p : Sem.Pc} (h : Sem.blocked p = true) : ∃ w, p = .wBlocked w := by
  cases p <;> first | exact ⟨_, rfl⟩ | cases h

/-- Among mutexes asked for in a fixed order nobody is stuck: while a thread is inside a call, some thread can
make a step inside a call, or some thread holds one of the mutexes and is not inside any call. -/
theorem ordered_locks_go_partial (N : Nat) (as : Nat → List Act) (c : Nat → S) (ls : Nat → List Label)
    (h : ∀ i, i < N → exec init (as i) = .ok (c i, ls i)) (hk : ∀ i, i < N → Shallow (ls i))
    (hf : ∀ i, i < N → ∀ t, Act.fail t ∉ as i) (ho : Ordered N ls) (t i : Nat) (hi : i < N)
    (hin : (c i).m.pc t ≠ .idle) :
    (∃ j u, j < N ∧ Goes u (c j)) ∨
      ∃ j u o, j < N ∧ 0 < depth u o 0 (ls j) ∧ Outside N c u := by
  by_cases hgo : ∃ j u, j < N ∧ Goes u (c j)
  · exact Or.inl hgo
  · refine Or.inr ?_
    have hsl : ∀ j, j < N → ∀ u, (c j).m.pc u = .idle ∨ ∃ w, (c j).s.pc u = .wBlocked w := by
      intro j hj u
      by_cases h1 : (c j).m.pc u = .idle
      · exact Or.inl h1
      · refine Or.inr ?_
        cases h2 : Progress.Mutex.asleep u (c j) with
        | true => exact blocked_iff h2
        | false =>
          rcases Progress.mutex_goes_partial (reach_of_exec (as j) Reach.refl (h j hj) (hf j hj)) h1 h2
            with g | ⟨v, _, _, g⟩
          · exact absurd ⟨j, u, hj, g⟩ hgo
          · exact absurd ⟨j, v, hj, g⟩ hgo
    have key : ∀ n i t, i < N → N - i ≤ n → (c i).m.pc t ≠ .idle →
        ∃ j u o, j < N ∧ 0 < depth u o 0 (ls j) ∧ Outside N c u := by
      intro n
      induction n with
      | zero => intro i t hi hn; omega
      | succ n ih =>
        intro i t hi hn hin
        obtain ⟨w, hw⟩ := (hsl i hi t).resolve_left hin
        obtain ⟨u, o, hd⟩ := Mutex.Full.full_no_lost_wakeup_partial (as i) (c i) (ls i) (h i hi) (hk i hi)
          (hf i hi) (hsl i hi) t w hw
        by_cases hout : Outside N c u
        · exact ⟨i, u, o, hi, hd, hout⟩
        · have ⟨k, hkN, hkin⟩ : ∃ k, k < N ∧ (c k).m.pc u ≠ .idle := by
            refine Classical.byContradiction fun hne => hout fun k hk' => ?_
            exact Classical.byContradiction fun hx => hne ⟨k, hk', hx⟩
          obtain ⟨w', hw'⟩ := (hsl k hkN u).resolve_left hkin
          obtain ⟨p, hask, h0⟩ := asleep_asking (as k) (c k) (ls k) (h k hkN) (hk k hkN) (hf k hkN) hw'
          rcases ho u k i p o hkN hi hask hd with hlt | ⟨rfl, rfl⟩
          · exact ih k u hkN (by omega) hkin
          · omega
    exact key (N - i) i t hi (Nat.le_refl _) hin

/-! ## Cases -/

theorem depth_le (t o : Nat) : ∀ (q : List Label) (d : Nat), depth t o d q ≤ d + q.length
  | [], d => Nat.le_refl _
  | l :: q, d => by
    rw [List.length_cons]
    cases l with
    | retLock t' o' r =>
      cases r with
      | false =>
        show depth t o d q ≤ _
        have := depth_le t o q d; omega
      | true =>
        rw [depth]
        refine Nat.le_trans (depth_le t o q _) ?_
        split <;> omega
    | retUnlock t' o' all r =>
      cases r with
      | false =>
        show depth t o d q ≤ _
        have := depth_le t o q d; omega
      | true =>
        rw [depth]
        refine Nat.le_trans (depth_le t o q _) ?_
        split
        · split <;> omega
        · omega
    | _ =>
      show depth t o d q ≤ _
      have := depth_le t o q d; omega

theorem short_shallow {ls : List Label} (h : ls.length < 4294967295) : Shallow ls := by
  intro q hq t o
  have := depth_le t o q 0
  have := hq.length_le
  omega

/-- Thread `a` locks a mutex and thread `b` goes to sleep waiting for it. -/
def held (a b : Nat) : List Act :=
  [.mutex (.callLock a 0 infinite)] ++ List.replicate 3 (.mutex (.run a)) ++ [.enter a] ++
    List.replicate 4 (.run a 0) ++ List.replicate 4 (.mutex (.run a)) ++
    [.mutex (.callLock b 7 infinite)] ++ List.replicate 3 (.mutex (.run b)) ++ [.enter b] ++
    List.replicate 2 (.run b 0)

/-- The labels of `held`. -/
def heldLs (a b : Nat) : List Label :=
  [.callLock a 0 infinite, .acquire a 0, .retLock a 0 true, .callLock b 7 infinite]

theorem still {c : S} {u : Nat}
    (hu : (c.m.pc u = .idle ∧ c.s.pc u = .idle) ∨
      (∃ o w, c.m.pc u = .lWait o w) ∧ ∃ w, c.s.pc u = .wBlocked w) : ¬ Goes u c := by
  have hs : ∀ pick, Sem.step c.s (.run u pick) = .ok none := by
    intro pick
    unfold Sem.step Sem.run
    dsimp only
    rcases hu with ⟨_, e⟩ | ⟨_, w, e⟩ <;> rw [e]
  rintro ⟨a, r, ha, h⟩
  rcases ha with rfl | rfl | ⟨pick, rfl⟩
  · unfold step at h
    rcases hu with ⟨e, _⟩ | ⟨⟨o, w, e⟩, _⟩
    · simp [Mutex.Full.actor, e, Mutex.Full.atSem, Mutex.step, Mutex.run, Mutex.Full.inMutex] at h
    · simp [Mutex.Full.actor, e, Mutex.Full.atSem] at h
  · unfold step at h
    rcases hu with ⟨e, _⟩ | ⟨⟨o, w, e⟩, w', e'⟩
    · simp [Mutex.Full.entry, e] at h
    · simp [Mutex.Full.entry, e, Sem.step, e', Mutex.Full.inSem] at h
  · unfold step at h
    simp [hs pick, Mutex.Full.inSem] at h

/-- The state after `held`. -/
structure After (a b : Nat) (c : S) : Prop where
  run : exec init (held a b) = .ok (c, heldLs a b)
  rest : ∀ u, u ≠ b → c.m.pc u = .idle ∧ c.s.pc u = .idle
  waits : c.m.pc b = .lWait 7 infinite ∧ c.s.pc b = .wBlocked infinite

theorem held_12 : ∃ c, After 1 2 c := by
  refine ⟨_, rfl, ?_, rfl, rfl⟩
  intro u hu
  match u with
  | 0 => exact ⟨rfl, rfl⟩
  | 1 => exact ⟨rfl, rfl⟩
  | 2 => exact absurd rfl hu
  | k + 3 => exact ⟨rfl, rfl⟩

theorem held_21 : ∃ c, After 2 1 c := by
  refine ⟨_, rfl, ?_, rfl, rfl⟩
  intro u hu
  match u with
  | 0 => exact ⟨rfl, rfl⟩
  | 1 => exact absurd rfl hu
  | 2 => exact ⟨rfl, rfl⟩
  | k + 3 => exact ⟨rfl, rfl⟩

theorem held_13 : ∃ c, After 1 3 c := by
  refine ⟨_, rfl, ?_, rfl, rfl⟩
  intro u hu
  match u with
  | 0 => exact ⟨rfl, rfl⟩
  | 1 => exact ⟨rfl, rfl⟩
  | 2 => exact ⟨rfl, rfl⟩
  | 3 => exact absurd rfl hu
  | k + 4 => exact ⟨rfl, rfl⟩

theorem After.still {a b : Nat} {c : S} (h : After a b c) (u : Nat) : ¬ Goes u c := by
  by_cases hu : u = b
  · subst hu; exact Order.still (Or.inr ⟨⟨_, _, h.waits.1⟩, _, h.waits.2⟩)
  · exact Order.still (Or.inl (h.rest u hu))

theorem held_fail (a b t : Nat) : Act.fail t ∉ held a b := by simp [held]

theorem held_short (a b : Nat) : Shallow (heldLs a b) := short_shallow (by show 4 < 4294967295; omega)

theorem held_depth {a b u o : Nat} (h : 0 < depth u o 0 (heldLs a b)) : u = a ∧ o = 0 := by
  by_cases hx : a = u ∧ 0 = o
  · exact ⟨hx.1.symm, hx.2.symm⟩
  · simp [heldLs, depth, hx] at h

theorem held_asking {a b u o : Nat} (hab : a ≠ b) (h : Asking u o (heldLs a b)) : u = b ∧ o = 7 := by
  unfold Asking at h
  by_cases hb : b = u
  · subst hb
    simp [heldLs, phase, Mutex.Spec.who, hab, Mutex.Spec.move] at h
    exact ⟨rfl, h.symm⟩
  · by_cases ha : a = u
    · subst ha
      simp [heldLs, phase, Mutex.Spec.who, hb, Mutex.Spec.move] at h
    · simp [heldLs, phase, Mutex.Spec.who, hb, ha] at h

/-- The order matters.  Two threads, two mutexes, taken in opposite orders: each has one and waits for the
other for ever; no thread can make a step, and nobody who holds a mutex is outside the calls. -/
theorem unordered_deadlock : ∃ (as : Nat → List Act) (c : Nat → S) (ls : Nat → List Label),
    (∀ i, i < 2 → exec init (as i) = .ok (c i, ls i)) ∧ (∀ i, i < 2 → Shallow (ls i)) ∧
    (∀ i, i < 2 → ∀ t, Act.fail t ∉ as i) ∧
    0 < depth 1 0 0 (ls 0) ∧ Asking 1 7 (ls 1) ∧ 0 < depth 2 0 0 (ls 1) ∧ Asking 2 7 (ls 0) ∧
    ¬ ((∃ j u, j < 2 ∧ Goes u (c j)) ∨ ∃ j u o, j < 2 ∧ 0 < depth u o 0 (ls j) ∧ Outside 2 c u) := by
  obtain ⟨c0, h0⟩ := held_12
  obtain ⟨c1, h1⟩ := held_21
  refine ⟨fun i => if i = 0 then held 1 2 else held 2 1, fun i => if i = 0 then c0 else c1,
    fun i => if i = 0 then heldLs 1 2 else heldLs 2 1, ?_, ?_, ?_, by decide, rfl, by decide, rfl, ?_⟩
  · intro i _; dsimp only; split
    · exact h0.run
    · exact h1.run
  · intro i _; dsimp only; split <;> exact held_short _ _
  · intro i _ t; dsimp only; split <;> exact held_fail _ _ t
  · rintro (⟨j, u, _, hg⟩ | ⟨j, u, o, _, hd, hout⟩)
    · dsimp only at hg; split at hg
      · exact h0.still u hg
      · exact h1.still u hg
    · dsimp only at hd; split at hd
      · obtain ⟨rfl, -⟩ := held_depth hd
        have : c1.m.pc 1 = .idle := hout 1 (by omega)
        rw [h1.waits.1] at this
        cases this
      · obtain ⟨rfl, -⟩ := held_depth hd
        have : c0.m.pc 2 = .idle := hout 0 (by omega)
        rw [h0.waits.1] at this
        cases this

/-- The hypotheses are met, and the second possibility is needed: thread 1 holds both mutexes and is busy
elsewhere; thread 2 is asleep waiting for the first, thread 3 for the second. -/
example : ∃ (as : Nat → List Act) (c : Nat → S) (ls : Nat → List Label),
    (∀ i, i < 2 → exec init (as i) = .ok (c i, ls i)) ∧ (∀ i, i < 2 → Shallow (ls i)) ∧
    (∀ i, i < 2 → ∀ t, Act.fail t ∉ as i) ∧ Ordered 2 ls ∧ (c 0).m.pc 2 ≠ .idle ∧ (c 1).m.pc 3 ≠ .idle ∧
    ¬ ∃ j u, j < 2 ∧ Goes u (c j) := by
  obtain ⟨c0, h0⟩ := held_12
  obtain ⟨c1, h1⟩ := held_13
  refine ⟨fun i => if i = 0 then held 1 2 else held 1 3, fun i => if i = 0 then c0 else c1,
    fun i => if i = 0 then heldLs 1 2 else heldLs 1 3, ?_, ?_, ?_, ?_, ?_, ?_, ?_⟩
  · intro i _; dsimp only; split
    · exact h0.run
    · exact h1.run
  · intro i _; dsimp only; split <;> exact held_short _ _
  · intro i _ t; dsimp only; split <;> exact held_fail _ _ t
  · intro t i j o p _ _ ha hd
    have e1 : t = 1 := by
      dsimp only at hd; split at hd <;> exact (held_depth hd).1
    subst e1
    dsimp only at ha
    split at ha <;> cases (held_asking (by decide) ha).1
  · show c0.m.pc 2 ≠ .idle
    rw [h0.waits.1]; exact (fun e => nomatch e)
  · show c1.m.pc 3 ≠ .idle
    rw [h1.waits.1]; exact (fun e => nomatch e)
  · rintro ⟨j, u, _, hg⟩
    dsimp only at hg; split at hg
    · exact h0.still u hg
    · exact h1.still u hg

end Verif.Client.Order
