import Verif.Mutex.FullLemmas
import Verif.Mutex.Props

/-!
# Theorems about the mutex on the real semaphore

The mutex of `Verif.Mutex.Props` uses an atomic semaphore.  Here it uses the one of `Verif.Sem.Model`,
built from a pthread mutex and a condition variable, whose steps interleave with everything else.
-/

namespace Verif.Mutex.Full

open Spec (Holds Shallow depth phase atomic)

/-- Whatever the threads do on the real semaphore is defined, and a run of the mutex on the atomic
semaphore shows the same calls, results and effects in the same order. -/
theorem full_refines (as : List Act) : ∃ c ls, exec init as = .ok (c, ls) ∧
    ∃ bs m, Mutex.exec Mutex.init bs = .ok (m, ls) ∧ m.cs = c.m.cs ∧ m.oid = c.m.oid ∧
      m.cnt = c.m.cnt := by
  obtain ⟨c, ls, n, bs, he, hi, hb⟩ := exec_same as init_inv
    (by intro t o e; cases e)
  rw [abs_init] at hb
  exact ⟨c, ls, he, bs, _, hb, rfl, rfl, rfl⟩

/-- Linearizability. -/
theorem full_linearizable_partial (as : List Act) (c : S) (ls : List Label)
    (h : exec init as = .ok (c, ls)) (hk : Shallow ls) :
    (atomic none ls).isSome = true ∧ ∀ t, (phase t (some .out) ls).isSome = true := by
  obtain ⟨c', ls', he, bs, m, hb, -⟩ := full_refines as
  rw [h] at he
  cases he
  exact linearizable_partial bs m ls hb hk

/-- Mutual exclusion. -/
theorem full_exclusive_partial (as : List Act) (c : S) (ls : List Label)
    (h : exec init as = .ok (c, ls)) (hk : Shallow ls) (t o t' o' : Nat) (h1 : Holds t o ls)
    (h2 : Holds t' o' ls) : t = t' ∧ o = o' := by
  obtain ⟨c', ls', he, bs, m, hb, -⟩ := full_refines as
  rw [h] at he
  cases he
  exact exclusive_partial bs m ls hb hk t o t' o' h1 h2

/-- Nobody waits for a free mutex: if no system call fails inside the semaphore, and every thread is
either outside the mutex or blocked in its semaphore, and one is blocked, then some thread has the
mutex, going by the results of its calls. -/
theorem full_no_lost_wakeup_partial (as : List Act) (c : S) (ls : List Label)
    (h : exec init as = .ok (c, ls)) (hk : Shallow ls) (hf : ∀ t, Act.fail t ∉ as)
    (hq : ∀ t, c.m.pc t = .idle ∨ ∃ w, c.s.pc t = .wBlocked w) (u w : Nat)
    (hu : c.s.pc u = .wBlocked w) : ∃ t o, 0 < depth t o 0 ls := by
  have hf' : ∀ a ∈ as, isFail a = false := fun a ha => by
    cases a with
    | fail t => exact absurd ha (hf t)
    | _ => rfl
  obtain ⟨n, h', hi, hb, hm, ha, hp⟩ := exec_busy as hf' (pre := []) init_inv
    (by intro t o e; cases e) Mutex.init_inv (fun e => nomatch e) rfl (fun _ => rfl) h hk
  rw [List.nil_append] at ha hp
  have hout : ∀ t, c.m.pc t = .idle → c.s.pc t = .idle := fun t e =>
    phase_idle (hi.coh.out (by rw [e]; rfl))
  have hq' : ∀ t, c.s.pc t = .idle ∨ ∃ w, c.s.pc t = .wBlocked w := fun t => (hq t).imp (hout t) id
  have hn : n = 0 := by
    rcases hi.w with hw | ⟨L, _, hL, hw⟩
    · have := (hi.sem.queue u).mpr (by rw [hu]; rfl)
      rw [hw] at this; cases this
    · have hL0 : L = [] := by
        cases L with
        | nil => rfl
        | cons t L =>
          have := hL t (List.mem_cons_self ..)
          rcases hq' t with e | ⟨w, e⟩ <;> rw [e] at this <;> cases this
      rcases hw with hw | ⟨_, t, ht⟩
      · rw [hL0] at hw; exact Nat.le_zero.mp hw
      · rcases hq' t with e | ⟨w, e⟩ <;> rw [e] at ht <;> cases ht
  subst hn
  cases hh : h' with
  | none => exact absurd hh (hb rfl)
  | some x =>
    obtain ⟨t, o, d⟩ := x
    refine ⟨t, o, ?_⟩
    have hpos := (hm.pos t o d hh).1
    have hag := agree (o := o) (d := 0) (hp t) ha rfl
    have hph : phOf ((abs c (decide (0 = 1))).pc t) = .out ∨
        ∃ o', phOf ((abs c (decide (0 = 1))).pc t) = .locking o' := by
      rcases hq t with e | ⟨w', e⟩
      · refine Or.inl ?_
        rw [abs_pc (by rw [hout t e]; rfl), e]; rfl
      · obtain ⟨o', w', hq⟩ := coh_waiting (hi.coh t) (by rw [e]; exact Or.inl rfl)
        refine Or.inr ⟨o', ?_⟩
        show phOf (adv (Sem.phOf (c.s.pc t)) (c.m.pc t)) = _
        rw [e, hq]; rfl
    have hat : at' t o h' = depth t o 0 ls := by
      rcases hph with e | ⟨o', e⟩ <;> rw [e] at hag <;> exact hag
    rw [← hat, hh, at_self]; exact hpos

/-- Thread 1 locks, thread 2 blocks in the semaphore through another object. -/
def demo : List Act :=
  [.mutex (.callLock 1 0 infinite)] ++ List.replicate 3 (.mutex (.run 1)) ++ [.enter 1] ++
    List.replicate 4 (.run 1 0) ++ List.replicate 4 (.mutex (.run 1)) ++
    [.mutex (.callLock 2 7 infinite)] ++ List.replicate 3 (.mutex (.run 2)) ++ [.enter 2] ++
    List.replicate 2 (.run 2 0)

/-- Thread 1 unlocks; thread 2 is woken and gets in. -/
def demo' : List Act :=
  demo ++ [.mutex (.callUnlock 1 0 false)] ++ List.replicate 7 (.mutex (.run 1)) ++ [.enter 1] ++
    List.replicate 7 (.run 1 2) ++ [.mutex (.run 1)] ++ List.replicate 4 (.run 2 0) ++
    List.replicate 4 (.mutex (.run 2))

example : ∃ c ls, exec init demo = .ok (c, ls) ∧ Holds 1 0 ls ∧ depth 1 0 0 ls = 1 ∧
    c.s.pc 2 = .wBlocked infinite ∧ c.m.pc 1 = .idle ∧ ¬ Holds 2 7 ls :=
  ⟨_, _, rfl, ⟨by decide, by decide⟩, by decide, rfl, rfl, by intro h; exact absurd h.1 (by decide)⟩

example : ∃ c ls, exec init demo' = .ok (c, ls) ∧ Holds 2 7 ls ∧ ¬ Holds 1 0 ls ∧
    c.m.oid 7 = some 2 :=
  ⟨_, _, rfl, ⟨by decide, by decide⟩, by intro h; exact absurd h.1 (by decide), rfl⟩

end Verif.Mutex.Full
