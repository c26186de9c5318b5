import Verif.Mutex.Wrap

/-! # The mutex excludes other threads and is re-entrant (C35)

`MxCount` is a 32-bit counter, so the theorems are about executions in which no thread nests its
locks 2^32 - 1 deep (`Shallow`); `exclusion_fails` shows that this is needed. -/

namespace Verif.Mutex

open Spec

/-- No execution has undefined behaviour: a critical section is only unlocked by its owner. -/
theorem no_ub (as : List Act) : ∃ s ls, exec init as = .ok (s, ls) :=
  exec_owned as fun _ _ e => nomatch e

/-- Linearizability: the effects of all calls, in the order in which they happen, are a history of
the atomic re-entrant mutex, and for each thread every call has exactly the effect its result
reports, between its call and its return. -/
theorem linearizable_partial (as : List Act) (s : S) (ls : List Label)
    (h : exec init as = .ok (s, ls)) (hk : Shallow ls) :
    (atomic none ls).isSome = true ∧ ∀ t, (phase t (some .out) ls).isSome = true := by
  obtain ⟨h', hi, ha, hp⟩ := exec_ok as (pre := []) init_inv rfl (fun _ => rfl) h hk
  rw [List.nil_append] at ha hp
  exact ⟨by rw [ha]; rfl, fun t => by rw [hp t]; rfl⟩

/-- What is known about a reachable state and a thread that is outside. -/
theorem reach {as : List Act} {s : S} {ls : List Label}
    (h : exec init as = .ok (s, ls)) (hk : Shallow ls) :
    ∃ h', Inv s h' ∧ ∀ t, phase t (some .out) ls = some .out →
      s.pc t = .idle ∧ ∀ o, at' t o h' = depth t o 0 ls := by
  obtain ⟨h', hi, ha, hp⟩ := exec_ok as (pre := []) init_inv rfl (fun _ => rfl) h hk
  rw [List.nil_append] at ha hp
  refine ⟨h', hi, fun t ht => ⟨?_, fun o => ?_⟩⟩
  · have h1 := hp t
    rw [ht] at h1
    have h1 : Phase.out = phOf (s.pc t) := Option.some.inj h1
    revert h1
    cases s.pc t <;> intro h1 <;> first | rfl | cases h1
  · exact agree (o := o) (d := 0) (h := none) ht ha rfl

theorem at_pos {t o : Nat} {h : Holder} (hp : 0 < at' t o h) : h = some (t, o, at' t o h) := by
  cases h with
  | none => cases hp
  | some x =>
    obtain ⟨a, b, c⟩ := x
    by_cases e : a = t ∧ b = o
    · obtain ⟨rfl, rfl⟩ := e; rw [at_self]
    · rw [at_ne e] at hp; cases hp

/-- Mutual exclusion: at most one thread, and for that thread at most one object, holds the mutex. -/
theorem exclusive_partial (as : List Act) (s : S) (ls : List Label)
    (h : exec init as = .ok (s, ls)) (hk : Shallow ls) (t o t' o' : Nat) (h1 : Holds t o ls) (h2 : Holds t' o' ls) :
    t = t' ∧ o = o' := by
  obtain ⟨H, hi, hr⟩ := reach h hk
  obtain ⟨_, e1⟩ := hr t h1.2
  obtain ⟨_, e2⟩ := hr t' h2.2
  have e3 := at_pos (by rw [e1 o]; exact h1.1)
  have e4 := at_pos (by rw [e2 o']; exact h2.1)
  have := e3.symm.trans e4
  simp only [Option.some.injEq, Prod.mk.injEq] at this
  exact ⟨this.1, this.2.1⟩

/-- What the object records about its holder. -/
theorem held {as : List Act} {s : S} {ls : List Label}
    (h : exec init as = .ok (s, ls)) (hk : Shallow ls) {t o : Nat} (h1 : Holds t o ls) :
    s.pc t = .idle ∧ s.oid o = some t ∧ s.cnt o = depth t o 0 ls ∧ s.sem = false := by
  obtain ⟨H, hi, hr⟩ := reach h hk
  obtain ⟨hpc, e1⟩ := hr t h1.2
  have e3 := at_pos (by rw [e1 o]; exact h1.1)
  rw [e1 o] at e3
  have ho : s.oid o = some t := by
    rcases (hi.pos t o _ e3).2 with e | e
    · exact e
    · rw [hpc] at e; cases e
  refine ⟨hpc, ho, ?_, ?_⟩
  · obtain ⟨d, e4, e5⟩ := hi.oid o t ho
    rw [e3] at e4
    cases e4
    exact e5 (by rw [hpc]; exact fun e => nomatch e)
  · cases hs : s.sem
    · rfl
    · rw [hi.sem hs] at e3; cases e3

/-- A thread that does not hold the mutex through an object is not recorded as its owner. -/
theorem not_held {as : List Act} {s : S} {ls : List Label}
    (h : exec init as = .ok (s, ls)) (hk : Shallow ls) {t o : Nat} (h0 : phase t (some .out) ls = some .out)
    (h1 : ¬ Holds t o ls) : s.pc t = .idle ∧ s.oid o ≠ some t := by
  obtain ⟨H, hi, hr⟩ := reach h hk
  obtain ⟨hpc, e1⟩ := hr t h0
  refine ⟨hpc, fun e => h1 ⟨?_, h0⟩⟩
  obtain ⟨d, e4, e5⟩ := hi.oid o t e
  rw [← e1 o, e4, at_self]
  exact (hi.pos t o d e4).1

/-- Re-entrance: the holder's `Lock` succeeds at once, whatever the time limit, and it holds the
mutex one more time. -/
theorem relock_partial (as : List Act) (s : S) (ls : List Label)
    (h : exec init as = .ok (s, ls)) (hk : Shallow ls) (t o : Nat) (h1 : Holds t o ls) (hc : s.cs o = none)
    (wait : Nat) :
    ∃ s', exec s [.callLock t o wait, .run t, .run t, .run t, .run t, .run t]
        = .ok (s', [.callLock t o wait, .again t o, .retLock t o true]) ∧
      s'.cs o = none ∧ s'.cnt o = depth t o 0 ls + 1 ∧ s'.sem = false := by
  obtain ⟨hpc, ho, hn, hs⟩ := held h hk h1
  have hb := hk ls (List.prefix_refl _) t o
  have : (depth t o 0 ls + 1) % 4294967296 = depth t o 0 ls + 1 := Nat.mod_eq_of_lt (by omega)
  simp [exec, step, hpc, run, S.goto, lock, unlock, setAt, ho, hc, hn, hs, this]

/-- While another thread holds the mutex, a `Lock` with time limit 0 fails and changes nothing; one
with a longer limit cannot go past the semaphore. -/
theorem excluded_partial (as : List Act) (s : S) (ls : List Label)
    (h : exec init as = .ok (s, ls)) (hk : Shallow ls) (t o u o' : Nat) (h1 : Holds t o ls)
    (h0 : phase u (some .out) ls = some .out) (hu : ¬ (u = t ∧ o' = o)) (hc : s.cs o' = none)
    (wait : Nat) :
    ∃ s', exec s [.callLock u o' wait, .run u, .run u, .run u, .run u] = .ok (s',
        if wait = 0 then [.callLock u o' 0, .giveUp u o', .retLock u o' false]
        else [.callLock u o' wait]) ∧
      s'.sem = s.sem ∧ s'.oid = s.oid ∧ s'.cnt = s.cnt ∧ s'.cs = s.cs ∧
      s'.pc u = if wait = 0 then .idle else .lWait o' wait := by
  obtain ⟨_, _, _, hs⟩ := held h hk h1
  have h2 : ¬ Holds u o' ls := fun h2 => hu (by
    obtain ⟨e1, e2⟩ := exclusive_partial as s ls h hk u o' t o h2 h1
    exact ⟨e1, e2⟩)
  obtain ⟨hpc, ho⟩ := not_held h hk h0 h2
  have hset : setAt (setAt s.cs o' (some u)) o' none = s.cs := by
    funext i
    unfold setAt
    split
    · rename_i e; rw [e, hc]
    · rfl
  by_cases hw : wait = 0
  · subst hw
    simp [exec, step, hpc, run, S.goto, lock, unlock, ho, hc, hs, hset, setAt_self]
  · simp [exec, step, hpc, run, S.goto, lock, unlock, ho, hc, hs, hset, setAt_self, hw]

/-- `Unlock` by a thread that does not hold the mutex through the object fails and changes
nothing. -/
theorem unlock_refused_partial (as : List Act) (s : S) (ls : List Label)
    (h : exec init as = .ok (s, ls)) (hk : Shallow ls) (t o : Nat) (h0 : phase t (some .out) ls = some .out)
    (h1 : ¬ Holds t o ls) (hc : s.cs o = none) (all : Bool) :
    ∃ s', exec s [.callUnlock t o all, .run t, .run t, .run t]
        = .ok (s', [.callUnlock t o all, .refuse t o, .retUnlock t o all false]) ∧
      s'.sem = s.sem ∧ s'.oid = s.oid ∧ s'.cnt = s.cnt ∧ s'.cs = s.cs ∧ s'.pc t = .idle := by
  obtain ⟨hpc, ho⟩ := not_held h hk h0 h1
  have hset : setAt (setAt s.cs o (some t)) o none = s.cs := by
    funext i
    unfold setAt
    split
    · rename_i e; rw [e, hc]
    · rfl
  simp [exec, step, hpc, run, S.goto, lock, unlock, ho, hc, hset, setAt_self]

/-- The last `Unlock` of the holder, and `Unlock(true)` at any depth, frees the mutex. -/
theorem unlock_frees_partial (as : List Act) (s : S) (ls : List Label)
    (h : exec init as = .ok (s, ls)) (hk : Shallow ls) (t o : Nat) (h1 : Holds t o ls) (hc : s.cs o = none)
    (all : Bool) (hd : all = true ∨ depth t o 0 ls = 1) :
    ∃ s', exec s ([.callUnlock t o all] ++ List.replicate 9 (.run t))
        = .ok (s', [.callUnlock t o all, .leave t o all, .retUnlock t o all true]) ∧
      s'.sem = true ∧ s'.oid o = none ∧ s'.cs o = none := by
  obtain ⟨hpc, ho, hn, hs⟩ := held h hk h1
  cases all
  · have hd : depth t o 0 ls = 1 := hd.resolve_left (fun e => nomatch e)
    rw [hd] at hn
    simp [List.replicate, exec, step, hpc, run, S.goto, lock, unlock, setAt, ho, hc, hn, dec32]
  · simp [List.replicate, exec, step, hpc, run, S.goto, lock, unlock, setAt, ho, hc, dec32]

/-- An inner `Unlock` keeps the mutex held, one time less. -/
theorem unlock_nested_partial (as : List Act) (s : S) (ls : List Label)
    (h : exec init as = .ok (s, ls)) (hk : Shallow ls) (t o : Nat) (h1 : Holds t o ls) (hc : s.cs o = none)
    (hd : 1 < depth t o 0 ls) :
    ∃ s', exec s ([.callUnlock t o false] ++ List.replicate 7 (.run t))
        = .ok (s', [.callUnlock t o false, .leave t o false, .retUnlock t o false true]) ∧
      s'.sem = false ∧ s'.oid o = some t ∧ s'.cnt o = depth t o 0 ls - 1 ∧ s'.cs o = none := by
  obtain ⟨hpc, ho, hn, hs⟩ := held h hk h1
  have e1 : depth t o 0 ls ≠ 0 := by omega
  have e2 : depth t o 0 ls - 1 ≠ 0 := by omega
  simp [List.replicate, exec, step, hpc, run, S.goto, lock, unlock, setAt, ho, hc, hn, dec32, hs, e1, e2]

/-- A free mutex is locked at once. -/
theorem lock_free (s : S) (t o wait : Nat) (hpc : s.pc t = .idle) (ho : s.oid o ≠ some t)
    (hc : s.cs o = none) (hs : s.sem = true) :
    ∃ s', exec s ([.callLock t o wait] ++ List.replicate 8 (.run t))
        = .ok (s', [.callLock t o wait, .acquire t o, .retLock t o true]) ∧
      s'.sem = false ∧ s'.oid o = some t ∧ s'.cnt o = 1 ∧ s'.cs o = none := by
  simp [List.replicate, exec, step, hpc, run, S.goto, lock, unlock, setAt, ho, hc, hs]

/-- Thread 1 locks twice, thread 2 (through another object) blocks, thread 1 unlocks twice, thread 2
gets in. -/
def demo : List Act :=
  [.callLock 1 0 infinite] ++ List.replicate 8 (.run 1) ++ [.callLock 1 0 0] ++
    List.replicate 5 (.run 1) ++ [.callLock 2 7 infinite] ++ List.replicate 8 (.run 2)

example : ∃ s ls, exec init demo = .ok (s, ls) ∧ Holds 1 0 ls ∧ depth 1 0 0 ls = 2 ∧
    s.cs 0 = none ∧ ¬ Holds 2 7 ls ∧ s.pc 2 = .lWait 7 infinite ∧
    phase 3 (some .out) ls = some .out ∧ ¬ Holds 3 0 ls :=
  ⟨_, _, rfl, ⟨by decide, by decide⟩, by decide, rfl, by intro h; exact absurd h.1 (by decide), rfl,
    by decide, by intro h; exact absurd h.1 (by decide)⟩

example : ∃ s ls, exec init (demo ++ [.callUnlock 1 0 false] ++ List.replicate 7 (.run 1) ++
      [.callUnlock 1 0 false] ++ List.replicate 9 (.run 1) ++ List.replicate 5 (.run 2))
    = .ok (s, ls) ∧ Holds 2 7 ls ∧ ¬ Holds 1 0 ls :=
  ⟨_, _, rfl, ⟨by decide, by decide⟩, by intro h; exact absurd h.1 (by decide)⟩

end Verif.Mutex
