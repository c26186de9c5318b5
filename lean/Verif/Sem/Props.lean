import Verif.Sem.Wake

/-!
# Properties of the semaphore (C34)
-/

namespace Verif.Sem

open Spec

/-- Every execution is free of undefined behaviour (in particular no mutex is unlocked by a thread
that does not hold it), whatever the threads call and however the system calls turn out. -/
theorem no_ub (start max : Nat) (as : List Act) :
    ∃ s ls, exec (init start max) as = .ok (s, ls) := by
  obtain ⟨s, ls, n, h, _⟩ := exec_ok as (init_inv start max)
  exact ⟨s, ls, h⟩

/-- Linearizability: the effects of all calls, in the order in which they happen, are a history of
the atomic counting semaphore, and for each thread every call has exactly the effect its result
reports, between its call and its return. -/
theorem linearizable (start max : Nat) (as : List Act) (s : S) (ls : List Label)
    (h : exec (init start max) as = .ok (s, ls)) :
    (∃ n, atomic max (min start max) ls = some n ∧ n ≤ max ∧
      ((∀ t, s.owner ≠ some t) → s.count = n)) ∧
    ∀ t, (phase t (some .out) ls).isSome = true := by
  obtain ⟨s', ls', n, h', hi, ha, hm, hp⟩ := exec_ok as (init_inv start max)
  rw [h] at h'
  cases h'
  refine ⟨⟨n, ha, ?_, fun ho => ?_⟩, fun t => ?_⟩
  · have := hi.le
    rw [hm] at this
    exact this
  · rcases hi.quiet with ⟨t, ht⟩ | hq
    · exact absurd (hi.crit t (crit_of_clamping ht)) (ho t)
    · exact hq
  · have := hp t
    rw [show phOf ((init start max).pc t) = Phase.out from rfl] at this
    rw [this]; rfl

/-- The number of waits that have succeeded never exceeds the initial count plus the number of
releases called: no execution makes units out of nothing. -/
theorem conserved (start max : Nat) (as : List Act) (s : S) (ls : List Label)
    (h : exec (init start max) as = .ok (s, ls)) :
    waits ls ≤ min start max + releases ls := by
  obtain ⟨⟨n, ha, _⟩, hp⟩ := linearizable start max as s ls h
  have h1 := atomic_counts ha
  have h2 := Counts.counts_le who (P := isRet) (Q := isTake) (ls := ls) fun t => (phase_counts (hp t)).1
  have h3 := Counts.counts_le who (P := isGive) (Q := isCall) (ls := ls) fun t => (phase_counts (hp t)).2
  rw [waits_eq, releases_eq]
  omega

/-- The counter never exceeds the maximum while nobody is inside a call, and a successful release
reports a value at most the maximum. -/
theorem bounded (start max : Nat) (as : List Act) (s : S) (ls : List Label)
    (h : exec (init start max) as = .ok (s, ls)) (hidle : ∀ t, s.owner ≠ some t) :
    s.count ≤ max := by
  obtain ⟨⟨n, _, hn, hc⟩, _⟩ := linearizable start max as s ls h
  rw [hc hidle]; exact hn

/-- No wake-up is lost: when every thread is either outside or blocked inside a wait, and one is
blocked, then there is no unit it could have. -/
theorem no_lost_wakeup (start max : Nat) (as : List Act) (s : S) (ls : List Label)
    (h : exec (init start max) as = .ok (s, ls))
    (hq : ∀ t, s.pc t = .idle ∨ ∃ w, s.pc t = .wBlocked w) (u w : Nat)
    (hu : s.pc u = .wBlocked w) : s.count = 0 := by
  obtain ⟨n, hi, hw⟩ := exec_w as (init_inv start max) (Or.inl rfl) h
  have hn : s.count = n := by
    rcases hi.quiet with ⟨t, ht⟩ | hq'
    · rcases hq t with e | ⟨w, e⟩ <;> rw [e] at ht <;> cases ht
    · exact hq'
  rw [hn]
  rcases hw with hw | ⟨L, _, hL, hw⟩
  · have := (hi.queue u).mpr (by rw [hu]; rfl)
    rw [hw] at this; cases this
  · have hL0 : L = [] := by
      cases L with
      | nil => rfl
      | cons t L =>
        have := hL t (List.mem_cons_self ..)
        rcases hq t with e | ⟨w, e⟩ <;> rw [e] at this <;> cases this
    rcases hw with hw | ⟨_, t, ht⟩
    · rw [hL0] at hw; exact Nat.le_zero.mp hw
    · rcases hq t with e | ⟨w, e⟩ <;> rw [e] at ht <;> cases ht

/-- With a unit there and nobody inside, a wait succeeds without blocking, whatever its time limit,
and takes one unit. -/
theorem wait_succeeds (s : S) (t : Nat) (hpc : s.pc t = .idle) (ho : s.owner = none)
    (hc : s.count ≠ 0) (wait p : Nat) :
    ∃ s', exec s [.callWait t wait, .run t p, .run t p, .run t p, .run t p]
        = .ok (s', [.callWait t wait, .take t, .retWait t true]) ∧ s'.count = s.count - 1 ∧
      s'.owner = none ∧ s'.pc t = .idle := by
  simp [exec, step, hpc, run, S.goto, ho, hc]

/-- Without a unit, a wait with time limit 0 fails at once and changes nothing. -/
theorem try_fails (s : S) (t : Nat) (hpc : s.pc t = .idle) (ho : s.owner = none)
    (hc : s.count = 0) (p : Nat) :
    ∃ s', exec s [.callWait t 0, .run t p, .run t p, .run t p]
        = .ok (s', [.callWait t 0, .retWait t false]) ∧ s'.count = 0 ∧
      s'.owner = none ∧ s'.pc t = .idle := by
  simp [exec, step, hpc, run, S.goto, ho, hc]

/-- A release with nobody inside adds one unit, up to the maximum, and reports the value before. -/
theorem release_gives (s : S) (t : Nat) (hpc : s.pc t = .idle) (ho : s.owner = none)
    (hq : s.queue = []) (hlt : s.count < 4294967295) (p : Nat) :
    ∃ s', exec s (.callRelease t :: List.replicate 7 (.run t p))
        = .ok (s', [.callRelease t, .give t s.count, .retRelease t true s.count]) ∧
      s'.count = min s.max (s.count + 1) ∧ s'.owner = none ∧ s'.pc t = .idle := by
  have hm : (s.count + 1) % 4294967296 = s.count + 1 := Nat.mod_eq_of_lt (by omega)
  simp [exec, step, hpc, run, S.goto, ho, hq, hm, List.replicate]
  split <;> omega

/-- A release with a thread blocked wakes one, which then finds the unit. -/
theorem release_wakes (s : S) (t u w : Nat) (hpc : s.pc t = .idle) (ho : s.owner = none)
    (hu : s.pc u = .wBlocked w) (hq : s.queue = [u]) (h0 : s.count = 0) (hmax : 0 < s.max) (p : Nat) :
    ∃ s', exec s (.callRelease t :: (List.replicate 7 (.run t u) ++ List.replicate 4 (.run u p)))
        = .ok (s', [.callRelease t, .give t 0, .retRelease t true 0, .take u, .retWait u true]) ∧
      s'.count = 0 ∧ s'.owner = none ∧ s'.queue = [] := by
  have hut : u ≠ t := by intro e; rw [e, hpc] at hu; cases hu
  have hle : ¬ s.max < 1 := by omega
  simp [exec, step, hpc, run, S.goto, ho, hq, h0, hu, hut, hut.symm, List.replicate, hle]

/-- Two threads, one unit: thread 1 takes it, thread 2 blocks, thread 1 releases, thread 2 goes on. -/
example : ∃ s, exec (init 1 1)
    ([.callWait 1 infinite, .run 1 0, .run 1 0, .run 1 0, .run 1 0, .callWait 2 infinite, .run 2 0,
      .run 2 0, .callRelease 1] ++ List.replicate 7 (.run 1 2) ++ List.replicate 4 (.run 2 0))
    = .ok (s, [.callWait 1 infinite, .take 1, .retWait 1 true, .callWait 2 infinite, .callRelease 1,
        .give 1 0, .retRelease 1 true 0, .take 2, .retWait 2 true]) := ⟨_, rfl⟩

/-- A state as `no_lost_wakeup` speaks of: thread 2 blocked, everybody else outside. -/
example : ∃ s ls, exec (init 0 5) [.callWait 2 infinite, .run 2 0, .run 2 0] = .ok (s, ls) ∧
    s.pc 2 = .wBlocked infinite ∧ s.pc 1 = .idle := ⟨_, _, rfl, rfl, rfl⟩

/-- The counter at its largest maximum wraps: all units are lost. -/
theorem release_wraps : ∃ s, exec (init 4294967295 4294967295)
    (.callRelease 1 :: List.replicate 7 (.run 1 0))
    = .ok (s, [.callRelease 1, .give 1 4294967295, .retRelease 1 true 4294967295]) ∧ s.count = 0 ∧
      s.owner = none := ⟨_, rfl, rfl, rfl⟩

/-- The mutex is held by a thread that has left its critical section. -/
def Leaked (s : S) : Prop := (∃ o, s.owner = some o) ∧ ∀ t, crit (s.pc t) = false

theorem leaked_step {s s' : S} {a : Act} {ls : List Label} (h : Leaked s)
    (he : step s a = .ok (some (s', ls))) :
    Leaked s' ∧ ∀ t r, Label.retWait t true ∉ ls ∧ Label.retRelease t true r ∉ ls := by
  obtain ⟨⟨o, ho⟩, hc⟩ := h
  have go : ∀ (s1 : S) (t : Nat) (p : Pc), s1.owner = s.owner → s1.pc = s.pc → crit p = false →
      Leaked (s1.goto t p) := by
    intro s1 t p h1 h2 h3
    refine ⟨⟨o, by rw [← ho, ← h1]; rfl⟩, fun u => ?_⟩
    rw [goto_pc, h2]
    split
    · exact h3
    · exact hc u
  have nm : ∀ l : Label, (∀ t r, l ≠ .retWait t true ∧ l ≠ .retRelease t true r) →
      ∀ t r, Label.retWait t true ∉ [l] ∧ Label.retRelease t true r ∉ [l] := by
    intro l hl t r
    exact ⟨fun hm => (hl t r).1 (List.mem_singleton.mp hm).symm,
      fun hm => (hl t r).2 (List.mem_singleton.mp hm).symm⟩
  cases a with
  | callWait t wait =>
    simp only [step] at he
    split at he
    · cases he
      exact ⟨go s t _ rfl rfl rfl, nm _ fun _ _ => ⟨(fun e => nomatch e), (fun e => nomatch e)⟩⟩
    · cases he
  | callRelease t =>
    simp only [step] at he
    split at he
    · cases he
      exact ⟨go s t _ rfl rfl rfl, nm _ fun _ _ => ⟨(fun e => nomatch e), (fun e => nomatch e)⟩⟩
    · cases he
  | run t pick =>
    rw [step, run] at he
    have hct := hc t
    cases hpc : s.pc t <;> rw [hpc] at he hct <;> simp only [ho] at he <;>
      first | (cases he; done) | (cases hct; done) | skip
    split at he
    · cases he
      exact ⟨go s t _ rfl rfl rfl, nm _ fun _ _ => ⟨(fun e => nomatch e), (fun e => nomatch e)⟩⟩
    · cases he
  | fail t =>
    rw [step, fail] at he
    have hct := hc t
    cases hpc : s.pc t <;> rw [hpc] at he hct <;>
      first | (cases he; done) | (cases hct; done) | skip
    · cases he
      exact ⟨go s t _ rfl rfl rfl, nm _ fun _ _ => ⟨(fun e => nomatch e), (fun e => nomatch e)⟩⟩
    · cases he
      exact ⟨go s t _ rfl rfl rfl, nm _ fun _ _ => ⟨(fun e => nomatch e), (fun e => nomatch e)⟩⟩
  | wake t zero =>
    rw [step] at he
    cases hpc : s.pc t <;> rw [hpc] at he <;> first | (cases he; done) | skip
    cases he
    exact ⟨go { s with queue := s.queue.erase t } t _ rfl rfl rfl,
      fun _ _ => ⟨(fun e => nomatch e), (fun e => nomatch e)⟩⟩

theorem leaked_exec {s s' : S} {as : List Act} {ls : List Label} (h : Leaked s)
    (he : exec s as = .ok (s', ls)) (t r : Nat) :
    Label.retWait t true ∉ ls ∧ Label.retRelease t true r ∉ ls := by
  induction as generalizing s ls with
  | nil => cases he; exact ⟨(fun e => nomatch e), (fun e => nomatch e)⟩
  | cons a as ih =>
    rw [exec] at he
    cases hs : step s a with
    | error e => rw [hs] at he; cases he
    | ok x =>
      rw [hs, ok_bind] at he
      cases x with
      | none => exact ih h he
      | some y =>
        obtain ⟨s1, l1⟩ := y
        obtain ⟨h1, h2⟩ := leaked_step h hs
        dsimp only at he
        cases hr : exec s1 as with
        | error e => rw [hr] at he; cases he
        | ok z =>
          rw [hr, ok_bind] at he
          cases he
          have h3 := ih h1 hr
          have h4 := h2 t r
          exact ⟨fun hm => (List.mem_append.mp hm).elim h4.1 h3.1,
            fun hm => (List.mem_append.mp hm).elim h4.2 h3.2⟩

/-- A timed wait whose clock call fails returns false and leaves the mutex locked: whatever happens
afterwards, no wait and no release ever succeeds again. -/
theorem clock_failure_locks : ∃ s, exec (init 0 1) [.callWait 1 50, .run 1 0, .fail 1]
    = .ok (s, [.callWait 1 50, .retWait 1 false]) ∧
      ∀ as s' ls, exec s as = .ok (s', ls) → ∀ t r, Label.retWait t true ∉ ls ∧
        Label.retRelease t true r ∉ ls := by
  refine ⟨_, rfl, fun as s' ls h => leaked_exec ⟨⟨1, rfl⟩, fun t => ?_⟩ h⟩
  show crit (if t = 1 then _ else if t = 1 then _ else if t = 1 then _ else _) = false
  by_cases h : t = 1
  · rw [if_pos h]; rfl
  · rw [if_neg h, if_neg h, if_neg h]; rfl

end Verif.Sem
