import Verif.WinRwLock.Live
import Verif.RwLock.Wrap

/-!
# Property theorems: the reader-writer lock on Windows (C99, C100)

The specification is that of `Verif.RwLock.Spec`; it speaks about the calls and their results only.
-/

namespace Verif.WinRwLock

open Verif.RwLock (Label Act setAt)
open Verif.RwLock.Spec

/-! ## C99: exclusion -/

/-- A writer never overlaps another writer. -/
theorem win_one_writer (as : List Act) (t u : Nat) (ht : writing t false (exec false init as).2 = true)
    (hu : writing u false (exec false init as).2 = true) : t = u := by
  obtain ⟨R, W, tw, tc, hi, _, _, _, hg⟩ := reach as
  have h1 := hi.w1 t (Or.inl (by rw [(hg t).2]; exact ht))
  have h2 := hi.w1 u (Or.inl (by rw [(hg u).2]; exact hu))
  rw [h1] at h2
  cases h2
  rfl

/-- A writer never overlaps a reader. -/
theorem win_no_reader (as : List Act) (t u : Nat) (ht : writing t false (exec false init as).2 = true) :
    reading u 0 (exec false init as).2 = 0 := by
  obtain ⟨R, W, tw, tc, hi, _, _, _, hg⟩ := reach as
  have h1 := hi.w1 t (Or.inl (by rw [(hg t).2]; exact ht))
  have h2 := (hi.w2 t h1).1
  have h3 := hi.cnt u
  rw [h2, (hg u).1] at h3
  rw [List.count_nil] at h3
  omega

/-- Linearizability: readers and writers come and go as in the atomic reader-writer lock, and for
each thread every lock call has exactly the effect its result reports, between call and return. -/
theorem win_linearizable (as : List Act) :
    (atomic ([], none) (exec false init as).2).isSome = true ∧
    ∀ t, (phase t (some .out) (exec false init as).2).isSome = true := by
  obtain ⟨R, W, tw, tc, _, ha, _, hp, _⟩ := reach as
  exact ⟨by rw [ha]; rfl, fun t => by rw [hp t]; rfl⟩

/-- Never more than 2^31 - 1 readers are inside. -/
theorem win_readers_bound (as : List Act) : readers 0 (exec false init as).2 ≤ 2147483647 := by
  obtain ⟨R, W, tw, tc, hi, _, hr, _, _⟩ := reach as
  rw [← hr]
  have := hi.s1
  unfold longMax at this
  omega

/-- A free lock lets a writer in at once. -/
theorem win_write_free (s : S) (t : Nat) (hpc : s.pc t = .idle) (hw : s.wsem = true) (he : s.ev = true) :
    (exec false s [.callWrite t, .run t, .run t, .run t]).2 = [.callWrite t, .enterW t, .retWrite t true] := by
  simp [exec, step, hpc, run, S.goto, setAt, hw, he, retWrite]

/-- With no writer there or waiting, a reader gets in at once, whoever reads already. -/
theorem win_read_free (s : S) (t : Nat) (hpc : s.pc t = .idle) (hw : s.wsem = true)
    (hc : s.msem = true) (hr : 0 < s.rsem) :
    (exec false s ([.callRead t] ++ List.replicate 7 (.run t))).2
      = [.callRead t, .enterR t, .retRead t true] := by
  simp [exec, step, hpc, run, S.goto, setAt, hw, hc, hr, List.replicate, retRead]

/-- Two readers inside together, a writer waiting for them; when both are gone it gets in. -/
def demo : List Act :=
  [.callRead 1] ++ List.replicate 7 (.run 1) ++ [.callRead 2] ++ List.replicate 7 (.run 2) ++
    [.callWrite 3, .run 3, .run 3]

example : reading 1 0 (exec false init demo).2 = 1 ∧ reading 2 0 (exec false init demo).2 = 1 ∧
    (exec false init demo).1.pc 3 = .wE := by decide

example : writing 3 false (exec false init (demo ++ [.callReadUnlock 1] ++ List.replicate 4 (.run 1) ++
      [.callReadUnlock 2] ++ List.replicate 5 (.run 2) ++ [.run 3, .run 3])).2 = true := by decide

/-- Pairing is needed: `WriteUnlock` by a thread that has no write lock succeeds and lets a second
writer in. -/
theorem win_unpaired_breaks : let ls := (exec true init ([.callWrite 1, .run 1, .run 1, .run 1,
      .callWriteUnlock 2, .run 2, .run 2, .callWrite 3, .run 3, .run 3, .run 3])).2
    writing 1 false ls = true ∧ writing 3 false ls = true := by decide

/-! ## C100: progress -/

/-- Nobody waits for a free lock: if no system call fails but waits may time out, nobody can go on, somebody is
inside a call, and fewer than 2^31 - 1 readers are inside, then some thread has a read lock or the write lock, going by
the results of its calls. -/
theorem win_no_lost_wakeup (as : List Act)
    (hf : ∀ p a q, as = p ++ a :: q → faults (exec false init p).1 a = false)
    (hq : ∀ t, run (exec false init as).1 t = none)
    (hb : readers 0 (exec false init as).2 < 2147483647)
    (u : Nat) (hu : (exec false init as).1.pc u ≠ .idle) :
    ∃ t, 0 < reading t 0 (exec false init as).2 ∨ writing t false (exec false init as).2 = true := by
  obtain ⟨R, W, tw, tc, hi, hl, hr⟩ := exec_live as init_inv init_live hf
  obtain ⟨-, -, -, -, -, -, -, -, hg⟩ := reach as
  obtain ⟨t, ht⟩ := live_held hi hl hq (by rw [hr]; exact hb) u hu
  refine ⟨t, ht.imp (fun e => ?_) (fun e => ?_)⟩
  · rw [← (hg t).1]; exact e
  · rw [← (hg t).2]; exact e

/-- No action of `demo` is a failure, nobody can go on, and thread 3 is inside a call. -/
example : (∀ p a q, demo = p ++ a :: q → faults (exec false init p).1 a = false) ∧
    (∀ t, run (exec false init demo).1 t = none) ∧ (exec false init demo).1.pc 3 ≠ .idle ∧
    readers 0 (exec false init demo).2 = 2 := by
  refine ⟨fun p a q e => ?_, fun t => ?_, by decide, by decide⟩
  · have ha : a ∈ demo := by rw [e]; simp
    have : ∀ a ∈ demo, (match a with | .fail _ => false | _ => true) = true := by decide
    have h := this a ha
    cases a <;> first | rfl | cases h
  · by_cases h3 : t = 3
    · subst h3; rfl
    · have : (exec false init demo).1.pc t = .idle := by
        simp [demo, exec, step, run, init, S.goto, setAt, List.replicate, retRead, longMax, h3]
        intro h2
        simp [h2]
        intro h1
        simp [h1]
      unfold run
      rw [this]

/-- After a failing `SetEvent` in the last reader's unlock nobody has the lock and a writer waits for ever. -/
theorem win_set_failure_blocks : let r := exec false init ([.callRead 1] ++
      List.replicate 7 (.run 1) ++ [.callReadUnlock 1, .run 1, .run 1, .fail 1, .run 1, .run 1] ++
      [.callWrite 3, .run 3, .run 3, .run 3])
    atomic ([], none) r.2 = some ([], none) ∧ r.1.pc 1 = .idle ∧ r.1.pc 3 = .wE ∧ r.1.ev = false := by
  decide

/-- A failing release in `ReadUnlock` is reported, and the inner mutex is given back: the next reader gets in at once if one more fits and no writer is
there or waits. -/
theorem win_unlock_failure (s : S) (t u : Nat) (hpc : s.pc t = .uRel) (hu : s.pc u = .idle) (hw : s.wsem = true) (hr : 0 < s.rsem) :
    (exec false s ([.fail t, .run t, .run t, .callRead u] ++ List.replicate 7 (.run u))).2
      = [.retReadUnlock t false, .callRead u, .enterR u, .retRead u true] := by
  have hne : u ≠ t := by
    intro e
    rw [e, hpc] at hu
    cases hu
  simp [exec, step, hpc, hu, hne, fail, run, S.goto, setAt, hw, hr, List.replicate, retRead]

/-- Thread 1 is about to release, with nobody else there. -/
example : let s := (exec false init ([.callRead 1] ++ List.replicate 7 (.run 1) ++ [.callReadUnlock 1, .run 1])).1
    s.pc 1 = .uRel ∧ s.pc 2 = .idle ∧ s.wsem = true ∧ 0 < s.rsem := by decide

/-! ### The limit -/

/-- A read lock taken by thread 1. -/
def round : List Act := .callRead 1 :: List.replicate 7 (.run 1)

/-- `k` of them. -/
def rounds : Nat → List Act
  | 0 => []
  | k + 1 => round ++ rounds k

/-- Nobody is in a call, thread 1 has `n` read locks. -/
def resting (ev : Bool) (r n : Nat) : S :=
  { wsem := true, msem := true, rsem := r, ev := ev, pc := fun _ => .idle,
    rd := fun i => if i = 1 then n else 0, wr := fun _ => false }

theorem exec_app (free : Bool) (as bs : List Act) : ∀ s : S,
    exec free s (as ++ bs) = ((exec free (exec free s as).1 bs).1,
      (exec free s as).2 ++ (exec free (exec free s as).1 bs).2) := by
  induction as with
  | nil => intro s; rfl
  | cons a as ih =>
    intro s
    rw [List.cons_append, exec, exec]
    cases step free s a with
    | none => exact ih s
    | some x =>
      obtain ⟨s', l⟩ := x
      dsimp only
      rw [ih s', List.append_assoc]

theorem round_ok (ev : Bool) (r n : Nat) : exec false (resting ev (r + 1) n) round
    = (resting false r (n + 1), [.callRead 1, .enterR 1, .retRead 1 true]) := by
  have h1 : setAt (setAt (setAt (setAt (setAt (setAt (setAt (setAt (fun _ => Pc.idle) 1 .rW) 1 .rM)
      1 .rS) 1 .rReset) 1 (.rRelM true)) 1 (.rRelW true)) 1 (.rRet true)) 1 .idle
      = fun _ => Pc.idle := by
    funext i
    unfold setAt
    by_cases h : i = 1 <;> simp [h]
  have h2 : setAt (fun i => if i = 1 then n else 0) 1 (n + 1) = fun i => if i = 1 then n + 1 else 0 := by
    funext i
    unfold setAt
    by_cases h : i = 1 <;> simp [h]
  have h3 : exec false (resting ev (r + 1) n) round =
      ({ wsem := true, msem := true, rsem := r, ev := false,
         pc := setAt (setAt (setAt (setAt (setAt (setAt (setAt (setAt (fun _ => Pc.idle) 1 .rW) 1 .rM)
      1 .rS) 1 .rReset) 1 (.rRelM true)) 1 (.rRelW true)) 1 (.rRet true)) 1 .idle,
         rd := setAt (fun i => if i = 1 then n else 0) 1 (n + 1), wr := fun _ => false },
       [.callRead 1, .enterR 1, .retRead 1 true]) := rfl
  rw [h3, h1, h2]
  rfl

theorem rounds_ok (k : Nat) : ∀ (ev : Bool) (n : Nat),
    ∃ ls, exec false (resting ev (k + 1) n) (rounds (k + 1)) = (resting false 0 (n + (k + 1)), ls) ∧
      (∀ m, reading 1 m ls = m + (k + 1)) := by
  induction k with
  | zero =>
    intro ev n
    refine ⟨[.callRead 1, .enterR 1, .retRead 1 true], ?_, fun m => rfl⟩
    show exec false (resting ev (0 + 1) n) (round ++ []) = _
    rw [List.append_nil]
    exact round_ok ev 0 n
  | succ k ih =>
    intro ev n
    obtain ⟨ls, h, hr⟩ := ih false (n + 1)
    refine ⟨[.callRead 1, .enterR 1, .retRead 1 true] ++ ls, ?_, fun m => ?_⟩
    · show exec false (resting ev (k + 1 + 1) n) (round ++ rounds (k + 1)) = _
      rw [exec_app, round_ok]
      dsimp only
      rw [h]
      refine Prod.ext ?_ rfl
      dsimp only
      rw [show n + 1 + (k + 1) = n + (k + 1 + 1) by omega]
    · rw [RwLock.reading_append, hr]
      show m + 1 + (k + 1) = _
      omega

/-- Thread 2 waits for the semaphore with both mutexes, thread 1 for one of these. -/
structure Dead (s : S) : Prop where
  w : s.wsem = false
  m : s.msem = false
  r : s.rsem = 0
  p1 : s.pc 1 = .uM
  p2 : s.pc 2 = .rS
  o : ∀ t, t ≠ 1 → t ≠ 2 → (s.pc t = .idle ∨ s.pc t = .rW ∨ s.pc t = .wW) ∧ s.rd t = 0
  n : ∀ t, s.wr t = false

/-- Nothing but new calls that wait too. -/
theorem dead_step {s s' : S} {a : Act} {ls : List Label} (h : Dead s) (ha : ∀ t, a ≠ .fail t)
    (hs : step false s a = some (s', ls)) : Dead s' ∧ ∀ t r, .retReadUnlock t r ∉ ls ∧ .retRead t r ∉ ls ∧ .retWrite t r ∉ ls := by
  have hcall : ∀ (t : Nat) (p : Pc), s.pc t = .idle → (p = .rW ∨ p = .wW) → Dead (s.goto t p) := by
    intro t p hp hq
    have h1 : 1 ≠ t := fun e => by rw [← e, h.p1] at hp; cases hp
    have h2 : 2 ≠ t := fun e => by rw [← e, h.p2] at hp; cases hp
    refine ⟨h.w, h.m, h.r, ?_, ?_, fun u u1 u2 => ?_, h.n⟩
    · show setAt s.pc t p 1 = _
      rw [setAt_ne h1]; exact h.p1
    · show setAt s.pc t p 2 = _
      rw [setAt_ne h2]; exact h.p2
    · refine ⟨?_, (h.o u u1 u2).2⟩
      show setAt s.pc t p u = _ ∨ setAt s.pc t p u = _ ∨ setAt s.pc t p u = _
      by_cases e : u = t
      · subst e; rw [setAt_eq]; exact Or.inr hq
      · rw [setAt_ne e]; exact (h.o u u1 u2).1
  cases a with
  | fail t => exact absurd rfl (ha t)
  | callRead t =>
    unfold step at hs; dsimp only at hs
    split at hs
    · cases hs
      exact ⟨hcall t _ ‹_› (Or.inl rfl), by simp⟩
    · cases hs
  | callWrite t =>
    unfold step at hs; dsimp only at hs
    split at hs
    · cases hs
      exact ⟨hcall t _ ‹_› (Or.inr rfl), by simp⟩
    · cases hs
  | callReadUnlock t =>
    unfold step at hs; dsimp only at hs
    split at hs
    · rename_i hc
      have h0 : 0 < s.rd t := hc.2.resolve_left (fun e => nomatch e)
      have h1 : t ≠ 1 := fun e => by rw [e, h.p1] at hc; cases hc.1
      have h2 : t ≠ 2 := fun e => by rw [e, h.p2] at hc; cases hc.1
      have := (h.o t h1 h2).2
      omega
    · cases hs
  | callWriteUnlock t =>
    unfold step at hs; dsimp only at hs
    split at hs
    · rename_i hc
      have h0 := hc.2.resolve_left (fun e => nomatch e)
      rw [h.n t] at h0
      cases h0
    · cases hs
  | run t =>
    have hp : s.pc t = .uM ∨ s.pc t = .rS ∨ s.pc t = .idle ∨ s.pc t = .rW ∨ s.pc t = .wW := by
      by_cases h1 : t = 1
      · rw [h1]; exact Or.inl h.p1
      · by_cases h2 : t = 2
        · rw [h2]; exact Or.inr (Or.inl h.p2)
        · exact Or.inr (Or.inr (h.o t h1 h2).1)
    unfold step run at hs
    rcases hp with e | e | e | e | e <;> simp [e, h.m, h.r, h.w] at hs

theorem dead_exec (as : List Act) (ha : ∀ a ∈ as, ∀ t, a ≠ .fail t) : ∀ {s : S}, Dead s →
    ∀ t r, .retReadUnlock t r ∉ (exec false s as).2 ∧ .retRead t r ∉ (exec false s as).2 ∧
      .retWrite t r ∉ (exec false s as).2 := by
  induction as with
  | nil => intro s _ t r; simp [exec]
  | cons a as ih =>
    intro s h t r
    have ih' := fun {s : S} => ih (fun a h => ha a (List.mem_cons_of_mem _ h)) (s := s)
    rw [exec]
    cases hs : step false s a with
    | none => exact ih' h t r
    | some x =>
      obtain ⟨s1, l1⟩ := x
      obtain ⟨hd, hl⟩ := dead_step h (ha a (List.mem_cons_self ..)) hs
      dsimp only
      have h1 := hl t r
      have h2 := ih' hd t r
      simp only [List.mem_append, not_or]
      exact ⟨⟨h1.1, h2.1⟩, ⟨h1.2.1, h2.2.1⟩, h1.2.2, h2.2.2⟩

/-- The limit is needed: with 2^31 - 1 read locks taken, one more `ReadLock` without time limit waits for the semaphore with both
mutexes.  `ReadUnlock` waits for one of them, so it never returns, and neither does any other call. -/
theorem win_limit_deadlock : ∃ as, (∀ a ∈ as, ∀ t, a ≠ .fail t) ∧
    reading 1 0 (exec false init as).2 = 2147483646 ∧ (exec false init as).1.pc 1 = .uM ∧
    ∀ bs, (∀ a ∈ bs, ∀ t, a ≠ .fail t) → ∀ t r,
      .retReadUnlock t r ∉ (exec false (exec false init as).1 bs).2 ∧
      .retRead t r ∉ (exec false (exec false init as).1 bs).2 ∧
      .retWrite t r ∉ (exec false (exec false init as).1 bs).2 := by
  obtain ⟨ls, h, hr⟩ := rounds_ok 2147483646 true 0
  have hi : init = resting true (2147483646 + 1) 0 := by
    unfold init resting
    congr 1
    funext i
    by_cases e : i = 1 <;> simp [e]
  have hfin : (exec false (resting false 0 (0 + (2147483646 + 1)))
      [.callRead 2, .run 2, .run 2, .callReadUnlock 1]) =
      ({ wsem := false, msem := false, rsem := 0, ev := false,
         pc := setAt (setAt (setAt (setAt (fun _ => Pc.idle) 2 .rW) 2 .rM) 2 .rS) 1 .uM,
         rd := setAt (fun i => if i = 1 then 0 + (2147483646 + 1) else 0) 1 (0 + (2147483646 + 1) - 1),
         wr := fun _ => false }, [.callRead 2, .callReadUnlock 1]) := rfl
  refine ⟨rounds (2147483646 + 1) ++ [.callRead 2, .run 2, .run 2, .callReadUnlock 1], ?_, ?_, ?_, ?_⟩
  · have hro : ∀ k, ∀ a ∈ rounds k, ∀ t, a ≠ .fail t := by
      intro k
      induction k with
      | zero => intro a ha; cases ha
      | succ k ih =>
        intro a ha t e
        rw [rounds, List.mem_append] at ha
        rcases ha with ha | ha
        · subst e
          simp [round, List.replicate] at ha
        · exact ih a ha t e
    intro a ha t e
    rw [List.mem_append] at ha
    rcases ha with ha | ha
    · exact hro _ a ha t e
    · subst e; simp at ha
  · rw [exec_app, hi, h]
    dsimp only
    rw [hfin, RwLock.reading_append, hr]
    rfl
  · rw [exec_app, hi, h]
    dsimp only
    rw [hfin]
    rfl
  · intro bs hb
    refine dead_exec bs hb ?_
    rw [exec_app, hi, h]
    dsimp only
    rw [hfin]
    refine ⟨rfl, rfl, rfl, rfl, rfl, fun t t1 t2 => ⟨Or.inl ?_, ?_⟩, fun _ => rfl⟩
    · simp [setAt, t1, t2]
    · simp [setAt, t1]

end Verif.WinRwLock
