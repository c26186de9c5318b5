import Verif.Client.JoinCore
import Verif.Client.JoinWin

/-! # Waiting for several workers with one semaphore (C148) -/

namespace Verif.Client.Join

open Verif.Sem (Label Act S step init exec isRet isTake isGive isCall)
open Verif.Sem.Spec (waits)
open Verif.Client.Win (W)

/-- However the steps interleave and whichever calls fail or time out: when as many waits of the waiting thread have succeeded as there were units
at the beginning, and one for each worker, then every worker has finished its result and released (or is about to return from that). -/
theorem join_all {σ : Type} (n start max : Nat) (d : Nat → σ) (as : List (Do Act σ)) (t : Nat) (ht : t < n)
    (hg : (run step n (min start max) (begin0 (init start max) d) as).p.got = min start max + n) :
    (run step n (min start max) (begin0 (init start max) d) as).p.cl t = .finished ∨
      (run step n (min start max) (begin0 (init start max) d) as).p.cl t = .releasing := by
  have h := all_done (Sem.sem_credit start max) (run_inv (Sem.sem_credit start max) as (begin_inv step (init start max) n d)) hg ht
  cases hc : (run step n (min start max) (begin0 (init start max) d) as).p.cl t with
  | working => exact absurd (.inl hc) h
  | again => exact absurd (.inr hc) h
  | releasing => exact .inr rfl
  | finished => exact .inl rfl

/-- What the waiting thread has read is what the workers have written in the end: no result changes after it was read, whatever happens later. -/
theorem join_reads {σ : Type} (n start max : Nat) (d : Nat → σ) (as : List (Do Act σ)) (t : Nat) (x : σ)
    (h : (t, x) ∈ (run step n (min start max) (begin0 (init start max) d) as).seen) :
    t < n ∧ (run step n (min start max) (begin0 (init start max) d) as).data t = x :=
  have hi := run_inv (Sem.sem_credit start max) as (begin_inv step (init start max) n d)
  ⟨(hi.seen _ h).1, (hi.seen _ h).2.2⟩

/-- If the semaphore can have enough units, the waiting thread gets through: when all workers have released and nobody is inside a call, and
fewer waits have succeeded than are needed, the next one succeeds, whatever its time limit.
Missing: semaphores with a smaller maximum (`join_lost`, `join_created_lost`). -/
theorem join_through_partial {σ : Type} (n start max : Nat) (d : Nat → σ) (as : List (Do Act σ)) (s : St S σ)
    (hs : s = run step n (min start max) (begin0 (init start max) d) as)
    (hm : start + n ≤ max) (hw : max < 4294967296) (hf : ∀ t, t < n → s.p.cl t = .finished) (hidle : ∀ t, s.lib.pc t = .idle)
    (ho : s.lib.owner = none) (hlt : waits s.tr < start + n) (wait p : Nat) :
    ∃ s', exec s.lib [.callWait n wait, .run n p, .run n p, .run n p, .run n p] =
      .ok (s', [.callWait n wait, .take n, .retWait n true]) := by
  have hi := run_inv (Sem.sem_credit start max) as (begin_inv (σ := σ) step (init start max) n d)
  rw [← hs] at hi
  obtain ⟨bs, he⟩ := hi.trace.exec
  obtain ⟨s', ls', v, h', hinv, ha, hmx, hp⟩ := Verif.Sem.exec_ok bs (Verif.Sem.init_inv start max)
  rw [he] at h'
  cases h'
  have hph : ∀ t, Verif.Sem.Spec.phase t (some .out) s.tr = some .out := fun t => by
    have := hp t
    rw [hidle t] at this
    exact this
  have h1 := Counts.counts_le Verif.Sem.Spec.who (P := isTake) (Q := isRet) (ls := s.tr) fun t => by
    have := (phase_took (hph t)).1
    simp only [took] at this
    omega
  have h2 := Counts.counts_le Verif.Sem.Spec.who (P := isSucc) (Q := isGive) (ls := s.tr) fun t => by
    have := (phase_took (hph t)).2
    simp only [gave] at this
    omega
  have h3 := Counts.counts_le Verif.Sem.Spec.who (P := Sem.isEnd) (Q := isCall) (ls := s.tr) fun t =>
    Sem.phase_end (by rw [hph t]; rfl)
  rw [Sem.end_counts] at h3
  have h4 := hi.k.owes [] List.nodup_nil (fun _ h => nomatch h)
  have h5 := hi.k.done (List.range n) List.nodup_range fun t ht => hf t (List.mem_range.1 ht)
  rw [List.length_range] at h5
  simp only [List.length_nil] at h4
  have hms : min start max = start := by omega
  have h6 := atomic_exact (max := max) hw (ls := s.tr) (m := min start max) ha (by omega)
  rw [Verif.Sem.waits_eq] at hlt
  have hcount : s.lib.count = v := by
    rcases hinv.quiet with ⟨t, ht⟩ | hq
    · have := hinv.crit t (Verif.Sem.crit_of_clamping ht)
      rw [ho] at this
      cases this
    · exact hq
  obtain ⟨s'', h7, -⟩ := Verif.Sem.wait_succeeds s.lib n (hidle n) ho (by omega) wait p
  exact ⟨s'', h7⟩

/-- Worker `t` writes `x` and releases. -/
def work {σ : Type} (t : Nat) (x : σ) : List (Do Act σ) :=
  [.build t x, .lib (.callRelease t)] ++ List.replicate 7 (.lib (.run t 9))

/-- Thread `n` waits. -/
def await {σ : Type} (n : Nat) : List (Do Act σ) := [.lib (.callWait n 5)] ++ List.replicate 4 (.lib (.run n 9))

/-- Negation of C148: two workers, a semaphore of one unit.  Both releases say they have succeeded and nobody is inside a call, but one unit is
lost, and the waiting thread needs one more. -/
theorem join_lost : let s := run step 2 0 (begin0 (init 0 1) fun _ => 0) (work 0 7 ++ work 1 8 ++ await 2)
    s.p.cl 0 = .finished ∧ s.p.cl 1 = .finished ∧ s.p.waiting = false ∧ s.p.got = 1 ∧ s.lib.count = 0 ∧ s.lib.owner = none := by
  refine ⟨rfl, rfl, rfl, rfl, rfl, rfl⟩

/-- Negation of C148: a semaphore made by `Create` is full; what a worker releases before the waiting thread has taken a unit is lost. -/
theorem join_created_lost : let s := run step 1 2 (begin0 (init 2 2) fun _ => 0) (work 0 7 ++ await 1 ++ await 1)
    s.p.cl 0 = .finished ∧ s.p.waiting = false ∧ s.p.got = 2 ∧ s.lib.count = 0 ∧ s.lib.owner = none := by
  refine ⟨rfl, rfl, rfl, rfl, rfl⟩

/-- The hypotheses of `join_through_partial` are met: one worker that has released, nobody has waited yet. -/
example : ∃ s', exec (run step 1 0 (begin0 (init 0 1) fun _ => 0) (work 0 7)).lib [.callWait 1 0, .run 1 0, .run 1 0, .run 1 0, .run 1 0] =
    .ok (s', [.callWait 1 0, .take 1, .retWait 1 true]) :=
  join_through_partial 1 0 1 (fun _ => 0) (work 0 7) _ rfl (by decide) (by decide)
    (fun t ht => by obtain rfl : t = 0 := by omega
                    rfl)
    (fun t => match t with
      | 0 => rfl
      | _ + 1 => rfl) rfl (by decide) 0 0

/-- Three workers, results 7, 8 and 9; the waiting thread begins before the last is finished. -/
example : (run step 3 0 (begin0 (init 0 3) fun _ => 0) (work 1 8 ++ await 3 ++ [.read 1] ++ work 2 9 ++ await 3 ++ work 0 7 ++ await 3 ++
    [.read 0, .read 1, .read 2, .build 0 5])).seen = [(0, 7), (1, 8), (2, 9)] := rfl

/-- A failed release is repeated. -/
example : (run step 1 0 (begin0 (init 0 3) fun _ => 0) ([.build 0 5, .lib (.callRelease 0), .lib (.fail 0), .build 0 6, .read 0, .lib (.callRelease 0)] ++
    List.replicate 7 (.lib (.run 0 9)) ++ await 1 ++ [.read 0])).seen = [(0, 5)] := rfl

/-! ## Windows -/

/-- `join_all` for the Windows semaphore, which begins with the maximum. -/
theorem win_join_all {σ : Type} (n m : Nat) (d : Nat → σ) (as : List (Do Win.Act σ)) (t : Nat) (ht : t < n)
    (hg : (run (Event.boxStep Win.step) n m (begin0 (Win.sem m) d) as).p.got = m + n) :
    (run (Event.boxStep Win.step) n m (begin0 (Win.sem m) d) as).p.cl t = .finished ∨
      (run (Event.boxStep Win.step) n m (begin0 (Win.sem m) d) as).p.cl t = .releasing := by
  have hc : Sem.Credit (Event.boxStep Win.step) (Win.sem m) m := Event.box_credit (Win.credit (fun _ => rfl) rfl)
  have h := all_done hc (run_inv hc as (begin_inv (Event.boxStep Win.step) (Win.sem m) n d)) hg ht
  cases hc : (run (Event.boxStep Win.step) n m (begin0 (Win.sem m) d) as).p.cl t with
  | working => exact absurd (.inl hc) h
  | again => exact absurd (.inr hc) h
  | releasing => exact .inr rfl
  | finished => exact .inl rfl

/-- `join_reads` for the Windows semaphore. -/
theorem win_join_reads {σ : Type} (n m : Nat) (d : Nat → σ) (as : List (Do Win.Act σ)) (t : Nat) (x : σ)
    (h : (t, x) ∈ (run (Event.boxStep Win.step) n m (begin0 (Win.sem m) d) as).seen) :
    t < n ∧ (run (Event.boxStep Win.step) n m (begin0 (Win.sem m) d) as).data t = x :=
  have hc : Sem.Credit (Event.boxStep Win.step) (Win.sem m) m := Event.box_credit (Win.credit (fun _ => rfl) rfl)
  have hi := run_inv hc as (begin_inv (Event.boxStep Win.step) (Win.sem m) n d)
  ⟨(hi.seen _ h).1, (hi.seen _ h).2.2⟩

theorem wait_through {s : W} {n : Nat} (hi : s.pc n = .idle) (hv : s.val ≠ 0) (wait : Nat) :
    ∃ s1 s2 s3, Event.boxStep Win.step s (.callWait n wait) = .ok (some (s1, [.callWait n wait])) ∧
      Event.boxStep Win.step s1 (.run n) = .ok (some (s2, [.take n])) ∧
      Event.boxStep Win.step s2 (.run n) = .ok (some (s3, [.retWait n true])) := by
  refine ⟨s.goto n (.wait wait), ({ s.goto n (.wait wait) with val := Win.left s.kind s.val } : W).goto n (.waited true),
    (({ s.goto n (.wait wait) with val := Win.left s.kind s.val } : W).goto n (.waited true)).goto n .idle, ?_, ?_, ?_⟩
  · simp [Event.boxStep, Win.step, hi, Event.asSem]
  · simp [Event.boxStep, Win.step, Win.run, W.goto, put_self, hv, Event.asSem]
  · simp [Event.boxStep, Win.step, Win.run, W.goto, put_self, Event.asSem]

/-- On Windows the waiting thread gets through, whatever the maximum: when all workers have released and nobody is inside a call, and
fewer waits have succeeded than are needed, the next one succeeds, whatever its time limit. -/
theorem win_join_through {σ : Type} (n m : Nat) (d : Nat → σ) (as : List (Do Win.Act σ)) (s : St W σ)
    (hs : s = run (Event.boxStep Win.step) n m (begin0 (Win.sem m) d) as)
    (hf : ∀ t, t < n → s.p.cl t = .finished) (hidle : ∀ t, s.lib.pc t = .idle) (hlt : waits s.tr < m + n) (wait : Nat) :
    ∃ s1 s2 s3, Event.boxStep Win.step s.lib (.callWait n wait) = .ok (some (s1, [.callWait n wait])) ∧
      Event.boxStep Win.step s1 (.run n) = .ok (some (s2, [.take n])) ∧
      Event.boxStep Win.step s2 (.run n) = .ok (some (s3, [.retWait n true])) := by
  have hc : Sem.Credit (Event.boxStep Win.step) (Win.sem m) m := Event.box_credit (Win.credit (fun _ => rfl) rfl)
  have hi := run_inv hc as (begin_inv (σ := σ) (Event.boxStep Win.step) (Win.sem m) n d)
  rw [← hs] at hi
  have hw := trace_winv hi.trace
  have h1 := Counts.counts_le Verif.Sem.Spec.who (P := isTake) (Q := isRet) (ls := s.tr) fun t => by
    have := hw.ret t
    rw [hidle t] at this
    exact Nat.le_of_eq this
  have h2 := Counts.counts_le Verif.Sem.Spec.who (P := isSucc) (Q := isGive) (ls := s.tr) fun t => by
    have := hw.suc t
    rw [hidle t] at this
    exact Nat.le_of_eq this.symm
  have h5 := hi.k.done (List.range n) List.nodup_range fun t ht => hf t (List.mem_range.1 ht)
  rw [List.length_range] at h5
  rw [Verif.Sem.waits_eq] at hlt
  have h6 := hw.bal
  have hv : s.lib.val ≠ 0 := by omega
  exact wait_through (hidle n) hv wait

/-- Worker 0 is refused once, and thread 1 takes the unit that was there at the beginning. -/
def script : List (Do Win.Act Nat) :=
  [.build 0 7, .lib (.callFire 0), .lib (.run 0), .lib (.run 0), .lib (.callWait 1 5), .lib (.run 1), .lib (.run 1), .lib (.callFire 0), .lib (.run 0),
    .lib (.run 0), .lib (.callWait 1 5), .lib (.run 1), .lib (.run 1), .read 0]

/-- One worker and a semaphore of one unit: the first release is refused because the semaphore is full, the second succeeds after a unit was taken. -/
example : let s := run (Event.boxStep Win.step) 1 1 (begin0 (Win.sem 1) fun _ => 0) script
    s.seen = [(0, 7)] ∧ s.p.cl 0 = .finished ∧ s.p.got = 2 ∧ s.tr.countP Sem.isFail = 1 := ⟨rfl, rfl, rfl, rfl⟩

/-- The hypotheses of `win_join_through` are met: the worker has released after the unit of the beginning was taken. -/
example : ∃ s1 s2 s3, Event.boxStep Win.step (run (Event.boxStep Win.step) 1 1 (begin0 (Win.sem 1) fun _ => 0) (script.take 10)).lib (.callWait 1 0) =
      .ok (some (s1, [.callWait 1 0])) ∧ Event.boxStep Win.step s1 (.run 1) = .ok (some (s2, [.take 1])) ∧
      Event.boxStep Win.step s2 (.run 1) = .ok (some (s3, [.retWait 1 true])) :=
  win_join_through 1 1 (fun _ => 0) (script.take 10) _ rfl
    (fun t ht => by obtain rfl : t = 0 := by omega
                    rfl)
    (fun t => match t with
      | 0 => rfl
      | 1 => rfl
      | _ + 2 => rfl) (by decide) 0

end Verif.Client.Join
