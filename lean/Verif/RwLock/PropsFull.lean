import Verif.RwLock.FullLemmas
import Verif.RwLock.Props

/-!
# Theorems about the reader-writer lock on the real semaphores and event

The lock of `Verif.RwLock.Props` uses atomic objects.  Here it uses those of `Verif.Sem.Model` and
`Verif.Event.Model`, built from pthread mutexes and condition variables, whose steps interleave with
everything else.
-/

namespace Verif.RwLock.Full

open Spec (Few reading writing phase atomic)

/-- Whatever the threads do on the real objects is defined, and a run of the lock on the atomic
objects shows the same calls, results and effects in the same order. -/
theorem full_refines (free : Bool) (as : List Act) : ∃ s ls, exec free init as = .ok (s, ls) ∧
    ∃ bs, (RwLock.exec free RwLock.init bs).2 = ls ∧ (RwLock.exec free RwLock.init bs).1.rc = s.l.rc := by
  obtain ⟨s, ls, n, k, bs, he, -, hb⟩ := exec_same free as init_inv
  rw [abs_init] at hb
  exact ⟨s, ls, he, bs, by rw [hb], by rw [hb]; rfl⟩

/-- A writer never overlaps another writer. -/
theorem full_one_writer_partial (as : List Act) (s : S) (ls : List Label)
    (h : exec false init as = .ok (s, ls)) (hf : Few ls) (t u : Nat)
    (ht : writing t false ls = true) (hu : writing u false ls = true) : t = u := by
  obtain ⟨s', ls', he, bs, hb, -⟩ := full_refines false as
  rw [h] at he
  cases he
  rw [← hb] at hf ht hu
  exact one_writer_partial bs hf t u ht hu

/-- A writer never overlaps a reader. -/
theorem full_no_reader_partial (as : List Act) (s : S) (ls : List Label)
    (h : exec false init as = .ok (s, ls)) (hf : Few ls) (t u : Nat)
    (ht : writing t false ls = true) : reading u 0 ls = 0 := by
  obtain ⟨s', ls', he, bs, hb, -⟩ := full_refines false as
  rw [h] at he
  cases he
  rw [← hb] at hf ht ⊢
  exact no_reader_partial bs hf t u ht

/-- Linearizability. -/
theorem full_linearizable_partial (as : List Act) (s : S) (ls : List Label)
    (h : exec false init as = .ok (s, ls)) (hf : Few ls) :
    (atomic ([], none) ls).isSome = true ∧ ∀ t, (phase t (some .out) ls).isSome = true := by
  obtain ⟨s', ls', he, bs, hb, -⟩ := full_refines false as
  rw [h] at he
  cases he
  rw [← hb] at hf ⊢
  exact linearizable_partial bs hf

/-- Nobody waits for a free lock: if no system call fails, and every thread is either outside the lock
or blocked in one of its objects, and one is blocked, then some thread has a read lock or the write
lock, going by the results of its calls. -/
theorem full_no_lost_wakeup_partial (as : List Act) (s : S) (ls : List Label)
    (h : exec false init as = .ok (s, ls)) (hw : Few ls)
    (hf : ∀ p a q x l, as = p ++ a :: q → exec false init p = .ok (x, l) → faults x a = false)
    (hq : ∀ t, s.l.pc t = .idle ∨ inside s t) (u : Nat) (hu : inside s u) :
    ∃ t, 0 < reading t 0 ls ∨ writing t false ls = true := by
  obtain ⟨n, k, R, W, tw, tc, hi, hm, hl, hg⟩ := exec_live as (pre := []) init_inv
    (fun t e => nomatch e) (by rw [abs_init]; exact RwLock.init_inv) (by rw [abs_init]; exact init_live)
    rfl (fun _ => ⟨rfl, rfl⟩) hf h hw
  rw [List.nil_append] at hg
  obtain ⟨h1, h2⟩ := quiet_stuck hi hq
  obtain ⟨t, ht⟩ := live_held hm hl h1 u (h2 u hu)
  refine ⟨t, ht.imp (fun e => ?_) (fun e => ?_)⟩
  · rw [← (hg t).1]; exact e
  · rw [← (hg t).2]; exact e

/-- Thread `t` goes on for a while, wherever it is (impossible steps do nothing). -/
def go (t : Nat) : List Act :=
  [.enter t 4294967295] ++ List.replicate 9 (.inW (.run t 0)) ++ List.replicate 9 (.inC (.run t 0)) ++
    List.replicate 9 (.inE (.run t 0)) ++ List.replicate 2 (.lock (.run t))

/-- Threads 1 and 2 read, thread 3 blocks in the event. -/
def demo : List Act :=
  [.lock (.callRead 1)] ++ go 1 ++ go 1 ++ go 1 ++ go 1 ++ go 1 ++ [.lock (.callRead 2)] ++
    go 2 ++ go 2 ++ go 2 ++ go 2 ++ go 2 ++ [.lock (.callWrite 3)] ++ go 3 ++ go 3

/-- Both readers leave; thread 3 is woken and writes. -/
def demo' : List Act :=
  demo ++ [.lock (.callReadUnlock 1)] ++ go 1 ++ go 1 ++ go 1 ++ [.lock (.callReadUnlock 2)] ++
    go 2 ++ go 2 ++ go 2 ++ go 2 ++ go 3 ++ go 3

def shows (as : List Act) (p : S → List Label → Bool) : Bool :=
  match exec false init as with
  | .ok (s, ls) => p s ls
  | .error _ => false

set_option maxRecDepth 20000 in
example : shows demo (fun s ls => reading 1 0 ls = 1 && reading 2 0 ls = 1 &&
    decide (s.e.pc 3 = .wBlocked 4294967295) && s.l.rc = 2) = true := rfl

/-- The hypotheses of `full_no_lost_wakeup_partial`: no action of `demo` is a failure in any state,
thread 3 is blocked, the others are outside. -/
def calm : Act → Bool
  | .lock _ | .enter _ _ | .inW (.run _ _) | .inC (.run _ _) | .inE (.run _ _) => true
  | _ => false

example (x : S) (a : Act) (h : calm a = true) : faults x a = false := by
  unfold calm at h
  split at h <;> first | rfl | cases h

set_option maxRecDepth 20000 in
example : demo.all calm = true ∧ shows demo (fun s _ => (List.range 6).all fun t =>
    if t = 3 then decide (s.e.pc t = .wBlocked 4294967295) else decide (s.l.pc t = .idle)) = true :=
  ⟨rfl, rfl⟩

set_option maxRecDepth 20000 in
example : shows demo' (fun _ ls => reading 1 0 ls = 0 && reading 2 0 ls = 0 && writing 3 false ls)
    = true := rfl

end Verif.RwLock.Full
