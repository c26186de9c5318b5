import Verif.Event.Wake

/-!
# Properties of events (C36, C60)
-/

namespace Verif.Event

open Spec

/-- Every execution is free of undefined behaviour, whatever the threads call and however the system
calls turn out. -/
theorem no_ub (manual signaled : Bool) (as : List Act) :
    ∃ s ls, exec (init manual signaled) as = .ok (s, ls) := by
  obtain ⟨s, ls, h, _⟩ := exec_ok as (init_inv manual signaled)
  exact ⟨s, ls, h⟩

/-- Linearizability: the effects of all calls, in the order in which they happen, are a history of
the atomic event, and for each thread every call has exactly the effect its result reports, between
its call and its return. -/
theorem linearizable (manual signaled : Bool) (as : List Act) (s : S) (ls : List Label)
    (h : exec (init manual signaled) as = .ok (s, ls)) :
    atomic manual signaled ls = some s.signaled ∧
    ∀ t, (phase t (some .out) ls).isSome = true := by
  obtain ⟨s', ls', h', hi, ha, hm, hp⟩ := exec_ok as (init_inv manual signaled)
  rw [h] at h'
  cases h'
  refine ⟨ha, fun t => ?_⟩
  have := hp t
  rw [show phOf ((init manual signaled).pc t) = Phase.out from rfl] at this
  rw [this]; rfl

/-- An automatic event lets at most one wait succeed per fire, plus one if it was signalled at the
start. -/
theorem auto_conserved (signaled : Bool) (as : List Act) (s : S) (ls : List Label)
    (h : exec (init false signaled) as = .ok (s, ls)) :
    waits ls ≤ fires ls + if signaled then 1 else 0 := by
  obtain ⟨ha, hp⟩ := linearizable false signaled as s ls h
  have h1 := atomic_counts ha
  have h2 := Counts.counts_le who (P := isRet) (Q := isPass) (ls := ls)
    fun t => (phase_counts (hp t)).1
  have h3 := Counts.counts_le who (P := isFire) (Q := isCall) (ls := ls)
    fun t => (phase_counts (hp t)).2
  rw [waits_eq, fires_eq]
  have : signaled.toNat = if signaled then 1 else 0 := by cases signaled <;> rfl
  omega

/-- A manual event that is signalled lets every wait pass at once, whatever its time limit, and stays
signalled. -/
theorem manual_open (s : S) (t : Nat) (hm : s.manual = true) (hs : s.signaled = true)
    (hpc : s.pc t = .idle) (ho : s.owner = none) (wait p : Nat) :
    ∃ s', exec s [.callWait t wait, .run t p, .run t p, .run t p]
        = .ok (s', [.callWait t wait, .pass t, .retWait t true]) ∧ s'.signaled = true ∧
      s'.owner = none ∧ s'.pc t = .idle := by
  simp [exec, step, hpc, run, S.goto, ho, hm, hs, lock, unlock]

/-- An automatic event that is signalled and has no waiters lets a wait pass at once and is not
signalled any more. -/
theorem auto_open (s : S) (t : Nat) (hm : s.manual = false) (hs : s.signaled = true)
    (hw : s.waiting = 0) (hpc : s.pc t = .idle) (ho : s.owner = none) (wait p : Nat) :
    ∃ s', exec s [.callWait t wait, .run t p, .run t p, .run t p, .run t p]
        = .ok (s', [.callWait t wait, .pass t, .retWait t true]) ∧ s'.signaled = false ∧
      s'.owner = none ∧ s'.pc t = .idle := by
  simp [exec, step, hpc, run, S.goto, ho, hm, hs, hw, lock, unlock]

/-- A wait with time limit 0 on an event that is not signalled fails at once and changes nothing. -/
theorem closed (s : S) (t : Nat) (hs : s.signaled = false) (hpc : s.pc t = .idle)
    (ho : s.owner = none) (p : Nat) :
    ∃ s', exec s [.callWait t 0, .run t p, .run t p, .run t p]
        = .ok (s', [.callWait t 0, .retWait t false]) ∧ s'.signaled = false ∧
      s'.owner = none ∧ s'.waiting = s.waiting := by
  simp [exec, step, hpc, run, S.goto, ho, hs, lock, unlock]

/-- Reset closes a manual event. -/
theorem reset_closes (s : S) (t : Nat) (hm : s.manual = true) (hpc : s.pc t = .idle)
    (ho : s.owner = none) (p : Nat) :
    ∃ s', exec s [.callReset t, .run t p, .run t p, .run t p, .run t p]
        = .ok (s', [.callReset t, .reset t, .retReset t true]) ∧ s'.signaled = false ∧
      s'.owner = none ∧ s'.pc t = .idle := by
  simp [exec, step, hpc, run, S.goto, ho, hm, lock, unlock]

/-- Reset of an automatic event is refused and changes nothing. -/
theorem reset_refused (s : S) (t : Nat) (hm : s.manual = false) (hpc : s.pc t = .idle) (p : Nat) :
    ∃ s', exec s [.callReset t, .run t p] = .ok (s', [.callReset t, .retReset t false]) ∧
      s'.signaled = s.signaled ∧ s'.owner = s.owner ∧ s'.pc t = .idle := by
  simp [exec, step, hpc, run, S.goto, hm]

/-- Fire signals the event. -/
theorem fire_signals (s : S) (t : Nat) (hpc : s.pc t = .idle) (ho : s.owner = none)
    (hq : s.queue = []) (p : Nat) :
    ∃ s', exec s [.callFire t, .run t p, .run t p, .run t p, .run t p]
        = .ok (s', [.callFire t, .fire t, .retFire t true]) ∧ s'.signaled = true ∧
      s'.owner = none := by
  cases hm : s.manual <;>
    simp [exec, step, hpc, run, S.goto, ho, hq, hm, lock, unlock, wakeAll]

/-- `Waiting` is exact: when every thread is outside or blocked, it is the number of blocked
threads (modulo 2^32). -/
theorem waiting_exact (manual signaled : Bool) (as : List Act) (s : S) (ls : List Label)
    (h : exec (init manual signaled) as = .ok (s, ls))
    (hq : ∀ t, s.pc t = .idle ∨ ∃ w, s.pc t = .wBlocked w) :
    ∃ L : List Nat, L.Nodup ∧ (∀ t, t ∈ L ↔ ∃ w, s.pc t = .wBlocked w) ∧
      s.waiting = L.length % 4294967296 := by
  obtain ⟨L, h1, h2, h3⟩ := (exec_2 (ne := false) as (init_inv manual signaled)
    (init_2 false manual signaled) (fun e => nomatch e) h).cnt
  refine ⟨L, h1, fun t => ?_, h3⟩
  rw [h2]
  rcases hq t with e | ⟨w, e⟩ <;> rw [e]
  · exact ⟨fun e => (nomatch e), fun ⟨_, e⟩ => (nomatch e)⟩
  · exact ⟨fun _ => ⟨w, rfl⟩, fun _ => rfl⟩

/-- No wake-up of a manual event is lost: when every thread is outside or blocked inside a wait, and
one is blocked, then the event is not signalled. -/
theorem manual_no_lost_wakeup (signaled : Bool) (as : List Act) (s : S) (ls : List Label)
    (h : exec (init true signaled) as = .ok (s, ls))
    (hq : ∀ t, s.pc t = .idle ∨ ∃ w, s.pc t = .wBlocked w) (u w : Nat)
    (hu : s.pc u = .wBlocked w) : s.signaled = false := by
  obtain ⟨s', ls', h', hi, _, hm, _⟩ := exec_ok as (init_inv true signaled)
  rw [h] at h'
  cases h'
  have h2 := exec_2 (ne := false) as (init_inv true signaled)
    (init_2 false true signaled) (fun e => nomatch e) h
  cases hs : s.signaled
  · rfl
  · rcases h2.man hm hs with ⟨hqe, _⟩ | ⟨t, ht⟩
    · have := (hi.queue u).mpr (by rw [hu]; rfl)
      rw [hqe] at this; cases this
    · rcases hq t with e | ⟨w, e⟩ <;> rw [e] at ht <;> cases ht

/-- The same for an automatic event, as long as no wait has timed out (or failed) while blocked.

Missing from the full statement: executions with time-outs; there it is false, see
`auto_lost_wakeup`. -/
theorem auto_no_lost_wakeup_partial (signaled : Bool) (as : List Act) (s : S) (ls : List Label)
    (h : exec (init false signaled) as = .ok (s, ls))
    (hne : ∀ t, Act.wake t false ∉ as)
    (hq : ∀ t, s.pc t = .idle ∨ ∃ w, s.pc t = .wBlocked w) (u w : Nat)
    (hu : s.pc u = .wBlocked w) : s.signaled = false := by
  obtain ⟨s', ls', h', hi, _, hm, _⟩ := exec_ok as (init_inv false signaled)
  rw [h] at h'
  cases h'
  have h2 := exec_2 (ne := true) as (init_inv false signaled)
    (init_2 true false signaled) (fun _ a ha => by
      cases a with
      | wake t z => cases z
                    · exact absurd ha (hne t)
                    · rfl
      | _ => rfl) h
  cases hs : s.signaled
  · rfl
  · rcases h2.aut rfl hm hs with ⟨hqe, _⟩ | ⟨t, ht⟩
    · have := (hi.queue u).mpr (by rw [hu]; rfl)
      rw [hqe] at this; cases this
    · rcases hq t with e | ⟨w, e⟩ <;> rw [e] at ht <;> cases ht

/-- The actions of `auto_lost_wakeup`: thread 1 waits with a time limit; it times out, but before it
gets the mutex back thread 2 fires the event and thread 3 starts to wait without limit. -/
def lostActs : List Act :=
  [.callWait 1 10, .run 1 0, .run 1 0, .run 1 0, .run 1 0, .wake 1 false,
   .callFire 2, .run 2 0, .run 2 0, .run 2 0, .run 2 0,
   .callWait 3 infinite, .run 3 0, .run 3 0, .run 3 0, .run 3 0,
   .run 1 0, .run 1 0, .run 1 0]

/-- An automatic event can lose a wake-up: the event is signalled, nobody is inside any more, and
still thread 3 is blocked without limit; a further wait without limit blocks as well. -/
theorem auto_lost_wakeup : ∃ s ls, exec (init false false) lostActs = .ok (s, ls) ∧
    ls = [.callWait 1 10, .callFire 2, .fire 2, .retFire 2 true, .callWait 3 infinite,
      .retWait 1 false] ∧
    s.signaled = true ∧ s.owner = none ∧ s.pc 1 = .idle ∧ s.pc 2 = .idle ∧
    s.pc 3 = .wBlocked infinite ∧
    ∃ s', exec s [.callWait 4 infinite, .run 4 0, .run 4 0, .run 4 0, .run 4 0]
      = .ok (s', [.callWait 4 infinite]) ∧ s'.pc 4 = .wBlocked infinite :=
  ⟨_, _, rfl, rfl, rfl, rfl, rfl, rfl, rfl, _, rfl, rfl⟩

/-- Thread 1 blocks on an automatic event, thread 2 fires it, thread 1 passes; the event is closed
again. -/
example : ∃ s, exec (init false false)
    ([.callWait 1 infinite, .run 1 0, .run 1 0, .run 1 0, .run 1 0, .callFire 2] ++
      List.replicate 4 (.run 2 1) ++ List.replicate 5 (.run 1 0))
    = .ok (s, [.callWait 1 infinite, .callFire 2, .fire 2, .retFire 2 true, .pass 1,
        .retWait 1 true]) ∧ s.signaled = false ∧ s.waiting = 0 := ⟨_, rfl, rfl, rfl⟩

/-- A state as the wake-up theorems speak of: thread 2 blocked, everybody else outside. -/
example : ∃ s ls, exec (init true false) [.callWait 2 infinite, .run 2 0, .run 2 0, .run 2 0, .run 2 0]
    = .ok (s, ls) ∧ s.pc 2 = .wBlocked infinite ∧ s.pc 1 = .idle := ⟨_, _, rfl, rfl, rfl⟩

end Verif.Event
