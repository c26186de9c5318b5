import Verif.WinTiming.Model
import Mathlib.Tactic.SplitIfs

/-!
# Property theorems: time on Windows (C114, C115)
-/

namespace Verif.WinTiming
open Verif.Timing (infinite u64)

/-! ## Specification -/

/-- Every wait with a limit of `l` milliseconds returns within it. -/
def Timely (S : Sys) : Prop := ∀ o l e, l ≠ infinite → (S.wait o l e).2 ≤ l * 1000

/-- No system call fails: a wait returns without the object only at the end of its time. -/
def NoFail (S : Sys) : Prop := S.reset = true ∧ ∀ o l e, (S.wait o l e).1 = false → l ≠ infinite ∧ l * 1000 ≤ (S.wait o l e).2

/-- The clock goes as the time does, nobody sets it. -/
def TrueClock (S : Sys) : Prop := ∃ c, ∀ e, S.clock e = c + e

/-! ## The clock -/

/-- C115: for every time of the system clock from 1970 on, in units of 100 ns since 1601, the result is the number of whole microseconds since 1970. -/
theorem win_micros (high low : Nat) (hh : high < 4294967296) (hl : low < 4294967296)
    (h : 116444736000000000 ≤ high * 4294967296 + low) :
    (micros high low : Int) = ((high * 4294967296 + low : Nat) - 116444736000000000 : Int) / 10 := by
  unfold micros u64
  omega

/-- One second, 123456 microseconds and 700 nanoseconds after the beginning of 1970. -/
example : 27111902 * 4294967296 + 3588877575 = 116444736000000000 + 11234567 ∧ micros 27111902 3588877575 = 1123456 := ⟨rfl, rfl⟩

/-! ## The limit -/

theorem next_none {S : Sys} {wait start e : Nat} {o : Obj}
    (h : wait < u64 ((seconds S wait e : Int) - start)) : next S wait start o e = (false, e) := by
  unfold next
  dsimp only
  rw [if_pos h]

theorem next_some {S : Sys} {wait start e : Nat} {o : Obj} (hw : wait ≤ infinite)
    (h : ¬ wait < u64 ((seconds S wait e : Int) - start)) :
    ∃ l, l = wait - u64 ((seconds S wait e : Int) - start) ∧
      next S wait start o e = ((S.wait o l e).1, e + (S.wait o l e).2) := by
  refine ⟨_, rfl, ?_⟩
  unfold next
  dsimp only
  rw [if_neg h]
  unfold infinite at hw
  have e1 : ∀ d : Nat, d ≤ wait → (((wait : Int) - d) % 4294967296).toNat = wait - d := by
    intro d hd
    omega
  rw [e1 _ (by omega)]

/-- A later wait keeps the limit. -/
theorem next_time {S : Sys} (hT : Timely S) {wait : Nat} (hw : wait < infinite) (start e : Nat) (o : Obj) :
    (next S wait start o e).2 ≤ e + wait * 1000 := by
  by_cases h : wait < u64 ((seconds S wait e : Int) - start)
  · rw [next_none h]; dsimp only; omega
  · obtain ⟨l, hl, h⟩ := next_some (o := o) (Nat.le_of_lt hw) h
    rw [h]
    have := hT o l e (by omega)
    dsimp only
    have : l ≤ wait := by omega
    omega

theorem andThen_time {r : Bool × Nat} {f : Nat → Bool × Nat} {a b : Nat} (h : r.2 ≤ a) (hf : ∀ e, e ≤ a → (f e).2 ≤ b) (hab : a ≤ b) :
    (andThen r f).2 ≤ b := by
  unfold andThen
  split
  · exact hf _ h
  · exact Nat.le_trans h hab

theorem andThen_true {r : Bool × Nat} {f : Nat → Bool × Nat} (h : r.1 = true) (hf : ∀ e, (f e).1 = true) : (andThen r f).1 = true := by
  unfold andThen
  rw [if_pos h]
  exact hf _

theorem andThen_got {r : Bool × Nat} {f : Nat → Bool × Nat} {e : Nat} (h : r = (true, e)) : andThen r f = f e := by
  subst h
  rfl

theorem andThen_lost {r : Bool × Nat} {f : Nat → Bool × Nat} {e : Nat} (h : r = (false, e)) : andThen r f = (false, e) := by
  subst h
  rfl

/-- What a call that returns false satisfies. -/
theorem andThen_false {r : Bool × Nat} {f : Nat → Bool × Nat} {P : Nat → Prop} {a : Nat} (hr : r.1 = false → P r.2) (h : r.2 ≤ a)
    (hf : ∀ e, e ≤ a → (f e).1 = false → P (f e).2) (h0 : (andThen r f).1 = false) : P (andThen r f).2 := by
  unfold andThen at h0 ⊢
  by_cases hc : r.1 = true
  · rw [if_pos hc] at h0 ⊢
    exact hf _ h h0
  · rw [if_neg hc]
    exact hr (by simpa using hc)

/-- C114 (partial): with a limit of `wait` milliseconds, `ReadLock` returns within three times that and `WriteLock` within twice that, whatever the
clock does.
Missing: the factors, see `win_read_limit_exceeded`, `win_write_limit_exceeded`. -/
theorem win_limit_partial (S : Sys) (hT : Timely S) (wait : Nat) (hw : wait < infinite) :
    (readLock S wait).2 ≤ 3 * (wait * 1000) ∧ (writeLock S wait).2 ≤ 2 * (wait * 1000) := by
  have h1 := hT .wmutex wait 0 (by omega)
  unfold readLock writeLock
  refine ⟨?_, ?_⟩
  · refine andThen_time (a := wait * 1000) h1 (fun e he => ?_) (by omega)
    refine andThen_time (a := 2 * (wait * 1000)) ?_ (fun e he => ?_) (by omega)
    · have := next_time hT hw (seconds S wait 0) e .smutex
      omega
    · refine andThen_time (a := 3 * (wait * 1000)) ?_ (fun e he => he) (Nat.le_refl _)
      have := next_time hT hw (seconds S wait 0) e .sem
      omega
  · refine andThen_time (a := wait * 1000) h1 (fun e he => ?_) (by omega)
    refine andThen_time (a := 2 * (wait * 1000)) ?_ (fun e he => he) (Nat.le_refl _)
    have := next_time hT hw (seconds S wait 0) e .event
    omega

/-- C114: with a limit of 0 the calls do not wait. -/
theorem win_nowait (S : Sys) (hT : Timely S) : (readLock S 0).2 = 0 ∧ (writeLock S 0).2 = 0 := by
  have := win_limit_partial S hT 0 (by decide)
  omega

theorem next_infinite {S : Sys} (hN : NoFail S) (e : Nat) (o : Obj) : (next S infinite (seconds S infinite 0) o e).1 = true := by
  have hs : ∀ e, seconds S infinite e = 0 := fun e => by unfold seconds; rw [if_pos rfl]
  obtain ⟨l, hl, h⟩ := next_some (S := S) (start := seconds S infinite 0) (e := e) (o := o) (Nat.le_refl infinite)
    (by rw [hs, hs]; unfold infinite u64; omega)
  rw [hs, hs] at hl
  have hl' : l = infinite := by rw [hl]; unfold infinite u64; omega
  rw [h, hl']
  cases hc : (S.wait o infinite e).1 with
  | true => rfl
  | false => exact absurd rfl (hN.2 o infinite e hc).1

/-- C114: without a limit the calls return true unless a system call fails. -/
theorem win_infinite (S : Sys) (hN : NoFail S) : (readLock S infinite).1 = true ∧ (writeLock S infinite).1 = true := by
  have h0 : (S.wait .wmutex infinite 0).1 = true := by
    cases hc : (S.wait .wmutex infinite 0).1 with
    | true => rfl
    | false => exact absurd rfl (hN.2 _ _ _ hc).1
  unfold readLock writeLock
  refine ⟨?_, ?_⟩
  · exact andThen_true h0 (fun e => andThen_true (next_infinite hN _ _) (fun e => andThen_true (next_infinite hN _ _) (fun e => hN.1)))
  · exact andThen_true h0 (fun e => andThen_true (next_infinite hN _ _) (fun e => rfl))

theorem early_arith {wait d e q : Nat} (h1 : d ≤ wait) (h2 : d * 1000000 ≤ e + 1000000) (h3 : (wait - d) * 1000 ≤ q) : wait * 1000 ≤ e + q + 1000 := by
  obtain ⟨k, rfl⟩ := Nat.exists_eq_add_of_le h1
  rw [Nat.add_sub_cancel_left] at h3
  rw [Nat.add_mul]
  have h4 : d * 1000 ≤ e + 1000 := by
    cases d with
    | zero => rw [Nat.zero_mul]; exact Nat.zero_le _
    | succ x =>
      rw [Nat.succ_mul] at h2 ⊢
      have h5 : x * 1000 ≤ x * 1000000 := Nat.mul_le_mul_left x (by decide)
      have h6 : x * 1000000 ≤ e := Nat.le_of_add_le_add_right h2
      exact Nat.add_le_add_right (Nat.le_trans h5 h6) 1000
  rw [Nat.add_right_comm e q 1000]
  exact Nat.add_le_add h4 h3

theorem secs_arith (c e : Nat) : ((c + e) / 1000000 - c / 1000000) * 1000000 ≤ e + 1000000 := by omega

/-- A wait that fails ends at most a millisecond before the limit of the call. -/
theorem next_early {S : Sys} (hN : NoFail S) {c : Nat} (hc : ∀ e, S.clock e = c + e) {wait : Nat} (hw : wait < infinite)
    {o : Obj} {e : Nat} (he : e ≤ 3 * (wait * 1000)) (h : (next S wait (seconds S wait 0) o e).1 = false) :
    wait * 1000 ≤ (next S wait (seconds S wait 0) o e).2 + 1000 := by
  have hs : ∀ e, seconds S wait e = (c + e) / 1000000 := by
    intro e
    unfold seconds
    rw [if_neg (by omega), hc]
  unfold infinite at hw
  have hd : u64 ((seconds S wait e : Int) - seconds S wait 0) = (c + e) / 1000000 - c / 1000000 := by
    rw [hs, hs]
    unfold u64
    omega
  by_cases hlt : wait < u64 ((seconds S wait e : Int) - seconds S wait 0)
  · rw [hd] at hlt
    have : (next S wait (seconds S wait 0) o e).2 = e := by rw [next_none (by rw [hd]; exact hlt)]
    rw [this]
    omega
  · obtain ⟨l, hl, hn⟩ := next_some (o := o) (by unfold infinite; omega) hlt
    rw [hn] at h ⊢
    have := (hN.2 o l e h).2
    rw [hd] at hl hlt
    show wait * 1000 ≤ e + (S.wait o l e).2 + 1000
    clear hn h hd hs
    generalize (S.wait o l e).2 = q at this ⊢
    exact early_arith (Nat.le_of_not_lt hlt) (secs_arith c e) (hl ▸ this)

/-- C114 (partial): with a limit, as long as nobody sets the clock and no system call fails, the calls return false only when at most
one millisecond of the limit is left.
Missing: the millisecond (`win_early`), and clocks that are set (`win_clock_back`). -/
theorem win_patient_partial (S : Sys) (hT : Timely S) (hN : NoFail S) (hC : TrueClock S) (wait : Nat) (hw : wait < infinite) :
    ((readLock S wait).1 = false → wait * 1000 ≤ (readLock S wait).2 + 1000) ∧
    ((writeLock S wait).1 = false → wait * 1000 ≤ (writeLock S wait).2 + 1000) := by
  obtain ⟨c, hc⟩ := hC
  have h1 := hT .wmutex wait 0 (by omega)
  have h0 : (S.wait .wmutex wait 0).1 = false → wait * 1000 ≤ (S.wait .wmutex wait 0).2 + 1000 := fun h => by
    have := (hN.2 .wmutex wait 0 h).2
    omega
  unfold readLock writeLock
  refine ⟨fun h => ?_, fun h => ?_⟩
  · refine andThen_false (P := fun e => wait * 1000 ≤ e + 1000) h0 h1 (fun e he h => ?_) h
    have h2 := next_time hT hw (seconds S wait 0) e .smutex
    refine andThen_false (P := fun e => wait * 1000 ≤ e + 1000) (a := 2 * (wait * 1000)) (next_early hN hc hw (by omega)) (by omega) (fun e he h => ?_) h
    have h3 := next_time hT hw (seconds S wait 0) e .sem
    refine andThen_false (P := fun e => wait * 1000 ≤ e + 1000) (a := 3 * (wait * 1000)) (next_early hN hc hw (by omega)) (by omega) (fun e he h => ?_) h
    rw [hN.1] at h
    cases h
  · refine andThen_false (P := fun e => wait * 1000 ≤ e + 1000) h0 h1 (fun e he h => ?_) h
    have h2 := next_time hT hw (seconds S wait 0) e .event
    refine andThen_false (P := fun e => wait * 1000 ≤ e + 1000) (a := 2 * (wait * 1000)) (next_early hN hc hw (by omega)) (by omega) (fun e he h => ?_) h
    cases h

/-- A system in which every wait gets the object in the last moment. -/
def slow (c : Nat) : Sys := ⟨fun e => c + e, fun _ l _ => (true, if l = infinite then 0 else l * 1000), true⟩

theorem slow_ok (c : Nat) : Timely (slow c) ∧ NoFail (slow c) ∧ TrueClock (slow c) := by
  refine ⟨?_, ⟨rfl, fun o l e h => nomatch h⟩, c, fun e => rfl⟩
  intro o l e h
  show (if l = infinite then 0 else l * 1000) ≤ l * 1000
  rw [if_neg h]
  exact Nat.le_refl _

theorem slow_next {wait e : Nat} {o : Obj} (hw : wait < infinite) (he : e < 1000000) :
    next (slow 0) wait (seconds (slow 0) wait 0) o e = (true, e + wait * 1000) := by
  have hs : ∀ e, e < 1000000 → seconds (slow 0) wait e = 0 := by
    intro e he
    unfold seconds slow
    rw [if_neg (by omega)]
    dsimp only
    omega
  obtain ⟨l, hl, hn⟩ := next_some (S := slow 0) (start := seconds (slow 0) wait 0) (e := e) (o := o) (Nat.le_of_lt hw)
    (by rw [hs e he, hs 0 (by decide)]; unfold u64; omega)
  rw [hs e he, hs 0 (by decide)] at hl
  have hl' : l = wait := by unfold u64 at hl; omega
  subst hl'
  rw [hn]
  unfold slow
  dsimp only
  rw [if_neg (by omega)]

/-- Negation of C114: for every limit up to 333 ms, `ReadLock` may take three times as long (and succeed), with a true clock and without failures. -/
theorem win_read_limit_exceeded (wait : Nat) (h : wait ≤ 333) :
    ∃ S, Timely S ∧ NoFail S ∧ TrueClock S ∧ readLock S wait = (true, 3 * (wait * 1000)) := by
  refine ⟨slow 0, (slow_ok 0).1, (slow_ok 0).2.1, (slow_ok 0).2.2, ?_⟩
  have hw : wait < infinite := by unfold infinite; omega
  have h0 : (slow 0).wait .wmutex wait 0 = (true, wait * 1000) := by
    unfold slow
    dsimp only
    rw [if_neg (by omega)]
  have h1 : next (slow 0) wait (seconds (slow 0) wait 0) .smutex (wait * 1000) = _ := slow_next hw (by omega)
  have h2 : next (slow 0) wait (seconds (slow 0) wait 0) .sem (wait * 1000 + wait * 1000) = _ := slow_next hw (by omega)
  unfold readLock
  rw [andThen_got h0, andThen_got h1, andThen_got h2]
  refine Prod.ext rfl ?_
  dsimp only
  omega

/-- Negation of C114: for every limit below a second, `WriteLock` may take twice as long (and succeed). -/
theorem win_write_limit_exceeded (wait : Nat) (h : wait ≤ 999) :
    ∃ S, Timely S ∧ NoFail S ∧ TrueClock S ∧ writeLock S wait = (true, 2 * (wait * 1000)) := by
  refine ⟨slow 0, (slow_ok 0).1, (slow_ok 0).2.1, (slow_ok 0).2.2, ?_⟩
  have hw : wait < infinite := by unfold infinite; omega
  have h0 : (slow 0).wait .wmutex wait 0 = (true, wait * 1000) := by
    unfold slow
    dsimp only
    rw [if_neg (by omega)]
  have h1 : next (slow 0) wait (seconds (slow 0) wait 0) .event (wait * 1000) = _ := slow_next hw (by omega)
  unfold writeLock
  rw [andThen_got h0, andThen_got h1]
  refine Prod.ext rfl ?_
  dsimp only
  omega

/-- Negation of C114: if the clock is set back by a second or more while the call waits for the first object, it returns false at once, whatever its
limit, though all objects may be free. -/
theorem win_clock_back (S : Sys) (wait : Nat) (hw : wait < infinite) (h64 : ∀ e, S.clock e < 18446744073709551616)
    (hgot : (S.wait .wmutex wait 0).1 = true) (hback : S.clock (S.wait .wmutex wait 0).2 + 1000000 ≤ S.clock 0) :
    readLock S wait = (false, (S.wait .wmutex wait 0).2) ∧ writeLock S wait = (false, (S.wait .wmutex wait 0).2) := by
  have hs : ∀ e, seconds S wait e = S.clock e / 1000000 := by
    intro e
    unfold seconds
    rw [if_neg (by omega)]
  have hlt : wait < u64 ((seconds S wait (S.wait .wmutex wait 0).2 : Int) - seconds S wait 0) := by
    rw [hs, hs]
    have h1 := h64 0
    unfold infinite at hw
    unfold u64
    omega
  have h0 : S.wait .wmutex wait 0 = (true, (S.wait .wmutex wait 0).2) := Prod.ext hgot rfl
  unfold readLock writeLock
  rw [andThen_got h0, andThen_got h0, andThen_lost (next_none hlt), andThen_lost (next_none hlt)]
  exact ⟨rfl, rfl⟩

/-- Negation of C114: one microsecond may be enough for `WriteLock` to give up a limit of one millisecond. -/
theorem win_early : ∃ S, Timely S ∧ NoFail S ∧ TrueClock S ∧ writeLock S 1 = (false, 1) := by
  refine ⟨⟨fun e => 999999 + e, fun o l _ => if o = .wmutex then (true, if l = 0 then 0 else 1) else (l = infinite, if l = infinite then 0 else l * 1000), true⟩, ?_, ⟨rfl, ?_⟩,
    ⟨999999, fun _ => rfl⟩, by decide⟩
  · intro o l e hl
    dsimp only
    split_ifs <;> dsimp only <;> omega
  · intro o l e
    dsimp only
    split_ifs with h1 h2 h3
    · intro h; cases h
    · intro h; cases h
    · intro h; simp [h3] at h
    · intro _; exact ⟨h3, Nat.le_refl _⟩

/-- Conditions of `win_clock_back`: the clock goes from 5 s to 4 s while the first wait takes 10 microseconds. -/
example : let S : Sys := ⟨fun e => if e = 0 then 5000000 else 4000000, fun _ _ _ => (true, 10), true⟩
    (S.wait .wmutex 1000 0).1 = true ∧ S.clock (S.wait .wmutex 1000 0).2 + 1000000 ≤ S.clock 0 ∧ readLock S 1000 = (false, 10) := by
  decide

end Verif.WinTiming
