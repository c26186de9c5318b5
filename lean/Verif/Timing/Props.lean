import Verif.Timing.Model

/-!
# Property theorems: time limits (C70, C71)

The specification is in microseconds or nanoseconds since the epoch, as integers.
-/

namespace Verif.Timing

/-- Nanoseconds since the epoch. -/
def nanos (t : Stamp) : Int := t.sec * 1000000000 + t.frac

/-- What the system gives and `pthread_cond_timedwait` takes. -/
def Valid (t : Stamp) : Prop := 0 ≤ t.frac ∧ t.frac < 1000000000

/-- C70: the deadline of a timed wait is a valid time, exactly the given number of milliseconds after
now; nothing overflows if that time can be represented at all. -/
theorem deadline_exact (now : Stamp) (wait : Nat) (hw : wait < 4294967296) (hv : Valid now)
    (hs : -9223372036854775808 ≤ now.sec)
    (hr : nanos now + wait * 1000000 < 9223372036854775808 * 1000000000) :
    ∃ d, deadline now wait = .ok d ∧ Valid d ∧ nanos d = nanos now + wait * 1000000 := by
  obtain ⟨hv0, hv1⟩ := hv
  obtain ⟨s, f⟩ := now
  simp only [nanos] at *
  have hm : wait % 1000 * 1000000 % 4294967296 = wait % 1000 * 1000000 := by
    have := Nat.mod_lt wait (show 0 < 1000 by decide); omega
  have hpos : 0 ≤ f + ((wait % 1000 * 1000000 : Nat) : Int) := by omega
  have e1 : (f + ((wait % 1000 * 1000000 : Nat) : Int)).tdiv 1000000000
      = (f + ((wait % 1000 * 1000000 : Nat) : Int)) / 1000000000 :=
    Int.tdiv_eq_ediv_of_nonneg hpos
  have e2 : (f + ((wait % 1000 * 1000000 : Nat) : Int)).tmod 1000000000
      = (f + ((wait % 1000 * 1000000 : Nat) : Int)) % 1000000000 :=
    Int.tmod_eq_emod_of_nonneg hpos
  refine ⟨⟨s + (wait / 1000 : Nat) + (f + ((wait % 1000 * 1000000 : Nat) : Int)) / 1000000000,
    (f + ((wait % 1000 * 1000000 : Nat) : Int)) % 1000000000⟩, ?_, ⟨?_, ?_⟩, ?_⟩
  · unfold deadline long
    rw [hm]
    dsimp only
    rw [if_pos (by omega), ok_bind, if_pos (by omega), ok_bind, e1, if_pos (by omega), ok_bind, e2]
  · dsimp only; omega
  · dsimp only; omega
  · dsimp only; omega

/-- 1.5 seconds after 10.75 s is 12.25 s. -/
example : deadline ⟨10, 750000000⟩ 1500 = .ok ⟨12, 250000000⟩ := rfl

example : Valid ⟨10, 750000000⟩ := ⟨by decide, by decide⟩

/-- C71, microseconds: the time function counts microseconds since the epoch. -/
theorem micros_exact (t : Stamp) (h0 : 0 ≤ t.sec) (h1 : 0 ≤ t.frac) (h2 : t.frac < 1000000)
    (hr : t.sec * 1000000 + t.frac < 18446744073709551616) :
    (micros (some t) : Int) = t.sec * 1000000 + t.frac := by
  obtain ⟨s, f⟩ := t
  simp only [micros, u64] at *
  omega

example : micros (some ⟨1700000000, 123456⟩) = 1700000000123456 := rfl

theorem left_fin {wait : Nat} (t0 t1 : Nat) (h : wait < infinite) : left wait t0 t1 =
    if wait < (t1 / 1000000 + 18446744073709551616 - t0 / 1000000) % 18446744073709551616 then none
    else some ((wait - (t1 / 1000000 + 18446744073709551616 - t0 / 1000000) % 18446744073709551616)
      % 4294967296) := by
  have e : ¬ wait = infinite := Nat.ne_of_lt h
  unfold left
  simp only [e, if_false]

/-- C71: without a limit the lock never gives up for lack of time. -/
theorem left_infinite (t0 t1 : Nat) : left infinite t0 t1 = some infinite := by
  simp [left, infinite]

/-- C71: a call that must not wait gives the second wait no time either. -/
theorem left_zero (t0 t1 : Nat) : left 0 t0 t1 = none ∨ left 0 t0 t1 = some 0 := by
  rw [left_fin t0 t1 (by decide), Nat.zero_sub]
  split
  · exact Or.inl rfl
  · exact Or.inr rfl

/-- C71: a call with a limit never becomes one without. -/
theorem left_finite (wait t0 t1 l : Nat) (hw : wait < infinite) (h : left wait t0 t1 = some l) :
    l ≤ wait ∧ l < infinite := by
  rw [left_fin t0 t1 hw] at h
  split at h
  · cases h
  · cases h
    omega

/-- C71 asks that the second wait ends at the latest `wait` milliseconds after the call.  What holds:
if the first wait kept its limit, the second ends at the latest twice the limit after the call.
Missing: the factor, see `limit_exceeded`. -/
theorem limit_partial (wait t0 t1 l : Nat) (hw : wait < infinite) (hfirst : t1 ≤ t0 + wait * 1000)
    (h : left wait t0 t1 = some l) : t1 + l * 1000 ≤ t0 + 2 * wait * 1000 := by
  have := (left_finite wait t0 t1 l hw h).1
  omega

/-- The seconds that have begun since the call are taken off the milliseconds that are left. -/
theorem left_value (wait t0 t1 : Nat) (hw : wait < infinite) (h0 : t0 ≤ t1)
    (h1 : t1 < 18446744073709551616) :
    left wait t0 t1 =
      if wait < t1 / 1000000 - t0 / 1000000 then none
      else some (wait - (t1 / 1000000 - t0 / 1000000)) := by
  have hd : (t1 / 1000000 + 18446744073709551616 - t0 / 1000000) % 18446744073709551616
      = t1 / 1000000 - t0 / 1000000 := by
    omega
  rw [left_fin t0 t1 hw, hd]
  split
  · rfl
  · rw [Nat.mod_eq_of_lt (by unfold infinite at hw; omega)]

/-- The code takes seconds for milliseconds (`/ 1000000`): after 899 of 900 milliseconds are gone, the
second wait gets another 900, the call takes nearly twice its limit. -/
theorem limit_exceeded : ∃ wait t0 t1 l, wait < infinite ∧ t0 ≤ t1 ∧ t1 ≤ t0 + wait * 1000 ∧
    left wait t0 t1 = some l ∧ t0 + wait * 1000 < t1 + l * 1000 :=
  ⟨900, 5000000, 5899000, 900, by decide⟩

/-- Whenever the first wait takes any time at all and ends before the current second does, the second
wait may end after the limit of the call. -/
theorem limit_exceeded_always (wait t0 t1 : Nat) (hw : wait < infinite) (h : t0 < t1)
    (hs : t1 / 1000000 = t0 / 1000000) :
    left wait t0 t1 = some wait ∧ t0 + wait * 1000 < t1 + wait * 1000 := by
  refine ⟨?_, by omega⟩
  rw [left_fin t0 t1 hw, hs, show (t0 / 1000000 + 18446744073709551616 - t0 / 1000000) % 18446744073709551616 = 0 by omega,
    if_neg (by omega), Nat.sub_zero, Nat.mod_eq_of_lt (by unfold infinite at hw; omega)]

/-- A clock that is set back to an earlier second makes a call with a limit fail although the lock is
free. -/
theorem clock_back (wait t0 t1 : Nat) (hw : wait < infinite) (h0 : t0 < 18446744073709551616)
    (h : t1 / 1000000 < t0 / 1000000) : left wait t0 t1 = none := by
  rw [left_fin t0 t1 hw, if_pos]
  unfold infinite at hw
  omega

end Verif.Timing
