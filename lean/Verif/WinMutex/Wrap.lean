import Verif.WinMutex.Exec
import Verif.Mutex.Wrap

/-! # Locking 2^32 times and more, on Windows -/

namespace Verif.WinMutex

open Verif.Mutex (Label Pc setAt dec32 depth_append phase_append)
open Verif.Mutex.Spec (Phase phase move who depth Holds Shallow)
open Spec

/-- One more lock by the holder. -/
def relockActs (t o : Nat) : List Act := [.callLock t o 0, .run t, .run t, .run t, .run t, .run t]

theorem exec_append {s s1 s2 : S} {as bs : List Act} {l1 l2 : List Label}
    (h1 : exec s as = .ok (s1, l1)) (h2 : exec s1 bs = .ok (s2, l2)) :
    exec s (as ++ bs) = .ok (s2, l1 ++ l2) := by
  rw [exec_app, h1, ok_bind]
  dsimp only
  rw [h2, ok_bind]

theorem relock_one {s : S} {t o : Nat} (hpc : s.pc t = .idle) (ho : s.oid o = some t)
    (hc : s.cs o = none) :
    ∃ s1, exec s (relockActs t o) = .ok (s1, [.callLock t o 0, .again t o, .retLock t o true]) ∧
      s1.cnt o = (s.cnt o + 1) % 4294967296 ∧ (∀ u, s1.pc u = s.pc u) ∧ s1.oid = s.oid ∧
      (∀ i, s1.cs i = s.cs i) ∧ s1.kown = s.kown ∧ s1.kcnt = s.kcnt ∧ s1.ab = s.ab := by
  refine ⟨{ s with
    cnt := setAt s.cnt o ((s.cnt o + 1) % 4294967296)
    cs := setAt (setAt s.cs o (some t)) o none
    pc := setAt (setAt (setAt (setAt (setAt (setAt s.pc t (.lCs o 0)) t (.lTest o 0)) t (.lLoad o)) t
      (.lStore o (s.cnt o))) t (.lUnl o)) t .idle }, ?_, ?_, ?_, ?_, ?_, ?_, ?_, ?_⟩
  · simp [relockActs, exec, step, hpc, run, S.goto, enter, leave, setAt_self, ho, hc]
  · exact setAt_self ..
  · intro u
    by_cases h : u = t
    · simp [setAt, h, hpc]
    · simp [setAt, h]
  · rfl
  · intro i
    by_cases h : i = o
    · subst h; rw [hc]; exact setAt_self ..
    · exact (setAt_ne _ _ h).trans (setAt_ne _ _ h)
  · rfl
  · rfl
  · rfl

/-- `n` more locks by the holder. -/
theorem relocks (n : Nat) : ∀ (s : S) (t o : Nat), s.pc t = .idle → s.oid o = some t →
    s.cs o = none → s.cnt o < 4294967296 →
    ∃ s' ls, exec s (List.replicate n (relockActs t o)).flatten = .ok (s', ls) ∧
      s'.cnt o = (s.cnt o + n) % 4294967296 ∧ (∀ u, s'.pc u = s.pc u) ∧ s'.oid = s.oid ∧
      (∀ i, s'.cs i = s.cs i) ∧ (s'.kown = s.kown ∧ s'.kcnt = s.kcnt ∧ s'.ab = s.ab) ∧ (∀ d, depth t o d ls = d + n) ∧
      phase t (some .out) ls = some .out ∧ (∀ u, u ≠ t → ∀ p, phase u p ls = p) := by
  induction n with
  | zero =>
    intro s t o _ _ _ hn
    exact ⟨s, [], rfl, (Nat.mod_eq_of_lt hn).symm, fun _ => rfl, rfl, fun _ => rfl, ⟨rfl, rfl, rfl⟩,
      fun _ => rfl, rfl, fun _ _ _ => rfl⟩
  | succ n ih =>
    intro s t o hpc ho hc hn
    obtain ⟨s1, h1, h2, h3, h4, h5, h6, h7, h8⟩ := relock_one hpc ho hc
    obtain ⟨s2, l2, g1, g2, g3, g4, g5, g6, g7, g8, g9⟩ := ih s1 t o (by rw [h3]; exact hpc)
      (by rw [h4]; exact ho) (by rw [h5]; exact hc) (by rw [h2]; exact Nat.mod_lt _ (by decide))
    refine ⟨s2, _, by rw [List.replicate_succ, List.flatten_cons]; exact exec_append h1 g1, ?_,
      fun u => by rw [g3, h3], by rw [g4, h4], fun i => by rw [g5, h5],
      ⟨by rw [g6.1, h6], by rw [g6.2.1, h7], by rw [g6.2.2, h8]⟩, fun d => ?_, ?_, fun u hu p => ?_⟩
    · rw [g2, h2, Nat.mod_add_mod, Nat.add_assoc, Nat.add_comm 1 n]
    · rw [depth_append, g7]
      have : depth t o d [.callLock t o 0, .again t o, .retLock t o true] = d + 1 := by
        simp [depth]
      rw [this]; omega
    · rw [phase_append]
      have : phase t (some .out) [.callLock t o 0, .again t o, .retLock t o true] = some .out := by
        simp [phase, who, move]
      rw [this]; exact g8
    · rw [phase_append, g9 u hu]
      simp [phase, who, Ne.symm hu]

/-- With more than 2^32 nested locks the mutex is given away: after 2^32 + 1 locks and one unlock by
thread 1, which is to unlock 2^32 more times, thread 2 locks it. -/
theorem win_exclusion_fails : ∃ as s ls, exec init as = .ok (s, ls) ∧ Holds 1 0 ls ∧ Holds 2 0 ls := by
  have e1 : ∃ s, exec init ([.callLock 1 0 0] ++ List.replicate 8 (.run 1))
      = .ok (s, [.callLock 1 0 0, .acquire 1 0, .retLock 1 0 true]) ∧ s.pc 1 = .idle ∧
      s.pc 2 = .idle ∧ s.oid 0 = some 1 ∧ s.cs 0 = none ∧ s.cnt 0 = 1 ∧ s.kown = some 1 ∧ s.kcnt = 1 ∧ s.ab = false :=
    ⟨_, rfl, rfl, rfl, rfl, rfl, rfl, rfl, rfl, rfl⟩
  obtain ⟨s1, h1, p1, p2, o1, c1, n1, m1, m3, m4⟩ := e1
  obtain ⟨s2, l2, h2, n2, p3, o2, c2, m2, d2, f2, f3⟩ := relocks 4294967296 s1 1 0 p1 o1 c1
    (by rw [n1]; decide)
  have n2 : s2.cnt 0 = 1 := by rw [n2, n1]
  have e3 : ∃ s, exec s2 ([.callUnlock 1 0 false] ++ List.replicate 9 (.run 1) ++
        [.callLock 2 0 0] ++ List.replicate 8 (.run 2))
      = .ok (s, [.callUnlock 1 0 false, .leave 1 0 false, .retUnlock 1 0 false true,
        .callLock 2 0 0, .acquire 2 0, .retLock 2 0 true]) := by
    have q1 : s2.pc 1 = .idle := by rw [p3]; exact p1
    have q2 : s2.pc 2 = .idle := by rw [p3]; exact p2
    have q3 : s2.oid 0 = some 1 := by rw [o2]; exact o1
    have q4 : s2.cs 0 = none := by rw [c2]; exact c1
    have q5 : s2.kown = some 1 := by rw [m2.1]; exact m1
    have q6 : s2.kcnt = 1 := by rw [m2.2.1]; exact m3
    have q7 : s2.ab = false := by rw [m2.2.2]; exact m4
    simp [List.replicate, exec, step, run, S.goto, enter, leave, setAt, dec32, q1, q2, q3, q4, q5, q6, q7, n2,
      released, got]
  obtain ⟨s3, h3⟩ := e3
  refine ⟨_, s3, _, exec_append (exec_append h1 h2) h3, ⟨?_, ?_⟩, ⟨?_, ?_⟩⟩
  · rw [depth_append, depth_append, d2]
    have : depth 1 0 0 [.callLock 1 0 0, .acquire 1 0, .retLock 1 0 true] = 1 := by
      simp [depth]
    rw [this]
    simp [depth]
  · rw [phase_append, phase_append]
    have : phase 1 (some .out) [.callLock 1 0 0, .acquire 1 0, .retLock 1 0 true] = some .out := by
      simp [phase, who, move]
    rw [this, f2]
    simp [phase, who, move]
  · rw [depth_append]
    simp [depth]
  · rw [phase_append, phase_append, f3 2 (by decide)]
    simp [phase, who, move]

end Verif.WinMutex
