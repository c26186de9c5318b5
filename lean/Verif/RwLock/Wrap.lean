import Verif.RwLock.Lemmas

/-!
# The 32-bit counter of readers

One thread takes the read lock again and again.
-/

namespace Verif.RwLock

open Spec

/-- A read lock taken by thread 1. -/
def round : List Act := .callRead 1 :: List.replicate 8 (.run 1)

/-- `k` of them. -/
def rounds : Nat → List Act
  | 0 => []
  | k + 1 => round ++ rounds k

/-- Nobody is in a call, the semaphores are free, thread 1 has `n` read locks. -/
def resting (ev : Bool) (rc n : Nat) : S :=
  { wsem := true, csem := true, ev := ev, rc := rc, pc := fun _ => .idle,
    rd := fun i => if i = 1 then n else 0, wr := fun _ => false }

theorem exec_app (free : Bool) (as bs : List Act) : ∀ s : S,
    exec free s (as ++ bs) = ((exec free (exec free s as).1 bs).1,
      (exec free s as).2 ++ (exec free (exec free s as).1 bs).2) := by
  induction as with
  | nil => intro s; rfl
  | cons a as ih =>
    intro s
    rw [List.cons_append, exec, exec]
    cases step free s a with
    | none => exact ih s
    | some x =>
      obtain ⟨s', l⟩ := x
      dsimp only
      rw [ih s', List.append_assoc]

theorem round_ok (ev : Bool) (rc n : Nat) : exec false (resting ev rc n) round
    = (resting false ((rc + 1) % 4294967296) (n + 1), [.callRead 1, .enterR 1, .retRead 1 true]) := by
  have h1 : setAt (setAt (setAt (setAt (setAt (setAt (setAt (setAt (setAt (fun _ => Pc.idle) 1 .rW) 1 .rC)
      1 .rReset) 1 .rLoad) 1 (.rStore rc)) 1 (.rRelC true)) 1 (.rRelW true)) 1 (.rRet true)) 1 .idle
      = fun _ => Pc.idle := by
    funext i
    unfold setAt
    by_cases h : i = 1 <;> simp [h]
  have h2 : setAt (fun i => if i = 1 then n else 0) 1 (n + 1) = fun i => if i = 1 then n + 1 else 0 := by
    funext i
    unfold setAt
    by_cases h : i = 1 <;> simp [h]
  have h3 : exec false (resting ev rc n) round =
      ({ wsem := true, csem := true, ev := false, rc := (rc + 1) % 4294967296,
         pc := setAt (setAt (setAt (setAt (setAt (setAt (setAt (setAt (setAt (fun _ => Pc.idle) 1 .rW) 1 .rC)
           1 .rReset) 1 .rLoad) 1 (.rStore rc)) 1 (.rRelC true)) 1 (.rRelW true)) 1 (.rRet true)) 1 .idle,
         rd := setAt (fun i => if i = 1 then n else 0) 1 (n + 1), wr := fun _ => false },
       [.callRead 1, .enterR 1, .retRead 1 true]) := rfl
  rw [h3, h1, h2]
  rfl

theorem rounds_ok (k : Nat) : ∀ (ev : Bool) (rc n : Nat),
    ∃ ls, exec false (resting ev rc n) (rounds (k + 1))
      = (resting false ((rc + (k + 1)) % 4294967296) (n + (k + 1)), ls) ∧
      (∀ m, reading 1 m ls = m + (k + 1)) ∧ ∀ b, writing 3 b ls = b := by
  induction k with
  | zero =>
    intro ev rc n
    refine ⟨[.callRead 1, .enterR 1, .retRead 1 true], ?_, fun m => ?_, fun b => ?_⟩
    · show exec false (resting ev rc n) (round ++ []) = _
      rw [List.append_nil]
      exact round_ok ev rc n
    · rfl
    · rfl
  | succ k ih =>
    intro ev rc n
    obtain ⟨ls, h, hr, hw⟩ := ih false ((rc + 1) % 4294967296) (n + 1)
    refine ⟨[.callRead 1, .enterR 1, .retRead 1 true] ++ ls, ?_, fun m => ?_, fun b => ?_⟩
    · show exec false (resting ev rc n) (round ++ rounds (k + 1)) = _
      rw [exec_app, round_ok]
      dsimp only
      rw [h]
      refine Prod.ext ?_ rfl
      dsimp only
      rw [show ((rc + 1) % 4294967296 + (k + 1)) % 4294967296 = (rc + (k + 1 + 1)) % 4294967296 by omega,
        show n + 1 + (k + 1) = n + (k + 1 + 1) by omega]
    · rw [reading_append, hr]
      show m + 1 + (k + 1) = _
      omega
    · rw [writing_append, hw]
      rfl

/-- Thread 1 gives one read lock back, then thread 3 takes the write lock. -/
def breakIn : List Act :=
  [.callReadUnlock 1] ++ List.replicate 8 (.run 1) ++ [.callWrite 3, .run 3, .run 3, .run 3]

/-- With one reader on the counter the event is fired, however many there are. -/
theorem breakIn_labels (n : Nat) : (exec false (resting false 1 (n + 1)) breakIn).2
    = [.callReadUnlock 1, .exitR 1, .retReadUnlock 1 true, .callWrite 3, .enterW 3, .retWrite 3 true] := rfl

end Verif.RwLock
