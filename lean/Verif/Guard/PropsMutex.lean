import Verif.Guard.Props
import Verif.Mutex.Spec

/-! # C123: mutexes taken together with a guard -/

namespace Verif.Guard
open Verif.Mutex (Label)
open Verif.Mutex.Spec

/-- The calls and results of thread `t`, as its program sees them; the destructor calls `Unlock` with its default argument. -/
def seen (t : Nat) : Label → Option (Ev Nat)
  | .callLock u o _ => if u = t then some (.callLock o) else none
  | .retLock u o r => if u = t then some (.retLock o r) else none
  | .callUnlock u o all => if u = t ∧ all = false then some (.callUnlock o) else none
  | .retUnlock u o all r => if u = t ∧ all = false then some (.retUnlock o r) else none
  | _ => none

/-- No `Unlock` of thread `t` asks for everything. -/
def Single (t : Nat) (ls : List Label) : Prop := ∀ l ∈ ls, ∀ o r, l ≠ .callUnlock t o true ∧ l ≠ .retUnlock t o true r

/-- The unlocks of object `o` that failed. -/
def failed (o : Nat) : List (Ev Nat) → Nat
  | [] => 0
  | .retUnlock p false :: es => (if p = o then 1 else 0) + failed o es
  | _ :: es => failed o es

/-- How deep the program holds `o`. -/
def deep (o : Nat) : Nat → List (Ev Nat) → Nat
  | d, [] => d
  | d, .retLock p true :: es => deep o (if p = o then d + 1 else d) es
  | d, .retUnlock p true :: es => deep o (if p = o then d - 1 else d) es
  | d, _ :: es => deep o d es

theorem depth_seen (t o : Nat) (ls : List Label) (h : Single t ls) (d : Nat) : depth t o d ls = deep o d (ls.filterMap (seen t)) := by
  induction ls generalizing d with
  | nil => rfl
  | cons l ls ih =>
    have ih := ih (fun l hl => h l (List.mem_cons_of_mem _ hl))
    have hh := h l (List.mem_cons_self ..)
    rw [List.filterMap_cons]
    cases l with
    | callLock u p w => by_cases e : u = t <;> simp [seen, e, depth, deep, ih]
    | retLock u p r =>
      by_cases e : u = t
      · subst e; cases r <;> simp [seen, depth, deep, ih]
      · cases r <;> simp [seen, e, depth, ih]
    | callUnlock u p all => by_cases e : u = t ∧ all = false <;> simp [seen, e, depth, deep, ih]
    | retUnlock u p all r =>
      by_cases e : u = t
      · subst e
        cases all with
        | true => exact absurd rfl (hh p r).2
        | false => cases r <;> simp [seen, depth, deep, ih]
      · cases r <;> simp [seen, e, depth, ih]
    | sysFail u => exact ih d
    | acquire u p => exact ih d
    | again u p => exact ih d
    | leave u p all => exact ih d
    | refuse u p => exact ih d
    | giveUp u p => exact ih d

/-- What is held: guarded, or being unlocked. -/
def owes (t : T Nat) (o : Nat) : Nat :=
  (guards t.frames).count o + match t.mode with | .unlocking k => if k = o then 1 else 0 | _ => 0

theorem deep_append (o : Nat) (es es' : List (Ev Nat)) (d : Nat) : deep o d (es ++ es') = deep o (deep o d es) es' := by
  induction es generalizing d with
  | nil => rfl
  | cons e es ih => cases e <;> (try rename_i r; cases r) <;> exact ih _

theorem failed_append (o : Nat) (es es' : List (Ev Nat)) : failed o (es ++ es') = failed o es + failed o es' := by
  induction es with
  | nil => simp [failed]
  | cons e es ih => cases e <;> (try rename_i r; cases r) <;> simp only [List.cons_append, failed, ih] <;> omega

theorem step_deep {t t' : T Nat} {a : Act} {es : List (Ev Nat)} (o n : Nat) (h : step t a = some (t', es)) :
    deep o (owes t o + n) es = owes t' o + n + failed o es := by
  obtain ⟨fs, md⟩ := t
  cases a with
  | run choice =>
    unfold step at h
    dsimp only at h
    split at h
    · unfold advance at h
      split at h
      · cases h
      · cases h; rfl
      · rename_i k fs
        cases h
        by_cases e : k = o <;> simp [owes, guards, deep, failed, List.count_cons, e] <;> omega
      · cases h; rfl
      · cases h; rfl
      · cases h; cases choice <;> rfl
      · cases h; rfl
      · cases h
        show _ = (List.count o (guards (skip _ _)) + 0) + n + 0
        rw [guards_skip]
        rfl
    · cases h
  | ret r =>
    unfold step returned at h
    dsimp only at h
    split at h
    · cases h
    · rename_i k b e
      cases h
      cases r
      · simp [owes, guards, deep, failed]
      · by_cases e : k = o <;> simp [owes, guards, deep, failed, List.count_cons, e] <;> omega
    · rename_i k
      cases h
      cases r <;> by_cases e : k = o <;> simp [owes, deep, failed, e] <;> omega

theorem exec_deep (as : List Act) (t : T Nat) (o n : Nat) :
    deep o (owes t o + n) (exec t as).2 = owes (exec t as).1 o + n + failed o (exec t as).2 := by
  induction as generalizing t n with
  | nil => rfl
  | cons a as ih =>
    rw [exec]
    cases hs : step t a with
    | none => exact ih t n
    | some x =>
      obtain ⟨t', l⟩ := x
      dsimp only
      rw [deep_append, step_deep o n hs, failed_append, Nat.add_assoc, ih t' (n + failed o l)]
      omega

/-- **C123** for mutexes.  In every history in which thread `t` runs a program that takes mutexes only together with a guard: when
the program has ended, it has locked each mutex exactly as often as it has unlocked it, except for the unlocks that failed. -/
theorem guarded_mutex (t : Nat) (ls : List Label) (hs : Single t ls) (body : List (Cmd Nat)) (as : List Act)
    (hp : ls.filterMap (seen t) = (exec (start body) as).2) (hd : (exec (start body) as).1.frames = [])
    (hm : (exec (start body) as).1.mode = .running) (o : Nat) :
    depth t o 0 ls = failed o (ls.filterMap (seen t)) := by
  rw [depth_seen t o ls hs, hp]
  have h := exec_deep as (start body) o 0
  have e : owes (start body) o = 0 := rfl
  have e' : owes (exec (start body) as).1 o = 0 := by unfold owes; rw [hd, hm]; rfl
  rw [e, e'] at h
  rw [h]
  omega

/-- Thread 1 takes mutex 4 twice; the history has labels of other threads in between. -/
example : let ls : List Label := [.callLock 1 4 0, .acquire 1 4, .callLock 2 4 7, .retLock 1 4 true, .callLock 1 4 0, .again 1 4,
      .retLock 1 4 true, .giveUp 2 4, .retLock 2 4 false, .callUnlock 1 4 false, .leave 1 4 false, .retUnlock 1 4 false true,
      .callUnlock 1 4 false, .leave 1 4 false, .retUnlock 1 4 false true]
    Single 1 ls ∧ (∃ as, ls.filterMap (seen 1) = (exec (start [.take 4 [.take 4 [.leave 5] [], .work] []]) as).2 ∧
      (exec (start [.take 4 [.take 4 [.leave 5] [], .work] []]) as).1.frames = []) := by
  refine ⟨?_, [.run true, .ret true, .run true, .ret true, .run true, .run true, .ret true, .run true, .ret true, .run true], rfl, rfl⟩
  intro l hl o r
  simp only [List.mem_cons, List.not_mem_nil, or_false] at hl
  rcases hl with rfl | rfl | rfl | rfl | rfl | rfl | rfl | rfl | rfl | rfl | rfl | rfl | rfl | rfl | rfl <;> simp

end Verif.Guard
