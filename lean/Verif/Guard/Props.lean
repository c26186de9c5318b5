import Verif.Guard.Model

/-! # C123: scope guards give back exactly what was taken -/

namespace Verif.Guard

namespace Spec

/-- The locks held, last taken first, going by the calls and results alone; `none` as soon as something else than the last lock
taken is unlocked. -/
def held {α : Type} [DecidableEq α] : List α → List (Ev α) → Option (List α)
  | hs, [] => some hs
  | hs, .retLock k true :: es => held (k :: hs) es
  | h :: hs, .callUnlock k :: es => if k = h then held hs es else none
  | [], .callUnlock _ :: _ => none
  | hs, _ :: es => held hs es

end Spec

open Spec
variable {α : Type}

theorem guards_skip (n : Nat) (fs : List (Frame α)) : guards (skip n fs) = guards fs := by
  induction fs generalizing n with
  | nil => cases n <;> rfl
  | cons f fs ih =>
    cases n with
    | zero => rfl
    | succ n =>
      have := ih n
      unfold guards at this ⊢
      rw [skip, List.filterMap_cons, List.filterMap_cons, this]

theorem held_append [DecidableEq α] (es es' : List (Ev α)) (hs : List α) :
    held hs (es ++ es') = (held hs es).bind (held · es') := by
  induction es generalizing hs with
  | nil => rfl
  | cons e es ih =>
    cases e with
    | callLock k => exact ih hs
    | retLock k r => cases r <;> exact ih _
    | callUnlock k =>
      cases hs with
      | nil => rfl
      | cons h hs =>
        show (if k = h then held hs (es ++ es') else none) = (if k = h then held hs es else none).bind _
        split
        · exact ih hs
        · rfl
    | retUnlock k r => exact ih hs

theorem step_held [DecidableEq α] {t t' : T α} {a : Act} {es : List (Ev α)} (h : step t a = some (t', es)) :
    held (guards t.frames) es = some (guards t'.frames) := by
  cases a with
  | run choice =>
    unfold step at h
    dsimp only at h
    split at h
    · unfold advance at h
      split at h
      · cases h
      · cases h; rename_i e; rw [e]; rfl
      · cases h; rename_i e; rw [e]; simp [guards, held]
      · cases h; rename_i e; rw [e]; rfl
      · cases h; rename_i e; rw [e]; rfl
      · cases h; rename_i e; rw [e]; cases choice <;> rfl
      · cases h; rename_i e; rw [e]; rfl
      · cases h; rename_i e; rw [e, guards_skip]; rfl
    · cases h
  | ret r =>
    unfold step returned at h
    dsimp only at h
    split at h
    · cases h
    · cases h; cases r <;> rfl
    · cases h; cases r <;> rfl

theorem exec_held [DecidableEq α] (as : List Act) (t : T α) :
    held (guards t.frames) (exec t as).2 = some (guards (exec t as).1.frames) := by
  induction as generalizing t with
  | nil => rfl
  | cons a as ih =>
    rw [exec]
    cases hs : step t a with
    | none => exact ih t
    | some x =>
      obtain ⟨t', l⟩ := x
      dsimp only
      rw [held_append, step_held hs]
      exact ih t'

/-- **C123**.  For every program, whatever the calls return and however its conditions turn out, at every moment: the calls made
so far unlock always the last lock taken and not yet unlocked, never anything that was not taken, and when the program has
ended everything taken has been unlocked. -/
theorem guards_balanced [DecidableEq α] (body : List (Cmd α)) (as : List Act) :
    (∃ hs, held [] (exec (start body) as).2 = some hs) ∧
    ((exec (start body) as).1.frames = [] → held [] (exec (start body) as).2 = some []) := by
  have h := exec_held as (start body)
  refine ⟨⟨_, h⟩, fun e => ?_⟩
  rw [e] at h
  exact h

/-- The calls of a thread that leaves its blocks when the unlocking functions return `rs`. -/
def unlocks : List α → List Bool → List (Ev α)
  | k :: ks, r :: rs => .callUnlock k :: .retUnlock k r :: unlocks ks rs
  | _, _ => []

/-- **C123**.  Leaving all blocks (`return`, an exception nobody catches): the next calls are the unlocks of everything held,
innermost first, whatever they return, and then the program has ended. -/
theorem leave_unlocks (t : T α) (cs : List (Cmd α)) (g : Option α) (fs : List (Frame α)) (n : Nat) (rs : List Bool)
    (hm : t.mode = .running) (hf : t.frames = ⟨.leave n :: cs, g⟩ :: fs) (hn : fs.length ≤ n)
    (hr : rs.length = (guards t.frames).length) :
    ∃ as, exec t as = (⟨[], .running⟩, unlocks (guards t.frames) rs) := by
  have key : ∀ (fs : List (Frame α)) (rs : List Bool), (∀ f ∈ fs, f.code = []) → rs.length = (guards fs).length →
      ∃ as, exec ⟨fs, .running⟩ as = (⟨[], .running⟩, unlocks (guards fs) rs) := by
    intro fs
    induction fs with
    | nil => intro rs _ _; exact ⟨[], by cases rs <;> rfl⟩
    | cons f fs ih =>
      intro rs hc hr
      obtain ⟨code, g⟩ := f
      obtain rfl : code = [] := hc _ (List.mem_cons_self ..)
      cases g with
      | none =>
        obtain ⟨as, h⟩ := ih rs (fun f hf => hc f (List.mem_cons_of_mem _ hf)) hr
        refine ⟨.run true :: as, ?_⟩
        have e : step (⟨⟨[], none⟩ :: fs, .running⟩ : T α) (.run true) = some (⟨fs, .running⟩, []) := rfl
        rw [exec, e]
        dsimp only
        rw [h]
        rfl
      | some k =>
        cases rs with
        | nil => simp [guards] at hr
        | cons r rs =>
          obtain ⟨as, h⟩ := ih rs (fun f hf => hc f (List.mem_cons_of_mem _ hf)) (by simpa [guards] using hr)
          refine ⟨.run true :: .ret r :: as, ?_⟩
          have e : step (⟨⟨[], some k⟩ :: fs, .running⟩ : T α) (.run true) = some (⟨fs, .unlocking k⟩, [.callUnlock k]) := rfl
          have e' : step (⟨fs, .unlocking k⟩ : T α) (.ret r) = some (⟨fs, .running⟩, [.retUnlock k r]) := rfl
          rw [exec, e]
          dsimp only
          rw [exec, e']
          dsimp only
          rw [h]
          rfl
  have hskip : ∀ (n : Nat) (fs : List (Frame α)), fs.length ≤ n → ∀ f ∈ skip n fs, f.code = [] := by
    intro n
    induction n with
    | zero =>
      intro fs hl f hf
      cases fs with
      | nil => cases hf
      | cons => cases hl
    | succ n ih =>
      intro fs hl f hf
      cases fs with
      | nil => cases hf
      | cons x fs =>
        rcases List.mem_cons.1 hf with rfl | hf
        · rfl
        · exact ih fs (Nat.le_of_succ_le_succ hl) f hf
  have hg : guards (skip (n + 1) (⟨cs, g⟩ :: fs)) = guards t.frames := by rw [guards_skip, hf]; rfl
  obtain ⟨as, h⟩ := key (skip (n + 1) (⟨cs, g⟩ :: fs)) rs
    (hskip _ _ (by rw [List.length_cons]; omega)) (by rw [hg]; exact hr)
  refine ⟨.run true :: as, ?_⟩
  have e : step t (.run true) = some (⟨skip (n + 1) (⟨cs, g⟩ :: fs), .running⟩, []) := by
    unfold step
    rw [hm, hf]
    rfl
  rw [exec, e]
  dsimp only
  rw [h, hg]
  rfl

/-- A thread never gets stuck: outside calls it can go on until its program has ended, inside it goes on when the call returns. -/
theorem goes_on (t : T α) (c r : Bool) :
    (t.frames ≠ [] ∧ t.mode = .running → (step t (.run c)).isSome = true) ∧
    (t.mode ≠ .running → (step t (.ret r)).isSome = true) := by
  constructor
  · rintro ⟨h, hm⟩
    unfold step
    rw [hm]
    dsimp only
    unfold advance
    split <;> first | rfl | exact absurd ‹t.frames = []› h
  · intro h
    unfold step returned
    dsimp only
    split <;> first | rfl | exact absurd ‹_› h

/-- Two nested locks, a loop inside that is left by `return`: both are unlocked, the inner one first. -/
example : (exec (start [.take 1 [.loop [.take 2 [.leave 9] [.work]]] [], .work])
      [.run true, .ret true, .run true, .run true, .ret true, .run true, .run true, .ret true, .run true, .run true, .ret false,
        .run true]).2 =
    [.callLock 1, .retLock 1 true, .callLock 2, .retLock 2 true, .callUnlock 2, .retUnlock 2 true, .callUnlock 1,
      .retUnlock 1 false] := rfl

/-- A failing lock: no guard, no unlock. -/
example : exec (start [.take 1 [.work] [.work]]) [.run true, .ret false, .run true, .run true, .run true] =
    (⟨[], .running⟩, [.callLock 1, .retLock 1 false]) := rfl

end Verif.Guard
