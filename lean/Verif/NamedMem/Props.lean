import Verif.NamedMem.Lemmas

/-!
# C39: named shared memory is initialised once

The claim holds as long as some handle keeps the object open (`Kept`).  Once every handle has closed
it, the next open writes beyond the object and the promise is void: see the last section.
-/

namespace Verif.NamedMem
open Spec

variable {p : Par}

/-- While the object is kept open, opening, using and closing it has no undefined behaviour, whatever
crashes and failing system calls there are. -/
theorem no_ub_partial (hp : p.total ≤ p.mapped) (as : List Act) (hk : Kept (exec p init as).1) :
    ∃ s, (exec p init as).2 = .ok s :=
  (exec_ok ⟨hp⟩ as init [] init_hinv (by simpa using hk)).1

/-- At most one handle is ever told to initialise the object. -/
theorem init_once_partial (hp : p.total ≤ p.mapped) (as : List Act) (hk : Kept (exec p init as).1)
    (q : List Label) (t : Nat) (hq : q ++ [.ret t .first] <+: (exec p init as).1) :
    ∀ u, .ret u .first ∉ q := by
  have := allRight_mem _ _ [] q _ (exec_ok ⟨hp⟩ as init [] init_hinv (by simpa using hk)).2 hq
  simpa [right] using this

/-- A handle that is not told to initialise the object gets it initialised. -/
theorem opened_initialised_partial (hp : p.total ≤ p.mapped) (as : List Act)
    (hk : Kept (exec p init as).1) (q : List Label) (t : Nat)
    (hq : q ++ [.ret t .other] <+: (exec p init as).1) : stage q = .done := by
  have := allRight_mem _ _ [] q _ (exec_ok ⟨hp⟩ as init [] init_hinv (by simpa using hk)).2 hq
  simpa [right] using this

/-- Nobody uses the object before it is initialised. -/
theorem use_initialised_partial (hp : p.total ≤ p.mapped) (as : List Act)
    (hk : Kept (exec p init as).1) (q : List Label) (t : Nat)
    (hq : q ++ [.use t] <+: (exec p init as).1) : stage q = .done := by
  have := allRight_mem _ _ [] q _ (exec_ok ⟨hp⟩ as init [] init_hinv (by simpa using hk)).2 hq
  simpa [right] using this

/-- Opening, initialising, using and closing touch only the object's own bytes. -/
theorem own_memory_partial (hp : p.total ≤ p.mapped) (as : List Act)
    (hk : Kept (exec p init as).1) (t lo hi : Nat)
    (hq : .touch t lo hi ∈ (exec p init as).1) : hi ≤ p.total := by
  obtain ⟨a, b, e⟩ := List.mem_iff_append.mp hq
  have := allRight_mem _ _ [] a (.touch t lo hi)
    (exec_ok ⟨hp⟩ as init [] init_hinv (by simpa using hk)).2 (by rw [e]; exact ⟨b, by simp⟩)
  simpa [right] using this

/-! ## The hypotheses can be met -/

/-- 64-bit Linux: units of 4 bytes, 40-byte mutex, a semaphore of 96 bytes, pages of 4096 bytes. -/
def linux : Par := { al := 4, msz := 40, size := 96, mapped := 4096 }

example : linux.start = 48 ∧ linux.total = 144 ∧ linux.total ≤ linux.mapped := by decide

/-- Handle 1 creates while handle 2 waits, 2 gets it, 3 is told "other" too, 2 closes, 3 uses. -/
def demo : List Act :=
  [.callOpen 1, .callOpen 2, .run 1, .run 2, .run 2, .run 2, .run 2] ++ List.replicate 7 (.run 1) ++
  List.replicate 3 (.run 2) ++ [.run 1] ++ List.replicate 8 (.run 2) ++ [.use 2, .callOpen 3] ++
  List.replicate 9 (.run 3) ++ [.callClose 2] ++ List.replicate 4 (.run 2) ++ [.crash 1, .use 3]

example : (exec linux init demo).1.filter (fun l => match l with | .touch .. => false | _ => true) =
    [.callOpen 1, .callOpen 2, .ret 1 .first, .inited 1, .ready 1, .ret 2 .other, .use 2, .callOpen 3,
      .ret 3 .other, .callClose 2, .closed 2, .crash 1, .use 3] := by decide

/-- If handle 1 opens the object first and never closes it, it is kept. -/
theorem kept_of (ls : List Label) (t : Nat) (h1 : .callClose t ∉ ls)
    (h2 : ∀ u q, q ++ [.ret u .first] <+: ls → u = t ∨ .ret t .first ∈ q) : Kept ls := by
  have key : ∀ q : List Label, .callClose t ∉ q → .ret t .first ∈ q → holds t q = true := by
    intro q
    unfold holds
    generalize hb : false = b
    clear hb
    induction q generalizing b with
    | nil => intro _ h; cases h
    | cons l q ih =>
      intro hc hm
      have hc' : .callClose t ∉ q := fun e => hc (List.mem_cons_of_mem _ e)
      by_cases hm' : .ret t .first ∈ q
      · exact ih _ hc' hm'
      · rcases List.mem_cons.mp hm with e | e
        · subst e
          have stays : ∀ (q : List Label), .callClose t ∉ q → q.foldl (holdStep t) true = true := by
            intro q
            induction q with
            | nil => intro _; rfl
            | cons l q ih =>
              intro hc
              have : holdStep t true l = true := by
                cases l with
                | callClose u =>
                  have : u ≠ t := fun e => hc (by rw [e]; exact List.mem_cons_self ..)
                  simp [holdStep, this]
                | ret u r => simp [holdStep]
                | _ => rfl
              rw [List.foldl_cons, this]
              exact ih fun e => hc (List.mem_cons_of_mem _ e)
          rw [List.foldl_cons]
          have : holdStep t b (.ret t .first) = true := by simp [holdStep]
          rw [this]
          exact stays q hc'
        · exact absurd e hm'
  intro q hq ⟨u, hu⟩
  refine ⟨t, key q (fun e => h1 (hq.subset e)) ?_⟩
  obtain ⟨a, b, e⟩ := List.mem_iff_append.mp hu
  rcases h2 u a ((show a ++ [.ret u .first] <+: q from ⟨b, by simp [e]⟩).trans hq) with h | h
  · rw [← h]; exact hu
  · rw [e]; exact List.mem_append_left _ h

example : Kept (exec linux init demo).1 := by
  refine kept_of _ 1 (by decide) fun u q hq => .inl ?_
  have h : .ret u .first ∈ (exec linux init demo).1 := hq.subset (by simp)
  have h2 : ∀ l ∈ (exec linux init demo).1,
      (match l with | .ret u .first => u == 1 | _ => true) = true := by decide
  simpa using h2 _ h

/-! ## Where the claim fails: every handle has closed the object -/

/-- Handle 1 creates the object and closes it, handle 2 opens it again, up to the test of the
counter. -/
def again : List Act :=
  [.callOpen 1] ++ List.replicate 9 (.run 1) ++ [.callClose 1] ++ List.replicate 4 (.run 1) ++
  [.callOpen 2] ++ List.replicate 5 (.run 2)

/-- Whenever an opener finds the counter at zero it clears `StartPos` bytes more than belong to the
object; that is undefined behaviour unless the mapping happens to be longer. -/
theorem reopen_overruns (s : S) (t : Nat) (hpc : s.pc t = .oCheck) (hr : s.ref = 0) :
    (run p s t = some (.error .oobWrite) ∨
      run p s t = some (.ok (s.goto t (.oRef .first), [.touch t p.start (p.start + p.total)]))) ∧
    p.total < p.start + p.total := by
  constructor
  · simp only [run, hpc, hr, ne_eq, not_true, if_false, acc]
    split
    · exact .inr rfl
    · exact .inl rfl
  · have := alignSize_ge p.al 1
    simp only [Par.start, Par.refPos, Par.mutexPos]
    omega

example : ∃ s, (exec linux init again).2 = .ok s ∧ s.pc 2 = .oCheck ∧ s.ref = 0 := ⟨_, rfl, rfl, rfl⟩

/-- With a mapping of just the requested length this is an access outside the mapping. -/
theorem reopen_ub :
    (exec { linux with mapped := 144 } init (again ++ [.run 2])).2.toOption.isNone = true := by decide

/-- With whole pages mapped the handle goes on to unlock a mutex that it does not hold. -/
theorem reopen_bad_unlock : (match (exec linux init (again ++ List.replicate 6 (.run 2))).2 with
    | .error e => e == .badUnlock | .ok _ => false) = true := by decide

/-- Handle 3 opens the object and uses it after handle 2 was told to initialise it, but before it
did so. -/
theorem early_use :
    let ls := (exec linux init (again ++ List.replicate 4 (.run 2) ++ [.callOpen 3] ++
      List.replicate 9 (.run 3) ++ [.use 3])).1
    ls.getLast? = some (.use 3) ∧ stage ls = .pending 2 := by decide

/-! ## Where an open never returns -/

/-- The object exists, but its creator crashed or failed before marking it as initialised. -/
structure Abandoned (s : S) : Prop where
  ex : s.ex = true
  byte0 : s.byte0 = false
  pcs : ∀ t, s.pc t = .idle ∨ s.pc t = .opening ∨ s.pc t = .oOpen ∨ s.pc t = .oMap ∨
    s.pc t = .oSpin ∨ s.pc t = .dead

theorem abandoned_goto {s : S} (h : Abandoned s) (t : Nat) (q : Pc)
    (hq : q = .idle ∨ q = .opening ∨ q = .oOpen ∨ q = .oMap ∨ q = .oSpin ∨ q = .dead) :
    Abandoned (s.goto t q) := by
  refine ⟨h.ex, h.byte0, fun u => ?_⟩
  simp only [S.goto, setAt]
  split
  · exact hq
  · exact h.pcs u

theorem abandoned_step {s : S} (h : Abandoned s) (a : Act) (s' : S) (ls : List Label)
    (e : step p s a = some (.ok (s', ls))) : Abandoned s' ∧ ∀ t r, .ret t r ∈ ls → r = .fail := by
  cases a with
  | callOpen t =>
    simp only [step] at e
    split at e
    · cases e
      exact ⟨abandoned_goto h t _ (by simp), by simp⟩
    · cases e
  | use t =>
    simp only [step] at e
    split at e
    · next hpc => have := h.pcs t; rw [hpc] at this; simp at this
    · cases e
  | callClose t =>
    simp only [step] at e
    split at e
    · next hpc => have := h.pcs t; rw [hpc] at this; simp at this
    · cases e
  | crash t =>
    simp only [step] at e
    cases e
    exact ⟨abandoned_goto h t _ (by simp), by simp⟩
  | run t =>
    simp only [step] at e
    rcases h.pcs t with hpc | hpc | hpc | hpc | hpc | hpc <;>
      simp only [run, hpc, h.ex, h.byte0, if_true, acc] at e
    · cases e
    · cases e; exact ⟨abandoned_goto h t _ (by simp), by simp⟩
    · cases e; exact ⟨abandoned_goto h t _ (by simp), by simp⟩
    · cases e; exact ⟨abandoned_goto h t _ (by simp), by simp⟩
    · split at e
      · cases e; exact ⟨h, by simp⟩
      · cases e
    · cases e
  | fail t =>
    simp only [step] at e
    rcases h.pcs t with hpc | hpc | hpc | hpc | hpc | hpc <;> simp only [fail, hpc] at e <;> cases e
    · exact ⟨abandoned_goto h t _ (by simp), by simp⟩
    · exact ⟨abandoned_goto h t _ (by simp), by simp⟩
    · exact ⟨abandoned_goto h t _ (by simp), by simp⟩

/-- Then no open ever succeeds again, whatever happens. -/
theorem abandoned_for_ever : ∀ (as : List Act) (s : S), Abandoned s → ∀ t r,
    .ret t r ∈ (exec p s as).1 → r = .fail
  | [], _, _, _, _, h => by simp [exec] at h
  | a :: as, s, hs, t, r, h => by
    cases e : step p s a with
    | none =>
      simp only [exec, e] at h
      exact abandoned_for_ever as s hs t r h
    | some x =>
      cases x with
      | error e' => simp [exec, e] at h
      | ok x =>
        obtain ⟨s', ls⟩ := x
        simp only [exec, e, List.mem_append] at h
        obtain ⟨h1, h2⟩ := abandoned_step hs a s' ls e
        rcases h with h | h
        · exact h2 t r h
        · exact abandoned_for_ever as s' h1 t r h

/- A creator that crashes right after `shm_open`, or whose `mmap` fails. -/
example : ∃ s, (exec linux init [.callOpen 1, .run 1, .crash 1]).2 = .ok s ∧ Abandoned s := by
  refine ⟨_, rfl, rfl, rfl, fun t => ?_⟩
  simp only [S.goto, setAt, init]
  repeat' split
  all_goals simp

example : ∃ s, (exec linux init [.callOpen 1, .run 1, .fail 1]).2 = .ok s ∧ Abandoned s := by
  refine ⟨_, rfl, rfl, rfl, fun t => ?_⟩
  simp only [S.goto, setAt, init]
  repeat' split
  all_goals simp

end Verif.NamedMem
