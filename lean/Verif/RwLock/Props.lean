import Verif.RwLock.Lemmas
import Verif.RwLock.Wrap

/-! # Reader-writer lock exclusion (C37) -/

namespace Verif.RwLock

open Spec

theorem reach (as : List Act) (hf : Few (exec false init as).2) :
    ∃ R W tw tc, Inv (exec false init as).1 R W tw tc ∧
      atomic ([], none) (exec false init as).2 = some (R, W) ∧
      (∀ t, phase t (some .out) (exec false init as).2
        = some (phOf ((exec false init as).1.pc t))) ∧
      ∀ t, (exec false init as).1.rd t = reading t 0 (exec false init as).2 ∧
        (exec false init as).1.wr t = writing t false (exec false init as).2 := by
  have := exec_ok as (pre := []) init_inv rfl rfl (fun _ => rfl) (fun _ => ⟨rfl, rfl⟩) hf
  simpa only [List.nil_append] using this

/-- A writer never overlaps another writer. -/
theorem one_writer_partial (as : List Act) (hf : Few (exec false init as).2) (t u : Nat)
    (ht : writing t false (exec false init as).2 = true)
    (hu : writing u false (exec false init as).2 = true) : t = u := by
  obtain ⟨R, W, tw, tc, hi, _, _, hg⟩ := reach as hf
  have h1 := hi.w1 t (Or.inl (by rw [(hg t).2]; exact ht))
  have h2 := hi.w1 u (Or.inl (by rw [(hg u).2]; exact hu))
  rw [h1] at h2
  cases h2
  rfl

/-- A writer never overlaps a reader. -/
theorem no_reader_partial (as : List Act) (hf : Few (exec false init as).2) (t u : Nat)
    (ht : writing t false (exec false init as).2 = true) :
    reading u 0 (exec false init as).2 = 0 := by
  obtain ⟨R, W, tw, tc, hi, _, _, hg⟩ := reach as hf
  have h1 := hi.w1 t (Or.inl (by rw [(hg t).2]; exact ht))
  have h2 := (hi.w2 t h1).1
  have h3 := hi.cnt u
  rw [h2, (hg u).1] at h3
  rw [List.count_nil] at h3
  omega

/-- Linearizability: readers and writers come and go as in the atomic reader-writer lock, and for
each thread every lock call has exactly the effect its result reports, between call and return. -/
theorem linearizable_partial (as : List Act) (hf : Few (exec false init as).2) :
    (atomic ([], none) (exec false init as).2).isSome = true ∧
    ∀ t, (phase t (some .out) (exec false init as).2).isSome = true := by
  obtain ⟨R, W, tw, tc, _, ha, hp, _⟩ := reach as hf
  exact ⟨by rw [ha]; rfl, fun t => by rw [hp t]; rfl⟩

/-- A free lock lets a writer in at once. -/
theorem write_free (s : S) (t : Nat) (hpc : s.pc t = .idle) (hw : s.wsem = true) (he : s.ev = true) :
    (exec false s [.callWrite t, .run t, .run t, .run t]).2 = [.callWrite t, .enterW t, .retWrite t true] := by
  simp [exec, step, hpc, run, S.goto, setAt, hw, he, retWrite]

/-- With no writer there or waiting, a reader gets in at once, whoever reads already. -/
theorem read_free (s : S) (t : Nat) (hpc : s.pc t = .idle) (hw : s.wsem = true)
    (hc : s.csem = true) :
    (exec false s ([.callRead t] ++ List.replicate 8 (.run t))).2
      = [.callRead t, .enterR t, .retRead t true] := by
  simp [exec, step, hpc, run, S.goto, setAt, hw, hc, List.replicate, retRead]

/-- Two readers inside together, a writer waiting for them; when both are gone it gets in. -/
def demo : List Act :=
  [.callRead 1] ++ List.replicate 8 (.run 1) ++ [.callRead 2] ++ List.replicate 8 (.run 2) ++
    [.callWrite 3, .run 3, .run 3]

example : reading 1 0 (exec false init demo).2 = 1 ∧ reading 2 0 (exec false init demo).2 = 1 ∧
    (exec false init demo).1.pc 3 = .wE := by decide

example : writing 3 false (exec false init (demo ++ [.callReadUnlock 1] ++ List.replicate 7 (.run 1) ++
      [.callReadUnlock 2] ++ List.replicate 8 (.run 2) ++ [.run 3, .run 3])).2 = true := by decide

example (as : List Act) (h : (exec false init as).2.length < 4294967295) :
    Few (exec false init as).2 := by
  intro q hq
  have h1 : ∀ (q : List Label) (n : Nat), readers n q ≤ n + q.length := by
    intro q
    induction q with
    | nil => exact fun n => Nat.le_refl _
    | cons l q ih =>
      intro n
      cases l <;> simp only [readers, List.length_cons] <;>
        first | (have := ih n; omega) | (have := ih (n + 1); omega) | (have := ih (n - 1); omega)
  have := h1 q 0
  have := hq.length_le
  omega

/-- Pairing is needed: `WriteUnlock` by a thread that has no write lock succeeds and lets a second
writer in. -/
theorem unpaired_breaks : let ls := (exec true init ([.callWrite 1, .run 1, .run 1, .run 1,
      .callWriteUnlock 2, .run 2, .run 2, .callWrite 3, .run 3, .run 3, .run 3])).2
    writing 1 false ls = true ∧ writing 3 false ls = true := by decide

/-- `ReadUnlock` by a thread that has no read lock takes away another thread's: a writer gets in
beside the reader. -/
theorem unpaired_read_breaks : let ls := (exec true init ([.callRead 1] ++
      List.replicate 8 (.run 1) ++ [.callReadUnlock 2] ++ List.replicate 8 (.run 2) ++
      [.callWrite 3, .run 3, .run 3, .run 3])).2
    reading 1 0 ls = 1 ∧ writing 3 false ls = true := by decide

/-- A failing `FireUnixEvent` in the last reader's unlock locks writers out although nobody is
inside: the writer stays before the event. -/
theorem fire_failure_blocks : let r := exec false init ([.callRead 1] ++
      List.replicate 8 (.run 1) ++ [.callReadUnlock 1] ++ List.replicate 5 (.run 1) ++ [.fail 1, .run 1, .run 1] ++
      [.callWrite 3, .run 3, .run 3, .run 3])
    atomic ([], none) r.2 = some ([], none) ∧ r.1.pc 1 = .idle ∧ r.1.pc 3 = .wE ∧ r.1.ev = false := by
  decide

/-- The limit on the number of readers is needed: after 2^32 + 1 read locks (all paired so far) the
counter stands at 1, the first unlock fires the event, and a writer gets in beside the readers. -/
theorem exclusion_fails : ∃ as, 0 < reading 1 0 (exec false init as).2 ∧
    writing 3 false (exec false init as).2 = true := by
  obtain ⟨ls, h, hr, hw⟩ := rounds_ok 4294967296 true 0 0
  have hi : init = resting true 0 0 := by
    unfold init resting
    congr 1
    funext i
    by_cases e : i = 1 <;> simp [e]
  refine ⟨rounds (4294967296 + 1) ++ breakIn, ?_⟩
  rw [exec_app, hi, h]
  dsimp only
  rw [show (0 + (4294967296 + 1)) % 4294967296 = 1 from rfl,
    show 0 + (4294967296 + 1) = 4294967296 + 1 from rfl, breakIn_labels, reading_append, writing_append,
    hr, hw]
  exact ⟨by simp [reading], rfl⟩

end Verif.RwLock
