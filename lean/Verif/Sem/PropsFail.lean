import Verif.Sem.Props

/-!
# C124: why a wait on a semaphore reports failure
-/

namespace Verif.Sem
open Spec

/-- The time limit of the last wait a thread called (`lw`: the one before the list). -/
def lastWait (t : Nat) : Option Nat → List Label → Option Nat
  | lw, [] => lw
  | lw, .callWait u w :: ls => lastWait t (if u = t then some w else lw) ls
  | lw, _ :: ls => lastWait t lw ls

/-- Actions in which a system call of thread `t` fails or its time limit is reached. -/
def Gives (t : Nat) : Act → Prop
  | .fail u => u = t
  | .wake u zero => u = t ∧ zero = false
  | _ => False

/-- What the position of a thread says about the wait it is in. -/
def Reason (lw : Option Nat) (count : Nat) : Pc → Prop
  | .wLock w | .wTest w | .wBlocked w | .wRetest w => lw = some w
  | .wWoken w zero => lw = some w ∧ zero = true
  | .wUnlock r => r = false → lw = some 0 ∧ count = 0
  | _ => True

theorem lastWait_other {t u : Nat} (h : u ≠ t) : ∀ (ls : List Label) (lw : Option Nat), (∀ l ∈ ls, who l = u) → lastWait t lw ls = lw
  | [], _, _ => rfl
  | l :: ls, lw, hw => by
    have h1 := hw l List.mem_cons_self
    have ih := lastWait_other h ls lw (fun l hl => hw l (List.mem_cons_of_mem _ hl))
    cases l with
    | callWait v w =>
      have hv : v = u := h1
      rw [lastWait, if_neg (by rw [hv]; exact h)]
      exact ih
    | _ => exact ih

theorem lastWait_append (t : Nat) : ∀ (a b : List Label) (lw : Option Nat), lastWait t lw (a ++ b) = lastWait t (lastWait t lw a) b
  | [], _, _ => rfl
  | l :: a, b, lw => by
    cases l with
    | callWait v w => exact lastWait_append t a b _
    | _ => exact lastWait_append t a b _

/-- A step of another thread: the thread stays where it is or is woken with a signal, the labels are not its own, and the
counter only changes if the other one holds the mutex. -/
def Frame (s s' : S) (t u : Nat) (ls : List Label) : Prop :=
  (s'.pc t = s.pc t ∨ ∃ w, s.pc t = .wBlocked w ∧ s'.pc t = .wWoken w true) ∧ (s'.count = s.count ∨ crit (s.pc u) = true) ∧
    (∀ l ∈ ls, who l = u) ∧ (s'.owner = some t → s.owner = some t)

theorem frame_goto {s s1 : S} {t u : Nat} {p : Pc} {ls : List Label} (h : t ≠ u) (hp : s1.pc = s.pc)
    (hc : s1.count = s.count ∨ crit (s.pc u) = true) (hl : ∀ l ∈ ls, who l = u)
    (ho : s1.owner = s.owner ∨ s1.owner = none ∨ s1.owner = some u) : Frame s (s1.goto u p) t u ls := by
  refine ⟨.inl ?_, hc, hl, fun e => ?_⟩
  rotate_left
  · have e : s1.owner = some t := e
    rcases ho with ho | ho | ho
    · rw [← ho]; exact e
    · rw [ho] at e; cases e
    · rw [ho] at e; cases e; exact absurd rfl h
  rw [goto_pc, if_neg h, hp]

theorem run_frame {s s' : S} {t u pick : Nat} {ls : List Label} (h : t ≠ u) (he : run s u pick = .ok (some (s', ls))) :
    Frame s s' t u ls := by
  have nil : ∀ l ∈ ([] : List Label), who l = u := fun l hl => nomatch hl
  have one : ∀ l : Label, who l = u → ∀ m ∈ [l], who m = u := fun l hl m hm => by rw [List.mem_singleton.1 hm]; exact hl
  rw [run] at he
  cases hpc : s.pc u <;> rw [hpc] at he <;> dsimp only at he
  case idle => cases he
  case wLock w =>
    split at he
    · cases he; exact frame_goto h rfl (.inl rfl) nil (by simp)
    · split at he
      · cases he; exact frame_goto h rfl (.inl rfl) (one _ rfl) (by simp)
      · cases he
  case wTest w =>
    split at he
    · cases he; exact frame_goto h rfl (.inl rfl) nil (by simp)
    · split at he
      · cases he; exact frame_goto h rfl (.inl rfl) nil (by simp)
      · unfold block at he
        split at he
        · cases he; exact frame_goto h rfl (.inl rfl) nil (by simp)
        · cases he
  case wDec v => cases he; exact frame_goto h rfl (.inr (by rw [hpc]; rfl)) (one _ rfl) (by simp)
  case wBlocked w => cases he
  case wWoken w z =>
    split at he
    · cases he; exact frame_goto h rfl (.inl rfl) nil (by simp)
    · cases he
  case wRetest w =>
    split at he
    · cases he; exact frame_goto h rfl (.inl rfl) nil (by simp)
    · unfold block at he
      split at he
      · cases he; exact frame_goto h rfl (.inl rfl) nil (by simp)
      · cases he
  case wUnlock r =>
    split at he
    · cases he; exact frame_goto h rfl (.inl rfl) (one _ rfl) (by simp)
    · cases he
  case rLock =>
    split at he
    · cases he; exact frame_goto h rfl (.inl rfl) nil (by simp)
    · cases he
  case rPrev => cases he; exact frame_goto h rfl (.inl rfl) nil (by simp)
  case rLoad p => cases he; exact frame_goto h rfl (.inl rfl) nil (by simp)
  case rStore p v => cases he; exact frame_goto h rfl (.inr (by rw [hpc]; rfl)) nil (by simp)
  case rClamp p => cases he; exact frame_goto h rfl (.inr (by rw [hpc]; rfl)) (one _ rfl) (by simp)
  case rSignal p =>
    split at he
    · cases he; exact frame_goto h rfl (.inl rfl) nil (by simp)
    · split at he
      · next w hw =>
        cases he
        refine ⟨?_, .inl rfl, nil, id⟩
        rw [goto_pc, if_neg h, goto_pc]
        by_cases htp : t = pick
        · rw [if_pos htp]; exact .inr ⟨w, by rw [htp]; exact hw, rfl⟩
        · rw [if_neg htp]; exact .inl rfl
      · cases he
  case rUnlock p =>
    split at he
    · cases he; exact frame_goto h rfl (.inl rfl) (one _ rfl) (by simp)
    · cases he

theorem Frame.reason {s s' : S} {n t u : Nat} {ls : List Label} {lw : Option Nat} (hf : Frame s s' t u ls) (h : t ≠ u) (hi : Inv s n)
    (hr : Reason lw s.count (s.pc t)) : Reason (lastWait t lw ls) s'.count (s'.pc t) ∧ Label.retWait t false ∉ ls := by
  obtain ⟨h1, h2, h3, _⟩ := hf
  rw [lastWait_other (fun e => h e.symm) ls lw h3]
  refine ⟨?_, fun hm => h (h3 _ hm)⟩
  rcases h1 with h1 | ⟨w, h1, h4⟩
  · rw [h1]
    rcases h2 with h2 | h2
    · rw [h2]; exact hr
    · have hnc : crit (s.pc t) = false := hi.others (.inr (hi.crit u h2)) h
      cases hpc : s.pc t <;> rw [hpc] at hr hnc <;> first | (cases hnc; done) | exact hr
  · rw [h4]
    rw [h1] at hr
    exact ⟨hr, rfl⟩

/-- The reason for a failure, at the moment of the return: the time limit was 0, and there was no unit or another thread was inside. -/
def Because (s : S) (t : Nat) (lw : Option Nat) : Prop := lw = some 0 ∧ (s.count = 0 ∨ ∃ u, u ≠ t ∧ s.owner = some u)

theorem run_reason {s s' : S} {n t pick : Nat} {ls : List Label} {lw : Option Nat} (hi : Inv s n)
    (hr : Reason lw s.count (s.pc t)) (he : run s t pick = .ok (some (s', ls))) (hown : ∀ w, s.pc t = .wLock w → s.owner ≠ some t) :
    Reason (lastWait t lw ls) s'.count (s'.pc t) ∧ (Label.retWait t false ∈ ls → Because s t lw) := by
  have pcs : ∀ (s1 : S) (p : Pc), (s1.goto t p).pc t = p := fun s1 p => by rw [goto_pc, if_pos rfl]
  have no : ∀ P : Prop, (Label.retWait t false ∈ ([] : List Label) → P) := fun P h => nomatch h
  rw [run] at he
  cases hpc : s.pc t <;> rw [hpc] at he hr <;> dsimp only at he
  case idle => cases he
  case wLock w =>
    split at he
    · cases he; rw [pcs]; exact ⟨hr, no _⟩
    · next o ho =>
      split at he
      · next hw =>
        cases he
        rw [pcs]
        refine ⟨trivial, fun _ => ⟨by rw [← hw]; exact hr, .inr ⟨o, ?_, ho⟩⟩⟩
        rintro rfl
        exact hown w hpc ho
      · cases he
  case wTest w =>
    split at he
    · cases he; rw [pcs]; exact ⟨trivial, no _⟩
    · next hc =>
      split at he
      · next hw =>
        cases he
        rw [pcs]
        exact ⟨fun _ => ⟨by rw [← hw]; exact hr, show s.count = 0 by simpa using hc⟩, no _⟩
      · unfold block at he
        split at he
        · cases he; rw [pcs]; exact ⟨hr, no _⟩
        · cases he
  case wDec v =>
    cases he; rw [pcs]
    exact ⟨(fun h => nomatch h), fun h => by simp at h⟩
  case wBlocked w => cases he
  case wWoken w z =>
    obtain ⟨h1, rfl⟩ := hr
    split at he
    · cases he; rw [pcs]; exact ⟨h1, no _⟩
    · cases he
  case wRetest w =>
    split at he
    · cases he; rw [pcs]; exact ⟨trivial, no _⟩
    · unfold block at he
      split at he
      · cases he; rw [pcs]; exact ⟨hr, no _⟩
      · cases he
  case wUnlock r =>
    split at he
    · cases he; rw [pcs]
      refine ⟨trivial, fun h => ?_⟩
      have h1 : r = false := by simpa using h
      exact ⟨(hr h1).1, .inl (hr h1).2⟩
    · cases he
  case rLock =>
    split at he
    · cases he; rw [pcs]; exact ⟨trivial, no _⟩
    · cases he
  case rPrev => cases he; rw [pcs]; exact ⟨trivial, no _⟩
  case rLoad p => cases he; rw [pcs]; exact ⟨trivial, no _⟩
  case rStore p v => cases he; rw [pcs]; exact ⟨trivial, no _⟩
  case rClamp p => cases he; rw [pcs]; exact ⟨trivial, fun h => by simp at h⟩
  case rSignal p =>
    split at he
    · cases he; rw [pcs]; exact ⟨trivial, no _⟩
    · split at he
      · cases he; rw [pcs]; exact ⟨trivial, no _⟩
      · cases he
  case rUnlock p =>
    split at he
    · cases he; rw [pcs]; exact ⟨trivial, fun h => by simp at h⟩
    · cases he

/-- A thread that made no failing call holds the mutex only inside. -/
def Own (s : S) (t : Nat) : Prop := s.owner = some t → crit (s.pc t) = true

theorem run_own {s s' : S} {t pick : Nat} {ls : List Label} (ho : Own s t) (he : run s t pick = .ok (some (s', ls))) : Own s' t := by
  have pcs : ∀ (s1 : S) (p : Pc), (s1.goto t p).pc t = p := fun s1 p => by rw [goto_pc, if_pos rfl]
  unfold Own at ho ⊢
  rw [run] at he
  cases hpc : s.pc t <;> rw [hpc] at he ho <;> dsimp only at he
  case idle => cases he
  case wLock w =>
    split at he
    · cases he; rw [pcs]; exact fun _ => rfl
    · split at he
      · cases he; rw [pcs]; exact fun e => nomatch ho e
      · cases he
  case wTest w =>
    split at he
    · cases he; rw [pcs]; exact fun _ => rfl
    · split at he
      · cases he; rw [pcs]; exact fun _ => rfl
      · unfold block at he
        split at he
        · cases he; exact (fun e => nomatch e)
        · cases he
  case wDec v => cases he; rw [pcs]; exact fun _ => rfl
  case wBlocked w => cases he
  case wWoken w z =>
    split at he
    · cases he; rw [pcs]; cases z <;> exact fun _ => rfl
    · cases he
  case wRetest w =>
    split at he
    · cases he; rw [pcs]; exact fun _ => rfl
    · unfold block at he
      split at he
      · cases he; exact (fun e => nomatch e)
      · cases he
  case wUnlock r =>
    split at he
    · cases he; exact (fun e => nomatch e)
    · cases he
  case rLock =>
    split at he
    · cases he; rw [pcs]; exact fun _ => rfl
    · cases he
  case rPrev => cases he; rw [pcs]; exact fun _ => rfl
  case rLoad p => cases he; rw [pcs]; exact fun _ => rfl
  case rStore p v => cases he; rw [pcs]; exact fun _ => rfl
  case rClamp p => cases he; rw [pcs]; exact fun _ => rfl
  case rSignal p =>
    split at he
    · cases he; rw [pcs]; exact fun _ => rfl
    · split at he
      · cases he; rw [pcs]; exact fun _ => rfl
      · cases he
  case rUnlock p =>
    split at he
    · cases he; exact (fun e => nomatch e)
    · cases he

theorem Frame.own {s s' : S} {t u : Nat} {ls : List Label} (hf : Frame s s' t u ls) (ho : Own s t) : Own s' t := by
  obtain ⟨h1, _, _, h4⟩ := hf
  intro e
  have h5 := ho (h4 e)
  rcases h1 with h1 | ⟨w, h1, _⟩
  · rw [h1]; exact h5
  · rw [h1] at h5; cases h5

/-- The actor of an action. -/
def actor : Act → Nat
  | .callWait t _ => t
  | .callRelease t => t
  | .run t _ => t
  | .fail t => t
  | .wake t _ => t

theorem step_frame {s s' : S} {t : Nat} {a : Act} {ls : List Label} (h : t ≠ actor a) (he : step s a = .ok (some (s', ls))) :
    Frame s s' t (actor a) ls := by
  have nil : ∀ u, ∀ l ∈ ([] : List Label), who l = u := fun u l hl => nomatch hl
  have one : ∀ u, ∀ l : Label, who l = u → ∀ m ∈ [l], who m = u := fun u l hl m hm => by rw [List.mem_singleton.1 hm]; exact hl
  cases a with
  | callWait u w =>
    simp only [step] at he
    split at he
    · cases he; exact frame_goto h rfl (.inl rfl) (one _ _ rfl) (.inl rfl)
    · cases he
  | callRelease u =>
    simp only [step] at he
    split at he
    · cases he; exact frame_goto h rfl (.inl rfl) (one _ _ rfl) (.inl rfl)
    · cases he
  | run u pick => exact run_frame h he
  | fail u =>
    rw [step, fail] at he
    cases hpc : s.pc u <;> rw [hpc] at he <;> dsimp only at he <;> try (cases he; done)
    · cases he; exact frame_goto h rfl (.inl rfl) (one _ _ rfl) (.inl rfl)
    · split at he
      · cases he; exact frame_goto h rfl (.inl rfl) (one _ _ rfl) (.inl rfl)
      · cases he
    · cases he; exact frame_goto h rfl (.inl rfl) (one _ _ rfl) (.inl rfl)
  | wake u z =>
    rw [step] at he
    cases hpc : s.pc u <;> rw [hpc] at he <;> dsimp only at he <;> try (cases he; done)
    cases he; exact frame_goto h rfl (.inl rfl) (nil _) (.inl rfl)

theorem step_reason {s s' : S} {n t : Nat} {a : Act} {ls : List Label} {lw : Option Nat} (hi : Inv s n) (ho : Own s t)
    (hr : Reason lw s.count (s.pc t)) (hg : ¬ Gives t a) (he : step s a = .ok (some (s', ls))) :
    Own s' t ∧ Reason (lastWait t lw ls) s'.count (s'.pc t) ∧ (Label.retWait t false ∈ ls → Because s t lw) := by
  by_cases h : t = actor a
  · have pcs : ∀ (s1 : S) (p : Pc), (s1.goto t p).pc t = p := fun s1 p => by rw [goto_pc, if_pos rfl]
    cases a with
    | callWait u w =>
      have h : t = u := h
      subst h
      simp only [step] at he
      split at he
      · next hpc =>
        cases he
        rw [pcs]
        refine ⟨fun e => ?_, ?_, fun h => by simp at h⟩
        · have := ho e; rw [hpc] at this; cases this
        · show lastWait t lw [.callWait t w] = some w
          rw [lastWait, if_pos rfl, lastWait]
      · cases he
    | callRelease u =>
      have h : t = u := h
      subst h
      simp only [step] at he
      split at he
      · next hpc =>
        cases he
        rw [pcs]
        refine ⟨fun e => ?_, trivial, fun h => by simp at h⟩
        have := ho e; rw [hpc] at this; cases this
      · cases he
    | run u pick =>
      have h : t = u := h
      subst h
      refine ⟨run_own ho he, run_reason hi hr he ?_⟩
      intro w hw e
      have := ho e
      rw [hw] at this
      cases this
    | fail u => exact absurd h.symm hg
    | wake u z =>
      have h : t = u := h
      subst h
      rw [step] at he
      have hz : z = true := by
        cases z with
        | true => rfl
        | false => exact absurd ⟨rfl, rfl⟩ hg
      subst hz
      cases hpc : s.pc t <;> rw [hpc] at he hr <;> dsimp only at he <;> try (cases he; done)
      cases he
      rw [pcs]
      refine ⟨fun e => ?_, ⟨hr, rfl⟩, (fun h => nomatch h)⟩
      have := ho e; rw [hpc] at this; cases this
  · have hf := step_frame h he
    obtain ⟨h1, h2⟩ := hf.reason h hi hr
    exact ⟨hf.own ho, h1, fun hm => absurd hm h2⟩

theorem exec_reason {t : Nat} : ∀ (as : List Act) {s s' : S} {n : Nat} {ls : List Label} {lw : Option Nat}, Inv s n → Own s t →
    Reason lw s.count (s.pc t) → (∀ a ∈ as, ¬ Gives t a) → exec s as = .ok (s', ls) →
    ∃ n', Inv s' n' ∧ Own s' t ∧ Reason (lastWait t lw ls) s'.count (s'.pc t)
  | [], s, s', n, ls, lw, hi, ho, hr, _, he => by cases he; exact ⟨n, hi, ho, hr⟩
  | a :: as, s, s', n, ls, lw, hi, ho, hr, hg, he => by
    obtain ⟨r, h1, h2⟩ := step_ok (a := a) hi
    rw [exec, h1, ok_bind] at he
    have hg' := fun b hb => hg b (List.mem_cons_of_mem _ hb)
    cases r with
    | none => exact exec_reason as hi ho hr hg' he
    | some x =>
      obtain ⟨s1, l1⟩ := x
      obtain ⟨n1, hi1, _⟩ := h2 s1 l1 rfl
      obtain ⟨ho1, hr1, _⟩ := step_reason hi ho hr (hg a List.mem_cons_self) h1
      dsimp only at he
      cases hx : exec s1 as with
      | error e => rw [hx] at he; cases he
      | ok z =>
        obtain ⟨s2, l2⟩ := z
        rw [hx, ok_bind] at he
        cases he
        rw [lastWait_append]
        exact exec_reason as hi1 ho1 hr1 hg' hx

/-- A wait of thread `t` reports failure although none of its system calls failed and no time limit was reached: then its limit
was 0, and at that moment there was no unit or another thread was inside the semaphore.  In particular a wait without limit never gives up. -/
theorem gives_up_partial (start max t : Nat) (as : List Act) (a : Act) (s s' : S) (ls l : List Label)
    (h : exec (init start max) as = .ok (s, ls)) (hs : step s a = .ok (some (s', l))) (hret : Label.retWait t false ∈ l)
    (hg : ∀ b ∈ as ++ [a], ¬ Gives t b) :
    lastWait t none ls = some 0 ∧ (s.count = 0 ∨ ∃ u, u ≠ t ∧ s.owner = some u) := by
  obtain ⟨n, hi, ho, hr⟩ := exec_reason as (t := t) (lw := none) (init_inv start max) (fun e => nomatch e) trivial
    (fun b hb => hg b (List.mem_append_left _ hb)) h
  exact (step_reason hi ho hr (hg a (by simp)) hs).2.2 hret

/-- The disagreement: there are units enough for everybody, but a wait with limit 0 fails because another thread is inside (it
takes a unit at the same time). -/
theorem try_fails_with_units (n : Nat) (hn : 2 ≤ n) (hm : n ≤ 4294967295) : ∃ s, exec (init n n)
    [.callWait 1 0, .run 1 0, .callWait 2 0, .run 2 0, .run 1 0, .run 1 0, .run 1 0] =
      .ok (s, [.callWait 1 0, .callWait 2 0, .retWait 2 false, .take 1, .retWait 1 true]) ∧ s.count = n - 1 ∧ 1 ≤ s.count := by
  have h0 : n ≠ 0 := by omega
  simp [exec, step, run, S.goto, init, h0]
  omega

/-- Thread 1 waits without limit, thread 2 tries and finds no unit. -/
example : ∃ s s', exec (init 0 1) [.callWait 1 infinite, .run 1 0, .run 1 0, .callWait 2 0, .run 2 0, .run 2 0] =
    .ok (s, [.callWait 1 infinite, .callWait 2 0]) ∧ step s (.run 2 0) = .ok (some (s', [.retWait 2 false])) ∧ s.count = 0 :=
  ⟨_, _, rfl, rfl, rfl⟩

end Verif.Sem
