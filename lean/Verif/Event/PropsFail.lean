import Verif.Event.Props

/-!
# C124: why a wait on an event reports failure
-/

namespace Verif.Event
open Spec

/-- The time limit of the last wait a thread called (`lw`: the one before the list). -/
def lastWait (t : Nat) : Option Nat → List Label → Option Nat
  | lw, [] => lw
  | lw, .callWait u w :: ls => lastWait t (if u = t then some w else lw) ls
  | lw, _ :: ls => lastWait t lw ls

/-- Actions in which a system call of thread `t` fails or its time limit is reached. -/
def Gives (t : Nat) : Act → Prop
  | .fail u => u = t
  | .wake u zero => u = t ∧ zero = false
  | _ => False

/-- The event does not let a new wait pass: it is not signalled, or it is automatic and somebody waits already. -/
def Closed (s : S) : Prop := s.signaled = false ∨ (s.manual = false ∧ s.waiting ≠ 0)

/-- What the position of a thread says about the wait it is in. -/
def Reason (lw : Option Nat) (closed : Prop) : Pc → Prop
  | .wLock w | .wTest w | .wInc w | .wEnter w | .wBlocked w | .wRetest w => lw = some w
  | .wWoken w zero => lw = some w ∧ zero = true
  | .wDec zero => zero = true
  | .wUnlock r => r = false → lw = some 0 ∧ closed
  | _ => True

theorem lastWait_other {t u : Nat} (h : u ≠ t) : ∀ (ls : List Label) (lw : Option Nat), (∀ l ∈ ls, who l = u) → lastWait t lw ls = lw
  | [], _, _ => rfl
  | l :: ls, lw, hw => by
    have h1 := hw l List.mem_cons_self
    have ih := lastWait_other h ls lw (fun l hl => hw l (List.mem_cons_of_mem _ hl))
    cases l with
    | callWait v w =>
      have hv : v = u := h1
      rw [lastWait, if_neg (by rw [hv]; exact h)]
      exact ih
    | _ => exact ih

theorem lastWait_append (t : Nat) : ∀ (a b : List Label) (lw : Option Nat), lastWait t lw (a ++ b) = lastWait t (lastWait t lw a) b
  | [], _, _ => rfl
  | l :: a, b, lw => by
    cases l with
    | callWait v w => exact lastWait_append t a b _
    | _ => exact lastWait_append t a b _

/-- A step of another thread: the thread stays where it is or is woken with a signal, the labels are not its own, and the
state only changes if the other one holds the mutex. -/
def Frame (s s' : S) (t u : Nat) (ls : List Label) : Prop :=
  (s'.pc t = s.pc t ∨ ∃ w, s.pc t = .wBlocked w ∧ s'.pc t = .wWoken w true) ∧
    ((s'.signaled = s.signaled ∧ s'.waiting = s.waiting ∧ s'.manual = s.manual) ∨ crit (s.pc u) = true) ∧
    (∀ l ∈ ls, who l = u) ∧ (s'.owner = some t → s.owner = some t)

theorem frame_goto {s s1 : S} {t u : Nat} {p : Pc} {ls : List Label} (h : t ≠ u) (hp : s1.pc = s.pc)
    (hc : (s1.signaled = s.signaled ∧ s1.waiting = s.waiting ∧ s1.manual = s.manual) ∨ crit (s.pc u) = true)
    (hl : ∀ l ∈ ls, who l = u)
    (ho : s1.owner = s.owner ∨ s1.owner = none ∨ s1.owner = some u) : Frame s (s1.goto u p) t u ls := by
  refine ⟨.inl ?_, hc, hl, fun e => ?_⟩
  rotate_left
  · have e : s1.owner = some t := e
    rcases ho with ho | ho | ho
    · rw [← ho]; exact e
    · rw [ho] at e; cases e
    · rw [ho] at e; cases e; exact absurd rfl h
  rw [goto_pc, if_neg h, hp]

theorem lock_move {s s' : S} {u : Nat} {p : Pc} {ls : List Label} (h : lock s u p = .ok (some (s', ls))) :
    s.owner = none ∧ ls = [] ∧ s' = ({ s with owner := some u } : S).goto u p := by
  unfold lock at h
  split at h
  · next ho => cases h; exact ⟨ho, rfl, rfl⟩
  · cases h

theorem unlock_move {s s' : S} {u : Nat} {l : Label} {ls : List Label} (h : unlock s u l = .ok (some (s', ls))) :
    s.owner = some u ∧ ls = [l] ∧ s' = ({ s with owner := none } : S).goto u .idle := by
  unfold unlock at h
  split at h
  · next ho => cases h; exact ⟨ho, rfl, rfl⟩
  · cases h

theorem block_move {s s' : S} {u w : Nat} {ls : List Label} (h : block s u w = .ok (some (s', ls))) :
    s.owner = some u ∧ ls = [] ∧ s' = ({ s with owner := none, queue := u :: s.queue } : S).goto u (.wBlocked w) := by
  unfold block at h
  split at h
  · next ho => cases h; exact ⟨ho, rfl, rfl⟩
  · cases h

theorem run_frame {s s' : S} {t u pick : Nat} {ls : List Label} (h : t ≠ u) (he : run s u pick = .ok (some (s', ls))) :
    Frame s s' t u ls := by
  have nil : ∀ l ∈ ([] : List Label), who l = u := fun l hl => nomatch hl
  have one : ∀ l : Label, who l = u → ∀ m ∈ [l], who m = u := fun l hl m hm => by rw [List.mem_singleton.1 hm]; exact hl
  have lk : ∀ p, lock s u p = .ok (some (s', ls)) → Frame s s' t u ls := by
    intro p e
    obtain ⟨_, rfl, rfl⟩ := lock_move e
    exact frame_goto h rfl (.inl ⟨rfl, rfl, rfl⟩) nil (.inr (.inr rfl))
  have ul : ∀ l, who l = u → unlock s u l = .ok (some (s', ls)) → Frame s s' t u ls := by
    intro l hl e
    obtain ⟨_, rfl, rfl⟩ := unlock_move e
    exact frame_goto h rfl (.inl ⟨rfl, rfl, rfl⟩) (one l hl) (.inr (.inl rfl))
  have bl : ∀ w, block s u w = .ok (some (s', ls)) → Frame s s' t u ls := by
    intro w e
    obtain ⟨_, rfl, rfl⟩ := block_move e
    exact frame_goto h rfl (.inl ⟨rfl, rfl, rfl⟩) nil (.inr (.inl rfl))
  rw [run] at he
  cases hpc : s.pc u <;> rw [hpc] at he <;> dsimp only at he
  case idle => cases he
  case wLock w =>
    split at he
    · cases he; exact frame_goto h rfl (.inl ⟨rfl, rfl, rfl⟩) (one _ rfl) (.inl rfl)
    · exact lk _ he
  case wTest w =>
    split at he
    · split at he
      · cases he; exact frame_goto h rfl (.inl ⟨rfl, rfl, rfl⟩) (one _ rfl) (.inl rfl)
      · cases he; exact frame_goto h rfl (.inl ⟨rfl, rfl, rfl⟩) nil (.inl rfl)
    · split at he
      · cases he; exact frame_goto h rfl (.inl ⟨rfl, rfl, rfl⟩) nil (.inl rfl)
      · cases he; exact frame_goto h rfl (.inl ⟨rfl, rfl, rfl⟩) nil (.inl rfl)
  case wInc w => cases he; exact frame_goto h rfl (.inr (by rw [hpc]; rfl)) nil (.inl rfl)
  case wEnter w => exact bl _ he
  case wBlocked w => cases he
  case wWoken w z => exact lk _ he
  case wRetest w =>
    split at he
    · cases he; exact frame_goto h rfl (.inl ⟨rfl, rfl, rfl⟩) nil (.inl rfl)
    · exact bl _ he
  case wDec z =>
    split at he
    · split at he
      · cases he; exact frame_goto h rfl (.inr (by rw [hpc]; rfl)) (one _ rfl) (.inl rfl)
      · cases he; exact frame_goto h rfl (.inr (by rw [hpc]; rfl)) nil (.inl rfl)
    · cases he; exact frame_goto h rfl (.inr (by rw [hpc]; rfl)) nil (.inl rfl)
  case wClear => cases he; exact frame_goto h rfl (.inr (by rw [hpc]; rfl)) (one _ rfl) (.inl rfl)
  case wUnlock r => exact ul _ rfl he
  case fLock => exact lk _ he
  case fSet => cases he; exact frame_goto h rfl (.inr (by rw [hpc]; rfl)) (one _ rfl) (.inl rfl)
  case fSignal =>
    split at he
    · cases he
      refine ⟨?_, .inl ⟨rfl, rfl, rfl⟩, nil, id⟩
      rw [goto_pc, if_neg h]
      rcases wakeAll_pc s t with ⟨_, e⟩ | e
      · exact .inl e
      · exact .inr e
    · split at he
      · cases he; exact frame_goto h rfl (.inl ⟨rfl, rfl, rfl⟩) nil (.inl rfl)
      · split at he
        · next w hw =>
          cases he
          refine ⟨?_, .inl ⟨rfl, rfl, rfl⟩, nil, id⟩
          rw [goto_pc, if_neg h, goto_pc]
          by_cases htp : t = pick
          · rw [if_pos htp]; exact .inr ⟨w, by rw [htp]; exact hw, rfl⟩
          · rw [if_neg htp]; exact .inl rfl
        · cases he
  case fUnlock => exact ul _ rfl he
  case tManual =>
    split at he
    · cases he; exact frame_goto h rfl (.inl ⟨rfl, rfl, rfl⟩) nil (.inl rfl)
    · cases he; exact frame_goto h rfl (.inl ⟨rfl, rfl, rfl⟩) (one _ rfl) (.inl rfl)
  case tLock => exact lk _ he
  case tSet => cases he; exact frame_goto h rfl (.inr (by rw [hpc]; rfl)) (one _ rfl) (.inl rfl)
  case tUnlock => exact ul _ rfl he

theorem Frame.reason {s s' : S} {t u : Nat} {ls : List Label} {lw : Option Nat} (hf : Frame s s' t u ls) (h : t ≠ u) (hi : Inv s)
    (hr : Reason lw (Closed s) (s.pc t)) : Reason (lastWait t lw ls) (Closed s') (s'.pc t) ∧ Label.retWait t false ∉ ls := by
  obtain ⟨h1, h2, h3, _⟩ := hf
  rw [lastWait_other (fun e => h e.symm) ls lw h3]
  refine ⟨?_, fun hm => h (h3 _ hm)⟩
  rcases h1 with h1 | ⟨w, h1, h4⟩
  · rw [h1]
    rcases h2 with ⟨e1, e2, e3⟩ | h2
    · have : Closed s' = Closed s := by unfold Closed; rw [e1, e2, e3]
      rw [this]; exact hr
    · have hnc : crit (s.pc t) = false := hi.others (.inr (hi.crit u h2)) h
      cases hpc : s.pc t <;> rw [hpc] at hr hnc <;> first | (cases hnc; done) | exact hr
  · rw [h4]
    rw [h1] at hr
    exact ⟨hr, rfl⟩

/-- The reason for a failure, at the moment of the return: the time limit was 0, and the event was closed or another thread was
inside. -/
def Because (s : S) (t : Nat) (lw : Option Nat) : Prop := lw = some 0 ∧ (Closed s ∨ ∃ u, u ≠ t ∧ s.owner = some u)

/-- A thread holds the mutex only inside. -/
def Own (s : S) (t : Nat) : Prop := s.owner = some t → crit (s.pc t) = true

theorem run_reason {s s' : S} {t pick : Nat} {ls : List Label} {lw : Option Nat} (ho : Own s t)
    (hr : Reason lw (Closed s) (s.pc t)) (he : run s t pick = .ok (some (s', ls))) :
    Own s' t ∧ Reason (lastWait t lw ls) (Closed s') (s'.pc t) ∧ (Label.retWait t false ∈ ls → Because s t lw) := by
  have pcs : ∀ (s1 : S) (p : Pc), (s1.goto t p).pc t = p := fun s1 p => by rw [goto_pc, if_pos rfl]
  have own : ∀ (s1 : S) (p : Pc), crit p = true → Own (s1.goto t p) t := fun s1 p hp _ => by rw [pcs]; exact hp
  have no : ∀ P : Prop, (Label.retWait t false ∈ ([] : List Label) → P) := fun P h => nomatch h
  have lk : ∀ p, lock s t p = .ok (some (s', ls)) → crit p = true → Reason lw False p →
      Own s' t ∧ Reason (lastWait t lw ls) (Closed s') (s'.pc t) ∧ (Label.retWait t false ∈ ls → Because s t lw) := by
    intro p e hc hp
    obtain ⟨_, rfl, rfl⟩ := lock_move e
    refine ⟨own _ _ hc, ?_, no _⟩
    rw [pcs]
    cases p <;> first | exact hp | exact fun h => ⟨(hp h).1, False.elim (hp h).2⟩
  have ul : ∀ l, unlock s t l = .ok (some (s', ls)) → (Label.retWait t false = l → Because s t lw) →
      Own s' t ∧ Reason (lastWait t lw ls) (Closed s') (s'.pc t) ∧ (Label.retWait t false ∈ ls → Because s t lw) := by
    intro l e hb
    obtain ⟨_, rfl, rfl⟩ := unlock_move e
    refine ⟨(fun e => nomatch e), ?_, fun h => hb (List.mem_singleton.1 h)⟩
    rw [pcs]; trivial
  have bl : ∀ w, block s t w = .ok (some (s', ls)) → lw = some w →
      Own s' t ∧ Reason (lastWait t lw ls) (Closed s') (s'.pc t) ∧ (Label.retWait t false ∈ ls → Because s t lw) := by
    intro w e hw
    obtain ⟨_, rfl, rfl⟩ := block_move e
    refine ⟨(fun e => nomatch e), ?_, no _⟩
    rw [pcs]; exact hw
  unfold Own at ho
  rw [run] at he
  cases hpc : s.pc t <;> rw [hpc] at he hr ho <;> dsimp only at he
  case idle => cases he
  case wLock w =>
    split at he
    · next hw =>
      cases he
      refine ⟨(fun e => nomatch ho e), by rw [pcs]; trivial, fun _ => ⟨by rw [← hw.1]; exact hr, .inr ?_⟩⟩
      cases hx : s.owner with
      | none => exact absurd hx hw.2
      | some u =>
        refine ⟨u, ?_, rfl⟩
        rintro rfl
        exact nomatch ho hx
    · exact lk _ he rfl hr
  case wTest w =>
    split at he
    · split at he
      · cases he; exact ⟨own _ _ rfl, by rw [pcs]; exact (fun h => nomatch h), fun h => by simp at h⟩
      · cases he; exact ⟨own _ _ rfl, by rw [pcs]; trivial, no _⟩
    · next hc =>
      have hcl : Closed s := by
        unfold Closed
        cases hs : s.signaled with
        | false => exact .inl rfl
        | true =>
          rw [hs] at hc
          cases hm : s.manual with
          | true => rw [hm] at hc; exact absurd ⟨rfl, .inl rfl⟩ hc
          | false => exact .inr ⟨rfl, fun e => hc ⟨rfl, .inr e⟩⟩
      split at he
      · next hw =>
        cases he
        exact ⟨own _ _ rfl, by rw [pcs]; exact fun _ => ⟨by rw [← hw]; exact hr, hcl⟩, no _⟩
      · cases he; exact ⟨own _ _ rfl, by rw [pcs]; exact hr, no _⟩
  case wInc w => cases he; exact ⟨own _ _ rfl, by rw [pcs]; exact hr, no _⟩
  case wEnter w => exact bl _ he hr
  case wBlocked w => cases he
  case wWoken w z =>
    obtain ⟨h1, rfl⟩ := hr
    exact lk _ he rfl h1
  case wRetest w =>
    split at he
    · cases he; exact ⟨own _ _ rfl, by rw [pcs]; rfl, no _⟩
    · exact bl _ he hr
  case wDec z =>
    have hz : z = true := hr
    subst hz
    rw [if_pos rfl] at he
    split at he
    · cases he; exact ⟨own _ _ rfl, by rw [pcs]; exact (fun h => nomatch h), fun h => by simp at h⟩
    · cases he; exact ⟨own _ _ rfl, by rw [pcs]; trivial, no _⟩
  case wClear => cases he; exact ⟨own _ _ rfl, by rw [pcs]; exact (fun h => nomatch h), fun h => by simp at h⟩
  case wUnlock r =>
    refine ul _ he fun e => ?_
    have h1 : r = false := by injection e with _ e; exact e.symm
    exact ⟨(hr h1).1, .inl (hr h1).2⟩
  case fLock => exact lk _ he rfl trivial
  case fSet => cases he; exact ⟨own _ _ rfl, by rw [pcs]; trivial, fun h => by simp at h⟩
  case fSignal =>
    split at he
    · cases he; exact ⟨own _ _ rfl, by rw [pcs]; trivial, no _⟩
    · split at he
      · cases he; exact ⟨own _ _ rfl, by rw [pcs]; trivial, no _⟩
      · split at he
        · cases he; exact ⟨own _ _ rfl, by rw [pcs]; trivial, no _⟩
        · cases he
  case fUnlock => exact ul _ he (fun e => nomatch e)
  case tManual =>
    split at he
    · cases he; exact ⟨(fun e => nomatch ho e), by rw [pcs]; trivial, no _⟩
    · cases he; exact ⟨(fun e => nomatch ho e), by rw [pcs]; trivial, fun h => by simp at h⟩
  case tLock => exact lk _ he rfl trivial
  case tSet => cases he; exact ⟨own _ _ rfl, by rw [pcs]; trivial, fun h => by simp at h⟩
  case tUnlock => exact ul _ he (fun e => nomatch e)

theorem Frame.own {s s' : S} {t u : Nat} {ls : List Label} (hf : Frame s s' t u ls) (ho : Own s t) : Own s' t := by
  obtain ⟨h1, _, _, h4⟩ := hf
  intro e
  have h5 := ho (h4 e)
  rcases h1 with h1 | ⟨w, h1, _⟩
  · rw [h1]; exact h5
  · rw [h1] at h5; cases h5

/-- The actor of an action. -/
def actor : Act → Nat
  | .callWait t _ => t
  | .callFire t => t
  | .callReset t => t
  | .run t _ => t
  | .fail t => t
  | .wake t _ => t

theorem step_frame {s s' : S} {t : Nat} {a : Act} {ls : List Label} (h : t ≠ actor a) (he : step s a = .ok (some (s', ls))) :
    Frame s s' t (actor a) ls := by
  have nil : ∀ u, ∀ l ∈ ([] : List Label), who l = u := fun u l hl => nomatch hl
  have one : ∀ u, ∀ l : Label, who l = u → ∀ m ∈ [l], who m = u := fun u l hl m hm => by rw [List.mem_singleton.1 hm]; exact hl
  cases a with
  | callWait u w =>
    simp only [step] at he
    split at he
    · cases he; exact frame_goto h rfl (.inl ⟨rfl, rfl, rfl⟩) (one _ _ rfl) (.inl rfl)
    · cases he
  | callFire u =>
    simp only [step] at he
    split at he
    · cases he; exact frame_goto h rfl (.inl ⟨rfl, rfl, rfl⟩) (one _ _ rfl) (.inl rfl)
    · cases he
  | callReset u =>
    simp only [step] at he
    split at he
    · cases he; exact frame_goto h rfl (.inl ⟨rfl, rfl, rfl⟩) (one _ _ rfl) (.inl rfl)
    · cases he
  | run u pick => exact run_frame h he
  | fail u =>
    rw [step, fail] at he
    cases hpc : s.pc u <;> rw [hpc] at he <;> dsimp only at he <;> try (cases he; done)
    · cases he; exact frame_goto h rfl (.inl ⟨rfl, rfl, rfl⟩) (one _ _ rfl) (.inl rfl)
    · split at he
      · cases he; exact frame_goto h rfl (.inl ⟨rfl, rfl, rfl⟩) (nil _) (.inl rfl)
      · cases he
    · cases he; exact frame_goto h rfl (.inl ⟨rfl, rfl, rfl⟩) (one _ _ rfl) (.inl rfl)
    · cases he; exact frame_goto h rfl (.inl ⟨rfl, rfl, rfl⟩) (one _ _ rfl) (.inl rfl)
  | wake u z =>
    rw [step] at he
    cases hpc : s.pc u <;> rw [hpc] at he <;> dsimp only at he <;> try (cases he; done)
    cases he; exact frame_goto h rfl (.inl ⟨rfl, rfl, rfl⟩) (nil _) (.inl rfl)

theorem step_reason {s s' : S} {t : Nat} {a : Act} {ls : List Label} {lw : Option Nat} (hi : Inv s) (ho : Own s t)
    (hr : Reason lw (Closed s) (s.pc t)) (hg : ¬ Gives t a) (he : step s a = .ok (some (s', ls))) :
    Own s' t ∧ Reason (lastWait t lw ls) (Closed s') (s'.pc t) ∧ (Label.retWait t false ∈ ls → Because s t lw) := by
  by_cases h : t = actor a
  · have pcs : ∀ (s1 : S) (p : Pc), (s1.goto t p).pc t = p := fun s1 p => by rw [goto_pc, if_pos rfl]
    have ow : ∀ {p q : Pc} (s1 : S), s.pc t = p → crit p = false → s1.owner = s.owner → Own (s1.goto t q) t := by
      intro p q s1 hp hc ho1 e
      have e : s1.owner = some t := e
      have := ho (by rw [← ho1]; exact e)
      rw [hp, hc] at this
      cases this
    cases a with
    | callWait u w =>
      have h : t = u := h
      subst h
      simp only [step] at he
      split at he
      · next hpc =>
        cases he
        refine ⟨ow s hpc rfl rfl, ?_, fun h => by simp at h⟩
        rw [pcs]
        show lastWait t lw [.callWait t w] = some w
        rw [lastWait, if_pos rfl, lastWait]
      · cases he
    | callFire u =>
      have h : t = u := h
      subst h
      simp only [step] at he
      split at he
      · next hpc =>
        cases he
        exact ⟨ow s hpc rfl rfl, by rw [pcs]; trivial, fun h => by simp at h⟩
      · cases he
    | callReset u =>
      have h : t = u := h
      subst h
      simp only [step] at he
      split at he
      · next hpc =>
        cases he
        exact ⟨ow s hpc rfl rfl, by rw [pcs]; trivial, fun h => by simp at h⟩
      · cases he
    | run u pick =>
      have h : t = u := h
      subst h
      exact run_reason ho hr he
    | fail u => exact absurd h.symm hg
    | wake u z =>
      have h : t = u := h
      subst h
      rw [step] at he
      have hz : z = true := by
        cases z with
        | true => rfl
        | false => exact absurd ⟨rfl, rfl⟩ hg
      subst hz
      cases hpc : s.pc t <;> rw [hpc] at he hr <;> dsimp only at he <;> try (cases he; done)
      cases he
      exact ⟨ow _ hpc rfl rfl, by rw [pcs]; exact ⟨hr, rfl⟩, (fun h => nomatch h)⟩
  · have hf := step_frame h he
    obtain ⟨h1, h2⟩ := hf.reason h hi hr
    exact ⟨hf.own ho, h1, fun hm => absurd hm h2⟩

theorem exec_reason {t : Nat} : ∀ (as : List Act) {s s' : S} {ls : List Label} {lw : Option Nat}, Inv s → Own s t →
    Reason lw (Closed s) (s.pc t) → (∀ a ∈ as, ¬ Gives t a) → exec s as = .ok (s', ls) →
    Inv s' ∧ Own s' t ∧ Reason (lastWait t lw ls) (Closed s') (s'.pc t)
  | [], s, s', ls, lw, hi, ho, hr, _, he => by cases he; exact ⟨hi, ho, hr⟩
  | a :: as, s, s', ls, lw, hi, ho, hr, hg, he => by
    obtain ⟨r, h1, h2⟩ := step_ok (a := a) hi
    rw [exec, h1, ok_bind] at he
    have hg' := fun b hb => hg b (List.mem_cons_of_mem _ hb)
    cases r with
    | none => exact exec_reason as hi ho hr hg' he
    | some x =>
      obtain ⟨s1, l1⟩ := x
      obtain ⟨hi1, _⟩ := h2 s1 l1 rfl
      obtain ⟨ho1, hr1, _⟩ := step_reason hi ho hr (hg a List.mem_cons_self) h1
      dsimp only at he
      cases hx : exec s1 as with
      | error e => rw [hx] at he; cases he
      | ok z =>
        obtain ⟨s2, l2⟩ := z
        rw [hx, ok_bind] at he
        cases he
        rw [lastWait_append]
        exact exec_reason as hi1 ho1 hr1 hg' hx

/-- A wait of thread `t` reports failure although none of its system calls failed and no time limit was reached: then its limit
was 0, and at that moment the event was closed or another thread was inside.  In particular a wait without limit never gives up. -/
theorem gives_up_partial (manual signaled : Bool) (t : Nat) (as : List Act) (a : Act) (s s' : S) (ls l : List Label)
    (h : exec (init manual signaled) as = .ok (s, ls)) (hs : step s a = .ok (some (s', l))) (hret : Label.retWait t false ∈ l)
    (hg : ∀ b ∈ as ++ [a], ¬ Gives t b) :
    lastWait t none ls = some 0 ∧
      (s.signaled = false ∨ (s.manual = false ∧ s.waiting ≠ 0) ∨ ∃ u, u ≠ t ∧ s.owner = some u) := by
  obtain ⟨hi, ho, hr⟩ := exec_reason as (t := t) (lw := none) (init_inv manual signaled) (fun e => nomatch e) trivial
    (fun b hb => hg b (List.mem_append_left _ hb)) h
  obtain ⟨h1, (h2 | h2) | h2⟩ := (step_reason hi ho hr (hg a (by simp)) hs).2.2 hret
  · exact ⟨h1, .inl h2⟩
  · exact ⟨h1, .inr (.inl h2)⟩
  · exact ⟨h1, .inr (.inr h2)⟩

/-- The disagreement: a manual event is signalled all the time, but a wait with limit 0 fails because another thread is inside. -/
theorem try_fails_signalled : ∃ s, exec (init true true)
    [.callWait 1 0, .run 1 0, .callWait 2 0, .run 2 0, .run 1 0, .run 1 0] =
      .ok (s, [.callWait 1 0, .callWait 2 0, .retWait 2 false, .pass 1, .retWait 1 true]) ∧ s.signaled = true := ⟨_, rfl, rfl⟩

/-- Thread 1 waits without limit, thread 2 tries and finds the event not signalled. -/
example : ∃ s s', exec (init false false) [.callWait 1 infinite, .run 1 0, .run 1 0, .run 1 0, .run 1 0, .callWait 2 0, .run 2 0, .run 2 0] =
    .ok (s, [.callWait 1 infinite, .callWait 2 0]) ∧ step s (.run 2 0) = .ok (some (s', [.retWait 2 false])) ∧ s.signaled = false :=
  ⟨_, _, rfl, rfl, rfl⟩

end Verif.Event
