import Verif.Crash.Model
import Verif.Sem.PropsFail
import Verif.Event.PropsFail
import Verif.Sem.Props
import Verif.Event.Props

/-! # Killed threads make no steps -/

namespace Verif.Crash

theorem semWho_eq (a : Sem.Act) : semWho a = Sem.actor a := by cases a <;> rfl
theorem evWho_eq (a : Event.Act) : evWho a = Event.actor a := by cases a <;> rfl

theorem mem_moves {A : Type} {who : A → Nat} {leaves : A → Bool} {a : A} {as : List (CAct A)} :
    ∀ {d : Nat → Bool}, a ∈ moves who leaves d as → CAct.act a ∈ as ∧ (leaves a = true ∨ d (who a) = false) := by
  induction as with
  | nil => intro d h; cases h
  | cons x as ih =>
    intro d h
    cases x with
    | act b =>
      rw [moves] at h
      split at h
      · obtain ⟨h1, h2⟩ := ih h; exact ⟨List.mem_cons_of_mem _ h1, h2⟩
      · rename_i hb
        rcases List.mem_cons.1 h with h | h
        · subst h
          refine ⟨List.mem_cons_self, ?_⟩
          cases hl : leaves a
          · right
            cases hd : d (who a)
            · rfl
            · exact absurd ⟨hd, hl⟩ hb
          · exact .inl rfl
        · obtain ⟨h1, h2⟩ := ih h; exact ⟨List.mem_cons_of_mem _ h1, h2⟩
    | kill t =>
      rw [moves] at h
      obtain ⟨h1, h2⟩ := ih h
      refine ⟨List.mem_cons_of_mem _ h1, h2.imp id fun h => ?_⟩
      rw [Bool.or_eq_false_iff] at h
      exact h.2

theorem dead_mono {A : Type} {as : List (CAct A)} {u : Nat} : ∀ {d : Nat → Bool}, d u = true → dead d as u = true := by
  induction as with
  | nil => intro d h; exact h
  | cons x as ih =>
    intro d h
    cases x with
    | act b => exact ih h
    | kill t => exact ih (by simp [h])

theorem moves_append {A : Type} {who : A → Nat} {leaves : A → Bool} {as bs : List (CAct A)} : ∀ {d : Nat → Bool},
    moves who leaves d (as ++ bs) = moves who leaves d as ++ moves who leaves (dead d as) bs := by
  induction as with
  | nil => intro d; rfl
  | cons x as ih =>
    intro d
    cases x with
    | act b =>
      rw [List.cons_append, moves, moves, ih, dead]
      split <;> rfl
    | kill t => rw [List.cons_append, moves, moves, ih, dead]

/-! ## The internal mutex stays locked -/

def SemHeld (o : Nat) (s : Sem.S) : Prop := s.owner = some o ∧ ∀ u, u ≠ o → Sem.crit (s.pc u) = false

theorem sem_held_step {o : Nat} {s s' : Sem.S} {a : Sem.Act} {ls : List Sem.Label} (h : SemHeld o s)
    (ha : semLeaves a = true ∨ semWho a ≠ o) (he : Sem.step s a = .ok (some (s', ls))) :
    SemHeld o s' ∧ ∀ t r, Sem.Label.retWait t true ∉ ls ∧ Sem.Label.retRelease t true r ∉ ls := by
  obtain ⟨ho, hc⟩ := h
  have go : ∀ (s1 : Sem.S) (t : Nat) (p : Sem.Pc), s1.owner = s.owner → s1.pc = s.pc → Sem.crit p = false →
      SemHeld o (s1.goto t p) := by
    intro s1 t p h1 h2 h3
    refine ⟨by rw [← ho, ← h1]; rfl, fun u hu => ?_⟩
    rw [Sem.goto_pc, h2]
    split
    · exact h3
    · exact hc u hu
  cases a with
  | callWait t wait =>
    simp only [Sem.step] at he
    split at he <;> cases he
    exact ⟨go s t _ rfl rfl rfl, by simp⟩
  | callRelease t =>
    simp only [Sem.step] at he
    split at he <;> cases he
    exact ⟨go s t _ rfl rfl rfl, by simp⟩
  | run t pick =>
    have ht : t ≠ o := ha.resolve_left (by simp [semLeaves])
    have hct := hc t ht
    rw [Sem.step, Sem.run] at he
    cases hpc : s.pc t <;> rw [hpc] at he hct <;> simp only [ho] at he <;>
      first | (cases he; done) | (cases hct; done) | skip
    split at he <;> cases he
    exact ⟨go s t _ rfl rfl rfl, by simp⟩
  | fail t =>
    have ht : t ≠ o := ha.resolve_left (by simp [semLeaves])
    have hct := hc t ht
    rw [Sem.step, Sem.fail] at he
    cases hpc : s.pc t <;> rw [hpc] at he hct <;>
      first | (cases he; done) | (cases hct; done) | skip
    · cases he
      exact ⟨go s t _ rfl rfl rfl, by simp⟩
    · cases he
      exact ⟨go s t _ rfl rfl rfl, by simp⟩
  | wake t zero =>
    rw [Sem.step] at he
    cases hpc : s.pc t <;> rw [hpc] at he <;> first | (cases he; done) | skip
    cases he
    exact ⟨go { s with queue := s.queue.erase t } t _ rfl rfl rfl, by simp⟩

theorem sem_held_exec {o : Nat} {as : List Sem.Act} : ∀ {s s' : Sem.S} {ls : List Sem.Label}, SemHeld o s →
    (∀ a ∈ as, semLeaves a = true ∨ semWho a ≠ o) → Sem.exec s as = .ok (s', ls) →
    ∀ t r, Sem.Label.retWait t true ∉ ls ∧ Sem.Label.retRelease t true r ∉ ls := by
  induction as with
  | nil => intro s s' ls _ _ he; cases he; simp
  | cons a as ih =>
    intro s s' ls h ha he t r
    rw [Sem.exec] at he
    have ha' := fun b hb => ha b (List.mem_cons_of_mem _ hb)
    cases hs : Sem.step s a with
    | error e => rw [hs] at he; cases he
    | ok x =>
      rw [hs, ok_bind] at he
      cases x with
      | none => exact ih h ha' he t r
      | some y =>
        obtain ⟨s1, l1⟩ := y
        obtain ⟨h1, h2⟩ := sem_held_step h (ha a List.mem_cons_self) hs
        dsimp only at he
        cases hr : Sem.exec s1 as with
        | error e => rw [hr] at he; cases he
        | ok z =>
          rw [hr, ok_bind] at he
          cases he
          have h3 := ih h1 ha' hr t r
          have h4 := h2 t r
          exact ⟨fun hm => (List.mem_append.mp hm).elim h4.1 h3.1,
            fun hm => (List.mem_append.mp hm).elim h4.2 h3.2⟩

def EvHeld (o : Nat) (s : Event.S) : Prop := s.owner = some o ∧ ∀ u, u ≠ o → Event.crit (s.pc u) = false

/-- Successful waits, fires and resets. -/
def evSucc : Event.Label → Bool
  | .retWait _ true | .retFire _ true | .retReset _ true => true
  | _ => false

theorem ev_held_step {o : Nat} {s s' : Event.S} {a : Event.Act} {ls : List Event.Label} (h : EvHeld o s)
    (ha : evLeaves a = true ∨ evWho a ≠ o) (he : Event.step s a = .ok (some (s', ls))) :
    EvHeld o s' ∧ ∀ l ∈ ls, evSucc l = false := by
  obtain ⟨ho, hc⟩ := h
  have go : ∀ (s1 : Event.S) (t : Nat) (p : Event.Pc), s1.owner = s.owner → s1.pc = s.pc → Event.crit p = false →
      EvHeld o (s1.goto t p) := by
    intro s1 t p h1 h2 h3
    refine ⟨by rw [← ho, ← h1]; rfl, fun u hu => ?_⟩
    rw [Event.goto_pc, h2]
    split
    · exact h3
    · exact hc u hu
  cases a with
  | callWait t wait =>
    simp only [Event.step] at he
    split at he <;> cases he
    exact ⟨go s t _ rfl rfl rfl, by simp [evSucc]⟩
  | callFire t =>
    simp only [Event.step] at he
    split at he <;> cases he
    exact ⟨go s t _ rfl rfl rfl, by simp [evSucc]⟩
  | callReset t =>
    simp only [Event.step] at he
    split at he <;> cases he
    exact ⟨go s t _ rfl rfl rfl, by simp [evSucc]⟩
  | run t pick =>
    have ht : t ≠ o := ha.resolve_left (by simp [evLeaves])
    have hct := hc t ht
    rw [Event.step, Event.run] at he
    cases hpc : s.pc t <;> rw [hpc] at he hct <;> simp only [ho, Event.lock] at he <;>
      first | (cases he; done) | (cases hct; done) | skip
    · split at he <;> cases he
      exact ⟨go s t _ rfl rfl rfl, by simp [evSucc]⟩
    · split at he <;> cases he
      · exact ⟨go s t _ rfl rfl rfl, by simp⟩
      · exact ⟨go s t _ rfl rfl rfl, by simp [evSucc]⟩
  | fail t =>
    have ht : t ≠ o := ha.resolve_left (by simp [evLeaves])
    have hct := hc t ht
    rw [Event.step, Event.fail] at he
    cases hpc : s.pc t <;> rw [hpc] at he hct <;>
      first | (cases he; done) | (cases hct; done) | skip
    all_goals cases he; exact ⟨go s t _ rfl rfl rfl, by simp [evSucc]⟩
  | wake t zero =>
    rw [Event.step] at he
    cases hpc : s.pc t <;> rw [hpc] at he <;> first | (cases he; done) | skip
    cases he
    exact ⟨go { s with queue := s.queue.erase t } t _ rfl rfl rfl, by simp⟩

theorem ev_held_exec {o : Nat} {as : List Event.Act} : ∀ {s s' : Event.S} {ls : List Event.Label}, EvHeld o s →
    (∀ a ∈ as, evLeaves a = true ∨ evWho a ≠ o) → Event.exec s as = .ok (s', ls) → ∀ l ∈ ls, evSucc l = false := by
  induction as with
  | nil => intro s s' ls _ _ he; cases he; simp
  | cons a as ih =>
    intro s s' ls h ha he l hl
    rw [Event.exec] at he
    have ha' := fun b hb => ha b (List.mem_cons_of_mem _ hb)
    cases hs : Event.step s a with
    | error e => rw [hs] at he; cases he
    | ok x =>
      rw [hs, ok_bind] at he
      cases x with
      | none => exact ih h ha' he l hl
      | some y =>
        obtain ⟨s1, l1⟩ := y
        obtain ⟨h1, h2⟩ := ev_held_step h (ha a List.mem_cons_self) hs
        dsimp only at he
        cases hr : Event.exec s1 as with
        | error e => rw [hr] at he; cases he
        | ok z =>
          rw [hr, ok_bind] at he
          cases he
          exact (List.mem_append.mp hl).elim (h2 l) (ih h1 ha' hr l)

/-! ## A dead waiter stays counted -/

theorem ev_counted_step {o : Nat} {s s' : Event.S} {a : Event.Act} {ls : List Event.Label}
    (h : Event.counted (s.pc o) = true) (ha : evLeaves a = true ∨ evWho a ≠ o)
    (he : Event.step s a = .ok (some (s', ls))) : Event.counted (s'.pc o) = true := by
  by_cases hw : evWho a = o
  · have ha := ha.resolve_right (fun x => x hw)
    cases a <;> try (cases ha; done)
    rename_i t z _
    rw [Event.step] at he
    have hw : t = o := hw
    subst hw
    cases hpc : s.pc t <;> rw [hpc] at he <;> first | (cases he; done) | skip
    cases he
    rw [Event.goto_pc, if_pos rfl]; rfl
  · rw [evWho_eq] at hw
    rcases (Event.step_frame (fun e => hw e.symm) he).1 with e | ⟨w, _, e⟩
    · rw [e]; exact h
    · rw [e]; rfl

theorem ev_counted_exec {o : Nat} {as : List Event.Act} : ∀ {s s' : Event.S} {ls : List Event.Label},
    Event.counted (s.pc o) = true → (∀ a ∈ as, evLeaves a = true ∨ evWho a ≠ o) →
    Event.exec s as = .ok (s', ls) → Event.counted (s'.pc o) = true := by
  induction as with
  | nil => intro s s' ls h _ he; cases he; exact h
  | cons a as ih =>
    intro s s' ls h ha he
    rw [Event.exec] at he
    have ha' := fun b hb => ha b (List.mem_cons_of_mem _ hb)
    cases hs : Event.step s a with
    | error e => rw [hs] at he; cases he
    | ok x =>
      rw [hs, ok_bind] at he
      cases x with
      | none => exact ih h ha' he
      | some y =>
        obtain ⟨s1, l1⟩ := y
        dsimp only at he
        cases hr : Event.exec s1 as with
        | error e => rw [hr] at he; cases he
        | ok z =>
          rw [hr, ok_bind] at he
          cases he
          exact ih (ev_counted_step h (ha a List.mem_cons_self) hs) ha' hr

/-- A thread that has done nothing is outside. -/
theorem ev_idle_exec {o : Nat} {as : List Event.Act} : ∀ {s s' : Event.S} {ls : List Event.Label},
    s.pc o = .idle → (∀ a ∈ as, evWho a ≠ o) → Event.exec s as = .ok (s', ls) → s'.pc o = .idle := by
  induction as with
  | nil => intro s s' ls h _ he; cases he; exact h
  | cons a as ih =>
    intro s s' ls h ha he
    rw [Event.exec] at he
    have ha' := fun b hb => ha b (List.mem_cons_of_mem _ hb)
    cases hs : Event.step s a with
    | error e => rw [hs] at he; cases he
    | ok x =>
      rw [hs, ok_bind] at he
      cases x with
      | none => exact ih h ha' he
      | some y =>
        obtain ⟨s1, l1⟩ := y
        dsimp only at he
        cases hr : Event.exec s1 as with
        | error e => rw [hr] at he; cases he
        | ok z =>
          rw [hr, ok_bind] at he
          cases he
          refine ih ?_ ha' hr
          have hw := ha a List.mem_cons_self
          rw [evWho_eq] at hw
          rcases (Event.step_frame (fun e => hw e.symm) hs).1 with e | ⟨w, e, _⟩
          · rw [e]; exact h
          · rw [h] at e; cases e

theorem exec_append (as bs : List Event.Act) : ∀ {s s1 s2 : Event.S} {l1 l2 : List Event.Label},
    Event.exec s as = .ok (s1, l1) → Event.exec s1 bs = .ok (s2, l2) → Event.exec s (as ++ bs) = .ok (s2, l1 ++ l2) := by
  induction as with
  | nil => intro s s1 s2 l1 l2 h1 h2; cases h1; exact h2
  | cons a as ih =>
    intro s s1 s2 l1 l2 h1 h2
    rw [List.cons_append, Event.exec]
    rw [Event.exec] at h1
    cases hs : Event.step s a with
    | error e => rw [hs] at h1; cases h1
    | ok x =>
      rw [hs, ok_bind] at h1
      rw [ok_bind]
      cases x with
      | none => exact ih h1 h2
      | some y =>
        obtain ⟨s3, l3⟩ := y
        dsimp only at h1 ⊢
        cases hr : Event.exec s3 as with
        | error e => rw [hr] at h1; cases h1
        | ok z =>
          obtain ⟨s4, l4⟩ := z
          rw [hr, ok_bind] at h1
          cases h1
          rw [ih hr h2, ok_bind, List.append_assoc]

theorem nodup_lt : ∀ {n : Nat} {L : List Nat}, L.Nodup → (∀ t ∈ L, t < n) → L.length ≤ n
  | 0, [], _, _ => Nat.le_refl _
  | 0, t :: _, _, hl => absurd (hl t List.mem_cons_self) (Nat.not_lt_zero _)
  | n + 1, L, hn, hl => by
    have h := nodup_lt (n := n) (hn.erase n) fun t ht => by
      have h1 := hl t (List.mem_of_mem_erase ht)
      have h2 : t ≠ n := fun e => by
        subst e; exact (List.Nodup.not_mem_erase hn) ht
      omega
    rw [List.length_erase] at h
    split at h <;> omega

end Verif.Crash
