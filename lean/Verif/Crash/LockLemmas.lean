import Verif.Crash.LockModel
import Verif.Crash.Lemmas
import Verif.Mutex.PropsFull
import Verif.RwLock.PropsFull
import Verif.Progress.Mutex

/-! # The labels of a thread are made by the thread -/

namespace Verif.Crash

/-! ## Steps -/

theorem sem_labels {s c : Sem.S} {a : Sem.Act} {ls : List Sem.Label} (h : Sem.step s a = .ok (some (c, ls))) :
    (∀ l ∈ ls, Sem.Spec.who l = semWho a) ∧ (semLeaves a = true → ls = []) := by
  cases a with
  | callWait t w => simp only [Sem.step] at h; split at h <;> cases h; simp [Sem.Spec.who, semWho, semLeaves]
  | callRelease t => simp only [Sem.step] at h; split at h <;> cases h; simp [Sem.Spec.who, semWho, semLeaves]
  | run t p =>
    simp only [Sem.step, Sem.run, Sem.block] at h
    repeat' split at h
    all_goals cases h
    all_goals simp [Sem.Spec.who, semWho, semLeaves]
  | fail t =>
    simp only [Sem.step, Sem.fail] at h
    repeat' split at h
    all_goals cases h
    all_goals simp [Sem.Spec.who, semWho, semLeaves]
  | wake t z => simp only [Sem.step] at h; split at h <;> cases h; simp

theorem ev_labels {s c : Event.S} {a : Event.Act} {ls : List Event.Label} (h : Event.step s a = .ok (some (c, ls))) :
    (∀ l ∈ ls, Event.Spec.who l = evWho a) ∧ (evLeaves a = true → ls = []) := by
  cases a with
  | callWait t w => simp only [Event.step] at h; split at h <;> cases h; simp [Event.Spec.who, evWho, evLeaves]
  | callFire t => simp only [Event.step] at h; split at h <;> cases h; simp [Event.Spec.who, evWho, evLeaves]
  | callReset t => simp only [Event.step] at h; split at h <;> cases h; simp [Event.Spec.who, evWho, evLeaves]
  | run t p =>
    simp only [Event.step, Event.run, Event.lock, Event.unlock, Event.block] at h
    repeat' split at h
    all_goals cases h
    all_goals simp [Event.Spec.who, evWho, evLeaves]
  | fail t =>
    simp only [Event.step, Event.fail] at h
    repeat' split at h
    all_goals cases h
    all_goals simp [Event.Spec.who, evWho, evLeaves]
  | wake t z => simp only [Event.step] at h; split at h <;> cases h; simp

theorem mutex_step_labels {s c : Mutex.S} {a : Mutex.Act} {ls : List Mutex.Label}
    (h : Mutex.step s a = .ok (some (c, ls))) : ∀ l ∈ ls, Mutex.Spec.who l = Mutex.Full.actor a := by
  cases a with
  | callLock t o w => simp only [Mutex.step] at h; split at h <;> cases h; simp [Mutex.Spec.who, Mutex.Full.actor]
  | callUnlock t o w => simp only [Mutex.step] at h; split at h <;> cases h; simp [Mutex.Spec.who, Mutex.Full.actor]
  | run t =>
    simp only [Mutex.step, Mutex.run, Mutex.lock, Mutex.unlock] at h
    repeat' split at h
    all_goals cases h
    all_goals simp [Mutex.Spec.who, Mutex.Full.actor]
  | fail t =>
    simp only [Mutex.step, Mutex.fail] at h
    repeat' split at h
    all_goals cases h
    all_goals simp [Mutex.Spec.who, Mutex.Full.actor]

theorem react_labels (m : Mutex.S) (l : Sem.Label) :
    ∀ x ∈ (Mutex.Full.react m l).2, Mutex.Spec.who x = Sem.Spec.who l := by
  cases l <;> simp only [Mutex.Full.react] <;> repeat' split
  all_goals simp [Mutex.Spec.who, Sem.Spec.who]

theorem reacts_labels (ls : List Sem.Label) : ∀ (m : Mutex.S), ∀ x ∈ (Mutex.Full.reacts m ls).2,
    ∃ l ∈ ls, Mutex.Spec.who x = Sem.Spec.who l := by
  induction ls with
  | nil => intro m x hx; cases hx
  | cons l ls ih =>
    intro m x hx
    rw [Mutex.Full.reacts] at hx
    rcases List.mem_append.1 hx with hx | hx
    · exact ⟨l, List.mem_cons_self, react_labels m l x hx⟩
    · obtain ⟨l', h1, h2⟩ := ih _ x hx; exact ⟨l', List.mem_cons_of_mem _ h1, h2⟩

theorem mutex_labels {c c' : Mutex.Full.S} {a : Mutex.Full.Act} {ls : List Mutex.Label}
    (h : Mutex.Full.step c a = .ok (some (c', ls))) :
    (∀ l ∈ ls, Mutex.Spec.who l = mutexWho a) ∧ (mutexLeaves a = true → ls = []) := by
  have key : ∀ b, (do let r ← Sem.step c.s b; (Except.ok (Mutex.Full.inSem c r) : CRes _)) = .ok (some (c', ls)) →
      (∀ l ∈ ls, Mutex.Spec.who l = semWho b) ∧ (semLeaves b = true → ls = []) := by
    intro b h
    cases hb : Sem.step c.s b with
    | error e => rw [hb] at h; cases h
    | ok r =>
      rw [hb, ok_bind] at h
      match r, hb with
      | none, _ => cases h
      | some (s1, l1), hb =>
        obtain ⟨h1, h2⟩ := sem_labels hb
        cases h
        refine ⟨fun x hx => ?_, fun e => by rw [h2 e]; rfl⟩
        obtain ⟨l, hl, e⟩ := reacts_labels l1 _ x hx
        rw [e, h1 l hl]
  cases a with
  | mutex a =>
    simp only [Mutex.Full.step] at h
    split at h
    · cases h
    · cases hb : Mutex.step c.m a with
      | error e => rw [hb] at h; cases h
      | ok r =>
        rw [hb, ok_bind] at h
        match r, hb with
        | none, _ => cases h
        | some (m, l), hb => cases h; exact ⟨mutex_step_labels hb, fun e => nomatch e⟩
  | enter t =>
    simp only [Mutex.Full.step] at h
    split at h
    · cases h
    · rename_i b hb
      have := key _ h
      unfold Mutex.Full.entry at hb
      split at hb <;> cases hb
      · exact ⟨this.1, fun e => nomatch e⟩
      · exact ⟨this.1, fun e => nomatch e⟩
  | run t p => exact ⟨(key _ h).1, fun e => nomatch e⟩
  | fail t => exact ⟨(key _ h).1, fun e => nomatch e⟩
  | wake t z => exact key _ h

theorem mutex_silent {o : Nat} {as : List Mutex.Full.Act} : ∀ {c c' : Mutex.Full.S} {ls : List Mutex.Label},
    (∀ a ∈ as, mutexLeaves a = true ∨ mutexWho a ≠ o) → Mutex.Full.exec c as = .ok (c', ls) →
    ∀ l ∈ ls, Mutex.Spec.who l ≠ o := by
  induction as with
  | nil => intro c c' ls _ he; cases he; simp
  | cons a as ih =>
    intro c c' ls ha he l hl
    rw [Mutex.Full.exec] at he
    have ha' := fun b hb => ha b (List.mem_cons_of_mem _ hb)
    cases hs : Mutex.Full.step c a with
    | error e => rw [hs] at he; cases he
    | ok x =>
      rw [hs, ok_bind] at he
      cases x with
      | none => exact ih ha' he l hl
      | some y =>
        obtain ⟨s1, l1⟩ := y
        obtain ⟨h1, h2⟩ := mutex_labels hs
        dsimp only at he
        cases hr : Mutex.Full.exec s1 as with
        | error e => rw [hr] at he; cases he
        | ok z =>
          rw [hr, ok_bind] at he
          cases he
          rcases List.mem_append.mp hl with hl | hl
          · rcases ha a List.mem_cons_self with e | e
            · rw [h2 e] at hl; cases hl
            · rw [h1 l hl]; exact e
          · exact ih ha' hr l hl

theorem mutex_exec_append (as bs : List Mutex.Full.Act) : ∀ {s s1 s2 : Mutex.Full.S} {l1 l2 : List Mutex.Label},
    Mutex.Full.exec s as = .ok (s1, l1) → Mutex.Full.exec s1 bs = .ok (s2, l2) →
    Mutex.Full.exec s (as ++ bs) = .ok (s2, l1 ++ l2) := by
  induction as with
  | nil => intro s s1 s2 l1 l2 h1 h2; cases h1; exact h2
  | cons a as ih =>
    intro s s1 s2 l1 l2 h1 h2
    rw [List.cons_append, Mutex.Full.exec]
    rw [Mutex.Full.exec] at h1
    cases hs : Mutex.Full.step s a with
    | error e => rw [hs] at h1; cases h1
    | ok x =>
      rw [hs, ok_bind] at h1
      rw [ok_bind]
      cases x with
      | none => exact ih h1 h2
      | some y =>
        obtain ⟨s3, l3⟩ := y
        dsimp only at h1 ⊢
        cases hr : Mutex.Full.exec s3 as with
        | error e => rw [hr] at h1; cases h1
        | ok z =>
          obtain ⟨s4, l4⟩ := z
          rw [hr, ok_bind] at h1
          cases h1
          rw [ih hr h2, ok_bind, List.append_assoc]

/-! ## Histories of a mutex -/

section Mutex

open Mutex.Spec

/-- A thread whose lock has taken effect and which has not come back holds the mutex. -/
def MAgree (h : Holder) (t : Nat) (p : Option Phase) : Prop :=
  ∀ o, p = some (.locked o) → ∃ d, h = some (t, o, d)

theorem effect_keeps_other {h h' : Holder} {l : Mutex.Label} (he : effect h l = some h') {t o d : Nat}
    (hh : h = some (t, o, d)) (hw : who l ≠ t) : h' = some (t, o, d) := by
  subst hh
  unfold effect at he
  split at he
  · cases he
  · rename_i u p
    have : u ≠ t := hw
    simp [isHolder, Ne.symm this] at he
  · rename_i u p b
    have : u ≠ t := hw
    simp [isHolder, Ne.symm this] at he
  · split at he <;> cases he; rfl
  · split at he <;> cases he; rfl
  · cases he; rfl

theorem magree_step {h h' : Holder} {l : Mutex.Label} {t : Nat} {p : Phase} {p' : Option Phase}
    (ha : MAgree h t (some p)) (he : effect h l = some h')
    (hp : p' = if who l = t then (some p).bind (move · l) else some p) : MAgree h' t p' := by
  intro o e
  subst e
  by_cases hw : who l = t
  · rw [if_pos hw] at hp
    have hp : move p l = some (.locked o) := hp.symm
    unfold move at hp
    split at hp <;> try (cases hp; done)
    all_goals try (split at hp <;> cases hp; done)
    · rename_i u q _
      split at hp <;> cases hp
      rename_i e
      have : u = t := hw
      subst this e
      simp only [effect] at he
      split at he <;> cases he
      exact ⟨1, rfl⟩
    · rename_i u q _
      split at hp <;> cases hp
      rename_i e
      have : u = t := hw
      subst this e
      simp only [effect] at he
      split at he
      · rename_i hh
        cases h with
        | none => cases hh
        | some x => cases he; exact ⟨_, rfl⟩
      · cases he
  · rw [if_neg hw] at hp
    obtain ⟨d, hd⟩ := ha o hp.symm
    exact ⟨d, effect_keeps_other he hd hw⟩

/-- While `o` holds and makes no labels, nobody's lock succeeds. -/
theorem mutex_none_gets {o : Nat} {ls : List Mutex.Label} : ∀ {h : Holder} {p d : Nat}, h = some (o, p, d) →
    (∀ l ∈ ls, who l ≠ o) → (atomic h ls).isSome = true → ∀ {t : Nat} {q : Option Phase}, MAgree h t q →
    (phase t q ls).isSome = true → ∀ r, Mutex.Label.retLock t r true ∉ ls := by
  induction ls with
  | nil => intro h p d _ _ _ t q _ _ r hm; cases hm
  | cons l ls ih =>
    intro h p d hh hw ha t q hg hp r hm
    rw [atomic] at ha
    rw [phase] at hp
    cases he : effect h l with
    | none => rw [he] at ha; cases ha
    | some h1 =>
      rw [he] at ha
      cases q with
      | none =>
        have : (if who l = t then (none : Option Phase).bind (move · l) else none) = none := by split <;> rfl
        rw [this, Mutex.phase_none] at hp
        cases hp
      | some q =>
        rcases List.mem_cons.1 hm with e | hm
        · subst e
          have hto : t ≠ o := hw _ List.mem_cons_self
          rw [if_pos (show who (.retLock t r true) = t from rfl)] at hp
          cases hq : move q (.retLock t r true) with
          | none =>
            rw [show (some q).bind (move · (.retLock t r true)) = none from hq, Mutex.phase_none] at hp
            cases hp
          | some q' =>
            have : q = .locked r := by
              cases q <;> simp only [move] at hq <;> try (cases hq; done)
              split at hq <;> cases hq
              rename_i e; rw [e]
            obtain ⟨d', hd⟩ := hg r (by rw [this])
            rw [hh] at hd
            cases hd
            exact hto rfl
        · exact ih (effect_keeps_other he hh (Ne.symm (Ne.symm (hw l List.mem_cons_self))))
            (fun x hx => hw x (List.mem_cons_of_mem _ hx)) ha (magree_step hg he rfl) hp r hm

theorem magree_after {t : Nat} (ls : List Mutex.Label) : ∀ {h h' : Holder} {q : Option Phase}, MAgree h t q →
    atomic h ls = some h' → (phase t q ls).isSome = true → MAgree h' t (phase t q ls) := by
  induction ls with
  | nil => intro h h' q hg ha _; cases ha; exact hg
  | cons l ls ih =>
    intro h h' q hg ha hp
    rw [atomic] at ha
    rw [phase] at hp ⊢
    cases he : effect h l with
    | none => rw [he] at ha; cases ha
    | some h1 =>
      rw [he] at ha
      cases q with
      | none =>
        have : (if who l = t then (none : Option Phase).bind (move · l) else none) = none := by split <;> rfl
        rw [this, Mutex.phase_none] at hp
        cases hp
      | some q => exact ih (magree_step hg he rfl) ha hp

end Mutex

/-! ## Steps of the reader-writer lock -/

theorem rw_fail_labels {s c : RwLock.S} {t : Nat} {ls : List RwLock.Label} (h : RwLock.fail s t = some (c, ls)) :
    ∀ l ∈ ls, RwLock.Spec.who l = t := by
  unfold RwLock.fail at h
  split at h <;> cases h
  all_goals simp [RwLock.Spec.who]

theorem rw_step_labels {s c : RwLock.S} {a : RwLock.Act} {ls : List RwLock.Label}
    (h : RwLock.step false s a = some (c, ls)) : ∀ l ∈ ls, RwLock.Spec.who l = RwLock.Full.actor a := by
  cases a with
  | callRead t => simp only [RwLock.step] at h; split at h <;> cases h; simp [RwLock.Spec.who, RwLock.Full.actor]
  | callWrite t => simp only [RwLock.step] at h; split at h <;> cases h; simp [RwLock.Spec.who, RwLock.Full.actor]
  | callReadUnlock t =>
    simp only [RwLock.step] at h; split at h <;> cases h; simp [RwLock.Spec.who, RwLock.Full.actor]
  | callWriteUnlock t =>
    simp only [RwLock.step] at h; split at h <;> cases h; simp [RwLock.Spec.who, RwLock.Full.actor]
  | run t =>
    simp only [RwLock.step, RwLock.run, RwLock.retRead, RwLock.retWrite] at h
    split at h
    all_goals try (split at h)
    all_goals cases h
    all_goals simp [RwLock.Spec.who, RwLock.Full.actor]
  | fail t => exact rw_fail_labels h

theorem rw_react_labels (l : RwLock.S) (x : Nat × RwLock.Full.Ev) :
    ∀ y ∈ (RwLock.Full.react l x).2, RwLock.Spec.who y = x.1 := by
  unfold RwLock.Full.react
  split
  · simp
  · simp only [RwLock.Full.ghosts]; split <;> simp [RwLock.Spec.who]
  · simp
  · split
    · rename_i r hr
      obtain ⟨c, ls⟩ := r
      exact rw_fail_labels hr
    · simp

theorem rw_reacts_labels (xs : List (Nat × RwLock.Full.Ev)) : ∀ (l : RwLock.S), ∀ y ∈ (RwLock.Full.reacts l xs).2,
    ∃ x ∈ xs, RwLock.Spec.who y = x.1 := by
  induction xs with
  | nil => intro l y hy; cases hy
  | cons x xs ih =>
    intro l y hy
    rw [RwLock.Full.reacts] at hy
    rcases List.mem_append.1 hy with hy | hy
    · exact ⟨x, List.mem_cons_self, rw_react_labels l x y hy⟩
    · obtain ⟨x', h1, h2⟩ := ih _ y hy; exact ⟨x', List.mem_cons_of_mem _ h1, h2⟩

theorem ofSem_who (l : Sem.Label) : (RwLock.Full.ofSem l).1 = Sem.Spec.who l := by cases l <;> rfl
theorem ofEvent_who (l : Event.Label) : (RwLock.Full.ofEvent l).1 = Event.Spec.who l := by cases l <;> rfl

theorem atW_labels {s c : RwLock.Full.S} {a : Sem.Act} {ls : List RwLock.Label}
    (h : RwLock.Full.atW s a = .ok (some (c, ls))) :
    (∀ l ∈ ls, RwLock.Spec.who l = semWho a) ∧ (semLeaves a = true → ls = []) := by
  unfold RwLock.Full.atW at h
  cases hb : Sem.step s.w a with
  | error e => rw [hb] at h; cases h
  | ok r =>
    rw [hb, ok_bind] at h
    match r, hb with
    | none, _ => cases h
    | some (s1, l1), hb =>
      obtain ⟨h1, h2⟩ := sem_labels hb
      cases h
      refine ⟨fun y hy => ?_, fun e => by rw [h2 e]; rfl⟩
      obtain ⟨x, hx, e⟩ := rw_reacts_labels _ _ y hy
      obtain ⟨l, hl, e'⟩ := List.mem_map.1 hx
      rw [e, ← e', ofSem_who, h1 l hl]

theorem atC_labels {s c : RwLock.Full.S} {a : Sem.Act} {ls : List RwLock.Label}
    (h : RwLock.Full.atC s a = .ok (some (c, ls))) :
    (∀ l ∈ ls, RwLock.Spec.who l = semWho a) ∧ (semLeaves a = true → ls = []) := by
  unfold RwLock.Full.atC at h
  cases hb : Sem.step s.c a with
  | error e => rw [hb] at h; cases h
  | ok r =>
    rw [hb, ok_bind] at h
    match r, hb with
    | none, _ => cases h
    | some (s1, l1), hb =>
      obtain ⟨h1, h2⟩ := sem_labels hb
      cases h
      refine ⟨fun y hy => ?_, fun e => by rw [h2 e]; rfl⟩
      obtain ⟨x, hx, e⟩ := rw_reacts_labels _ _ y hy
      obtain ⟨l, hl, e'⟩ := List.mem_map.1 hx
      rw [e, ← e', ofSem_who, h1 l hl]

theorem atE_labels {s c : RwLock.Full.S} {a : Event.Act} {ls : List RwLock.Label}
    (h : RwLock.Full.atE s a = .ok (some (c, ls))) :
    (∀ l ∈ ls, RwLock.Spec.who l = evWho a) ∧ (evLeaves a = true → ls = []) := by
  unfold RwLock.Full.atE at h
  cases hb : Event.step s.e a with
  | error e => rw [hb] at h; cases h
  | ok r =>
    rw [hb, ok_bind] at h
    match r, hb with
    | none, _ => cases h
    | some (s1, l1), hb =>
      obtain ⟨h1, h2⟩ := ev_labels hb
      cases h
      refine ⟨fun y hy => ?_, fun e => by rw [h2 e]; rfl⟩
      obtain ⟨x, hx, e⟩ := rw_reacts_labels _ _ y hy
      obtain ⟨l, hl, e'⟩ := List.mem_map.1 hx
      rw [e, ← e', ofEvent_who, h1 l hl]

theorem inner_sem (a : RwLock.Full.Inner) : semWho a.sem = innerWho a ∧ semLeaves a.sem = innerLeaves a := by
  cases a <;> exact ⟨rfl, rfl⟩

theorem inner_event (a : RwLock.Full.Inner) : evWho a.event = innerWho a ∧ evLeaves a.event = innerLeaves a := by
  cases a <;> exact ⟨rfl, rfl⟩

theorem rw_labels {s c : RwLock.Full.S} {a : RwLock.Full.Act} {ls : List RwLock.Label}
    (h : RwLock.Full.step false s a = .ok (some (c, ls))) :
    (∀ l ∈ ls, RwLock.Spec.who l = rwWho a) ∧ (rwLeaves a = true → ls = []) := by
  cases a with
  | lock a =>
    simp only [RwLock.Full.step] at h
    split at h
    · cases h
    · cases hb : RwLock.step false s.l a with
      | none => rw [hb] at h; cases h
      | some r =>
        obtain ⟨l1, ls1⟩ := r
        rw [hb] at h
        cases h
        exact ⟨rw_step_labels hb, fun e => nomatch e⟩
  | enter t w =>
    simp only [RwLock.Full.step] at h
    split at h
    · cases h
    · exact ⟨(atW_labels h).1, fun e => nomatch e⟩
    · exact ⟨(atW_labels h).1, fun e => nomatch e⟩
    · exact ⟨(atC_labels h).1, fun e => nomatch e⟩
    · exact ⟨(atC_labels h).1, fun e => nomatch e⟩
    · exact ⟨(atE_labels h).1, fun e => nomatch e⟩
    · exact ⟨(atE_labels h).1, fun e => nomatch e⟩
    · exact ⟨(atE_labels h).1, fun e => nomatch e⟩
  | late t =>
    simp only [RwLock.Full.step, RwLock.Full.late] at h
    repeat' split at h
    all_goals cases h
    all_goals simp
  | inW a => have := atW_labels h; rwa [(inner_sem a).1, (inner_sem a).2] at this
  | inC a => have := atC_labels h; rwa [(inner_sem a).1, (inner_sem a).2] at this
  | inE a => have := atE_labels h; rwa [(inner_event a).1, (inner_event a).2] at this

theorem rw_silent {o : Nat} {as : List RwLock.Full.Act} : ∀ {c c' : RwLock.Full.S} {ls : List RwLock.Label},
    (∀ a ∈ as, rwLeaves a = true ∨ rwWho a ≠ o) → RwLock.Full.exec false c as = .ok (c', ls) →
    ∀ l ∈ ls, RwLock.Spec.who l ≠ o := by
  induction as with
  | nil => intro c c' ls _ he; cases he; simp
  | cons a as ih =>
    intro c c' ls ha he l hl
    rw [RwLock.Full.exec] at he
    have ha' := fun b hb => ha b (List.mem_cons_of_mem _ hb)
    cases hs : RwLock.Full.step false c a with
    | error e => rw [hs] at he; cases he
    | ok x =>
      rw [hs, ok_bind] at he
      cases x with
      | none => exact ih ha' he l hl
      | some y =>
        obtain ⟨s1, l1⟩ := y
        obtain ⟨h1, h2⟩ := rw_labels hs
        dsimp only at he
        cases hr : RwLock.Full.exec false s1 as with
        | error e => rw [hr] at he; cases he
        | ok z =>
          rw [hr, ok_bind] at he
          cases he
          rcases List.mem_append.mp hl with hl | hl
          · rcases ha a List.mem_cons_self with e | e
            · rw [h2 e] at hl; cases hl
            · rw [h1 l hl]; exact e
          · exact ih ha' hr l hl

theorem rw_exec_append (as bs : List RwLock.Full.Act) : ∀ {s s1 s2 : RwLock.Full.S} {l1 l2 : List RwLock.Label},
    RwLock.Full.exec false s as = .ok (s1, l1) → RwLock.Full.exec false s1 bs = .ok (s2, l2) →
    RwLock.Full.exec false s (as ++ bs) = .ok (s2, l1 ++ l2) := by
  induction as with
  | nil => intro s s1 s2 l1 l2 h1 h2; cases h1; exact h2
  | cons a as ih =>
    intro s s1 s2 l1 l2 h1 h2
    rw [List.cons_append, RwLock.Full.exec]
    rw [RwLock.Full.exec] at h1
    cases hs : RwLock.Full.step false s a with
    | error e => rw [hs] at h1; cases h1
    | ok x =>
      rw [hs, ok_bind] at h1
      rw [ok_bind]
      cases x with
      | none => exact ih h1 h2
      | some y =>
        obtain ⟨s3, l3⟩ := y
        dsimp only at h1 ⊢
        cases hr : RwLock.Full.exec false s3 as with
        | error e => rw [hr] at h1; cases h1
        | ok z =>
          obtain ⟨s4, l4⟩ := z
          rw [hr, ok_bind] at h1
          cases h1
          rw [ih hr h2, ok_bind, List.append_assoc]

/-! ## Histories of a reader-writer lock -/

section RwLock

open RwLock.Spec

/-- A thread whose lock has taken effect and which has not come back is inside; no readers beside a writer. -/
structure RAgree (h : Inside) (t : Nat) (p : Option Phase) : Prop where
  r : p = some .entered → t ∈ h.1
  w : p = some .entering → h.2 = some t
  x : h.2 ≠ none → h.1 = []

theorem ragree_step {h h' : Inside} {l : RwLock.Label} {t : Nat} {p : Phase} (ha : RAgree h t (some p))
    (he : effect h l = some h') : RAgree h' t (if who l = t then (some p).bind (move · l) else some p) := by
  obtain ⟨R, W⟩ := h
  obtain ⟨hr, hw, hx⟩ := ha
  dsimp only at hr hw hx
  by_cases hl : who l = t
  · subst hl
    rw [if_pos rfl]
    cases l <;> simp only [effect] at he <;> try (split at he)
    all_goals cases he
    all_goals refine ⟨fun e => ?_, fun e => ?_, fun e => ?_⟩
    all_goals try simp only [Option.bind_some, move] at e
    all_goals first | (simp_all [who]; done) | (split at e <;> simp_all [who])
  · rw [if_neg hl]
    cases l <;> simp only [effect] at he <;> try (split at he)
    all_goals cases he
    all_goals try exact ⟨hr, hw, hx⟩
    · rename_i u hn
      exact ⟨fun e => List.mem_cons_of_mem _ (hr e), fun e => (by rw [hw e] at hn; cases hn), fun e => absurd rfl e⟩
    · rename_i u hm
      have hut : u ≠ t := hl
      exact ⟨fun e => (List.mem_erase_of_ne (Ne.symm hut)).2 (hr e), hw, fun e => by
        show R.erase u = []
        rw [hx e]; rfl⟩
    · rename_i u hn
      cases hn
      exact ⟨fun e => (by cases hr e), fun e => (by cases hw e), fun _ => rfl⟩
    · rename_i u hn
      have hut : u ≠ t := hl
      exact ⟨hr, fun e => by rw [hw e] at hn; cases hn; exact absurd rfl hut, fun e => absurd rfl e⟩

theorem rw_phase_none (t : Nat) (ls : List RwLock.Label) : phase t none ls = none := by
  induction ls with
  | nil => rfl
  | cons l ls ih =>
    rw [phase]
    split <;> exact ih

theorem ragree_after {t : Nat} (ls : List RwLock.Label) : ∀ {h h' : Inside} {q : Option Phase}, RAgree h t q →
    atomic h ls = some h' → (phase t q ls).isSome = true → RAgree h' t (phase t q ls) := by
  induction ls with
  | nil => intro h h' q hg ha _; cases ha; exact hg
  | cons l ls ih =>
    intro h h' q hg ha hp
    rw [atomic] at ha
    rw [phase] at hp ⊢
    cases he : effect h l with
    | none => rw [he] at ha; cases ha
    | some h1 =>
      rw [he] at ha
      cases q with
      | none =>
        have : (if who l = t then (none : Option Phase).bind (move · l) else none) = none := by split <;> rfl
        rw [this, rw_phase_none] at hp
        cases hp
      | some q => exact ih (ragree_step hg he) ha hp

/-- What stays while `P` stays: nobody's `ret` succeeds. -/
theorem rw_none_gets {o : Nat} {P : Inside → Prop} {bad : Nat → RwLock.Label}
    (hP : ∀ h h' l, P h → who l ≠ o → effect h l = some h' → P h')
    (hbad : ∀ t h q, P h → t ≠ o → RAgree h t (some q) → move q (bad t) = none) (hwho : ∀ t, who (bad t) = t)
    {ls : List RwLock.Label} : ∀ {h : Inside}, P h →
    (∀ l ∈ ls, who l ≠ o) → (atomic h ls).isSome = true → ∀ {t : Nat} {q : Option Phase}, RAgree h t q →
    (phase t q ls).isSome = true → bad t ∉ ls := by
  induction ls with
  | nil => intro h _ _ _ t q _ _ hm; cases hm
  | cons l ls ih =>
    intro h hh hw ha t q hg hp hm
    rw [atomic] at ha
    rw [phase] at hp
    cases he : effect h l with
    | none => rw [he] at ha; cases ha
    | some h1 =>
      rw [he] at ha
      cases q with
      | none =>
        have : (if who l = t then (none : Option Phase).bind (move · l) else none) = none := by split <;> rfl
        rw [this, rw_phase_none] at hp
        cases hp
      | some q =>
        rcases List.mem_cons.1 hm with e | hm
        · subst e
          have hto : t ≠ o := by have := hw _ List.mem_cons_self; rwa [hwho] at this
          rw [if_pos (hwho t), show (some q).bind (move · (bad t)) = none from hbad t h q hh hto hg, rw_phase_none] at hp
          cases hp
        · exact ih (hP _ _ _ hh (hw l List.mem_cons_self) he) (fun x hx => hw x (List.mem_cons_of_mem _ hx)) ha
            (ragree_step hg he) hp hm

/-- A silent writer stays. -/
theorem writer_stays {o : Nat} (h h' : Inside) (l : RwLock.Label) (hh : h.2 = some o ∧ h.1 = []) (hw : who l ≠ o)
    (he : effect h l = some h') : h'.2 = some o ∧ h'.1 = [] := by
  obtain ⟨R, W⟩ := h
  obtain ⟨h1, h2⟩ := hh
  dsimp only at h1 h2
  subst h1 h2
  cases l <;> simp [effect] at he <;> try (subst he; exact ⟨rfl, rfl⟩)
  rename_i u
  exact absurd he.1.symm hw

/-- A silent reader stays. -/
theorem reader_stays {o : Nat} (h h' : Inside) (l : RwLock.Label) (hh : o ∈ h.1) (hw : who l ≠ o)
    (he : effect h l = some h') : o ∈ h'.1 := by
  obtain ⟨R, W⟩ := h
  cases l <;> simp only [effect] at he <;> try (split at he)
  all_goals cases he
  all_goals try exact hh
  · exact List.mem_cons_of_mem _ hh
  · exact (List.mem_erase_of_ne (Ne.symm hw)).2 hh
  · rename_i e; cases e; cases hh

end RwLock

end Verif.Crash
