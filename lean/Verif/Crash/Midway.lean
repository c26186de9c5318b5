import Verif.Crash.LockLemmas

/-! # Threads killed in the middle of a lock call -/

namespace Verif.Crash

open Verif.RwLock Verif.RwLock.Full

/-! ## At most one label a step -/

theorem sem_one {s c : Sem.S} {a : Sem.Act} {ls : List Sem.Label} (h : Sem.step s a = .ok (some (c, ls))) :
    ls.length ≤ 1 := by
  cases a with
  | callWait t w => simp only [Sem.step] at h; split at h <;> cases h; simp
  | callRelease t => simp only [Sem.step] at h; split at h <;> cases h; simp
  | run t p =>
    simp only [Sem.step, Sem.run, Sem.block] at h
    repeat' split at h
    all_goals cases h
    all_goals simp
  | fail t =>
    simp only [Sem.step, Sem.fail] at h
    repeat' split at h
    all_goals cases h
    all_goals simp
  | wake t z => simp only [Sem.step] at h; split at h <;> cases h; simp

theorem ev_one {s c : Event.S} {a : Event.Act} {ls : List Event.Label} (h : Event.step s a = .ok (some (c, ls))) :
    ls.length ≤ 1 := by
  cases a with
  | callWait t w => simp only [Event.step] at h; split at h <;> cases h; simp
  | callFire t => simp only [Event.step] at h; split at h <;> cases h; simp
  | callReset t => simp only [Event.step] at h; split at h <;> cases h; simp
  | run t p =>
    simp only [Event.step, Event.run, Event.lock, Event.unlock, Event.block] at h
    repeat' split at h
    all_goals cases h
    all_goals simp
  | fail t =>
    simp only [Event.step, Event.fail] at h
    repeat' split at h
    all_goals cases h
    all_goals simp
  | wake t z => simp only [Event.step] at h; split at h <;> cases h; simp

/-! ## What a step does to the position of another thread, and who enters -/

/-- A step from `l` to `l'` with labels `ls`: whoever enters was midway, and nobody but `u` changes position. -/
def Fine (l l' : RwLock.S) (ls : List RwLock.Label) (u : Nat) : Prop :=
  (∀ t, RwLock.Label.enterR t ∈ ls ∨ RwLock.Label.enterW t ∈ ls → midway (l.pc t) = true) ∧
    ∀ o, o ≠ u → l'.pc o = l.pc o

theorem fail_fine {s c : RwLock.S} {t : Nat} {ls : List RwLock.Label} (h : RwLock.fail s t = some (c, ls)) :
    Fine s c ls t := by
  unfold RwLock.fail at h
  split at h <;> cases h
  all_goals exact ⟨by simp, fun o ho => if_neg ho⟩

theorem run_fine {s c : RwLock.S} {t : Nat} {ls : List RwLock.Label} (h : RwLock.run s t = some (c, ls)) :
    Fine s c ls t := by
  unfold RwLock.run at h
  cases hp : s.pc t <;> rw [hp] at h <;> simp only [RwLock.retRead, RwLock.retWrite] at h
  all_goals try split at h
  all_goals cases h
  all_goals refine ⟨?_, fun o ho => if_neg ho⟩
  all_goals simp
  all_goals rw [hp]; rfl

theorem lock_fine {s c : RwLock.S} {a : RwLock.Act} {ls : List RwLock.Label}
    (h : RwLock.step false s a = some (c, ls)) : Fine s c ls (RwLock.Full.actor a) := by
  cases a with
  | callRead t => simp only [RwLock.step] at h; split at h <;> cases h; exact ⟨by simp, fun o ho => if_neg ho⟩
  | callWrite t => simp only [RwLock.step] at h; split at h <;> cases h; exact ⟨by simp, fun o ho => if_neg ho⟩
  | callReadUnlock t => simp only [RwLock.step] at h; split at h <;> cases h; exact ⟨by simp, fun o ho => if_neg ho⟩
  | callWriteUnlock t => simp only [RwLock.step] at h; split at h <;> cases h; exact ⟨by simp, fun o ho => if_neg ho⟩
  | run t => exact run_fine h
  | fail t => exact fail_fine h

theorem react_fine (l : RwLock.S) (x : Nat × Ev) : Fine l (react l x).1 (react l x).2 x.1 := by
  unfold react
  split
  · exact ⟨by simp, fun _ _ => rfl⟩
  · refine ⟨fun t ht => ?_, fun _ _ => rfl⟩
    unfold ghosts at ht
    split at ht <;> simp at ht
    subst ht
    rename_i e
    rw [e]; rfl
  · exact ⟨by simp, fun o ho => if_neg ho⟩
  · split
    · rename_i r hr
      obtain ⟨c, ls⟩ := r
      exact fail_fine hr
    · exact ⟨by simp, fun _ _ => rfl⟩

theorem reacts_fine {l : RwLock.S} {xs : List (Nat × Ev)} (h : xs.length ≤ 1) {u : Nat} (hu : ∀ x ∈ xs, x.1 = u) :
    Fine l (reacts l xs).1 (reacts l xs).2 u ∧ (xs = [] → (reacts l xs).1 = l) := by
  match xs, h with
  | [], _ => exact ⟨⟨by simp [reacts], fun _ _ => rfl⟩, fun _ => rfl⟩
  | [x], _ =>
    have := react_fine l x
    rw [hu x List.mem_cons_self] at this
    refine ⟨?_, fun e => nomatch e⟩
    simpa [reacts] using this
  | _ :: _ :: _, h => simp at h

/-- What a step of the whole lock does: as above, and a leaving thread does not move in the lock. -/
theorem rw_fine {s c : Full.S} {a : Full.Act} {ls : List RwLock.Label} (h : Full.step false s a = .ok (some (c, ls))) :
    Fine s.l c.l ls (rwWho a) ∧ (rwLeaves a = true → c.l = s.l) := by
  have kW : ∀ {b}, atW s b = .ok (some (c, ls)) → Fine s.l c.l ls (semWho b) ∧ (semLeaves b = true → c.l = s.l) := by
    intro b h
    unfold atW at h
    cases hb : Sem.step s.w b with
    | error e => rw [hb] at h; cases h
    | ok r =>
      rw [hb, ok_bind] at h
      match r, hb with
      | none, _ => cases h
      | some (s1, l1), hb =>
        obtain ⟨h1, h2⟩ := sem_labels hb
        cases h
        obtain ⟨f1, f2⟩ := reacts_fine (l := s.l) (xs := l1.map ofSem) (u := semWho b)
          (by rw [List.length_map]; exact sem_one hb) (by
            intro x hx
            obtain ⟨y, hy, e⟩ := List.mem_map.1 hx
            rw [← e, ofSem_who, h1 y hy])
        exact ⟨f1, fun e => f2 (by rw [h2 e]; rfl)⟩
  have kC : ∀ {b}, atC s b = .ok (some (c, ls)) → Fine s.l c.l ls (semWho b) ∧ (semLeaves b = true → c.l = s.l) := by
    intro b h
    unfold atC at h
    cases hb : Sem.step s.c b with
    | error e => rw [hb] at h; cases h
    | ok r =>
      rw [hb, ok_bind] at h
      match r, hb with
      | none, _ => cases h
      | some (s1, l1), hb =>
        obtain ⟨h1, h2⟩ := sem_labels hb
        cases h
        obtain ⟨f1, f2⟩ := reacts_fine (l := s.l) (xs := l1.map ofSem) (u := semWho b)
          (by rw [List.length_map]; exact sem_one hb) (by
            intro x hx
            obtain ⟨y, hy, e⟩ := List.mem_map.1 hx
            rw [← e, ofSem_who, h1 y hy])
        exact ⟨f1, fun e => f2 (by rw [h2 e]; rfl)⟩
  have kE : ∀ {b}, atE s b = .ok (some (c, ls)) → Fine s.l c.l ls (evWho b) ∧ (evLeaves b = true → c.l = s.l) := by
    intro b h
    unfold atE at h
    cases hb : Event.step s.e b with
    | error e => rw [hb] at h; cases h
    | ok r =>
      rw [hb, ok_bind] at h
      match r, hb with
      | none, _ => cases h
      | some (s1, l1), hb =>
        obtain ⟨h1, h2⟩ := ev_labels hb
        cases h
        obtain ⟨f1, f2⟩ := reacts_fine (l := s.l) (xs := l1.map ofEvent) (u := evWho b)
          (by rw [List.length_map]; exact ev_one hb) (by
            intro x hx
            obtain ⟨y, hy, e⟩ := List.mem_map.1 hx
            rw [← e, ofEvent_who, h1 y hy])
        exact ⟨f1, fun e => f2 (by rw [h2 e]; rfl)⟩
  cases a with
  | lock a =>
    simp only [Full.step] at h
    split at h
    · cases h
    · cases hb : RwLock.step false s.l a with
      | none => rw [hb] at h; cases h
      | some r =>
        obtain ⟨l1, ls1⟩ := r
        rw [hb] at h
        cases h
        exact ⟨lock_fine hb, fun e => nomatch e⟩
  | enter t w =>
    simp only [Full.step] at h
    split at h
    · cases h
    · exact ⟨(kW h).1, fun e => nomatch e⟩
    · exact ⟨(kW h).1, fun e => nomatch e⟩
    · exact ⟨(kC h).1, fun e => nomatch e⟩
    · exact ⟨(kC h).1, fun e => nomatch e⟩
    · exact ⟨(kE h).1, fun e => nomatch e⟩
    · exact ⟨(kE h).1, fun e => nomatch e⟩
    · exact ⟨(kE h).1, fun e => nomatch e⟩
  | late t =>
    simp only [Full.step, Full.late] at h
    repeat' split at h
    all_goals cases h
    all_goals exact ⟨⟨by simp, fun o ho => if_neg ho⟩, fun e => nomatch e⟩
  | inW a => have := kW h; rwa [(inner_sem a).1, (inner_sem a).2] at this
  | inC a => have := kC h; rwa [(inner_sem a).1, (inner_sem a).2] at this
  | inE a => have := kE h; rwa [(inner_event a).1, (inner_event a).2] at this

/-! ## One owner of the write mutex -/

/-- In a state reached with not too many readers, two threads midway are the same. -/
theorem midway_one {as : List Full.Act} {s : Full.S} {ls : List RwLock.Label}
    (h : Full.exec false Full.init as = .ok (s, ls)) (hk : RwLock.Spec.Few ls) {t o : Nat} (ht : midway (s.l.pc t) = true)
    (ho : midway (s.l.pc o) = true) : t = o := by
  obtain ⟨s', ls', n, k, bs, he, -, hb⟩ := exec_same false as Full.init_inv
  rw [h] at he
  cases he
  rw [abs_init] at hb
  obtain ⟨R, W, tw, tc, hi, -⟩ := RwLock.exec_ok bs (pre := []) RwLock.init_inv rfl rfl (fun _ => rfl)
    (fun _ => ⟨rfl, rfl⟩) (by rw [hb]; exact hk)
  rw [hb] at hi
  have key : ∀ u, midway (s.l.pc u) = true → tw = some u := by
    intro u hu
    refine hi.hw u (.inl ?_)
    show ownW (if (tot s u).isDone then next (s.l.pc u) else s.l.pc u) = true
    cases hp : s.l.pc u <;> rw [hp] at hu <;> first | (cases hu; done) | skip
    case wRet r => cases r <;> first | (cases hu; done) | (split <;> rfl)
    all_goals split <;> rfl
  have h1 := key t ht
  rw [key o ho] at h1
  cases h1
  rfl

/-- Nobody enters while a killed thread is midway. -/
theorem none_enters {o : Nat} (bs : List Full.Act) : ∀ {as : List Full.Act} {s s' : Full.S} {ls ls' : List RwLock.Label},
    Full.exec false Full.init as = .ok (s, ls) → midway (s.l.pc o) = true →
    (∀ a ∈ bs, rwLeaves a = true ∨ rwWho a ≠ o) → Full.exec false s bs = .ok (s', ls') → RwLock.Spec.Few (ls ++ ls') →
    ∀ t, RwLock.Label.enterR t ∉ ls' ∧ RwLock.Label.enterW t ∉ ls' := by
  induction bs with
  | nil => intro as s s' ls ls' _ _ _ he _ t; cases he; simp
  | cons a bs ih =>
    intro as s s' ls ls' h hm hw he hk t
    rw [Full.exec] at he
    have hw' := fun b hb => hw b (List.mem_cons_of_mem _ hb)
    cases hs : Full.step false s a with
    | error e => rw [hs] at he; cases he
    | ok x =>
      rw [hs, ok_bind] at he
      cases x with
      | none => exact ih h hm hw' he hk t
      | some y =>
        obtain ⟨s1, l1⟩ := y
        dsimp only at he
        cases hr : Full.exec false s1 bs with
        | error e => rw [hr] at he; cases he
        | ok z =>
          obtain ⟨s2, l2⟩ := z
          rw [hr, ok_bind] at he
          cases he
          obtain ⟨f1, f2⟩ := rw_fine hs
          obtain ⟨g1, g2⟩ := rw_labels hs
          have hk0 : RwLock.Spec.Few ls := fun q hq => hk q (hq.trans (List.prefix_append ..))
          have hpc : s1.l.pc o = s.l.pc o := by
            rcases hw a List.mem_cons_self with e | e
            · rw [f2 e]
            · exact f1.2 o (Ne.symm e)
          have h1 : Full.exec false Full.init (as ++ [a]) = .ok (s1, ls ++ l1) := by
            refine rw_exec_append _ _ h ?_
            rw [Full.exec, hs, ok_bind]
            dsimp only
            rw [Full.exec, ok_bind, List.append_nil]
          have hno : ∀ l ∈ l1, RwLock.Spec.who l = t → midway (s.l.pc t) = true → False := by
            intro l hl e hmt
            have := midway_one h hk0 hmt hm
            subst this
            rcases hw a List.mem_cons_self with e' | e'
            · rw [g2 e'] at hl; cases hl
            · exact e' ((g1 l hl).symm.trans e)
          obtain ⟨i1, i2⟩ := ih h1 (by rw [hpc]; exact hm) hw' hr (by rw [List.append_assoc]; exact hk) t
          constructor
          · intro hx
            rcases List.mem_append.1 hx with hx | hx
            · exact hno _ hx rfl (f1.1 t (.inl hx))
            · exact i1 hx
          · intro hx
            rcases List.mem_append.1 hx with hx | hx
            · exact hno _ hx rfl (f1.1 t (.inr hx))
            · exact i2 hx

/-! ## A call that begins later and does not enter does not succeed -/

open RwLock.Spec in
theorem late_read {t : Nat} (q : List RwLock.Label) : ∀ {p : Option Phase}, p ≠ some .entered →
    RwLock.Label.enterR t ∉ q → (phase t p q).isSome = true → RwLock.Label.retRead t true ∉ q := by
  induction q with
  | nil => intro p _ _ _ h; cases h
  | cons l q ih =>
    intro p hp he hs hm
    rw [phase] at hs
    cases p with
    | none =>
      have : (if who l = t then (none : Option Phase).bind (move · l) else none) = none := by split <;> rfl
      rw [this, rw_phase_none] at hs
      cases hs
    | some p =>
      rcases List.mem_cons.1 hm with e | hm
      · subst e
        rw [if_pos (show who (RwLock.Label.retRead t true) = t from rfl)] at hs
        have : (some p).bind (move · (RwLock.Label.retRead t true)) = none := by
          cases p <;> first | rfl | exact absurd rfl hp
        rw [this, rw_phase_none] at hs
        cases hs
      · refine ih ?_ (fun h => he (List.mem_cons_of_mem _ h)) hs hm
        split
        · rename_i hl
          intro e
          simp only [Option.bind_some, move] at e
          split at e <;> first | (cases e; done) | skip
          exact he (by rw [← hl]; exact List.mem_cons_self)
        · exact hp

open RwLock.Spec in
theorem late_write {t : Nat} (q : List RwLock.Label) : ∀ {p : Option Phase}, p ≠ some .entering →
    RwLock.Label.enterW t ∉ q → (phase t p q).isSome = true → RwLock.Label.retWrite t true ∉ q := by
  induction q with
  | nil => intro p _ _ _ h; cases h
  | cons l q ih =>
    intro p hp he hs hm
    rw [phase] at hs
    cases p with
    | none =>
      have : (if who l = t then (none : Option Phase).bind (move · l) else none) = none := by split <;> rfl
      rw [this, rw_phase_none] at hs
      cases hs
    | some p =>
      rcases List.mem_cons.1 hm with e | hm
      · subst e
        rw [if_pos (show who (RwLock.Label.retWrite t true) = t from rfl)] at hs
        have : (some p).bind (move · (RwLock.Label.retWrite t true)) = none := by
          cases p <;> first | rfl | exact absurd rfl hp
        rw [this, rw_phase_none] at hs
        cases hs
      · refine ih ?_ (fun h => he (List.mem_cons_of_mem _ h)) hs hm
        split
        · rename_i hl
          intro e
          simp only [Option.bind_some, move] at e
          split at e <;> first | (cases e; done) | skip
          exact he (by rw [← hl]; exact List.mem_cons_self)
        · exact hp

end Verif.Crash
