import Verif.Crash.LockLemmas
import Verif.Crash.RwLives
import Verif.Crash.Midway

/-! # Killed users of a mutex or reader-writer lock (C142) -/

namespace Verif.Crash

/-! ## Mutex -/

/-- Whoever is killed whenever: no undefined behaviour, and up to 2^32 - 1 levels the effects of the calls are those of
an atomic recursive mutex; a call that has returned has had the effect it reports. -/
theorem mutex_crash_linearizable_partial (as : List (CAct Mutex.Full.Act)) :
    ∃ c ls, mutexRun Mutex.Full.init nobody as = .ok (c, ls) ∧ (Mutex.Spec.Shallow ls →
      (Mutex.Spec.atomic none ls).isSome = true ∧ ∀ t, (Mutex.Spec.phase t (some .out) ls).isSome = true) := by
  obtain ⟨c, ls, h, -⟩ := Mutex.Full.full_refines (moves mutexWho mutexLeaves nobody as)
  exact ⟨c, ls, h, Mutex.Full.full_linearizable_partial _ c ls h⟩

theorem moves_own {A : Type} {who : A → Nat} {leaves : A → Bool} {d : Nat → Bool} {t : Nat} (hl : d t = false)
    (bs : List A) : (∀ b ∈ bs, who b = t) → moves who leaves d (bs.map .act) = bs := by
  induction bs with
  | nil => intro _; rfl
  | cons b bs ih =>
    intro hb
    rw [List.map_cons, moves, hb b List.mem_cons_self, hl, if_neg (by simp), ih fun x hx => hb x (List.mem_cons_of_mem _ hx)]

theorem mutex_exec_held (as : List Mutex.Full.Act) : ∀ {c c' : Mutex.Full.S} {ls : List Mutex.Label},
    (∀ t, Mutex.Full.Act.fail t ∉ as) → Mutex.Full.exec c as = .ok (c', ls) → Progress.Mutex.Held c →
    Progress.Mutex.Held c' := by
  induction as with
  | nil => intro c c' ls _ he hh; cases he; exact hh
  | cons a as ih =>
    intro c c' ls hf he hh
    have hf' : ∀ t, Mutex.Full.Act.fail t ∉ as := fun t ht => hf t (List.mem_cons_of_mem _ ht)
    rw [Mutex.Full.exec] at he
    cases hs : Mutex.Full.step c a with
    | error e => rw [hs] at he; cases he
    | ok x =>
      rw [hs, ok_bind] at he
      cases x with
      | none => exact ih hf' he hh
      | some y =>
        obtain ⟨s1, l1⟩ := y
        dsimp only at he
        cases hr : Mutex.Full.exec s1 as with
        | error e => rw [hr] at he; cases he
        | ok z =>
          rw [hr, ok_bind] at he
          cases he
          refine ih hf' hr (Progress.Mutex.step_held hh ?_ hs)
          cases a with
          | fail t => exact absurd List.mem_cons_self (hf t)
          | _ => rfl

/-- If no system call failed in the semaphore, nobody has the mutex, and everybody, killed or not, is outside or asleep
waiting for it or has just been woken there, a live thread outside gets it, through any object and with any time limit. -/
theorem mutex_lives_partial (as : List (CAct Mutex.Full.Act)) (c : Mutex.Full.S) (ls : List Mutex.Label)
    (h : mutexRun Mutex.Full.init nobody as = .ok (c, ls)) (hk : Mutex.Spec.Shallow ls)
    (hf : ∀ t, CAct.act (Mutex.Full.Act.fail t) ∉ as)
    (hq : ∀ t, c.m.pc t = .idle ∨ ∃ w z, c.s.pc t = .wBlocked w ∨ c.s.pc t = .wWoken w z) (hn : Mutex.Spec.atomic none ls = some none) (t : Nat)
    (hl : dead nobody as t = false) (hp : c.m.pc t = .idle) (obj wait : Nat) :
    ∃ bs c', mutexRun c (dead nobody as) bs =
      .ok (c', [.callLock t obj wait, .acquire t obj, .retLock t obj true]) := by
  have hf1 : ∀ t, Mutex.Full.Act.fail t ∉ moves mutexWho mutexLeaves nobody as := fun t ht => hf t (mem_moves ht).1
  have hf2 : ∀ a ∈ moves mutexWho mutexLeaves nobody as, Mutex.Full.isFail a = false := fun a ha => by
    cases a with
    | fail t => exact absurd ha (hf1 t)
    | _ => rfl
  obtain ⟨n, h', hi, hb, hm, ha, -⟩ := Mutex.Full.exec_busy _ hf2 (pre := []) Mutex.Full.init_inv
    (by intro t o e; cases e) Mutex.init_inv (fun e => nomatch e) rfl (fun _ => rfl) h hk
  rw [List.nil_append, hn] at ha
  cases ha
  obtain ⟨h1, h2⟩ := mutex_exec_held _ hf1 h ⟨(fun o t h => nomatch h), (fun t h => nomatch h)⟩
  have hout : ∀ t, c.m.pc t = .idle → c.s.pc t = .idle := fun t e =>
    Mutex.Full.phase_idle (hi.coh.out (by rw [e]; rfl))
  have hq' : ∀ t, c.s.pc t = .idle ∨ ∃ w z, c.s.pc t = .wBlocked w ∨ c.s.pc t = .wWoken w z := fun t => (hq t).imp (hout t) id
  have hn1 : n = 1 := by
    by_cases e : n = 1
    · exact e
    · exact absurd rfl (hb (decide_eq_false e))
  have how : c.s.owner = none := by
    cases ho : c.s.owner with
    | none => rfl
    | some u =>
      have := h2 u ho
      rcases hq' u with e | ⟨w, z, e | e⟩ <;> rw [e] at this <;> cases this
  have hcnt : c.s.count ≠ 0 := by
    rcases hi.sem.quiet with ⟨u, hu⟩ | e
    · rcases hq' u with e | ⟨w, z, e | e⟩ <;> rw [e] at hu <;> cases hu
    · rw [e, hn1]; simp
  have hcs : c.m.cs obj = none := by
    cases ho : c.m.cs obj with
    | none => rfl
    | some u =>
      have h3 := h1 obj u ho
      rcases hq u with e | ⟨w, z, e | e⟩
      · rw [e] at h3; cases h3
      all_goals
        have h4 := hi.coh u
        rw [e] at h4
        cases hu : c.m.pc u <;> rw [hu] at h3 h4 <;> first | (cases h3; done) | cases h4
  have hoid : c.m.oid obj = none := by
    cases ho : c.m.oid obj with
    | none => rfl
    | some u => obtain ⟨d, e, -⟩ := hm.oid obj u ho; cases e
  have hs := hout t hp
  refine ⟨[Mutex.Full.Act.mutex (.callLock t obj wait), .mutex (.run t), .mutex (.run t), .mutex (.run t), .enter t,
    .run t 0, .run t 0, .run t 0, .run t 0, .mutex (.run t), .mutex (.run t), .mutex (.run t),
    .mutex (.run t)].map .act, ?_⟩
  rw [mutexRun, moves_own hl _ (by simp [mutexWho, Mutex.Full.actor])]
  simp [Mutex.Full.exec, Mutex.Full.step, Mutex.Full.actor, Mutex.Full.atSem, Mutex.Full.inMutex, Mutex.Full.inSem,
    Mutex.Full.entry, Mutex.Full.reacts, Mutex.Full.react, Mutex.step, Mutex.run, Mutex.lock, Mutex.unlock,
    Mutex.S.goto, Mutex.setAt, Sem.step, Sem.run, Sem.S.goto, hp, hs, how, hcnt, hcs, hoid]

/-- The code breaks it when a thread is killed that has the mutex: nobody ever gets it again. -/
theorem mutex_killed_holder (as : List (CAct Mutex.Full.Act)) (c : Mutex.Full.S) (ls : List Mutex.Label)
    (h : mutexRun Mutex.Full.init nobody as = .ok (c, ls)) (o p d : Nat) (hd : dead nobody as o = true)
    (ho : Mutex.Spec.atomic none ls = some (some (o, p, d))) (bs : List (CAct Mutex.Full.Act)) (c' : Mutex.Full.S)
    (ls' : List Mutex.Label) (h' : mutexRun c (dead nobody as) bs = .ok (c', ls')) (hk : Mutex.Spec.Shallow (ls ++ ls'))
    (t r : Nat) : Mutex.Label.retLock t r true ∉ ls' := by
  have hall := mutex_exec_append _ _ h h'
  obtain ⟨h1, h2⟩ := Mutex.Full.full_linearizable_partial _ c' _ hall hk
  rw [Mutex.atomic_append, ho] at h1
  have h3 := h2 t
  rw [Mutex.phase_append] at h3
  have hs : ∀ l ∈ ls', Mutex.Spec.who l ≠ o := mutex_silent (fun a ha => by
    rcases (mem_moves ha).2 with e | e
    · exact .inl e
    · right; intro e'; rw [e', hd] at e; cases e) h'
  have h4 : (Mutex.Spec.phase t (some .out) ls).isSome = true := by
    cases e : Mutex.Spec.phase t (some .out) ls with
    | none => rw [e, Mutex.phase_none] at h3; cases h3
    | some x => rfl
  exact mutex_none_gets rfl hs h1 (magree_after ls (h := none) (q := some .out) (fun _ e => nomatch e) ho h4) h3 r

/-- Locking the mutex without competition. -/
def lockIt (t obj : Nat) : List (CAct Mutex.Full.Act) :=
  [.act (.mutex (.callLock t obj Sem.infinite)), .act (.mutex (.run t)), .act (.mutex (.run t)), .act (.mutex (.run t)),
    .act (.enter t), .act (.run t 0), .act (.run t 0), .act (.run t 0), .act (.run t 0), .act (.mutex (.run t)),
    .act (.mutex (.run t)), .act (.mutex (.run t)), .act (.mutex (.run t))]

/-- Thread 1 has the mutex and is killed; thread 2 is asleep waiting for it, and is woken without a signal. -/
example : ∃ c ls, mutexRun Mutex.Full.init nobody (lockIt 1 0 ++ [.kill 1] ++ lockIt 2 0 ++
      [.act (.wake 2 true), .act (.run 2 0), .act (.run 2 0)]) = .ok (c, ls) ∧
    dead nobody (lockIt 1 0 ++ [.kill 1] ++ lockIt 2 0 ++
      [.act (.wake 2 true), .act (.run 2 0), .act (.run 2 0)]) 1 = true ∧
    Mutex.Spec.atomic none ls = some (some (1, 0, 1)) ∧ c.s.pc 2 = .wBlocked Sem.infinite ∧
    ls = [.callLock 1 0 Sem.infinite, .acquire 1 0, .retLock 1 0 true, .callLock 2 0 Sem.infinite] :=
  ⟨_, _, rfl, rfl, rfl, rfl, rfl⟩

/-- Thread 2 is killed in its sleep while thread 1 has the mutex; thread 1 unlocks, and the mutex is free. -/
example : ∃ c ls, mutexRun Mutex.Full.init nobody (lockIt 1 0 ++ lockIt 2 0 ++ [.kill 2] ++
      [.act (.mutex (.callUnlock 1 0 false)), .act (.mutex (.run 1)), .act (.mutex (.run 1)), .act (.mutex (.run 1)),
        .act (.mutex (.run 1)), .act (.mutex (.run 1)), .act (.mutex (.run 1)), .act (.mutex (.run 1)), .act (.enter 1),
        .act (.run 1 2), .act (.run 1 2), .act (.run 1 2), .act (.run 1 2), .act (.run 1 2), .act (.run 1 2),
        .act (.run 1 2), .act (.mutex (.run 1))]) = .ok (c, ls) ∧
    Mutex.Spec.atomic none ls = some none ∧ c.m.pc 1 = .idle ∧ c.s.pc 2 = .wWoken Sem.infinite true :=
  ⟨_, _, rfl, rfl, rfl, rfl⟩

/-! ## Reader-writer lock -/

/-- Whoever is killed whenever: no undefined behaviour, and with less than 2^32 readers at a time the effects of the calls
are those of an atomic reader-writer lock; a call that has returned has had the effect it reports. -/
theorem rw_crash_linearizable_partial (as : List (CAct RwLock.Full.Act)) :
    ∃ s ls, rwRun RwLock.Full.init nobody as = .ok (s, ls) ∧ (RwLock.Spec.Few ls →
      (RwLock.Spec.atomic ([], none) ls).isSome = true ∧ ∀ t, (RwLock.Spec.phase t (some .out) ls).isSome = true) := by
  obtain ⟨s, ls, h, -⟩ := RwLock.Full.full_refines false (moves rwWho rwLeaves nobody as)
  exact ⟨s, ls, h, RwLock.Full.full_linearizable_partial _ s ls h⟩

theorem rw_exec_held (as : List RwLock.Full.Act) : ∀ {s s' : RwLock.Full.S} {ls : List RwLock.Label},
    (∀ p a q x l, as = p ++ a :: q → RwLock.Full.exec false s p = .ok (x, l) → RwLock.Full.faults x a = false) →
    RwLock.Full.exec false s as = .ok (s', ls) → Progress.RwLock.Held s → Progress.RwLock.Held s' := by
  induction as with
  | nil => intro s s' ls _ he hh; cases he; exact hh
  | cons a as ih =>
    intro s s' ls hf he hh
    have ha : Progress.RwLock.clock s a = false := by
      have h0 := hf [] a as s [] rfl rfl
      cases a with
      | inW a => cases a <;> first | rfl | cases h0
      | inC a => cases a <;> first | rfl | cases h0
      | _ => rfl
    rw [RwLock.Full.exec] at he
    cases hs : RwLock.Full.step false s a with
    | error e => rw [hs] at he; cases he
    | ok x =>
      rw [hs, ok_bind] at he
      cases x with
      | none =>
        refine ih (fun p b q x l e h1 => hf (a :: p) b q x l (by rw [e]; rfl) ?_) he hh
        rw [RwLock.Full.exec, hs, ok_bind]
        exact h1
      | some y =>
        obtain ⟨s1, l1⟩ := y
        dsimp only at he
        cases hr : RwLock.Full.exec false s1 as with
        | error e => rw [hr] at he; cases he
        | ok z =>
          rw [hr, ok_bind] at he
          cases he
          refine ih (fun p b q x l e h1 => hf (a :: p) b q x (l1 ++ l) (by rw [e]; rfl) ?_) hr
            (Progress.RwLock.step_held hh ha hs)
          rw [RwLock.Full.exec, hs, ok_bind]
          dsimp only
          rw [h1, ok_bind]

/-- If no system call failed in the objects, nobody has a lock, going by the results of the calls, and everybody, killed
or not, is outside or waits for the write mutex, asleep or just woken, a live thread outside gets a read lock, and it gets
the write lock, with any time limit given to the waits. -/
theorem rw_lives_partial (as : List (CAct RwLock.Full.Act)) (s : RwLock.Full.S) (ls : List RwLock.Label)
    (h : rwRun RwLock.Full.init nobody as = .ok (s, ls)) (hk : RwLock.Spec.Few ls)
    (hf : ∀ p a q x l, moves rwWho rwLeaves nobody as = p ++ a :: q →
      RwLock.Full.exec false RwLock.Full.init p = .ok (x, l) → RwLock.Full.faults x a = false)
    (hq : ∀ t, s.l.pc t = .idle ∨ ∃ w z, s.w.pc t = .wBlocked w ∨ s.w.pc t = .wWoken w z)
    (hn : ∀ t, RwLock.Spec.reading t 0 ls = 0 ∧ RwLock.Spec.writing t false ls = false) (t : Nat)
    (hl : dead nobody as t = false) (hp : s.l.pc t = .idle) (wait : Nat) :
    (∃ bs s', (∀ u w, CAct.act (RwLock.Full.Act.enter u w) ∈ bs → w = wait) ∧
      rwRun s (dead nobody as) bs = .ok (s', [.callRead t, .enterR t, .retRead t true])) ∧
    ∃ bs s', (∀ u w, CAct.act (RwLock.Full.Act.enter u w) ∈ bs → w = wait) ∧
      rwRun s (dead nobody as) bs = .ok (s', [.callWrite t, .enterW t, .retWrite t true]) := by
  obtain ⟨n, k, R, W, tw, tc, hi, hm, hv, hg⟩ := RwLock.Full.exec_live _ (pre := []) RwLock.Full.init_inv
    (fun t e => nomatch e) (by rw [RwLock.Full.abs_init]; exact RwLock.init_inv)
    (by rw [RwLock.Full.abs_init]; exact RwLock.init_live) rfl (fun _ => ⟨rfl, rfl⟩) hf h hk
  rw [List.nil_append] at hg
  obtain ⟨aw, ac, ae⟩ := rw_exec_held _ hf h ⟨(fun t e => nomatch e), (fun t e => nomatch e), (fun t e => nomatch e)⟩
  -- where everybody is
  have pos : ∀ u, (RwLock.Full.abs s n k).pc u = s.l.pc u ∧ (s.l.pc u = .idle ∨ s.l.pc u = .rW ∨ s.l.pc u = .wW) ∧
      (s.w.pc u = .idle ∨ ∃ w z, s.w.pc u = .wBlocked w ∨ s.w.pc u = .wWoken w z) ∧ s.c.pc u = .idle ∧
      s.e.pc u = .idle ∧ (s.l.pc u = .idle → s.w.pc u = .idle) := by
    intro u
    have key : RwLock.Full.stW s u = .pending .waitW →
        (RwLock.Full.abs s n k).pc u = s.l.pc u ∧ (s.l.pc u = .rW ∨ s.l.pc u = .wW) ∧ s.c.pc u = .idle ∧
          s.e.pc u = .idle := by
      intro e
      have hx := RwLock.Full.one_w hi (t := u) (o := .waitW) (by rw [e]; rfl)
      refine ⟨RwLock.Full.absG_pc (by rw [RwLock.Full.tot_w hx.2, e]; rfl), ?_, RwLock.Full.idle_c hx.2.1,
        RwLock.Full.idle_e hx.2.2⟩
      have := hx.1
      cases hc : s.l.pc u <;> rw [hc] at this <;> first | exact .inl rfl | exact .inr rfl | cases this
    rcases hq u with e | ⟨w, z, e⟩
    · have hW : RwLock.Full.stW s u = .out := by
        refine RwLock.Full.op_out ?_
        cases hx : (RwLock.Full.stW s u).op with
        | none => rfl
        | some o => have := (RwLock.Full.one_w hi hx).1; rw [e] at this; cases this
      have hC : RwLock.Full.stC s u = .out := by
        refine RwLock.Full.op_out ?_
        cases hx : (RwLock.Full.stC s u).op with
        | none => rfl
        | some o => have := (RwLock.Full.one_c hi hx).1; rw [e] at this; cases this
      have hE : RwLock.Full.stE s u = .out := by
        refine RwLock.Full.op_out ?_
        cases hx : (RwLock.Full.stE s u).op with
        | none => rfl
        | some o => have := (RwLock.Full.one_e hi hx).1; rw [e] at this; cases this
      have ht : RwLock.Full.tot s u = .out := by rw [RwLock.Full.tot, hW, hC, hE]; rfl
      exact ⟨RwLock.Full.absG_pc (by rw [ht]; rfl), .inl e, .inl (RwLock.Full.idle_w hW), RwLock.Full.idle_c hC,
        RwLock.Full.idle_e hE, fun _ => RwLock.Full.idle_w hW⟩
    · obtain ⟨h1, h2, h3, h4⟩ := key (by unfold RwLock.Full.stW; rcases e with e | e <;> rw [e] <;> rfl)
      refine ⟨h1, .inr h2, .inr ⟨w, z, e⟩, h3, h4, fun e' => ?_⟩
      rcases h2 with h2 | h2 <;> rw [h2] at e' <;> cases e'
  have wr : ∀ u, s.l.wr u = false := fun u => by rw [(hg u).2]; exact (hn u).2
  have rd : ∀ u, s.l.rd u = 0 := fun u => by rw [(hg u).1]; exact (hn u).1
  have hn1 : n = 1 := by
    rcases hv.w with e | ⟨u, e | e⟩
    · exact of_decide_eq_true e
    · rw [(pos u).1] at e
      rcases (pos u).2.1 with e' | e' | e' <;> rw [e'] at e <;> cases e
    · have : s.l.wr u = true := e
      rw [wr u] at this; cases this
  have hk1 : k = 1 := by
    rcases hv.c with e | ⟨u, e⟩
    · exact of_decide_eq_true e
    · rw [(pos u).1] at e
      rcases (pos u).2.1 with e' | e' | e' <;> rw [e'] at e <;> cases e
  have hR : R = [] := by
    cases hr : R with
    | nil => rfl
    | cons u us =>
      have := hv.n u
      rw [(pos u).1, show (RwLock.Full.abs s n k).rd u = 0 from rd u, hr, List.count_cons_self] at this
      rcases (pos u).2.1 with e' | e' | e' <;> rw [e'] at this <;> simp [RwLock.pend] at this
  have hsg : s.e.signaled = true := by
    rcases hv.e with e | e | ⟨u, e⟩
    · exact e
    · exact absurd (by rw [hm.rc, hR]; rfl) e
    · rw [(pos u).1] at e
      rcases (pos u).2.1 with e' | e' | e' <;> rw [e'] at e <;> cases e
  have ow : s.w.owner = none := by
    cases ho : s.w.owner with
    | none => rfl
    | some u =>
      have := aw u ho
      rcases (pos u).2.2.1 with e | ⟨w, z, e | e⟩ <;> rw [e] at this <;> cases this
  have oc : s.c.owner = none := by
    cases ho : s.c.owner with
    | none => rfl
    | some u =>
      have := ac u ho
      rw [(pos u).2.2.2.1] at this
      cases this
  have oe : s.e.owner = none := by
    cases ho : s.e.owner with
    | none => rfl
    | some u =>
      have := ae u ho
      rw [(pos u).2.2.2.2.1] at this
      cases this
  have nw : s.w.count = 1 := by
    rcases hi.w.quiet with ⟨u, hu⟩ | e
    · rcases (pos u).2.2.1 with e | ⟨w, z, e | e⟩ <;> rw [e] at hu <;> cases hu
    · rw [e, hn1]
  have nc : s.c.count = 1 := by
    rcases hi.c.quiet with ⟨u, hu⟩ | e
    · rw [(pos u).2.2.2.1] at hu; cases hu
    · rw [e, hk1]
  have qw : ∀ u ∈ s.w.queue, ∃ w, s.w.pc u = .wBlocked w := fun u hu => by
    have hb := (hi.w.queue u).1 hu
    cases e : s.w.pc u <;> rw [e] at hb <;> first | exact ⟨_, rfl⟩ | cases hb
  have qc : s.c.queue = [] := by
    cases hq' : s.c.queue with
    | nil => rfl
    | cons u us =>
      have hb := (hi.c.queue u).1 (by rw [hq']; exact List.mem_cons_self)
      rw [(pos u).2.2.2.1] at hb
      cases hb
  obtain ⟨⟨b1, s1, o1, e1⟩, b2, s2, o2, e2⟩ := rw_free_locks hp ((pos t).2.2.2.2.2 hp) (pos t).2.2.2.1 (pos t).2.2.2.2.1
    ow oc oe nw nc hi.wm hi.cm hi.em qw qc hsg wait
  refine ⟨⟨b1.map .act, s1, fun u w hu => ?_, by rw [rwRun, moves_own hl _ fun b hb => (o1 b hb).1]; exact e1⟩,
    b2.map .act, s2, fun u w hu => ?_, by rw [rwRun, moves_own hl _ fun b hb => (o2 b hb).1]; exact e2⟩
  · obtain ⟨b, hb, e⟩ := List.mem_map.1 hu
    cases e
    exact (o1 _ hb).2 u w rfl
  · obtain ⟨b, hb, e⟩ := List.mem_map.1 hu
    cases e
    exact (o2 _ hb).2 u w rfl

/-- What both negations below have in common. -/
theorem rw_history {as : List (CAct RwLock.Full.Act)} {s : RwLock.Full.S} {ls : List RwLock.Label}
    (h : rwRun RwLock.Full.init nobody as = .ok (s, ls)) {o : Nat} (hd : dead nobody as o = true) {x : RwLock.Spec.Inside}
    (ho : RwLock.Spec.atomic ([], none) ls = some x) {bs : List (CAct RwLock.Full.Act)} {s' : RwLock.Full.S}
    {ls' : List RwLock.Label} (h' : rwRun s (dead nobody as) bs = .ok (s', ls')) (hk : RwLock.Spec.Few (ls ++ ls')) :
    (∀ l ∈ ls', RwLock.Spec.who l ≠ o) ∧ (RwLock.Spec.atomic x ls').isSome = true ∧
      ∀ t, RAgree x t (RwLock.Spec.phase t (some .out) ls) ∧
        (RwLock.Spec.phase t (RwLock.Spec.phase t (some .out) ls) ls').isSome = true := by
  have hall := rw_exec_append _ _ h h'
  obtain ⟨h1, h2⟩ := RwLock.Full.full_linearizable_partial _ s' _ hall hk
  rw [RwLock.atomic_append, ho] at h1
  refine ⟨rw_silent (fun a ha => ?_) h', h1, fun t => ?_⟩
  · rcases (mem_moves ha).2 with e | e
    · exact .inl e
    · right; intro e'; rw [e', hd] at e; cases e
  · have h3 := h2 t
    rw [RwLock.phase_append] at h3
    refine ⟨ragree_after ls (h := ([], none))
      ⟨(fun e => nomatch e), (fun e => nomatch e), (fun e => absurd rfl e)⟩ ho ?_, h3⟩
    cases e : RwLock.Spec.phase t (some .out) ls with
    | none => rw [e, rw_phase_none] at h3; cases h3
    | some x => rfl

/-- The code breaks it when a thread is killed that has the write lock: nobody ever gets a lock again. -/
theorem rw_killed_writer (as : List (CAct RwLock.Full.Act)) (s : RwLock.Full.S) (ls : List RwLock.Label)
    (h : rwRun RwLock.Full.init nobody as = .ok (s, ls)) (o : Nat) (R : List Nat) (hd : dead nobody as o = true)
    (ho : RwLock.Spec.atomic ([], none) ls = some (R, some o)) (bs : List (CAct RwLock.Full.Act)) (s' : RwLock.Full.S)
    (ls' : List RwLock.Label) (h' : rwRun s (dead nobody as) bs = .ok (s', ls')) (hk : RwLock.Spec.Few (ls ++ ls'))
    (t : Nat) : RwLock.Label.retRead t true ∉ ls' ∧ RwLock.Label.retWrite t true ∉ ls' := by
  obtain ⟨h1, h2, h3⟩ := rw_history h hd ho h' hk
  obtain ⟨h4, h5⟩ := h3 t
  have hP : (R, some o).2 = some o ∧ (R, some o).1 = [] := ⟨rfl, h4.x (fun e => nomatch e)⟩
  refine ⟨rw_none_gets (P := fun x => x.2 = some o ∧ x.1 = []) (bad := fun t => .retRead t true) writer_stays
      ?_ (fun _ => rfl) hP h1 h2 h4 h5,
    rw_none_gets (P := fun x => x.2 = some o ∧ x.1 = []) (bad := fun t => .retWrite t true) writer_stays
      ?_ (fun _ => rfl) hP h1 h2 h4 h5⟩
  · intro t x q hx hto hg
    cases q <;> first | rfl | skip
    have := hg.r rfl
    rw [hx.2] at this
    cases this
  · intro t x q hx hto hg
    cases q <;> first | rfl | skip
    have := hg.w rfl
    rw [hx.1] at this
    cases this
    exact absurd rfl hto

/-- The code breaks it when a thread is killed that has a read lock: nobody ever gets the write lock again. -/
theorem rw_killed_reader (as : List (CAct RwLock.Full.Act)) (s : RwLock.Full.S) (ls : List RwLock.Label)
    (h : rwRun RwLock.Full.init nobody as = .ok (s, ls)) (o : Nat) (R : List Nat) (W : Option Nat)
    (hd : dead nobody as o = true) (ho : RwLock.Spec.atomic ([], none) ls = some (R, W)) (hR : o ∈ R)
    (bs : List (CAct RwLock.Full.Act)) (s' : RwLock.Full.S) (ls' : List RwLock.Label)
    (h' : rwRun s (dead nobody as) bs = .ok (s', ls')) (hk : RwLock.Spec.Few (ls ++ ls')) (t : Nat) :
    RwLock.Label.retWrite t true ∉ ls' := by
  obtain ⟨h1, h2, h3⟩ := rw_history h hd ho h' hk
  obtain ⟨h4, h5⟩ := h3 t
  refine rw_none_gets (P := fun x => o ∈ x.1) (bad := fun t => .retWrite t true) reader_stays
    ?_ (fun _ => rfl) hR h1 h2 h4 h5
  intro t x q hx hto hg
  cases q <;> first | rfl | skip
  have := hg.x (by rw [hg.w rfl]; exact fun e => nomatch e)
  rw [this] at hx
  cases hx

/-- The code breaks it also when a thread is killed in the middle of a lock call, for example asleep in `WriteLock` waiting
for the readers: from then on nobody enters, so no call that begins later succeeds. -/
theorem rw_killed_midway (as : List (CAct RwLock.Full.Act)) (s : RwLock.Full.S) (ls : List RwLock.Label)
    (h : rwRun RwLock.Full.init nobody as = .ok (s, ls)) (o : Nat) (hd : dead nobody as o = true)
    (ho : midway (s.l.pc o) = true) (bs : List (CAct RwLock.Full.Act)) (s' : RwLock.Full.S) (ls' : List RwLock.Label)
    (h' : rwRun s (dead nobody as) bs = .ok (s', ls')) (hk : RwLock.Spec.Few (ls ++ ls')) (t : Nat)
    (p q : List RwLock.Label) :
    (ls' = p ++ .callRead t :: q → RwLock.Label.retRead t true ∉ q) ∧
      (ls' = p ++ .callWrite t :: q → RwLock.Label.retWrite t true ∉ q) := by
  obtain ⟨e1, e2⟩ := none_enters _ h ho (fun a ha => by
    rcases (mem_moves ha).2 with e | e
    · exact .inl e
    · right; intro e'; rw [e', hd] at e; cases e) h' hk t
  have h2 := (RwLock.Full.full_linearizable_partial _ s' _ (rw_exec_append _ _ h h') hk).2 t
  constructor
  · intro e
    subst e
    rw [RwLock.phase_append, RwLock.phase_append, RwLock.Spec.phase] at h2
    rw [if_pos (show RwLock.Spec.who (RwLock.Label.callRead t) = t from rfl)] at h2
    refine late_read q ?_ (fun h => e1 (by simp [h])) h2
    cases RwLock.Spec.phase t (RwLock.Spec.phase t (some .out) ls) p with
    | none => exact fun e => nomatch e
    | some x => cases x <;> exact fun e => nomatch e
  · intro e
    subst e
    rw [RwLock.phase_append, RwLock.phase_append, RwLock.Spec.phase] at h2
    rw [if_pos (show RwLock.Spec.who (RwLock.Label.callWrite t) = t from rfl)] at h2
    refine late_write q ?_ (fun h => e2 (by simp [h])) h2
    cases RwLock.Spec.phase t (RwLock.Spec.phase t (some .out) ls) p with
    | none => exact fun e => nomatch e
    | some x => cases x <;> exact fun e => nomatch e

/-- Thread `t` goes on for a while, wherever it is. -/
def goOn (t : Nat) : List (CAct RwLock.Full.Act) := (RwLock.Full.go t).map .act

/-- Thread 1 writes and is killed, thread 2 waits for a read lock; thread 3 tries and times out. -/
def killedWriter : List (CAct RwLock.Full.Act) :=
  [.act (.lock (.callWrite 1))] ++ goOn 1 ++ goOn 1 ++ goOn 1 ++ [.kill 1, .act (.lock (.callRead 2))] ++ goOn 2 ++
    [.act (.lock (.callWrite 3)), .act (.enter 3 0), .act (.inW (.run 3 0)), .act (.inW (.run 3 0)),
      .act (.inW (.run 3 0))]

def rwShows (as : List (CAct RwLock.Full.Act)) (p : RwLock.Full.S → List RwLock.Label → Bool) : Bool :=
  match rwRun RwLock.Full.init nobody as with
  | .ok (s, ls) => p s ls
  | .error _ => false

set_option maxRecDepth 20000 in
example : rwShows killedWriter (fun s ls => decide (RwLock.Spec.atomic ([], none) ls = some ([], some 1)) &&
    dead nobody killedWriter 1 && decide (s.w.pc 2 = .wBlocked 4294967295) &&
    decide (ls = [.callWrite 1, .enterW 1, .retWrite 1 true, .callRead 2, .callWrite 3, .retWrite 3 false])) = true := rfl

/-- Thread 1 reads and is killed; thread 2 reads, and thread 3 waits for the write lock. -/
def killedReader : List (CAct RwLock.Full.Act) :=
  [.act (.lock (.callRead 1))] ++ goOn 1 ++ goOn 1 ++ goOn 1 ++ goOn 1 ++ goOn 1 ++ [.kill 1, .act (.lock (.callRead 2))] ++
    goOn 2 ++ goOn 2 ++ goOn 2 ++ goOn 2 ++ goOn 2 ++ [.act (.lock (.callWrite 3))] ++ goOn 3 ++ goOn 3

set_option maxRecDepth 20000 in
example : rwShows killedReader (fun s ls => decide (RwLock.Spec.atomic ([], none) ls = some ([2, 1], none)) &&
    dead nobody killedReader 1 && decide (s.e.pc 3 = .wBlocked 4294967295) && decide (RwLock.Label.retRead 2 true ∈ ls))
    = true := rfl

/-- A writer killed in its sleep, waiting for a reader, blocks everybody: the reader leaves and nobody has a lock, but
thread 2 does not get one. -/
def killedWaiter : List (CAct RwLock.Full.Act) :=
  [.act (.lock (.callRead 1))] ++ goOn 1 ++ goOn 1 ++ goOn 1 ++ goOn 1 ++ goOn 1 ++ [.act (.lock (.callWrite 3))] ++
    goOn 3 ++ goOn 3 ++ [.kill 3, .act (.lock (.callReadUnlock 1))] ++ goOn 1 ++ goOn 1 ++ goOn 1 ++ goOn 1 ++
    [.act (.lock (.callRead 2))] ++ goOn 2 ++ goOn 2 ++ goOn 2

set_option maxRecDepth 20000 in
example : rwShows killedWaiter (fun s ls => decide (RwLock.Spec.atomic ([], none) ls = some ([], none)) &&
    decide (s.l.pc 1 = .idle) && decide (s.w.pc 2 = .wBlocked 4294967295) && midway (s.l.pc 3) &&
    dead nobody killedWaiter 3) = true := rfl

/-- Thread 1 writes, thread 2 is killed in its sleep waiting for the lock, thread 1 unlocks: what `rw_lives_partial`
asks for. -/
def killedSleeper : List (CAct RwLock.Full.Act) :=
  [.act (.lock (.callWrite 1))] ++ goOn 1 ++ goOn 1 ++ goOn 1 ++ [.act (.lock (.callRead 2))] ++ goOn 2 ++
    [.kill 2, .act (.lock (.callWriteUnlock 1)), .act (.enter 1 0), .act (.inW (.run 1 2)), .act (.inW (.run 1 2)),
      .act (.inW (.run 1 2)), .act (.inW (.run 1 2)), .act (.inW (.run 1 2)), .act (.inW (.run 1 2)),
      .act (.inW (.run 1 2)), .act (.lock (.run 1))]

set_option maxRecDepth 20000 in
example : rwShows killedSleeper (fun s ls => decide (s.l.pc 1 = .idle) && decide (s.l.pc 3 = .idle) &&
    decide (s.w.pc 2 = .wWoken 4294967295 true) && decide (RwLock.Spec.reading 2 0 ls = 0) &&
    !RwLock.Spec.writing 1 false ls && (moves rwWho rwLeaves nobody killedSleeper).all RwLock.Full.calm) = true := rfl

end Verif.Crash
