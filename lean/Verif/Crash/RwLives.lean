import Verif.Crash.LockLemmas
import Verif.Progress.RwLock

/-! # A reader-writer lock that nobody has: the steps of a lock call -/

namespace Verif.Crash

open Verif.RwLock Verif.RwLock.Full

/-- Waiting for the write mutex when it is free. -/
theorem waitW_ok {s : Full.S} {t : Nat} (hp : s.l.pc t = .rW ∨ s.l.pc t = .wW) (hs : s.w.pc t = .idle)
    (ho : s.w.owner = none) (hc : s.w.count = 1) (w : Nat) : ∃ s', Full.exec false s
      [.enter t w, .inW (.run t 0), .inW (.run t 0), .inW (.run t 0), .inW (.run t 0)] = .ok (s', []) ∧
    s'.l = s.l.goto t (next (s.l.pc t)) ∧ s'.w.pc t = .idle ∧ (∀ u, u ≠ t → s'.w.pc u = s.w.pc u) ∧
    s'.w.owner = none ∧ s'.w.count = 0 ∧ s'.w.queue = s.w.queue ∧ s'.w.max = s.w.max ∧ s'.c = s.c ∧ s'.e = s.e := by
  rcases hp with hp | hp
  all_goals
    simp [Full.exec, Full.step, atW, op, Inner.sem, Sem.step, Sem.run, Sem.S.goto, hp, hs, ho, hc, reacts, react,
      ofSem, ghosts]
    intro u hu
    simp [hu]

/-- Waiting for the counter mutex when it is free. -/
theorem waitC_ok {s : Full.S} {t : Nat} (hp : s.l.pc t = .rC) (hs : s.c.pc t = .idle)
    (ho : s.c.owner = none) (hc : s.c.count = 1) (w : Nat) : ∃ s', Full.exec false s
      [.enter t w, .inC (.run t 0), .inC (.run t 0), .inC (.run t 0), .inC (.run t 0)] = .ok (s', []) ∧
    s'.l = s.l.goto t .rReset ∧ s'.c.pc t = .idle ∧ (∀ u, u ≠ t → s'.c.pc u = s.c.pc u) ∧
    s'.c.owner = none ∧ s'.c.count = 0 ∧ s'.c.queue = s.c.queue ∧ s'.c.max = s.c.max ∧ s'.w = s.w ∧ s'.e = s.e := by
  simp [Full.exec, Full.step, atC, op, limit, Inner.sem, Sem.step, Sem.run, Sem.S.goto, hp, hs, ho, hc, reacts, react,
    ofSem, ghosts, next]
  intro u hu
  simp [hu]

/-- Resetting the event. -/
theorem reset_ok {s : Full.S} {t : Nat} (hp : s.l.pc t = .rReset) (hs : s.e.pc t = .idle)
    (ho : s.e.owner = none) (hm : s.e.manual = true) (w : Nat) : ∃ s', Full.exec false s
      [.enter t w, .inE (.run t 0), .inE (.run t 0), .inE (.run t 0), .inE (.run t 0)] = .ok (s', []) ∧
    s'.l = s.l.goto t .rLoad ∧ s'.w = s.w ∧ s'.c = s.c := by
  simp [Full.exec, Full.step, atE, op, Inner.event, Event.step, Event.run, Event.lock, Event.unlock, Event.S.goto,
    hp, hs, ho, hm, reacts, react, ofEvent, ghosts, next]

/-- Counting a reader. -/
theorem count_ok {s : Full.S} {t : Nat} (hp : s.l.pc t = .rLoad) : ∃ s', Full.exec false s
      [.lock (.run t), .lock (.run t)] = .ok (s', [.enterR t]) ∧
    s'.l.pc t = .rRelC true ∧ s'.w = s.w ∧ s'.c = s.c := by
  simp [Full.exec, Full.step, actor, op, inLock, RwLock.step, RwLock.run, S.goto, setAt, hp]

/-- Giving back the counter mutex. -/
theorem relC_ok {s : Full.S} {t : Nat} (hp : s.l.pc t = .rRelC true) (hs : s.c.pc t = .idle)
    (ho : s.c.owner = none) (hc : s.c.count = 0) (hm : s.c.max = 1) (hq : s.c.queue = []) (w : Nat) :
    ∃ s', Full.exec false s
      (.enter t w :: List.replicate 7 (.inC (.run t 0))) = .ok (s', []) ∧ s'.l.pc t = .rRelW true ∧ s'.w = s.w := by
  simp [Full.exec, Full.step, atC, op, Inner.sem, Sem.step, Sem.run, Sem.S.goto, hp, hs, ho, hc, hm, hq, reacts,
    react, ofSem, ghosts, next, List.replicate, S.goto, setAt]

/-- Giving back the write mutex. -/
theorem relW_ok {s : Full.S} {t : Nat} (hp : s.l.pc t = .rRelW true) (hs : s.w.pc t = .idle)
    (ho : s.w.owner = none) (hc : s.w.count = 0) (hm : s.w.max = 1) (hq : ∀ u ∈ s.w.queue, ∃ w, s.w.pc u = .wBlocked w)
    (w : Nat) : ∃ u s', Full.exec false s
      (.enter t w :: List.replicate 7 (.inW (.run t u)) ++ [.lock (.run t)]) = .ok (s', [.retRead t true]) := by
  cases hq' : s.w.queue with
  | nil =>
    refine ⟨0, ?_⟩
    simp [Full.exec, Full.step, atW, op, Inner.sem, Sem.step, Sem.run, Sem.S.goto, hp, hs, ho, hc, hm, hq', reacts,
      react, ofSem, ghosts, next, List.replicate, S.goto, setAt, actor, inLock, RwLock.step, RwLock.run, RwLock.retRead]
  | cons u us =>
    obtain ⟨w', hu⟩ := hq u (by rw [hq']; exact List.mem_cons_self)
    have hut : u ≠ t := by intro e; rw [e, hs] at hu; cases hu
    refine ⟨u, ?_⟩
    simp [Full.exec, Full.step, atW, op, Inner.sem, Sem.step, Sem.run, Sem.S.goto, hp, hs, ho, hc, hm, hq', hu, hut,
      reacts, react, ofSem, ghosts, next, List.replicate, S.goto, setAt, actor, inLock, RwLock.step, RwLock.run,
      RwLock.retRead]

/-- The rest of a write lock. -/
theorem waitE_ok {s : Full.S} {t : Nat} (hp : s.l.pc t = .wE) (hs : s.e.pc t = .idle)
    (ho : s.e.owner = none) (hm : s.e.manual = true) (hg : s.e.signaled = true) (w : Nat) : ∃ s', Full.exec false s
      [.enter t w, .inE (.run t 0), .inE (.run t 0), .inE (.run t 0), .lock (.run t)] =
        .ok (s', [.enterW t, .retWrite t true]) := by
  simp [Full.exec, Full.step, atE, op, Inner.event, Event.step, Event.run, Event.lock, Event.unlock, Event.S.goto,
    hp, hs, ho, hm, hg, reacts, react, ofEvent, ghosts, next, S.goto, setAt, actor, inLock, RwLock.step, RwLock.run,
    RwLock.retWrite]

/-- The steps are those of `t`, which passes on the time limit `wait`. -/
def Own (t wait : Nat) (as : List Full.Act) : Prop := ∀ a ∈ as, rwWho a = t ∧ ∀ u w, a = .enter u w → w = wait

theorem rw_free_locks {s : Full.S} {t : Nat} (hp : s.l.pc t = .idle) (hw : s.w.pc t = .idle) (hc : s.c.pc t = .idle)
    (he : s.e.pc t = .idle) (ow : s.w.owner = none) (oc : s.c.owner = none) (oe : s.e.owner = none)
    (nw : s.w.count = 1) (nc : s.c.count = 1) (mw : s.w.max = 1) (mc : s.c.max = 1) (me : s.e.manual = true)
    (qw : ∀ u ∈ s.w.queue, ∃ w, s.w.pc u = .wBlocked w) (qc : s.c.queue = []) (sg : s.e.signaled = true) (wait : Nat) :
    (∃ bs s', Own t wait bs ∧ Full.exec false s bs = .ok (s', [.callRead t, .enterR t, .retRead t true])) ∧
    ∃ bs s', Own t wait bs ∧ Full.exec false s bs = .ok (s', [.callWrite t, .enterW t, .retWrite t true]) := by
  constructor
  · have h0 : Full.exec false s [.lock (.callRead t)] = .ok ({ s with l := s.l.goto t .rW }, [.callRead t]) := by
      simp [Full.exec, Full.step, actor, op, inLock, RwLock.step, hp]
    obtain ⟨s1, h1, l1, w1, v1, o1, n1, q1, m1, c1, e1⟩ := waitW_ok (s := { s with l := s.l.goto t .rW }) (t := t)
      (.inl (by simp [S.goto, setAt])) hw ow nw wait
    have l1' : s1.l.pc t = .rC := by rw [l1]; simp [S.goto, setAt, next]
    obtain ⟨s2, h2, l2, p2, -, o2, n2, q2, m2, w2, e2⟩ := waitC_ok l1' (by rw [c1]; exact hc) (by rw [c1]; exact oc)
      (by rw [c1]; exact nc) wait
    have x2 : s2.c.max = 1 := by rw [m2, c1]; exact mc
    obtain ⟨s3, h3, l3, w3, c3⟩ := reset_ok (s := s2) (t := t) (by rw [l2]; simp [S.goto, setAt])
      (by rw [e2, e1]; exact he) (by rw [e2, e1]; exact oe) (by rw [e2, e1]; exact me) wait
    obtain ⟨s4, h4, l4, w4, c4⟩ := count_ok (s := s3) (t := t) (by rw [l3]; simp [S.goto, setAt])
    obtain ⟨s5, h5, l5, w5⟩ := relC_ok l4 (by rw [c4, c3]; exact p2) (by rw [c4, c3]; exact o2)
      (by rw [c4, c3]; exact n2) (by rw [c4, c3]; exact x2) (by rw [c4, c3, q2, c1]; exact qc) wait
    have ew : s5.w = s1.w := by rw [w5, w4, w3, w2]
    obtain ⟨u, s6, h6⟩ := relW_ok l5 (by rw [ew]; exact w1) (by rw [ew]; exact o1) (by rw [ew]; exact n1)
      (by rw [ew, m1]; exact mw) (by
        rw [ew, q1]
        intro u hu
        obtain ⟨w, e⟩ := qw u hu
        exact ⟨w, by rw [v1 u (fun e' => by rw [e', hw] at e; cases e)]; exact e⟩) wait
    refine ⟨_, s6, ?_, rw_exec_append _ _ h0 (rw_exec_append _ _ h1 (rw_exec_append _ _ h2 (rw_exec_append _ _ h3
      (rw_exec_append _ _ h4 (rw_exec_append _ _ h5 h6)))))⟩
    simp [Own, rwWho, actor, innerWho, List.replicate]
  · have h0 : Full.exec false s [.lock (.callWrite t)] = .ok ({ s with l := s.l.goto t .wW }, [.callWrite t]) := by
      simp [Full.exec, Full.step, actor, op, inLock, RwLock.step, hp]
    obtain ⟨s1, h1, l1, -, -, -, -, -, -, c1, e1⟩ := waitW_ok (s := { s with l := s.l.goto t .wW }) (t := t)
      (.inr (by simp [S.goto, setAt])) hw ow nw wait
    obtain ⟨s2, h2⟩ := waitE_ok (s := s1) (t := t) (by rw [l1]; simp [S.goto, setAt, next]) (by rw [e1]; exact he)
      (by rw [e1]; exact oe) (by rw [e1]; exact me) (by rw [e1]; exact sg) wait
    refine ⟨_, s2, ?_, rw_exec_append _ _ h0 (rw_exec_append _ _ h1 h2)⟩
    simp [Own, rwWho, actor, innerWho]

end Verif.Crash
