import Verif.Progress.Mutex
import Verif.Progress.RwLock

/-!
# Calls on the synchronisation objects neither spin nor deadlock (C134)

Two things are shown for the semaphore and the event of sync_util.cpp, and for the mutex and the read/write
lock built on them.

*Bounded work.*  In every execution a thread makes at most a fixed number of steps for each call, plus two
for each time it is put to sleep on a condition variable.

*No deadlock.*  In every reachable state a thread that is inside a call and not asleep can make its next
step, or there is another thread that holds one of the internal locks and can make its next step.  For the
objects that use the semaphore this holds as long as no clock call fails while the semaphore's mutex is held
(sync_util.cpp 414): that failure returns without unlocking, and `clock_failure_deadlocks` shows what follows.
-/

namespace Verif.Progress

/-! ## The semaphore -/

theorem sem_work (v m t : Nat) (as : List Verif.Sem.Act) :
    (tally Verif.Sem.step (Sem.own t) (Sem.call t) (Sem.asleep t) (Verif.Sem.init v m) as).moves ≤
      7 * (tally Verif.Sem.step (Sem.own t) (Sem.call t) (Sem.asleep t) (Verif.Sem.init v m) as).calls +
      2 * (tally Verif.Sem.step (Sem.own t) (Sem.call t) (Sem.asleep t) (Verif.Sem.init v m) as).sleeps := by
  have := tally_le (step := Verif.Sem.step) (own := Sem.own t) (call := Sem.call t) (asleep := Sem.asleep t)
    (fun _ => True) (fun s => Sem.left (s.pc t)) 7 (fun s a s' l _ h => ⟨trivial, Sem.step_effect h⟩) as
    (s := Verif.Sem.init v m) trivial
  have h0 : Sem.left ((Verif.Sem.init v m).pc t) = 0 := rfl
  omega

/-- A wait that sleeps once and is woken (6 steps), then a release by the same thread (7 steps). -/
example : tally Verif.Sem.step (Sem.own 1) (Sem.call 1) (Sem.asleep 1) (Verif.Sem.init 0 1)
    [.callWait 1 Verif.Sem.infinite, .run 1 0, .run 1 0, .callRelease 2, .run 2 0, .run 2 0, .run 2 0, .run 2 0,
      .run 2 0, .run 2 1, .run 2 0, .run 1 0, .run 1 0, .run 1 0, .run 1 0, .callRelease 1, .run 1 0, .run 1 0,
      .run 1 0, .run 1 0, .run 1 0, .run 1 0, .run 1 0] = ⟨13, 2, 1⟩ := rfl

theorem sem_goes_partial (v m : Nat) {s : Verif.Sem.S}
    (hr : Reach Verif.Sem.step Sem.clock (Verif.Sem.init v m) s) {t : Nat} (h1 : s.pc t ≠ .idle)
    (h2 : Sem.asleep t s = false) :
    CanGo Verif.Sem.step (fun a => ∃ pick, a = .run t pick) s ∨
      ∃ u, u ≠ t ∧ s.owner = some u ∧ CanGo Verif.Sem.step (fun a => ∃ pick, a = .run u pick) s := by
  have hi : (∃ n, Verif.Sem.Inv s n) ∧ Sem.Held s := by
    refine Reach.inv (fun s => (∃ n, Verif.Sem.Inv s n) ∧ Sem.Held s)
      ⟨⟨_, Verif.Sem.init_inv v m⟩, fun t h => nomatch h⟩ ?_ hr
    rintro s a s' l ⟨⟨n, hi⟩, hh⟩ hb he
    refine ⟨?_, Sem.step_held hh hb he⟩
    obtain ⟨r, hr, hok⟩ := Verif.Sem.step_ok (a := a) hi
    rw [he] at hr
    cases hr
    obtain ⟨n', hi', -⟩ := hok s' l rfl
    exact ⟨n', hi'⟩
  obtain ⟨⟨n, hi⟩, hh⟩ := hi
  rcases Sem.goes hi hh h1 h2 with ⟨pick, r, hr⟩ | ⟨u, hut, hu, pick, r, hr⟩
  · exact .inl ⟨.run t pick, r, ⟨pick, rfl⟩, hr⟩
  · exact .inr ⟨u, hut, hu, .run u pick, r, ⟨pick, rfl⟩, hr⟩

/-- One thread holds the internal mutex and another is waiting for it. -/
example : ∃ s, Reach Verif.Sem.step Sem.clock (Verif.Sem.init 1 1) s ∧ s.pc 1 ≠ .idle ∧ Sem.asleep 1 s = false ∧
    s.owner = some 2 := by
  refine ⟨_, ((Reach.refl.step (a := .callWait 1 50) rfl rfl).step (a := .callRelease 2) rfl rfl).step
    (a := .run 2 0) rfl rfl, ?_, rfl, rfl⟩
  exact fun h => nomatch h

/-- What is missing: after the clock failed in a timed wait, the next thread to come waits for a mutex that
nobody holds any more, and no thread can make a step. -/
theorem clock_failure_deadlocks : ∃ s, Reach Verif.Sem.step (fun _ _ => false) (Verif.Sem.init 0 1) s ∧
    s.pc 2 = .wLock Verif.Sem.infinite ∧ Sem.asleep 2 s = false ∧
    ∀ u, ¬ CanGo Verif.Sem.step (fun a => ∃ pick, a = .run u pick) s := by
  refine ⟨_, (((Reach.refl.step (a := .callWait 1 50) rfl rfl).step (a := .run 1 0) rfl rfl).step
    (a := .fail 1) rfl rfl).step (a := .callWait 2 Verif.Sem.infinite) rfl rfl, rfl, rfl, ?_⟩
  rintro u ⟨a, r, ⟨pick, rfl⟩, h⟩
  match u with
  | 0 => cases h
  | 1 => cases h
  | 2 => cases h
  | k + 3 =>
    have : ∀ s : Verif.Sem.S, s.pc (k + 3) = .idle → Verif.Sem.step s (.run (k + 3) pick) = .ok none := by
      intro s hs
      unfold Verif.Sem.step Verif.Sem.run
      dsimp only
      rw [hs]
    rw [this _ (by simp [Verif.Sem.S.goto, Verif.Sem.init])] at h
    cases h

/-! ## The event -/

theorem event_work (man sig : Bool) (t : Nat) (as : List Verif.Event.Act) :
    (tally Verif.Event.step (Event.own t) (Event.call t) (Event.asleep t) (Verif.Event.init man sig) as).moves ≤
      7 * (tally Verif.Event.step (Event.own t) (Event.call t) (Event.asleep t) (Verif.Event.init man sig) as).calls +
      2 * (tally Verif.Event.step (Event.own t) (Event.call t) (Event.asleep t) (Verif.Event.init man sig) as).sleeps := by
  have := tally_le (step := Verif.Event.step) (own := Event.own t) (call := Event.call t)
    (asleep := Event.asleep t) (fun _ => True) (fun s => Event.left (s.pc t)) 7
    (fun s a s' l _ h => ⟨trivial, Event.step_effect h⟩) as (s := Verif.Event.init man sig) trivial
  have h0 : Event.left ((Verif.Event.init man sig).pc t) = 0 := rfl
  omega

/-- A wait that sleeps once and is woken by a fire. -/
example : tally Verif.Event.step (Event.own 1) (Event.call 1) (Event.asleep 1) (Verif.Event.init false false)
    [.callWait 1 Verif.Event.infinite, .run 1 0, .run 1 0, .run 1 0, .run 1 0, .callFire 2, .run 2 0, .run 2 0,
      .run 2 1, .run 2 0, .run 1 0, .run 1 0, .run 1 0, .run 1 0, .run 1 0] = ⟨9, 1, 1⟩ := rfl

theorem event_goes (man sig : Bool) {s : Verif.Event.S}
    (hr : Reach Verif.Event.step (fun _ _ => false) (Verif.Event.init man sig) s) {t : Nat} (h1 : s.pc t ≠ .idle)
    (h2 : Event.asleep t s = false) :
    CanGo Verif.Event.step (fun a => ∃ pick, a = .run t pick) s ∨
      ∃ u, u ≠ t ∧ s.owner = some u ∧ CanGo Verif.Event.step (fun a => ∃ pick, a = .run u pick) s := by
  have hi : Verif.Event.Inv s ∧ Event.Held s := by
    refine Reach.inv (fun s => Verif.Event.Inv s ∧ Event.Held s)
      ⟨Verif.Event.init_inv man sig, fun t h => nomatch h⟩ ?_ hr
    rintro s a s' l ⟨hi, hh⟩ - he
    refine ⟨?_, Event.step_held hh he⟩
    obtain ⟨r, hr, hok⟩ := Verif.Event.step_ok (a := a) hi
    rw [he] at hr
    cases hr
    exact (hok s' l rfl).1
  rcases Event.goes hi.1 hi.2 h1 h2 with ⟨pick, r, hr⟩ | ⟨u, hut, hu, pick, r, hr⟩
  · exact .inl ⟨.run t pick, r, ⟨pick, rfl⟩, hr⟩
  · exact .inr ⟨u, hut, hu, .run u pick, r, ⟨pick, rfl⟩, hr⟩

example : ∃ s, Reach Verif.Event.step (fun _ _ => false) (Verif.Event.init true false) s ∧ s.pc 1 ≠ .idle ∧
    Event.asleep 1 s = false ∧ s.owner = some 2 := by
  refine ⟨_, ((Reach.refl.step (a := .callWait 1 50) rfl rfl).step (a := .callFire 2) rfl rfl).step
    (a := .run 2 0) rfl rfl, ?_, rfl, rfl⟩
  exact fun h => nomatch h

/-! ## The mutex -/

theorem mutex_work (t : Nat) (as : List Verif.Mutex.Full.Act) :
    (tally Verif.Mutex.Full.step (Mutex.own t) (Mutex.call t) (Mutex.asleep t) Verif.Mutex.Full.init as).moves ≤
      16 * (tally Verif.Mutex.Full.step (Mutex.own t) (Mutex.call t) (Mutex.asleep t) Verif.Mutex.Full.init as).calls +
      2 * (tally Verif.Mutex.Full.step (Mutex.own t) (Mutex.call t) (Mutex.asleep t) Verif.Mutex.Full.init as).sleeps := by
  have := tally_le (step := Verif.Mutex.Full.step) (own := Mutex.own t) (call := Mutex.call t)
    (asleep := Mutex.asleep t) Mutex.Good (fun c => Mutex.left (c.s.pc t) (c.m.pc t)) 16
    (fun s a s' l hg h => ⟨Mutex.good_step hg h, Mutex.step_effect hg h⟩) as Mutex.good_init
  have h0 : Mutex.left (Verif.Mutex.Full.init.s.pc t) (Verif.Mutex.Full.init.m.pc t) = 0 := rfl
  omega

/-- An uncontended lock and unlock: 12 and 16 steps. -/
example : tally Verif.Mutex.Full.step (Mutex.own 1) (Mutex.call 1) (Mutex.asleep 1) Verif.Mutex.Full.init
    [.mutex (.callLock 1 0 Verif.Sem.infinite), .mutex (.run 1), .mutex (.run 1), .mutex (.run 1), .enter 1,
      .run 1 0, .run 1 0, .run 1 0, .run 1 0, .mutex (.run 1), .mutex (.run 1), .mutex (.run 1), .mutex (.run 1),
      .mutex (.callUnlock 1 0 false), .mutex (.run 1), .mutex (.run 1), .mutex (.run 1), .mutex (.run 1),
      .mutex (.run 1), .mutex (.run 1), .mutex (.run 1), .enter 1, .run 1 0, .run 1 0, .run 1 0, .run 1 0,
      .run 1 0, .run 1 0, .run 1 0, .mutex (.run 1)] = ⟨28, 2, 0⟩ := rfl

theorem mutex_goes_partial {c : Verif.Mutex.Full.S}
    (hr : Reach Verif.Mutex.Full.step Mutex.clock Verif.Mutex.Full.init c) {t : Nat} (h1 : c.m.pc t ≠ .idle)
    (h2 : Mutex.asleep t c = false) :
    CanGo Verif.Mutex.Full.step (fun a => a = .mutex (.run t) ∨ a = .enter t ∨ ∃ pick, a = .run t pick) c ∨
      ∃ u, u ≠ t ∧ (c.s.owner = some u ∨ ∃ o, c.m.cs o = some u) ∧
        CanGo Verif.Mutex.Full.step (fun a => a = .mutex (.run u) ∨ a = .enter u ∨ ∃ pick, a = .run u pick) c := by
  have hi : Mutex.Good c ∧ Mutex.Held c := by
    refine Reach.inv (fun c => Mutex.Good c ∧ Mutex.Held c)
      ⟨Mutex.good_init, (fun o t h => nomatch h), (fun t h => nomatch h)⟩ ?_ hr
    rintro s a s' l ⟨hg, hh⟩ hb he
    exact ⟨Mutex.good_step hg he, Mutex.step_held hh hb he⟩
  exact Mutex.goes hi.1 hi.2 h1 h2

/-- Two threads use the same object; one holds its critical section and the other is waiting for it. -/
example : ∃ c, Reach Verif.Mutex.Full.step Mutex.clock Verif.Mutex.Full.init c ∧ c.m.pc 1 ≠ .idle ∧
    Mutex.asleep 1 c = false ∧ c.m.cs 0 = some 2 := by
  refine ⟨_, ((Reach.refl.step (a := .mutex (.callLock 1 0 50)) rfl rfl).step
    (a := .mutex (.callLock 2 0 50)) rfl rfl).step (a := .mutex (.run 2)) rfl rfl, ?_, rfl, rfl⟩
  exact fun h => nomatch h

/-! ## The read/write lock -/

theorem rwlock_work (free : Bool) (t : Nat) (as : List Verif.RwLock.Full.Act) :
    (tally (Verif.RwLock.Full.step free) (RwLock.own t) (RwLock.call t) (RwLock.asleep t)
        Verif.RwLock.Full.init as).moves ≤
      34 * (tally (Verif.RwLock.Full.step free) (RwLock.own t) (RwLock.call t) (RwLock.asleep t)
        Verif.RwLock.Full.init as).calls +
      2 * (tally (Verif.RwLock.Full.step free) (RwLock.own t) (RwLock.call t) (RwLock.asleep t)
        Verif.RwLock.Full.init as).sleeps := by
  have := tally_le (step := Verif.RwLock.Full.step free) (own := RwLock.own t) (call := RwLock.call t)
    (asleep := RwLock.asleep t) RwLock.Good (fun s => RwLock.left s t) 34
    (fun s a s' l hg h => ⟨RwLock.good_step hg h, RwLock.step_effect hg h⟩) as RwLock.good_init
  have h0 : RwLock.left Verif.RwLock.Full.init t = 0 := rfl
  omega

/-- An uncontended read lock. -/
example : tally (Verif.RwLock.Full.step false) (RwLock.own 1) (RwLock.call 1) (RwLock.asleep 1)
    Verif.RwLock.Full.init
    [.lock (.callRead 1), .enter 1 50, .inW (.run 1 0), .inW (.run 1 0), .inW (.run 1 0), .inW (.run 1 0),
      .enter 1 50, .inC (.run 1 0), .inC (.run 1 0), .inC (.run 1 0), .inC (.run 1 0),
      .enter 1 50, .inE (.run 1 0), .inE (.run 1 0), .inE (.run 1 0), .inE (.run 1 0),
      .lock (.run 1), .lock (.run 1), .enter 1 50, .inC (.run 1 0), .inC (.run 1 0), .inC (.run 1 0),
      .inC (.run 1 0), .inC (.run 1 0), .inC (.run 1 0), .inC (.run 1 0), .enter 1 50, .inW (.run 1 0),
      .inW (.run 1 0), .inW (.run 1 0), .inW (.run 1 0), .inW (.run 1 0), .inW (.run 1 0), .inW (.run 1 0),
      .lock (.run 1)] = ⟨34, 1, 0⟩ := rfl

theorem rwlock_goes_partial (free : Bool) {s : Verif.RwLock.Full.S}
    (hr : Reach (Verif.RwLock.Full.step free) RwLock.clock Verif.RwLock.Full.init s) {t : Nat}
    (h1 : s.l.pc t ≠ .idle) (h2 : RwLock.asleep t s = false) :
    CanGo (Verif.RwLock.Full.step free) (fun a => a = .lock (.run t) ∨ (∃ w, a = .enter t w) ∨
        ∃ pick, a = .inW (.run t pick) ∨ a = .inC (.run t pick) ∨ a = .inE (.run t pick)) s ∨
      ∃ u, u ≠ t ∧ (s.w.owner = some u ∨ s.c.owner = some u ∨ s.e.owner = some u) ∧
        CanGo (Verif.RwLock.Full.step free) (fun a => a = .lock (.run u) ∨ (∃ w, a = .enter u w) ∨
          ∃ pick, a = .inW (.run u pick) ∨ a = .inC (.run u pick) ∨ a = .inE (.run u pick)) s := by
  have hi : RwLock.Good s ∧ RwLock.Held s := by
    refine Reach.inv (fun s => RwLock.Good s ∧ RwLock.Held s)
      ⟨RwLock.good_init, (fun t h => nomatch h), (fun t h => nomatch h), (fun t h => nomatch h)⟩ ?_ hr
    rintro s a s' l ⟨hg, hh⟩ hb he
    exact ⟨RwLock.good_step hg he, RwLock.step_held hh hb he⟩
  exact RwLock.goes hi.1 hi.2 h1 h2

/-- A reader and a writer; the writer is in the semaphore of the lock and the reader is waiting for its mutex. -/
example : ∃ s, Reach (Verif.RwLock.Full.step false) RwLock.clock Verif.RwLock.Full.init s ∧ s.l.pc 1 ≠ .idle ∧
    RwLock.asleep 1 s = false ∧ s.w.owner = some 2 := by
  refine ⟨_, ((((Reach.refl.step (a := .lock (.callRead 1)) rfl rfl).step (a := .lock (.callWrite 2)) rfl rfl).step
    (a := .enter 1 50) rfl rfl).step (a := .enter 2 50) rfl rfl).step (a := .inW (.run 2 0)) rfl rfl, ?_, rfl, rfl⟩
  exact fun h => nomatch h

end Verif.Progress
