import Verif.Race.Lemmas

/-! # C132: the synchronisation objects have no data races -/

namespace Verif.Race

/-- Semaphore: any threads, any calls, any failures. -/
theorem sem_race_free {start max : Nat} {as : List Sem.Act} {s : Sem.S} {ls : List Sem.Label}
    (h : Sem.exec (Sem.init start max) as = .ok (s, ls)) : NoRace fun t => semAcc (s.pc t) := by
  obtain ⟨s1, l1, n, he, hi, -⟩ := Sem.exec_ok as (Sem.init_inv start max)
  rw [he] at h; cases h
  exact sem_inv hi

/-- Event; `MxManual` is read without the lock, but nobody writes it. -/
theorem event_race_free {manual signaled : Bool} {as : List Event.Act} {s : Event.S} {ls : List Event.Label}
    (h : Event.exec (Event.init manual signaled) as = .ok (s, ls)) : NoRace fun t => evAcc (s.pc t) := by
  obtain ⟨s1, l1, he, hi, -⟩ := Event.exec_ok as (Event.init_inv manual signaled)
  rw [he] at h; cases h
  exact ev_inv hi

/-- Mutex with its semaphore, any objects that share it. -/
theorem mutex_race_free_partial {as : List Mutex.Full.Act} {c : Mutex.Full.S} {ls : List Mutex.Label}
    (h : Mutex.Full.exec Mutex.Full.init as = .ok (c, ls)) : NoRace (mutexAcc c) := by
  have h0 : Mutex.Owned (Mutex.Full.abs Mutex.Full.init (decide (1 = 1))) := by intro t o e; cases e
  obtain ⟨c1, l1, n, bs, he, hi, hb⟩ := Mutex.Full.exec_same as Mutex.Full.init_inv h0
  rw [he] at h; cases h
  have ho := Mutex.Full.exec_owned h0 hb
  have hcs : ∀ t o, mxAcc (c.m.pc t) ≠ [] → Mutex.critAt (c.m.pc t) = some o → c.m.cs o = some t := by
    intro t o hne hc
    apply ho t o
    show Mutex.critAt (Mutex.Full.adv _ (c.m.pc t)) = some o
    have hk := hi.coh t
    revert hk hne hc
    generalize Sem.phOf (c.s.pc t) = ph
    cases ph <;> cases c.m.pc t <;> simp [Mutex.Full.coh, Mutex.Full.adv, mxAcc, Mutex.critAt]
  have hm : NoRace fun t => mxAcc (c.m.pc t) := by
    intro t u htu hc
    obtain ⟨a, ha, b, hb, he, -⟩ := hc
    have h1 := hcs t _ (fun e => by dsimp only at ha; rw [e] at ha; cases ha) (mx_crit ha)
    have h2 := hcs u _ (fun e => by dsimp only at hb; rw [e] at hb; cases hb) (mx_crit hb)
    rw [← he, h1] at h2
    exact htu (Option.some.inj h2)
  intro t u htu hc
  unfold mutexAcc at hc
  rw [Conflict.append_left, Conflict.append_right, Conflict.append_right] at hc
  rcases hc with (hc | hc) | (hc | hc)
  · exact hm t u htu (hc.split fun _ _ e => MutexLoc.obj.inj e)
  · exact Conflict.apart (f := MutexLoc.obj) (g := MutexLoc.sem) (fun _ _ => MutexLoc.noConfusion) hc
  · exact Conflict.apart (f := MutexLoc.sem) (g := MutexLoc.obj) (fun _ _ => MutexLoc.noConfusion) hc
  · exact sem_inv hi.sem t u htu (hc.split fun _ _ e => MutexLoc.sem.inj e)

/-- Read-write lock with its semaphores and its event; `free = true`: also if locks are given back that
the thread does not have. -/
theorem rwlock_race_free {free : Bool} {as : List RwLock.Full.Act} {s : RwLock.Full.S} {ls : List RwLock.Label}
    (h : RwLock.Full.exec free RwLock.Full.init as = .ok (s, ls)) : NoRace (rwlockAcc s) := by
  obtain ⟨s1, l1, n, k, bs, he, hi, hb⟩ := RwLock.Full.exec_same free as RwLock.Full.init_inv
  rw [he] at h; cases h
  rw [RwLock.Full.abs_init] at hb
  have ho : RwOwn (RwLock.Full.abs s n k) := by
    have := rw_exec (free := free) bs rw_init
    rw [hb] at this
    exact this
  obtain ⟨tc, -, ho⟩ := ho
  have hl : NoRace fun t => rwAcc (s.l.pc t) := by
    refine noRace_of_owner (own := tc) fun t ht => ho t ?_
    have hr := rw_crit ht
    have hout := RwLock.Full.none_out hi hr.2
    have hpc : (RwLock.Full.abs s n k).pc t = s.l.pc t := RwLock.Full.absG_pc (by rw [hout]; rfl)
    rw [hpc]
    exact hr.1
  have hw := sem_inv hi.w
  have hc' := sem_inv hi.c
  have hev := ev_inv hi.e
  intro t u htu hc
  unfold rwlockAcc at hc
  simp only [Conflict.append_left, Conflict.append_right] at hc
  rcases hc with ((hc | hc) | hc) | hc <;> rcases hc with ((hc | hc) | hc) | hc
  all_goals first
    | exact hl t u htu (hc.split fun _ _ _ => rfl)
    | exact hw t u htu (hc.split fun _ _ e => RwLoc.w.inj e)
    | exact hc' t u htu (hc.split fun _ _ e => RwLoc.c.inj e)
    | exact hev t u htu (hc.split fun _ _ e => RwLoc.e.inj e)
    | exact Conflict.apart (by intro x y e; cases e) hc

/-- The Windows branch of the mutex: any objects that share a kernel mutex, threads that end. -/
theorem winmutex_race_free {as : List WinMutex.Act} {s : WinMutex.S} {ls : List Mutex.Label}
    (h : WinMutex.exec WinMutex.init as = .ok (s, ls)) : NoRace fun t => mxAcc (s.pc t) :=
  mx_inv (winmutex_owned as WinMutex.owned_init h)

/-! ## The accesses are all there are

A step that changes a variable has a write to it in its list, and a step that has no access to a variable in its
list does the same whatever the variable holds. -/

theorem sem_writes {s s' : Sem.S} {a : Sem.Act} {ls : List Sem.Label} (h : Sem.step s a = .ok (some (s', ls)))
    {x : SemLoc} (hx : semGet s' x ≠ semGet s x) : wt x ∈ semAcc (s.pc (semWho a)) := by
  cases a with
  | run t pick =>
    simp only [Sem.step, Sem.run, Sem.block] at h
    show wt x ∈ semAcc (s.pc t)
    cases hp : s.pc t <;> rw [hp] at h <;> dsimp only at h <;> (repeat' split at h) <;> cases h <;> cases x <;>
      first | exact absurd rfl hx | simp [semAcc, wt, rd]
  | callWait t w => simp only [Sem.step] at h; split at h <;> cases h; exact absurd (by cases x <;> rfl) hx
  | callRelease t => simp only [Sem.step] at h; split at h <;> cases h; exact absurd (by cases x <;> rfl) hx
  | fail t =>
    simp only [Sem.step, Sem.fail] at h
    (repeat' split at h) <;> cases h <;> exact absurd (by cases x <;> rfl) hx
  | wake t z => simp only [Sem.step] at h; split at h <;> cases h; exact absurd (by cases x <;> rfl) hx

theorem sem_reads {s : Sem.S} {a : Sem.Act} {x : SemLoc} (v : Nat)
    (hx : ∀ y ∈ semAcc (s.pc (semWho a)), y.loc ≠ x) :
    Sem.step (semSet s v x) a = after (semSet · v x) (Sem.step s a) := by
  cases a with
  | run t pick =>
    simp only [semWho] at hx
    cases x <;> simp only [Sem.step, Sem.run, Sem.block, semSet] <;> cases hp : s.pc t <;> rw [hp] at hx <;>
      first
        | (simp [semAcc, rd, wt] at hx; done)
        | rfl
        | (cases hq : s.queue <;> cases hk : s.pc pick <;> simp [after, Sem.S.goto, hq]; done)
        | grind [after, Sem.S.goto]
  | callWait t w => cases x <;> simp only [Sem.step, semSet] <;> grind [after, Sem.S.goto]
  | callRelease t => cases x <;> simp only [Sem.step, semSet] <;> grind [after, Sem.S.goto]
  | fail t =>
    simp only [semWho] at hx
    cases x <;> simp only [Sem.step, Sem.fail, semSet] <;> cases hp : s.pc t <;> rw [hp] at hx <;>
      first
        | (simp [semAcc, rd, wt] at hx; done)
        | rfl
        | grind [after, Sem.S.goto]
  | wake t z => cases x <;> simp only [Sem.step, semSet] <;> cases s.pc t <;> rfl

theorem event_writes {s s' : Event.S} {a : Event.Act} {ls : List Event.Label}
    (h : Event.step s a = .ok (some (s', ls))) {x : EvLoc} (hx : evGet s' x ≠ evGet s x) :
    wt x ∈ evAcc (s.pc (evWho a)) := by
  cases a with
  | run t pick =>
    simp only [Event.step, Event.run, Event.block, Event.lock, Event.unlock, Event.wakeAll] at h
    show wt x ∈ evAcc (s.pc t)
    cases hp : s.pc t <;> rw [hp] at h <;> dsimp only at h <;> (repeat' split at h) <;> cases h <;> cases x <;>
      first | exact absurd rfl hx | simp [evAcc, wt, rd]
  | callWait t w => simp only [Event.step] at h; split at h <;> cases h; exact absurd (by cases x <;> rfl) hx
  | callFire t => simp only [Event.step] at h; split at h <;> cases h; exact absurd (by cases x <;> rfl) hx
  | callReset t => simp only [Event.step] at h; split at h <;> cases h; exact absurd (by cases x <;> rfl) hx
  | fail t =>
    simp only [Event.step, Event.fail] at h
    (repeat' split at h) <;> cases h <;> exact absurd (by cases x <;> rfl) hx
  | wake t z => simp only [Event.step] at h; split at h <;> cases h; exact absurd (by cases x <;> rfl) hx

theorem event_reads {s : Event.S} {a : Event.Act} {x : EvLoc} (v : x.ty)
    (hx : ∀ y ∈ evAcc (s.pc (evWho a)), y.loc ≠ x) :
    Event.step (evSet s x v) a = after (evSet · x v) (Event.step s a) := by
  cases a with
  | run t pick =>
    by_cases hf : s.pc t = .fSignal
    · simp only [evWho, hf] at hx
      cases x <;> simp only [Event.step, Event.run, evSet, hf]
      · exact absurd rfl (hx (rd .manual) (by simp [evAcc]))
      all_goals
        by_cases hm : s.manual = true
        · refine (if_pos hm).trans ?_; rw [if_pos hm]; rfl
        · refine (if_neg hm).trans ?_; rw [if_neg hm]
          cases hq : s.queue <;> cases hk : s.pc pick <;> simp [after, Event.S.goto, hq]
    · simp only [evWho] at hx
      cases x <;> simp only [Event.step, Event.run, Event.block, Event.lock, Event.unlock, evSet] <;>
        cases hp : s.pc t <;> rw [hp] at hx <;>
        first
          | (simp [evAcc, rd, wt] at hx; done)
          | rfl
          | exact absurd hp hf
          | grind [after, Event.S.goto]
  | callWait t w => cases x <;> simp only [Event.step, evSet] <;> grind [after, Event.S.goto]
  | callFire t => cases x <;> simp only [Event.step, evSet] <;> grind [after, Event.S.goto]
  | callReset t => cases x <;> simp only [Event.step, evSet] <;> grind [after, Event.S.goto]
  | fail t =>
    simp only [evWho] at hx
    cases x <;> simp only [Event.step, Event.fail, evSet] <;> cases hp : s.pc t <;> rw [hp] at hx <;>
      first
        | (simp [evAcc, rd, wt] at hx; done)
        | rfl
        | grind [after, Event.S.goto]
  | wake t z => cases x <;> simp only [Event.step, evSet] <;> cases s.pc t <;> rfl

theorem mutex_writes {s s' : Mutex.S} {a : Mutex.Act} {ls : List Mutex.Label}
    (h : Mutex.step s a = .ok (some (s', ls))) {x : MxLoc} (hx : mxGet s' x ≠ mxGet s x) :
    wt x ∈ mxAcc (s.pc (Mutex.Full.actor a)) := by
  cases a with
  | run t =>
    simp only [Mutex.step, Mutex.run, Mutex.lock, Mutex.unlock] at h
    show wt x ∈ mxAcc (s.pc t)
    cases hp : s.pc t <;> rw [hp] at h <;> dsimp only at h <;> (repeat' split at h) <;> cases h <;> cases x <;>
      first | exact absurd rfl hx | (simp only [mxGet, Mutex.S.goto, Mutex.setAt] at hx; grind [mxAcc, wt, rd])
  | callLock t o w => simp only [Mutex.step] at h; split at h <;> cases h; exact absurd (by cases x <;> rfl) hx
  | callUnlock t o w => simp only [Mutex.step] at h; split at h <;> cases h; exact absurd (by cases x <;> rfl) hx
  | fail t =>
    simp only [Mutex.step, Mutex.fail] at h
    (repeat' split at h) <;> cases h <;> exact absurd (by cases x <;> rfl) hx

theorem mutex_reads {s : Mutex.S} {a : Mutex.Act} {x : MxLoc} (v : x.ty)
    (hx : ∀ y ∈ mxAcc (s.pc (Mutex.Full.actor a)), y.loc ≠ x) :
    Mutex.step (mxSet s x v) a = after (mxSet · x v) (Mutex.step s a) := by
  cases a with
  | run t =>
    simp only [Mutex.Full.actor] at hx
    cases x with
    | oid o =>
      revert v; intro (v : Option Nat)
      simp only [Mutex.step, Mutex.run, Mutex.lock, Mutex.unlock, mxSet]
      cases hp : s.pc t <;> rw [hp] at hx
      case lTest o' w =>
        have e := setAt_other s.oid (o := o) (p := o') v fun e => hx _ (List.mem_singleton.mpr rfl) (by rw [e]; rfl)
        dsimp only
        by_cases h : s.oid o' = some t
        · refine (if_pos (e.trans h)).trans ?_; rw [if_pos h]; rfl
        · refine (if_neg (fun x => h (e.symm.trans x))).trans ?_; rw [if_neg h]; rfl
      case uTest o' w =>
        have e := setAt_other s.oid (o := o) (p := o') v fun e => hx _ (List.mem_singleton.mpr rfl) (by rw [e]; rfl)
        dsimp only
        by_cases h : s.oid o' = some t
        · refine (if_neg (fun x => x (e.trans h))).trans ?_; rw [if_neg (fun x => x h)]; rfl
        · refine (if_pos (fun x => h (e.symm.trans x))).trans ?_; rw [if_pos h]; rfl
      case lOwn o' =>
        dsimp only
        rw [setAt_comm _ _ _ fun e => hx _ (List.mem_singleton.mpr rfl) (by rw [e]; rfl)]; rfl
      case uOwn o' w =>
        dsimp only
        rw [setAt_comm _ _ _ fun e => hx _ (List.mem_singleton.mpr rfl) (by rw [e]; rfl)]; rfl
      all_goals clear hx; first | rfl | grind [after, Mutex.S.goto]
    | cnt o =>
      revert v; intro (v : Nat)
      simp only [Mutex.step, Mutex.run, Mutex.lock, Mutex.unlock, mxSet]
      cases hp : s.pc t <;> rw [hp] at hx
      case lLoad o' =>
        have e := setAt_other s.cnt (o := o) (p := o') v fun e => hx _ (List.mem_singleton.mpr rfl) (by rw [e]; rfl)
        dsimp only; rw [e]; rfl
      case uLoad o' w =>
        have e := setAt_other s.cnt (o := o) (p := o') v fun e => hx _ (List.mem_singleton.mpr rfl) (by rw [e]; rfl)
        dsimp only; rw [e]; rfl
      case uZero o' w =>
        have e := setAt_other s.cnt (o := o) (p := o') v fun e => hx _ (List.mem_singleton.mpr rfl) (by rw [e]; rfl)
        dsimp only
        by_cases h : s.cnt o' = 0
        · refine (if_pos (e.trans h)).trans ?_; rw [if_pos h]; rfl
        · refine (if_neg (fun x => h (e.symm.trans x))).trans ?_; rw [if_neg h]; rfl
      case lStore o' w =>
        dsimp only
        rw [setAt_comm _ _ _ fun e => hx _ (List.mem_singleton.mpr rfl) (by rw [e]; rfl)]; rfl
      case lCnt o' =>
        dsimp only
        rw [setAt_comm _ _ _ fun e => hx _ (List.mem_singleton.mpr rfl) (by rw [e]; rfl)]; rfl
      case uStore o' w z =>
        dsimp only
        rw [setAt_comm _ _ _ fun e => hx _ (List.mem_singleton.mpr rfl) (by rw [e]; rfl)]; rfl
      case uAll o' all =>
        cases all with
        | false => rfl
        | true =>
          dsimp only
          rw [if_pos rfl, if_pos rfl,
            setAt_comm _ _ _ fun e => hx _ (List.mem_singleton.mpr rfl) (by rw [e]; rfl)]; rfl
      all_goals clear hx; first | rfl | grind [after, Mutex.S.goto]
  | callLock t o w => cases x <;> simp only [Mutex.step, mxSet] <;> grind [after, Mutex.S.goto]
  | callUnlock t o w => cases x <;> simp only [Mutex.step, mxSet] <;> grind [after, Mutex.S.goto]
  | fail t => cases x <;> simp only [Mutex.step, Mutex.fail, mxSet] <;> cases s.pc t <;> rfl

theorem winmutex_writes {s s' : WinMutex.S} {a : WinMutex.Act} {ls : List Mutex.Label}
    (h : WinMutex.step s a = .ok (some (s', ls))) {x : MxLoc} (hx : wmGet s' x ≠ wmGet s x) :
    wt x ∈ mxAcc (s.pc (wmWho a)) := by
  cases a with
  | run t =>
    simp only [WinMutex.step, WinMutex.run, WinMutex.enter, WinMutex.leave, WinMutex.got, WinMutex.released] at h
    show wt x ∈ mxAcc (s.pc t)
    cases hp : s.pc t <;> rw [hp] at h <;> dsimp only at h <;> (repeat' split at h) <;> cases h <;> cases x <;>
      first | exact absurd rfl hx | (simp only [wmGet, WinMutex.S.goto, Mutex.setAt] at hx; grind [mxAcc, wt, rd])
  | callLock t o w => simp only [WinMutex.step] at h; split at h <;> cases h; exact absurd (by cases x <;> rfl) hx
  | callUnlock t o w => simp only [WinMutex.step] at h; split at h <;> cases h; exact absurd (by cases x <;> rfl) hx
  | fail t =>
    simp only [WinMutex.step, WinMutex.fail] at h
    (repeat' split at h) <;> cases h <;> exact absurd (by cases x <;> rfl) hx
  | die t =>
    simp only [WinMutex.step, WinMutex.ended] at h
    (repeat' split at h) <;> cases h <;> exact absurd (by cases x <;> rfl) hx

theorem winmutex_reads {s : WinMutex.S} {a : WinMutex.Act} {x : MxLoc} (v : x.ty)
    (hx : ∀ y ∈ mxAcc (s.pc (wmWho a)), y.loc ≠ x) :
    WinMutex.step (wmSet s x v) a = after (wmSet · x v) (WinMutex.step s a) := by
  cases a with
  | run t =>
    simp only [wmWho] at hx
    cases x with
    | oid o =>
      revert v; intro (v : Option Nat)
      simp only [WinMutex.step, WinMutex.run, WinMutex.enter, WinMutex.leave, WinMutex.got, WinMutex.released, wmSet]
      cases hp : s.pc t <;> rw [hp] at hx
      case lTest o' w =>
        have e := setAt_other s.oid (o := o) (p := o') v fun e => hx _ (List.mem_singleton.mpr rfl) (by rw [e]; rfl)
        dsimp only
        by_cases h : s.oid o' = some t
        · refine (if_pos (e.trans h)).trans ?_; rw [if_pos h]; rfl
        · refine (if_neg (fun x => h (e.symm.trans x))).trans ?_; rw [if_neg h]; rfl
      case uTest o' w =>
        have e := setAt_other s.oid (o := o) (p := o') v fun e => hx _ (List.mem_singleton.mpr rfl) (by rw [e]; rfl)
        dsimp only
        by_cases h : s.oid o' = some t
        · refine (if_neg (fun x => x (e.trans h))).trans ?_; rw [if_neg (fun x => x h)]; rfl
        · refine (if_pos (fun x => h (e.symm.trans x))).trans ?_; rw [if_pos h]; rfl
      case lOwn o' =>
        dsimp only
        rw [setAt_comm _ _ _ fun e => hx _ (List.mem_singleton.mpr rfl) (by rw [e]; rfl)]; rfl
      case uOwn o' w =>
        dsimp only
        rw [setAt_comm _ _ _ fun e => hx _ (List.mem_singleton.mpr rfl) (by rw [e]; rfl)]; rfl
      all_goals clear hx; first | rfl | grind [after, WinMutex.S.goto]
    | cnt o =>
      revert v; intro (v : Nat)
      simp only [WinMutex.step, WinMutex.run, WinMutex.enter, WinMutex.leave, WinMutex.got, WinMutex.released, wmSet]
      cases hp : s.pc t <;> rw [hp] at hx
      case lLoad o' =>
        have e := setAt_other s.cnt (o := o) (p := o') v fun e => hx _ (List.mem_singleton.mpr rfl) (by rw [e]; rfl)
        dsimp only; rw [e]; rfl
      case uLoad o' w =>
        have e := setAt_other s.cnt (o := o) (p := o') v fun e => hx _ (List.mem_singleton.mpr rfl) (by rw [e]; rfl)
        dsimp only; rw [e]; rfl
      case uZero o' w =>
        have e := setAt_other s.cnt (o := o) (p := o') v fun e => hx _ (List.mem_singleton.mpr rfl) (by rw [e]; rfl)
        dsimp only
        by_cases h : s.cnt o' = 0
        · refine (if_pos (e.trans h)).trans ?_; rw [if_pos h]; rfl
        · refine (if_neg (fun x => h (e.symm.trans x))).trans ?_; rw [if_neg h]; rfl
      case lStore o' w =>
        dsimp only
        rw [setAt_comm _ _ _ fun e => hx _ (List.mem_singleton.mpr rfl) (by rw [e]; rfl)]; rfl
      case lCnt o' =>
        dsimp only
        rw [setAt_comm _ _ _ fun e => hx _ (List.mem_singleton.mpr rfl) (by rw [e]; rfl)]; rfl
      case uStore o' w z =>
        dsimp only
        rw [setAt_comm _ _ _ fun e => hx _ (List.mem_singleton.mpr rfl) (by rw [e]; rfl)]; rfl
      case uAll o' all =>
        cases all with
        | false => rfl
        | true =>
          dsimp only
          rw [if_pos rfl, if_pos rfl,
            setAt_comm _ _ _ fun e => hx _ (List.mem_singleton.mpr rfl) (by rw [e]; rfl)]; rfl
      all_goals clear hx; first | rfl | grind [after, WinMutex.S.goto]
  | callLock t o w => cases x <;> simp only [WinMutex.step, wmSet] <;> grind [after, WinMutex.S.goto]
  | callUnlock t o w => cases x <;> simp only [WinMutex.step, wmSet] <;> grind [after, WinMutex.S.goto]
  | fail t => cases x <;> simp only [WinMutex.step, WinMutex.fail, wmSet] <;> cases s.pc t <;> rfl
  | die t => cases x <;> simp only [WinMutex.step, WinMutex.ended, wmSet] <;> grind [after, WinMutex.S.goto]

theorem rwlock_writes {free : Bool} {s s' : RwLock.S} {a : RwLock.Act} {ls : List RwLock.Label}
    (h : RwLock.step free s a = some (s', ls)) (hx : s'.rc ≠ s.rc) :
    wt () ∈ rwAcc (s.pc (RwLock.Full.actor a)) := by
  cases a with
  | run t =>
    simp only [RwLock.step, RwLock.run, RwLock.retRead, RwLock.retWrite] at h
    show wt () ∈ rwAcc (s.pc t)
    cases hp : s.pc t <;> rw [hp] at h <;> dsimp only at h <;> (repeat' split at h) <;> cases h <;>
      first | exact absurd rfl hx | simp [rwAcc, wt, rd]
  | fail t =>
    simp only [RwLock.step, RwLock.fail] at h
    (repeat' split at h) <;> cases h <;> exact absurd rfl hx
  | callRead t | callWrite t | callReadUnlock t | callWriteUnlock t =>
    simp only [RwLock.step] at h
    split at h <;> cases h
    exact absurd rfl hx

theorem rwlock_reads {free : Bool} {s : RwLock.S} {a : RwLock.Act} (v : Nat)
    (hx : rwAcc (s.pc (RwLock.Full.actor a)) = []) :
    RwLock.step free { s with rc := v } a =
      (RwLock.step free s a).map fun r => ({ r.1 with rc := v }, r.2) := by
  cases a with
  | run t =>
    simp only [RwLock.Full.actor] at hx
    simp only [RwLock.step, RwLock.run, RwLock.retRead, RwLock.retWrite]
    cases hp : s.pc t <;> rw [hp] at hx <;>
      first | rfl | (cases hx; done) | (dsimp only; split <;> rfl) | grind [RwLock.S.goto]
  | fail t => simp only [RwLock.step, RwLock.fail]; cases s.pc t <;> rfl
  | callRead t => simp only [RwLock.step]; grind [RwLock.S.goto]
  | callWrite t => simp only [RwLock.step]; grind [RwLock.S.goto]
  | callReadUnlock t => simp only [RwLock.step]; grind [RwLock.S.goto]
  | callWriteUnlock t => simp only [RwLock.step]; grind [RwLock.S.goto]

/-! ## The second lock in `Lock` -/

/-- What is missing in `mutex_race_free_partial`: `Lock` does not test the result of its second `pthread_mutex_lock`.
If it fails the call goes on without the lock and writes `MxOwnerID` while another thread reads it. -/
theorem unchecked_lock_races : ∃ as s ls, Mutex.exec Mutex.init as = .ok (s, ls) ∧
    s.pc 1 = .lCs2 0 ∧ Conflict (mxAcc ((goOn s 1).pc 1)) (mxAcc ((goOn s 1).pc 2)) :=
  ⟨[.callLock 1 0 5, .run 1, .run 1, .run 1, .run 1, .callLock 2 0 5, .run 2], _, _, rfl, rfl,
    wt (.oid 0), List.mem_singleton.mpr rfl, rd (.oid 0), List.mem_singleton.mpr rfl, rfl, Or.inl rfl⟩

/-- And at its end it unlocks a mutex it does not hold. -/
theorem unchecked_lock_undefined : ∃ as s ls, Mutex.exec Mutex.init as = .ok (s, ls) ∧
    s.pc 1 = .lCs2 0 ∧ Mutex.exec (goOn s 1) [.run 1, .run 1, .run 1] = .error .badUnlock :=
  ⟨[.callLock 1 0 5, .run 1, .run 1, .run 1, .run 1], _, _, rfl, rfl, rfl⟩

/-! ## Examples -/

/-- Two threads inside the event at the same time, both reading `MxManual`. -/
example : ∃ s ls, Event.exec (Event.init true false)
      [.callFire 1, .run 1 0, .run 1 0, .callReset 2] = .ok (s, ls) ∧
    evAcc (s.pc 1) = [rd .manual] ∧ evAcc (s.pc 2) = [rd .manual] := ⟨_, _, rfl, rfl, rfl⟩

/-- Two threads in the critical sections of two objects of the same mutex. -/
example : ∃ c ls, Mutex.Full.exec Mutex.Full.init
      [.mutex (.callLock 1 0 5), .mutex (.run 1), .mutex (.callUnlock 2 7 true), .mutex (.run 2)] = .ok (c, ls) ∧
    mutexAcc c 1 = [rd (.obj (.oid 0))] ∧ mutexAcc c 2 = [rd (.obj (.oid 7))] := ⟨_, _, rfl, rfl, rfl⟩

/-- One thread about to write the counter of a read-write lock, another one about to test the write mutex. -/
example : ∃ s ls, RwLock.Full.exec true RwLock.Full.init
      [.lock (.callRead 1), .enter 1 9, .inW (.run 1 0), .inW (.run 1 0), .inW (.run 1 0), .inW (.run 1 0),
        .enter 1 9, .inC (.run 1 0), .inC (.run 1 0), .inC (.run 1 0), .inC (.run 1 0),
        .enter 1 9, .inE (.run 1 0), .inE (.run 1 0), .inE (.run 1 0), .inE (.run 1 0), .lock (.run 1),
        .lock (.callWrite 2), .enter 2 9, .inW (.run 2 0)] = .ok (s, ls) ∧
    rwlockAcc s 1 = [wt .rc] ∧ rwlockAcc s 2 = [rd (.w .count)] := ⟨_, _, rfl, rfl, rfl⟩

/-- A step that changes a variable. -/
example : ∃ s s' ls ls', Sem.exec (Sem.init 0 5) [.callRelease 3, .run 3 0, .run 3 0, .run 3 0] = .ok (s, ls) ∧
    Sem.step s (.run 3 0) = .ok (some (s', ls')) ∧ semGet s .count = 0 ∧ semGet s' .count = 1 :=
  ⟨_, _, _, _, rfl, rfl, rfl, rfl⟩

end Verif.Race
