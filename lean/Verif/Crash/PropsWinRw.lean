import Verif.Crash.WinModel
import Verif.Crash.PropsLock
import Verif.WinRwLock.Props

/-! # Killed users of a reader-writer lock on Windows (C144) -/

namespace Verif.Crash

open Verif.WinRwLock (S Pc exec step run fail init faults)
open Verif.RwLock (Label Act setAt)
open Verif.RwLock.Spec
open Verif.RwLock.Full (actor)

/-- Whoever is killed whenever: the effects of the calls are those of an atomic reader-writer lock, a call that has
returned has had the effect it reports, and one that was cut off has had it or not. -/
theorem win_rw_crash_linearizable (as : List (CAct Act)) :
    (atomic ([], none) (winRwRun init nobody as).2).isSome = true ∧
      ∀ t, (phase t (some .out) (winRwRun init nobody as).2).isSome = true :=
  WinRwLock.win_linearizable _

/-! ## Steps -/

/-- A step from `s` to `s'` of thread `u` with labels `ls`: they are its own, whoever enters has both mutexes or the write
mutex, whoever leaves has the inner mutex, and nobody else moves. -/
structure WinFine (s s' : S) (ls : List Label) (u : Nat) : Prop where
  own : ∀ l ∈ ls, who l = u
  rd : ∀ t, Label.enterR t ∈ ls → s.pc t = .rReset
  wr : ∀ t, Label.enterW t ∈ ls → s.pc t = .wE
  ex : ∀ t, Label.exitR t ∈ ls → s.pc t = .uRel
  pc : ∀ o, o ≠ u → s'.pc o = s.pc o

theorem win_fine {s s' : S} {a : Act} {ls : List Label} (h : step false s a = some (s', ls)) :
    WinFine s s' ls (actor a) := by
  cases a with
  | callRead t =>
    simp only [step] at h; split at h <;> cases h
    exact ⟨by simp [who, actor], by simp, by simp, by simp, fun o ho => if_neg ho⟩
  | callWrite t =>
    simp only [step] at h; split at h <;> cases h
    exact ⟨by simp [who, actor], by simp, by simp, by simp, fun o ho => if_neg ho⟩
  | callReadUnlock t =>
    simp only [step] at h; split at h <;> cases h
    exact ⟨by simp [who, actor], by simp, by simp, by simp, fun o ho => if_neg ho⟩
  | callWriteUnlock t =>
    simp only [step] at h; split at h <;> cases h
    exact ⟨by simp [who, actor], by simp, by simp, by simp, fun o ho => if_neg ho⟩
  | run t =>
    simp only [step] at h
    unfold run at h
    cases hp : s.pc t <;> rw [hp] at h <;> simp only [WinRwLock.retRead, WinRwLock.retWrite] at h
    all_goals try split at h
    all_goals cases h
    all_goals refine ⟨?_, ?_, ?_, ?_, fun o ho => if_neg ho⟩
    all_goals simp [who, actor]
    all_goals exact hp
  | fail t =>
    simp only [step] at h
    unfold fail at h
    split at h <;> cases h
    all_goals exact ⟨by simp [who, actor], by simp, by simp, by simp, fun o ho => if_neg ho⟩

theorem win_rw_silent {o : Nat} (bs : List Act) : ∀ {s : S}, (∀ b ∈ bs, actor b ≠ o) →
    ∀ l ∈ (exec false s bs).2, who l ≠ o := by
  induction bs with
  | nil => intro s _ l hl; cases hl
  | cons b bs ih =>
    intro s hb l hl
    rw [exec] at hl
    have hb' := fun x hx => hb x (List.mem_cons_of_mem _ hx)
    cases hs : step false s b with
    | none => rw [hs] at hl; exact ih hb' l hl
    | some x =>
      obtain ⟨s1, l1⟩ := x
      rw [hs] at hl
      rcases List.mem_append.1 hl with hl | hl
      · rw [(win_fine hs).own l hl]; exact hb b List.mem_cons_self
      · exact ih hb' l hl

/-- The dead do not move. -/
theorem win_moves {as bs : List (CAct Act)} {o : Nat} (hd : dead nobody as o = true) :
    ∀ b ∈ moves actor (fun _ => false) (dead nobody as) bs, actor b ≠ o := by
  intro b hb e
  rcases (mem_moves hb).2 with h | h
  · cases h
  · rw [e, hd] at h; cases h

/-! ## Who has a mutex -/

theorem winMidway_own {p : Pc} (h : winMidway p = true) : WinRwLock.ownW p = true := by
  cases p <;> first | (cases h; done) | rfl | exact h

theorem winLeaving_own {p : Pc} (h : winLeaving p = true) : WinRwLock.ownM p = true := by
  cases p <;> first | (cases h; done) | rfl

theorem win_none_enters {o : Nat} (bs : List Act) : ∀ {as : List Act}, winMidway ((exec false init as).1.pc o) = true →
    (∀ b ∈ bs, actor b ≠ o) → ∀ t, Label.enterR t ∉ (exec false (exec false init as).1 bs).2 ∧
      Label.enterW t ∉ (exec false (exec false init as).1 bs).2 := by
  induction bs with
  | nil => intro as _ _ t; exact ⟨(fun h => nomatch h), fun h => nomatch h⟩
  | cons b bs ih =>
    intro as hm hb t
    have hb' := fun x hx => hb x (List.mem_cons_of_mem _ hx)
    rw [exec]
    cases hs : step false (exec false init as).1 b with
    | none => exact ih hm hb' t
    | some x =>
      obtain ⟨s1, l1⟩ := x
      have hf := win_fine hs
      have e : exec false init (as ++ [b]) = (s1, (exec false init as).2 ++ l1) := by
        rw [WinRwLock.exec_app]
        simp [exec, hs]
      have ih' := ih (as := as ++ [b]) (by
        rw [e]
        show winMidway (s1.pc o) = true
        rw [hf.pc o (Ne.symm (hb b List.mem_cons_self))]
        exact hm) hb' t
      rw [e] at ih'
      dsimp only at ih' ⊢
      obtain ⟨R, W, tw, tc, hi, -⟩ := WinRwLock.reach as
      have key : ∀ l ∈ l1, who l = t → WinRwLock.ownW ((exec false init as).1.pc t) = true → False := by
        intro l hl e1 e2
        have h1 := hi.hw t (.inl e2)
        rw [hi.hw o (.inl (winMidway_own hm))] at h1
        cases h1
        exact hb b List.mem_cons_self ((hf.own l hl).symm.trans e1)
      constructor
      · intro hx
        rcases List.mem_append.1 hx with hx | hx
        · exact key _ hx rfl (by rw [hf.rd t hx]; rfl)
        · exact ih'.1 hx
      · intro hx
        rcases List.mem_append.1 hx with hx | hx
        · exact key _ hx rfl (by rw [hf.wr t hx]; rfl)
        · exact ih'.2 hx

theorem win_none_leaves {o : Nat} (bs : List Act) : ∀ {as : List Act}, winLeaving ((exec false init as).1.pc o) = true →
    (∀ b ∈ bs, actor b ≠ o) → ∀ t, Label.enterR t ∉ (exec false (exec false init as).1 bs).2 ∧
      Label.exitR t ∉ (exec false (exec false init as).1 bs).2 := by
  induction bs with
  | nil => intro as _ _ t; exact ⟨(fun h => nomatch h), fun h => nomatch h⟩
  | cons b bs ih =>
    intro as hm hb t
    have hb' := fun x hx => hb x (List.mem_cons_of_mem _ hx)
    rw [exec]
    cases hs : step false (exec false init as).1 b with
    | none => exact ih hm hb' t
    | some x =>
      obtain ⟨s1, l1⟩ := x
      have hf := win_fine hs
      have e : exec false init (as ++ [b]) = (s1, (exec false init as).2 ++ l1) := by
        rw [WinRwLock.exec_app]
        simp [exec, hs]
      have ih' := ih (as := as ++ [b]) (by
        rw [e]
        show winLeaving (s1.pc o) = true
        rw [hf.pc o (Ne.symm (hb b List.mem_cons_self))]
        exact hm) hb' t
      rw [e] at ih'
      dsimp only at ih' ⊢
      obtain ⟨R, W, tw, tc, hi, -⟩ := WinRwLock.reach as
      have key : ∀ l ∈ l1, who l = t → WinRwLock.ownM ((exec false init as).1.pc t) = true → False := by
        intro l hl e1 e2
        have h1 := hi.hc t e2
        rw [hi.hc o (winLeaving_own hm)] at h1
        cases h1
        exact hb b List.mem_cons_self ((hf.own l hl).symm.trans e1)
      constructor
      · intro hx
        rcases List.mem_append.1 hx with hx | hx
        · exact key _ hx rfl (by rw [hf.rd t hx]; rfl)
        · exact ih'.1 hx
      · intro hx
        rcases List.mem_append.1 hx with hx | hx
        · exact key _ hx rfl (by rw [hf.ex t hx]; rfl)
        · exact ih'.2 hx

theorem late_unread {t : Nat} (q : List Label) : ∀ {p : Option Phase}, p ≠ some .unread →
    Label.exitR t ∉ q → (phase t p q).isSome = true → Label.retReadUnlock t true ∉ q := by
  induction q with
  | nil => intro p _ _ _ h; cases h
  | cons l q ih =>
    intro p hp he hs hm
    rw [phase] at hs
    cases p with
    | none =>
      have : (if who l = t then (none : Option Phase).bind (move · l) else none) = none := by split <;> rfl
      rw [this, rw_phase_none] at hs
      cases hs
    | some p =>
      rcases List.mem_cons.1 hm with e | hm
      · subst e
        rw [if_pos (show who (Label.retReadUnlock t true) = t from rfl)] at hs
        have : (some p).bind (move · (Label.retReadUnlock t true)) = none := by
          cases p <;> first | rfl | exact absurd rfl hp
        rw [this, rw_phase_none] at hs
        cases hs
      · refine ih ?_ (fun h => he (List.mem_cons_of_mem _ h)) hs hm
        split
        · rename_i hl
          intro e
          simp only [Option.bind_some, move] at e
          split at e <;> first | (cases e; done) | skip
          exact he (by rw [← hl]; exact List.mem_cons_self)
        · exact hp

/-! ## The others can go on -/

/-- If no system call failed, nobody is inside the lock, and nobody, killed or not, has stopped while it has one of the
internal mutexes, a live thread outside gets a read lock, and it gets the write lock. -/
theorem win_rw_lives_partial (as : List (CAct Act))
    (hf : ∀ p a q, moves actor (fun _ => false) nobody as = p ++ a :: q → faults (exec false init p).1 a = false)
    (hn : atomic ([], none) (winRwRun init nobody as).2 = some ([], none))
    (hq : ∀ u, winMidway ((winRwRun init nobody as).1.pc u) = false ∧ winLeaving ((winRwRun init nobody as).1.pc u) = false)
    (t : Nat) (hl : dead nobody as t = false) (hp : (winRwRun init nobody as).1.pc t = .idle) :
    (winRwRun (winRwRun init nobody as).1 (dead nobody as) (([Act.callRead t] ++ List.replicate 7 (Act.run t)).map .act)).2
      = [.callRead t, .enterR t, .retRead t true] ∧
    (winRwRun (winRwRun init nobody as).1 (dead nobody as) ([.callWrite t, .run t, .run t, .run t].map .act)).2
      = [.callWrite t, .enterW t, .retWrite t true] := by
  unfold winRwRun at hn hq hp ⊢
  obtain ⟨R, W, tw, tc, hi, hv, hr⟩ := WinRwLock.exec_live _ WinRwLock.init_inv WinRwLock.init_live hf
  obtain ⟨R', W', tw', tc', hi', ha', hr', -⟩ := WinRwLock.reach (moves actor (fun _ => false) nobody as)
  rw [hn] at ha'
  cases ha'
  have hR : R = [] := by
    refine List.eq_nil_of_length_eq_zero ?_
    rw [hr, List.length_nil, ← hr', List.length_nil]
  generalize hx : (exec false init (moves actor (fun _ => false) nobody as)).1 = s at *
  have nW : ∀ u, WinRwLock.ownW (s.pc u) ≠ true := by
    intro u e
    have := (hq u).1
    cases hc : s.pc u <;> rw [hc] at e this <;> first | (cases e; done) | (cases this; done) | skip
    rename_i r
    cases r <;> first | (cases e; done) | (cases this; done)
  have nM : ∀ u, WinRwLock.ownM (s.pc u) ≠ true := by
    intro u e
    have h1 := (hq u).1
    have h2 := (hq u).2
    cases hc : s.pc u <;> rw [hc] at e h1 h2 <;> first | (cases e; done) | (cases h1; done) | (cases h2; done)
  have ws : s.wsem = true := by
    rcases hv.w with e | ⟨u, e | e⟩
    · exact e
    · exact absurd e (nW u)
    · have := hi'.w1 u (.inl e); cases this
  have ms : s.msem = true := by
    rcases hv.c with e | ⟨u, e⟩
    · exact e
    · exact absurd e (nM u)
  have ev : s.ev = true := by
    rcases hv.e with e | e | ⟨u, e⟩
    · exact e
    · exact absurd hR e
    · exact absurd (by rw [e]; rfl) (nM u)
  have rs : 0 < s.rsem := by
    rcases hv.x1 with ⟨u, e⟩ | e
    · exact absurd (WinRwLock.holdS_own e) (nM u)
    · rw [hR, List.length_nil] at e
      rw [show s.rsem = WinRwLock.longMax from e]
      decide
  constructor
  · rw [moves_own hl _ (by simp [actor, List.replicate])]
    exact WinRwLock.win_read_free s t hp ws ms rs
  · rw [moves_own hl _ (by simp [actor])]
    exact WinRwLock.win_write_free s t hp ws ev

/-! ## And when they cannot -/

theorem win_rw_history {as : List (CAct Act)} {o : Nat} (hd : dead nobody as o = true) {x : Inside}
    (ho : atomic ([], none) (winRwRun init nobody as).2 = some x) (bs : List (CAct Act)) :
    (∀ l ∈ (winRwRun (winRwRun init nobody as).1 (dead nobody as) bs).2, who l ≠ o) ∧
    (atomic x (winRwRun (winRwRun init nobody as).1 (dead nobody as) bs).2).isSome = true ∧
      ∀ t, RAgree x t (phase t (some .out) (winRwRun init nobody as).2) ∧
        (phase t (phase t (some .out) (winRwRun init nobody as).2)
          (winRwRun (winRwRun init nobody as).1 (dead nobody as) bs).2).isSome = true := by
  unfold winRwRun at ho ⊢
  obtain ⟨h1, h2⟩ := WinRwLock.win_linearizable (moves actor (fun _ => false) nobody as ++
    moves actor (fun _ => false) (dead nobody as) bs)
  rw [WinRwLock.exec_app] at h1 h2
  dsimp only at h1 h2
  rw [RwLock.atomic_append, ho] at h1
  refine ⟨win_rw_silent _ (win_moves hd), h1, fun t => ?_⟩
  have h3 := h2 t
  rw [RwLock.phase_append] at h3
  refine ⟨ragree_after _ (h := ([], none))
    ⟨(fun e => nomatch e), (fun e => nomatch e), (fun e => absurd rfl e)⟩ ho ?_, h3⟩
  exact (WinRwLock.win_linearizable _).2 t

/-- The code breaks it when a thread is killed that has the write lock: nobody ever gets a lock again. -/
theorem win_rw_killed_writer (as : List (CAct Act)) (o : Nat) (R : List Nat) (hd : dead nobody as o = true)
    (ho : atomic ([], none) (winRwRun init nobody as).2 = some (R, some o)) (bs : List (CAct Act)) (t : Nat) :
    Label.retRead t true ∉ (winRwRun (winRwRun init nobody as).1 (dead nobody as) bs).2 ∧
      Label.retWrite t true ∉ (winRwRun (winRwRun init nobody as).1 (dead nobody as) bs).2 := by
  obtain ⟨h1, h2, h3⟩ := win_rw_history hd ho bs
  obtain ⟨h4, h5⟩ := h3 t
  have hP : (R, some o).2 = some o ∧ (R, some o).1 = [] := ⟨rfl, h4.x (fun e => nomatch e)⟩
  refine ⟨rw_none_gets (P := fun x => x.2 = some o ∧ x.1 = []) (bad := fun t => .retRead t true) writer_stays
      ?_ (fun _ => rfl) hP h1 h2 h4 h5,
    rw_none_gets (P := fun x => x.2 = some o ∧ x.1 = []) (bad := fun t => .retWrite t true) writer_stays
      ?_ (fun _ => rfl) hP h1 h2 h4 h5⟩
  · intro t x q hx hto hg
    cases q <;> first | rfl | skip
    have := hg.r rfl
    rw [hx.2] at this
    cases this
  · intro t x q hx hto hg
    cases q <;> first | rfl | skip
    have := hg.w rfl
    rw [hx.1] at this
    cases this
    exact absurd rfl hto

/-- The code breaks it when a thread is killed that has a read lock: nobody ever gets the write lock again. -/
theorem win_rw_killed_reader (as : List (CAct Act)) (o : Nat) (R : List Nat) (W : Option Nat)
    (hd : dead nobody as o = true) (ho : atomic ([], none) (winRwRun init nobody as).2 = some (R, W)) (hR : o ∈ R)
    (bs : List (CAct Act)) (t : Nat) :
    Label.retWrite t true ∉ (winRwRun (winRwRun init nobody as).1 (dead nobody as) bs).2 := by
  obtain ⟨h1, h2, h3⟩ := win_rw_history hd ho bs
  obtain ⟨h4, h5⟩ := h3 t
  refine rw_none_gets (P := fun x => o ∈ x.1) (bad := fun t => .retWrite t true) reader_stays
    ?_ (fun _ => rfl) hR h1 h2 h4 h5
  intro t x q hx hto hg
  cases q <;> first | rfl | skip
  have := hg.x (by rw [hg.w rfl]; exact fun e => nomatch e)
  rw [this] at hx
  cases hx

theorem win_rw_phase (as bs : List (CAct Act)) (t : Nat) :
    (phase t (phase t (some .out) (winRwRun init nobody as).2)
      (winRwRun (winRwRun init nobody as).1 (dead nobody as) bs).2).isSome = true := by
  have h := (WinRwLock.win_linearizable (moves actor (fun _ => false) nobody as ++
    moves actor (fun _ => false) (dead nobody as) bs)).2 t
  rw [WinRwLock.exec_app] at h
  dsimp only at h
  rwa [RwLock.phase_append] at h

/-- The code breaks it also when a thread is killed in the middle of a lock call or of `WriteUnlock`, for example
waiting for the readers in `WriteLock`: nobody enters, so no call that begins later succeeds. -/
theorem win_rw_killed_midway (as : List (CAct Act)) (o : Nat) (hd : dead nobody as o = true)
    (ho : winMidway ((winRwRun init nobody as).1.pc o) = true) (bs : List (CAct Act)) (t : Nat) (p q : List Label) :
    ((winRwRun (winRwRun init nobody as).1 (dead nobody as) bs).2 = p ++ .callRead t :: q →
      Label.retRead t true ∉ q) ∧
    ((winRwRun (winRwRun init nobody as).1 (dead nobody as) bs).2 = p ++ .callWrite t :: q →
      Label.retWrite t true ∉ q) := by
  obtain ⟨e1, e2⟩ := win_none_enters _ ho (win_moves (bs := bs) hd) t
  have h2 := win_rw_phase as bs t
  change Label.enterR t ∉ (winRwRun (winRwRun init nobody as).1 (dead nobody as) bs).2 at e1
  change Label.enterW t ∉ (winRwRun (winRwRun init nobody as).1 (dead nobody as) bs).2 at e2
  constructor
  · intro e
    rw [e] at e1 h2
    rw [RwLock.phase_append, phase, if_pos (show who (Label.callRead t) = t from rfl)] at h2
    refine late_read q ?_ (fun h => e1 (by simp [h])) h2
    cases phase t (phase t (some .out) (winRwRun init nobody as).2) p with
    | none => exact fun e => nomatch e
    | some x => cases x <;> exact fun e => nomatch e
  · intro e
    rw [e] at e2 h2
    rw [RwLock.phase_append, phase, if_pos (show who (Label.callWrite t) = t from rfl)] at h2
    refine late_write q ?_ (fun h => e2 (by simp [h])) h2
    cases phase t (phase t (some .out) (winRwRun init nobody as).2) p with
    | none => exact fun e => nomatch e
    | some x => cases x <;> exact fun e => nomatch e

/-- And when a thread is killed in the middle of `ReadUnlock`: no `ReadLock` and no `ReadUnlock` that begins later
succeeds. -/
theorem win_rw_killed_leaving (as : List (CAct Act)) (o : Nat) (hd : dead nobody as o = true)
    (ho : winLeaving ((winRwRun init nobody as).1.pc o) = true) (bs : List (CAct Act)) (t : Nat) (p q : List Label) :
    ((winRwRun (winRwRun init nobody as).1 (dead nobody as) bs).2 = p ++ .callRead t :: q →
      Label.retRead t true ∉ q) ∧
    ((winRwRun (winRwRun init nobody as).1 (dead nobody as) bs).2 = p ++ .callReadUnlock t :: q →
      Label.retReadUnlock t true ∉ q) := by
  obtain ⟨e1, e2⟩ := win_none_leaves _ ho (win_moves (bs := bs) hd) t
  have h2 := win_rw_phase as bs t
  change Label.enterR t ∉ (winRwRun (winRwRun init nobody as).1 (dead nobody as) bs).2 at e1
  change Label.exitR t ∉ (winRwRun (winRwRun init nobody as).1 (dead nobody as) bs).2 at e2
  constructor
  · intro e
    rw [e] at e1 h2
    rw [RwLock.phase_append, phase, if_pos (show who (Label.callRead t) = t from rfl)] at h2
    refine late_read q ?_ (fun h => e1 (by simp [h])) h2
    cases phase t (phase t (some .out) (winRwRun init nobody as).2) p with
    | none => exact fun e => nomatch e
    | some x => cases x <;> exact fun e => nomatch e
  · intro e
    rw [e] at e2 h2
    rw [RwLock.phase_append, phase, if_pos (show who (Label.callReadUnlock t) = t from rfl)] at h2
    refine late_unread q ?_ (fun h => e2 (by simp [h])) h2
    cases phase t (phase t (some .out) (winRwRun init nobody as).2) p with
    | none => exact fun e => nomatch e
    | some x => cases x <;> exact fun e => nomatch e

/-! ## Examples -/

/-- Thread `t` makes `n` steps. -/
def steps (t n : Nat) : List (CAct Act) := List.replicate n (.act (.run t))

/-- Thread 1 writes, thread 2 is killed while it waits for the lock, before it has anything; thread 1 unlocks. -/
def winWaiterDies : List (CAct Act) :=
  [.act (.callWrite 1)] ++ steps 1 3 ++ [.act (.callWrite 2), .kill 2, .act (.callWriteUnlock 1)] ++ steps 1 2 ++ steps 2 2

example : atomic ([], none) (winRwRun init nobody winWaiterDies).2 = some ([], none) ∧
    (winRwRun init nobody winWaiterDies).1.pc 2 = .wW ∧ (winRwRun init nobody winWaiterDies).1.pc 3 = .idle ∧
    dead nobody winWaiterDies 2 = true ∧ dead nobody winWaiterDies 3 = false := by
  decide

/-- Nothing has failed, and nobody has stopped with an internal mutex. -/
example : (∀ p a q, moves actor (fun _ => false) nobody winWaiterDies = p ++ a :: q →
      faults (exec false init p).1 a = false) ∧
    ∀ u, winMidway ((winRwRun init nobody winWaiterDies).1.pc u) = false ∧
      winLeaving ((winRwRun init nobody winWaiterDies).1.pc u) = false := by
  refine ⟨fun p a q e => ?_, fun u => ?_⟩
  · have ha : a ∈ moves actor (fun _ => false) nobody winWaiterDies := by rw [e]; simp
    have : ∀ a ∈ moves actor (fun _ => false) nobody winWaiterDies,
      (match a with | .fail _ => false | _ => true) = true := by decide
    have h := this a ha
    cases a <;> first | rfl | cases h
  · by_cases h2 : u = 2
    · subst h2; decide
    · have : (winRwRun init nobody winWaiterDies).1.pc u = .idle := by
        simp [winRwRun, moves, winWaiterDies, steps, actor, nobody, exec, step, run, init, WinRwLock.S.goto, setAt,
          List.replicate, WinRwLock.retWrite, h2]
        intro h1
        simp [h1]
      rw [this]
      exact ⟨rfl, rfl⟩

/-- Thread 1 writes and is killed; thread 2 waits. -/
def winWriterDies : List (CAct Act) :=
  [.act (.callWrite 1)] ++ steps 1 3 ++ [.kill 1, .act (.callRead 2)] ++ steps 2 4

example : atomic ([], none) (winRwRun init nobody winWriterDies).2 = some ([], some 1) ∧
    dead nobody winWriterDies 1 = true ∧ (winRwRun init nobody winWriterDies).1.pc 2 = .rW := by decide

/-- Thread 1 reads and is killed; thread 2 reads, thread 3 waits for the write lock and is killed too. -/
def winReaderDies : List (CAct Act) :=
  [.act (.callRead 1)] ++ steps 1 7 ++ [.kill 1, .act (.callRead 2)] ++ steps 2 7 ++ [.act (.callWrite 3)] ++ steps 3 4 ++
    [.kill 3]

example : atomic ([], none) (winRwRun init nobody winReaderDies).2 = some ([2, 1], none) ∧
    dead nobody winReaderDies 1 = true ∧ dead nobody winReaderDies 3 = true ∧
    winMidway ((winRwRun init nobody winReaderDies).1.pc 3) = true := by decide

/-- Two readers; thread 1 is killed in `ReadUnlock`, after giving up its lock; thread 2 cannot give up its own. -/
def winLeaverDies : List (CAct Act) :=
  [.act (.callRead 1)] ++ steps 1 7 ++ [.act (.callRead 2)] ++ steps 2 7 ++ [.act (.callReadUnlock 1)] ++ steps 1 2 ++
    [.kill 1, .act (.callReadUnlock 2)] ++ steps 2 3

example : atomic ([], none) (winRwRun init nobody winLeaverDies).2 = some ([2], none) ∧
    dead nobody winLeaverDies 1 = true ∧ winLeaving ((winRwRun init nobody winLeaverDies).1.pc 1) = true ∧
    (winRwRun init nobody winLeaverDies).1.pc 2 = .uM := by decide

end Verif.Crash
