import Verif.Progress.Sem
import Verif.Progress.Event
import Verif.RwLock.FullLemmas

/-! # The read/write lock on the real objects: positions, and what is left to do -/

namespace Verif.Progress.RwLock

open Verif.RwLock Verif.RwLock.Full
open Verif.Mutex.Full (labels_short phase_idle)

/-- The steps of thread `t`, in the lock code and in the objects. -/
def own (t : Nat) : Full.Act → Bool
  | .lock (.run u) | .lock (.fail u) => u == t
  | .enter u _ | .late u => u == t
  | .inW (.run u _) | .inW (.fail u) => u == t
  | .inC (.run u _) | .inC (.fail u) => u == t
  | .inE (.run u _) | .inE (.fail u) => u == t
  | _ => false

/-- The calls of thread `t`. -/
def call (t : Nat) : Full.Act → Bool
  | .lock (.callRead u) | .lock (.callWrite u) | .lock (.callReadUnlock u) | .lock (.callWriteUnlock u) => u == t
  | _ => false

/-- Thread `t` is blocked on the condition variable of one of the objects. -/
def asleep (t : Nat) (s : Full.S) : Bool :=
  Verif.Sem.blocked (s.w.pc t) || Verif.Sem.blocked (s.c.pc t) || Verif.Event.blocked (s.e.pc t)

/-- The clock fails in one of the semaphores while its mutex is held (sync_util.cpp 414). -/
def clock (s : Full.S) : Full.Act → Bool
  | .inW a => Sem.clock s.w a.sem
  | .inC a => Sem.clock s.c a.sem
  | _ => false

/-- Steps left, from a position outside the objects. -/
def out : Pc → Nat
  | .idle => 0
  | .rRet _ => 1
  | .rRelW _ => 9
  | .rRelC _ => 17
  | .rStore _ => 18
  | .rLoad => 19
  | .rReset => 24
  | .rC => 29
  | .rW => 34
  | .wRet _ => 1
  | .wRel => 9
  | .wE => 17
  | .wW => 22
  | .uRet _ => 1
  | .uRel _ => 9
  | .uBadRet => 1
  | .uBad => 9
  | .uFire => 14
  | .uZero => 15
  | .uStore _ => 16
  | .uLoad => 17
  | .uTest => 18
  | .uC => 23
  | .xRet => 1
  | .xRel => 9

/-- Steps left after the function of the object returned. -/
def rest : Pc → Nat
  | .rW => 29
  | .rC => 24
  | .rReset => 19
  | .rRelC _ => 9
  | .rRelW _ => 1
  | .wW => 17
  | .wE => 9
  | .wRel => 1
  | .uC => 18
  | .uFire => 9
  | .uBad => 1
  | .uRel _ => 1
  | .xRel => 1
  | _ => 0

def left (s : Full.S) (t : Nat) : Nat :=
  if outside s t then out (s.l.pc t)
  else Sem.left (s.w.pc t) + Sem.left (s.c.pc t) + Event.left (s.e.pc t) + rest (s.l.pc t)

def Good (s : Full.S) : Prop := ∃ n k, Full.Inv s n k

theorem good_init : Good Full.init := ⟨1, 1, Full.init_inv⟩

theorem good_step {free : Bool} {s s' : Full.S} {a : Full.Act} {ls : List Label} (h : Good s)
    (he : Full.step free s a = .ok (some (s', ls))) : Good s' := by
  obtain ⟨n, k, hi⟩ := h
  obtain ⟨r, hr, hs⟩ := step_same (free := free) (a := a) hi
  rw [he] at hr
  cases hr
  obtain ⟨n', k', as, hi', -⟩ := hs s' ls rfl
  exact ⟨n', k', hi'⟩

theorem outside_iff {s : Full.S} {t : Nat} :
    outside s t = true ↔ s.w.pc t = .idle ∧ s.c.pc t = .idle ∧ s.e.pc t = .idle := by
  unfold outside
  simp only [Bool.and_eq_true, decide_eq_true_eq, and_assoc]

theorem left_out {s : Full.S} {t : Nat} (hw : s.w.pc t = .idle) (hc : s.c.pc t = .idle)
    (he : s.e.pc t = .idle) : left s t = out (s.l.pc t) :=
  if_pos (outside_iff.2 ⟨hw, hc, he⟩)

theorem left_w {s : Full.S} {t : Nat} (hw : s.w.pc t ≠ .idle) (hc : s.c.pc t = .idle)
    (he : s.e.pc t = .idle) : left s t = Sem.left (s.w.pc t) + rest (s.l.pc t) := by
  unfold left
  rw [if_neg (fun h => hw (outside_iff.1 h).1), hc, he]
  rfl

theorem left_c {s : Full.S} {t : Nat} (hw : s.w.pc t = .idle) (hc : s.c.pc t ≠ .idle)
    (he : s.e.pc t = .idle) : left s t = Sem.left (s.c.pc t) + rest (s.l.pc t) := by
  unfold left
  rw [if_neg (fun h => hc (outside_iff.1 h).2.1), hw, he]
  show 0 + _ + 0 + _ = _
  omega

theorem left_e {s : Full.S} {t : Nat} (hw : s.w.pc t = .idle) (hc : s.c.pc t = .idle)
    (he : s.e.pc t ≠ .idle) : left s t = Event.left (s.e.pc t) + rest (s.l.pc t) := by
  unfold left
  rw [if_neg (fun h => he (outside_iff.1 h).2.2), hw, hc]
  show 0 + 0 + _ + _ = _
  omega

/-- `left` looks at the positions of the thread only. -/
theorem left_same {s s' : Full.S} {t : Nat} (hl : s'.l.pc t = s.l.pc t) (hw : s'.w.pc t = s.w.pc t)
    (hc : s'.c.pc t = s.c.pc t) (he : s'.e.pc t = s.e.pc t) : left s' t = left s t := by
  unfold left outside
  rw [hl, hw, hc, he]

def Effect (t : Nat) (s : Full.S) (a : Full.Act) (s' : Full.S) : Prop :=
  left s' t + (own t a).toNat ≤
    left s t + 34 * (call t a).toNat + 2 * (asleep t s' && !asleep t s).toNat

theorem idle_all {s : Full.S} {t : Nat} (h : tot s t = .out) :
    s.w.pc t = .idle ∧ s.c.pc t = .idle ∧ s.e.pc t = .idle := by
  unfold tot at h
  cases hw : stW s t <;> cases hc : stC s t <;> rw [hw, hc] at h <;> first | (cases h; done) | skip
  exact ⟨idle_w hw, idle_c hc, idle_e h⟩

/-! ## Steps of the lock code -/

theorem run_out {l l' : Verif.RwLock.S} {u : Nat} {ls : List Label} (ho : op (l.pc u) = none)
    (h : Verif.RwLock.run l u = some (l', ls)) : out (l'.pc u) + 1 ≤ out (l.pc u) := by
  have gp : ∀ (l1 : Verif.RwLock.S) (p : Pc), (l1.goto u p).pc u = p := fun l1 p => if_pos rfl
  unfold Verif.RwLock.run at h
  cases hp : l.pc u <;> rw [hp] at h ho <;> first | (cases ho; done) | dsimp only at h
  all_goals first
    | (cases h; done)
    | (cases h; rw [gp]; simp [out]; done)
    | (cases h; rw [gp]; split <;> simp [out]; done)

theorem lock_effect {free : Bool} {t : Nat} {s s' : Full.S} {a : Verif.RwLock.Act} {ls : List Label}
    (hg : Good s) (h : Full.step free s (.lock a) = .ok (some (s', ls))) : Effect t s (.lock a) s' := by
  obtain ⟨n, k, hi⟩ := hg
  unfold Full.step at h
  dsimp only at h
  split at h
  · cases h
  · rename_i ho
    have ho : op (s.l.pc (actor a)) = none := by simpa using ho
    obtain ⟨hw, hc, he⟩ := idle_all (none_out hi ho)
    cases hm : Verif.RwLock.step free s.l a with
    | none => rw [hm] at h; cases h
    | some x =>
      obtain ⟨l', l⟩ := x
      rw [hm] at h
      cases h
      unfold Effect
      by_cases e : t = actor a
      · rw [e, left_out (s := { s with l := l' }) hw hc he, left_out hw hc he]
        show out (l'.pc (actor a)) + _ ≤ _
        cases a with
        | run u =>
          have := run_out ho hm
          simp only [actor, own, call, beq_self_eq_true, Bool.toNat_true, Bool.toNat_false] at *
          omega
        | fail u =>
          unfold Verif.RwLock.step Verif.RwLock.fail at hm
          dsimp only at hm
          simp only [actor] at ho
          cases hp : s.l.pc u <;> rw [hp] at hm ho <;> first | (cases ho; done) | (cases hm; done)
        | _ =>
          unfold Verif.RwLock.step at hm
          dsimp only at hm
          split at hm <;> cases hm
          refine Nat.le_trans ?_ (Nat.le_add_right _ _)
          simp only [actor, own, call, beq_self_eq_true, Bool.toNat_true, Bool.toNat_false]
          rw [goto_eq]
          simp only [out]
          omega
      · rw [left_same (s := s) (s' := { s with l := l' }) (step_moves hm e) rfl rfl rfl]
        have : own t (.lock a) = false := by
          cases a <;> first | rfl | exact beq_eq_false_iff_ne.mpr (fun h => e h.symm)
        rw [this]
        simp only [Bool.toNat_false]
        omega

theorem late_effect {free : Bool} {t u : Nat} {s s' : Full.S} {ls : List Label}
    (h : Full.step free s (.late u) = .ok (some (s', ls))) : Effect t s (.late u) s' := by
  have h : late s u = some (s', ls) := Except.ok.inj h
  unfold late at h
  split at h
  · rename_i ho
    obtain ⟨hw, hc, he⟩ := outside_iff.1 ho
    have key : ∀ p, out p + 1 ≤ out (s.l.pc u) → Effect t s (.late u) { s with l := s.l.goto u p } := by
      intro p hp
      unfold Effect
      by_cases e : t = u
      · rw [e, left_out (s := { s with l := s.l.goto u p }) hw hc he, left_out hw hc he]
        show out ((s.l.goto u p).pc u) + _ ≤ _
        rw [goto_eq]
        simp only [own, call, beq_self_eq_true, Bool.toNat_true, Bool.toNat_false]
        omega
      · rw [left_same (s := s) (s' := { s with l := s.l.goto u p }) (goto_ne _ _ e) rfl rfl rfl]
        have : own t (.late u) = false := beq_eq_false_iff_ne.mpr (fun h => e h.symm)
        rw [this]
        simp only [Bool.toNat_false]
        omega
    split at h <;> cases h <;> rename_i hp <;> refine key _ ?_ <;> rw [hp] <;> simp [out]
  · cases h

/-! ## Calls of the objects -/

theorem enterW {t u w : Nat} {s s' : Full.S} (hu : s.w.pc u = .idle) (hc : s.c.pc u = .idle)
    (he : s.e.pc u = .idle) {p : Verif.Sem.Pc} (hp : p ≠ .idle)
    (hl : Sem.left p + rest (s.l.pc u) + 1 ≤ out (s.l.pc u))
    (h : s' = { s with w := s.w.goto u p }) : Effect t s (.enter u w) s' := by
  subst h
  unfold Effect
  have hpc : (s.w.goto u p).pc u = p := if_pos rfl
  by_cases e : t = u
  · subst e
    rw [left_w (s := { s with w := s.w.goto t p }) (by show (s.w.goto t p).pc t ≠ _; rw [hpc]; exact hp) hc he,
      left_out hu hc he]
    show Sem.left ((s.w.goto t p).pc t) + _ + _ ≤ _
    rw [hpc]
    simp only [own, call, beq_self_eq_true, Bool.toNat_true, Bool.toNat_false]
    omega
  · rw [left_same (s := s) (s' := { s with w := s.w.goto u p }) rfl (if_neg e) rfl rfl]
    have : own t (.enter u w) = false := beq_eq_false_iff_ne.mpr (fun h => e h.symm)
    rw [this]
    simp only [Bool.toNat_false]
    omega

theorem enterC {t u w : Nat} {s s' : Full.S} (hu : s.c.pc u = .idle) (hw : s.w.pc u = .idle)
    (he : s.e.pc u = .idle) {p : Verif.Sem.Pc} (hp : p ≠ .idle)
    (hl : Sem.left p + rest (s.l.pc u) + 1 ≤ out (s.l.pc u))
    (h : s' = { s with c := s.c.goto u p }) : Effect t s (.enter u w) s' := by
  subst h
  unfold Effect
  have hpc : (s.c.goto u p).pc u = p := if_pos rfl
  by_cases e : t = u
  · subst e
    rw [left_c (s := { s with c := s.c.goto t p }) hw (by show (s.c.goto t p).pc t ≠ _; rw [hpc]; exact hp) he,
      left_out hw hu he]
    show Sem.left ((s.c.goto t p).pc t) + _ + _ ≤ _
    rw [hpc]
    simp only [own, call, beq_self_eq_true, Bool.toNat_true, Bool.toNat_false]
    omega
  · rw [left_same (s := s) (s' := { s with c := s.c.goto u p }) rfl rfl (if_neg e) rfl]
    have : own t (.enter u w) = false := beq_eq_false_iff_ne.mpr (fun h => e h.symm)
    rw [this]
    simp only [Bool.toNat_false]
    omega

theorem enterE {t u w : Nat} {s s' : Full.S} (hu : s.e.pc u = .idle) (hw : s.w.pc u = .idle)
    (hc : s.c.pc u = .idle) {p : Verif.Event.Pc} (hp : p ≠ .idle)
    (hl : Event.left p + rest (s.l.pc u) + 1 ≤ out (s.l.pc u))
    (h : s' = { s with e := s.e.goto u p }) : Effect t s (.enter u w) s' := by
  subst h
  unfold Effect
  have hpc : (s.e.goto u p).pc u = p := if_pos rfl
  by_cases e : t = u
  · subst e
    rw [left_e (s := { s with e := s.e.goto t p }) hw hc (by show (s.e.goto t p).pc t ≠ _; rw [hpc]; exact hp),
      left_out hw hc hu]
    show Event.left ((s.e.goto t p).pc t) + _ + _ ≤ _
    rw [hpc]
    simp only [own, call, beq_self_eq_true, Bool.toNat_true, Bool.toNat_false]
    omega
  · rw [left_same (s := s) (s' := { s with e := s.e.goto u p }) rfl rfl rfl (if_neg e)]
    have : own t (.enter u w) = false := beq_eq_false_iff_ne.mpr (fun h => e h.symm)
    rw [this]
    simp only [Bool.toNat_false]
    omega

theorem enter_effect {free : Bool} {t u w : Nat} {s s' : Full.S} {ls : List Label} (hg : Good s)
    (h : Full.step free s (.enter u w) = .ok (some (s', ls))) : Effect t s (.enter u w) s' := by
  obtain ⟨n, k, hi⟩ := hg
  unfold Full.step at h
  dsimp only at h
  cases ho : op (s.l.pc u) with
  | none => rw [ho] at h; cases h
  | some o =>
    rw [ho] at h
    cases o with
    | waitW =>
      obtain ⟨h1, h2⟩ := only_w hi ho (.inl rfl)
      by_cases hu : s.w.pc u = .idle
      · dsimp only [atW, Verif.Sem.step] at h
        rw [if_pos hu] at h
        cases h
        refine enterW hu (idle_c h1) (idle_e h2) (p := .wLock w) (fun e => nomatch e) ?_ rfl
        cases hp : s.l.pc u <;> rw [hp] at ho <;> cases ho <;> simp [Sem.left, rest, out]
      · dsimp only [atW, Verif.Sem.step] at h
        rw [if_neg hu] at h
        cases h
    | relW =>
      obtain ⟨h1, h2⟩ := only_w hi ho (.inr rfl)
      by_cases hu : s.w.pc u = .idle
      · dsimp only [atW, Verif.Sem.step] at h
        rw [if_pos hu] at h
        cases h
        refine enterW hu (idle_c h1) (idle_e h2) (p := .rLock) (fun e => nomatch e) ?_ rfl
        cases hp : s.l.pc u <;> rw [hp] at ho <;> cases ho <;> simp [Sem.left, rest, out]
      · dsimp only [atW, Verif.Sem.step] at h
        rw [if_neg hu] at h
        cases h
    | waitC =>
      obtain ⟨h1, h2⟩ := only_c hi ho (.inl rfl)
      by_cases hu : s.c.pc u = .idle
      · dsimp only [atC, Verif.Sem.step] at h
        rw [if_pos hu] at h
        cases h
        refine enterC hu (idle_w h1) (idle_e h2) (p := .wLock (limit (s.l.pc u) w)) (fun e => nomatch e) ?_ rfl
        cases hp : s.l.pc u <;> rw [hp] at ho <;> cases ho <;> simp [Sem.left, rest, out]
      · dsimp only [atC, Verif.Sem.step] at h
        rw [if_neg hu] at h
        cases h
    | relC =>
      obtain ⟨h1, h2⟩ := only_c hi ho (.inr rfl)
      by_cases hu : s.c.pc u = .idle
      · dsimp only [atC, Verif.Sem.step] at h
        rw [if_pos hu] at h
        cases h
        refine enterC hu (idle_w h1) (idle_e h2) (p := .rLock) (fun e => nomatch e) ?_ rfl
        cases hp : s.l.pc u <;> rw [hp] at ho <;> cases ho <;> simp [Sem.left, rest, out]
      · dsimp only [atC, Verif.Sem.step] at h
        rw [if_neg hu] at h
        cases h
    | waitE =>
      obtain ⟨h1, h2⟩ := only_e hi ho (.inl rfl)
      by_cases hu : s.e.pc u = .idle
      · dsimp only [atE, Verif.Event.step] at h
        rw [if_pos hu] at h
        cases h
        refine enterE hu (idle_w h1) (idle_c h2) (p := .wLock w) (fun e => nomatch e) ?_ rfl
        cases hp : s.l.pc u <;> rw [hp] at ho <;> cases ho <;> simp [Event.left, rest, out]
      · dsimp only [atE, Verif.Event.step] at h
        rw [if_neg hu] at h
        cases h
    | fire =>
      obtain ⟨h1, h2⟩ := only_e hi ho (.inr (.inl rfl))
      by_cases hu : s.e.pc u = .idle
      · dsimp only [atE, Verif.Event.step] at h
        rw [if_pos hu] at h
        cases h
        refine enterE hu (idle_w h1) (idle_c h2) (p := .fLock) (fun e => nomatch e) ?_ rfl
        cases hp : s.l.pc u <;> rw [hp] at ho <;> cases ho <;> simp [Event.left, rest, out]
      · dsimp only [atE, Verif.Event.step] at h
        rw [if_neg hu] at h
        cases h
    | reset =>
      obtain ⟨h1, h2⟩ := only_e hi ho (.inr (.inr rfl))
      by_cases hu : s.e.pc u = .idle
      · dsimp only [atE, Verif.Event.step] at h
        rw [if_pos hu] at h
        cases h
        refine enterE hu (idle_w h1) (idle_c h2) (p := .tManual) (fun e => nomatch e) ?_ rfl
        cases hp : s.l.pc u <;> rw [hp] at ho <;> cases ho <;> simp [Event.left, rest, out]
      · dsimp only [atE, Verif.Event.step] at h
        rw [if_neg hu] at h
        cases h

/-! ## Steps in the objects -/

/-- What a step in an object does to a thread: it stays in or out of the object and where it is in the lock,
or returns. -/
def Link (l l' : Verif.RwLock.S) (t : Nat) (a b : Stat) : Prop :=
  ((a = .out ↔ b = .out) ∧ l'.pc t = l.pc t) ∨ (a ≠ .out ∧ b = .out ∧ out (l'.pc t) ≤ rest (l.pc t))

theorem link_trans {l : Verif.RwLock.S} {t : Nat} {ev : Ev} {a b : Stat} (h : Trans ev a b) (hc : ev ≠ .call)
    (ho : ∀ o, a.op = some o → op (l.pc t) = some o) : Link l (react l (t, ev)).1 t a b := by
  cases h with
  | call o => exact absurd rfl hc
  | effect o => exact .inl ⟨⟨(fun e => nomatch e), (fun e => nomatch e)⟩, rfl⟩
  | ret o =>
    refine .inr ⟨(fun e => nomatch e), rfl, ?_⟩
    have := ho o rfl
    show out ((l.goto t (next (l.pc t))).pc t) ≤ _
    rw [goto_eq]
    cases hp : l.pc t <;> rw [hp] at this <;> first | (cases this; done) | (simp [next, out, rest]; done)
  | fail o =>
    refine .inr ⟨(fun e => nomatch e), rfl, ?_⟩
    have := ho o rfl
    unfold react
    dsimp only
    unfold Verif.RwLock.fail
    cases hp : l.pc t <;> rw [hp] at this <;> first | (cases this; done) | skip
    all_goals
      dsimp only
      rw [goto_eq]
      simp [out, rest]

theorem react_other {l : Verif.RwLock.S} {t : Nat} {x : Nat × Ev} (h : x.1 ≠ t) :
    (react l x).1.pc t = l.pc t := by
  obtain ⟨u, ev⟩ := x
  have g : ∀ p, (l.goto u p).pc t = l.pc t := fun p => goto_ne _ _ (Ne.symm h)
  cases ev with
  | call => rfl
  | effect => rfl
  | ret r =>
    cases r with
    | true => exact g _
    | false =>
      unfold react
      dsimp only
      unfold Verif.RwLock.fail
      cases hp : l.pc u <;> first | rfl | exact g _

theorem sem_link {l : Verif.RwLock.S} {t n : Nat} {a b : Op} {q q' : Verif.Sem.S} {act : Verif.Sem.Act}
    {ls : List Verif.Sem.Label} (hi : Verif.Sem.Inv q n) (hs : Verif.Sem.step q act = .ok (some (q', ls)))
    (hn : ∀ u, Sem.call u act = false)
    (ho : ∀ o, (semStat a b (Verif.Sem.phOf (q.pc t))).op = some o → op (l.pc t) = some o) :
    Link l (reacts l (ls.map ofSem)).1 t (semStat a b (Verif.Sem.phOf (q.pc t)))
      (semStat a b (Verif.Sem.phOf (q'.pc t))) := by
  obtain ⟨r, hr, hok⟩ := Verif.Sem.step_ok (a := act) hi
  rw [hs] at hr
  cases hr
  obtain ⟨n', hi', -, -, hph⟩ := hok q' ls rfl
  have hph := hph t
  rcases labels_short hs with rfl | ⟨x, rfl, -, hcall⟩
  · have : Verif.Sem.phOf (q'.pc t) = Verif.Sem.phOf (q.pc t) := (Option.some.inj hph).symm
    rw [this]
    exact .inl ⟨Iff.rfl, rfl⟩
  · show Link l (reacts l [ofSem x]).1 t _ _
    rw [reacts_one]
    by_cases hw : Verif.Sem.Spec.who x = t
    · rw [Verif.Sem.phase_one hw] at hph
      change Verif.Sem.Spec.move _ x = _ at hph
      have hnc : (ofSem x).2 ≠ .call := by
        intro e
        rcases hcall (sem_call e) with ⟨v, w', ha, -⟩ | ⟨v, ha, -⟩
        · have := hn v; rw [ha] at this; simp [Sem.call] at this
        · have := hn v; rw [ha] at this; simp [Sem.call] at this
      rw [who_sem, hw]
      exact link_trans (sem_trans hph) hnc ho
    · rw [Verif.Mutex.Full.phase_other hw] at hph
      have : Verif.Sem.phOf (q'.pc t) = Verif.Sem.phOf (q.pc t) := (Option.some.inj hph).symm
      rw [this]
      refine .inl ⟨Iff.rfl, react_other ?_⟩
      rw [who_sem]
      exact hw

theorem ev_link {l : Verif.RwLock.S} {t : Nat} {q q' : Verif.Event.S} {act : Verif.Event.Act}
    {ls : List Verif.Event.Label} (hi : Verif.Event.Inv q) (hs : Verif.Event.step q act = .ok (some (q', ls)))
    (hn : ∀ u, Event.call u act = false)
    (ho : ∀ o, (evStat (Verif.Event.phOf (q.pc t))).op = some o → op (l.pc t) = some o) :
    Link l (reacts l (ls.map ofEvent)).1 t (evStat (Verif.Event.phOf (q.pc t)))
      (evStat (Verif.Event.phOf (q'.pc t))) := by
  obtain ⟨r, hr, hok⟩ := Verif.Event.step_ok (a := act) hi
  rw [hs] at hr
  cases hr
  obtain ⟨hi', -, -, hph⟩ := hok q' ls rfl
  have hph := hph t
  rcases ev_labels hs with rfl | ⟨x, rfl, hcall⟩
  · have : Verif.Event.phOf (q'.pc t) = Verif.Event.phOf (q.pc t) := (Option.some.inj hph).symm
    rw [this]
    exact .inl ⟨Iff.rfl, rfl⟩
  · show Link l (reacts l [ofEvent x]).1 t _ _
    rw [reacts_one]
    by_cases hw : Verif.Event.Spec.who x = t
    · rw [Verif.Event.Spec.phase, if_pos hw] at hph
      change Verif.Event.Spec.move _ x = _ at hph
      have hnc : (ofEvent x).2 ≠ .call := by
        intro e
        rcases hcall (ev_call e) with ⟨v, w', ha, -⟩ | ⟨v, ha, -⟩ | ⟨v, ha, -⟩ <;>
          (have := hn v; rw [ha] at this; simp [Event.call] at this)
      rw [who_ev, hw]
      exact link_trans (ev_trans hph) hnc ho
    · rw [ev_phase_other (Ne.symm hw)] at hph
      have : Verif.Event.phOf (q'.pc t) = Verif.Event.phOf (q.pc t) := (Option.some.inj hph).symm
      rw [this]
      refine .inl ⟨Iff.rfl, react_other ?_⟩
      rw [who_ev]
      exact hw

theorem stW_idle {s : Full.S} {t : Nat} : stW s t = .out ↔ s.w.pc t = .idle :=
  ⟨idle_w, fun h => by unfold stW; rw [h]; rfl⟩

theorem stC_idle {s : Full.S} {t : Nat} : stC s t = .out ↔ s.c.pc t = .idle :=
  ⟨idle_c, fun h => by unfold stC; rw [h]; rfl⟩

theorem stE_idle {s : Full.S} {t : Nat} : stE s t = .out ↔ s.e.pc t = .idle :=
  ⟨idle_e, fun h => by unfold stE; rw [h]; rfl⟩

theorem has_op {a : Stat} (h : a ≠ .out) : ∃ o, a.op = some o := by
  cases a with
  | out => exact absurd rfl h
  | pending o => exact ⟨o, rfl⟩
  | done o => exact ⟨o, rfl⟩

theorem w_effect {t : Nat} {s s' : Full.S} {a : Inner} {ls : List Label} (hg : Good s)
    (h : atW s a.sem = .ok (some (s', ls))) : Effect t s (.inW a) s' := by
  obtain ⟨n, k, hi⟩ := hg
  unfold atW at h
  cases hs : Verif.Sem.step s.w a.sem with
  | error e => rw [hs] at h; cases h
  | ok r =>
    rw [hs, ok_bind] at h
    cases r with
    | none => cases h
    | some x =>
      obtain ⟨q, l⟩ := x
      cases h
      have hn : ∀ u, Sem.call u a.sem = false := fun u => by cases a <;> rfl
      have ho : own t (.inW a) = Sem.own t a.sem := by cases a <;> rfl
      have hf := Sem.step_effect (t := t) hs
      unfold Sem.Effect Sem.asleep at hf
      have hlink : Link s.l (reacts s.l (l.map ofSem)).1 t (stW s t) (stW { s with w := q } t) :=
        sem_link hi.w hs hn (fun o hx => (one_w hi hx).1)
      unfold Effect
      rw [ho]
      rw [hn t] at hf
      simp only [Bool.toNat_false] at hf
      rcases hlink with ⟨h1, h2⟩ | ⟨h1, h2, h3⟩
      · rw [stW_idle, stW_idle] at h1
        have h1 : s.w.pc t = .idle ↔ q.pc t = .idle := h1
        by_cases hz : s.w.pc t = .idle
        · have hq := h1.1 hz
          rw [left_same (s := s) (s' := ⟨(reacts s.l (l.map ofSem)).1, q, s.c, s.e⟩) h2 (hq.trans hz.symm) rfl rfl]
          rw [hz, hq] at hf
          have : (Verif.Sem.blocked .idle && !Verif.Sem.blocked .idle).toNat = 0 := rfl
          rw [this] at hf
          omega
        · obtain ⟨o, hop⟩ := has_op (fun e => hz (stW_idle.1 e))
          obtain ⟨-, hC, hE⟩ := one_w hi hop
          have hc := stC_idle.1 hC
          have he := stE_idle.1 hE
          have hq : q.pc t ≠ .idle := fun e => hz (h1.2 e)
          rw [left_w hz hc he, left_w (s := ⟨(reacts s.l (l.map ofSem)).1, q, s.c, s.e⟩) hq hc he]
          have hb : asleep t s = Verif.Sem.blocked (s.w.pc t) := by
            unfold asleep
            rw [hc, he]
            exact Bool.or_false _ |>.trans (Bool.or_false _)
          have hb' : asleep t ⟨(reacts s.l (l.map ofSem)).1, q, s.c, s.e⟩ = Verif.Sem.blocked (q.pc t) := by
            unfold asleep
            dsimp only
            rw [hc, he]
            exact Bool.or_false _ |>.trans (Bool.or_false _)
          rw [hb, hb']
          show Sem.left (q.pc t) + rest ((reacts s.l (l.map ofSem)).1.pc t) + _ ≤ _
          rw [h2]
          omega
      · obtain ⟨o, hop⟩ := has_op h1
        obtain ⟨-, hC, hE⟩ := one_w hi hop
        have hc := stC_idle.1 hC
        have he := stE_idle.1 hE
        have hq : q.pc t = .idle := stW_idle.1 h2
        have hz : s.w.pc t ≠ .idle := fun e => h1 (stW_idle.2 e)
        rw [left_w hz hc he, left_out (s := ⟨(reacts s.l (l.map ofSem)).1, q, s.c, s.e⟩) hq hc he]
        show out ((reacts s.l (l.map ofSem)).1.pc t) + _ ≤ _
        rw [hq] at hf
        have : (Verif.Sem.blocked .idle && !Verif.Sem.blocked (s.w.pc t)).toNat = 0 := rfl
        rw [this] at hf
        have : Sem.left .idle = 0 := rfl
        omega

theorem c_effect {t : Nat} {s s' : Full.S} {a : Inner} {ls : List Label} (hg : Good s)
    (h : atC s a.sem = .ok (some (s', ls))) : Effect t s (.inC a) s' := by
  obtain ⟨n, k, hi⟩ := hg
  unfold atC at h
  cases hs : Verif.Sem.step s.c a.sem with
  | error e => rw [hs] at h; cases h
  | ok r =>
    rw [hs, ok_bind] at h
    cases r with
    | none => cases h
    | some x =>
      obtain ⟨q, l⟩ := x
      cases h
      have hn : ∀ u, Sem.call u a.sem = false := fun u => by cases a <;> rfl
      have ho : own t (.inC a) = Sem.own t a.sem := by cases a <;> rfl
      have hf := Sem.step_effect (t := t) hs
      unfold Sem.Effect Sem.asleep at hf
      have hlink : Link s.l (reacts s.l (l.map ofSem)).1 t (stC s t) (stC { s with c := q } t) :=
        sem_link hi.c hs hn (fun o hx => (one_c hi hx).1)
      unfold Effect
      rw [ho]
      rw [hn t] at hf
      simp only [Bool.toNat_false] at hf
      rcases hlink with ⟨h1, h2⟩ | ⟨h1, h2, h3⟩
      · rw [stC_idle, stC_idle] at h1
        have h1 : s.c.pc t = .idle ↔ q.pc t = .idle := h1
        by_cases hz : s.c.pc t = .idle
        · have hq := h1.1 hz
          rw [left_same (s := s) (s' := ⟨(reacts s.l (l.map ofSem)).1, s.w, q, s.e⟩) h2 rfl (hq.trans hz.symm) rfl]
          rw [hz, hq] at hf
          have : (Verif.Sem.blocked .idle && !Verif.Sem.blocked .idle).toNat = 0 := rfl
          rw [this] at hf
          omega
        · obtain ⟨o, hop⟩ := has_op (fun e => hz (stC_idle.1 e))
          obtain ⟨-, hW, hE⟩ := one_c hi hop
          have hw := stW_idle.1 hW
          have he := stE_idle.1 hE
          have hq : q.pc t ≠ .idle := fun e => hz (h1.2 e)
          rw [left_c hw hz he, left_c (s := ⟨(reacts s.l (l.map ofSem)).1, s.w, q, s.e⟩) hw hq he]
          have hb : asleep t s = Verif.Sem.blocked (s.c.pc t) := by
            unfold asleep
            rw [hw, he]
            exact (Bool.or_false _).trans (Bool.false_or _)
          have hb' : asleep t ⟨(reacts s.l (l.map ofSem)).1, s.w, q, s.e⟩ = Verif.Sem.blocked (q.pc t) := by
            unfold asleep
            dsimp only
            rw [hw, he]
            exact (Bool.or_false _).trans (Bool.false_or _)
          rw [hb, hb']
          show Sem.left (q.pc t) + rest ((reacts s.l (l.map ofSem)).1.pc t) + _ ≤ _
          rw [h2]
          omega
      · obtain ⟨o, hop⟩ := has_op h1
        obtain ⟨-, hW, hE⟩ := one_c hi hop
        have hw := stW_idle.1 hW
        have he := stE_idle.1 hE
        have hq : q.pc t = .idle := stC_idle.1 h2
        have hz : s.c.pc t ≠ .idle := fun e => h1 (stC_idle.2 e)
        rw [left_c hw hz he, left_out (s := ⟨(reacts s.l (l.map ofSem)).1, s.w, q, s.e⟩) hw hq he]
        show out ((reacts s.l (l.map ofSem)).1.pc t) + _ ≤ _
        rw [hq] at hf
        have : (Verif.Sem.blocked .idle && !Verif.Sem.blocked (s.c.pc t)).toNat = 0 := rfl
        rw [this] at hf
        have : Sem.left .idle = 0 := rfl
        omega

theorem e_effect {t : Nat} {s s' : Full.S} {a : Inner} {ls : List Label} (hg : Good s)
    (h : atE s a.event = .ok (some (s', ls))) : Effect t s (.inE a) s' := by
  obtain ⟨n, k, hi⟩ := hg
  unfold atE at h
  cases hs : Verif.Event.step s.e a.event with
  | error e => rw [hs] at h; cases h
  | ok r =>
    rw [hs, ok_bind] at h
    cases r with
    | none => cases h
    | some x =>
      obtain ⟨q, l⟩ := x
      cases h
      have hn : ∀ u, Event.call u a.event = false := fun u => by cases a <;> rfl
      have ho : own t (.inE a) = Event.own t a.event := by cases a <;> rfl
      have hf := Event.step_effect (t := t) hs
      unfold Event.Effect Event.asleep at hf
      have hlink : Link s.l (reacts s.l (l.map ofEvent)).1 t (stE s t) (stE { s with e := q } t) :=
        ev_link hi.e hs hn (fun o hx => (one_e hi hx).1)
      unfold Effect
      rw [ho]
      rw [hn t] at hf
      simp only [Bool.toNat_false] at hf
      rcases hlink with ⟨h1, h2⟩ | ⟨h1, h2, h3⟩
      · rw [stE_idle, stE_idle] at h1
        have h1 : s.e.pc t = .idle ↔ q.pc t = .idle := h1
        by_cases hz : s.e.pc t = .idle
        · have hq := h1.1 hz
          rw [left_same (s := s) (s' := ⟨(reacts s.l (l.map ofEvent)).1, s.w, s.c, q⟩) h2 rfl rfl (hq.trans hz.symm)]
          rw [hz, hq] at hf
          have : (Verif.Event.blocked .idle && !Verif.Event.blocked .idle).toNat = 0 := rfl
          rw [this] at hf
          omega
        · obtain ⟨o, hop⟩ := has_op (fun e => hz (stE_idle.1 e))
          obtain ⟨-, hW, hC⟩ := one_e hi hop
          have hc := stC_idle.1 hC
          have hw := stW_idle.1 hW
          have hq : q.pc t ≠ .idle := fun e => hz (h1.2 e)
          rw [left_e hw hc hz, left_e (s := ⟨(reacts s.l (l.map ofEvent)).1, s.w, s.c, q⟩) hw hc hq]
          have hb : asleep t s = Verif.Event.blocked (s.e.pc t) := by
            unfold asleep
            rw [hw, hc]
            exact Bool.false_or _
          have hb' : asleep t ⟨(reacts s.l (l.map ofEvent)).1, s.w, s.c, q⟩ = Verif.Event.blocked (q.pc t) := by
            unfold asleep
            dsimp only
            rw [hw, hc]
            exact Bool.false_or _
          rw [hb, hb']
          show Event.left (q.pc t) + rest ((reacts s.l (l.map ofEvent)).1.pc t) + _ ≤ _
          rw [h2]
          omega
      · obtain ⟨o, hop⟩ := has_op h1
        obtain ⟨-, hW, hC⟩ := one_e hi hop
        have hc := stC_idle.1 hC
        have hw := stW_idle.1 hW
        have hq : q.pc t = .idle := stE_idle.1 h2
        have hz : s.e.pc t ≠ .idle := fun e => h1 (stE_idle.2 e)
        rw [left_e hw hc hz, left_out (s := ⟨(reacts s.l (l.map ofEvent)).1, s.w, s.c, q⟩) hw hc hq]
        show out ((reacts s.l (l.map ofEvent)).1.pc t) + _ ≤ _
        rw [hq] at hf
        have : (Verif.Event.blocked .idle && !Verif.Event.blocked (s.e.pc t)).toNat = 0 := rfl
        rw [this] at hf
        have : Event.left .idle = 0 := rfl
        omega

theorem step_effect {free : Bool} {t : Nat} {s s' : Full.S} {a : Full.Act} {ls : List Label} (hg : Good s)
    (h : Full.step free s a = .ok (some (s', ls))) : Effect t s a s' := by
  cases a with
  | lock a => exact lock_effect hg h
  | enter u w => exact enter_effect hg h
  | late u => exact late_effect h
  | inW a => exact w_effect hg h
  | inC a => exact c_effect hg h
  | inE a => exact e_effect hg h

/-! ## Who holds the locks -/

def Held (s : Full.S) : Prop := Sem.Held s.w ∧ Sem.Held s.c ∧ Event.Held s.e

theorem atW_held {s s' : Full.S} {a : Verif.Sem.Act} {ls : List Label} (hh : Held s)
    (hb : Sem.clock s.w a = false) (h : atW s a = .ok (some (s', ls))) : Held s' := by
  unfold atW at h
  cases hs : Verif.Sem.step s.w a with
  | error e => rw [hs] at h; cases h
  | ok r =>
    rw [hs, ok_bind] at h
    cases r with
    | none => cases h
    | some x =>
      obtain ⟨q, l⟩ := x
      cases h
      exact ⟨Sem.step_held hh.1 hb hs, hh.2⟩

theorem atC_held {s s' : Full.S} {a : Verif.Sem.Act} {ls : List Label} (hh : Held s)
    (hb : Sem.clock s.c a = false) (h : atC s a = .ok (some (s', ls))) : Held s' := by
  unfold atC at h
  cases hs : Verif.Sem.step s.c a with
  | error e => rw [hs] at h; cases h
  | ok r =>
    rw [hs, ok_bind] at h
    cases r with
    | none => cases h
    | some x =>
      obtain ⟨q, l⟩ := x
      cases h
      exact ⟨hh.1, Sem.step_held hh.2.1 hb hs, hh.2.2⟩

theorem atE_held {s s' : Full.S} {a : Verif.Event.Act} {ls : List Label} (hh : Held s)
    (h : atE s a = .ok (some (s', ls))) : Held s' := by
  unfold atE at h
  cases hs : Verif.Event.step s.e a with
  | error e => rw [hs] at h; cases h
  | ok r =>
    rw [hs, ok_bind] at h
    cases r with
    | none => cases h
    | some x =>
      obtain ⟨q, l⟩ := x
      cases h
      exact ⟨hh.1, hh.2.1, Event.step_held hh.2.2 hs⟩

theorem step_held {free : Bool} {s s' : Full.S} {a : Full.Act} {ls : List Label} (hh : Held s)
    (hb : clock s a = false) (h : Full.step free s a = .ok (some (s', ls))) : Held s' := by
  cases a with
  | lock a =>
    unfold Full.step at h
    dsimp only at h
    split at h
    · cases h
    · cases hm : Verif.RwLock.step free s.l a with
      | none => rw [hm] at h; cases h
      | some x =>
        obtain ⟨l', l⟩ := x
        rw [hm] at h
        cases h
        exact hh
  | enter u w =>
    unfold Full.step at h
    dsimp only at h
    cases ho : op (s.l.pc u) with
    | none => rw [ho] at h; cases h
    | some o =>
      rw [ho] at h
      cases o <;> first | exact atW_held hh rfl h | exact atC_held hh rfl h | exact atE_held hh h
  | late u =>
    have h : late s u = some (s', ls) := Except.ok.inj h
    unfold late at h
    split at h
    · split at h <;> cases h <;> exact hh
    · cases h
  | inW a => exact atW_held hh hb h
  | inC a => exact atC_held hh hb h
  | inE a => exact atE_held hh h

/-! ## Who can go on -/

/-- One of the steps of thread `t`, other than a failure, is possible. -/
def Goes (free : Bool) (s : Full.S) (t : Nat) : Prop :=
  ∃ a r, (a = .lock (.run t) ∨ (∃ w, a = .enter t w) ∨
    ∃ pick, a = .inW (.run t pick) ∨ a = .inC (.run t pick) ∨ a = .inE (.run t pick)) ∧
    Full.step free s a = .ok (some r)

theorem goes_w {free : Bool} {s : Full.S} {t pick : Nat} {r : Verif.Sem.S × List Verif.Sem.Label}
    (h : Verif.Sem.run s.w t pick = .ok (some r)) : Goes free s t := by
  refine ⟨.inW (.run t pick), ?_, .inr (.inr ⟨pick, .inl rfl⟩), ?_⟩
  rotate_left
  · show (do let r ← Verif.Sem.run s.w t pick; _ : CRes _) = _
    rw [h]
    rfl

theorem goes_c {free : Bool} {s : Full.S} {t pick : Nat} {r : Verif.Sem.S × List Verif.Sem.Label}
    (h : Verif.Sem.run s.c t pick = .ok (some r)) : Goes free s t := by
  refine ⟨.inC (.run t pick), ?_, .inr (.inr ⟨pick, .inr (.inl rfl)⟩), ?_⟩
  rotate_left
  · show (do let r ← Verif.Sem.run s.c t pick; _ : CRes _) = _
    rw [h]
    rfl

theorem goes_e {free : Bool} {s : Full.S} {t pick : Nat} {r : Verif.Event.S × List Verif.Event.Label}
    (h : Verif.Event.run s.e t pick = .ok (some r)) : Goes free s t := by
  refine ⟨.inE (.run t pick), ?_, .inr (.inr ⟨pick, .inr (.inr rfl)⟩), ?_⟩
  rotate_left
  · show (do let r ← Verif.Event.run s.e t pick; _ : CRes _) = _
    rw [h]
    rfl

/-- A thread outside the objects can go on. -/
theorem goes_out {free : Bool} {s : Full.S} {t : Nat} (h : outside s t = true) (h1 : s.l.pc t ≠ .idle) :
    Goes free s t := by
  obtain ⟨hw, hc, he⟩ := outside_iff.1 h
  cases ho : op (s.l.pc t) with
  | none =>
    have hr : ∃ r, Verif.RwLock.run s.l t = some r := by
      unfold Verif.RwLock.run
      cases hp : s.l.pc t <;> rw [hp] at ho h1 <;>
        first | (cases ho; done) | exact absurd rfl h1 | exact ⟨_, rfl⟩
    obtain ⟨r, hr⟩ := hr
    refine ⟨.lock (.run t), ({ s with l := r.1 }, r.2), .inl rfl, ?_⟩
    refine (if_neg (by show ¬ (op (s.l.pc t)).isSome = true; rw [ho]; exact fun e => nomatch e)).trans ?_
    show Except.ok (inLock s (Verif.RwLock.run s.l t)) = _
    rw [hr]
    rfl
  | some o =>
    refine ⟨.enter t 0, ?_⟩
    unfold Full.step
    dsimp only
    rw [ho]
    cases o <;> dsimp only [atW, atC, atE, Verif.Sem.step, Verif.Event.step]
    all_goals
      first | rw [if_pos hw] | rw [if_pos hc] | rw [if_pos he]
      exact ⟨_, .inr (.inl ⟨0, rfl⟩), rfl⟩

theorem goes {free : Bool} {s : Full.S} {t : Nat} (hg : Good s) (hh : Held s) (h1 : s.l.pc t ≠ .idle)
    (h2 : asleep t s = false) : Goes free s t ∨
      ∃ u, u ≠ t ∧ (s.w.owner = some u ∨ s.c.owner = some u ∨ s.e.owner = some u) ∧ Goes free s u := by
  obtain ⟨n, k, hi⟩ := hg
  unfold asleep at h2
  simp only [Bool.or_eq_false_iff] at h2
  obtain ⟨⟨bw, bc⟩, be⟩ := h2
  by_cases hw : s.w.pc t = .idle
  · by_cases hc : s.c.pc t = .idle
    · by_cases he : s.e.pc t = .idle
      · exact .inl (goes_out (outside_iff.2 ⟨hw, hc, he⟩) h1)
      · rcases Event.goes hi.e hh.2.2 he be with ⟨pick, r, hr⟩ | ⟨u, hut, hu, pick, r, hr⟩
        · exact .inl (goes_e hr)
        · exact .inr ⟨u, hut, .inr (.inr hu), goes_e hr⟩
    · rcases Sem.goes hi.c hh.2.1 hc bc with ⟨pick, r, hr⟩ | ⟨u, hut, hu, pick, r, hr⟩
      · exact .inl (goes_c hr)
      · exact .inr ⟨u, hut, .inr (.inl hu), goes_c hr⟩
  · rcases Sem.goes hi.w hh.1 hw bw with ⟨pick, r, hr⟩ | ⟨u, hut, hu, pick, r, hr⟩
    · exact .inl (goes_w hr)
    · exact .inr ⟨u, hut, .inl hu, goes_w hr⟩

end Verif.Progress.RwLock
