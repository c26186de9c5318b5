import Verif.RwLock.FullModel
import Verif.RwLock.Live
import Verif.Mutex.FullLemmas
import Verif.Event.Wake
import Verif.Sem.Wake

/-! # The lock on the real objects does what the lock on the atomic objects does -/

namespace Verif.RwLock.Full

/-- What a thread is doing in an object. -/
inductive Stat where
  | out
  | pending (o : Op)
  | done (o : Op)
  deriving DecidableEq

def Stat.isDone : Stat → Bool
  | .done _ => true
  | _ => false

def Stat.op : Stat → Option Op
  | .out => none
  | .pending o => some o
  | .done o => some o

/-- The flags of the atomic objects. -/
structure Flags where
  w : Bool
  c : Bool
  e : Bool

/-- An operation is possible with flags `f` and leaves flags `f'`. -/
def Does (f f' : Flags) : Op → Prop
  | .waitW => f.w = true ∧ f' = { f with w := false }
  | .relW => f' = { f with w := true }
  | .waitC => f.c = true ∧ f' = { f with c := false }
  | .relC => f' = { f with c := true }
  | .waitE => f.e = true ∧ f' = f
  | .fire => f' = { f with e := true }
  | .reset => f' = { f with e := false }

/-- The state of the lock on the atomic objects. -/
def absG (l : RwLock.S) (σ : Nat → Stat) (f : Flags) : RwLock.S :=
  { l with
    wsem := f.w, csem := f.c, ev := f.e
    pc := fun t => if (σ t).isDone then next (l.pc t) else l.pc t }

/-- Threads inside an object are where the lock calls it. -/
def CohG (l : RwLock.S) (σ : Nat → Stat) : Prop := ∀ t o, (σ t).op = some o → op (l.pc t) = some o

/-- How an event moves the status. -/
inductive Trans : Ev → Stat → Stat → Prop
  | call (o : Op) : Trans .call .out (.pending o)
  | effect (o : Op) : Trans .effect (.pending o) (.done o)
  | ret (o : Op) : Trans (.ret true) (.done o) .out
  | fail (o : Op) : Trans (.ret false) (.pending o) .out

theorem ext {a b : RwLock.S} (h1 : a.wsem = b.wsem) (h2 : a.csem = b.csem) (h3 : a.ev = b.ev)
    (h4 : a.rc = b.rc) (h5 : ∀ t, a.pc t = b.pc t) (h6 : a.rd = b.rd) (h7 : a.wr = b.wr) : a = b := by
  obtain ⟨a1, a2, a3, a4, a5, a6, a7⟩ := a
  obtain ⟨b1, b2, b3, b4, b5, b6, b7⟩ := b
  cases h1; cases h2; cases h3; cases h4; cases funext h5; cases h6; cases h7; rfl

theorem goto_eq (s : RwLock.S) (t : Nat) (p : Pc) : (s.goto t p).pc t = p := if_pos rfl

theorem goto_ne (s : RwLock.S) {t u : Nat} (p : Pc) (h : u ≠ t) : (s.goto t p).pc u = s.pc u := if_neg h

/-- The status of thread `t` changes, and perhaps where it is. -/
theorem absG_goto {l : RwLock.S} {σ σ' : Nat → Stat} {f f' : Flags} {t : Nat} {p q : Pc}
    (hσ : ∀ u, u ≠ t → σ' u = σ u) (hq : (if (σ' t).isDone then next p else p) = q) :
    ({ absG l σ f with wsem := f'.w, csem := f'.c, ev := f'.e } : RwLock.S).goto t q
      = absG (l.goto t p) σ' f' := by
  refine ext rfl rfl rfl rfl (fun u => ?_) rfl rfl
  by_cases hu : u = t
  · subst hu
    rw [goto_eq]
    show q = if (σ' u).isDone then next ((l.goto u p).pc u) else (l.goto u p).pc u
    rw [goto_eq, hq]
  · rw [goto_ne _ _ hu]
    show (if (σ u).isDone then next (l.pc u) else l.pc u) =
      if (σ' u).isDone then next ((l.goto t p).pc u) else (l.goto t p).pc u
    rw [goto_ne _ _ hu, hσ u hu]

/-- Only the status changes. -/
theorem absG_same {l : RwLock.S} {σ σ' : Nat → Stat} {f : Flags} {t : Nat}
    (hσ : ∀ u, u ≠ t → σ' u = σ u) (hd : (σ' t).isDone = (σ t).isDone) :
    absG l σ' f = absG l σ f := by
  refine ext rfl rfl rfl rfl (fun u => ?_) rfl rfl
  show (if (σ' u).isDone then next (l.pc u) else l.pc u) = if (σ u).isDone then next (l.pc u) else l.pc u
  by_cases hu : u = t
  · rw [hu, hd]
  · rw [hσ u hu]

theorem absG_pc {l : RwLock.S} {σ : Nat → Stat} {f : Flags} {t : Nat} (h : (σ t).isDone = false) :
    (absG l σ f).pc t = l.pc t := by
  show (if (σ t).isDone then _ else _) = _
  rw [h]; rfl

theorem exec_run {free : Bool} {s s' : RwLock.S} {t : Nat} {ls : List Label}
    (h : run s t = some (s', ls)) : RwLock.exec free s [.run t] = (s', ls) := by
  show (match run s t with | none => _ | some (s', l) => _) = _
  rw [h]
  show (s', ls ++ []) = _
  rw [List.append_nil]

theorem exec_fail {free : Bool} {s s' : RwLock.S} {t : Nat} {ls : List Label}
    (h : fail s t = some (s', ls)) : RwLock.exec free s [.fail t] = (s', ls) := by
  show (match fail s t with | none => _ | some (s', l) => _) = _
  rw [h]
  show (s', ls ++ []) = _
  rw [List.append_nil]

theorem exec_one {free : Bool} {s s' : RwLock.S} {a : RwLock.Act} {ls : List Label}
    (h : RwLock.step free s a = some (s', ls)) : RwLock.exec free s [a] = (s', ls) := by
  rw [RwLock.exec, h]
  show (s', ls ++ []) = _
  rw [List.append_nil]

/-- The effect of an operation on the atomic objects. -/
theorem run_op {l : RwLock.S} {σ : Nat → Stat} {f f' : Flags} {t : Nat} {o : Op}
    (hs : (σ t).isDone = false) (ho : op (l.pc t) = some o) (hd : Does f f' o) :
    run (absG l σ f) t =
      some (({ absG l σ f with wsem := f'.w, csem := f'.c, ev := f'.e } : RwLock.S).goto t
        (next (l.pc t)), ghosts t (l.pc t)) := by
  unfold run
  rw [absG_pc hs]
  cases hp : l.pc t <;> rw [hp] at ho <;> cases ho
  all_goals
    first
    | (obtain ⟨h1, h2⟩ := hd
       rw [h2]
       first
       | (show (if f.w then _ else _) = _; rw [if_pos h1]; rfl)
       | (show (if f.c then _ else _) = _; rw [if_pos h1]; rfl)
       | (show (if f.e then _ else _) = _; rw [if_pos h1]; rfl))
    | (rw [show f' = _ from hd]; rfl)

/-- A failing operation. -/
theorem fail_op {p : Pc} {o : Op} (t : Nat) (ho : op p = some o) :
    ∃ q ls, ∀ s : RwLock.S, s.pc t = p → fail s t = some (s.goto t q, ls) := by
  cases p <;> cases ho <;> exact ⟨_, _, fun s e => by unfold fail; rw [e]⟩

/-- At most one action, and no failure that does harm. -/
def SoftL (s : RwLock.S) (as : List RwLock.Act) : Prop :=
  as = [] ∨ ∃ a, as = [a] ∧ ∀ t, a = .fail t → soft (s.pc t) = true

theorem SoftL.run {s : RwLock.S} {t : Nat} : SoftL s [.run t] := Or.inr ⟨_, rfl, (fun _ e => nomatch e)⟩

theorem SoftL.nil {s : RwLock.S} : SoftL s [] := Or.inl rfl

/-- The flags change only with an effect. -/
def Moved (ev : Ev) (f f' : Flags) (o : Op) : Prop :=
  match ev with
  | .effect => Does f f' o
  | _ => f' = f

theorem react_ok {free : Bool} {l : RwLock.S} {σ σ' : Nat → Stat} {f f' : Flags} {t : Nat} {ev : Ev}
    (hσ : ∀ u, u ≠ t → σ' u = σ u) (hc : CohG l σ) (htr : Trans ev (σ t) (σ' t))
    (hcall : ∀ o, (σ' t).op = some o → op (l.pc t) = some o)
    (hf : ∀ o, (σ t).op = some o ∨ (σ' t).op = some o → Moved ev f f' o) :
    (∃ as, RwLock.exec free (absG l σ f) as = (absG (react l (t, ev)).1 σ' f', (react l (t, ev)).2) ∧
      ((ev = .ret false → soft (l.pc t) = true) → SoftL (absG l σ f) as)) ∧
    CohG (react l (t, ev)).1 σ' := by
  have cohs : ∀ q, (∀ o, (σ' t).op = some o → op q = some o) → CohG (l.goto t q) σ' := by
    intro q hq u o hu
    by_cases hut : u = t
    · subst hut; rw [goto_eq]; exact hq o hu
    · rw [goto_ne _ _ hut]; rw [hσ u hut] at hu; exact hc u o hu
  have coh0 : CohG l σ' := by
    intro u o hu
    by_cases hut : u = t
    · subst hut; exact hcall o hu
    · rw [hσ u hut] at hu; exact hc u o hu
  generalize h1 : σ t = a at htr hf
  generalize h2 : σ' t = b at htr hcall hf
  cases htr with
  | call o =>
    refine ⟨⟨[], ?_, fun _ => .nil⟩, coh0⟩
    show (_, _) = (_, _)
    rw [show f' = f from hf o (Or.inr rfl), show (react l (t, .call)).1 = l from rfl, absG_same hσ (by rw [h1, h2]; rfl)]; rfl
  | effect o =>
    refine ⟨⟨[.run t], exec_run ?_, fun _ => .run⟩, coh0⟩
    rw [run_op (by rw [h1]; rfl) (hc t o (by rw [h1]; rfl)) (hf o (Or.inl rfl))]
    have : (l.goto t (l.pc t)) = l := ext rfl rfl rfl rfl (fun u => by
      by_cases hut : u = t
      · subst hut; rw [goto_eq]
      · rw [goto_ne _ _ hut]) rfl rfl
    rw [absG_goto (p := l.pc t) hσ (by rw [h2]; rfl), this]; rfl
  | ret o =>
    have hff := hf o (Or.inl rfl)
    refine ⟨⟨[], ?_, fun _ => .nil⟩, cohs _ (by rw [h2]; exact fun _ e => nomatch e)⟩
    show (_, _) = (absG (l.goto t (next (l.pc t))) σ' f', _)
    rw [show f' = f from hff, ← absG_goto (l := l) (f := f) (q := next (l.pc t)) hσ (by rw [h2]; rfl)]
    congr 1
    refine ext rfl rfl rfl rfl (fun u => ?_) rfl rfl
    by_cases hut : u = t
    · subst hut
      rw [goto_eq]
      show (if (σ u).isDone then _ else _) = _
      rw [h1]; rfl
    · rw [goto_ne _ _ hut]
  | fail o =>
    have hff := hf o (Or.inl rfl)
    obtain ⟨q, ls, hq⟩ := fail_op t (hc t o (by rw [h1]; rfl))
    have hr : react l (t, .ret false) = (l.goto t q, ls) := by
      unfold react; dsimp only; rw [hq l rfl]
    rw [hr]
    have hpc : (absG l σ f).pc t = l.pc t := absG_pc (by rw [h1]; rfl)
    refine ⟨⟨[.fail t], exec_fail ?_, fun hs => Or.inr ⟨_, rfl, fun u e => by
      cases e; rw [hpc]; exact hs rfl⟩⟩, cohs _ (by rw [h2]; exact fun _ e => nomatch e)⟩
    rw [hq _ (absG_pc (by rw [h1]; rfl)), ← absG_goto (l := l) (f := f) (q := q) hσ (by rw [h2]; rfl),
      show f' = f from hff]
    rfl

/-- A result of the lock code, seen on the atomic objects. -/
def lift (σ : Nat → Stat) (f : Flags) : Option (RwLock.S × List Label) → Option (RwLock.S × List Label)
  | none => none
  | some (l, ls) => some (absG l σ f, ls)

theorem goto_lift {l l1 a1 : RwLock.S} {σ : Nat → Stat} {f : Flags} {t : Nat} {p : Pc} {ls : List Label}
    (hs : (σ t).isDone = false) (hl : l1.pc = l.pc) (e1 : a1 = absG l1 σ f) :
    some (a1.goto t p, ls) = lift σ f (some (l1.goto t p, ls)) := by
  show some (_, _) = some (_, _)
  rw [← absG_goto (l := l1) (σ := σ) (f := f) (q := p) (fun _ _ => rfl) (by rw [hs]; rfl), e1]
  rfl

theorem step_lift {free : Bool} {l : RwLock.S} {σ : Nat → Stat} {f : Flags} {a : RwLock.Act}
    (hs : (σ (actor a)).isDone = false) (ho : op (l.pc (actor a)) = none) :
    RwLock.step free (absG l σ f) a = lift σ f (RwLock.step free l a) := by
  have hp := absG_pc (l := l) (f := f) hs
  cases a with
  | callRead t =>
    unfold RwLock.step
    change (absG l σ f).pc t = l.pc t at hp
    dsimp only
    rw [hp]
    split
    · exact goto_lift hs rfl rfl
    · rfl
  | callWrite t =>
    unfold RwLock.step
    change (absG l σ f).pc t = l.pc t at hp
    dsimp only
    rw [hp]
    split
    · exact goto_lift hs rfl rfl
    · rfl
  | callReadUnlock t =>
    unfold RwLock.step
    change (absG l σ f).pc t = l.pc t at hp
    dsimp only
    rw [hp]
    by_cases hc : l.pc t = .idle ∧ (free = true ∨ 0 < l.rd t)
    · rw [if_pos hc]
      refine (if_pos hc).trans ?_
      exact goto_lift (l := l) (l1 := { l with rd := setAt l.rd t (l.rd t - 1) }) hs rfl rfl
    · rw [if_neg hc]
      exact if_neg hc
  | callWriteUnlock t =>
    unfold RwLock.step
    change (absG l σ f).pc t = l.pc t at hp
    dsimp only
    rw [hp]
    by_cases hc : l.pc t = .idle ∧ (free = true ∨ l.wr t = true)
    · rw [if_pos hc]
      refine (if_pos hc).trans ?_
      exact goto_lift (l := l) (l1 := { l with wr := setAt l.wr t false }) hs rfl rfl
    · rw [if_neg hc]
      exact if_neg hc
  | run t =>
    change run _ t = lift σ f (run l t)
    unfold run
    change (absG l σ f).pc t = l.pc t at hp
    rw [hp]
    change op (l.pc t) = none at ho
    cases hq : l.pc t <;> rw [hq] at ho <;> first | cases ho | skip
    · rfl
    · exact goto_lift hs rfl rfl
    · exact goto_lift (l := l) (l1 := { l with rc := _ }) hs rfl rfl
    · exact goto_lift (l := l) (l1 := { l with rd := _ }) hs rfl rfl
    · exact goto_lift (l := l) (l1 := { l with wr := _ }) hs rfl rfl
    · exact goto_lift hs rfl rfl
    · exact goto_lift hs rfl rfl
    · exact goto_lift (l := l) (l1 := { l with rc := _ }) hs rfl rfl
    · exact goto_lift hs rfl rfl
    · exact goto_lift hs rfl rfl
    · exact goto_lift hs rfl rfl
    · exact goto_lift hs rfl rfl
  | fail t =>
    change fail _ t = lift σ f (fail l t)
    unfold fail
    change (absG l σ f).pc t = l.pc t at hp
    rw [hp]
    change op (l.pc t) = none at ho
    cases hq : l.pc t <;> rw [hq] at ho <;> first | rfl | cases ho

theorem goto_moves {l l1 l' : RwLock.S} {t u : Nat} {p : Pc} {ls ls' : List Label}
    (h : some (l1.goto t p, ls) = some (l', ls')) (hl : l1.pc = l.pc) (hu : u ≠ t) :
    l'.pc u = l.pc u := by
  cases h
  rw [goto_ne _ _ hu, hl]

/-- A step of the lock moves only its own thread. -/
theorem step_moves {free : Bool} {l l' : RwLock.S} {a : RwLock.Act} {ls : List Label}
    (h : RwLock.step free l a = some (l', ls)) {u : Nat} (hu : u ≠ actor a) : l'.pc u = l.pc u := by
  cases a with
  | callRead t =>
    unfold RwLock.step at h; dsimp only at h
    split at h
    · exact goto_moves h rfl hu
    · cases h
  | callWrite t =>
    unfold RwLock.step at h; dsimp only at h
    split at h
    · exact goto_moves h rfl hu
    · cases h
  | callReadUnlock t =>
    unfold RwLock.step at h; dsimp only at h
    split at h
    · exact goto_moves h rfl hu
    · cases h
  | callWriteUnlock t =>
    unfold RwLock.step at h; dsimp only at h
    split at h
    · exact goto_moves h rfl hu
    · cases h
  | run t =>
    unfold RwLock.step at h; dsimp only at h
    unfold run at h
    split at h <;> first | (cases h; done) | exact goto_moves h rfl hu | skip
    all_goals
      split at h
      · exact goto_moves h rfl hu
      · cases h
  | fail t =>
    unfold RwLock.step at h; dsimp only at h
    unfold fail at h
    split at h <;> first | (cases h; done) | exact goto_moves h rfl hu

/-! ## The objects -/

open Mutex.Full (labels_short phase_other)

/-- Status in a semaphore with the operations `a` (wait) and `b` (release). -/
def semStat (a b : Op) : Sem.Spec.Phase → Stat
  | .out => .out
  | .waiting => .pending a
  | .took => .done a
  | .releasing => .pending b
  | .gave _ => .done b

/-- Status in the event. -/
def evStat : Event.Spec.Phase → Stat
  | .out => .out
  | .waiting => .pending .waitE
  | .passed => .done .waitE
  | .firing => .pending .fire
  | .fired => .done .fire
  | .resetting => .pending .reset
  | .reset => .done .reset

theorem sem_trans {a b : Op} {p p' : Sem.Spec.Phase} {l : Sem.Label}
    (h : Sem.Spec.move p l = some p') : Trans (ofSem l).2 (semStat a b p) (semStat a b p') := by
  cases l with
  | callWait t w => cases p <;> cases h; exact .call _
  | callRelease t => cases p <;> cases h; exact .call _
  | take t => cases p <;> cases h; exact .effect _
  | give t k => cases p <;> cases h; exact .effect _
  | retWait t r => cases r <;> cases p <;> cases h <;> first | exact .ret _ | exact .fail _
  | retRelease t r k =>
    cases r with
    | false => cases p <;> cases h; exact .fail _
    | true =>
      obtain ⟨rfl, h1⟩ := Mutex.Full.move_rel h
      rw [show p = .gave k from h1]; exact .ret _

theorem ev_trans {p p' : Event.Spec.Phase} {l : Event.Label}
    (h : Event.Spec.move p l = some p') : Trans (ofEvent l).2 (evStat p) (evStat p') := by
  cases l with
  | callWait t w => cases p <;> cases h; exact .call _
  | callFire t => cases p <;> cases h; exact .call _
  | callReset t => cases p <;> cases h; exact .call _
  | pass t => cases p <;> cases h; exact .effect _
  | fire t => cases p <;> cases h; exact .effect _
  | reset t => cases p <;> cases h; exact .effect _
  | retWait t r => cases r <;> cases p <;> cases h <;> first | exact .ret _ | exact .fail _
  | retFire t r => cases r <;> cases p <;> cases h <;> first | exact .ret _ | exact .fail _
  | retReset t r => cases r <;> cases p <;> cases h <;> first | exact .ret _ | exact .fail _

/-- What a semaphore label says about the value. -/
def SemMoved (ev : Ev) (a b : Op) (n n' : Nat) (o : Op) : Prop :=
  match ev with
  | .effect => (o = a ∧ n = 1 ∧ n' = 0) ∨ (o = b ∧ n' = 1)
  | _ => n' = n

theorem sem_moved {a b : Op} {p p' : Sem.Spec.Phase} {l : Sem.Label} {n n' : Nat} (hn : n ≤ 1)
    (ha : Sem.Spec.atomic 1 n [l] = some n') (h : Sem.Spec.move p l = some p') (o : Op)
    (ho : (semStat a b p).op = some o ∨ (semStat a b p').op = some o) :
    SemMoved (ofSem l).2 a b n n' o := by
  cases l with
  | take t =>
    obtain ⟨rfl, rfl⟩ := Mutex.Full.move_take h
    have ho : o = a := by rcases ho with ho | ho <;> exact (Option.some.inj ho).symm
    change (if 0 < n then some (n - 1) else none) = some n' at ha
    by_cases h0 : 0 < n
    · rw [if_pos h0] at ha
      have := Option.some.inj ha
      exact Or.inl ⟨ho, by omega, by omega⟩
    · rw [if_neg h0] at ha; cases ha
  | give t k =>
    obtain ⟨rfl, rfl⟩ := Mutex.Full.move_give h
    have ho : o = b := by rcases ho with ho | ho <;> exact (Option.some.inj ho).symm
    change (if k = n then some (min 1 ((n + 1) % 4294967296)) else none) = some n' at ha
    by_cases h0 : k = n
    · rw [if_pos h0, Nat.mod_eq_of_lt (by omega)] at ha
      have := Option.some.inj ha
      exact Or.inr ⟨ho, by omega⟩
    · rw [if_neg h0] at ha; cases ha
  | callWait t w => exact (Option.some.inj ha).symm
  | callRelease t => exact (Option.some.inj ha).symm
  | retWait t r => exact (Option.some.inj ha).symm
  | retRelease t r k => exact (Option.some.inj ha).symm

/-- What an event label says about the signal. -/
def EvMoved (ev : Ev) (b b' : Bool) (o : Op) : Prop :=
  match ev with
  | .effect => (o = .waitE ∧ b = true ∧ b' = b) ∨ (o = .fire ∧ b' = true) ∨ (o = .reset ∧ b' = false)
  | _ => b' = b

theorem ev_moved {p p' : Event.Spec.Phase} {l : Event.Label} {b b' : Bool}
    (ha : Event.Spec.atomic true b [l] = some b') (h : Event.Spec.move p l = some p') (o : Op)
    (ho : (evStat p).op = some o ∨ (evStat p').op = some o) : EvMoved (ofEvent l).2 b b' o := by
  cases l with
  | pass t =>
    cases p <;> cases h
    have ho : o = .waitE := by rcases ho with ho | ho <;> exact (Option.some.inj ho).symm
    cases b with
    | false => cases ha
    | true => exact Or.inl ⟨ho, rfl, (Option.some.inj ha).symm⟩
  | fire t =>
    cases p <;> cases h
    have ho : o = .fire := by rcases ho with ho | ho <;> exact (Option.some.inj ho).symm
    exact Or.inr (Or.inl ⟨ho, (Option.some.inj ha).symm⟩)
  | reset t =>
    cases p <;> cases h
    have ho : o = .reset := by rcases ho with ho | ho <;> exact (Option.some.inj ho).symm
    exact Or.inr (Or.inr ⟨ho, (Option.some.inj ha).symm⟩)
  | callWait t w => exact (Option.some.inj ha).symm
  | callFire t => exact (Option.some.inj ha).symm
  | callReset t => exact (Option.some.inj ha).symm
  | retWait t r => exact (Option.some.inj ha).symm
  | retFire t r => exact (Option.some.inj ha).symm
  | retReset t r => exact (Option.some.inj ha).symm

def evCall : Event.Label → Bool
  | .callWait _ _ => true
  | .callFire _ => true
  | .callReset _ => true
  | _ => false

/-- A step of the event has at most one label, and only calls have call labels. -/
theorem ev_labels {s s' : Event.S} {a : Event.Act} {ls : List Event.Label}
    (h : Event.step s a = .ok (some (s', ls))) :
    ls = [] ∨ ∃ l, ls = [l] ∧ (evCall l = true →
      (∃ t w, a = .callWait t w ∧ l = .callWait t w) ∨ (∃ t, a = .callFire t ∧ l = .callFire t) ∨
      ∃ t, a = .callReset t ∧ l = .callReset t) := by
  cases a with
  | callWait t w =>
    unfold Event.step at h
    dsimp only at h
    split at h
    · cases h; exact Or.inr ⟨_, rfl, fun _ => Or.inl ⟨t, w, rfl, rfl⟩⟩
    · cases h
  | callFire t =>
    unfold Event.step at h
    dsimp only at h
    split at h
    · cases h; exact Or.inr ⟨_, rfl, fun _ => Or.inr (Or.inl ⟨t, rfl, rfl⟩)⟩
    · cases h
  | callReset t =>
    unfold Event.step at h
    dsimp only at h
    split at h
    · cases h; exact Or.inr ⟨_, rfl, fun _ => Or.inr (Or.inr ⟨t, rfl, rfl⟩)⟩
    · cases h
  | fail t =>
    unfold Event.step Event.fail at h
    dsimp only at h
    repeat' split at h
    all_goals first
      | (cases h; exact Or.inl rfl)
      | (cases h; exact Or.inr ⟨_, rfl, (fun e => nomatch e)⟩)
      | cases h
  | wake t z =>
    unfold Event.step at h
    dsimp only at h
    split at h
    · cases h; exact Or.inl rfl
    · cases h
  | run t pick =>
    unfold Event.step Event.run Event.block Event.lock Event.unlock at h
    dsimp only at h
    repeat' split at h
    all_goals first
      | (cases h; exact Or.inl rfl)
      | (cases h; exact Or.inr ⟨_, rfl, (fun e => nomatch e)⟩)
      | cases h

/-! ## The whole -/

def stW (s : S) (t : Nat) : Stat := semStat .waitW .relW (Sem.phOf (s.w.pc t))
def stC (s : S) (t : Nat) : Stat := semStat .waitC .relC (Sem.phOf (s.c.pc t))
def stE (s : S) (t : Nat) : Stat := evStat (Event.phOf (s.e.pc t))

def Stat.or : Stat → Stat → Stat
  | .out, b => b
  | a, _ => a

/-- Status of a thread in the object it is in. -/
def tot (s : S) (t : Nat) : Stat := ((stW s t).or (stC s t)).or (stE s t)

theorem stW_op {s : S} {t : Nat} {o : Op} (h : (stW s t).op = some o) : o = .waitW ∨ o = .relW := by
  unfold stW at h
  cases hp : Sem.phOf (s.w.pc t) <;> rw [hp] at h <;> cases h <;> simp

theorem stC_op {s : S} {t : Nat} {o : Op} (h : (stC s t).op = some o) : o = .waitC ∨ o = .relC := by
  unfold stC at h
  cases hp : Sem.phOf (s.c.pc t) <;> rw [hp] at h <;> cases h <;> simp

theorem stE_op {s : S} {t : Nat} {o : Op} (h : (stE s t).op = some o) :
    o = .waitE ∨ o = .fire ∨ o = .reset := by
  unfold stE at h
  cases hp : Event.phOf (s.e.pc t) <;> rw [hp] at h <;> cases h <;> simp

/-- At most one of three. -/
def One (a b c : Stat) : Prop := (a = .out ∧ b = .out) ∨ (a = .out ∧ c = .out) ∨ (b = .out ∧ c = .out)

structure Inv (s : S) (n k : Nat) : Prop where
  w : Sem.Inv s.w n
  wm : s.w.max = 1
  c : Sem.Inv s.c k
  cm : s.c.max = 1
  e : Event.Inv s.e
  em : s.e.manual = true
  coh : CohG s.l (tot s)
  one : ∀ t, One (stW s t) (stC s t) (stE s t)
  ww : Sem.W s.w n
  cw : Sem.W s.c k
  ew : Event.Inv2 false s.e

/-- Positions in a wait without limit that has not failed. -/
def sure : Sem.Pc → Bool
  | .idle => true
  | .wLock w => w == Sem.infinite
  | .wTest w => w == Sem.infinite
  | .wDec _ => true
  | .wBlocked w => w == Sem.infinite
  | .wWoken w z => w == Sem.infinite && z
  | .wRetest w => w == Sem.infinite
  | .wUnlock r => r
  | _ => false

/-- `ReadUnlock` will get the counter mutex. -/
def Sure (s : S) : Prop := ∀ t, s.l.pc t = .uC → sure (s.c.pc t) = true

def flags (s : S) (n k : Nat) : Flags := ⟨decide (n = 1), decide (k = 1), s.e.signaled⟩

def abs (s : S) (n k : Nat) : RwLock.S := absG s.l (tot s) (flags s n k)

theorem op_out {a : Stat} (h : a.op = none) : a = .out := by
  cases a <;> first | rfl | cases h

/-- Some execution of the lock on the atomic objects does the same; without failures that do harm
unless `f`. -/
def Same (free f : Bool) (s : S) (n k : Nat) (r : Option (S × List Label)) : Prop :=
  ∀ s' ls, r = some (s', ls) → ∃ n' k' as, Inv s' n' k' ∧
    RwLock.exec free (abs s n k) as = (abs s' n' k', ls) ∧
    (f = false → Sure s → SoftL (abs s n k) as ∧ Sure s')

theorem Same.none {free f : Bool} {s : S} {n k : Nat} : Same free f s n k none := fun _ _ h => nomatch h

theorem reacts_one (l : RwLock.S) (x : Nat × Ev) : reacts l [x] = react l x := by
  show (_, _ ++ []) = _
  rw [List.append_nil]; rfl

/-- A thread at an operation on the write mutex is in no other object. -/
theorem only_w {s : S} {n k t : Nat} {o : Op} (h : Inv s n k) (ho : op (s.l.pc t) = some o)
    (hw : o = .waitW ∨ o = .relW) : stC s t = .out ∧ stE s t = .out := by
  have hc := h.coh t
  rcases h.one t with ⟨h1, h2⟩ | ⟨h1, h2⟩ | h1
  · refine ⟨h2, op_out ?_⟩
    cases he : (stE s t).op with
    | none => rfl
    | some x =>
      have := hc x (by unfold tot; rw [h1, h2]; exact he)
      rw [ho] at this; cases this
      rcases stE_op he with rfl | rfl | rfl <;> rcases hw with e | e <;> cases e
  · refine ⟨op_out ?_, h2⟩
    cases he : (stC s t).op with
    | none => rfl
    | some x =>
      have := hc x (by
        unfold tot; rw [h1, h2]
        show (Stat.or (stC s t) .out).op = some x
        cases hx : stC s t <;> rw [hx] at he <;> exact he)
      rw [ho] at this; cases this
      rcases stC_op he with rfl | rfl <;> rcases hw with e | e <;> cases e
  · exact h1

theorem only_c {s : S} {n k t : Nat} {o : Op} (h : Inv s n k) (ho : op (s.l.pc t) = some o)
    (hw : o = .waitC ∨ o = .relC) : stW s t = .out ∧ stE s t = .out := by
  have hc := h.coh t
  rcases h.one t with ⟨h1, h2⟩ | h1 | ⟨h1, h2⟩
  · refine ⟨h1, op_out ?_⟩
    cases he : (stE s t).op with
    | none => rfl
    | some x =>
      have := hc x (by unfold tot; rw [h1, h2]; exact he)
      rw [ho] at this; cases this
      rcases stE_op he with rfl | rfl | rfl <;> rcases hw with e | e <;> cases e
  · exact h1
  · refine ⟨op_out ?_, h2⟩
    cases he : (stW s t).op with
    | none => rfl
    | some x =>
      have := hc x (by
        unfold tot; rw [h1, h2]
        cases hx : stW s t <;> rw [hx] at he <;> exact he)
      rw [ho] at this; cases this
      rcases stW_op he with rfl | rfl <;> rcases hw with e | e <;> cases e

theorem only_e {s : S} {n k t : Nat} {o : Op} (h : Inv s n k) (ho : op (s.l.pc t) = some o)
    (hw : o = .waitE ∨ o = .fire ∨ o = .reset) : stW s t = .out ∧ stC s t = .out := by
  have hc := h.coh t
  rcases h.one t with h1 | ⟨h1, h2⟩ | ⟨h1, h2⟩
  · exact h1
  · refine ⟨h1, op_out ?_⟩
    cases he : (stC s t).op with
    | none => rfl
    | some x =>
      have := hc x (by
        unfold tot; rw [h1, h2]
        show (Stat.or (stC s t) .out).op = some x
        cases hx : stC s t <;> rw [hx] at he <;> exact he)
      rw [ho] at this; cases this
      rcases stC_op he with rfl | rfl <;> rcases hw with e | e | e <;> cases e
  · refine ⟨op_out ?_, h1⟩
    cases he : (stW s t).op with
    | none => rfl
    | some x =>
      have := hc x (by
        unfold tot; rw [h1, h2]
        cases hx : stW s t <;> rw [hx] at he <;> exact he)
      rw [ho] at this; cases this
      rcases stW_op he with rfl | rfl <;> rcases hw with e | e | e <;> cases e

theorem or_out (a : Stat) : a.or .out = a := by cases a <;> rfl

theorem tot_w {s : S} {t : Nat} (h : stC s t = .out ∧ stE s t = .out) : tot s t = stW s t := by
  unfold tot; rw [h.1, h.2, or_out, or_out]

theorem tot_c {s : S} {t : Nat} (h : stW s t = .out ∧ stE s t = .out) : tot s t = stC s t := by
  unfold tot; rw [h.1, h.2, or_out]; rfl

theorem tot_e {s : S} {t : Nat} (h : stW s t = .out ∧ stC s t = .out) : tot s t = stE s t := by
  unfold tot; rw [h.1, h.2]; rfl

theorem one_w {s : S} {n k t : Nat} {o : Op} (h : Inv s n k) (hw : (stW s t).op = some o) :
    op (s.l.pc t) = some o ∧ stC s t = .out ∧ stE s t = .out := by
  have h1 : stC s t = .out ∧ stE s t = .out := by
    rcases h.one t with ⟨h1, _⟩ | ⟨h1, _⟩ | h1
    · rw [h1] at hw; cases hw
    · rw [h1] at hw; cases hw
    · exact h1
  exact ⟨h.coh t o (by rw [tot_w h1]; exact hw), h1⟩

theorem one_c {s : S} {n k t : Nat} {o : Op} (h : Inv s n k) (hw : (stC s t).op = some o) :
    op (s.l.pc t) = some o ∧ stW s t = .out ∧ stE s t = .out := by
  have h1 : stW s t = .out ∧ stE s t = .out := by
    rcases h.one t with ⟨_, h1⟩ | h1 | ⟨h1, _⟩
    · rw [h1] at hw; cases hw
    · exact h1
    · rw [h1] at hw; cases hw
  exact ⟨h.coh t o (by rw [tot_c h1]; exact hw), h1⟩

theorem one_e {s : S} {n k t : Nat} {o : Op} (h : Inv s n k) (hw : (stE s t).op = some o) :
    op (s.l.pc t) = some o ∧ stW s t = .out ∧ stC s t = .out := by
  have h1 : stW s t = .out ∧ stC s t = .out := by
    rcases h.one t with h1 | ⟨_, h1⟩ | ⟨_, h1⟩
    · exact h1
    · rw [h1] at hw; cases hw
    · rw [h1] at hw; cases hw
  exact ⟨h.coh t o (by rw [tot_e h1]; exact hw), h1⟩

theorem Trans.from {ev : Ev} {a b : Stat} {o : Op} (h : Trans ev a b) (hb : b.op = some o) :
    a.op = some o ∨ ev = .call := by
  cases h with
  | call => exact Or.inr rfl
  | effect => exact Or.inl hb
  | ret => cases hb
  | fail => cases hb

theorem Trans.has {ev : Ev} {a b : Stat} (h : Trans ev a b) : ∃ o, a.op = some o ∨ b.op = some o := by
  cases h with
  | call o => exact ⟨o, Or.inr rfl⟩
  | effect o => exact ⟨o, Or.inl rfl⟩
  | ret o => exact ⟨o, Or.inl rfl⟩
  | fail o => exact ⟨o, Or.inl rfl⟩

theorem who_sem (l : Sem.Label) : ofSem l = (Sem.Spec.who l, (ofSem l).2) := by cases l <;> rfl

theorem who_ev (l : Event.Label) : ofEvent l = (Event.Spec.who l, (ofEvent l).2) := by cases l <;> rfl

theorem sem_call {l : Sem.Label} (h : (ofSem l).2 = .call) : Mutex.Full.isCall l = true := by
  cases l <;> first | rfl | cases h

theorem ev_call {l : Event.Label} (h : (ofEvent l).2 = .call) : evCall l = true := by
  cases l <;> first | rfl | cases h

theorem ev_phase_other {t : Nat} {p : Event.Spec.Phase} {l : Event.Label} (h : t ≠ Event.Spec.who l) :
    Event.Spec.phase t (some p) [l] = some p := by
  rw [Event.Spec.phase, if_neg (fun e => h e.symm)]; rfl

/-- A thread in the semaphore after a step was there before, or has just called. -/
theorem sem_at {x : S} {a b : Op} {s s' : Sem.S} {act : Sem.Act} {l : Sem.Label} {o : Op}
    (hl : Mutex.Full.isCall l = true → (∃ t w, act = .callWait t w ∧ l = .callWait t w) ∨
      ∃ t, act = .callRelease t ∧ l = .callRelease t)
    (hc1 : ∀ t w, act = .callWait t w → op (x.l.pc t) = some a)
    (hc2 : ∀ t, act = .callRelease t → op (x.l.pc t) = some b)
    (hold : ∀ o, (semStat a b (Sem.phOf (s.pc (Sem.Spec.who l)))).op = some o →
      op (x.l.pc (Sem.Spec.who l)) = some o)
    (hm : Sem.Spec.move (Sem.phOf (s.pc (Sem.Spec.who l))) l = some (Sem.phOf (s'.pc (Sem.Spec.who l))))
    (ho : (semStat a b (Sem.phOf (s'.pc (Sem.Spec.who l)))).op = some o) :
    op (x.l.pc (Sem.Spec.who l)) = some o := by
  rcases (sem_trans (a := a) (b := b) hm).from ho with h1 | h1
  · exact hold o h1
  · rcases hl (sem_call h1) with ⟨t, w, e1, rfl⟩ | ⟨t, e1, rfl⟩
    · have hx := hc1 t w e1
      change op (x.l.pc t) = some o
      change Sem.Spec.move (Sem.phOf (s.pc t)) _ = some (Sem.phOf (s'.pc t)) at hm
      change (semStat a b (Sem.phOf (s'.pc t))).op = some o at ho
      generalize Sem.phOf (s'.pc t) = q at hm ho
      cases hp : Sem.phOf (s.pc t) <;> rw [hp] at hm <;> cases hm
      cases ho; exact hx
    · have hx := hc2 t e1
      change op (x.l.pc t) = some o
      change Sem.Spec.move (Sem.phOf (s.pc t)) _ = some (Sem.phOf (s'.pc t)) at hm
      change (semStat a b (Sem.phOf (s'.pc t))).op = some o at ho
      generalize Sem.phOf (s'.pc t) = q at hm ho
      cases hp : Sem.phOf (s.pc t) <;> rw [hp] at hm <;> cases hm
      cases ho; exact hx

/-- A call inside the semaphore that does not fail for good. -/
def good (s : Sem.S) : Sem.Act → Prop
  | .fail _ => False
  | .wake t false => s.pc t ≠ .wBlocked Sem.infinite
  | _ => True

theorem sure_goto {s : Sem.S} {t u : Nat} {p : Sem.Pc} (hu : sure (s.pc u) = true)
    (hp : u = t → sure p = true) : sure ((s.goto t p).pc u) = true := by
  rw [Sem.goto_pc]
  by_cases h : u = t
  · rw [if_pos h]; exact hp h
  · rw [if_neg h]; exact hu

theorem sure_step {s s' : Sem.S} {a : Sem.Act} {ls : List Sem.Label} {u : Nat}
    (h : Sem.step s a = .ok (some (s', ls))) (hg : good s a) (hu : sure (s.pc u) = true)
    (hc : ∀ w, a = .callWait u w → w = Sem.infinite) (hr : a ≠ .callRelease u) :
    sure (s'.pc u) = true ∧ Sem.Label.retWait u false ∉ ls := by
  cases a with
  | callWait t w =>
    unfold Sem.step at h; dsimp only at h
    split at h <;> cases h
    refine ⟨sure_goto hu fun e => ?_, by simp⟩
    rw [hc w (by rw [e])]; rfl
  | callRelease t =>
    unfold Sem.step at h; dsimp only at h
    split at h <;> cases h
    exact ⟨sure_goto hu fun e => absurd (by rw [e]) hr, by simp⟩
  | fail t => exact hg.elim
  | wake t z =>
    unfold Sem.step at h; dsimp only at h
    split at h
    · rename_i w hpc
      cases h
      refine ⟨sure_goto hu fun e => ?_, by simp⟩
      rw [e, hpc] at hu
      have hw : w = Sem.infinite := of_decide_eq_true hu
      subst hw
      cases z with
      | false => exact absurd hpc hg
      | true => rfl
    · cases h
  | run t pick =>
    unfold Sem.step Sem.run Sem.block at h
    dsimp only at h
    cases hpc : s.pc t <;> rw [hpc] at h <;> dsimp only at h
    case idle => cases h
    case wLock w =>
      split at h
      · cases h
        exact ⟨sure_goto hu fun e => (by rw [e, hpc] at hu; exact hu), by simp⟩
      · by_cases hw : w = 0
        · rw [if_pos hw] at h
          cases h
          refine ⟨sure_goto hu fun e => rfl, ?_⟩
          simp only [List.mem_singleton, Sem.Label.retWait.injEq, and_true]
          intro e
          rw [e, hpc, hw] at hu; cases hu
        · rw [if_neg hw] at h; cases h
    case wTest w =>
      split at h
      · cases h
        exact ⟨sure_goto hu fun e => rfl, by simp⟩
      · split at h
        · rename_i hw
          cases h
          refine ⟨sure_goto hu fun e => ?_, by simp⟩
          rw [e, hpc, hw] at hu; cases hu
        · split at h
          · cases h
            exact ⟨sure_goto hu fun e => (by rw [e, hpc] at hu; exact hu), by simp⟩
          · cases h
    case wDec v =>
      cases h
      exact ⟨sure_goto hu fun e => rfl, by simp⟩
    case wBlocked w => cases h
    case wWoken w z =>
      split at h
      · cases h
        refine ⟨sure_goto hu fun e => ?_, by simp⟩
        rw [e, hpc] at hu
        have := Bool.and_eq_true_iff.mp hu
        rw [this.2]; exact this.1
      · cases h
    case wRetest w =>
      split at h
      · cases h
        exact ⟨sure_goto hu fun e => rfl, by simp⟩
      · split at h
        · cases h
          exact ⟨sure_goto hu fun e => (by rw [e, hpc] at hu; exact hu), by simp⟩
        · cases h
    case wUnlock r =>
      split at h
      · cases h
        refine ⟨sure_goto hu fun e => rfl, ?_⟩
        simp only [List.mem_singleton, Sem.Label.retWait.injEq, not_and]
        intro e e'
        rw [e, hpc, ← e'] at hu; cases hu
      · cases h
    case rLock =>
      split at h
      · cases h
        exact ⟨sure_goto hu fun e => (by rw [e, hpc] at hu; cases hu), by simp⟩
      · cases h
    case rPrev =>
      cases h
      exact ⟨sure_goto hu fun e => (by rw [e, hpc] at hu; cases hu), by simp⟩
    case rLoad prev =>
      cases h
      exact ⟨sure_goto hu fun e => (by rw [e, hpc] at hu; cases hu), by simp⟩
    case rStore prev v =>
      cases h
      exact ⟨sure_goto hu fun e => (by rw [e, hpc] at hu; cases hu), by simp⟩
    case rClamp prev =>
      cases h
      exact ⟨sure_goto hu fun e => (by rw [e, hpc] at hu; cases hu), by simp⟩
    case rSignal prev =>
      split at h
      · cases h
        exact ⟨sure_goto hu fun e => (by rw [e, hpc] at hu; cases hu), by simp⟩
      · split at h
        · rename_i w hw
          cases h
          refine ⟨sure_goto (sure_goto hu fun e => ?_) fun e => (by rw [e, hpc] at hu; cases hu), by simp⟩
          rw [e, hw] at hu
          exact Bool.and_eq_true_iff.mpr ⟨hu, rfl⟩
        · cases h
    case rUnlock prev =>
      split at h
      · cases h
        exact ⟨sure_goto hu fun e => rfl, by simp⟩
      · cases h

theorem react_uC {l : RwLock.S} {x : Nat × Ev} {u : Nat} (h : (react l x).1.pc u = .uC) :
    l.pc u = .uC := by
  obtain ⟨t, ev⟩ := x
  have key : ∀ q, q ≠ .uC → (l.goto t q).pc u = .uC → l.pc u = .uC := fun q hq e => by
    by_cases hut : u = t
    · rw [hut, goto_eq] at e; exact absurd e hq
    · rwa [goto_ne _ _ hut] at e
  cases ev with
  | call => exact h
  | effect => exact h
  | ret r =>
    cases r with
    | true =>
      refine key (next (l.pc t)) ?_ h
      cases l.pc t <;> exact fun e => nomatch e
    | false =>
      unfold react at h
      dsimp only at h
      split at h
      · rename_i r hr
        unfold fail at hr
        split at hr <;> first | (cases hr; done) | (cases hr; refine key _ ?_ h; exact fun e => nomatch e)
      · exact h

theorem soft_w {p : Pc} (h : op p = some .waitW) : soft p = true := by
  cases p <;> first | rfl | cases h

theorem soft_c {p : Pc} (h : op p = some .waitC) : soft p = true ∨ p = .uC := by
  cases p <;> first | exact Or.inl rfl | exact Or.inr rfl | cases h

theorem soft_e {p : Pc} (h : op p = some .waitE ∨ op p = some .reset) : soft p = true := by
  cases p <;> first | rfl | (rcases h with h | h <;> cases h)

theorem move_failed {p p' : Sem.Spec.Phase} {l : Sem.Label} {t : Nat}
    (h : Sem.Spec.move p l = some p') (e : l = .retWait t false) : p = .waiting := by
  subst e
  cases p <;> first | rfl | cases h

/-- Which labels are failures. -/
theorem sem_failed {l : Sem.Label} (h : (ofSem l).2 = .ret false) :
    l = .retWait (Sem.Spec.who l) false ∨ Mutex.Full.failedRel l = true := by
  cases l with
  | retWait t r => cases h; exact Or.inl rfl
  | retRelease t r k => cases h; exact Or.inr rfl
  | _ => cases h

theorem ev_failed {s s' : Event.S} {a : Event.Act} {t : Nat}
    (h : Event.step s a = .ok (some (s', [.retFire t false]))) : ∃ u, a = .fail u := by
  cases a with
  | fail u => exact ⟨u, rfl⟩
  | callWait t w =>
    unfold Event.step at h
    dsimp only at h
    split at h <;> cases h
  | callFire t =>
    unfold Event.step at h
    dsimp only at h
    split at h <;> cases h
  | callReset t =>
    unfold Event.step at h
    dsimp only at h
    split at h <;> cases h
  | wake t z =>
    unfold Event.step at h
    dsimp only at h
    split at h <;> cases h
  | run t pick =>
    unfold Event.step Event.run Event.block Event.lock Event.unlock at h
    dsimp only at h
    repeat' split at h
    all_goals cases h

theorem atW_same {free f : Bool} {s : S} {n k : Nat} {a : Sem.Act} (h : Inv s n k)
    (hc1 : ∀ t w, a = .callWait t w → op (s.l.pc t) = some .waitW)
    (hf : f = false → ∀ t, a ≠ .fail t)
    (hc2 : ∀ t, a = .callRelease t → op (s.l.pc t) = some .relW) :
    ∃ r, atW s a = .ok r ∧ Same free f s n k r := by
  obtain ⟨r, hr, hok⟩ := Sem.step_ok (a := a) h.w
  unfold atW
  rw [hr, ok_bind]
  cases r with
  | none => exact ⟨_, rfl, Same.none⟩
  | some x =>
    obtain ⟨w', ls⟩ := x
    obtain ⟨n', hi, hat, hm, hp⟩ := hok w' ls rfl
    refine ⟨_, rfl, ?_⟩
    intro s' ls' e
    cases e
    have hw := Sem.step_w h.w h.ww w' ls n' hr hat
    rw [h.wm] at hat
    have hn : n ≤ 1 := h.wm ▸ h.w.le
    rcases labels_short hr with rfl | ⟨l, rfl, hl0, hl⟩
    · have hst : ∀ t, stW { s with w := w' } t = stW s t := fun t => by
        unfold stW; rw [show Sem.phOf (w'.pc t) = _ from (Option.some.inj (hp t)).symm]
      have htot : tot { s with w := w' } = tot s := funext fun t => by
        show ((stW { s with w := w' } t).or _).or _ = _
        rw [hst]; rfl
      have hnn : n' = n := (Option.some.inj hat).symm
      subst hnn
      refine ⟨n', k, [], ⟨hi, hm.trans h.wm, h.c, h.cm, h.e, h.em, ?_, fun t => ?_, hw, h.cw, h.ew⟩, ?_,
        fun _ hS => ⟨.nil, hS⟩⟩
      · show CohG s.l (tot { s with w := w' })
        rw [htot]; exact h.coh
      · show One (stW { s with w := w' } t) _ _
        rw [hst]; exact h.one t
      · show (_, _) = (absG s.l (tot { s with w := w' }) _, _)
        rw [htot]; rfl
    · have hpt := hp (Sem.Spec.who l)
      rw [Sem.phase_one rfl] at hpt
      change Sem.Spec.move _ l = _ at hpt
      show ∃ n' k' as, Inv ⟨(reacts s.l [ofSem l]).1, w', s.c, s.e⟩ n' k' ∧
        RwLock.exec free _ as = (abs ⟨(reacts s.l [ofSem l]).1, w', s.c, s.e⟩ n' k', (reacts s.l [ofSem l]).2) ∧
        (f = false → Sure s → SoftL (abs s n k) as ∧ Sure ⟨(reacts s.l [ofSem l]).1, w', s.c, s.e⟩)
      rw [reacts_one, who_sem]
      have hcall : ∀ o, (stW { s with w := w' } (Sem.Spec.who l)).op = some o →
          op (s.l.pc (Sem.Spec.who l)) = some o := fun o ho =>
        sem_at hl hc1 hc2 (fun o ho => (one_w h ho).1) hpt ho
      have htr := sem_trans (a := .waitW) (b := .relW) hpt
      have hout : stC s (Sem.Spec.who l) = .out ∧ stE s (Sem.Spec.who l) = .out := by
        obtain ⟨o, ho⟩ := htr.has
        rcases ho with ho | ho
        · exact (one_w h ho).2
        · exact only_w h (hcall o ho) (stW_op (s := { s with w := w' }) ho)
      have hst : ∀ u, u ≠ Sem.Spec.who l → stW { s with w := w' } u = stW s u := fun u hu => by
        have := hp u
        rw [phase_other (Ne.symm hu)] at this
        unfold stW; rw [show Sem.phOf (w'.pc u) = _ from (Option.some.inj this).symm]
      have hsm := fun o ho => sem_moved (a := .waitW) (b := .relW) hn hat hpt o ho
      have := react_ok (free := free) (l := s.l) (σ := tot s) (σ' := tot { s with w := w' })
        (f := flags s n k) (f' := flags s n' k) (t := Sem.Spec.who l) (ev := (ofSem l).2)
        (fun u hu => by
          show ((stW { s with w := w' } u).or _).or _ = _
          rw [hst u hu]; rfl)
        h.coh (by
          rw [tot_w hout, tot_w (s := { s with w := w' }) hout]
          exact htr)
        (by rw [tot_w (s := { s with w := w' }) hout]; exact hcall)
        (by
          rw [tot_w hout, tot_w (s := { s with w := w' }) hout]
          intro o ho
          have hx := hsm o ho
          unfold SemMoved at hx
          unfold Moved
          split
          · rename_i e; rw [e] at hx
            rcases hx with ⟨rfl, rfl, rfl⟩ | ⟨rfl, rfl⟩
            · exact ⟨rfl, rfl⟩
            · rfl
          · rename_i e
            split at hx
            · rename_i e'; exact absurd e' e
            · rw [hx])
      obtain ⟨⟨as, has, hso⟩, hco⟩ := this
      refine ⟨n', k, as, ⟨hi, hm.trans h.wm, h.c, h.cm, h.e, h.em, hco, fun u => ?_, hw, h.cw, h.ew⟩, has,
        fun hff hS => ⟨hso fun he => ?_, fun u hu => hS u (react_uC hu)⟩⟩
      rotate_left
      · rcases sem_failed he with e | e
        · refine soft_w (h.coh _ _ ?_)
          rw [tot_w hout]
          unfold stW
          rw [move_failed hpt e]; rfl
        · obtain ⟨t, e⟩ := hl0 e; exact absurd e (hf hff t)
      by_cases hu : u = Sem.Spec.who l
      · rw [hu]; exact Or.inr (Or.inr hout)
      · show One (stW { s with w := w' } u) _ _
        rw [hst u hu]; exact h.one u

theorem atC_same {free f : Bool} {s : S} {n k : Nat} {a : Sem.Act} (h : Inv s n k)
    (hc1 : ∀ t w, a = .callWait t w → op (s.l.pc t) = some .waitC)
    (hf : f = false → good s.c a)
    (hc3 : ∀ t w, a = .callWait t w → s.l.pc t = .uC → w = Sem.infinite)
    (hc2 : ∀ t, a = .callRelease t → op (s.l.pc t) = some .relC) :
    ∃ r, atC s a = .ok r ∧ Same free f s n k r := by
  obtain ⟨r, hr, hok⟩ := Sem.step_ok (a := a) h.c
  unfold atC
  rw [hr, ok_bind]
  cases r with
  | none => exact ⟨_, rfl, Same.none⟩
  | some x =>
    obtain ⟨w', ls⟩ := x
    obtain ⟨k', hi, hat, hm, hp⟩ := hok w' ls rfl
    refine ⟨_, rfl, ?_⟩
    intro s' ls' e
    cases e
    have hw := Sem.step_w h.c h.cw w' ls k' hr hat
    rw [h.cm] at hat
    have hn : k ≤ 1 := h.cm ▸ h.c.le
    have hsu : f = false → ∀ u, s.l.pc u = .uC → sure (s.c.pc u) = true →
        sure (w'.pc u) = true ∧ Sem.Label.retWait u false ∉ ls := fun hff u hu hs =>
      sure_step hr (hf hff) hs (fun w e => hc3 u w e hu) (fun e => by
        have := hc2 u e
        rw [hu] at this; cases this)
    rcases labels_short hr with rfl | ⟨l, rfl, hl0, hl⟩
    · have hst : ∀ t, stC { s with c := w' } t = stC s t := fun t => by
        unfold stC; rw [show Sem.phOf (w'.pc t) = _ from (Option.some.inj (hp t)).symm]
      have htot : tot { s with c := w' } = tot s := funext fun t => by
        show ((stW s t).or (stC { s with c := w' } t)).or _ = _
        rw [hst]; rfl
      have hnn : k' = k := (Option.some.inj hat).symm
      subst hnn
      refine ⟨n, k', [], ⟨h.w, h.wm, hi, hm.trans h.cm, h.e, h.em, ?_, fun t => ?_, h.ww, hw, h.ew⟩, ?_,
        fun hff hS => ⟨.nil, fun u hu => (hsu hff u hu (hS u hu)).1⟩⟩
      · show CohG s.l (tot { s with c := w' })
        rw [htot]; exact h.coh
      · show One _ (stC { s with c := w' } t) _
        rw [hst]; exact h.one t
      · show (_, _) = (absG s.l (tot { s with c := w' }) _, _)
        rw [htot]; rfl
    · have hpt := hp (Sem.Spec.who l)
      rw [Sem.phase_one rfl] at hpt
      change Sem.Spec.move _ l = _ at hpt
      show ∃ n' k' as, Inv ⟨(reacts s.l [ofSem l]).1, s.w, w', s.e⟩ n' k' ∧
        RwLock.exec free _ as = (abs ⟨(reacts s.l [ofSem l]).1, s.w, w', s.e⟩ n' k', (reacts s.l [ofSem l]).2) ∧
        (f = false → Sure s → SoftL (abs s n k) as ∧ Sure ⟨(reacts s.l [ofSem l]).1, s.w, w', s.e⟩)
      rw [reacts_one, who_sem]
      have hcall : ∀ o, (stC { s with c := w' } (Sem.Spec.who l)).op = some o →
          op (s.l.pc (Sem.Spec.who l)) = some o := fun o ho =>
        sem_at hl hc1 hc2 (fun o ho => (one_c h ho).1) hpt ho
      have htr := sem_trans (a := .waitC) (b := .relC) hpt
      have hout : stW s (Sem.Spec.who l) = .out ∧ stE s (Sem.Spec.who l) = .out := by
        obtain ⟨o, ho⟩ := htr.has
        rcases ho with ho | ho
        · exact (one_c h ho).2
        · exact only_c h (hcall o ho) (stC_op (s := { s with c := w' }) ho)
      have hst : ∀ u, u ≠ Sem.Spec.who l → stC { s with c := w' } u = stC s u := fun u hu => by
        have := hp u
        rw [phase_other (Ne.symm hu)] at this
        unfold stC; rw [show Sem.phOf (w'.pc u) = _ from (Option.some.inj this).symm]
      have hsm := fun o ho => sem_moved (a := .waitC) (b := .relC) hn hat hpt o ho
      have := react_ok (free := free) (l := s.l) (σ := tot s) (σ' := tot { s with c := w' })
        (f := flags s n k) (f' := flags s n k') (t := Sem.Spec.who l) (ev := (ofSem l).2)
        (fun u hu => by
          show ((stW s u).or (stC { s with c := w' } u)).or _ = _
          rw [hst u hu]; rfl)
        h.coh (by
          rw [tot_c hout, tot_c (s := { s with c := w' }) hout]
          exact htr)
        (by rw [tot_c (s := { s with c := w' }) hout]; exact hcall)
        (by
          rw [tot_c hout, tot_c (s := { s with c := w' }) hout]
          intro o ho
          have hx := hsm o ho
          unfold SemMoved at hx
          unfold Moved
          split
          · rename_i e; rw [e] at hx
            rcases hx with ⟨rfl, rfl, rfl⟩ | ⟨rfl, rfl⟩
            · exact ⟨rfl, rfl⟩
            · rfl
          · rename_i e
            split at hx
            · rename_i e'; exact absurd e' e
            · rw [hx])
      obtain ⟨⟨as, has, hso⟩, hco⟩ := this
      refine ⟨n, k', as, ⟨h.w, h.wm, hi, hm.trans h.cm, h.e, h.em, hco, fun u => ?_, h.ww, hw, h.ew⟩, has,
        fun hff hS => ⟨hso fun he => ?_, fun u hu => (hsu hff u (react_uC hu) (hS u (react_uC hu))).1⟩⟩
      rotate_left
      · rcases sem_failed he with e | e
        · have hop : op (s.l.pc (Sem.Spec.who l)) = some .waitC := by
            refine h.coh _ _ ?_
            rw [tot_c hout]
            unfold stC
            rw [move_failed hpt e]; rfl
          rcases soft_c hop with hx | hx
          · exact hx
          · refine absurd ?_ (hsu hff _ hx (hS _ hx)).2
            rw [← e]; exact List.mem_singleton_self _
        · obtain ⟨t, e⟩ := hl0 e
          have := hf hff
          rw [e] at this; exact this.elim
      by_cases hu : u = Sem.Spec.who l
      · rw [hu]; exact Or.inr (Or.inl hout)
      · show One _ (stC { s with c := w' } u) _
        rw [hst u hu]; exact h.one u

theorem atE_same {free f : Bool} {s : S} {n k : Nat} {a : Event.Act} (h : Inv s n k)
    (hc1 : ∀ t w, a = .callWait t w → op (s.l.pc t) = some .waitE)
    (hf : f = false → ∀ t, a ≠ .fail t)
    (hc2 : ∀ t, a = .callFire t → op (s.l.pc t) = some .fire)
    (hc3 : ∀ t, a = .callReset t → op (s.l.pc t) = some .reset) :
    ∃ r, atE s a = .ok r ∧ Same free f s n k r := by
  obtain ⟨r, hr, hok⟩ := Event.step_ok (a := a) h.e
  unfold atE
  rw [hr, ok_bind]
  cases r with
  | none => exact ⟨_, rfl, Same.none⟩
  | some x =>
    obtain ⟨w', ls⟩ := x
    obtain ⟨hi, hat, hm, hp⟩ := hok w' ls rfl
    refine ⟨_, rfl, ?_⟩
    intro s' ls' e
    cases e
    have hw := Event.step_2 h.e h.ew (fun e => nomatch e) w' ls hr
    rw [h.em] at hat
    rcases ev_labels hr with rfl | ⟨l, rfl, hl⟩
    · have hst : ∀ t, stE { s with e := w' } t = stE s t := fun t => by
        unfold stE; rw [show Event.phOf (w'.pc t) = _ from (Option.some.inj (hp t)).symm]
      have htot : tot { s with e := w' } = tot s := funext fun t => by
        show ((stW s t).or (stC s t)).or (stE { s with e := w' } t) = _
        rw [hst]; rfl
      have hnn : w'.signaled = s.e.signaled := (Option.some.inj hat).symm
      refine ⟨n, k, [], ⟨h.w, h.wm, h.c, h.cm, hi, hm.trans h.em, ?_, fun t => ?_, h.ww, h.cw, hw⟩, ?_,
        fun _ hS => ⟨.nil, hS⟩⟩
      · show CohG s.l (tot { s with e := w' })
        rw [htot]; exact h.coh
      · show One _ _ (stE { s with e := w' } t)
        rw [hst]; exact h.one t
      · show (_, _) = (absG s.l (tot { s with e := w' }) (flags { s with e := w' } n k), _)
        unfold flags
        rw [htot, hnn]; rfl
    · have hpt := hp (Event.Spec.who l)
      rw [Event.phase_one rfl] at hpt
      change Event.Spec.move _ l = _ at hpt
      show ∃ n' k' as, Inv ⟨(reacts s.l [ofEvent l]).1, s.w, s.c, w'⟩ n' k' ∧
        RwLock.exec free _ as =
          (abs ⟨(reacts s.l [ofEvent l]).1, s.w, s.c, w'⟩ n' k', (reacts s.l [ofEvent l]).2) ∧
        (f = false → Sure s → SoftL (abs s n k) as ∧ Sure ⟨(reacts s.l [ofEvent l]).1, s.w, s.c, w'⟩)
      rw [reacts_one, who_ev]
      have htr := ev_trans hpt
      have hcall : ∀ o, (stE { s with e := w' } (Event.Spec.who l)).op = some o →
          op (s.l.pc (Event.Spec.who l)) = some o := fun o ho => by
        rcases htr.from ho with h1 | h1
        · exact (one_e h h1).1
        · change (evStat (Event.phOf (w'.pc (Event.Spec.who l)))).op = some o at ho
          generalize Event.phOf (w'.pc (Event.Spec.who l)) = q at hpt ho
          rcases hl (ev_call h1) with ⟨t, w, e1, rfl⟩ | ⟨t, e1, rfl⟩ | ⟨t, e1, rfl⟩
          · have hx := hc1 t w e1
            change op (s.l.pc t) = some o
            cases hq : Event.phOf (s.e.pc (Event.Spec.who (.callWait t w))) <;> rw [hq] at hpt <;> cases hpt
            cases ho; exact hx
          · have hx := hc2 t e1
            change op (s.l.pc t) = some o
            cases hq : Event.phOf (s.e.pc (Event.Spec.who (.callFire t))) <;> rw [hq] at hpt <;> cases hpt
            cases ho; exact hx
          · have hx := hc3 t e1
            change op (s.l.pc t) = some o
            cases hq : Event.phOf (s.e.pc (Event.Spec.who (.callReset t))) <;> rw [hq] at hpt <;> cases hpt
            cases ho; exact hx
      have hout : stW s (Event.Spec.who l) = .out ∧ stC s (Event.Spec.who l) = .out := by
        obtain ⟨o, ho⟩ := htr.has
        rcases ho with ho | ho
        · exact (one_e h ho).2
        · exact only_e h (hcall o ho) (stE_op (s := { s with e := w' }) ho)
      have hst : ∀ u, u ≠ Event.Spec.who l → stE { s with e := w' } u = stE s u := fun u hu => by
        have := hp u
        rw [ev_phase_other hu] at this
        unfold stE; rw [show Event.phOf (w'.pc u) = _ from (Option.some.inj this).symm]
      have hsm := fun o ho => ev_moved hat hpt o ho
      have := react_ok (free := free) (l := s.l) (σ := tot s) (σ' := tot { s with e := w' })
        (f := flags s n k) (f' := flags { s with e := w' } n k) (t := Event.Spec.who l)
        (ev := (ofEvent l).2)
        (fun u hu => by
          show ((stW s u).or (stC s u)).or (stE { s with e := w' } u) = _
          rw [hst u hu]; rfl)
        h.coh (by
          rw [tot_e hout, tot_e (s := { s with e := w' }) hout]
          exact htr)
        (by rw [tot_e (s := { s with e := w' }) hout]; exact hcall)
        (by
          rw [tot_e hout, tot_e (s := { s with e := w' }) hout]
          intro o ho
          have hx := hsm o ho
          unfold EvMoved at hx
          unfold Moved flags
          split
          · rename_i e; rw [e] at hx
            rcases hx with ⟨rfl, h1, h2⟩ | ⟨rfl, h2⟩ | ⟨rfl, h2⟩
            · exact ⟨h1, by dsimp only; rw [h2]⟩
            · show _ = _; dsimp only; rw [h2]
            · show _ = _; dsimp only; rw [h2]
          · rename_i e
            split at hx
            · rename_i e'; exact absurd e' e
            · dsimp only; rw [hx])
      obtain ⟨⟨as, has, hso⟩, hco⟩ := this
      refine ⟨n, k, as, ⟨h.w, h.wm, h.c, h.cm, hi, hm.trans h.em, hco, fun u => ?_, h.ww, h.cw, hw⟩, has,
        fun hff hS => ⟨hso fun he => ?_, fun u hu => hS u (react_uC hu)⟩⟩
      rotate_left
      · have hcoh := h.coh (Event.Spec.who l)
        rw [tot_e hout] at hcoh
        cases l with
        | retWait t r =>
          cases he
          refine soft_e (Or.inl (hcoh _ ?_))
          unfold stE
          cases hq : Event.phOf (s.e.pc (Event.Spec.who (.retWait t false))) <;> rw [hq] at hpt <;>
            first | rfl | cases hpt
        | retReset t r =>
          cases he
          refine soft_e (Or.inr (hcoh _ ?_))
          unfold stE
          cases hq : Event.phOf (s.e.pc (Event.Spec.who (.retReset t false))) <;> rw [hq] at hpt <;>
            first | rfl | cases hpt
        | retFire t r =>
          cases he
          obtain ⟨u, e⟩ := ev_failed hr
          exact absurd e (hf hff u)
        | _ => cases he
      by_cases hu : u = Event.Spec.who l
      · rw [hu]; exact Or.inl hout
      · show One _ _ (stE { s with e := w' } u)
        rw [hst u hu]; exact h.one u

/-- A thread that is not at an operation is in no object. -/
theorem none_out {s : S} {n k t : Nat} (h : Inv s n k) (ho : op (s.l.pc t) = none) : tot s t = .out := by
  refine op_out ?_
  cases hx : (tot s t).op with
  | none => rfl
  | some o => have := h.coh t o hx; rw [ho] at this; cases this

theorem outside_out {s : S} {t : Nat} (h : outside s t = true) : tot s t = .out := by
  unfold outside at h
  simp only [Bool.and_eq_true, decide_eq_true_eq] at h
  unfold tot stW stC stE
  rw [h.1.1, h.1.2, h.2]; rfl

theorem lock_inv {s : S} {n k t : Nat} {l' : RwLock.S} (h : Inv s n k) (ht : tot s t = .out)
    (hm : ∀ u, u ≠ t → l'.pc u = s.l.pc u) : Inv { s with l := l' } n k := by
  refine ⟨h.w, h.wm, h.c, h.cm, h.e, h.em, fun u o hu => ?_, h.one, h.ww, h.cw, h.ew⟩
  change (tot s u).op = some o at hu
  by_cases hut : u = t
  · rw [hut, ht] at hu; cases hu
  · show op (l'.pc u) = some o
    rw [hm u hut]; exact h.coh u o hu

theorem late_same {free f : Bool} {s : S} {n k t : Nat} (h : Inv s n k) :
    Same free f s n k (late s t) := by
  unfold late
  split
  · rename_i ho
    have ht := outside_out ho
    have hd : (tot s t).isDone = false := by rw [ht]; rfl
    have hS : ∀ q, q ≠ .uC → Sure s → Sure { s with l := s.l.goto t q } := fun q hq hS u hu => by
      change (s.l.goto t q).pc u = .uC at hu
      by_cases hut : u = t
      · rw [hut, goto_eq] at hu; exact absurd hu hq
      · rw [goto_ne _ _ hut] at hu; exact hS u hu
    split
    · rename_i hp
      intro s' ls e
      cases e
      have hpc : (abs s n k).pc t = .rC := (absG_pc hd).trans hp
      refine ⟨n, k, [.fail t], lock_inv h ht (fun u hu => goto_ne _ _ hu), exec_fail ?_,
        fun _ h => ⟨Or.inr ⟨_, rfl, fun u e => by cases e; rw [hpc]; rfl⟩, hS _ (fun e => nomatch e) h⟩⟩
      unfold fail
      rw [hpc]
      exact goto_lift (l := s.l) hd rfl rfl
    · rename_i hp
      intro s' ls e
      cases e
      have hpc : (abs s n k).pc t = .wE := (absG_pc hd).trans hp
      refine ⟨n, k, [.fail t], lock_inv h ht (fun u hu => goto_ne _ _ hu), exec_fail ?_,
        fun _ h => ⟨Or.inr ⟨_, rfl, fun u e => by cases e; rw [hpc]; rfl⟩, hS _ (fun e => nomatch e) h⟩⟩
      unfold fail
      rw [hpc]
      exact goto_lift (l := s.l) hd rfl rfl
    · exact Same.none
  · exact Same.none

theorem faults_w {s : S} {a : Inner} (h : faults s (.inW a) = false) (t : Nat) : a.sem ≠ .fail t := by
  cases a <;> first | cases h; done | exact fun e => nomatch e

theorem faults_e {s : S} {a : Inner} (h : faults s (.inE a) = false) (t : Nat) : a.event ≠ .fail t := by
  cases a <;> first | cases h; done | exact fun e => nomatch e

theorem faults_c {s : S} {a : Inner} (h : faults s (.inC a) = false) : good s.c a.sem := by
  cases a with
  | run t pick => trivial
  | fail t => cases h
  | wake t z =>
    cases z with
    | true => trivial
    | false => exact of_decide_eq_false h

/-- Where a thread can begin to unlock. -/
theorem step_uC {free : Bool} {l l' : RwLock.S} {a : RwLock.Act} {ls : List Label} {u : Nat}
    (h : RwLock.step free l a = some (l', ls)) (hu : l'.pc u = .uC) : l.pc u = .uC ∨ u = actor a := by
  by_cases e : u = actor a
  · exact Or.inr e
  · rw [step_moves h e] at hu; exact Or.inl hu

/-- Every step is defined, and the lock on the atomic objects can do the same. -/
theorem step_same {free : Bool} {s : S} {n k : Nat} {a : Act} (h : Inv s n k) :
    ∃ r, step free s a = .ok r ∧ Same free (faults s a) s n k r := by
  cases a with
  | lock a =>
    unfold step
    dsimp only
    split
    · exact ⟨_, rfl, Same.none⟩
    · rename_i ho
      have ho : op (s.l.pc (actor a)) = none := by
        cases hx : op (s.l.pc (actor a)) with
        | none => rfl
        | some o => rw [hx] at ho; exact absurd rfl ho
      have ht := none_out h ho
      refine ⟨_, rfl, ?_⟩
      intro s' ls e
      cases hr : RwLock.step free s.l a with
      | none => rw [hr] at e; cases e
      | some x =>
        obtain ⟨l', ls'⟩ := x
        rw [hr] at e
        cases e
        have hpc : (abs s n k).pc (actor a) = s.l.pc (actor a) := absG_pc (by rw [ht]; rfl)
        have hst : RwLock.step free (abs s n k) a = some (abs { s with l := l' } n k, ls) := by
          show RwLock.step free (absG _ _ _) a = _
          rw [step_lift (by rw [ht]; rfl) ho, hr]; rfl
        refine ⟨n, k, [a], lock_inv h ht (fun u hu => step_moves hr hu), exec_one hst,
          fun _ hS => ⟨Or.inr ⟨_, rfl, fun u e => ?_⟩, fun u hu => ?_⟩⟩
        · subst e
          exfalso
          change fail s.l u = _ at hr
          change op (s.l.pc u) = none at ho
          unfold fail at hr
          cases hq : s.l.pc u <;> rw [hq] at ho hr <;> first | (cases hr; done) | cases ho
        · rcases step_uC hr hu with hx | hx
          · exact hS u hx
          · have hcc : stC s u = .out := by
              rw [← hx] at ht
              cases hc : (stC s u).op with
              | none => exact op_out hc
              | some o =>
                have := (one_c h hc).2
                rw [tot_c this] at ht
                exact ht
            unfold stC at hcc
            have hph : Sem.phOf (s.c.pc u) = .out := by
              cases hq : Sem.phOf (s.c.pc u) <;> rw [hq] at hcc <;> first | rfl | cases hcc
            show sure (s.c.pc u) = true
            rw [Mutex.Full.phase_idle hph]; rfl
  | enter t wait =>
    unfold step
    dsimp only
    cases ho : op (s.l.pc t) with
    | none => exact ⟨_, rfl, Same.none⟩
    | some o =>
      cases o with
      | waitW =>
        exact atW_same h (fun u w e => by cases e; exact ho) (fun _ _ e => nomatch e) (fun u e => nomatch e)
      | relW =>
        exact atW_same h (fun u w e => nomatch e) (fun _ _ e => nomatch e) (fun u e => by cases e; exact ho)
      | waitC =>
        exact atC_same h (fun u w e => by cases e; exact ho) (fun _ => trivial)
          (fun u w e hu => by cases e; rw [hu]; rfl) (fun u e => nomatch e)
      | relC =>
        exact atC_same h (fun u w e => nomatch e) (fun _ => trivial)
          (fun u w e => nomatch e) (fun u e => by cases e; exact ho)
      | waitE =>
        exact atE_same h (fun u w e => by cases e; exact ho) (fun _ _ e => nomatch e)
          (fun u e => nomatch e) (fun u e => nomatch e)
      | fire =>
        exact atE_same h (fun u w e => nomatch e) (fun _ _ e => nomatch e)
          (fun u e => by cases e; exact ho) (fun u e => nomatch e)
      | reset =>
        exact atE_same h (fun u w e => nomatch e) (fun _ _ e => nomatch e)
          (fun u e => nomatch e) (fun u e => by cases e; exact ho)
  | late t => exact ⟨_, rfl, late_same h⟩
  | inW a =>
    exact atW_same h (fun u w e => by cases a <;> cases e) faults_w (fun u e => by cases a <;> cases e)
  | inC a =>
    exact atC_same h (fun u w e => by cases a <;> cases e) faults_c
      (fun u w e => by cases a <;> cases e) (fun u e => by cases a <;> cases e)
  | inE a =>
    exact atE_same h (fun u w e => by cases a <;> cases e) faults_e (fun u e => by cases a <;> cases e)
      (fun u e => by cases a <;> cases e)

theorem exec_append {free : Bool} {s s1 s2 : RwLock.S} {as bs : List RwLock.Act} {l1 l2 : List Label}
    (h1 : RwLock.exec free s as = (s1, l1)) (h2 : RwLock.exec free s1 bs = (s2, l2)) :
    RwLock.exec free s (as ++ bs) = (s2, l1 ++ l2) := by
  induction as generalizing s l1 with
  | nil => cases h1; exact h2
  | cons a as ih =>
    rw [RwLock.exec] at h1
    rw [List.cons_append, RwLock.exec]
    cases hs : RwLock.step free s a with
    | none => rw [hs] at h1; exact ih h1
    | some x =>
      obtain ⟨s', l⟩ := x
      rw [hs] at h1
      dsimp only at h1 ⊢
      cases he : RwLock.exec free s' as with
      | mk s'' l' =>
        rw [he] at h1
        cases h1
        rw [ih he, List.append_assoc]

theorem init_inv : Inv init 1 1 :=
  ⟨Sem.init_inv 1 1, rfl, Sem.init_inv 1 1, rfl, Event.init_inv true true, rfl,
    (fun _ _ e => nomatch e), fun _ => Or.inl ⟨rfl, rfl⟩, Or.inl rfl, Or.inl rfl,
    Event.init_2 false true true⟩

theorem abs_init : abs init 1 1 = RwLock.init := rfl

/-- Every execution is one of the lock on the atomic objects. -/
theorem exec_same (free : Bool) (as : List Act) : ∀ {s : S} {n k : Nat} (_ : Inv s n k),
    ∃ s' ls n' k' bs, exec free s as = .ok (s', ls) ∧ Inv s' n' k' ∧
      RwLock.exec free (abs s n k) bs = (abs s' n' k', ls) := by
  induction as with
  | nil => exact fun h => ⟨_, _, _, _, [], rfl, h, rfl⟩
  | cons a as ih =>
    intro s n k h
    obtain ⟨r, hr, hs⟩ := step_same (free := free) (a := a) h
    rw [exec, hr, ok_bind]
    cases r with
    | none => exact ih h
    | some x =>
      obtain ⟨s1, l1⟩ := x
      obtain ⟨n1, k1, b1, hi1, he1, -⟩ := hs s1 l1 rfl
      obtain ⟨s2, l2, n2, k2, b2, hx2, hi2, he2⟩ := ih hi1
      exact ⟨s2, l1 ++ l2, n2, k2, b1 ++ b2, by simp only [hx2, ok_bind], hi2, exec_append he1 he2⟩

/-! ## Nobody waits for a free lock -/

open Spec (Few reading writing readers)

theorem soft_one {s s1 : RwLock.S} {R : List Nat} {W tw tc : Option Nat} {bs : List RwLock.Act}
    {l1 : List Label} (hi : RwLock.Inv s R W tw tc) (hl : Live s R) (hb : R.length < 4294967295)
    (hf : SoftL s bs) (he : RwLock.exec false s bs = (s1, l1)) :
    ∃ R1 W1 tw1 tc1, RwLock.Inv s1 R1 W1 tw1 tc1 ∧ Live s1 R1 ∧
      Spec.atomic (R, W) l1 = some (R1, W1) ∧ R1.length = readers R.length l1 ∧
      ∀ t, s1.rd t = reading t (s.rd t) l1 ∧ s1.wr t = writing t (s.wr t) l1 := by
  rcases hf with rfl | ⟨a, rfl, hf⟩
  · cases he
    exact ⟨R, W, tw, tc, hi, hl, rfl, rfl, fun _ => ⟨rfl, rfl⟩⟩
  · rw [RwLock.exec] at he
    cases hs : RwLock.step false s a with
    | none =>
      rw [hs] at he
      cases he
      exact ⟨R, W, tw, tc, hi, hl, rfl, rfl, fun _ => ⟨rfl, rfl⟩⟩
    | some x =>
      obtain ⟨s', l⟩ := x
      rw [hs] at he
      have he' : (s', l ++ []) = (s1, l1) := he
      rw [List.append_nil] at he'
      cases he'
      obtain ⟨R1, W1, tw1, tc1, hi1, ha1, hr1, -, hg1⟩ := RwLock.step_ok a hi hb s1 l1 hs
      exact ⟨R1, W1, tw1, tc1, hi1, live_step hi hb hl hf hs ha1, ha1, hr1, hg1⟩

/-- Executions in which no system call fails. -/
theorem exec_live (as : List Act) : ∀ {s s' : S} {n k : Nat} {R : List Nat} {W tw tc : Option Nat}
    {pre ls : List Label} (_ : Inv s n k) (_ : Sure s) (_ : RwLock.Inv (abs s n k) R W tw tc)
    (_ : Live (abs s n k) R) (_ : R.length = readers 0 pre)
    (_ : ∀ t, s.l.rd t = reading t 0 pre ∧ s.l.wr t = writing t false pre)
    (_ : ∀ p a q x l, as = p ++ a :: q → exec false s p = .ok (x, l) → faults x a = false)
    (_ : exec false s as = .ok (s', ls)) (_ : Few (pre ++ ls)),
    ∃ n' k' R' W' tw' tc', Inv s' n' k' ∧ RwLock.Inv (abs s' n' k') R' W' tw' tc' ∧
      Live (abs s' n' k') R' ∧
      ∀ t, s'.l.rd t = reading t 0 (pre ++ ls) ∧ s'.l.wr t = writing t false (pre ++ ls) := by
  induction as with
  | nil =>
    intro s s' n k R W tw tc pre ls hi _ hm hl _ hg _ he _
    cases he
    rw [List.append_nil]
    exact ⟨n, k, R, W, tw, tc, hi, hm, hl, hg⟩
  | cons a as ih =>
    intro s s' n k R W tw tc pre ls hi hS hm hl hr hg hf he hw
    have hfa := hf [] a as s [] rfl rfl
    obtain ⟨r, hst, hsame⟩ := step_same (free := false) (a := a) hi
    rw [hfa] at hsame
    rw [exec, hst, ok_bind] at he
    cases r with
    | none =>
      refine ih hi hS hm hl hr hg (fun p b q x l e hx => hf (a :: p) b q x l (by rw [e]; rfl) ?_) he hw
      rw [exec, hst, ok_bind]; exact hx
    | some y =>
      obtain ⟨s1, l1⟩ := y
      obtain ⟨n1, k1, b1, hi1, he1, hsoft⟩ := hsame s1 l1 rfl
      obtain ⟨hso, hS1⟩ := hsoft rfl hS
      dsimp only at he
      cases he2 : exec false s1 as with
      | error e => rw [he2] at he; cases he
      | ok z =>
        obtain ⟨s2, l2⟩ := z
        rw [he2, ok_bind] at he
        cases he
        obtain ⟨R1, W1, tw1, tc1, hm1, hl1, -, hr1, hg1⟩ := soft_one hm hl (by
          rw [hr]; exact hw pre ⟨_, rfl⟩) hso he1
        rw [← List.append_assoc] at hw ⊢
        refine ih hi1 hS1 hm1 hl1 ?_ (fun t => ?_) (fun p b q x l e hx => ?_) he2 hw
        · rw [readers_append, ← hr]; exact hr1
        · rw [reading_append, writing_append, ← (hg t).1, ← (hg t).2]
          exact hg1 t
        · refine hf (a :: p) b q x (l1 ++ l) (by rw [e]; rfl) ?_
          rw [exec, hst, ok_bind]
          simp only [hx, ok_bind]

theorem blocked_zero {s : Sem.S} {n u w : Nat} (hi : Sem.Inv s n) (hw : Sem.W s n)
    (hu : s.pc u = .wBlocked w) (hq : ∀ t, s.pc t = .idle ∨ ∃ w, s.pc t = .wBlocked w) : n = 0 := by
  rcases hw with hw | ⟨L, _, hL, hw⟩
  · have := (hi.queue u).mpr (by rw [hu]; rfl)
    rw [hw] at this; cases this
  · have hL0 : L = [] := by
      cases L with
      | nil => rfl
      | cons t L =>
        have := hL t (List.mem_cons_self ..)
        rcases hq t with e | ⟨w, e⟩ <;> rw [e] at this <;> cases this
    rcases hw with hw | ⟨_, t, ht⟩
    · rw [hL0] at hw; exact Nat.le_zero.mp hw
    · rcases hq t with e | ⟨w, e⟩ <;> rw [e] at ht <;> cases ht

theorem blocked_off {s : Event.S} {u w : Nat} (hi : Event.Inv s) (hm : s.manual = true)
    (hw : Event.Inv2 false s) (hu : s.pc u = .wBlocked w)
    (hq : ∀ t, s.pc t = .idle ∨ ∃ w, s.pc t = .wBlocked w) : s.signaled = false := by
  cases hs : s.signaled with
  | false => rfl
  | true =>
    rcases hw.man hm hs with ⟨h, _⟩ | ⟨t, ht⟩
    · have := (hi.queue u).mpr (by rw [hu]; rfl)
      rw [h] at this; cases this
    · rcases hq t with e | ⟨w, e⟩ <;> rw [e] at ht <;> cases ht

theorem ev_idle {p : Event.Pc} (h : Event.phOf p = .out) : p = .idle := by
  cases p with
  | idle => rfl
  | wUnlock r => cases r <;> cases h
  | _ => cases h

theorem idle_w {s : S} {t : Nat} (h : stW s t = .out) : s.w.pc t = .idle := by
  refine Mutex.Full.phase_idle ?_
  unfold stW at h
  cases hq : Sem.phOf (s.w.pc t) <;> rw [hq] at h <;> first | rfl | cases h

theorem idle_c {s : S} {t : Nat} (h : stC s t = .out) : s.c.pc t = .idle := by
  refine Mutex.Full.phase_idle ?_
  unfold stC at h
  cases hq : Sem.phOf (s.c.pc t) <;> rw [hq] at h <;> first | rfl | cases h

theorem idle_e {s : S} {t : Nat} (h : stE s t = .out) : s.e.pc t = .idle := by
  refine ev_idle ?_
  unfold stE at h
  cases hq : Event.phOf (s.e.pc t) <;> rw [hq] at h <;> first | rfl | cases h

/-- In a quiet state the threads blocked in the objects are stuck in the lock. -/
theorem quiet_stuck {s : S} {n k : Nat} (h : Inv s n k) (hq : ∀ t, s.l.pc t = .idle ∨ inside s t) :
    (∀ t, (abs s n k).pc t = .idle ∨ stuck (abs s n k) t) ∧ ∀ t, inside s t → stuck (abs s n k) t := by
  have bw : ∀ {t w}, s.w.pc t = .wBlocked w → stW s t = .pending .waitW := fun e => by
    unfold stW; rw [e]; rfl
  have bc : ∀ {t w}, s.c.pc t = .wBlocked w → stC s t = .pending .waitC := fun e => by
    unfold stC; rw [e]; rfl
  have be : ∀ {t w}, s.e.pc t = .wBlocked w → stE s t = .pending .waitE := fun e => by
    unfold stE; rw [e]; rfl
  have hout : ∀ t, s.l.pc t = .idle → stW s t = .out ∧ stC s t = .out ∧ stE s t = .out := by
    intro t e
    refine ⟨op_out ?_, op_out ?_, op_out ?_⟩
    · cases hx : (stW s t).op with
      | none => rfl
      | some o => have := (one_w h hx).1; rw [e] at this; cases this
    · cases hx : (stC s t).op with
      | none => rfl
      | some o => have := (one_c h hx).1; rw [e] at this; cases this
    · cases hx : (stE s t).op with
      | none => rfl
      | some o => have := (one_e h hx).1; rw [e] at this; cases this
  have qw : ∀ t, s.w.pc t = .idle ∨ ∃ w, s.w.pc t = .wBlocked w := fun t => by
    rcases hq t with e | ⟨w, e⟩ | ⟨w, e⟩ | ⟨w, e⟩
    · exact Or.inl (idle_w (hout t e).1)
    · exact Or.inr ⟨w, e⟩
    · exact Or.inl (idle_w (one_c h (by rw [bc e]; rfl)).2.1)
    · exact Or.inl (idle_w (one_e h (by rw [be e]; rfl)).2.1)
  have qc : ∀ t, s.c.pc t = .idle ∨ ∃ w, s.c.pc t = .wBlocked w := fun t => by
    rcases hq t with e | ⟨w, e⟩ | ⟨w, e⟩ | ⟨w, e⟩
    · exact Or.inl (idle_c (hout t e).2.1)
    · exact Or.inl (idle_c (one_w h (by rw [bw e]; rfl)).2.1)
    · exact Or.inr ⟨w, e⟩
    · exact Or.inl (idle_c (one_e h (by rw [be e]; rfl)).2.2)
  have qe : ∀ t, s.e.pc t = .idle ∨ ∃ w, s.e.pc t = .wBlocked w := fun t => by
    rcases hq t with e | ⟨w, e⟩ | ⟨w, e⟩ | ⟨w, e⟩
    · exact Or.inl (idle_e (hout t e).2.2)
    · exact Or.inl (idle_e (one_w h (by rw [bw e]; rfl)).2.2)
    · exact Or.inl (idle_e (one_c h (by rw [bc e]; rfl)).2.2)
    · exact Or.inr ⟨w, e⟩
  have hst : ∀ t, inside s t → stuck (abs s n k) t := by
    rintro t (⟨w, e⟩ | ⟨w, e⟩ | ⟨w, e⟩)
    · have h0 := blocked_zero h.w h.ww e qw
      have hx := one_w h (t := t) (o := .waitW) (by rw [bw e]; rfl)
      have hpc : (abs s n k).pc t = s.l.pc t := absG_pc (by rw [tot_w hx.2, bw e]; rfl)
      have hws : (abs s n k).wsem = false := by
        show decide (n = 1) = false
        rw [h0]; rfl
      unfold stuck
      rw [hpc, hws]
      have := hx.1
      cases hp : s.l.pc t <;> rw [hp] at this <;> first | (cases this; done) | simp
    · have h0 := blocked_zero h.c h.cw e qc
      have hx := one_c h (t := t) (o := .waitC) (by rw [bc e]; rfl)
      have hpc : (abs s n k).pc t = s.l.pc t := absG_pc (by rw [tot_c hx.2, bc e]; rfl)
      have hws : (abs s n k).csem = false := by
        show decide (k = 1) = false
        rw [h0]; rfl
      unfold stuck
      rw [hpc, hws]
      have := hx.1
      cases hp : s.l.pc t <;> rw [hp] at this <;> first | (cases this; done) | simp
    · have h0 := blocked_off h.e h.em h.ew e qe
      have hx := one_e h (t := t) (o := .waitE) (by rw [be e]; rfl)
      have hpc : (abs s n k).pc t = s.l.pc t := absG_pc (by rw [tot_e hx.2, be e]; rfl)
      have hws : (abs s n k).ev = false := h0
      unfold stuck
      rw [hpc, hws]
      have := hx.1
      cases hp : s.l.pc t <;> rw [hp] at this <;> first | (cases this; done) | simp
  refine ⟨fun t => ?_, hst⟩
  rcases hq t with e | e
  · refine Or.inl ?_
    have hx := hout t e
    rw [show (abs s n k).pc t = s.l.pc t from absG_pc (by rw [tot_w hx.2, hx.1]; rfl), e]
  · exact Or.inr (hst t e)

end Verif.RwLock.Full
