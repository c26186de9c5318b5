import Verif.Progress.Sem
import Verif.Mutex.FullLemmas

/-! # The mutex on the real semaphore: positions, and what is left to do -/

namespace Verif.Progress.Mutex

open Verif.Mutex Verif.Mutex.Full

/-- The steps of thread `t`, in the mutex code and in the semaphore. -/
def own (t : Nat) : Full.Act → Bool
  | .mutex (.run u) | .mutex (.fail u) => u == t
  | .enter u | .run u _ | .fail u => u == t
  | _ => false

/-- The calls of thread `t`. -/
def call (t : Nat) : Full.Act → Bool
  | .mutex (.callLock u _ _) | .mutex (.callUnlock u _ _) => u == t
  | _ => false

/-- Thread `t` is blocked on the condition variable of the semaphore. -/
def asleep (t : Nat) (c : Full.S) : Bool := Verif.Sem.blocked (c.s.pc t)

/-- The clock fails in the semaphore while its mutex is held (sync_util.cpp 414). -/
def clock (c : Full.S) : Full.Act → Bool
  | .fail t => Sem.clock c.s (.fail t)
  | _ => false

/-- Steps left outside the semaphore, from a position outside it. -/
def out : Pc → Nat
  | .idle => 0
  | .lUnl _ => 1
  | .lCnt _ => 2
  | .lOwn _ => 3
  | .lCs2 _ => 4
  | .lWait _ _ => 9
  | .lOut _ _ => 10
  | .lStore _ _ => 2
  | .lLoad _ => 3
  | .lTest _ _ => 11
  | .lCs _ _ => 12
  | .uUnl _ _ => 1
  | .uBad _ _ => 1
  | .uRel _ _ => 9
  | .uOwn _ _ => 10
  | .uZero _ _ => 11
  | .uStore _ _ _ => 12
  | .uLoad _ _ => 13
  | .uAll _ _ => 14
  | .uTest _ _ => 15
  | .uCs _ _ => 16

/-- Steps left after the semaphore function returned. -/
def rest : Pc → Nat
  | .lWait _ _ => 4
  | .uRel _ _ => 1
  | _ => 0

def left (p : Sem.Pc) (q : Pc) : Nat :=
  Sem.left p + match p with
    | .idle => out q
    | _ => rest q

theorem left_idle (q : Pc) : left .idle q = out q := by
  show 0 + out q = out q
  omega

theorem left_in {p : Sem.Pc} (h : p ≠ .idle) (q : Pc) : left p q = Sem.left p + rest q := by
  unfold left
  cases p <;> first | exact absurd rfl h | rfl

def Good (c : Full.S) : Prop := ∃ n, Full.Inv c n ∧ Owned (abs c (decide (n = 1)))

theorem good_init : Good Full.init := by
  refine ⟨1, Full.init_inv, ?_⟩
  intro t o h
  cases h

theorem good_step {c c' : Full.S} {a : Full.Act} {ls : List Label} (h : Good c)
    (he : Full.step c a = .ok (some (c', ls))) : Good c' := by
  obtain ⟨n, hi, ho⟩ := h
  obtain ⟨r, hr, hs⟩ := step_same (a := a) hi ho
  rw [he] at hr
  cases hr
  obtain ⟨n', as, hi', hx, -⟩ := hs c' ls rfl
  exact ⟨n', hi', exec_owned ho hx⟩

theorem Good.owned {c : Full.S} (h : Good c) : Owned c.m := by
  obtain ⟨n, hi, ho⟩ := h
  intro t o ht
  refine ho t o ?_
  show critAt (adv _ (c.m.pc t)) = some o
  generalize Verif.Sem.phOf (c.s.pc t) = p
  cases p <;> cases hq : c.m.pc t <;> rw [hq] at ht <;> exact ht

def Effect (t : Nat) (c : Full.S) (a : Full.Act) (c' : Full.S) : Prop :=
  left (c'.s.pc t) (c'.m.pc t) + (own t a).toNat ≤
    left (c.s.pc t) (c.m.pc t) + 16 * (call t a).toNat + 2 * (asleep t c' && !asleep t c).toNat

theorem run_out {m m' : Verif.Mutex.S} {u : Nat} {ls : List Label} (hs : atSem (m.pc u) = false)
    (h : Verif.Mutex.run m u = .ok (some (m', ls))) : out (m'.pc u) + 1 ≤ out (m.pc u) := by
  have gp : ∀ (m1 : Verif.Mutex.S) (p : Pc), (m1.goto u p).pc u = p := fun m1 p => if_pos rfl
  have gl : ∀ o p, lock m u o p = .ok (some (m', ls)) → m'.pc u = p := by
    intro o p hl
    unfold lock at hl
    split at hl <;> cases hl
    exact gp _ _
  have gu : ∀ o p l, unlock m u o p l = .ok (some (m', ls)) → m'.pc u = p := by
    intro o p l hl
    unfold unlock at hl
    split at hl <;> cases hl
    exact gp _ _
  unfold Verif.Mutex.run at h
  cases hp : m.pc u <;> rw [hp] at h hs <;> first | (cases hs; done) | dsimp only at h
  case idle => cases h
  all_goals first
    | (rw [gl _ _ h]; simp [out]; done)
    | (rw [gu _ _ _ h]; simp [out]; done)
    | (split at h <;> cases h <;> rw [gp] <;> simp [out]; done)
    | (cases h; rw [gp]; simp [out]; done)

theorem fail_out {m m' : Verif.Mutex.S} {u : Nat} {ls : List Label} (hs : atSem (m.pc u) = false)
    (h : Verif.Mutex.fail m u = some (m', ls)) : out (m'.pc u) + 1 ≤ out (m.pc u) := by
  have gp : ∀ (m1 : Verif.Mutex.S) (p : Pc), (m1.goto u p).pc u = p := fun m1 p => if_pos rfl
  unfold Verif.Mutex.fail at h
  cases hp : m.pc u <;> rw [hp] at h hs <;> first | (cases hs; done) | dsimp only at h
  all_goals first
    | (cases h; rw [gp]; simp [out]; done)
    | cases h

/-- A step outside the semaphore. -/
theorem mutex_effect {t : Nat} {c c' : Full.S} {a : Verif.Mutex.Act} {ls : List Label} (hc : Coh c)
    (h : Full.step c (.mutex a) = .ok (some (c', ls))) : Effect t c (.mutex a) c' := by
  unfold Full.step at h
  dsimp only at h
  split at h
  · cases h
  · rename_i hs
    have hs : atSem (c.m.pc (actor a)) = false := by simpa using hs
    have hidle : c.s.pc (actor a) = .idle := phase_idle (hc.out hs)
    cases hm : Verif.Mutex.step c.m a with
    | error e => rw [hm] at h; cases h
    | ok r =>
      rw [hm, ok_bind] at h
      cases r with
      | none => cases h
      | some x =>
        obtain ⟨m', l⟩ := x
        cases h
        unfold Effect
        have hsl : asleep t ({ m := m', s := c.s } : Full.S) = asleep t c := rfl
        show left (c.s.pc t) (m'.pc t) + _ ≤ _
        by_cases e : t = actor a
        · rw [e, hidle, left_idle, left_idle]
          cases a with
          | run u =>
            have := run_out hs hm
            simp only [actor, own, call, beq_self_eq_true, Bool.toNat_true, Bool.toNat_false] at *
            omega
          | fail u =>
            have := fail_out hs (Except.ok.inj hm)
            simp only [actor, own, call, beq_self_eq_true, Bool.toNat_true, Bool.toNat_false] at *
            omega
          | callLock u o w =>
            unfold Verif.Mutex.step at hm
            dsimp only at hm
            split at hm <;> cases hm
            show out (if u = u then Pc.lCs o w else c.m.pc u) + _ ≤ _
            rw [if_pos rfl]
            simp only [actor, own, call, beq_self_eq_true, Bool.toNat_true, Bool.toNat_false, out]
            omega
          | callUnlock u o w =>
            unfold Verif.Mutex.step at hm
            dsimp only at hm
            split at hm <;> cases hm
            show out (if u = u then Pc.uCs o w else c.m.pc u) + _ ≤ _
            rw [if_pos rfl]
            simp only [actor, own, call, beq_self_eq_true, Bool.toNat_true, Bool.toNat_false, out]
            omega
        · rw [step_moves m' _ hm t e]
          have : own t (.mutex a) = false := by
            cases a <;> first | rfl | exact beq_eq_false_iff_ne.mpr (fun h => e h.symm)
          rw [this]
          simp only [Bool.toNat_false]
          omega

/-- The call of a semaphore function. -/
theorem enter_effect {t u : Nat} {c c' : Full.S} {ls : List Label}
    (h : Full.step c (.enter u) = .ok (some (c', ls))) : Effect t c (.enter u) c' := by
  unfold Full.step entry at h
  dsimp only at h
  cases hp : c.m.pc u <;> rw [hp] at h <;> first | (cases h; done) | dsimp only at h
  case lWait o w =>
    unfold Verif.Sem.step at h
    dsimp only at h
    rw [ok_bind] at h
    split at h <;> cases h
    rename_i hi
    unfold Effect
    show left (if t = u then Sem.Pc.wLock w else c.s.pc t) (c.m.pc t) + ((u == t)).toNat ≤ _
    by_cases e : t = u
    · subst e
      rw [if_pos rfl, hp, hi, beq_self_eq_true]
      simp only [left, Sem.left, rest, out, Bool.toNat_true]
      omega
    · rw [if_neg e, beq_eq_false_iff_ne.mpr (Ne.symm e)]
      simp only [Bool.toNat_false]
      omega
  case uRel o w =>
    unfold Verif.Sem.step at h
    dsimp only at h
    rw [ok_bind] at h
    split at h <;> cases h
    rename_i hi
    unfold Effect
    show left (if t = u then Sem.Pc.rLock else c.s.pc t) (c.m.pc t) + ((u == t)).toNat ≤ _
    by_cases e : t = u
    · subst e
      rw [if_pos rfl, hp, hi, beq_self_eq_true]
      simp only [left, Sem.left, rest, out, Bool.toNat_true]
      omega
    · rw [if_neg e, beq_eq_false_iff_ne.mpr (Ne.symm e)]
      simp only [Bool.toNat_false]
      omega

theorem react_other {m : Verif.Mutex.S} {l : Sem.Label} {t : Nat} (h : Verif.Sem.Spec.who l ≠ t) :
    (react m l).1.pc t = m.pc t := by
  have g : ∀ (u : Nat) (p : Pc), u ≠ t → (m.goto u p).pc t = m.pc t := fun u p hu => if_neg (Ne.symm hu)
  unfold react
  cases l <;> dsimp only <;> first | rfl | skip
  all_goals
    split
    all_goals first
      | rfl
      | exact g _ _ h
      | (split <;> first | rfl | exact g _ _ h)

theorem reacts_one' (m : Verif.Mutex.S) (l : Sem.Label) : (reacts m [l]).1 = (react m l).1 := rfl

/-- A step inside the semaphore. -/
theorem sem_effect {t : Nat} {c c' : Full.S} {a : Sem.Act} {b : Full.Act} {ls : List Label}
    (hc : Coh c) {n : Nat} (hi : Verif.Sem.Inv c.s n)
    (ho : own t b = Sem.own t a) (hb : call t b = false) (hn : ∀ u, Sem.call u a = false)
    (h : (do let r ← Verif.Sem.step c.s a; .ok (inSem c r) : CRes _) = .ok (some (c', ls))) :
    Effect t c b c' := by
  cases hs : Verif.Sem.step c.s a with
  | error e => rw [hs] at h; cases h
  | ok r =>
    rw [hs, ok_bind] at h
    cases r with
    | none => cases h
    | some x =>
      obtain ⟨s', l⟩ := x
      cases h
      have he := Sem.step_effect (t := t) hs
      unfold Sem.Effect at he
      rw [hn t] at he
      obtain ⟨r, hr, hok⟩ := Verif.Sem.step_ok (a := a) hi
      rw [hs] at hr
      cases hr
      obtain ⟨n', hi', -, -, hph⟩ := hok s' l rfl
      have hph := hph t
      unfold Effect
      rw [ho, hb]
      show left (s'.pc t) ((reacts c.m l).1.pc t) + _ ≤ left (c.s.pc t) (c.m.pc t) + 16 * 0 +
        2 * (Sem.asleep t s' && !Sem.asleep t c.s).toNat
      have stay : (c.s.pc t = .idle ↔ s'.pc t = .idle) → (reacts c.m l).1.pc t = c.m.pc t →
          left (s'.pc t) ((reacts c.m l).1.pc t) + (Sem.own t a).toNat ≤
            left (c.s.pc t) (c.m.pc t) + 16 * 0 + 2 * (Sem.asleep t s' && !Sem.asleep t c.s).toNat := by
        intro hd hm
        rw [hm]
        by_cases hz : c.s.pc t = .idle
        · rw [hz, hd.1 hz] at he ⊢
          simp only [Sem.left, Bool.toNat_false] at he
          omega
        · rw [left_in hz, left_in (fun e => hz (hd.2 e))]
          simp only [Bool.toNat_false] at he
          omega
      have same : Verif.Sem.phOf (s'.pc t) = Verif.Sem.phOf (c.s.pc t) →
          (c.s.pc t = .idle ↔ s'.pc t = .idle) := by
        intro e
        constructor
        · intro hz; rw [hz] at e; exact phase_idle e
        · intro hz; rw [hz] at e; exact phase_idle e.symm
      rcases labels_short hs with rfl | ⟨x, rfl, -, hcall⟩
      · exact stay (same (Option.some.inj hph).symm) rfl
      · by_cases hw : Verif.Sem.Spec.who x = t
        · have hmv : Verif.Sem.Spec.move (Verif.Sem.phOf (c.s.pc t)) x = some (Verif.Sem.phOf (s'.pc t)) := by
            rw [← hph]
            unfold Verif.Sem.Spec.phase
            rw [if_pos hw]
            rfl
          have hct := hc t
          cases x with
          | callWait u w =>
            rcases hcall rfl with ⟨v, w', ha, -⟩ | ⟨v, ha, -⟩
            · have := hn v; rw [ha] at this; simp [Sem.call] at this
            · have := hn v; rw [ha] at this; simp [Sem.call] at this
          | callRelease u =>
            rcases hcall rfl with ⟨v, w', ha, -⟩ | ⟨v, ha, -⟩
            · have := hn v; rw [ha] at this; simp [Sem.call] at this
            · have := hn v; rw [ha] at this; simp [Sem.call] at this
          | take u =>
            obtain ⟨h1, h2⟩ := move_take hmv
            refine stay ⟨fun e => ?_, fun e => ?_⟩ ?_
            · rw [e] at h1; cases h1
            · rw [e] at h2; cases h2
            · rw [reacts_one']
              unfold react
              dsimp only
              split <;> rfl
          | give u k =>
            obtain ⟨h1, h2⟩ := move_give hmv
            refine stay ⟨fun e => ?_, fun e => ?_⟩ ?_
            · rw [e] at h1; cases h1
            · rw [e] at h2; cases h2
            · rw [reacts_one']
              unfold react
              dsimp only
              split <;> rfl
          | retWait u r =>
            have hw : u = t := hw
            subst hw
            obtain ⟨h2, h1⟩ := move_ret hmv
            have hz : c.s.pc u ≠ .idle := by
              intro e; rw [e] at h1; cases r <;> cases h1
            obtain ⟨o, w, hq⟩ := coh_waiting hct (by rw [h1]; cases r <;> simp)
            have hs0 : s'.pc u = .idle := phase_idle h2
            rw [reacts_one']
            unfold react
            dsimp only
            rw [hq, hs0] at *
            rw [left_idle, left_in hz]
            simp only [Bool.toNat_false] at he
            dsimp only
            cases r with
            | true =>
              show out (if u = u then Pc.lCs2 o else _) + _ ≤ _
              rw [if_pos rfl]
              simp only [out, rest]
              omega
            | false =>
              show out (if u = u then Pc.idle else _) + _ ≤ _
              rw [if_pos rfl]
              simp only [out, rest]
              omega
          | retRelease u r k =>
            have hw : u = t := hw
            subst hw
            obtain ⟨h2, h1⟩ := move_rel hmv
            have hrel : Verif.Sem.phOf (c.s.pc u) = .releasing ∨ ∃ k, Verif.Sem.phOf (c.s.pc u) = .gave k := by
              cases r with
              | true => exact .inr ⟨k, by simpa using h1⟩
              | false => exact .inl (by simpa using h1)
            have hz : c.s.pc u ≠ .idle := by
              intro e; rw [e] at hrel; rcases hrel with h | ⟨_, h⟩ <;> cases h
            obtain ⟨o, w, hq⟩ := coh_releasing hct hrel
            have hs0 : s'.pc u = .idle := phase_idle h2
            rw [reacts_one']
            unfold react
            dsimp only
            rw [hq, hs0] at *
            rw [left_idle, left_in hz]
            simp only [Bool.toNat_false] at he
            show out (if u = u then Pc.uUnl o w else _) + _ ≤ _
            rw [if_pos rfl]
            simp only [out, rest]
            omega
        · refine stay (same ?_) ?_
          · rw [phase_other hw] at hph
            exact (Option.some.inj hph).symm
          · rw [reacts_one']
            exact react_other hw

theorem step_effect {t : Nat} {c c' : Full.S} {a : Full.Act} {ls : List Label} (h : Good c)
    (he : Full.step c a = .ok (some (c', ls))) : Effect t c a c' := by
  obtain ⟨n, hi, -⟩ := h
  cases a with
  | mutex a => exact mutex_effect hi.coh he
  | enter u => exact enter_effect he
  | run u pick => exact sem_effect (a := .run u pick) hi.coh hi.sem rfl rfl (fun _ => rfl) he
  | fail u => exact sem_effect (a := .fail u) hi.coh hi.sem rfl rfl (fun _ => rfl) he
  | wake u z => exact sem_effect (a := .wake u z) hi.coh hi.sem rfl rfl (fun _ => rfl) he

/-! ## Who holds the locks -/

/-- Whoever holds the critical section of an object is in it. -/
def HeldCs (m : Verif.Mutex.S) : Prop := ∀ o t, m.cs o = some t → critAt (m.pc t) = some o

theorem cs_goto {m m1 : Verif.Mutex.S} {u : Nat} {p : Pc} (h : HeldCs m) (hp : m1.pc = m.pc)
    (ho : (m1.cs = m.cs ∧ critAt p = critAt (m.pc u)) ∨
      (∃ o, m1.cs = setAt m.cs o (some u) ∧ critAt (m.pc u) = none ∧ critAt p = some o) ∨
      (∃ o, m1.cs = setAt m.cs o none ∧ critAt (m.pc u) = some o)) : HeldCs (m1.goto u p) := by
  intro o t ht
  have ht : m1.cs o = some t := ht
  show critAt (if t = u then p else m1.pc t) = some o
  rw [hp]
  rcases ho with ⟨h1, h2⟩ | ⟨o', h1, h2, h3⟩ | ⟨o', h1, h2⟩
  · rw [h1] at ht
    have := h o t ht
    by_cases e : t = u
    · rw [if_pos e, h2, ← e]; exact this
    · rw [if_neg e]; exact this
  · rw [h1] at ht
    by_cases e : o = o'
    · subst e
      rw [setAt, if_pos rfl] at ht
      cases ht
      rw [if_pos rfl]; exact h3
    · rw [setAt, if_neg e] at ht
      have := h o t ht
      by_cases e : t = u
      · rw [e, h2] at this; cases this
      · rw [if_neg e]; exact this
  · rw [h1] at ht
    by_cases e : o = o'
    · subst e
      rw [setAt, if_pos rfl] at ht
      cases ht
    · rw [setAt, if_neg e] at ht
      have := h o t ht
      by_cases e2 : t = u
      · rw [e2, h2] at this; exact absurd (Option.some.inj this).symm e
      · rw [if_neg e2]; exact this

theorem run_cs {m m' : Verif.Mutex.S} {u : Nat} {ls : List Label} (hh : HeldCs m)
    (h : Verif.Mutex.run m u = .ok (some (m', ls))) : HeldCs m' := by
  have gl : ∀ o p, critAt (m.pc u) = none → critAt p = some o → lock m u o p = .ok (some (m', ls)) →
      HeldCs m' := by
    intro o p h1 h2 hl
    unfold lock at hl
    split at hl <;> cases hl
    exact cs_goto (m1 := { m with cs := setAt m.cs o (some u) }) hh rfl (.inr (.inl ⟨o, rfl, h1, h2⟩))
  have gu : ∀ o p l, critAt (m.pc u) = some o → unlock m u o p l = .ok (some (m', ls)) → HeldCs m' := by
    intro o p l h1 hl
    unfold unlock at hl
    split at hl <;> cases hl
    exact cs_goto (m1 := { m with cs := setAt m.cs o none }) hh rfl (.inr (.inr ⟨o, rfl, h1⟩))
  unfold Verif.Mutex.run at h
  cases hp : m.pc u <;> rw [hp] at h <;> dsimp only at h
  all_goals first
    | (cases h; done)
    | exact gl _ _ (by rw [hp]; rfl) rfl h
    | exact gu _ _ _ (by rw [hp]; rfl) h
    | (cases h; exact cs_goto hh rfl (.inl ⟨rfl, by rw [hp]; rfl⟩))
    | (split at h <;> cases h <;> exact cs_goto hh rfl (.inl ⟨rfl, by rw [hp]; rfl⟩))
    | skip
  case lWait o w =>
    split at h
    · cases h; exact cs_goto hh rfl (.inl ⟨rfl, by rw [hp]; rfl⟩)
    · split at h <;> cases h
      exact cs_goto hh rfl (.inl ⟨rfl, by rw [hp]; rfl⟩)

theorem step_cs {m m' : Verif.Mutex.S} {a : Verif.Mutex.Act} {ls : List Label} (hh : HeldCs m)
    (h : Verif.Mutex.step m a = .ok (some (m', ls))) : HeldCs m' := by
  cases a with
  | run u => exact run_cs hh h
  | fail u =>
    unfold Verif.Mutex.step Verif.Mutex.fail at h
    dsimp only at h
    cases hp : m.pc u <;> rw [hp] at h <;> dsimp only at h <;> cases h <;>
      exact cs_goto hh rfl (.inl ⟨rfl, by rw [hp]; rfl⟩)
  | _ =>
    unfold Verif.Mutex.step at h
    dsimp only at h
    split at h <;> cases h
    rename_i hp
    exact cs_goto hh rfl (.inl ⟨rfl, by rw [hp]; rfl⟩)

theorem react_crit (m : Verif.Mutex.S) (l : Sem.Label) :
    (react m l).1.cs = m.cs ∧ ∀ t, critAt ((react m l).1.pc t) = critAt (m.pc t) := by
  have g : ∀ (u : Nat) (p : Pc), critAt p = critAt (m.pc u) →
      ((m.goto u p).cs = m.cs ∧ ∀ t, critAt ((m.goto u p).pc t) = critAt (m.pc t)) := by
    intro u p h
    refine ⟨rfl, fun t => ?_⟩
    show critAt (if t = u then p else m.pc t) = _
    by_cases e : t = u
    · rw [if_pos e, h, e]
    · rw [if_neg e]
  unfold react
  cases l <;> dsimp only <;> first | exact ⟨rfl, fun _ => rfl⟩ | skip
  all_goals
    split
    all_goals first
      | exact ⟨rfl, fun _ => rfl⟩
      | (rename_i hq; exact g _ _ (by rw [hq]; rfl))
      | (rename_i hq; split <;> exact g _ _ (by rw [hq]; rfl))

theorem reacts_crit (ls : List Sem.Label) (m : Verif.Mutex.S) :
    (reacts m ls).1.cs = m.cs ∧ ∀ t, critAt ((reacts m ls).1.pc t) = critAt (m.pc t) := by
  induction ls generalizing m with
  | nil => exact ⟨rfl, fun _ => rfl⟩
  | cons l ls ih =>
    obtain ⟨h1, h2⟩ := react_crit m l
    obtain ⟨h3, h4⟩ := ih (react m l).1
    exact ⟨h3.trans h1, fun t => (h4 t).trans (h2 t)⟩

/-- Both kinds of locks. -/
def Held (c : Full.S) : Prop := HeldCs c.m ∧ Sem.Held c.s

theorem sem_held {c c' : Full.S} {a : Sem.Act} {ls : List Label} (hh : Held c)
    (hb : Sem.clock c.s a = false)
    (h : (do let r ← Verif.Sem.step c.s a; .ok (inSem c r) : CRes _) = .ok (some (c', ls))) : Held c' := by
  cases hs : Verif.Sem.step c.s a with
  | error e => rw [hs] at h; cases h
  | ok r =>
    rw [hs, ok_bind] at h
    cases r with
    | none => cases h
    | some x =>
      obtain ⟨s', l⟩ := x
      cases h
      obtain ⟨h1, h2⟩ := reacts_crit l c.m
      refine ⟨fun o t ht => ?_, Sem.step_held hh.2 hb hs⟩
      show critAt ((reacts c.m l).1.pc t) = some o
      rw [h2]
      refine hh.1 o t ?_
      rw [← h1]
      exact ht

theorem step_held {c c' : Full.S} {a : Full.Act} {ls : List Label} (hh : Held c) (hb : clock c a = false)
    (h : Full.step c a = .ok (some (c', ls))) : Held c' := by
  cases a with
  | mutex a =>
    unfold Full.step at h
    dsimp only at h
    split at h
    · cases h
    · cases hm : Verif.Mutex.step c.m a with
      | error e => rw [hm] at h; cases h
      | ok r =>
        rw [hm, ok_bind] at h
        cases r with
        | none => cases h
        | some x =>
          obtain ⟨m', l⟩ := x
          cases h
          exact ⟨step_cs hh.1 hm, hh.2⟩
  | enter u =>
    unfold Full.step entry at h
    dsimp only at h
    cases hp : c.m.pc u <;> rw [hp] at h <;> first | (cases h; done) | exact sem_held hh rfl h
  | run u pick => exact sem_held (a := .run u pick) hh rfl h
  | fail u => exact sem_held (a := .fail u) hh hb h
  | wake u z => exact sem_held (a := .wake u z) hh rfl h

/-! ## Who can go on -/

/-- One of the steps of thread `t`, other than a failure, is possible. -/
def Goes (c : Full.S) (t : Nat) : Prop :=
  ∃ a r, (a = .mutex (.run t) ∨ a = .enter t ∨ ∃ pick, a = .run t pick) ∧ Full.step c a = .ok (some r)

theorem goes_sem {c : Full.S} {t pick : Nat} {r : Sem.S × List Sem.Label}
    (h : Verif.Sem.run c.s t pick = .ok (some r)) : Goes c t := by
  refine ⟨.run t pick, ?_, .inr (.inr ⟨pick, rfl⟩), ?_⟩
  rotate_left
  show (do let r ← Verif.Sem.run c.s t pick; .ok (inSem c r) : CRes _) = _
  rw [h]
  rfl

/-- A thread about to enter the semaphore can do so. -/
theorem goes_enter {c : Full.S} {t : Nat} (hi : c.s.pc t = .idle) (hs : atSem (c.m.pc t) = true) : Goes c t := by
  cases hp : c.m.pc t <;> rw [hp] at hs <;> first | (cases hs; done) | skip
  case lWait o w =>
    refine ⟨.enter t, ?_, .inr (.inl rfl), ?_⟩
    rotate_left
    unfold Full.step entry
    dsimp only
    rw [hp]
    dsimp only
    unfold Verif.Sem.step
    dsimp only
    rw [if_pos hi]
    rfl
  case uRel o all =>
    refine ⟨.enter t, ?_, .inr (.inl rfl), ?_⟩
    rotate_left
    unfold Full.step entry
    dsimp only
    rw [hp]
    dsimp only
    unfold Verif.Sem.step
    dsimp only
    rw [if_pos hi]
    rfl

theorem goes_run {c : Full.S} {t : Nat} {r : Verif.Mutex.S × List Label} (hs : atSem (c.m.pc t) = false)
    (h : Verif.Mutex.run c.m t = .ok (some r)) : Goes c t := by
  refine ⟨.mutex (.run t), ?_, .inl rfl, ?_⟩
  rotate_left
  show (if atSem (c.m.pc t) then _ else (do let r ← Verif.Mutex.run c.m t; .ok (inMutex c r) : CRes _)) = _
  rw [hs, h]
  rfl

/-- A thread in the critical section of an object, outside the semaphore. -/
theorem goes_crit {c : Full.S} {t o : Nat} (ho : c.m.cs o = some t) (hc : critAt (c.m.pc t) = some o)
    (hs : atSem (c.m.pc t) = false) : Goes c t := by
  have hu : ∀ p l, ∃ r, unlock c.m t o p l = .ok (some r) := fun p l => ⟨_, by rw [unlock, if_pos ho]⟩
  suffices h : ∃ r, Verif.Mutex.run c.m t = .ok (some r) by
    obtain ⟨r, hr⟩ := h
    exact goes_run hs hr
  unfold Verif.Mutex.run
  cases hp : c.m.pc t <;> rw [hp] at hc hs <;> first | (cases hc; done) | (cases hs; done) | dsimp only
  all_goals
    cases hc
    first
      | exact hu _ _
      | exact ⟨_, rfl⟩
      | (split <;> exact ⟨_, rfl⟩)

theorem goes {c : Full.S} {t : Nat} (hg : Good c) (hh : Held c) (h1 : c.m.pc t ≠ .idle)
    (h2 : asleep t c = false) :
    Goes c t ∨ ∃ u, u ≠ t ∧ (c.s.owner = some u ∨ ∃ o, c.m.cs o = some u) ∧ Goes c u := by
  have hown := hg.owned
  obtain ⟨n, hi, -⟩ := hg
  by_cases hidle : c.s.pc t = .idle
  · cases hs : atSem (c.m.pc t) with
    | true => exact .inl (goes_enter hidle hs)
    | false =>
      cases hc : critAt (c.m.pc t) with
      | some o => exact .inl (goes_crit (hown t o hc) hc hs)
      | none =>
        -- waits for the critical section of an object
        have hl : ∃ o p, Verif.Mutex.run c.m t = lock c.m t o p := by
          unfold Verif.Mutex.run
          cases hp : c.m.pc t <;> rw [hp] at hc hs h1 <;>
            first | (cases hc; done) | (cases hs; done) | exact absurd rfl h1 | exact ⟨_, _, rfl⟩
        obtain ⟨o, p, hl⟩ := hl
        cases hcs : c.m.cs o with
        | none =>
          have : ∃ r, lock c.m t o p = .ok (some r) := by
            unfold lock
            rw [hcs]
            exact ⟨_, rfl⟩
          obtain ⟨r, hr⟩ := this
          exact .inl (goes_run hs (hl.trans hr))
        | some v =>
          right
          have hv := hh.1 o v hcs
          have hvt : v ≠ t := by intro e; rw [e, hc] at hv; cases hv
          by_cases hvi : c.s.pc v = .idle
          · refine ⟨v, hvt, .inr ⟨o, hcs⟩, ?_⟩
            cases hvs : atSem (c.m.pc v) with
            | true => exact goes_enter hvi hvs
            | false => exact goes_crit hcs hv hvs
          · have hb : Verif.Sem.blocked (c.s.pc v) = false := by
              cases hx : Verif.Sem.blocked (c.s.pc v) with
              | false => rfl
              | true =>
                have hw : Verif.Sem.phOf (c.s.pc v) = .waiting := by
                  cases hy : c.s.pc v <;> rw [hy] at hx <;> first | rfl | (cases hx; done)
                obtain ⟨o', w, hq⟩ := coh_waiting (hi.coh v) (.inl hw)
                rw [hq] at hv
                cases hv
            rcases Sem.goes hi.sem hh.2 hvi hb with ⟨pick, r, hr⟩ | ⟨u, -, hu, pick, r, hr⟩
            · exact ⟨v, hvt, .inr ⟨o, hcs⟩, goes_sem hr⟩
            · refine ⟨u, ?_, .inl hu, goes_sem hr⟩
              intro e
              have := hh.2 u hu
              rw [e, hidle] at this
              cases this
  · rcases Sem.goes hi.sem hh.2 hidle h2 with ⟨pick, r, hr⟩ | ⟨u, hut, hu, pick, r, hr⟩
    · exact .inl (goes_sem hr)
    · exact .inr ⟨u, hut, .inl hu, goes_sem hr⟩

end Verif.Progress.Mutex
