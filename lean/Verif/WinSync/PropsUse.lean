import Verif.WinSync.PropsLife

/-!
# C106, C108: shared memory, and using semaphores and events, on Windows
-/

namespace Verif.WinSync
open Spec

theorem leads_some {w : W} {i h k : Nat} {o : Obj} (ho : w.objs[i]? = some (some o)) (hs : o.hs = [some h]) (hk : w.handles[h]? = some (some k)) :
    leads w i = some k := by
  unfold leads
  rw [ho]
  dsimp only
  rw [hs]
  show (w.handles[h]?).join = _
  rw [hk]; rfl

theorem leads_none {w : W} {i : Nat} {o : Obj} (ho : w.objs[i]? = some (some o)) (hs : o.hs = [none]) : leads w i = none := by
  unfold leads
  rw [ho]
  dsimp only
  rw [hs]; rfl

theorem setK_kobj {w : W} {k j : Nat} {st : KSt} {o : KObj} (h : w.kobjs[j]? = some o) :
    (setK w k st).kobjs[j]? = some (if j = k then { o with st := st } else o) := setK_get h

/-- What a call on a semaphore does. -/
theorem semLock_eq {w f cs} (hi : Inv True w f cs) {i : Nat} (hl : cs[i]? = some (some .sem)) (fails : Bool) :
    (leads w i = none ∧ step w (.semLock i fails) = .ok (⟨false, none⟩, w)) ∨
    ∃ k n c m, leads w i = some k ∧ w.kobjs[k]? = some ⟨n, .sem c m⟩ ∧ step w (.semLock i fails) =
      .ok (if fails = false ∧ 0 < c then (⟨true, none⟩, setK w k (.sem (c - 1) m)) else (⟨false, none⟩, w)) := by
  obtain ⟨o, ho, h⟩ := sem_target hi hl
  unfold step semLock
  dsimp only
  rw [getObj_ok ho, ok_bind]
  rcases h with h | ⟨h, k, ⟨n, st⟩, c, m, e1, e2, e3, e4⟩
  · exact .inl ⟨leads_none ho h, by rw [h]; rfl⟩
  · have e4 : st = .sem c m := e4
    subst e4
    refine .inr ⟨k, n, c, m, leads_some ho e1 e2, e3, ?_⟩
    rw [e1]
    dsimp only
    rw [handle_ok e2, ok_bind, kstate_ok e3, ok_bind]
    dsimp only
    split <;> rfl

theorem semUnlock_eq {w f cs} (hi : Inv True w f cs) {i : Nat} (hl : cs[i]? = some (some .sem)) (fails : Bool) :
    (leads w i = none ∧ step w (.semUnlock i fails) = .ok (⟨false, none⟩, w)) ∨
    ∃ k n c m, leads w i = some k ∧ w.kobjs[k]? = some ⟨n, .sem c m⟩ ∧ step w (.semUnlock i fails) =
      .ok (if fails = false ∧ c < m then (⟨true, some c⟩, setK w k (.sem (c + 1) m)) else (⟨false, none⟩, w)) := by
  obtain ⟨o, ho, h⟩ := sem_target hi hl
  unfold step semUnlock
  dsimp only
  rw [getObj_ok ho, ok_bind]
  rcases h with h | ⟨h, k, ⟨n, st⟩, c, m, e1, e2, e3, e4⟩
  · exact .inl ⟨leads_none ho h, by rw [h]; rfl⟩
  · have e4 : st = .sem c m := e4
    subst e4
    refine .inr ⟨k, n, c, m, leads_some ho e1 e2, e3, ?_⟩
    rw [e1]
    dsimp only
    rw [handle_ok e2, ok_bind, kstate_ok e3, ok_bind]
    dsimp only
    split <;> rfl

theorem evWait_eq {w f cs} (hi : Inv True w f cs) {i : Nat} (hl : cs[i]? = some (some .event)) (fails : Bool) :
    (leads w i = none ∧ step w (.evWait i fails) = .ok (⟨false, none⟩, w)) ∨
    ∃ k n a b, leads w i = some k ∧ w.kobjs[k]? = some ⟨n, .event a b⟩ ∧ step w (.evWait i fails) =
      .ok (if fails = false ∧ b = true then (⟨true, none⟩, setK w k (.event a a)) else (⟨false, none⟩, w)) := by
  obtain ⟨o, ho, h⟩ := ev_target hi hl
  unfold step evWait
  dsimp only
  rw [getObj_ok ho, ok_bind]
  rcases h with h | ⟨h, k, ⟨n, st⟩, c, m, e1, e2, e3, e4⟩
  · exact .inl ⟨leads_none ho h, by rw [h]; rfl⟩
  · have e4 : st = .event c m := e4
    subst e4
    refine .inr ⟨k, n, c, m, leads_some ho e1 e2, e3, ?_⟩
    rw [e1]
    dsimp only
    rw [handle_ok e2, ok_bind, kstate_ok e3, ok_bind]
    dsimp only
    split <;> rfl

theorem evSet_eq {w f cs} (hi : Inv True w f cs) {i : Nat} (hl : cs[i]? = some (some .event)) (sig fails : Bool) :
    (leads w i = none ∧ evSet w i sig fails = .ok (false, w)) ∨
    ∃ k n a b, leads w i = some k ∧ w.kobjs[k]? = some ⟨n, .event a b⟩ ∧ evSet w i sig fails =
      .ok (if fails = false then (true, setK w k (.event a sig)) else (false, w)) := by
  obtain ⟨o, ho, h⟩ := ev_target hi hl
  unfold evSet
  rw [getObj_ok ho, ok_bind]
  rcases h with h | ⟨h, k, ⟨n, st⟩, c, m, e1, e2, e3, e4⟩
  · exact .inl ⟨leads_none ho h, by rw [h]⟩
  · have e4 : st = .event c m := e4
    subst e4
    refine .inr ⟨k, n, c, m, leads_some ho e1 e2, e3, ?_⟩
    rw [e1]
    dsimp only
    rw [handle_ok e2, ok_bind, kstate_ok e3, ok_bind]
    dsimp only
    split <;> rfl

/-! ## Semaphores -/

/-- `Lock` succeeds if and only if the count is positive and the wait does not fail. -/
theorem win_sem_lock (ops : List Op) (hl : LegalAll [] ops) {rs w} (h : exec W.init ops = .ok (rs, w)) {i : Nat}
    (hc : (ops.foldl classes [])[i]? = some (some .sem)) {k : Nat} (hk : Ref w i 0 k) (fails : Bool) :
    ∃ n c m w', w.kobjs[k]? = some ⟨n, .sem c m⟩ ∧
      step w (.semLock i fails) = .ok (⟨!fails && decide (0 < c), none⟩, w') := by
  have hi := reach hl h
  obtain ⟨o, g, h1, h2, h3⟩ := ref_obj hk
  have hk2 : leads w i = some k := by
    unfold leads; rw [h1]; dsimp only; rw [h2]; dsimp only; rw [h3]; rfl
  rcases semLock_eq hi hc fails with ⟨e, _⟩ | ⟨k', n, c, m, e1, e2, e3⟩
  · rw [hk2] at e; cases e
  · rw [hk2] at e1
    cases e1
    refine ⟨n, c, m, if fails = false ∧ 0 < c then setK w k (.sem (c - 1) m) else w, e2, ?_⟩
    rw [e3]
    cases fails <;> by_cases h0 : 0 < c <;> simp [h0]

/-- `Unlock` succeeds if and only if the count is below the maximum and the call does not fail; it reports the count before. -/
theorem win_sem_unlock (ops : List Op) (hl : LegalAll [] ops) {rs w} (h : exec W.init ops = .ok (rs, w)) {i : Nat}
    (hc : (ops.foldl classes [])[i]? = some (some .sem)) {k : Nat} (hk : Ref w i 0 k) (fails : Bool) :
    ∃ n c m w', w.kobjs[k]? = some ⟨n, .sem c m⟩ ∧
      step w (.semUnlock i fails) = .ok (⟨!fails && decide (c < m), if !fails && decide (c < m) then some c else none⟩, w') := by
  have hi := reach hl h
  obtain ⟨o, g, h1, h2, h3⟩ := ref_obj hk
  have hk2 : leads w i = some k := by
    unfold leads; rw [h1]; dsimp only; rw [h2]; dsimp only; rw [h3]; rfl
  rcases semUnlock_eq hi hc fails with ⟨e, _⟩ | ⟨k', n, c, m, e1, e2, e3⟩
  · rw [hk2] at e; cases e
  · rw [hk2] at e1
    cases e1
    refine ⟨n, c, m, if fails = false ∧ c < m then setK w k (.sem (c + 1) m) else w, e2, ?_⟩
    rw [e3]
    cases fails <;> by_cases h0 : c < m <;> simp [h0]

/-- One call. -/
theorem sem_step {w f cs} (hi : Inv True w f cs) {op : Op} (hl : Legal cs op) {r w'} (h : step w op = .ok (r, w')) {k : Nat} {n : Option Str} {c m : Nat}
    (hk : w.kobjs[k]? = some ⟨n, .sem c m⟩) :
    ∃ c' : Nat, w'.kobjs[k]? = some ⟨n, .sem c' m⟩ ∧ (c' : Int) = c + change w k op r.result ∧ (c ≤ m → c' ≤ m) := by
  obtain ⟨r1, w1, h1, _, h3, _⟩ := step_ok hi hl (.inl trivial)
  rw [h1] at h
  cases h
  have hcalm : uses op = false → change w k op r.result = 0 →
      ∃ c' : Nat, w'.kobjs[k]? = some ⟨n, .sem c' m⟩ ∧ (c' : Int) = c + change w k op r.result ∧ (c ≤ m → c' ≤ m) := by
    intro hu h0
    exact ⟨c, h3 hu k _ hk (fun e => nomatch e), by rw [h0]; omega, id⟩
  have hev : ∀ {k' n' a b st'}, w.kobjs[k']? = some ⟨n', .event a b⟩ → (setK w k' st').kobjs[k]? = some ⟨n, .sem c m⟩ := by
    intro k' n' a b st' e
    rw [setK_get hk, if_neg]
    rintro rfl
    rw [hk] at e; cases e
  cases op with
  | semLock i fails =>
    rcases semLock_eq hi hl fails with ⟨e1, e2⟩ | ⟨k', n', c', m', e1, e2, e3⟩
    · rw [e2] at h1
      cases h1
      exact ⟨c, hk, by unfold change; simp, id⟩
    · rw [e3] at h1
      split at h1
      · rename_i hcond
        cases h1
        rw [setK_get hk]
        by_cases e : k = k'
        · subst e
          rw [hk] at e2
          cases e2
          refine ⟨c - 1, by rw [if_pos rfl], ?_, fun h => by omega⟩
          unfold change
          simp only [e1, and_self, if_true]
          have := hcond.2
          omega
        · refine ⟨c, by rw [if_neg e], ?_, id⟩
          unfold change
          simp only [e1]
          rw [if_neg (fun h => e (Option.some.inj h.2).symm)]; omega
      · cases h1
        exact ⟨c, hk, by unfold change; simp, id⟩
  | semUnlock i fails =>
    rcases semUnlock_eq hi hl fails with ⟨e1, e2⟩ | ⟨k', n', c', m', e1, e2, e3⟩
    · rw [e2] at h1
      cases h1
      exact ⟨c, hk, by unfold change; simp, id⟩
    · rw [e3] at h1
      split at h1
      · rename_i hcond
        cases h1
        rw [setK_get hk]
        by_cases e : k = k'
        · subst e
          rw [hk] at e2
          cases e2
          refine ⟨c + 1, by rw [if_pos rfl], ?_, fun h => by have := hcond.2; omega⟩
          unfold change
          simp only [e1, and_self, if_true]
          omega
        · refine ⟨c, by rw [if_neg e], ?_, id⟩
          unfold change
          simp only [e1]
          rw [if_neg (fun h => e (Option.some.inj h.2).symm)]; omega
      · cases h1
        exact ⟨c, hk, by unfold change; simp, id⟩
  | evWait i fails =>
    rcases evWait_eq hi hl fails with ⟨e1, e2⟩ | ⟨k', n', a, b, e1, e2, e3⟩
    · rw [e2] at h1; cases h1; exact ⟨c, hk, by unfold change; simp, id⟩
    · rw [e3] at h1
      split at h1
      · cases h1; exact ⟨c, hev e2, by unfold change; simp, id⟩
      · cases h1; exact ⟨c, hk, by unfold change; simp, id⟩
  | evFire i fails =>
    rcases evSet_eq hi hl true fails with ⟨e1, e2⟩ | ⟨k', n', a, b, e1, e2, e3⟩
    · have h1 : plain (evSet w i true fails) = _ := h1
      rw [e2] at h1; cases h1; exact ⟨c, hk, by unfold change; simp, id⟩
    · have h1 : plain (evSet w i true fails) = _ := h1
      rw [e3] at h1
      split at h1
      · cases h1; exact ⟨c, hev e2, by unfold change; simp, id⟩
      · cases h1; exact ⟨c, hk, by unfold change; simp, id⟩
  | evReset i fails =>
    rcases evSet_eq hi hl false fails with ⟨e1, e2⟩ | ⟨k', n', a, b, e1, e2, e3⟩
    · have h1 : plain (evSet w i false fails) = _ := h1
      rw [e2] at h1; cases h1; exact ⟨c, hk, by unfold change; simp, id⟩
    · have h1 : plain (evSet w i false fails) = _ := h1
      rw [e3] at h1
      split at h1
      · cases h1; exact ⟨c, hev e2, by unfold change; simp, id⟩
      · cases h1; exact ⟨c, hk, by unfold change; simp, id⟩
  | construct c => exact hcalm rfl rfl
  | semCreate => exact hcalm rfl rfl
  | evCreate => exact hcalm rfl rfl
  | rwCreate => exact hcalm rfl rfl
  | memCreate => exact hcalm rfl rfl
  | mutexCreate => exact hcalm rfl rfl
  | mutexLock => exact hcalm rfl rfl
  | mutexUnlock => exact hcalm rfl rfl
  | destroy => exact hcalm rfl rfl

theorem sem_run : ∀ (ops : List Op) {w f cs} (_ : Inv True w f cs) (_ : LegalAll cs ops) {rs w'} (_ : exec w ops = .ok (rs, w')) {k : Nat} {n : Option Str} {c m : Nat}
    (_ : w.kobjs[k]? = some ⟨n, .sem c m⟩),
    ∃ c' : Nat, w'.kobjs[k]? = some ⟨n, .sem c' m⟩ ∧ (c' : Int) = c + net w k ops ∧ (c ≤ m → c' ≤ m)
  | [], w, f, cs, hi, _, rs, w', h, k, n, c, m, hk => by cases h; exact ⟨c, hk, by unfold net; omega, id⟩
  | op :: ops, w, f, cs, hi, hl, rs, w', h, k, n, c, m, hk => by
    obtain ⟨r, w1, h1, h2, _⟩ := step_ok hi hl.1 (.inl trivial)
    obtain ⟨rs2, w2, g1, g2, _⟩ := exec_any ops h2 hl.2
    rw [exec, h1, ok_bind] at h
    dsimp only at h
    rw [g1, ok_bind] at h
    cases h
    obtain ⟨c1, q1, q2, q3⟩ := sem_step hi hl.1 h1 hk
    obtain ⟨c2, p1, p2, p3⟩ := sem_run ops h2 hl.2 g1 q1
    refine ⟨c2, p1, ?_, fun h => p3 (q3 h)⟩
    rw [net, h1]
    dsimp only
    omega

/-- The count of a semaphore is what it was, less the successful `Lock`s, plus the successful `Unlock`s, through whichever
objects, and it does not pass the maximum. -/
theorem win_sem_count (pre ops : List Op) (hl : LegalAll [] (pre ++ ops)) {rs w rs' w'} (h : exec W.init pre = .ok (rs, w))
    (h' : exec w ops = .ok (rs', w')) {k : Nat} {n : Option Str} {c m : Nat} (hk : w.kobjs[k]? = some ⟨n, .sem c m⟩) :
    ∃ c' : Nat, w'.kobjs[k]? = some ⟨n, .sem c' m⟩ ∧ (c' : Int) = c + net w k ops ∧ (c ≤ m → c' ≤ m) := by
  have hsplit : ∀ (pre : List Op) (cs : List (Option Cls)), LegalAll cs (pre ++ ops) → LegalAll cs pre ∧ LegalAll (pre.foldl classes cs) ops := by
    intro pre
    induction pre with
    | nil => exact fun cs h => ⟨trivial, h⟩
    | cons o os ih => exact fun cs h => ⟨⟨h.1, (ih _ h.2).1⟩, (ih _ h.2).2⟩
  obtain ⟨h1, h2⟩ := hsplit pre [] hl
  exact sem_run ops (reach h1 h) h2 h' hk

/-- Two objects, one semaphore of two. -/
example : ∃ rs w rs' w', exec W.init [.construct .sem, .construct .sem, .semCreate 0 (some [97]) 2 false, .semCreate 1 (some [97]) 1 false] = .ok (rs, w) ∧
    exec w [.semLock 0 false, .semLock 1 false, .semLock 0 false, .semUnlock 1 false, .semUnlock 1 false, .semUnlock 1 false] = .ok (rs', w') ∧
    w.kobjs[0]? = some ⟨some [97], .sem 2 2⟩ ∧ rs' = [⟨true, none⟩, ⟨true, none⟩, ⟨false, none⟩, ⟨true, some 0⟩, ⟨true, some 1⟩, ⟨false, none⟩] ∧
    net w 0 [.semLock 0 false, .semLock 1 false, .semLock 0 false, .semUnlock 1 false, .semUnlock 1 false, .semUnlock 1 false] = 0 :=
  ⟨_, _, _, _, rfl, rfl, rfl, rfl, rfl⟩

/-! ## Events -/

/-- `Wait` succeeds if and only if the event is signalled and the wait does not fail. -/
theorem win_event_wait (ops : List Op) (hl : LegalAll [] ops) {rs w} (h : exec W.init ops = .ok (rs, w)) {i : Nat}
    (hc : (ops.foldl classes [])[i]? = some (some .event)) {k : Nat} (hk : Ref w i 0 k) (fails : Bool) :
    ∃ n a b w', w.kobjs[k]? = some ⟨n, .event a b⟩ ∧ step w (.evWait i fails) = .ok (⟨!fails && b, none⟩, w') := by
  have hi := reach hl h
  obtain ⟨o, g, h1, h2, h3⟩ := ref_obj hk
  have hk2 : leads w i = some k := by
    unfold leads; rw [h1]; dsimp only; rw [h2]; dsimp only; rw [h3]; rfl
  rcases evWait_eq hi hc fails with ⟨e, _⟩ | ⟨k', n, c, m, e1, e2, e3⟩
  · rw [hk2] at e; cases e
  · rw [hk2] at e1
    cases e1
    refine ⟨n, c, m, if fails = false ∧ m = true then setK w k (.event c c) else w, e2, ?_⟩
    rw [e3]
    cases fails <;> cases m <;> rfl

/-- `Fire` and `Reset` succeed if and only if the call does not fail. -/
theorem win_event_set (ops : List Op) (hl : LegalAll [] ops) {rs w} (h : exec W.init ops = .ok (rs, w)) {i : Nat}
    (hc : (ops.foldl classes [])[i]? = some (some .event)) {k : Nat} (hk : Ref w i 0 k) (fails : Bool) :
    (∃ w', step w (.evFire i fails) = .ok (⟨!fails, none⟩, w')) ∧ ∃ w', step w (.evReset i fails) = .ok (⟨!fails, none⟩, w') := by
  have hi := reach hl h
  obtain ⟨o, g, h1, h2, h3⟩ := ref_obj hk
  have hk2 : leads w i = some k := by
    unfold leads; rw [h1]; dsimp only; rw [h2]; dsimp only; rw [h3]; rfl
  constructor
  · rcases evSet_eq hi hc true fails with ⟨e, _⟩ | ⟨k', n, c, m, e1, e2, e3⟩
    · rw [hk2] at e; cases e
    · show ∃ w', plain (evSet w i true fails) = _
      rw [e3]
      cases fails <;> exact ⟨_, rfl⟩
  · rcases evSet_eq hi hc false fails with ⟨e, _⟩ | ⟨k', n, c, m, e1, e2, e3⟩
    · rw [hk2] at e; cases e
    · show ∃ w', plain (evSet w i false fails) = _
      rw [e3]
      cases fails <;> exact ⟨_, rfl⟩

/-- What one call adds to the number of waits and fires. -/
def waits1 (w : W) (k : Nat) (op : Op) (r : Bool) : Nat :=
  match op with
  | .evWait i _ => if r = true ∧ leads w i = some k then 1 else 0
  | _ => 0
def fires1 (w : W) (k : Nat) (op : Op) (r : Bool) : Nat :=
  match op with
  | .evFire i _ => if r = true ∧ leads w i = some k then 1 else 0
  | _ => 0
def resets1 (w : W) (k : Nat) (op : Op) (r : Bool) : Nat :=
  match op with
  | .evReset i _ => if r = true ∧ leads w i = some k then 1 else 0
  | _ => 0

theorem ev_step {w f cs} (hi : Inv True w f cs) {op : Op} (hl : Legal cs op) {r w'} (h : step w op = .ok (r, w')) {k : Nat} {n : Option Str} {a b : Bool}
    (hk : w.kobjs[k]? = some ⟨n, .event a b⟩) :
    w'.kobjs[k]? = some ⟨n, .event a (signal w k a b op r.result)⟩ ∧
      (waits1 w k op r.result = 1 → b = true) := by
  obtain ⟨r1, w1, h1, _, h3, _⟩ := step_ok hi hl (.inl trivial)
  rw [h1] at h
  cases h
  have hcalm : uses op = false → signal w k a b op r.result = b → waits1 w k op r.result = 0 →
      w'.kobjs[k]? = some ⟨n, .event a (signal w k a b op r.result)⟩ ∧ (waits1 w k op r.result = 1 → b = true) := by
    intro hu h0 h1
    rw [h0, h1]
    exact ⟨h3 hu k _ hk (fun e => nomatch e), fun e => nomatch e⟩
  have hsem : ∀ {k' n' c m st'}, w.kobjs[k']? = some ⟨n', .sem c m⟩ → (setK w k' st').kobjs[k]? = some ⟨n, .event a b⟩ := by
    intro k' n' a b st' e
    rw [setK_get hk, if_neg]
    rintro rfl
    rw [hk] at e; cases e
  cases op with
  | semLock i fails =>
    rcases semLock_eq hi hl fails with ⟨e1, e2⟩ | ⟨k', n', c', m', e1, e2, e3⟩
    · rw [e2] at h1; cases h1; exact ⟨hk, fun e => nomatch e⟩
    · rw [e3] at h1
      split at h1
      · cases h1; exact ⟨hsem e2, fun e => nomatch e⟩
      · cases h1; exact ⟨hk, fun e => nomatch e⟩
  | semUnlock i fails =>
    rcases semUnlock_eq hi hl fails with ⟨e1, e2⟩ | ⟨k', n', c', m', e1, e2, e3⟩
    · rw [e2] at h1; cases h1; exact ⟨hk, fun e => nomatch e⟩
    · rw [e3] at h1
      split at h1
      · cases h1; exact ⟨hsem e2, fun e => nomatch e⟩
      · cases h1; exact ⟨hk, fun e => nomatch e⟩
  | evWait i fails =>
    rcases evWait_eq hi hl fails with ⟨e1, e2⟩ | ⟨k', n', a', b', e1, e2, e3⟩
    · rw [e2] at h1; cases h1
      unfold signal waits1
      simp [hk]
    · rw [e3] at h1
      split at h1
      · rename_i hcond
        cases h1
        rw [setK_get hk]
        unfold signal waits1
        by_cases e : k = k'
        · subst e
          rw [hk] at e2
          cases e2
          simp [e1, hcond.2]
        · have e' : ¬ k' = k := fun h => e h.symm
          simp [e1, e, e']
      · cases h1
        unfold signal waits1
        simp [hk]
  | evFire i fails =>
    have h1 : plain (evSet w i true fails) = _ := h1
    rcases evSet_eq hi hl true fails with ⟨e1, e2⟩ | ⟨k', n', a', b', e1, e2, e3⟩
    · rw [e2] at h1; cases h1
      unfold signal waits1
      simp [hk]
    · rw [e3] at h1
      split at h1
      · cases h1
        rw [setK_get hk]
        unfold signal waits1
        by_cases e : k = k'
        · subst e
          rw [hk] at e2
          cases e2
          simp [e1]
        · have e' : ¬ k' = k := fun h => e h.symm
          simp [e1, e, e']
      · cases h1
        unfold signal waits1
        simp [hk]
  | evReset i fails =>
    have h1 : plain (evSet w i false fails) = _ := h1
    rcases evSet_eq hi hl false fails with ⟨e1, e2⟩ | ⟨k', n', a', b', e1, e2, e3⟩
    · rw [e2] at h1; cases h1
      unfold signal waits1
      simp [hk]
    · rw [e3] at h1
      split at h1
      · cases h1
        rw [setK_get hk]
        unfold signal waits1
        by_cases e : k = k'
        · subst e
          rw [hk] at e2
          cases e2
          simp [e1]
        · have e' : ¬ k' = k := fun h => e h.symm
          simp [e1, e, e']
      · cases h1
        unfold signal waits1
        simp [hk]
  | construct c => exact hcalm rfl rfl rfl
  | semCreate => exact hcalm rfl rfl rfl
  | evCreate => exact hcalm rfl rfl rfl
  | rwCreate => exact hcalm rfl rfl rfl
  | memCreate => exact hcalm rfl rfl rfl
  | mutexCreate => exact hcalm rfl rfl rfl
  | mutexLock => exact hcalm rfl rfl rfl
  | mutexUnlock => exact hcalm rfl rfl rfl
  | destroy => exact hcalm rfl rfl rfl

theorem sig_fires (w : W) (k : Nat) (b : Bool) (op : Op) (r : Bool) (hw : waits1 w k op r = 1 → b = true) :
    waits1 w k op r + (signal w k false b op r).toNat ≤ fires1 w k op r + b.toNat := by
  cases op with
  | evWait i fails =>
    unfold waits1 at hw
    unfold waits1 signal fires1
    dsimp only at hw ⊢
    split at hw
    · rename_i h; rw [if_pos h, if_pos h, hw rfl]; decide
    · rename_i h; rw [if_neg h, if_neg h]; omega
  | evFire i fails =>
    unfold waits1 signal fires1
    dsimp only
    split
    · cases b <;> decide
    · omega
  | evReset i fails =>
    unfold waits1 signal fires1
    dsimp only
    split
    · cases b <;> decide
    · omega
  | _ => unfold waits1 signal fires1; dsimp only; omega

theorem sig_resets (w : W) (k : Nat) (op : Op) (r : Bool) (h : resets1 w k op r = 0) : signal w k true true op r = true := by
  cases op with
  | evReset i fails =>
    unfold resets1 at h
    unfold signal
    dsimp only at h ⊢
    split at h
    · cases h
    · rename_i h0; rw [if_neg h0]
  | evWait i fails => unfold signal; dsimp only; split <;> rfl
  | evFire i fails => unfold signal; dsimp only; split <;> rfl
  | _ => rfl

theorem waits_cons {w : W} {k : Nat} {op : Op} {ops : List Op} {r w'} (h : step w op = .ok (r, w')) :
    waits w k (op :: ops) = waits1 w k op r.result + waits w' k ops := by rw [waits, h]; rfl
theorem fires_cons {w : W} {k : Nat} {op : Op} {ops : List Op} {r w'} (h : step w op = .ok (r, w')) :
    fires w k (op :: ops) = fires1 w k op r.result + fires w' k ops := by rw [fires, h]; rfl
theorem resets_cons {w : W} {k : Nat} {op : Op} {ops : List Op} {r w'} (h : step w op = .ok (r, w')) :
    resets w k (op :: ops) = resets1 w k op r.result + resets w' k ops := by rw [resets, h]; rfl

theorem ev_run : ∀ (ops : List Op) {w f cs} (_ : Inv True w f cs) (_ : LegalAll cs ops) {rs w'} (_ : exec w ops = .ok (rs, w')) {k : Nat} {n : Option Str} {a b : Bool}
    (_ : w.kobjs[k]? = some ⟨n, .event a b⟩),
    w'.kobjs[k]? = some ⟨n, .event a (signals w k a b ops)⟩ ∧
      (a = false → waits w k ops + (signals w k a b ops).toNat ≤ fires w k ops + b.toNat) ∧
      (a = true → b = true → resets w k ops = 0 → signals w k a b ops = true)
  | [], w, f, cs, hi, _, rs, w', h, k, n, a, b, hk => by
    cases h
    exact ⟨hk, fun _ => by unfold waits fires signals; omega, fun _ h _ => h⟩
  | op :: ops, w, f, cs, hi, hl, rs, w', h, k, n, a, b, hk => by
    obtain ⟨r, w1, h1, h2, _⟩ := step_ok hi hl.1 (.inl trivial)
    obtain ⟨rs2, w2, g1, g2, _⟩ := exec_any ops h2 hl.2
    rw [exec, h1, ok_bind] at h
    dsimp only at h
    rw [g1, ok_bind] at h
    cases h
    obtain ⟨q1, q2⟩ := ev_step hi hl.1 h1 hk
    obtain ⟨p1, p2, p3⟩ := ev_run ops h2 hl.2 g1 q1
    have hs : signals w k a b (op :: ops) = signals w1 k a (signal w k a b op r.result) ops := by rw [signals, h1]
    rw [hs]
    refine ⟨p1, fun ha => ?_, fun ha hb hr => ?_⟩
    · subst ha
      have := p2 rfl
      have h9 := sig_fires w k b op r.result q2
      rw [waits_cons h1, fires_cons h1]
      omega
    · subst ha hb
      rw [resets_cons h1] at hr
      exact p3 rfl (sig_resets w k op r.result (by omega)) (by omega)

theorem legal_split (ops : List Op) : ∀ (pre : List Op) (cs : List (Option Cls)), LegalAll cs (pre ++ ops) →
    LegalAll cs pre ∧ LegalAll (pre.foldl classes cs) ops
  | [], _, h => ⟨trivial, h⟩
  | _ :: os, _, h => ⟨⟨h.1, (legal_split ops os _ h.2).1⟩, (legal_split ops os _ h.2).2⟩

/-- An event is as its successful calls left it, through whichever objects. -/
theorem win_event_state (pre ops : List Op) (hl : LegalAll [] (pre ++ ops)) {rs w rs' w'} (h : exec W.init pre = .ok (rs, w))
    (h' : exec w ops = .ok (rs', w')) {k : Nat} {n : Option Str} {a b : Bool} (hk : w.kobjs[k]? = some ⟨n, .event a b⟩) :
    w'.kobjs[k]? = some ⟨n, .event a (signals w k a b ops)⟩ := by
  obtain ⟨h1, h2⟩ := legal_split ops pre [] hl
  exact (ev_run ops (reach h1 h) h2 h' hk).1

/-- An automatic event: each `Fire` lets at most one `Wait` through. -/
theorem win_event_auto (pre ops : List Op) (hl : LegalAll [] (pre ++ ops)) {rs w rs' w'} (h : exec W.init pre = .ok (rs, w))
    (h' : exec w ops = .ok (rs', w')) {k : Nat} {n : Option Str} {b : Bool} (hk : w.kobjs[k]? = some ⟨n, .event false b⟩) :
    waits w k ops ≤ fires w k ops + b.toNat := by
  obtain ⟨h1, h2⟩ := legal_split ops pre [] hl
  have := (ev_run ops (reach h1 h) h2 h' hk).2.1 rfl
  omega

/-- A manual event stays signalled until it is reset. -/
theorem win_event_manual (pre ops : List Op) (hl : LegalAll [] (pre ++ ops)) {rs w rs' w'} (h : exec W.init pre = .ok (rs, w))
    (h' : exec w ops = .ok (rs', w')) {k : Nat} {n : Option Str} (hk : w.kobjs[k]? = some ⟨n, .event true true⟩) (hr : resets w k ops = 0) :
    w'.kobjs[k]? = some ⟨n, .event true true⟩ := by
  obtain ⟨h1, h2⟩ := legal_split ops pre [] hl
  obtain ⟨q1, _, q2⟩ := ev_run ops (reach h1 h) h2 h' hk
  rw [q1, q2 rfl rfl hr]

/-- Two objects, one automatic event: fired twice, and one waiter goes on. -/
example : ∃ rs w rs' w', exec W.init [.construct .event, .construct .event, .evCreate 0 (some [97]) false false false,
      .evCreate 1 (some [97]) true true false] = .ok (rs, w) ∧
    exec w [.evFire 0 false, .evFire 1 false, .evWait 1 false, .evWait 0 false] = .ok (rs', w') ∧
    w.kobjs[0]? = some ⟨some [97], .event false false⟩ ∧ rs'.map Out.result = [true, true, true, false] ∧
    waits w 0 [.evFire 0 false, .evFire 1 false, .evWait 1 false, .evWait 0 false] = 1 ∧
    fires w 0 [.evFire 0 false, .evFire 1 false, .evWait 1 false, .evWait 0 false] = 2 :=
  ⟨_, _, _, _, rfl, rfl, rfl, rfl, rfl, rfl⟩

/-! ## Shared memory -/

/-- A created `SharedMem` with a size below 2^32 has that much memory, that of its name, and `GetSize` says how much. -/
theorem win_mem_size_partial (ops : List Op) (hl : LegalAll [] ops) {rs w} (h : exec W.init ops = .ok (rs, w)) {i : Nat} {m : Made}
    (hm : madeAll (fun _ => none) ops rs i = some m) (hc : m.cls = .mem) (hz : m.size < 4294967296) :
    ∃ o v k n bytes, w.objs[i]? = some (some o) ∧ o.size = m.size ∧ o.view = some v ∧ w.views[v]? = some (some k) ∧ Ref w i 0 k ∧
      w.kobjs[k]? = some ⟨n, .mapping bytes⟩ ∧ m.size ≤ bytes := by
  have hi := reach hl h
  obtain ⟨o, ho, h1, h2⟩ := hi.made i m hm
  obtain ⟨v, k, ⟨n, st⟩, bytes, g, e1, e2, e3, e4, e5, e6, e7, e8⟩ := h2 hc
  have e4 : st = .mapping bytes := e4
  subst e4
  rw [Nat.mod_eq_of_lt hz] at e5
  exact ⟨o, v, k, n, bytes, ho, e6, e1, e2, ⟨g, ⟨o, ho, e7⟩, e8⟩, e3, e5⟩

/-- Two created objects with sizes below 2^32 have the same memory if and only if they have the same name and size. -/
theorem win_mem_shared_partial (ops : List Op) (hl : LegalAll [] ops) {rs w} (h : exec W.init ops = .ok (rs, w)) {i j : Nat} (hij : i ≠ j)
    {a b : Made} (ha : madeAll (fun _ => none) ops rs i = some a) (hb : madeAll (fun _ => none) ops rs j = some b) (hca : a.cls = .mem)
    (hcb : b.cls = .mem) (hza : a.size < 4294967296) (hzb : b.size < 4294967296) {v v' k k' : Nat} (hv : View w i v) (hv' : View w j v')
    (hk : w.views[v]? = some (some k)) (hk' : w.views[v']? = some (some k')) :
    k = k' ↔ (∃ n, a.name = some n ∧ b.name = some n) ∧ a.size = b.size := by
  obtain ⟨o, u, x, n, bytes, h1, _, h3, h4, h5, _⟩ := win_mem_size_partial ops hl h ha hca hza
  obtain ⟨p, u', x', n', bytes', g1, _, g3, g4, g5, _⟩ := win_mem_size_partial ops hl h hb hcb hzb
  obtain ⟨o', e1, e2⟩ := hv
  obtain ⟨p', f1, f2⟩ := hv'
  rw [h1] at e1; cases e1
  rw [g1] at f1; cases f1
  rw [h3] at e2; cases e2
  rw [g3] at f2; cases f2
  rw [h4] at hk; cases hk
  rw [g4] at hk'; cases hk'
  have := win_shared_partial ops hl h hij ha hb (hca.trans hcb.symm) (s := 0) (by rw [hca]; decide) h5 g5
  rw [Nat.mod_eq_of_lt hza, Nat.mod_eq_of_lt hzb] at this
  rw [this]
  constructor
  · rintro ⟨n, q1, q2, q3⟩; exact ⟨⟨n, q1, q2⟩, q3 hca⟩
  · rintro ⟨⟨n, q1, q2⟩, q3⟩; exact ⟨n, q1, q2, fun _ => q3⟩

/-- No two objects are the first for the same memory. -/
theorem win_mem_first_partial (ops : List Op) (hl : LegalAll [] ops) {rs w} (h : exec W.init ops = .ok (rs, w)) {i j k : Nat} {o p : Obj}
    (ho : w.objs[i]? = some (some o)) (hp : w.objs[j]? = some (some p)) (hc : o.cls = .mem) (hc' : p.cls = .mem)
    (hk : Ref w i 0 k) (hk' : Ref w j 0 k) (h1 : o.first = true) (h2 : p.first = true) : i = j := by
  have hi := reach hl h
  obtain ⟨o', a, a1, a2, a3⟩ := ref_obj hk
  obtain ⟨p', b, b1, b2, b3⟩ := ref_obj hk'
  rw [ho] at a1; cases a1
  rw [hp] at b1; cases b1
  exact hi.fst i j a b k o p ho hp hc hc' h1 h2 a2 b2 a3 b3

unseal ShmName.decimal in
/-- Two of a name and size, and one of another size. -/
example : ∃ rs w, LegalAll [] [.construct .mem, .construct .mem, .construct .mem, .memCreate 0 (some [97]) 5 false false false,
      .memCreate 1 (some [97]) 5 false false false, .memCreate 2 (some [97]) 6 false false false] ∧
    exec W.init [.construct .mem, .construct .mem, .construct .mem, .memCreate 0 (some [97]) 5 false false false,
      .memCreate 1 (some [97]) 5 false false false, .memCreate 2 (some [97]) 6 false false false] = .ok (rs, w) ∧
    rs.map Out.result = [true, true, true, true, true, true] ∧ (w.objs.map (Option.map Obj.first)) = [some true, some false, some true] ∧
    w.views = [some 0, some 0, some 1] :=
  ⟨_, _, ⟨trivial, trivial, trivial, rfl, rfl, rfl, trivial⟩, rfl, rfl, rfl, rfl⟩

unseal ShmName.decimal in
/-- The full claim is false: with 2^32 + 5 bytes asked for, `Create` succeeds, `GetSize` says so, and there are 5 bytes. -/
theorem win_mem_size_false : ∃ rs w o, LegalAll [] [.construct .mem, .memCreate 0 (some [97]) 4294967301 false false false] ∧
    exec W.init [.construct .mem, .memCreate 0 (some [97]) 4294967301 false false false] = .ok (rs, w) ∧ rs.map Out.result = [true, true] ∧
    w.objs = [some o] ∧ o.size = 4294967301 ∧ w.kobjs.map KObj.st = [.mapping 5] := by
  refine ⟨_, _, _, ⟨trivial, rfl, trivial⟩, rfl, rfl, rfl, rfl, rfl⟩

unseal ShmName.decimal in
/-- And that memory is shared with an object of 5 bytes. -/
theorem win_mem_shared_false : ∃ rs w, LegalAll [] [.construct .mem, .construct .mem, .memCreate 0 (some [97]) 4294967301 false false false,
      .memCreate 1 (some [97]) 5 false false false] ∧
    exec W.init [.construct .mem, .construct .mem, .memCreate 0 (some [97]) 4294967301 false false false, .memCreate 1 (some [97]) 5 false false false]
      = .ok (rs, w) ∧ rs.map Out.result = [true, true, true, true] ∧ w.views = [some 0, some 0] :=
  ⟨_, _, ⟨trivial, trivial, rfl, rfl, trivial⟩, rfl, rfl, rfl⟩

unseal ShmName.decimal in
/-- `GetSize` after a failed second `Create` is that of the first. -/
theorem win_mem_stale_size : ∃ rs w o, LegalAll [] [.construct .mem, .memCreate 0 (some [97]) 5 false false false, .memCreate 0 (some [98]) 6 true true false] ∧
    exec W.init [.construct .mem, .memCreate 0 (some [97]) 5 false false false, .memCreate 0 (some [98]) 6 true true false] = .ok (rs, w) ∧
    rs.map Out.result = [true, true, false] ∧ w.objs = [some o] ∧ o.view = none ∧ o.size = 5 :=
  ⟨_, _, _, ⟨trivial, rfl, rfl, trivial⟩, rfl, rfl, rfl, rfl, rfl⟩

unseal ShmName.decimal in
/-- A block is lost when neither creating nor opening succeeds. -/
theorem win_mem_block_lost : ∃ rs w, LegalAll [] [.construct .mem, .memCreate 0 (some [97]) 5 true true false, .destroy 0 1] ∧
    exec W.init [.construct .mem, .memCreate 0 (some [97]) 5 true true false, .destroy 0 1] = .ok (rs, w) ∧ w.blocks = 1 :=
  ⟨_, _, ⟨trivial, rfl, ⟨.mem, rfl⟩, trivial⟩, rfl, rfl⟩

unseal ShmName.decimal in
/-- After a failure to map, the next object is not the first, although nobody has prepared the memory. -/
theorem win_mem_nobody_first : ∃ rs w, LegalAll [] [.construct .mem, .construct .mem, .memCreate 0 (some [97]) 5 false false true,
      .memCreate 1 (some [97]) 5 false false false] ∧
    exec W.init [.construct .mem, .construct .mem, .memCreate 0 (some [97]) 5 false false true, .memCreate 1 (some [97]) 5 false false false]
      = .ok (rs, w) ∧ rs.map Out.result = [true, true, false, true] ∧ (w.objs.map (Option.map Obj.first)) = [some true, some false] :=
  ⟨_, _, ⟨trivial, trivial, rfl, rfl, trivial⟩, rfl, rfl, rfl⟩

end Verif.WinSync
