import Verif.Mutex.FullModel
import Verif.Mutex.Lemmas
import Verif.Sem.Wake

/-! # The mutex on the real semaphore does what the mutex on the atomic semaphore does -/

namespace Verif.Mutex.Full

open Sem.Spec (Phase)

/-- Where a thread is once the effect of its semaphore call counts. -/
def adv : Phase → Pc → Pc
  | .took, .lWait o _ => .lCs2 o
  | .gave _, .uRel o all => .uUnl o all
  | _, p => p

/-- The state of the mutex on the atomic semaphore. -/
def abs (c : S) (b : Bool) : Mutex.S :=
  { sem := b, cs := c.m.cs, oid := c.m.oid, cnt := c.m.cnt
    pc := fun t => adv (Sem.phOf (c.s.pc t)) (c.m.pc t) }

/-- A thread is inside the semaphore function it called. -/
def coh : Phase → Pc → Prop
  | .out, _ => True
  | .waiting, .lWait _ _ => True
  | .took, .lWait _ _ => True
  | .releasing, .uRel _ _ => True
  | .gave _, .uRel _ _ => True
  | _, _ => False

def Coh (c : S) : Prop := ∀ t, coh (Sem.phOf (c.s.pc t)) (c.m.pc t)

theorem phase_idle {p : Sem.Pc} (h : Sem.phOf p = .out) : p = .idle := by
  cases p with
  | idle => rfl
  | wUnlock r => cases r <;> cases h
  | _ => cases h

theorem Coh.out {c : S} (h : Coh c) {t : Nat} (ht : atSem (c.m.pc t) = false) :
    Sem.phOf (c.s.pc t) = .out := by
  have := h t
  revert this ht
  generalize Sem.phOf (c.s.pc t) = p
  generalize c.m.pc t = q
  intro ht h
  cases p with
  | out => rfl
  | _ => cases q <;> first | exact h.elim | cases ht

theorem adv_out (p : Pc) : adv .out p = p := by
  cases p <;> rfl

theorem ext {a b : Mutex.S} (h1 : a.sem = b.sem) (h2 : a.cs = b.cs) (h3 : a.oid = b.oid)
    (h4 : a.cnt = b.cnt) (h5 : ∀ t, a.pc t = b.pc t) : a = b := by
  obtain ⟨a1, a2, a3, a4, a5⟩ := a
  obtain ⟨b1, b2, b3, b4, b5⟩ := b
  cases h1; cases h2; cases h3; cases h4; cases funext h5; rfl

theorem abs_goto {c : S} {m1 : Mutex.S} {b : Bool} {t : Nat} {p : Pc}
    (hpc : m1.pc = c.m.pc) (h : Sem.phOf (c.s.pc t) = .out) {a1 : Mutex.S}
    (e1 : a1.sem = b) (e2 : a1.cs = m1.cs) (e3 : a1.oid = m1.oid) (e4 : a1.cnt = m1.cnt)
    (e5 : a1.pc = (abs c b).pc) :
    a1.goto t p = abs ⟨m1.goto t p, c.s⟩ b := by
  refine ext e1 e2 e3 e4 fun u => ?_
  show (if u = t then p else a1.pc u) =
    adv (Sem.phOf (c.s.pc u)) (if u = t then p else m1.pc u)
  by_cases hu : u = t
  · rw [if_pos hu, if_pos hu, hu, h, adv_out]
  · rw [if_neg hu, if_neg hu, e5, hpc]; rfl

theorem abs_pc {c : S} {b : Bool} {t : Nat} (h : Sem.phOf (c.s.pc t) = .out) :
    (abs c b).pc t = c.m.pc t := by
  show adv _ _ = _
  rw [h, adv_out]

/-- A result of the mutex code, seen on the atomic semaphore. -/
def lift (s : Sem.S) (b : Bool) (r : CRes (Option (Mutex.S × List Label))) :
    CRes (Option (Mutex.S × List Label)) :=
  match r with
  | .error e => .error e
  | .ok none => .ok none
  | .ok (some (m, ls)) => .ok (some (abs ⟨m, s⟩ b, ls))

theorem goto_lift {c : S} {b : Bool} {t : Nat} {p : Pc} {ls : List Label} {m1 a1 : Mutex.S}
    (h : Sem.phOf (c.s.pc t) = .out) (hpc : m1.pc = c.m.pc)
    (e1 : a1.sem = b) (e2 : a1.cs = m1.cs) (e3 : a1.oid = m1.oid) (e4 : a1.cnt = m1.cnt)
    (e5 : a1.pc = (abs c b).pc) :
    (.ok (some (a1.goto t p, ls)) : CRes (Option (Mutex.S × List Label))) =
      lift c.s b (.ok (some (m1.goto t p, ls))) := by
  show Except.ok (some (_, _)) = Except.ok (some (_, _))
  rw [abs_goto hpc h e1 e2 e3 e4 e5]

theorem lock_lift {c : S} {b : Bool} {t o : Nat} {p : Pc} (h : Sem.phOf (c.s.pc t) = .out) :
    lock (abs c b) t o p = lift c.s b (lock c.m t o p) := by
  unfold lock
  show (match c.m.cs o with | none => _ | some _ => _) = _
  cases c.m.cs o with
  | some _ => rfl
  | none =>
    exact goto_lift (m1 := { c.m with cs := _ }) h rfl rfl rfl rfl rfl rfl

theorem unlock_lift {c : S} {b : Bool} {t o : Nat} {p : Pc} {ls : List Label}
    (h : Sem.phOf (c.s.pc t) = .out) :
    unlock (abs c b) t o p ls = lift c.s b (unlock c.m t o p ls) := by
  unfold unlock
  show (if c.m.cs o = some t then _ else _) = _
  by_cases hc : c.m.cs o = some t
  · rw [if_pos hc, if_pos hc]
    exact goto_lift (m1 := { c.m with cs := _ }) h rfl rfl rfl rfl rfl rfl
  · rw [if_neg hc, if_neg hc]; rfl

theorem run_lift {c : S} {b : Bool} {t : Nat} (h : Sem.phOf (c.s.pc t) = .out)
    (hs : atSem (c.m.pc t) = false) : run (abs c b) t = lift c.s b (run c.m t) := by
  unfold run
  rw [abs_pc h]
  cases hp : c.m.pc t with
  | idle => rfl
  | lCs o w => exact lock_lift h
  | lTest o w =>
    show (if c.m.oid o = some t then _ else _) = lift c.s b (if c.m.oid o = some t then _ else _)
    by_cases hc : c.m.oid o = some t
    · rw [if_pos hc, if_pos hc]; exact goto_lift h rfl rfl rfl rfl rfl rfl
    · rw [if_neg hc, if_neg hc]; exact goto_lift h rfl rfl rfl rfl rfl rfl
  | lLoad o => exact goto_lift h rfl rfl rfl rfl rfl rfl
  | lStore o v => exact goto_lift (m1 := { c.m with cnt := _ }) h rfl rfl rfl rfl rfl rfl
  | lUnl o => exact unlock_lift h
  | lOut o w => exact unlock_lift h
  | lWait o w => rw [hp] at hs; cases hs
  | lCs2 o => exact lock_lift h
  | lOwn o => exact goto_lift (m1 := { c.m with oid := _ }) h rfl rfl rfl rfl rfl rfl
  | lCnt o => exact goto_lift (m1 := { c.m with cnt := _ }) h rfl rfl rfl rfl rfl rfl
  | uCs o all => exact lock_lift h
  | uTest o all =>
    show (if c.m.oid o ≠ some t then _ else _) = lift c.s b (if c.m.oid o ≠ some t then _ else _)
    by_cases hc : c.m.oid o ≠ some t
    · rw [if_pos hc, if_pos hc]; exact goto_lift h rfl rfl rfl rfl rfl rfl
    · rw [if_neg hc, if_neg hc]; exact goto_lift h rfl rfl rfl rfl rfl rfl
  | uBad o all => exact unlock_lift h
  | uAll o all => exact goto_lift (m1 := { c.m with cnt := _ }) h rfl rfl rfl rfl rfl rfl
  | uLoad o all => exact goto_lift h rfl rfl rfl rfl rfl rfl
  | uStore o all v => exact goto_lift (m1 := { c.m with cnt := _ }) h rfl rfl rfl rfl rfl rfl
  | uZero o all =>
    show (if c.m.cnt o = 0 then _ else _) = lift c.s b (if c.m.cnt o = 0 then _ else _)
    by_cases hc : c.m.cnt o = 0
    · rw [if_pos hc, if_pos hc]; exact goto_lift h rfl rfl rfl rfl rfl rfl
    · rw [if_neg hc, if_neg hc]; exact goto_lift h rfl rfl rfl rfl rfl rfl
  | uOwn o all => exact goto_lift (m1 := { c.m with oid := _ }) h rfl rfl rfl rfl rfl rfl
  | uRel o all => rw [hp] at hs; cases hs
  | uUnl o all => exact unlock_lift h

theorem fail_lift {c : S} {b : Bool} {t : Nat} (h : Sem.phOf (c.s.pc t) = .out)
    (hs : atSem (c.m.pc t) = false) :
    (.ok (fail (abs c b) t) : CRes _) = lift c.s b (.ok (fail c.m t)) := by
  unfold fail
  rw [abs_pc h]
  cases hp : c.m.pc t with
  | lCs o w => exact goto_lift h rfl rfl rfl rfl rfl rfl
  | lWait o w => rw [hp] at hs; cases hs
  | uCs o all => exact goto_lift h rfl rfl rfl rfl rfl rfl
  | uRel o all => rw [hp] at hs; cases hs
  | _ => rfl

theorem step_lift {c : S} {b : Bool} {a : Mutex.Act} (h : Sem.phOf (c.s.pc (actor a)) = .out)
    (hs : atSem (c.m.pc (actor a)) = false) :
    Mutex.step (abs c b) a = lift c.s b (Mutex.step c.m a) := by
  cases a with
  | callLock t o w =>
    show Except.ok (if (abs c b).pc t = .idle then _ else _) =
      lift c.s b (.ok (if c.m.pc t = .idle then _ else _))
    rw [abs_pc (t := t) h]
    by_cases hc : c.m.pc t = .idle
    · rw [if_pos hc, if_pos hc]; exact goto_lift h rfl rfl rfl rfl rfl rfl
    · rw [if_neg hc, if_neg hc]; rfl
  | callUnlock t o all =>
    show Except.ok (if (abs c b).pc t = .idle then _ else _) =
      lift c.s b (.ok (if c.m.pc t = .idle then _ else _))
    rw [abs_pc (t := t) h]
    by_cases hc : c.m.pc t = .idle
    · rw [if_pos hc, if_pos hc]; exact goto_lift h rfl rfl rfl rfl rfl rfl
    · rw [if_neg hc, if_neg hc]; rfl
  | run t => exact run_lift h hs
  | fail t => exact fail_lift h hs

/-- A step of the mutex code moves only its own thread. -/
def Moves (s : Mutex.S) (t : Nat) (r : CRes (Option (Mutex.S × List Label))) : Prop :=
  ∀ s' ls, r = .ok (some (s', ls)) → ∀ u, u ≠ t → s'.pc u = s.pc u

theorem Moves.goto {s s1 : Mutex.S} {t : Nat} {p : Pc} {ls : List Label} (h : s1.pc = s.pc) :
    Moves s t (.ok (some (s1.goto t p, ls))) := by
  intro s' ls' e u hu
  cases e
  show (if u = t then p else s1.pc u) = _
  rw [if_neg hu, h]

theorem Moves.none {s : Mutex.S} {t : Nat} : Moves s t (.ok none) := fun _ _ e => nomatch e
theorem Moves.error {s : Mutex.S} {t : Nat} {e : UB} : Moves s t (.error e) := fun _ _ e => nomatch e

theorem lock_moves {s : Mutex.S} {t o : Nat} {p : Pc} : Moves s t (lock s t o p) := by
  unfold lock
  split
  · exact .goto rfl
  · exact .none

theorem unlock_moves {s : Mutex.S} {t o : Nat} {p : Pc} {ls : List Label} :
    Moves s t (unlock s t o p ls) := by
  unfold unlock
  split
  · exact .goto rfl
  · exact .error

theorem run_moves {s : Mutex.S} {t : Nat} : Moves s t (run s t) := by
  unfold run
  cases s.pc t with
  | idle => exact .none
  | lCs o w => exact lock_moves
  | lUnl o => exact unlock_moves
  | lOut o w => exact unlock_moves
  | lCs2 o => exact lock_moves
  | uCs o all => exact lock_moves
  | uBad o all => exact unlock_moves
  | uUnl o all => exact unlock_moves
  | lTest o w => dsimp only; split <;> exact .goto rfl
  | lWait o w =>
    dsimp only
    split
    · exact .goto rfl
    · split
      · exact .goto rfl
      · exact .none
  | uTest o all => dsimp only; split <;> exact .goto rfl
  | uZero o all => dsimp only; split <;> exact .goto rfl
  | _ => exact .goto rfl

theorem step_moves {s : Mutex.S} {a : Mutex.Act} : Moves s (actor a) (Mutex.step s a) := by
  cases a with
  | callLock t o w => unfold Mutex.step; dsimp only; split <;> first | exact .goto rfl | exact .none
  | callUnlock t o all => unfold Mutex.step; dsimp only; split <;> first | exact .goto rfl | exact .none
  | run t => exact run_moves
  | fail t =>
    unfold Mutex.step Mutex.fail
    dsimp only
    split <;> first | exact .goto rfl | exact .none

/-- The call labels are only made by calls. -/
def isCall : Sem.Label → Bool
  | .callWait _ _ => true
  | .callRelease _ => true
  | _ => false

theorem same_abs {c : S} {s' : Sem.S} {b : Bool}
    (h : ∀ t, Sem.phOf (s'.pc t) = Sem.phOf (c.s.pc t)) : abs ⟨c.m, s'⟩ b = abs c b :=
  ext rfl rfl rfl rfl fun t => by
    show adv (Sem.phOf (s'.pc t)) _ = adv (Sem.phOf (c.s.pc t)) _
    rw [h]

theorem phase_other {t : Nat} {p : Option Phase} {l : Sem.Label} (h : Sem.Spec.who l ≠ t) :
    Sem.Spec.phase t p [l] = p := by
  unfold Sem.Spec.phase
  rw [if_neg h]; rfl

theorem abs_eq {a m1 : Mutex.S} {c : S} {s' : Sem.S} {b : Bool} {t : Nat}
    (e1 : a.sem = b) (e2 : a.cs = m1.cs) (e3 : a.oid = m1.oid) (e4 : a.cnt = m1.cnt)
    (hown : a.pc t = adv (Sem.phOf (s'.pc t)) (m1.pc t))
    (ha : ∀ u, u ≠ t → a.pc u = adv (Sem.phOf (c.s.pc u)) (c.m.pc u))
    (hs : ∀ u, u ≠ t → Sem.phOf (s'.pc u) = Sem.phOf (c.s.pc u))
    (hm : ∀ u, u ≠ t → m1.pc u = c.m.pc u) : a = abs ⟨m1, s'⟩ b := by
  refine ext e1 e2 e3 e4 fun u => ?_
  by_cases hu : u = t
  · rw [hu]; exact hown
  · show a.pc u = adv (Sem.phOf (s'.pc u)) (m1.pc u)
    rw [ha u hu, hs u hu, hm u hu]

theorem exec_run {s s' : Mutex.S} {t : Nat} {ls : List Label} (h : run s t = .ok (some (s', ls))) :
    Mutex.exec s [.run t] = .ok (s', ls) := by
  show (run s t >>= _) = _
  rw [h]
  show Except.ok (s', ls ++ []) = _
  rw [List.append_nil]

theorem exec_fail {s s' : Mutex.S} {t : Nat} {ls : List Label} (h : fail s t = some (s', ls)) :
    Mutex.exec s [.fail t] = .ok (s', ls) := by
  show ((.ok (fail s t) : CRes _) >>= _) = _
  rw [h]
  show Except.ok (s', ls ++ []) = _
  rw [List.append_nil]

theorem coh_waiting {p : Phase} {q : Pc} (h : coh p q) (hp : p = .waiting ∨ p = .took) :
    ∃ o w, q = .lWait o w := by
  rcases hp with rfl | rfl <;> cases q <;> first | exact ⟨_, _, rfl⟩ | cases h

theorem coh_releasing {p : Phase} {q : Pc} (h : coh p q) (hp : p = .releasing ∨ ∃ k, p = .gave k) :
    ∃ o all, q = .uRel o all := by
  rcases hp with rfl | ⟨k, rfl⟩ <;> cases q <;> first | exact ⟨_, _, rfl⟩ | cases h

theorem move_take {p p' : Phase} {t : Nat} (h : Sem.Spec.move p (.take t) = some p') :
    p = .waiting ∧ p' = .took := by
  cases p <;> first | exact ⟨rfl, (Option.some.inj h).symm⟩ | cases h

theorem move_ret {p p' : Phase} {t : Nat} {r : Bool} (h : Sem.Spec.move p (.retWait t r) = some p') :
    p' = .out ∧ p = if r then .took else .waiting := by
  cases r <;> cases p <;> first | exact ⟨(Option.some.inj h).symm, rfl⟩ | cases h

theorem move_give {p p' : Phase} {t k : Nat} (h : Sem.Spec.move p (.give t k) = some p') :
    p = .releasing ∧ p' = .gave k := by
  cases p <;> first | exact ⟨rfl, (Option.some.inj h).symm⟩ | cases h

theorem move_rel {p p' : Phase} {t k : Nat} {r : Bool}
    (h : Sem.Spec.move p (.retRelease t r k) = some p') :
    p' = .out ∧ if r then p = .gave k else p = .releasing := by
  cases r with
  | false => cases p <;> first | exact ⟨(Option.some.inj h).symm, rfl⟩ | cases h
  | true =>
    cases p with
    | gave q =>
      change (if q = k then some Phase.out else none) = some p' at h
      by_cases e : q = k
      · rw [if_pos e] at h; exact ⟨(Option.some.inj h).symm, by rw [e]; rfl⟩
      · rw [if_neg e] at h; cases h
    | _ => cases h

/-- At most one action, and not a release that fails. -/
def Soft (s : Mutex.S) (as : List Mutex.Act) : Prop :=
  as = [] ∨ ∃ a, as = [a] ∧ ∀ t, a = .fail t → ∀ o all, s.pc t ≠ .uRel o all

theorem Soft.run {s : Mutex.S} {t : Nat} : Soft s [.run t] := Or.inr ⟨_, rfl, (fun _ e => nomatch e)⟩

/-- The label of a release that fails. -/
def failedRel : Sem.Label → Bool
  | .retRelease _ false _ => true
  | _ => false

/-- The effect of a semaphore label on the mutex is one step of the mutex on the atomic semaphore, or
none. -/
theorem react_ok {c : S} {s' : Sem.S} {l : Sem.Label} {n n' : Nat} (hc : Coh c)
    (hn : n ≤ 1) (ha : Sem.Spec.atomic 1 n [l] = some n')
    (hcall : isCall l = true → entry c.m (Sem.Spec.who l) ≠ none ∧
      coh (Sem.phOf (s'.pc (Sem.Spec.who l))) (c.m.pc (Sem.Spec.who l)))
    (hp : ∀ t, Sem.Spec.phase t (some (Sem.phOf (c.s.pc t))) [l] = some (Sem.phOf (s'.pc t))) :
    (∃ as, Mutex.exec (abs c (decide (n = 1))) as =
      .ok (abs ⟨(react c.m l).1, s'⟩ (decide (n' = 1)), (react c.m l).2) ∧
      (failedRel l = false → Soft (abs c (decide (n = 1))) as)) ∧
    Coh ⟨(react c.m l).1, s'⟩ := by
  have hoth : ∀ u, u ≠ Sem.Spec.who l → Sem.phOf (s'.pc u) = Sem.phOf (c.s.pc u) := fun u hu => by
    have := hp u
    rw [phase_other (fun e => hu e.symm)] at this
    exact (Option.some.inj this).symm
  have hown := hp (Sem.Spec.who l)
  rw [Sem.phase_one rfl] at hown
  have hcw := hc (Sem.Spec.who l)
  have cohs : ∀ (m1 : Mutex.S), (∀ u, u ≠ Sem.Spec.who l → m1.pc u = c.m.pc u) →
      coh (Sem.phOf (s'.pc (Sem.Spec.who l))) (m1.pc (Sem.Spec.who l)) → Coh ⟨m1, s'⟩ := by
    intro m1 h1 h2 u
    by_cases hu : u = Sem.Spec.who l
    · rw [hu]; exact h2
    · show coh (Sem.phOf (s'.pc u)) (m1.pc u)
      rw [hoth u hu, h1 u hu]; exact hc u
  have goto_ne : ∀ (p : Pc) (u : Nat), u ≠ Sem.Spec.who l →
      (c.m.goto (Sem.Spec.who l) p).pc u = c.m.pc u := fun p u hu => if_neg hu
  have goto_eq : ∀ (p : Pc), (c.m.goto (Sem.Spec.who l) p).pc (Sem.Spec.who l) = p :=
    fun p => if_pos rfl
  cases l with
  | callWait t w =>
    have hn' : n' = n := (Option.some.inj ha).symm
    refine ⟨⟨[], ?_, fun _ => Or.inl rfl⟩, cohs c.m (fun _ _ => rfl) (hcall rfl).2⟩
    show Except.ok _ = Except.ok _
    congr 2
    rw [hn']
    refine ext rfl rfl rfl rfl fun u => ?_
    by_cases hu : u = t
    · subst hu
      have h1 := (hcall rfl).1
      change (Sem.Spec.move (Sem.phOf (c.s.pc u)) _) = some (Sem.phOf (s'.pc u)) at hown
      show adv (Sem.phOf (c.s.pc u)) (c.m.pc u) = adv (Sem.phOf (s'.pc u)) (c.m.pc u)
      cases hph : Sem.phOf (c.s.pc u) <;> rw [hph] at hown <;> try cases hown
      rw [adv_out]
      rw [← Option.some.inj hown]
      cases c.m.pc u <;> rfl
    · show adv _ _ = adv _ (c.m.pc u)
      rw [hoth u hu]
  | callRelease t =>
    have hn' : n' = n := (Option.some.inj ha).symm
    refine ⟨⟨[], ?_, fun _ => Or.inl rfl⟩, cohs c.m (fun _ _ => rfl) (hcall rfl).2⟩
    show Except.ok _ = Except.ok _
    congr 2
    rw [hn']
    refine ext rfl rfl rfl rfl fun u => ?_
    by_cases hu : u = t
    · subst hu
      change (Sem.Spec.move (Sem.phOf (c.s.pc u)) _) = some (Sem.phOf (s'.pc u)) at hown
      show adv (Sem.phOf (c.s.pc u)) (c.m.pc u) = adv (Sem.phOf (s'.pc u)) (c.m.pc u)
      cases hph : Sem.phOf (c.s.pc u) <;> rw [hph] at hown <;> try cases hown
      rw [adv_out]
      rw [← Option.some.inj hown]
      cases c.m.pc u <;> rfl
    · show adv _ _ = adv _ (c.m.pc u)
      rw [hoth u hu]
  | take t =>
    change Sem.Spec.move (Sem.phOf (c.s.pc t)) (.take t) = some (Sem.phOf (s'.pc t)) at hown
    obtain ⟨h1, h2⟩ := move_take hown
    change coh (Sem.phOf (c.s.pc t)) (c.m.pc t) at hcw
    obtain ⟨o, w, hq⟩ := coh_waiting hcw (Or.inl h1)
    have hr : react c.m (.take t) = (c.m, [.acquire t o]) := by unfold react; dsimp only; rw [hq]
    rw [hr]
    refine ⟨⟨[.run t], exec_run ?_, fun _ => .run⟩, cohs c.m (fun _ _ => rfl) ?_⟩
    · have h0 : 0 < n ∧ n' = 0 := by
        change (if 0 < n then some (n - 1) else none) = some n' at ha
        by_cases h0 : 0 < n
        · rw [if_pos h0] at ha; have := Option.some.inj ha; omega
        · rw [if_neg h0] at ha; cases ha
      have hn1 : n = 1 := by omega
      unfold run
      rw [show (abs c (decide (n = 1))).pc t = .lWait o w by
        show adv _ _ = _; rw [h1, hq]; rfl]
      dsimp only
      rw [show (abs c (decide (n = 1))).sem = true from decide_eq_true hn1, if_pos rfl, h0.2]
      show Except.ok (some (_, _)) = Except.ok (some (_, _))
      congr 3
      refine abs_eq (t := t) (c := c) rfl rfl rfl rfl ?_ (fun u hu => if_neg hu) hoth (fun _ _ => rfl)
      rw [h2, hq]; exact if_pos rfl
    · show coh (Sem.phOf (s'.pc t)) (c.m.pc t)
      rw [h2, hq]; trivial
  | retWait t r =>
    change Sem.Spec.move (Sem.phOf (c.s.pc t)) (.retWait t r) = some (Sem.phOf (s'.pc t)) at hown
    obtain ⟨h2, h1⟩ := move_ret hown
    change coh (Sem.phOf (c.s.pc t)) (c.m.pc t) at hcw
    obtain ⟨o, w, hq⟩ := coh_waiting hcw (by rw [h1]; cases r <;> simp)
    have hn' : n' = n := (Option.some.inj ha).symm
    subst hn'
    cases r with
    | true =>
      have hr : react c.m (.retWait t true) = (c.m.goto t (.lCs2 o), []) := by
        unfold react; dsimp only; rw [hq]; rfl
      rw [hr]
      refine ⟨⟨[], ?_, fun _ => Or.inl rfl⟩, cohs _ (goto_ne _) ?_⟩
      · show Except.ok (_, _) = Except.ok (_, _)
        congr 2
        refine abs_eq (t := t) (c := c) rfl rfl rfl rfl ?_ (fun u hu => rfl) hoth (goto_ne _)
        show adv _ _ = adv _ _
        rw [h1, hq, h2, adv_out]; exact (goto_eq _).symm
      · show coh (Sem.phOf (s'.pc t)) _
        rw [h2]; trivial
    | false =>
      have hr : react c.m (.retWait t false) =
          (c.m.goto t .idle, [.giveUp t o, .retLock t o false]) := by
        unfold react; dsimp only; rw [hq]; rfl
      rw [hr]
      have hat' : (abs c (decide (n' = 1))).pc t = .lWait o w := by
        show adv _ _ = _; rw [h1, hq]; rfl
      refine ⟨⟨[.fail t], exec_fail ?_, fun _ => Or.inr ⟨_, rfl, fun u e o' all' => ?_⟩⟩,
        cohs _ (goto_ne _) ?_⟩
      · unfold fail
        rw [hat']
        show some (_, _) = some (_, _)
        congr 2
        refine abs_eq (t := t) (c := c) rfl rfl rfl rfl ?_ (fun u hu => if_neg hu) hoth (goto_ne _)
        rw [h2, adv_out]; exact (if_pos rfl).trans (goto_eq _).symm
      · cases e; rw [hat']; exact fun e => nomatch e
      · show coh (Sem.phOf (s'.pc t)) _
        rw [h2]; trivial
  | give t prev =>
    change Sem.Spec.move (Sem.phOf (c.s.pc t)) (.give t prev) = some (Sem.phOf (s'.pc t)) at hown
    obtain ⟨h1, h2⟩ := move_give hown
    change coh (Sem.phOf (c.s.pc t)) (c.m.pc t) at hcw
    obtain ⟨o, all, hq⟩ := coh_releasing hcw (Or.inl h1)
    have hr : react c.m (.give t prev) = (c.m, [.leave t o all]) := by
      unfold react; dsimp only; rw [hq]
    rw [hr]
    refine ⟨⟨[.run t], exec_run ?_, fun _ => .run⟩, cohs c.m (fun _ _ => rfl) ?_⟩
    · have h0 : n' = 1 := by
        change (if prev = n then some (min 1 ((n + 1) % 4294967296)) else none) = some n' at ha
        by_cases h0 : prev = n
        · rw [if_pos h0, Nat.mod_eq_of_lt (by omega)] at ha; have := Option.some.inj ha; omega
        · rw [if_neg h0] at ha; cases ha
      unfold run
      rw [show (abs c (decide (n = 1))).pc t = .uRel o all by
        show adv _ _ = _; rw [h1, hq]; rfl]
      show Except.ok (some (_, _)) = Except.ok (some (_, _))
      congr 3
      refine abs_eq (t := t) (c := c) (decide_eq_true h0).symm rfl rfl rfl ?_
        (fun u hu => if_neg hu) hoth (fun _ _ => rfl)
      rw [h2, hq]; exact if_pos rfl
    · show coh (Sem.phOf (s'.pc t)) (c.m.pc t)
      rw [h2, hq]; trivial
  | retRelease t r prev =>
    change Sem.Spec.move (Sem.phOf (c.s.pc t)) (.retRelease t r prev) = some (Sem.phOf (s'.pc t))
      at hown
    obtain ⟨h2, h1⟩ := move_rel hown
    change coh (Sem.phOf (c.s.pc t)) (c.m.pc t) at hcw
    obtain ⟨o, all, hq⟩ := coh_releasing hcw (by
      cases r with
      | true => exact Or.inr ⟨_, h1⟩
      | false => exact Or.inl h1)
    have hn' : n' = n := (Option.some.inj ha).symm
    subst hn'
    have hr : react c.m (.retRelease t r prev) =
        (c.m.goto t (.uUnl o all), if r then [] else [.leave t o all]) := by
      unfold react; dsimp only; rw [hq]
    rw [hr]
    refine ⟨?_, cohs _ (goto_ne _) (by show coh (Sem.phOf (s'.pc t)) _; rw [h2]; trivial)⟩
    cases r with
    | true =>
      refine ⟨[], ?_, fun _ => Or.inl rfl⟩
      show Except.ok (_, _) = Except.ok (_, _)
      congr 2
      refine abs_eq (t := t) (c := c) rfl rfl rfl rfl ?_ (fun u hu => rfl) hoth (goto_ne _)
      show adv _ _ = adv _ _
      rw [show Sem.phOf (c.s.pc t) = _ from h1, hq, h2, adv_out]; exact (goto_eq _).symm
    | false =>
      refine ⟨[.fail t], exec_fail ?_, (fun e => nomatch e)⟩
      unfold fail
      rw [show (abs c (decide (n' = 1))).pc t = .uRel o all by
        show adv _ _ = _; rw [show Sem.phOf (c.s.pc t) = _ from h1, hq]; rfl]
      show some (_, _) = some (_, _)
      congr 2
      refine abs_eq (t := t) (c := c) rfl rfl rfl rfl ?_ (fun u hu => if_neg hu) hoth (goto_ne _)
      rw [h2, adv_out]; exact (if_pos rfl).trans (goto_eq _).symm

/-- A step of the semaphore has at most one label, only calls have call labels, and a release fails
only if a system call does. -/
theorem labels_short {s s' : Sem.S} {a : Sem.Act} {ls : List Sem.Label}
    (h : Sem.step s a = .ok (some (s', ls))) :
    ls = [] ∨ ∃ l, ls = [l] ∧ (failedRel l = true → ∃ t, a = .fail t) ∧ (isCall l = true →
      (∃ t w, a = .callWait t w ∧ l = .callWait t w) ∨ ∃ t, a = .callRelease t ∧ l = .callRelease t) := by
  cases a with
  | callWait t w =>
    unfold Sem.step at h
    dsimp only at h
    split at h
    · cases h; exact Or.inr ⟨_, rfl, (fun e => nomatch e), fun _ => Or.inl ⟨t, w, rfl, rfl⟩⟩
    · cases h
  | callRelease t =>
    unfold Sem.step at h
    dsimp only at h
    split at h
    · cases h; exact Or.inr ⟨_, rfl, (fun e => nomatch e), fun _ => Or.inr ⟨t, rfl, rfl⟩⟩
    · cases h
  | fail t =>
    unfold Sem.step Sem.fail at h
    dsimp only at h
    split at h
    · cases h; exact Or.inr ⟨_, rfl, fun _ => ⟨t, rfl⟩, (fun e => nomatch e)⟩
    · split at h
      · cases h; exact Or.inr ⟨_, rfl, fun _ => ⟨t, rfl⟩, (fun e => nomatch e)⟩
      · cases h
    · cases h; exact Or.inr ⟨_, rfl, fun _ => ⟨t, rfl⟩, (fun e => nomatch e)⟩
    · cases h
  | wake t z =>
    unfold Sem.step at h
    dsimp only at h
    split at h
    · cases h; exact Or.inl rfl
    · cases h
  | run t pick =>
    unfold Sem.step Sem.run Sem.block at h
    dsimp only at h
    repeat' split at h
    all_goals first
      | cases h; exact Or.inl rfl
      | cases h; exact Or.inr ⟨_, rfl, (fun e => nomatch e), (fun e => nomatch e)⟩
      | cases h

/-- The state of the semaphore belongs to value `n`, and its maximum is 1. -/
structure Inv (c : S) (n : Nat) : Prop where
  sem : Sem.Inv c.s n
  w : Sem.W c.s n
  max : c.s.max = 1
  coh : Coh c

/-- Some execution of the mutex on the atomic semaphore does the same; no release fails in it unless
`f`. -/
def Same (c : S) (n : Nat) (f : Bool) (r : Option (S × List Label)) : Prop :=
  ∀ c' ls, r = some (c', ls) → ∃ n' as, Inv c' n' ∧
    Mutex.exec (abs c (decide (n = 1))) as = .ok (abs c' (decide (n' = 1)), ls) ∧
    (f = false → Soft (abs c (decide (n = 1))) as)

/-- A system call fails inside the semaphore. -/
def isFail : Act → Bool
  | .fail _ => true
  | _ => false

theorem sem_same {c : S} {n : Nat} {a : Sem.Act} {f : Bool} (h : Inv c n)
    (hf : f = false → ∀ t, a ≠ .fail t)
    (ha : ∀ t, (∃ w, a = .callWait t w) ∨ a = .callRelease t → entry c.m t = some a) :
    ∃ r, Sem.step c.s a = .ok r ∧ Same c n f (inSem c r) := by
  obtain ⟨r, hr, hok⟩ := Sem.step_ok (a := a) h.sem
  refine ⟨r, hr, ?_⟩
  intro c' ls e
  cases r with
  | none => cases e
  | some x =>
    obtain ⟨s', l⟩ := x
    obtain ⟨n', hi, hat, hm, hp⟩ := hok s' l rfl
    have hw := Sem.step_w h.sem h.w s' l n' hr hat
    rw [h.max] at hat
    have hn : n ≤ 1 := h.max ▸ h.sem.le
    cases e
    rcases labels_short hr with rfl | ⟨l, rfl, hl0, hl⟩
    · have hph : ∀ t, Sem.phOf (s'.pc t) = Sem.phOf (c.s.pc t) := fun t =>
        (Option.some.inj (hp t)).symm
      have hnn : n' = n := (Option.some.inj hat).symm
      subst hnn
      refine ⟨n', [], ⟨hi, hw, hm.trans h.max, fun t => ?_⟩, ?_, fun _ => Or.inl rfl⟩
      · show coh (Sem.phOf (s'.pc t)) (c.m.pc t)
        rw [hph]; exact h.coh t
      · show Except.ok (_, _) = Except.ok (abs ⟨c.m, s'⟩ _, _)
        rw [same_abs hph]; rfl
    · have hre : reacts c.m [l] = react c.m l := by
        show (_, _ ++ []) = _
        rw [List.append_nil]; rfl
      rw [hre]
      obtain ⟨⟨as, has, hsoft⟩, hco⟩ := react_ok h.coh hn hat (fun hc => by
        rcases hl hc with ⟨t, w, e1, rfl⟩ | ⟨t, e1, rfl⟩
        · have he := ha t (Or.inl ⟨w, e1⟩)
          refine ⟨by show entry c.m t ≠ none; rw [he]; exact (fun e => nomatch e), ?_⟩
          have hpt := hp t
          rw [Sem.phase_one (by rfl)] at hpt
          show coh (Sem.phOf (s'.pc t)) (c.m.pc t)
          change Sem.Spec.move (Sem.phOf (c.s.pc t)) _ = _ at hpt
          cases hph : Sem.phOf (c.s.pc t) <;> rw [hph] at hpt <;> try cases hpt
          rw [← Option.some.inj hpt]
          unfold entry at he
          cases hq : c.m.pc t <;> rw [hq] at he <;> first | trivial | (rw [e1] at he; cases he)
        · have he := ha t (Or.inr e1)
          refine ⟨by show entry c.m t ≠ none; rw [he]; exact (fun e => nomatch e), ?_⟩
          have hpt := hp t
          rw [Sem.phase_one (by rfl)] at hpt
          show coh (Sem.phOf (s'.pc t)) (c.m.pc t)
          change Sem.Spec.move (Sem.phOf (c.s.pc t)) _ = _ at hpt
          cases hph : Sem.phOf (c.s.pc t) <;> rw [hph] at hpt <;> try cases hpt
          rw [← Option.some.inj hpt]
          unfold entry at he
          cases hq : c.m.pc t <;> rw [hq] at he <;> first | trivial | (rw [e1] at he; cases he)) hp
      refine ⟨n', as, ⟨hi, hw, hm.trans h.max, hco⟩, has, fun hff => hsoft ?_⟩
      cases hx : failedRel l with
      | false => rfl
      | true => obtain ⟨t, e⟩ := hl0 hx; exact absurd e (hf hff t)

/-- Every step is undefined exactly if the step of the mutex code on the atomic semaphore is. -/
theorem step_same {c : S} {n : Nat} {a : Act} (h : Inv c n)
    (hd : Mutex.Owned (abs c (decide (n = 1)))) : ∃ r, step c a = .ok r ∧ Same c n (isFail a) r := by
  cases a with
  | mutex a =>
    unfold step
    dsimp only
    by_cases hs : atSem (c.m.pc (actor a)) = true
    · rw [if_pos hs]; exact ⟨_, rfl, fun _ _ e => nomatch e⟩
    · rw [if_neg hs]
      have hs : atSem (c.m.pc (actor a)) = false := by
        cases h1 : atSem (c.m.pc (actor a)) <;> first | rfl | exact absurd h1 hs
      have ho := h.coh.out hs
      have hl := step_lift (b := decide (n = 1)) ho hs
      obtain ⟨r', hr', -⟩ := Mutex.step_owned a hd
      rw [hr'] at hl
      cases hm : Mutex.step c.m a with
      | error e => rw [hm] at hl; cases hl
      | ok r =>
        refine ⟨_, rfl, ?_⟩
        intro c' ls e
        cases r with
        | none => cases e
        | some x =>
          obtain ⟨m', l⟩ := x
          cases e
          rw [hm] at hl
          refine ⟨n, [a], ⟨h.sem, h.w, h.max, fun u => ?_⟩, ?_, fun _ => Or.inr ⟨a, rfl, ?_⟩⟩
          · show coh (Sem.phOf (c.s.pc u)) (m'.pc u)
            by_cases hu : u = actor a
            · rw [hu, ho]; trivial
            · rw [step_moves _ _ hm u hu]; exact h.coh u
          · show (Mutex.step _ a >>= _) = _
            rw [hr', hl]
            show Except.ok (_, ls ++ []) = _
            rw [List.append_nil]
          · intro t e o all e'
            subst e
            rw [abs_pc (t := t) ho] at e'
            change atSem (c.m.pc t) = false at hs
            rw [e'] at hs; cases hs
  | enter t =>
    unfold step
    dsimp only
    cases he : entry c.m t with
    | none => exact ⟨_, rfl, fun _ _ e => nomatch e⟩
    | some a =>
      obtain ⟨r, hr, hsame⟩ := sem_same (a := a) (f := false) h (fun _ u e => by
        unfold entry at he
        split at he <;> cases he <;> cases e) (fun u hu => by
        have : u = t := by
          unfold entry at he
          split at he
          · cases he; rcases hu with ⟨w, e⟩ | e <;> cases e; rfl
          · cases he; rcases hu with ⟨w, e⟩ | e <;> cases e; rfl
          · cases he
        rw [this]; exact he)
      exact ⟨_, by dsimp only; rw [hr]; rfl, hsame⟩
  | run t pick =>
    obtain ⟨r, hr, hsame⟩ := sem_same (a := .run t pick) (f := false) h (fun _ _ e => nomatch e)
      (fun u hu => by rcases hu with ⟨w, e⟩ | e <;> cases e)
    exact ⟨_, by unfold step; dsimp only; rw [hr]; rfl, hsame⟩
  | fail t =>
    obtain ⟨r, hr, hsame⟩ := sem_same (a := .fail t) (f := true) h (fun e => nomatch e)
      (fun u hu => by rcases hu with ⟨w, e⟩ | e <;> cases e)
    exact ⟨_, by unfold step; dsimp only; rw [hr]; rfl, hsame⟩
  | wake t z =>
    obtain ⟨r, hr, hsame⟩ := sem_same (a := .wake t z) (f := false) h (fun _ _ e => nomatch e)
      (fun u hu => by rcases hu with ⟨w, e⟩ | e <;> cases e)
    exact ⟨_, by unfold step; dsimp only; rw [hr]; rfl, hsame⟩

/-! ## Executions -/

theorem exec_append {s s1 s2 : Mutex.S} {as bs : List Mutex.Act} {l1 l2 : List Label}
    (h1 : Mutex.exec s as = .ok (s1, l1)) (h2 : Mutex.exec s1 bs = .ok (s2, l2)) :
    Mutex.exec s (as ++ bs) = .ok (s2, l1 ++ l2) := by
  induction as generalizing s l1 with
  | nil => cases h1; exact h2
  | cons a as ih =>
    rw [Mutex.exec] at h1
    rw [List.cons_append, Mutex.exec]
    cases hs : Mutex.step s a with
    | error e => rw [hs] at h1; cases h1
    | ok r =>
      rw [hs, ok_bind] at h1
      rw [ok_bind]
      cases r with
      | none => exact ih h1
      | some x =>
        obtain ⟨s', l⟩ := x
        dsimp only at h1 ⊢
        cases he : Mutex.exec s' as with
        | error e => rw [he] at h1; cases h1
        | ok y =>
          obtain ⟨s'', l'⟩ := y
          rw [he, ok_bind] at h1
          cases h1
          rw [ih he, ok_bind, List.append_assoc]

theorem exec_owned {s s' : Mutex.S} {as : List Mutex.Act} {ls : List Label}
    (h : Mutex.Owned s) (he : Mutex.exec s as = .ok (s', ls)) : Mutex.Owned s' := by
  induction as generalizing s ls with
  | nil => cases he; exact h
  | cons a as ih =>
    rw [Mutex.exec] at he
    obtain ⟨r, hr, hok⟩ := Mutex.step_owned a h
    rw [hr, ok_bind] at he
    cases r with
    | none => exact ih h he
    | some x =>
      obtain ⟨s1, l⟩ := x
      dsimp only at he
      cases he1 : Mutex.exec s1 as with
      | error e => rw [he1] at he; cases he
      | ok y =>
        obtain ⟨s2, l2⟩ := y
        rw [he1, ok_bind] at he
        cases he
        exact ih (hok _ _ rfl) he1

theorem abs_init : abs init (decide (1 = 1)) = Mutex.init := rfl

theorem init_inv : Inv init 1 :=
  ⟨Sem.init_inv 1 1, Or.inl rfl, rfl, fun _ => trivial⟩

/-- Every execution is one of the mutex on the atomic semaphore. -/
theorem exec_same (as : List Act) : ∀ {c : S} {n : Nat} (_ : Inv c n)
    (_ : Mutex.Owned (abs c (decide (n = 1)))),
    ∃ c' ls n' bs, exec c as = .ok (c', ls) ∧ Inv c' n' ∧
      Mutex.exec (abs c (decide (n = 1))) bs = .ok (abs c' (decide (n' = 1)), ls) := by
  induction as with
  | nil => exact fun h _ => ⟨_, _, _, [], rfl, h, rfl⟩
  | cons a as ih =>
    intro c n h hd
    obtain ⟨r, hr, hs⟩ := step_same (a := a) h hd
    rw [exec, hr, ok_bind]
    cases r with
    | none => exact ih h hd
    | some x =>
      obtain ⟨c1, l1⟩ := x
      obtain ⟨n1, b1, hi1, he1, -⟩ := hs c1 l1 rfl
      obtain ⟨c2, l2, n2, b2, hx2, hi2, he2⟩ := ih hi1 (exec_owned hd he1)
      exact ⟨c2, l1 ++ l2, n2, b1 ++ b2, by simp only [hx2, ok_bind], hi2, exec_append he1 he2⟩

/-! ## Nobody waits for a free mutex -/

open Spec (Holder effect atomic isHolder Shallow depth)

/-- The semaphore has no unit only while somebody holds the mutex. -/
def Busy (s : Mutex.S) (h : Holder) : Prop := s.sem = false → h ≠ none

theorem effect_keeps {h h' : Holder} {l : Label} (he : effect h l = some h') (h0 : h ≠ none)
    (hl : ∀ t o all, l ≠ .leave t o all) : h' ≠ none := by
  unfold effect at he
  split at he
  · split at he <;> cases he; exact fun e => nomatch e
  · split at he
    · cases h with
      | none => exact absurd rfl h0
      | some x => cases he; exact fun e => nomatch e
    · cases he
  · exact absurd rfl (hl _ _ _)
  · split at he <;> cases he; exact h0
  · split at he <;> cases he; exact h0
  · cases he; exact h0

theorem atomic_keeps {h h' : Holder} {ls : List Label} (he : atomic h ls = some h') (h0 : h ≠ none)
    (hl : ∀ t o all, Label.leave t o all ∉ ls) : h' ≠ none := by
  induction ls generalizing h with
  | nil => cases he; exact h0
  | cons l ls ih =>
    rw [atomic] at he
    cases h1 : effect h l with
    | none => rw [h1] at he; cases he
    | some x =>
      rw [h1] at he
      exact ih he (effect_keeps h1 h0 fun t o all e => hl t o all (by rw [e]; exact List.mem_cons_self ..))
        fun t o all hm => hl t o all (List.mem_cons_of_mem _ hm)

/-- The next state has the same unit and no `leave`. -/
theorem busy_same {s s' : Mutex.S} {h h' : Holder} {ls : List Label} (hb : Busy s h)
    (hs : s'.sem = s.sem) (hl : ∀ t o all, Label.leave t o all ∉ ls)
    (ha : atomic h ls = some h') : Busy s' h' :=
  fun e => atomic_keeps ha (hb (hs ▸ e)) hl

theorem busy_lock {s s' : Mutex.S} {h h' : Holder} {t o : Nat} {p : Pc} {ls : List Label}
    (hb : Busy s h) (he : lock s t o p = .ok (some (s', ls))) (ha : atomic h ls = some h') :
    Busy s' h' := by
  unfold lock at he
  split at he
  · cases he; exact busy_same hb rfl (by simp) ha
  · cases he

theorem busy_unlock {s s' : Mutex.S} {h h' : Holder} {t o : Nat} {p : Pc} {ls l0 : List Label}
    (hb : Busy s h) (he : unlock s t o p l0 = .ok (some (s', ls)))
    (hl : ∀ t o all, Label.leave t o all ∉ l0) (ha : atomic h ls = some h') :
    Busy s' h' := by
  unfold unlock at he
  split at he
  · cases he; exact busy_same hb rfl hl ha
  · cases he

theorem busy_run {s s' : Mutex.S} {h h' : Holder} {t : Nat} {ls : List Label} (hi : Mutex.Inv s h)
    (hb : Busy s h) (he : run s t = .ok (some (s', ls))) (ha : atomic h ls = some h') :
    Busy s' h' := by
  have hv := hi.val t
  unfold run at he
  cases hp : s.pc t with
  | idle => rw [hp] at he; cases he
  | lCs o w => rw [hp] at he; exact busy_lock hb he ha
  | lCs2 o => rw [hp] at he; exact busy_lock hb he ha
  | uCs o all => rw [hp] at he; exact busy_lock hb he ha
  | lUnl o => rw [hp] at he; exact busy_unlock hb he (by simp) ha
  | lOut o w => rw [hp] at he; exact busy_unlock hb he (by simp) ha
  | uBad o all => rw [hp] at he; exact busy_unlock hb he (by simp) ha
  | uUnl o all => rw [hp] at he; exact busy_unlock hb he (by simp) ha
  | lTest o w =>
    rw [hp] at he; dsimp only at he
    split at he <;> cases he <;> exact busy_same hb rfl (by simp) ha
  | uTest o all =>
    rw [hp] at he; dsimp only at he
    split at he <;> cases he <;> exact busy_same hb rfl (by simp) ha
  | lWait o w =>
    rw [hp] at he; dsimp only at he
    split at he
    · cases he
      intro _ e
      subst e
      change (if h = none then some (some (t, o, 1)) else none).bind (fun x => some x) = _ at ha
      split at ha <;> cases ha
    · split at he
      · cases he; exact busy_same hb rfl (by simp) ha
      · cases he
  | uZero o all =>
    rw [hp] at he hv; dsimp only at he
    split at he
    · cases he; exact busy_same hb rfl (by simp) ha
    · rename_i hc
      cases he
      obtain ⟨_, d, hd, hcnt⟩ := hv
      intro _ e
      subst e
      rw [hd] at ha
      rw [hcnt] at hc
      have h1 : all = false := by cases all <;> first | rfl | exact absurd rfl hc
      subst h1
      have h2 : ¬ (d = 1) := by intro e; apply hc; rw [e]; rfl
      simp [atomic, effect, isHolder, h2] at ha
  | uRel o all => rw [hp] at he; cases he; exact fun e => nomatch e
  | _ => rw [hp] at he; cases he; exact busy_same hb rfl (by simp) ha

theorem busy_step {s s' : Mutex.S} {h h' : Holder} {a : Mutex.Act} {ls : List Label}
    (hi : Mutex.Inv s h) (hb : Busy s h)
    (hf : ∀ t, a = .fail t → ∀ o all, s.pc t ≠ .uRel o all)
    (he : Mutex.step s a = .ok (some (s', ls))) (ha : atomic h ls = some h') : Busy s' h' := by
  cases a with
  | callLock t o w =>
    unfold Mutex.step at he; dsimp only at he
    split at he <;> cases he; exact busy_same hb rfl (by simp) ha
  | callUnlock t o w =>
    unfold Mutex.step at he; dsimp only at he
    split at he <;> cases he; exact busy_same hb rfl (by simp) ha
  | run t => exact busy_run hi hb he ha
  | fail t =>
    unfold Mutex.step Mutex.fail at he; dsimp only at he
    split at he
    · cases he; exact busy_same hb rfl (by simp) ha
    · cases he; exact busy_same hb rfl (by simp) ha
    · cases he; exact busy_same hb rfl (by simp) ha
    · rename_i hp; exact absurd hp (hf t rfl _ _)
    · cases he

theorem busy_soft {s s' : Mutex.S} {h h' : Holder} {as : List Mutex.Act} {ls : List Label}
    (hi : Mutex.Inv s h) (hb : Busy s h) (hf : Soft s as)
    (he : Mutex.exec s as = .ok (s', ls)) (ha : atomic h ls = some h') : Busy s' h' := by
  rcases hf with rfl | ⟨a, rfl, hf⟩
  · cases he; cases ha; exact hb
  · rw [Mutex.exec] at he
    cases hr : Mutex.step s a with
    | error e => rw [hr] at he; cases he
    | ok r =>
      rw [hr, ok_bind] at he
      cases r with
      | none => cases he; cases ha; exact hb
      | some x =>
        obtain ⟨s1, l⟩ := x
        cases he
        rw [List.append_nil] at ha
        exact busy_step hi hb hf hr ha

/-- Executions in which no system call inside the semaphore fails. -/
theorem exec_busy (as : List Act) (hf : ∀ a ∈ as, isFail a = false) :
    ∀ {c c' : S} {n : Nat} {h : Holder} {pre ls : List Label} (_ : Inv c n)
    (_ : Mutex.Owned (abs c (decide (n = 1)))) (_ : Mutex.Inv (abs c (decide (n = 1))) h)
    (_ : Busy (abs c (decide (n = 1))) h) (_ : atomic none pre = some h)
    (_ : ∀ t, Spec.phase t (some .out) pre = some (phOf ((abs c (decide (n = 1))).pc t)))
    (_ : exec c as = .ok (c', ls)) (_ : Shallow (pre ++ ls)),
    ∃ n' h', Inv c' n' ∧ Busy (abs c' (decide (n' = 1))) h' ∧ Mutex.Inv (abs c' (decide (n' = 1))) h' ∧
      atomic none (pre ++ ls) = some h' ∧
      ∀ t, Spec.phase t (some .out) (pre ++ ls) = some (phOf ((abs c' (decide (n' = 1))).pc t)) := by
  induction as with
  | nil =>
    intro c c' n h pre ls hi _ hm hb ha hp he _
    cases he
    rw [List.append_nil]
    exact ⟨n, h, hi, hb, hm, ha, hp⟩
  | cons a as ih =>
    intro c c' n h pre ls hi ho hm hb ha hp he hk
    obtain ⟨r, hr, hs⟩ := step_same (a := a) hi ho
    rw [exec, hr, ok_bind] at he
    have hf' : ∀ a ∈ as, isFail a = false := fun a ha => hf a (List.mem_cons_of_mem _ ha)
    cases r with
    | none => exact ih hf' hi ho hm hb ha hp he hk
    | some x =>
      obtain ⟨c1, l1⟩ := x
      obtain ⟨n1, b1, hi1, he1, hsoft⟩ := hs c1 l1 rfl
      dsimp only at he
      cases he2 : exec c1 as with
      | error e => rw [he2] at he; cases he
      | ok y =>
        obtain ⟨c2, l2⟩ := y
        rw [he2, ok_bind] at he
        cases he
        rw [← List.append_assoc] at hk ⊢
        have hk1 : Shallow (pre ++ l1) := fun q hq => hk q (hq.trans (List.prefix_append _ _))
        obtain ⟨h1, hm1, ha1, hp1⟩ := Mutex.exec_ok b1 hm ha hp he1 hk1
        have hat : atomic h l1 = some h1 := by
          have := ha1
          rw [Mutex.atomic_append, ha] at this; exact this
        exact ih hf' hi1 (exec_owned ho he1) hm1
          (busy_soft hm hb (hsoft (hf a (List.mem_cons_self ..))) he1 hat) ha1 hp1 he2 hk

end Verif.Mutex.Full
