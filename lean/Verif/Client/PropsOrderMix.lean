import Verif.Client.PropsOrderWin
import Verif.RwLock.PropsFull
import Verif.WinRwLock.Props

/-!
# Mutexes and reader-writer locks taken in a fixed order

A program with any number of mutexes and reader-writer locks.  Every lock has its own execution, over the same
threads; nothing is assumed about how the executions interleave.  The locks are those of the complete models:
`Verif.Mutex.Full` and `Verif.RwLock.Full` (with all steps of the semaphores and the event) and, for Windows,
`Verif.WinMutex` and `Verif.WinRwLock`.
-/

namespace Verif.Client.Order

open Verif.Mutex.Spec (depth Shallow Holds)
open Verif.WinMutex (Clean)
open Verif.WinMutex.Spec (Orderly)
open Verif.RwLock.Spec (reading writing Few readers)
open Verif.Progress (CanGo Reach)

/-! ## What is claimed -/

/-- One lock at one moment, as seen by the program: which threads are inside a call, which can make a step there,
which ask for the lock and do not have it yet, which hold it, and which may ask for it although they hold it. -/
structure Lk where
  inside : Nat → Prop
  goes : Nat → Prop
  asks : Nat → Prop
  holds : Nat → Prop
  again : Nat → Prop

/-- Thread `t` has called `ReadLock` or `WriteLock` and has not got the lock. -/
def RwAsking (t : Nat) (ls : List RwLock.Label) : Prop :=
  RwLock.Spec.phase t (some .out) ls = some .reading ∨ RwLock.Spec.phase t (some .out) ls = some .writing

/-- Thread `u` can make its next step inside a call of the reader-writer lock. -/
def RwGoes (u : Nat) (s : RwLock.Full.S) : Prop :=
  CanGo (RwLock.Full.step false) (fun a => a = .lock (.run u) ∨ (∃ w, a = .enter u w) ∨
    ∃ pick, a = .inW (.run u pick) ∨ a = .inC (.run u pick) ∨ a = .inE (.run u pick)) s

/-- A mutex: it may be locked again through the object through which it is held. -/
def ofMutex (c : Mutex.Full.S) (ls : List Mutex.Label) : Lk where
  inside t := c.m.pc t ≠ .idle
  goes t := Goes t c
  asks t := ∃ o, Asking t o ls
  holds t := ∃ o, 0 < depth t o 0 ls
  again t := ∃ o, Asking t o ls ∧ 0 < depth t o 0 ls

/-- A reader-writer lock: it may not be locked again. -/
def ofRw (s : RwLock.Full.S) (ls : List RwLock.Label) : Lk where
  inside t := s.l.pc t ≠ .idle
  goes t := RwGoes t s
  asks t := RwAsking t ls
  holds t := 0 < reading t 0 ls ∨ writing t false ls = true
  again _ := False

/-- A mutex on Windows: it may be locked again through any object. -/
def ofWinMutex (s : WinMutex.S) (ls : List Mutex.Label) : Lk where
  inside t := s.pc t ≠ .idle
  goes t := WinGoes t s
  asks t := ∃ o, Asking t o ls
  holds t := ∃ o, 0 < depth t o 0 ls
  again _ := True

/-- A reader-writer lock on Windows: it may not be locked again. -/
def ofWinRw (s : WinRwLock.S) (ls : List RwLock.Label) : Lk where
  inside t := s.pc t ≠ .idle
  goes t := (WinRwLock.run s t).isSome = true
  asks t := RwAsking t ls
  holds t := 0 < reading t 0 ls ∨ writing t false ls = true
  again _ := False

/-- The locks of the library: any execution of any of them, in which the counters do not overflow, no system
call fails inside the semaphores and events, no infinite wait for them ends as if timed out, and on Windows no
`ReleaseMutex` fails, no call of the reader-writer lock except waits that may time out and the reset of the event, and no
thread ends holding a mutex. -/
inductive Fits : Lk → Prop
  | mutex (as : List Mutex.Full.Act) (c : Mutex.Full.S) (ls : List Mutex.Label)
      (h : Mutex.Full.exec Mutex.Full.init as = .ok (c, ls)) (hk : Shallow ls)
      (hf : ∀ t, Mutex.Full.Act.fail t ∉ as) : Fits (ofMutex c ls)
  | rw (as : List RwLock.Full.Act) (s : RwLock.Full.S) (ls : List RwLock.Label)
      (h : RwLock.Full.exec false RwLock.Full.init as = .ok (s, ls)) (hk : Few ls)
      (hf : ∀ p a q x l, as = p ++ a :: q → RwLock.Full.exec false RwLock.Full.init p = .ok (x, l) →
        RwLock.Full.faults x a = false) : Fits (ofRw s ls)
  | winMutex (as : List WinMutex.Act) (s : WinMutex.S) (ls : List Mutex.Label)
      (h : WinMutex.exec WinMutex.init as = .ok (s, ls)) (hk : Shallow ls) (hd : Orderly as)
      (hf : Clean as) : Fits (ofWinMutex s ls)
  | winRw (as : List RwLock.Act) (s : WinRwLock.S) (ls : List RwLock.Label)
      (h : WinRwLock.exec false WinRwLock.init as = (s, ls)) (hk : readers 0 ls < 2147483647)
      (hf : ∀ p a q, as = p ++ a :: q →
        WinRwLock.faults (WinRwLock.exec false WinRwLock.init p).1 a = false) : Fits (ofWinRw s ls)

/-- While a thread asks for lock `i` it holds only locks below `i`, or it may ask for `i` again. -/
def MixOrdered (N : Nat) (lk : Nat → Lk) : Prop :=
  ∀ t i j, i < N → j < N → (lk i).asks t → (lk j).holds t → j < i ∨ (j = i ∧ (lk i).again t)

/-! ## Proofs -/

/-- When nobody can make a step, those inside calls are asking and somebody holds the lock, who is not asking for it
again. -/
def Waits (l : Lk) : Prop :=
  (∀ u, ¬ l.goes u) → ∀ t, l.inside t →
    l.asks t ∧ ∃ u, l.holds u ∧ ¬ (l.inside u ∧ l.again u)

theorem mutex_waits {as : List Mutex.Full.Act} {c : Mutex.Full.S} {ls : List Mutex.Label}
    (h : Mutex.Full.exec Mutex.Full.init as = .ok (c, ls)) (hk : Shallow ls)
    (hf : ∀ t, Mutex.Full.Act.fail t ∉ as) : Waits (ofMutex c ls) := by
  intro hgo t hin
  have hsl : ∀ u, c.m.pc u = .idle ∨ ∃ w, c.s.pc u = .wBlocked w := by
    intro u
    by_cases h1 : c.m.pc u = .idle
    · exact Or.inl h1
    · refine Or.inr ?_
      cases h2 : Progress.Mutex.asleep u c with
      | true => exact blocked_iff h2
      | false =>
        rcases Progress.mutex_goes_partial (reach_of_exec as Reach.refl h hf) h1 h2 with g | ⟨v, _, _, g⟩
        · exact absurd g (hgo u)
        · exact absurd g (hgo v)
  obtain ⟨w, hw⟩ := (hsl t).resolve_left hin
  obtain ⟨o, ho, _⟩ := asleep_asking as c ls h hk hf hw
  obtain ⟨u, p, hd⟩ := Mutex.Full.full_no_lost_wakeup_partial as c ls h hk hf hsl t w hw
  refine ⟨⟨o, ho⟩, u, ⟨p, hd⟩, ?_⟩
  rintro ⟨hu, q, hq, hq0⟩
  obtain ⟨w', hw'⟩ := (hsl u).resolve_left hu
  obtain ⟨o', ho', h0⟩ := asleep_asking as c ls h hk hf hw'
  rw [Asking, hq] at ho'
  cases ho'
  omega

theorem rw_reach {s0 : RwLock.Full.S} : ∀ (as : List RwLock.Full.Act) {c c' : RwLock.Full.S} {ls : List RwLock.Label},
    Reach (RwLock.Full.step false) Progress.RwLock.clock s0 c → RwLock.Full.exec false c as = .ok (c', ls) →
    (∀ p a q x l, as = p ++ a :: q → RwLock.Full.exec false c p = .ok (x, l) → RwLock.Full.faults x a = false) →
    Reach (RwLock.Full.step false) Progress.RwLock.clock s0 c'
  | [], c, c', ls, hr, h, _ => by cases h; exact hr
  | a :: as, c, c', ls, hr, h, hf => by
    rw [RwLock.Full.exec] at h
    have hfa := hf [] a as c [] rfl rfl
    have hcl : Progress.RwLock.clock c a = false := by
      cases a with
      | inW b => cases b <;> first | rfl | cases hfa
      | inC b => cases b <;> first | rfl | cases hfa
      | _ => rfl
    cases e : RwLock.Full.step false c a with
    | error e' => rw [e] at h; cases h
    | ok r =>
      rw [e, ok_bind] at h
      cases r with
      | none =>
        refine rw_reach as hr h fun p b q x l e' hx => hf (a :: p) b q x l (by rw [e']; rfl) ?_
        rw [RwLock.Full.exec, e, ok_bind]; exact hx
      | some x =>
        obtain ⟨c1, l⟩ := x
        cases e2 : RwLock.Full.exec false c1 as with
        | error e' => simp only [e2, error_bind] at h; cases h
        | ok y =>
          obtain ⟨c2, l2⟩ := y
          simp only [e2, ok_bind] at h
          cases h
          refine rw_reach as (hr.step hcl e) e2 fun p b q x l' e' hx => ?_
          refine hf (a :: p) b q x (l ++ l') (by rw [e']; rfl) ?_
          rw [RwLock.Full.exec, e, ok_bind]
          simp only [hx, ok_bind]

/-- In a quiet state a thread asleep in a reader-writer lock is asking for it. -/
theorem rw_asking {as : List RwLock.Full.Act} {s : RwLock.Full.S} {ls : List RwLock.Label}
    (h : RwLock.Full.exec false RwLock.Full.init as = .ok (s, ls)) (hk : Few ls)
    (hf : ∀ p a q x l, as = p ++ a :: q → RwLock.Full.exec false RwLock.Full.init p = .ok (x, l) →
      RwLock.Full.faults x a = false)
    (hq : ∀ t, s.l.pc t = .idle ∨ RwLock.Full.inside s t) {u : Nat} (hu : RwLock.Full.inside s u) :
    RwAsking u ls := by
  obtain ⟨n, k, R, W, tw, tc, hi, hm, hl, -⟩ := RwLock.Full.exec_live as (pre := []) RwLock.Full.init_inv
    (fun t e => nomatch e) (by rw [RwLock.Full.abs_init]; exact RwLock.init_inv)
    (by rw [RwLock.Full.abs_init]; exact RwLock.init_live) rfl (fun _ => ⟨rfl, rfl⟩) hf h hk
  obtain ⟨s', ls', n', k', bs, he, -, hb⟩ := RwLock.Full.exec_same false as RwLock.Full.init_inv
  rw [h] at he
  cases he
  rw [RwLock.Full.abs_init] at hb
  have hb2 : (RwLock.exec false RwLock.init bs).2 = ls := by rw [hb]
  obtain ⟨_, _, _, _, -, -, hp, -⟩ := RwLock.reach bs (by rw [hb2]; exact hk)
  rw [hb2, hb] at hp
  have hph : RwLock.Spec.phase u (some .out) ls = some (RwLock.phOf ((RwLock.Full.abs s n k).pc u)) := hp u
  obtain ⟨h1, h2⟩ := RwLock.Full.quiet_stuck hi hq
  have hcs : (RwLock.Full.abs s n k).csem = true := by
    rcases hl.c with h | ⟨t, ht⟩
    · exact h
    · rcases h1 t with e | ⟨e, _⟩ | ⟨e, _⟩ | ⟨e, _⟩ | ⟨e, _⟩ | ⟨e, _⟩ <;> rw [e] at ht <;> cases ht
  rcases h2 u hu with ⟨e, _⟩ | ⟨e, _⟩ | ⟨_, e⟩ | ⟨_, e⟩ | ⟨e, _⟩
  · rw [e] at hph; exact Or.inl hph
  · rw [e] at hph; exact Or.inr hph
  · rw [hcs] at e; cases e
  · rw [hcs] at e; cases e
  · rw [e] at hph; exact Or.inr hph

theorem ev_blocked_iff {p : Event.Pc} (h : Event.blocked p = true) : ∃ w, p = .wBlocked w := by
  cases p <;> first | exact ⟨_, rfl⟩ | cases h

theorem rw_waits {as : List RwLock.Full.Act} {s : RwLock.Full.S} {ls : List RwLock.Label}
    (h : RwLock.Full.exec false RwLock.Full.init as = .ok (s, ls)) (hk : Few ls)
    (hf : ∀ p a q x l, as = p ++ a :: q → RwLock.Full.exec false RwLock.Full.init p = .ok (x, l) →
      RwLock.Full.faults x a = false) : Waits (ofRw s ls) := by
  intro hgo t hin
  have hsl : ∀ u, s.l.pc u = .idle ∨ RwLock.Full.inside s u := by
    intro u
    by_cases h1 : s.l.pc u = .idle
    · exact Or.inl h1
    · refine Or.inr ?_
      cases h2 : Progress.RwLock.asleep u s with
      | true =>
        unfold Progress.RwLock.asleep at h2
        rw [Bool.or_eq_true, Bool.or_eq_true] at h2
        rcases h2 with (e | e) | e
        · exact Or.inl (blocked_iff e)
        · exact Or.inr (Or.inl (blocked_iff e))
        · exact Or.inr (Or.inr (ev_blocked_iff e))
      | false =>
        rcases Progress.rwlock_goes_partial false (rw_reach as Reach.refl h hf) h1 h2 with g | ⟨v, _, _, g⟩
        · exact absurd g (hgo u)
        · exact absurd g (hgo v)
  have hi := (hsl t).resolve_left hin
  obtain ⟨u, hu⟩ := RwLock.Full.full_no_lost_wakeup_partial as s ls h hk hf hsl t hi
  exact ⟨rw_asking h hk hf hsl hi, u, hu, fun e => e.2⟩

theorem win_mutex_waits {as : List WinMutex.Act} {s : WinMutex.S} {ls : List Mutex.Label}
    (h : WinMutex.exec WinMutex.init as = .ok (s, ls)) (hk : Shallow ls) (hd : Orderly as) (hf : Clean as) :
    Waits (ofWinMutex s ls) := by
  intro hgo t hin
  obtain ⟨hq, ha⟩ := win_asking as hd hf s ls h hk hgo
  obtain ⟨u, o, hu, hout⟩ := WinMutex.win_mutex_no_lost_wakeup as hd hf s ls h hk hq t hin
  refine ⟨ha t hin, u, ⟨o, hu⟩, fun e => ?_⟩
  obtain ⟨p, hp⟩ := ha u e.1
  rw [Asking, hout] at hp
  cases hp

theorem win_rw_waits {as : List RwLock.Act} {s : WinRwLock.S} {ls : List RwLock.Label}
    (h : WinRwLock.exec false WinRwLock.init as = (s, ls)) (hk : readers 0 ls < 2147483647)
    (hf : ∀ p a q, as = p ++ a :: q →
      WinRwLock.faults (WinRwLock.exec false WinRwLock.init p).1 a = false) : Waits (ofWinRw s ls) := by
  intro hgo t hin
  have hq : ∀ u, WinRwLock.run s u = none := fun u => by
    cases e : WinRwLock.run s u with
    | none => rfl
    | some x => exact absurd (by show (WinRwLock.run s u).isSome = true; rw [e]; rfl) (hgo u)
  have hsl := WinRwLock.win_no_lost_wakeup as hf (by rw [h]; exact hq) (by rw [h]; exact hk) t
    (by rw [h]; exact hin)
  rw [h] at hsl
  obtain ⟨u, hu⟩ := hsl
  refine ⟨?_, u, hu, fun e => e.2⟩
  obtain ⟨R, W, tw, tc, hi, hl, hr⟩ := WinRwLock.exec_live as WinRwLock.init_inv WinRwLock.init_live hf
  obtain ⟨_, _, _, _, -, -, -, hp, -⟩ := WinRwLock.reach as
  rw [h] at hi hl hr hp
  dsimp only at hi hl hr hp
  have hph := hp t
  have hlt : R.length < WinRwLock.longMax := by rw [hr]; exact hk
  have hq' := fun t => WinRwLock.stuck_pc (hq t)
  have hS : ∀ t, s.pc t ≠ .rS := by
    intro t e
    have hex := WinRwLock.exact_sem (t := t) hi hl (by rw [e]; rfl) (by rw [e]; rfl)
    rcases hq' t with h | ⟨h, _⟩ | ⟨h, _⟩ | ⟨h, _⟩ | ⟨h, _⟩ | ⟨h, _⟩ | ⟨_, h⟩ <;> first | (rw [e] at h; cases h; done) | skip
    omega
  have hM : s.msem = true := by
    rcases hl.c with h | ⟨t, ht⟩
    · exact h
    · rcases hq' t with e | ⟨e, _⟩ | ⟨e, _⟩ | ⟨e, _⟩ | ⟨e, _⟩ | ⟨e, _⟩ | ⟨e, _⟩ <;>
        first | exact absurd e (hS t) | (rw [e] at ht; cases ht; done)
  rcases hq' t with e | ⟨e, _⟩ | ⟨e, _⟩ | ⟨_, e⟩ | ⟨_, e⟩ | ⟨e, _⟩ | ⟨e, _⟩
  · exact absurd e hin
  · rw [e] at hph; exact Or.inl hph
  · rw [e] at hph; exact Or.inr hph
  · rw [hM] at e; cases e
  · rw [hM] at e; cases e
  · rw [e] at hph; exact Or.inr hph
  · exact absurd e (hS t)

theorem Fits.waits {l : Lk} (h : Fits l) : Waits l := by
  cases h with
  | mutex as c ls h hk hf => exact mutex_waits h hk hf
  | rw as s ls h hk hf => exact rw_waits h hk hf
  | winMutex as s ls h hk hd hf => exact win_mutex_waits h hk hd hf
  | winRw as s ls h hk hf => exact win_rw_waits h hk hf

/-- Among locks asked for in a fixed order nobody is stuck: while a thread is inside a call, some thread can make a step
inside a call, or some thread holds one of the locks and is not inside any call. -/
theorem mixed_order_go_partial (N : Nat) (lk : Nat → Lk) (hfit : ∀ i, i < N → Fits (lk i)) (ho : MixOrdered N lk)
    (t i : Nat) (hi : i < N) (hin : (lk i).inside t) :
    (∃ j u, j < N ∧ (lk j).goes u) ∨
      ∃ j u, j < N ∧ (lk j).holds u ∧ ∀ k, k < N → ¬ (lk k).inside u := by
  by_cases hgo : ∃ j u, j < N ∧ (lk j).goes u
  · exact Or.inl hgo
  · refine Or.inr ?_
    have hst : ∀ j, j < N → ∀ u, ¬ (lk j).goes u := fun j hj u g => hgo ⟨j, u, hj, g⟩
    have key : ∀ n i t, i < N → N - i ≤ n → (lk i).inside t →
        ∃ j u, j < N ∧ (lk j).holds u ∧ ∀ k, k < N → ¬ (lk k).inside u := by
      intro n
      induction n with
      | zero => intro i t hi hn; omega
      | succ n ih =>
        intro i t hi hn hin
        obtain ⟨-, u, hu, hself⟩ := (hfit i hi).waits (hst i hi) t hin
        by_cases hout : ∀ k, k < N → ¬ (lk k).inside u
        · exact ⟨i, u, hi, hu, hout⟩
        · have ⟨k, hkN, hkin⟩ : ∃ k, k < N ∧ (lk k).inside u := by
            refine Classical.byContradiction fun hne => hout fun k hk' hx => hne ⟨k, hk', hx⟩
          have hask := ((hfit k hkN).waits (hst k hkN) u hkin).1
          rcases ho u k i hkN hi hask hu with hlt | ⟨rfl, hag⟩
          · exact ih k u hkN (by omega) hkin
          · exact absurd ⟨hkin, hag⟩ hself
    exact key (N - i) i t hi (Nat.le_refl _) hin

/-! ## Cases -/

/-- Thread 1 reads, thread 2 wants to write and is asleep, thread 1 wants to read again. -/
def reread : List RwLock.Full.Act :=
  [.lock (.callRead 1)] ++ RwLock.Full.go 1 ++ RwLock.Full.go 1 ++ RwLock.Full.go 1 ++ RwLock.Full.go 1 ++
    RwLock.Full.go 1 ++ [.lock (.callWrite 2)] ++ RwLock.Full.go 2 ++ RwLock.Full.go 2 ++ [.lock (.callRead 1)] ++
    RwLock.Full.go 1 ++ RwLock.Full.go 1

def rereadLs : List RwLock.Label := [.callRead 1, .enterR 1, .retRead 1 true, .callWrite 2, .callRead 1]

set_option maxRecDepth 20000 in
theorem reread_run : ∃ s, RwLock.Full.exec false RwLock.Full.init reread = .ok (s, rereadLs) ∧
    s.l.pc 1 = .rW ∧ s.w.pc 1 = .wBlocked 4294967295 ∧ s.c.pc 1 = .idle ∧ s.e.pc 1 = .idle ∧
    s.l.pc 2 = .wE ∧ s.w.pc 2 = .idle ∧ s.c.pc 2 = .idle ∧ s.e.pc 2 = .wBlocked 4294967295 ∧
    ∀ u, u ≠ 1 → u ≠ 2 → s.l.pc u = .idle ∧ s.w.pc u = .idle ∧ s.c.pc u = .idle ∧ s.e.pc u = .idle := by
  refine ⟨_, rfl, rfl, rfl, rfl, rfl, rfl, rfl, rfl, rfl, ?_⟩
  intro u h1 h2
  match u with
  | 0 => exact ⟨rfl, rfl, rfl, rfl⟩
  | 1 => exact absurd rfl h1
  | 2 => exact absurd rfl h2
  | k + 3 => exact ⟨rfl, rfl, rfl, rfl⟩

theorem sem_none {s : Sem.S} {u : Nat} (h : s.pc u = .idle ∨ ∃ w, s.pc u = .wBlocked w) (pick : Nat) :
    Sem.step s (.run u pick) = .ok none := by
  unfold Sem.step Sem.run
  dsimp only
  rcases h with e | ⟨w, e⟩ <;> rw [e]

theorem ev_none {s : Event.S} {u : Nat} (h : s.pc u = .idle ∨ ∃ w, s.pc u = .wBlocked w) (pick : Nat) :
    Event.step s (.run u pick) = .ok none := by
  unfold Event.step Event.run
  dsimp only
  rcases h with e | ⟨w, e⟩ <;> rw [e]

/-- Threads outside the lock or asleep in one of its objects make no steps. -/
theorem rw_still {s : RwLock.Full.S} {u : Nat} (hw : s.w.pc u = .idle ∨ ∃ w, s.w.pc u = .wBlocked w)
    (hc : s.c.pc u = .idle) (he : s.e.pc u = .idle ∨ ∃ w, s.e.pc u = .wBlocked w)
    (hl : s.l.pc u = .idle ∨ (s.l.pc u = .rW ∧ s.w.pc u ≠ .idle) ∨ (s.l.pc u = .wW ∧ s.w.pc u ≠ .idle) ∨
      (s.l.pc u = .wE ∧ s.e.pc u ≠ .idle)) : ¬ RwGoes u s := by
  rintro ⟨a, r, ha, h⟩
  rcases ha with rfl | ⟨w, rfl⟩ | ⟨pick, rfl | rfl | rfl⟩
  · unfold RwLock.Full.step at h
    rcases hl with e | ⟨e, _⟩ | ⟨e, _⟩ | ⟨e, _⟩ <;>
      simp [RwLock.Full.actor, e, RwLock.Full.op, RwLock.step, RwLock.run, RwLock.Full.inLock] at h
  · unfold RwLock.Full.step at h
    rcases hl with e | ⟨e, e'⟩ | ⟨e, e'⟩ | ⟨e, e'⟩ <;>
      simp_all [RwLock.Full.op, RwLock.Full.atW, RwLock.Full.atE, Sem.step, Event.step]
  · simp [RwLock.Full.step, RwLock.Full.atW, RwLock.Full.Inner.sem, sem_none hw pick] at h
  · simp [RwLock.Full.step, RwLock.Full.atC, RwLock.Full.Inner.sem, sem_none (Or.inl hc) pick] at h
  · simp [RwLock.Full.step, RwLock.Full.atE, RwLock.Full.Inner.event, ev_none he pick] at h

theorem calm_faults {as : List RwLock.Full.Act} (h : as.all RwLock.Full.calm = true) :
    ∀ p a q x l, as = p ++ a :: q → RwLock.Full.exec false RwLock.Full.init p = .ok (x, l) →
      RwLock.Full.faults x a = false := by
  intro p a q x l e _
  have ha := List.all_eq_true.mp h a (by rw [e]; simp)
  unfold RwLock.Full.calm at ha
  split at ha <;> first | rfl | cases ha

theorem rw_few {ls : List RwLock.Label} (h : ls.length < 4294967295) : Few ls := by
  have hle : ∀ (q : List RwLock.Label) (n : Nat), readers n q ≤ n + q.length := by
    intro q
    induction q with
    | nil => intro n; exact Nat.le_refl _
    | cons l q ih =>
      intro n
      rw [List.length_cons]
      have h0 := ih n
      have h1 := ih (n + 1)
      have h2 := ih (n - 1)
      cases l <;> simp only [readers] <;> omega
  intro q hq
  have := hle q 0
  have := hq.length_le
  omega

set_option maxRecDepth 20000 in
theorem reread_calm : reread.all RwLock.Full.calm = true := rfl

set_option maxRecDepth 20000 in
theorem demo_calm : RwLock.Full.demo.all RwLock.Full.calm = true := rfl

/-- A reader-writer lock must not be asked for again, not even for reading: thread 1 reads, thread 2 waits to write,
thread 1 asks to read once more.  Nobody can make a step, and nobody who holds the lock is outside. -/
theorem reread_deadlock : ∃ l, Fits l ∧ l.holds 1 ∧ l.asks 1 ∧ l.asks 2 ∧
    ¬ ((∃ u, l.goes u) ∨ ∃ u, l.holds u ∧ ¬ l.inside u) := by
  obtain ⟨s, hr, l1, w1, c1, e1, l2, w2, c2, e2, hrest⟩ := reread_run
  refine ⟨ofRw s rereadLs, .rw reread s rereadLs hr (rw_few (by decide)) (calm_faults reread_calm), Or.inl (by decide),
    Or.inl (by decide), Or.inr (by decide), ?_⟩
  rintro (⟨u, hg⟩ | ⟨u, hu, hout⟩)
  · by_cases h1 : u = 1
    · subst h1
      exact rw_still (Or.inr ⟨_, w1⟩) c1 (Or.inl e1) (Or.inr (Or.inl ⟨l1, by rw [w1]; exact (fun e => nomatch e)⟩)) hg
    · by_cases h2 : u = 2
      · subst h2
        exact rw_still (Or.inl w2) c2 (Or.inr ⟨_, e2⟩)
          (Or.inr (Or.inr (Or.inr ⟨l2, by rw [e2]; exact (fun e => nomatch e)⟩))) hg
      · obtain ⟨a, b, c, d⟩ := hrest u h1 h2
        exact rw_still (Or.inl b) c (Or.inl d) (Or.inl a) hg
  · have h1 : u = 1 := by
      refine Classical.byContradiction fun hne => ?_
      have hne' : ¬ 1 = u := fun e => hne e.symm
      rcases hu with h | h
      · simp [rereadLs, reading, hne'] at h
      · simp [rereadLs, writing] at h
    subst h1
    exact hout (by show s.l.pc 1 ≠ .idle; rw [l1]; exact (fun e => nomatch e))

/-- The labels of `RwLock.Full.demo`: threads 1 and 2 read, thread 3 waits to write. -/
def rwLs : List RwLock.Label :=
  [.callRead 1, .enterR 1, .retRead 1 true, .callRead 2, .enterR 2, .retRead 2 true, .callWrite 3]

set_option maxRecDepth 20000 in
theorem rw_run : ∃ s, RwLock.Full.exec false RwLock.Full.init RwLock.Full.demo = .ok (s, rwLs) ∧
    s.l.pc 3 ≠ .idle := ⟨_, rfl, (fun e => nomatch e)⟩

/-- The hypotheses are met: lock 0 is a reader-writer lock, which threads 1 and 2 have for reading and thread 3 wants to
write; lock 1 is a mutex, which thread 1 has and thread 2 wants. -/
example : ∃ lk : Nat → Lk, (∀ i, i < 2 → Fits (lk i)) ∧ MixOrdered 2 lk ∧ (lk 0).inside 3 ∧ (lk 0).holds 2 ∧
    (lk 1).asks 2 := by
  obtain ⟨c, hc⟩ := held_12
  obtain ⟨s, hs, h3⟩ := rw_run
  refine ⟨fun i => if i = 0 then ofRw s rwLs else ofMutex c (heldLs 1 2), ?_, ?_, h3, Or.inl (by decide),
    ⟨7, rfl⟩⟩
  · intro i _
    dsimp only
    split
    · exact .rw _ s rwLs hs (rw_few (by decide)) (calm_faults demo_calm)
    · exact .mutex _ c _ hc.run (held_short 1 2) (held_fail 1 2)
  · intro t i j hi hj ha hh
    have : i = 0 ∨ i = 1 := by omega
    have : j = 0 ∨ j = 1 := by omega
    rcases ‹i = 0 ∨ i = 1› with rfl | rfl
    · exfalso
      have h3 : t = 3 := by
        have ha : RwAsking t rwLs := ha
        refine Classical.byContradiction fun hne => ?_
        have h3' : ¬ 3 = t := fun e => hne e.symm
        by_cases e1 : 1 = t
        · subst e1; exact absurd ha (by unfold RwAsking; decide)
        · by_cases e2 : 2 = t
          · subst e2; exact absurd ha (by unfold RwAsking; decide)
          · simp [RwAsking, rwLs, RwLock.Spec.phase, RwLock.Spec.who, e1, e2, h3'] at ha
      subst h3
      rcases ‹j = 0 ∨ j = 1› with rfl | rfl
      · have hh : 0 < reading 3 0 rwLs ∨ writing 3 false rwLs = true := hh
        exact absurd hh (by decide)
      · obtain ⟨o, ho⟩ := hh
        have ho : 0 < depth 3 o 0 (heldLs 1 2) := ho
        cases (held_depth ho).1
    · rcases ‹j = 0 ∨ j = 1› with rfl | rfl
      · exact Or.inl (by omega)
      · exfalso
        obtain ⟨o, ho⟩ := ha
        obtain ⟨p, hp⟩ := hh
        have ho : Asking t o (heldLs 1 2) := ho
        have hp : 0 < depth t p 0 (heldLs 1 2) := hp
        have h1 := (held_asking (by decide) ho).1
        have h2 := (held_depth hp).1
        omega

end Verif.Client.Order
