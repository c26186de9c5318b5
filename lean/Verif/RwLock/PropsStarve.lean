import Verif.RwLock.Prefer
import Verif.RwLock.PropsFull

/-!
# Readers and a waiting writer

The comments of the code promise that readers cannot starve the writer (sync_readwritelock.cpp 77,
267).  `WriteLock` waits twice: for the write mutex (308), then for the readers to leave (312).  The
promise holds from the end of the first wait on.  It does not hold during the first wait: the
semaphore gives its unit to whoever comes first, so one reader that locks and unlocks in a loop can
keep a writer out for ever.
-/

namespace Verif.RwLock.Full

/-- Two executions one after the other. -/
theorem exec_join {free : Bool} {s s1 s2 : S} {as bs : List Act} {l1 l2 : List Label}
    (h1 : exec free s as = .ok (s1, l1)) (h2 : exec free s1 bs = .ok (s2, l2)) :
    exec free s (as ++ bs) = .ok (s2, l1 ++ l2) := by
  induction as generalizing s l1 with
  | nil =>
    cases h1
    exact h2
  | cons a as ih =>
    simp only [List.cons_append, exec] at h1 ⊢
    cases hs : step free s a with
    | error e => rw [hs] at h1; cases h1
    | ok r =>
      rw [hs] at h1
      simp only [ok_bind] at h1 ⊢
      cases r with
      | none => exact ih h1
      | some x =>
        obtain ⟨x, l⟩ := x
        simp only at h1 ⊢
        cases hx : exec free x as with
        | error e => rw [hx] at h1; cases h1
        | ok y =>
          obtain ⟨y, m⟩ := y
          rw [hx] at h1
          simp only [ok_bind] at h1
          cases h1
          rw [ih hx]
          simp only [ok_bind, List.append_assoc]

/-- Both parts of an execution, seen on the atomic objects. -/
theorem two_parts {as bs : List Act} {s1 s2 : S} {l1 l2 : List Label}
    (h1 : exec false init as = .ok (s1, l1)) (h2 : exec false s1 bs = .ok (s2, l2)) :
    ∃ x cs tw, OwnW x tw ∧ (RwLock.exec false x cs).2 = l2 ∧
      (∀ t, pressing (s1.l.pc t) = true → pressing (x.pc t) = true) ∧
      ∀ t, pressing (s2.l.pc t) = true → pressing ((RwLock.exec false x cs).1.pc t) = true := by
  obtain ⟨s, ls, n, k, b1, he, hi, hb⟩ := exec_same false as init_inv
  rw [h1] at he
  cases he
  rw [abs_init] at hb
  obtain ⟨s', ls', n', k', b2, he, hi', hb'⟩ := exec_same false bs hi
  rw [h2] at he
  cases he
  obtain ⟨tw, ho⟩ := exec_ownW b1 init_ownW
  rw [hb] at ho
  have hp : ∀ (y : S) (n k t : Nat), pressing (y.l.pc t) = true → pressing ((abs y n k).pc t) = true := by
    intro y n k t hp
    show pressing (if (tot y t).isDone = true then next (y.l.pc t) else y.l.pc t) = true
    split
    · unfold pressing at hp
      split at hp <;> first | (cases hp; done) | (rename_i e; rw [e]; rfl)
    · exact hp
  exact ⟨abs s1 n k, b2, tw, ho, by rw [hb'], fun t => hp _ _ _ t, fun t => by rw [hb']; exact hp _ _ _ t⟩

/-- Paired calls.  Thread `t` is in `WriteLock`, and its first wait was successful.  As long as the call has
not returned and has not given up its second wait, nobody comes in except `t` itself.
(The full claim would start with the first wait; see `reader_gets_ahead`.) -/
theorem writer_first_partial (as bs : List Act) (s1 s2 : S) (l1 l2 : List Label)
    (h1 : exec false init as = .ok (s1, l1)) (h2 : exec false s1 bs = .ok (s2, l2)) (t : Nat)
    (hw : s1.l.pc t = .wE) (hr : ∀ r, .retWrite t r ∉ l2)
    (he : s2.l.pc t = .wE ∨ s2.l.pc t = .wRet true) (u : Nat) :
    .enterR u ∉ l2 ∧ (.enterW u ∈ l2 → u = t) := by
  obtain ⟨x, cs, tw, ho, hl, hp1, hp2⟩ := two_parts h1 h2
  rw [← hl] at hr ⊢
  exact exec_alone cs ho (hp1 t (by rw [hw]; rfl)) hr
    (hp2 t (by rcases he with e | e <;> rw [e] <;> rfl)) u

/-- The same going by results: no `ReadLock` called in that time returns true in that time. -/
theorem late_reader_waits_partial (as bs : List Act) (s1 s2 : S) (l1 l2 : List Label)
    (h1 : exec false init as = .ok (s1, l1)) (h2 : exec false s1 bs = .ok (s2, l2)) (t : Nat)
    (hw : s1.l.pc t = .wE) (hr : ∀ r, .retWrite t r ∉ l2)
    (he : s2.l.pc t = .wE ∨ s2.l.pc t = .wRet true) (u : Nat) (p q : List Label)
    (hl : l2 = p ++ .callRead u :: q) : .retRead u true ∉ q := by
  obtain ⟨x, cs, tw, ho, hx, hp1, hp2⟩ := two_parts h1 h2
  rw [← hx] at hr hl
  exact (exec_early cs ho (hp1 t (by rw [hw]; rfl)) hr
    (hp2 t (by rcases he with e | e <;> rw [e] <;> rfl)) u).2 p q hl

/-- `n` steps of thread `t`, a signal going to `pick`. -/
def steps (t pick n : Nat) (k : Inner → Act) : List Act := List.replicate n (k (.run t pick))

/-- Thread 2 calls `ReadLock` and gets the write mutex; thread 1 calls `WriteLock` without time limit
and blocks in the semaphore. -/
def start : List Act :=
  [.lock (.callRead 2), .enter 2 4294967295] ++ steps 2 0 4 .inW ++
  [.lock (.callWrite 1), .enter 1 4294967295] ++ steps 1 0 2 .inW

/-- First half of a round: thread 2 finishes `ReadLock` (this wakes thread 1), calls `ReadUnlock`, calls
`ReadLock` again and gets the write mutex. -/
def round1 : List Act :=
  [.enter 2 4294967295] ++ steps 2 0 4 .inC ++ [.enter 2 0] ++ steps 2 0 4 .inE ++
  [.lock (.run 2), .lock (.run 2)] ++ [.enter 2 0] ++ steps 2 0 7 .inC ++
  [.enter 2 0] ++ steps 2 1 7 .inW ++ [.lock (.run 2)] ++
  [.lock (.callReadUnlock 2), .enter 2 0] ++ steps 2 0 4 .inC ++ List.replicate 4 (.lock (.run 2)) ++
  [.enter 2 0] ++ steps 2 0 4 .inE ++ [.enter 2 0] ++ steps 2 0 7 .inC ++ [.lock (.run 2)] ++
  [.lock (.callRead 2), .enter 2 4294967295] ++ steps 2 0 4 .inW

/-- Second half: thread 1 gets the pthread mutex, sees that there is no unit, and blocks again. -/
def round2 : List Act := steps 1 0 2 .inW

/-- The state after `start`, and after every round. -/
def stuck : S where
  l := { RwLock.init with pc := fun u => if u = 1 then .wW else if u = 2 then .rC else .idle }
  w := { Sem.init 1 1 with
    count := 0, queue := [1], pc := fun u => if u = 1 then .wBlocked 4294967295 else .idle }
  c := Sem.init 1 1
  e := Event.init true true

/-- What happens in a round. -/
def seen : List Label :=
  [.enterR 2, .retRead 2 true, .callReadUnlock 2, .exitR 2, .retReadUnlock 2 true, .callRead 2]

theorem s_ext {s s' : S} (h1 : s.l.wsem = s'.l.wsem) (h2 : s.l.csem = s'.l.csem)
    (h3 : s.l.ev = s'.l.ev) (h4 : s.l.rc = s'.l.rc) (h5 : ∀ u, s.l.pc u = s'.l.pc u)
    (h6 : ∀ u, s.l.rd u = s'.l.rd u) (h7 : ∀ u, s.l.wr u = s'.l.wr u)
    (w1 : s.w.count = s'.w.count) (w2 : s.w.max = s'.w.max) (w3 : s.w.owner = s'.w.owner)
    (w4 : s.w.queue = s'.w.queue) (w5 : ∀ u, s.w.pc u = s'.w.pc u)
    (c1 : s.c.count = s'.c.count) (c2 : s.c.max = s'.c.max) (c3 : s.c.owner = s'.c.owner)
    (c4 : s.c.queue = s'.c.queue) (c5 : ∀ u, s.c.pc u = s'.c.pc u)
    (e1 : s.e.manual = s'.e.manual) (e2 : s.e.signaled = s'.e.signaled)
    (e3 : s.e.waiting = s'.e.waiting) (e4 : s.e.owner = s'.e.owner) (e5 : s.e.queue = s'.e.queue)
    (e6 : ∀ u, s.e.pc u = s'.e.pc u) : s = s' := by
  obtain ⟨⟨⟩, ⟨⟩, ⟨⟩, ⟨⟩⟩ := s
  obtain ⟨⟨⟩, ⟨⟩, ⟨⟩, ⟨⟩⟩ := s'
  simp only at *
  have := funext h5
  have := funext h6
  have := funext h7
  have := funext w5
  have := funext c5
  have := funext e6
  subst_vars
  rfl

def stateOf (r : CRes (S × List Label)) : S :=
  match r with
  | .ok (s, _) => s
  | .error _ => init

def labelsOf (r : CRes (S × List Label)) : Option (List Label) :=
  match r with
  | .ok (_, l) => some l
  | .error _ => none

theorem of_parts {r : CRes (S × List Label)} {s ls} (h1 : labelsOf r = some ls) (h2 : stateOf r = s) :
    r = .ok (s, ls) := by
  cases r with
  | error => cases h1
  | ok x =>
    obtain ⟨a, b⟩ := x
    cases h1
    cases h2
    rfl

macro "pointwise" : tactic => `(tactic|
  (intro u
   match u with
   | 0 => rfl
   | 1 => rfl
   | 2 => rfl
   | n + 3 => rfl))

set_option maxRecDepth 50000 in
theorem start_stuck : exec false init start = .ok (stuck, [.callRead 2, .callWrite 1]) := by
  refine of_parts (by rfl) ?_
  apply s_ext
  all_goals first | rfl | pointwise

set_option maxRecDepth 50000 in
theorem round_stuck : exec false stuck (round1 ++ round2) = .ok (stuck, seen) := by
  refine of_parts (by rfl) ?_
  apply s_ext
  all_goals first | rfl | pointwise

/-- In every round thread 1 was woken, and gets as far as the test of the semaphore. -/
theorem round_turn : ∃ s ls, exec false stuck (round1 ++ [.inW (.run 1 0)]) = .ok (s, ls) ∧
    s.w.pc 1 = .wRetest 4294967295 ∧ s.w.count = 0 :=
  ⟨_, _, rfl, rfl, rfl⟩

/-- `start` and `n` rounds. -/
def rounds : Nat → List Act
  | 0 => start
  | n + 1 => rounds n ++ (round1 ++ round2)

/-- What they show. -/
def shown : Nat → List Label
  | 0 => [.callRead 2, .callWrite 1]
  | n + 1 => shown n ++ seen

theorem rounds_stuck (n : Nat) : exec false init (rounds n) = .ok (stuck, shown n) := by
  induction n with
  | zero => exact start_stuck
  | succ n ih => exact exec_join ih round_stuck

theorem rounds_calm (n : Nat) : (rounds n).all calm = true := by
  induction n with
  | zero => rfl
  | succ n ih =>
    rw [rounds, List.all_append, ih]
    rfl

/-- The promise is broken: for every `n` there is an execution with paired calls, without failing
system calls, spurious wake-ups or time-outs, in which thread 2 is let in as a reader `n` times by
`ReadLock` calls of which all but the first were made after thread 1 called `WriteLock`, while that call has
not returned.  The rounds end where they began, so it can go on for ever, and in each round the waiting
thread is woken and runs (`round_turn`). -/
theorem reader_gets_ahead (n : Nat) : ∃ as s ls, exec false init as = .ok (s, ls) ∧
    as.all calm = true ∧ (∃ p q, ls = p ++ .callWrite 1 :: q ∧
      q.count (.callRead 2) = n ∧ q.count (.retRead 2 true) = n) ∧
    (∀ r, .retWrite 1 r ∉ ls) ∧ s.l.pc 1 = .wW := by
  refine ⟨rounds n, stuck, shown n, rounds_stuck n, rounds_calm n, ?_, ?_, rfl⟩
  · induction n with
    | zero => exact ⟨[.callRead 2], [], rfl, rfl, rfl⟩
    | succ n ih =>
      obtain ⟨p, q, e, h1, h2⟩ := ih
      refine ⟨p, q ++ seen, ?_, ?_, ?_⟩
      · rw [shown, e, List.append_assoc, List.cons_append]
      · rw [List.count_append, h1]; rfl
      · rw [List.count_append, h2]; rfl
  · induction n with
    | zero => intro r; simp [shown]
    | succ n ih =>
      intro r hm
      rcases List.mem_append.1 hm with hm | hm
      · exact ih r hm
      · simp [seen] at hm

/-- The hypotheses of the positive theorems: threads 1 and 2 read, thread 3 waits for them to leave (`demo`);
thread 4 calls `ReadLock`, thread 1 leaves. -/
def queueUp : List Act :=
  [.lock (.callRead 4)] ++ go 4 ++ [.lock (.callReadUnlock 1)] ++ go 1 ++ go 1 ++ go 1 ++ go 4

set_option maxRecDepth 20000 in
example : shows demo (fun s _ => decide (s.l.pc 3 = .wE)) = true ∧
    shows (demo ++ queueUp) (fun s ls => decide (s.l.pc 3 = .wE) && s.l.rc = 1 &&
      decide (s.w.pc 4 = .wBlocked 4294967295) && ls.contains (.callRead 4) &&
      !ls.contains (.enterR 4)) = true := ⟨rfl, rfl⟩

end Verif.RwLock.Full
