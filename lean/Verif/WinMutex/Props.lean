import Verif.WinMutex.Wrap

/-! # The mutex on Windows excludes other threads, is re-entrant and is not lost (C101, C102, C103)

`MxCount` is a 32-bit counter, so the theorems are about executions in which no thread nests its locks 2^32 - 1 deep through
one object (`Shallow`), and no thread ends while it holds the mutex (`Orderly`); `win_exclusion_fails` and
`win_id_reused` show that both are needed. -/

namespace Verif.WinMutex

open Verif.Mutex (Label Pc setAt dec32 critAt window phOf)
open Verif.Mutex.Spec (Phase phase move who depth Holds Shallow)
open Spec

/-- No execution has undefined behaviour: a critical section is only left by its owner. -/
theorem win_mutex_no_ub (as : List Act) : ∃ s ls, exec init as = .ok (s, ls) := exec_owned as owned_init

/-- Linearizability: the effects of all calls, in the order in which they happen, are a history of the atomic
mutex, and for each thread every call has exactly the effect its result reports, between its call and its return. -/
theorem win_mutex_linearizable (as : List Act) (ho : Orderly as) (s : S) (ls : List Label)
    (h : exec init as = .ok (s, ls)) (hk : Shallow ls) :
    (atomic [] ls).isSome = true ∧ ∀ t, (phase t (some .out) ls).isSome = true := by
  obtain ⟨h', D, hi, ha, hp⟩ := exec_ok as false ho (fun e => nomatch e) h hk
  exact ⟨by rw [ha]; rfl, fun t => by rw [hp t]; rfl⟩

/-- What is known about a reachable state and a thread that is outside. -/
theorem reach {as : List Act} {lv : Bool} (ho : Orderly as) (hc : lv = true → Clean as) {s : S} {ls : List Label}
    (h : exec init as = .ok (s, ls)) (hk : Shallow ls) :
    ∃ c D, Inv s c D lv ∧ (∀ t, phase t (some .out) ls = some .out → s.pc t = .idle ∧ ∀ o, c t o = depth t o 0 ls) ∧
      ∀ t, s.pc t = .idle → phase t (some .out) ls = some .out := by
  obtain ⟨h', D, hi, ha, hp⟩ := exec_ok as lv ho hc h hk
  refine ⟨dep h', D, hi, fun t ht => ⟨?_, fun o => ?_⟩, fun t ht => by rw [hp t, ht]; rfl⟩
  · have h1 := hp t
    rw [ht] at h1
    have h1 : Phase.out = phOf (s.pc t) := Option.some.inj h1
    revert h1
    cases s.pc t <;> intro h1 <;> first | rfl | cases h1
  · exact agree (o := o) (d := 0) (h := []) ht ha rfl

/-- Mutual exclusion: at most one thread holds the mutex, whatever objects are used. -/
theorem win_mutex_exclusive (as : List Act) (ho : Orderly as) (s : S) (ls : List Label)
    (h : exec init as = .ok (s, ls)) (hk : Shallow ls) (t o t' o' : Nat) (h1 : Holds t o ls) (h2 : Holds t' o' ls) :
    t = t' := by
  obtain ⟨c, D, hi, hr, _⟩ := reach (lv := false) ho (fun e => nomatch e) h hk
  obtain ⟨_, e1⟩ := hr t h1.2
  obtain ⟨_, e2⟩ := hr t' h2.2
  have e3 := (hi.ker.ker t o (by rw [e1 o]; exact h1.1)).1
  have e4 := (hi.ker.ker t' o' (by rw [e2 o']; exact h2.1)).1
  rw [e3] at e4
  exact Option.some.inj e4

/-- What the object records about its holder. -/
theorem held {as : List Act} (ho : Orderly as) {s : S} {ls : List Label}
    (h : exec init as = .ok (s, ls)) (hk : Shallow ls) {t o : Nat} (h1 : Holds t o ls) :
    s.pc t = .idle ∧ s.oid o = some t ∧ s.cnt o = depth t o 0 ls ∧ s.kown = some t ∧ 0 < s.kcnt := by
  obtain ⟨c, D, hi, hr, _⟩ := reach (lv := false) ho (fun e => nomatch e) h hk
  obtain ⟨hpc, e1⟩ := hr t h1.2
  have hp : 0 < c t o := by rw [e1 o]; exact h1.1
  have ho' : s.oid o = some t := (hi.pos t o hp).resolve_right (by rw [hpc]; exact fun e => nomatch e)
  obtain ⟨e2, e3⟩ := hi.ker.ker t o hp
  refine ⟨hpc, ho', ?_, e2, ?_⟩
  · rw [← e1 o]
    exact (hi.oid o t ho').2 (by rw [hpc]; exact fun e => nomatch e)
  · exact Nat.lt_of_lt_of_le (List.length_pos_of_mem e3) hi.ker.dk

/-- A thread that does not hold the mutex through an object is not recorded as its owner. -/
theorem not_owner {as : List Act} (ho : Orderly as) {s : S} {ls : List Label}
    (h : exec init as = .ok (s, ls)) (hk : Shallow ls) {t o : Nat} (h0 : phase t (some .out) ls = some .out)
    (h1 : ¬ Holds t o ls) : s.pc t = .idle ∧ s.oid o ≠ some t := by
  obtain ⟨c, D, hi, hr, _⟩ := reach (lv := false) ho (fun e => nomatch e) h hk
  obtain ⟨hpc, e1⟩ := hr t h0
  refine ⟨hpc, fun e => h1 ⟨?_, h0⟩⟩
  rw [← e1 o]
  exact (hi.oid o t e).1

/-- Re-entrance: the holder's `Lock` succeeds at once, whatever the time limit, and it holds the mutex one more time. -/
theorem win_mutex_relock (as : List Act) (ho : Orderly as) (s : S) (ls : List Label)
    (h : exec init as = .ok (s, ls)) (hk : Shallow ls) (t o : Nat) (h1 : Holds t o ls) (hc : s.cs o = none)
    (wait : Nat) :
    ∃ s', exec s [.callLock t o wait, .run t, .run t, .run t, .run t, .run t]
        = .ok (s', [.callLock t o wait, .again t o, .retLock t o true]) ∧
      s'.cs o = none ∧ s'.cnt o = depth t o 0 ls + 1 ∧ s'.kown = some t := by
  obtain ⟨hpc, ho, hn, hs, _⟩ := held ho h hk h1
  have hb := hk ls (List.prefix_refl _) t o
  have : (depth t o 0 ls + 1) % 4294967296 = depth t o 0 ls + 1 := Nat.mod_eq_of_lt (by omega)
  simp [exec, step, hpc, run, S.goto, enter, leave, setAt, ho, hc, hn, hs, this]

/-- Only a mutex without owner is abandoned. -/
theorem ab_step {s : S} {a : Act} {s' : S} {l : List Label} (h : s.ab = true → s.kown = none)
    (he : step s a = .ok (some (s', l))) : s'.ab = true → s'.kown = none := by
  cases a with
  | run t =>
    change run s t = _ at he
    unfold run enter leave at he
    cases hpc : s.pc t <;> rw [hpc] at he <;> dsimp only at he <;> repeat' split at he
    all_goals
      first
      | (cases he; exact h)
      | (cases he; intro e; cases e)
      | (cases he
         unfold released S.goto
         split
         · rename_i e
           intro e'
           rw [h e'] at e
           cases e
         · exact h)
      | cases he
  | fail t =>
    change Except.ok (fail s t) = _ at he
    unfold fail at he
    cases hpc : s.pc t <;> rw [hpc] at he <;> cases he <;> exact h
  | die t =>
    unfold step ended at he
    dsimp only at he
    repeat' split at he
    all_goals first | (cases he; exact fun _ => rfl) | (cases he; exact h) | cases he
  | _ =>
    unfold step at he
    dsimp only at he
    split at he
    · cases he; exact h
    · cases he

theorem exec_ab (as : List Act) : ∀ {s s' : S} {ls : List Label}, (s.ab = true → s.kown = none) → exec s as = .ok (s', ls) →
    s'.ab = true → s'.kown = none := by
  induction as with
  | nil => intro s s' ls h he; cases he; exact h
  | cons a as ih =>
    intro s s' ls h he
    rw [exec] at he
    cases h1 : step s a with
    | error e => rw [h1] at he; cases he
    | ok x =>
      rw [h1, ok_bind] at he
      cases x with
      | none => exact ih h he
      | some y =>
        obtain ⟨s1, l1⟩ := y
        dsimp only at he
        cases h2 : exec s1 as with
        | error e => rw [h2] at he; cases he
        | ok z =>
          rw [h2, ok_bind] at he
          cases he
          exact ih (ab_step h h1) h2

/-- The holder can lock through another object of the same mutex too, at once. -/
theorem win_mutex_other_object (as : List Act) (ho : Orderly as) (s : S) (ls : List Label)
    (h : exec init as = .ok (s, ls)) (hk : Shallow ls) (t o o' : Nat) (h1 : Holds t o ls) (h2 : ¬ Holds t o' ls)
    (hc : s.cs o' = none) (wait : Nat) :
    ∃ s', exec s ([.callLock t o' wait] ++ List.replicate 8 (.run t))
        = .ok (s', [.callLock t o' wait, .acquire t o', .retLock t o' true]) ∧
      s'.cs o' = none ∧ s'.oid o' = some t ∧ s'.kown = some t := by
  obtain ⟨hpc, _, _, hs, _⟩ := held ho h hk h1
  obtain ⟨_, hno⟩ := not_owner ho h hk h1.2 h2
  have hab : s.ab = false := by
    cases e : s.ab with
    | false => rfl
    | true => rw [exec_ab as (fun _ => rfl) h e] at hs; cases hs
  simp [exec, step, hpc, run, S.goto, enter, leave, setAt, hno, hc, hs, hab, got, List.replicate]

/-- While a thread holds the mutex, a `Lock` of another one with time limit 0 fails and changes nothing; one with a
longer limit cannot go past the wait. -/
theorem win_mutex_excluded (as : List Act) (ho : Orderly as) (s : S) (ls : List Label)
    (h : exec init as = .ok (s, ls)) (hk : Shallow ls) (t o u o' : Nat) (h1 : Holds t o ls)
    (h0 : phase u (some .out) ls = some .out) (hu : u ≠ t) (hc : s.cs o' = none) (wait : Nat) :
    ∃ s', exec s [.callLock u o' wait, .run u, .run u, .run u, .run u] = .ok (s',
        if wait = 0 then [.callLock u o' 0, .giveUp u o', .retLock u o' false]
        else [.callLock u o' wait]) ∧
      s'.kown = s.kown ∧ s'.kcnt = s.kcnt ∧ s'.oid = s.oid ∧ s'.cnt = s.cnt ∧ s'.cs = s.cs ∧
      s'.pc u = if wait = 0 then .idle else .lWait o' wait := by
  obtain ⟨_, _, _, hs, _⟩ := held ho h hk h1
  have h2 : ¬ Holds u o' ls := fun h2 => hu (win_mutex_exclusive as ho s ls h hk u o' t o h2 h1)
  obtain ⟨hpc, hno⟩ := not_owner ho h hk h0 h2
  have hset : setAt (setAt s.cs o' (some u)) o' none = s.cs := by
    funext i
    unfold setAt
    split
    · rename_i e; rw [e, hc]
    · rfl
  have hut : t ≠ u := fun e => hu e.symm
  by_cases hw : wait = 0
  · subst hw
    simp [exec, step, hpc, run, S.goto, enter, leave, hno, hc, hs, hset, setAt_self, hut]
  · simp [exec, step, hpc, run, S.goto, enter, leave, hno, hc, hs, hset, setAt_self, hw, hut]

/-- `Unlock` by a thread that does not hold the mutex through the object fails and changes nothing. -/
theorem win_mutex_unlock_refused (as : List Act) (ho : Orderly as) (s : S) (ls : List Label)
    (h : exec init as = .ok (s, ls)) (hk : Shallow ls) (t o : Nat) (h0 : phase t (some .out) ls = some .out)
    (h1 : ¬ Holds t o ls) (hc : s.cs o = none) (all : Bool) :
    ∃ s', exec s [.callUnlock t o all, .run t, .run t, .run t]
        = .ok (s', [.callUnlock t o all, .refuse t o, .retUnlock t o all false]) ∧
      s'.kown = s.kown ∧ s'.kcnt = s.kcnt ∧ s'.oid = s.oid ∧ s'.cnt = s.cnt ∧ s'.cs = s.cs ∧ s'.pc t = .idle := by
  obtain ⟨hpc, hno⟩ := not_owner ho h hk h0 h1
  have hset : setAt (setAt s.cs o (some t)) o none = s.cs := by
    funext i
    unfold setAt
    split
    · rename_i e; rw [e, hc]
    · rfl
  simp [exec, step, hpc, run, S.goto, enter, leave, hno, hc, hset, setAt_self]

/-- The last `Unlock` of the holder, and `Unlock(true)` at any depth, frees the mutex, unless it holds it through
another object. -/
theorem win_mutex_unlock_frees (as : List Act) (ho : Orderly as) (hcl : Clean as) (s : S) (ls : List Label)
    (h : exec init as = .ok (s, ls)) (hk : Shallow ls) (t o : Nat) (h1 : Holds t o ls) (hc : s.cs o = none)
    (all : Bool) (hd : all = true ∨ depth t o 0 ls = 1) :
    ∃ s', exec s ([.callUnlock t o all] ++ List.replicate 9 (.run t))
        = .ok (s', [.callUnlock t o all, .leave t o all, .retUnlock t o all true]) ∧
      s'.oid o = none ∧ s'.cs o = none ∧ ((∀ o', Holds t o' ls → o' = o) → s'.kown = none) := by
  obtain ⟨c, D, hi, hr, _⟩ := reach (lv := true) ho (fun _ => hcl) h hk
  obtain ⟨e1, e2, _⟩ := hi.ker.live rfl
  have hone : (∀ o', Holds t o' ls → o' = o) → s.kcnt = 1 := by
    intro hall
    rw [e1]
    obtain ⟨hpc, hct⟩ := hr t h1.2
    have hmem : ∀ q ∈ D, q = o := fun q hq => by
      obtain ⟨u, hu⟩ := hi.ker.dm q hq
      have h3 := (hi.ker.ker u q hu).1
      have h4 := (hi.ker.ker t o (by rw [hct]; exact h1.1)).1
      rw [h3] at h4
      cases h4
      exact hall q ⟨by rw [← hct]; exact hu, h1.2⟩
    have hin := (hi.ker.ker t o (by rw [hct]; exact h1.1)).2
    have hnd := hi.ker.dn
    match D, hmem, hin, hnd with
    | [], _, hin, _ => cases hin
    | [_], _, _, _ => rfl
    | a :: b :: D, hmem, _, hnd =>
      have h5 := hmem a (by simp)
      have h6 := hmem b (by simp)
      rw [h5, h6] at hnd
      simp at hnd
  obtain ⟨hpc, ho, hn, hs, _⟩ := held ho h hk h1
  by_cases hk1 : s.kcnt = 1
  · cases all
    · have hd : depth t o 0 ls = 1 := hd.resolve_left (fun e => nomatch e)
      rw [hd] at hn
      simp [List.replicate, exec, step, hpc, run, S.goto, enter, leave, setAt, ho, hc, hn, dec32, released, hs, hk1]
    · simp [List.replicate, exec, step, hpc, run, S.goto, enter, leave, setAt, ho, hc, dec32, released, hs, hk1]
  · have hno : ¬ ∀ o', Holds t o' ls → o' = o := fun e => hk1 (hone e)
    generalize (∀ o', Holds t o' ls → o' = o) = P at hno ⊢
    cases all
    · have hd : depth t o 0 ls = 1 := hd.resolve_left (fun e => nomatch e)
      rw [hd] at hn
      simp [List.replicate, exec, step, hpc, run, S.goto, enter, leave, setAt, ho, hc, hn, dec32, released, hs, hk1, hno]
    · simp [List.replicate, exec, step, hpc, run, S.goto, enter, leave, setAt, ho, hc, dec32, released, hs, hk1, hno]

/-- An inner `Unlock` keeps the mutex held, one time less. -/
theorem win_mutex_unlock_nested (as : List Act) (ho : Orderly as) (s : S) (ls : List Label)
    (h : exec init as = .ok (s, ls)) (hk : Shallow ls) (t o : Nat) (h1 : Holds t o ls) (hc : s.cs o = none)
    (hd : 1 < depth t o 0 ls) :
    ∃ s', exec s ([.callUnlock t o false] ++ List.replicate 7 (.run t))
        = .ok (s', [.callUnlock t o false, .leave t o false, .retUnlock t o false true]) ∧
      s'.kown = some t ∧ s'.oid o = some t ∧ s'.cnt o = depth t o 0 ls - 1 ∧ s'.cs o = none := by
  obtain ⟨hpc, ho, hn, hs, _⟩ := held ho h hk h1
  have e1 : depth t o 0 ls ≠ 0 := by omega
  have e2 : depth t o 0 ls - 1 ≠ 0 := by omega
  simp [List.replicate, exec, step, hpc, run, S.goto, enter, leave, setAt, ho, hc, hn, dec32, hs, e1, e2]

/-- A free mutex is locked at once. -/
theorem win_mutex_lock_free (s : S) (t o wait : Nat) (hpc : s.pc t = .idle) (ho : s.oid o ≠ some t)
    (hc : s.cs o = none) (hs : s.kown = none) (ha : s.ab = false) :
    ∃ s', exec s ([.callLock t o wait] ++ List.replicate 8 (.run t))
        = .ok (s', [.callLock t o wait, .acquire t o, .retLock t o true]) ∧
      s'.kown = some t ∧ s'.oid o = some t ∧ s'.cnt o = 1 ∧ s'.cs o = none := by
  simp [List.replicate, exec, step, hpc, run, S.goto, enter, leave, setAt, ho, hc, hs, ha, got]

/-! ## Progress -/

/-- Who is in a critical section can go on. -/
theorem crit_moves {s : S} {t o : Nat} (hc : critAt (s.pc t) = some o) (ho : s.cs o = some t) : run s t ≠ .ok none := by
  unfold run
  cases hpc : s.pc t <;> rw [hpc] at hc <;> cases hc <;> dsimp only <;>
    first
    | (unfold leave; rw [if_pos ho]; exact fun e => nomatch e)
    | (split <;> exact fun e => nomatch e)
    | exact fun e => nomatch e

/-- Nobody waits for a free mutex: if no `ReleaseMutex` fails (waits may time out and fail), nobody can go on and
somebody is inside a call, then some thread holds the mutex, going by the results of its calls. -/
theorem win_mutex_no_lost_wakeup (as : List Act) (ho : Orderly as) (hcl : Clean as) (s : S) (ls : List Label)
    (h : exec init as = .ok (s, ls)) (hk : Shallow ls) (hq : ∀ t, run s t = .ok none)
    (u : Nat) (hu : s.pc u ≠ .idle) : ∃ t o, Holds t o ls := by
  obtain ⟨c, D, hi, hr, hout⟩ := reach (lv := true) ho (fun _ => hcl) h hk
  obtain ⟨_, _, hl⟩ := hi.ker.live rfl
  have hcs : ∀ o, s.cs o = none := fun o => by
    cases e : s.cs o with
    | none => rfl
    | some t => exact absurd (hq t) (crit_moves ((hi.crit t o).mpr e) e)
  have hcr : ∀ t, critAt (s.pc t) = none := fun t => by
    cases e : critAt (s.pc t) with
    | none => rfl
    | some o => rw [(hi.crit t o), hcs] at e; cases e
  have hwait : ∀ t, s.pc t ≠ .idle → s.kown ≠ none ∧ s.kown ≠ some t := by
    intro t ht
    have hn := hq t
    have hc := hcr t
    unfold run enter at hn
    cases hpc : s.pc t with
    | idle => exact absurd hpc ht
    | lWait o wait =>
      rw [hpc] at hn
      dsimp only at hn
      split at hn
      · split at hn <;> cases hn
      · rename_i e
        exact ⟨fun e' => e (Or.inl e'), fun e' => e (Or.inr e')⟩
    | lCs o wait => rw [hpc] at hn; dsimp only at hn; rw [hcs] at hn; cases hn
    | lCs2 o => rw [hpc] at hn; dsimp only at hn; rw [hcs] at hn; cases hn
    | uCs o all => rw [hpc] at hn; dsimp only at hn; rw [hcs] at hn; cases hn
    | _ => rw [hpc] at hc; cases hc
  obtain ⟨hw1, hw2⟩ := hwait u hu
  cases hD : D with
  | nil => exact absurd hD (hl hw1)
  | cons o D' =>
    obtain ⟨v, hv⟩ := hi.ker.dm o (by rw [hD]; exact List.mem_cons_self ..)
    have hkv := (hi.ker.ker v o hv).1
    have hpv : s.pc v = .idle := by
      by_cases e : s.pc v = .idle
      · exact e
      · exact absurd hkv (hwait v e).2
    have hpo := hout v hpv
    exact ⟨v, o, by rw [← (hr v hpo).2 o]; exact hv, hpo⟩

/-! ## Examples -/

/-- Thread 1 locks twice, and through a second object, thread 2 (through another object) blocks. -/
def demo : List Act :=
  [.callLock 1 0 4294967295] ++ List.replicate 8 (.run 1) ++ [.callLock 1 0 0] ++ List.replicate 5 (.run 1) ++
    [.callLock 1 5 0] ++ List.replicate 8 (.run 1) ++ [.callLock 2 7 4294967295] ++ List.replicate 8 (.run 2)

example : ∃ s ls, exec init demo = .ok (s, ls) ∧ Holds 1 0 ls ∧ depth 1 0 0 ls = 2 ∧ Holds 1 5 ls ∧
    s.cs 0 = none ∧ ¬ Holds 2 7 ls ∧ s.pc 2 = .lWait 7 4294967295 ∧
    phase 3 (some .out) ls = some .out ∧ ¬ Holds 3 0 ls :=
  ⟨_, _, rfl, ⟨by decide, by decide⟩, by decide, ⟨by decide, by decide⟩, rfl,
    by intro h; exact absurd h.1 (by decide), rfl, by decide, by intro h; exact absurd h.1 (by decide)⟩

/-- After all unlocks thread 2 gets in; a thread that holds nothing ends. -/
example : ∃ s ls, exec init (demo ++ [.callUnlock 1 0 true] ++ List.replicate 9 (.run 1) ++
      [.callUnlock 1 5 false] ++ List.replicate 9 (.run 1) ++ [.die 1] ++ List.replicate 5 (.run 2))
    = .ok (s, ls) ∧ Holds 2 7 ls ∧ ¬ Holds 1 0 ls ∧ ¬ Holds 1 5 ls :=
  ⟨_, _, rfl, ⟨by decide, by decide⟩, by intro h; exact absurd h.1 (by decide), by intro h; exact absurd h.1 (by decide)⟩

/-- `demo` is orderly and clean. -/
example : Orderly demo ∧ Clean demo := by
  have hm : ∀ a ∈ demo, (match a with | .die _ | .fail _ => false | _ => true) = true := by decide
  refine ⟨fun p t q e => ?_, fun p a q e s ls _ => ?_⟩
  · have := hm (.die t) (by rw [e]; simp)
    cases this
  · have := hm a (by rw [e]; simp)
    cases a <;> first | rfl | cases this

/-! ## The end of a thread that holds the mutex -/

/-- Of an abandoned mutex only this is true: the first `Lock` of another thread fails, its second one succeeds. -/
theorem win_mutex_abandoned_partial (s : S) (u o wait : Nat) (hk : s.kown = none) (ha : s.ab = true)
    (hpc : s.pc u = .idle) (ho : s.oid o ≠ some u) (hc : s.cs o = none) :
    ∃ s' ls, exec s ([.callLock u o wait] ++ List.replicate 4 (.run u)) = .ok (s', ls) ∧
      ls = [.callLock u o wait, .giveUp u o, .retLock u o false] ∧
      ∃ s'' ls', exec s' ([.callLock u o wait] ++ List.replicate 8 (.run u)) = .ok (s'', ls') ∧
        ls' = [.callLock u o wait, .acquire u o, .retLock u o true] ∧ s''.oid o = some u ∧ s''.kown = some u := by
  refine ⟨_, _, by simp [List.replicate, exec, step, hpc, run, S.goto, enter, leave, setAt, ho, hc, hk, ha, got]; rfl,
    rfl, _, _, by simp [List.replicate, exec, step, run, S.goto, enter, leave, setAt, ho, got]; rfl, rfl, ?_, ?_⟩ <;>
    simp [setAt]

/-- Thread 1 ends while it holds the mutex.  The `Lock` of thread 2 returns false, but from then on the kernel mutex
belongs to thread 2, which does not know and will not release it: thread 3 waits for ever, and no thread but the ended
one has a lock, going by the results. -/
theorem win_mutex_abandoned_blocks : ∃ s ls, exec init ([.callLock 1 0 0] ++ List.replicate 8 (.run 1) ++ [.die 1] ++
      [.callLock 2 0 4294967295] ++ List.replicate 4 (.run 2) ++ [.callLock 3 0 4294967295] ++ List.replicate 3 (.run 3))
        = .ok (s, ls) ∧ Label.retLock 2 0 false ∈ ls ∧ s.pc 2 = .idle ∧ s.kown = some 2 ∧
      s.pc 3 = .lWait 0 4294967295 ∧ run s 3 = .ok none ∧ ∀ t o, t ≠ 1 → depth t o 0 ls = 0 := by
  refine ⟨_, _, rfl, by decide, rfl, rfl, rfl, rfl, ?_⟩
  intro t o ht
  simp [depth, Ne.symm ht]

/-- Thread 1 ends while it holds the mutex and a new thread gets its id.  This one and thread 2 both lock the mutex. -/
theorem win_id_reused : ∃ s s' ls ls', exec init ([.callLock 1 0 0] ++ List.replicate 8 (.run 1) ++ [.die 1]) = .ok (s, ls) ∧
    exec s ([.callLock 2 7 0] ++ List.replicate 4 (.run 2) ++ [.callLock 2 7 0] ++ List.replicate 8 (.run 2) ++
      [.callLock 1 0 0] ++ List.replicate 5 (.run 1)) = .ok (s', ls') ∧ Holds 1 0 ls' ∧ Holds 2 7 ls' :=
  ⟨_, _, _, _, rfl, rfl, ⟨by decide, by decide⟩, ⟨by decide, by decide⟩⟩

/-- A failing `ReleaseMutex` blocks everybody for ever. -/
theorem win_mutex_release_failure : ∃ s ls, exec init ([.callLock 1 0 0] ++ List.replicate 8 (.run 1) ++
      [.callUnlock 1 0 false] ++ List.replicate 7 (.run 1) ++ [.fail 1, .run 1] ++ [.callLock 2 0 4294967295] ++
      List.replicate 3 (.run 2)) = .ok (s, ls) ∧ Label.retUnlock 1 0 false true ∈ ls ∧
      run s 2 = .ok none ∧ s.pc 2 = .lWait 0 4294967295 ∧ ∀ t o, depth t o 0 ls = 0 := by
  refine ⟨_, _, rfl, by decide, rfl, rfl, ?_⟩
  intro t o
  by_cases h : 1 = t ∧ 0 = o <;> simp [depth, h]

end Verif.WinMutex
