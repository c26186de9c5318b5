import Verif.Crash.WinModel
import Verif.Crash.WinSpec
import Verif.Client.MutexLemmas
import Verif.Crash.PropsLock

/-! # Killed users of a semaphore or event on Windows (C143) -/

namespace Verif.Crash

open Verif.Client.Win (W Act Pc Kind)
open Verif.Client (put put_self put_ne)
open Verif.Event (Label)
open Verif.Event.Spec (phase who move Phase)
open Spec

/-- The phase that belongs to a position. -/
def winPhase : Pc → Phase
  | .idle => .out
  | .wait _ | .waited false => .waiting
  | .waited true => .passed
  | .signal | .signaled false => .firing
  | .signaled true => .fired
  | .reset | .cleared false => .resetting
  | .cleared true => .reset

/-- What the labels `ls` do to the object. -/
def history : Kind → Nat → List Label → Option Nat
  | .sem max, n, ls => units max n ls
  | .event manual, n, ls => (signal manual (decide (n ≠ 0)) ls).map Bool.toNat

theorem units_append (max : Nat) (ls ms : List Label) : ∀ n,
    units max n (ls ++ ms) = (units max n ls).bind (units max · ms) := by
  induction ls with
  | nil => intro n; rfl
  | cons l ls ih =>
    intro n
    cases l <;> simp only [List.cons_append, units, ih]
    all_goals first | rfl | (split <;> rfl)

theorem signal_append (m : Bool) (ls ms : List Label) : ∀ b,
    signal m b (ls ++ ms) = (signal m b ls).bind (signal m · ms) := by
  induction ls with
  | nil => intro n; rfl
  | cons l ls ih =>
    intro n
    cases l <;> simp only [List.cons_append, signal, ih]
    all_goals first | rfl | (split <;> rfl)

theorem win_phase_append (t : Nat) (ls ms : List Label) : ∀ p, phase t p (ls ++ ms) = phase t (phase t p ls) ms := by
  induction ls with
  | nil => intro p; rfl
  | cons l ls ih => intro p; rw [List.cons_append, phase, phase, ih]

/-- The value of an event is 0 or 1, and nobody resets a semaphore. -/
structure Small (s : W) : Prop where
  ev : ∀ m, s.kind = .event m → s.val ≤ 1
  sem : ∀ max, s.kind = .sem max → ∀ t, s.pc t ≠ .reset

/-- What a step does. -/
structure WinOk (s s' : W) (ls : List Label) : Prop where
  kind : s'.kind = s.kind
  small : Small s'
  hist : history s.kind s.val ls = some s'.val
  ph : ∀ t, phase t (some (winPhase (s.pc t))) ls = some (winPhase (s'.pc t))

theorem toNat_ne {n : Nat} (h : n ≤ 1) : (decide (n ≠ 0)).toNat = n := by
  have : n = 0 ∨ n = 1 := by omega
  rcases this with e | e <;> subst e <;> rfl

theorem hist_plain {k : Kind} {n : Nat} (h : ∀ m, k = .event m → n ≤ 1) {ls : List Label}
    (h1 : ∀ max, units max n ls = some n) (h2 : ∀ m b, signal m b ls = some b) : history k n ls = some n := by
  cases k with
  | sem max => exact h1 max
  | event m => rw [history, h2, Option.map_some, toNat_ne (h m rfl)]

theorem win_one {s : W} (ho : Small s) {t : Nat} {p : Pc} {v : Nat} {ls : List Label} (hw : ∀ l ∈ ls, who l = t)
    (hq : p ≠ .reset ∨ ∃ m, s.kind = .event m) (hs : ∀ m, s.kind = .event m → v ≤ 1) (hh : history s.kind s.val ls = some v)
    (hp : phase t (some (winPhase (s.pc t))) ls = some (winPhase p)) :
    WinOk s (({ s with val := v } : W).goto t p) ls := by
  refine ⟨rfl, ⟨hs, fun max hm u => ?_⟩, hh, fun u => ?_⟩
  · by_cases hu : u = t
    · subst hu
      simp only [W.goto, put_self]
      rcases hq with e | ⟨m, e⟩
      · exact e
      · have : s.kind = .sem max := hm
        rw [e] at this
        cases this
    · simp only [W.goto, put_ne _ _ hu]
      exact ho.sem max hm u
  by_cases hu : u = t
  · subst hu
    rw [hp]
    simp only [W.goto, put_self]
  · have : ∀ (ms : List Label) (q : Option Phase), (∀ l ∈ ms, who l = t) → phase u q ms = q := by
      intro ms
      induction ms with
      | nil => intro q _; rfl
      | cons l ms ih =>
        intro q hm
        rw [phase, if_neg (by rw [hm l List.mem_cons_self]; exact Ne.symm hu)]
        exact ih q fun l hl => hm l (List.mem_cons_of_mem _ hl)
    rw [this ls _ hw]
    simp only [W.goto, put_ne _ _ hu]

theorem win_same {s : W} (hs : Small s) {t : Nat} {p : Pc} {ls : List Label} (hw : ∀ l ∈ ls, who l = t)
    (hq : p ≠ .reset ∨ ∃ m, s.kind = .event m) (h1 : ∀ max, units max s.val ls = some s.val) (h2 : ∀ m b, signal m b ls = some b)
    (hp : phase t (some (winPhase (s.pc t))) ls = some (winPhase p)) : WinOk s (s.goto t p) ls :=
  win_one hs hw hq hs.ev (hist_plain hs.ev h1 h2) hp

theorem win_step {s c : W} {a : Act} {ls : List Label} (hs : Small s) (h : Client.Win.step s a = .ok (some (c, ls))) :
    WinOk s c ls := by
  cases a with
  | callWait t w =>
    simp only [Client.Win.step] at h
    split at h <;> cases h
    rename_i hi
    exact win_same hs (by simp [who]) (.inl fun e => nomatch e) (fun _ => rfl) (fun _ _ => rfl) (by simp [phase, who, hi, winPhase, move])
  | callFire t =>
    simp only [Client.Win.step] at h
    split at h <;> cases h
    rename_i hi
    exact win_same hs (by simp [who]) (.inl fun e => nomatch e) (fun _ => rfl) (fun _ _ => rfl) (by simp [phase, who, hi, winPhase, move])
  | callReset t =>
    simp only [Client.Win.step] at h
    split at h
    · cases h
    rename_i m hm
    split at h <;> cases h
    rename_i hi
    exact win_same hs (by simp [who]) (.inr ⟨m, hm⟩) (fun _ => rfl) (fun _ _ => rfl) (by simp [phase, who, hi, winPhase, move])
  | run t =>
    replace h : Client.Win.run s t = some (c, ls) := by simpa [Client.Win.step] using h
    unfold Client.Win.run at h
    split at h
    · cases h
    · rename_i limit hi
      split at h
      · split at h <;> cases h
        exact win_same hs (by simp) (.inl fun e => nomatch e) (fun _ => rfl) (fun _ _ => rfl) (by simp [phase, hi, winPhase])
      · rename_i h0
        cases h
        have hpos : 0 < s.val := by omega
        refine win_one hs (by simp [who]) (.inl fun e => nomatch e) (fun m hm => ?_) ?_ (by simp [phase, who, hi, winPhase, move])
        · have := hs.ev m hm
          rw [hm]
          cases m <;> simp only [Client.Win.left] <;> omega
        · cases hk : s.kind with
          | sem max => simp [history, units, hpos, Client.Win.left]
          | event m =>
            have h1 : s.val = 1 := by have := hs.ev m hk; omega
            cases m <;> simp [history, signal, h1, Client.Win.left]
    · rename_i r hi
      cases h
      refine win_same hs (by simp [who]) (.inl fun e => nomatch e) (fun _ => rfl) (fun _ _ => rfl) ?_
      cases r <;> simp [phase, who, hi, winPhase, move]
    · rename_i hi
      split at h
      · rename_i n hn
        cases h
        refine win_one hs (by simp [who]) (.inl fun e => nomatch e) (fun m hm => ?_) ?_ (by simp [phase, who, hi, winPhase, move])
        · rw [hm] at hn
          cases hn
          exact Nat.le_refl 1
        · cases hk : s.kind with
          | sem max =>
            rw [hk] at hn
            simp only [Client.Win.raised] at hn
            split at hn <;> cases hn
            rename_i hlt
            simp [history, units, hlt]
          | event m =>
            rw [hk] at hn
            cases hn
            simp [history, signal]
      · cases h
        exact win_same hs (by simp) (.inl fun e => nomatch e) (fun _ => rfl) (fun _ _ => rfl) (by simp [phase, hi, winPhase])
    · rename_i r hi
      cases h
      refine win_same hs (by simp [who]) (.inl fun e => nomatch e) (fun _ => rfl) (fun _ _ => rfl) ?_
      cases r <;> simp [phase, who, hi, winPhase, move]
    · rename_i hi
      cases h
      refine win_one hs (by simp [who]) (.inl fun e => nomatch e) (fun m hm => by omega) ?_
        (by simp [phase, who, hi, winPhase, move])
      cases hk : s.kind with
      | sem max => exact absurd hi (hs.sem max hk t)
      | event m => simp [history, signal]
    · rename_i r hi
      cases h
      refine win_same hs (by simp [who]) (.inl fun e => nomatch e) (fun _ => rfl) (fun _ _ => rfl) ?_
      cases r <;> simp [phase, who, hi, winPhase, move]
  | fail t =>
    replace h : Client.Win.fail s t = some (c, ls) := by simpa [Client.Win.step] using h
    unfold Client.Win.fail at h
    split at h <;> cases h
    all_goals rename_i hi
    all_goals exact win_same hs (by simp) (.inl fun e => nomatch e) (fun _ => rfl) (fun _ _ => rfl) (by simp [phase, hi, winPhase])

theorem win_exec (as : List Act) : ∀ {s : W}, Small s → ∃ c ls, winExec s as = .ok (c, ls) ∧ WinOk s c ls := by
  induction as with
  | nil =>
    intro s hs
    exact ⟨s, [], rfl, rfl, hs, hist_plain hs.ev (fun _ => rfl) (fun _ _ => rfl), fun _ => rfl⟩
  | cons a as ih =>
    intro s hs
    rw [winExec]
    have : ∃ x, Client.Win.step s a = .ok x := by
      unfold Client.Win.step
      repeat' split
      all_goals exact ⟨_, rfl⟩
    obtain ⟨x, hx⟩ := this
    rw [hx, ok_bind]
    cases x with
    | none => exact ih hs
    | some y =>
      obtain ⟨s1, l1⟩ := y
      have h1 := win_step hs hx
      obtain ⟨c, l2, h2, h3⟩ := ih h1.small
      refine ⟨c, l1 ++ l2, ?_, h3.kind.trans h1.kind, h3.small, ?_, fun t => ?_⟩
      · dsimp only
        rw [h2, ok_bind]
      · have a1 := h1.hist
        have a2 := h3.hist
        rw [h1.kind] at a2
        cases hk : s.kind with
        | sem max =>
          rw [hk] at a1 a2
          simp only [history] at a1 a2 ⊢
          rw [units_append, a1]
          exact a2
        | event m =>
          rw [hk] at a1 a2
          simp only [history] at a1 a2 ⊢
          rw [signal_append]
          cases e : signal m (decide (s.val ≠ 0)) l1 with
          | none => rw [e] at a1; cases a1
          | some b =>
            rw [e] at a1
            rw [Option.map_some] at a1
            rw [← Option.some.inj a1] at a2
            cases b <;> simpa using a2
      · rw [win_phase_append, h1.ph t, h3.ph t]

theorem small_sem (n : Nat) : Small (Client.Win.sem n) := ⟨(fun _ e => nomatch e), fun _ _ _ e => nomatch e⟩
theorem small_event (m b : Bool) : Small (Client.Win.event m b) :=
  ⟨fun _ _ => by cases b <;> simp [Client.Win.event], fun _ e => nomatch e⟩

/-- Whoever is killed whenever: the effects of the calls are those of an atomic semaphore, a call that has returned has had
the effect it reports, and one that was cut off has had it or not. -/
theorem win_sem_crash_linearizable (n : Nat) (as : List (CAct Act)) :
    ∃ s ls, winRun (Client.Win.sem n) nobody as = .ok (s, ls) ∧ (units n n ls).isSome = true ∧
      ∀ t, (phase t (some .out) ls).isSome = true := by
  obtain ⟨s, ls, h1, h2⟩ := win_exec (moves winWho (fun _ => false) nobody as) (small_sem n)
  refine ⟨s, ls, h1, ?_, fun t => ?_⟩
  · rw [show units n n ls = some s.val from h2.hist]; rfl
  · rw [show phase t (some .out) ls = _ from h2.ph t]; rfl

/-- The same for an event, of either kind. -/
theorem win_ev_crash_linearizable (manual prefire : Bool) (as : List (CAct Act)) :
    ∃ s ls, winRun (Client.Win.event manual prefire) nobody as = .ok (s, ls) ∧
      (signal manual prefire ls).isSome = true ∧ ∀ t, (phase t (some .out) ls).isSome = true := by
  obtain ⟨s, ls, h1, h2⟩ := win_exec (moves winWho (fun _ => false) nobody as) (small_event manual prefire)
  refine ⟨s, ls, h1, ?_, fun t => ?_⟩
  · have := h2.hist
    cases e : signal manual prefire ls with
    | some b => rfl
    | none => cases prefire <;> simp [history, Client.Win.event, e] at this
  · rw [show phase t (some .out) ls = _ from h2.ph t]; rfl

theorem idle_of_out {p : Pc} (h : winPhase p = .out) : p = .idle := by
  cases p with
  | idle => rfl
  | waited r => cases r <;> cases h
  | signaled r => cases r <;> cases h
  | cleared r => cases r <;> cases h
  | _ => cases h

theorem win_own (t : Nat) (c : Act) (hc : winWho c = t) : ∀ b ∈ [c, .run t, .run t], winWho b = t := by
  intro b hb
  simp only [List.mem_cons, List.not_mem_nil, or_false] at hb
  rcases hb with e | e | e <;> rw [e]
  · exact hc
  · rfl
  · rfl

theorem win_wait {s : W} {t : Nat} (hp : s.pc t = .idle) (hv : s.val ≠ 0) (limit : Nat) :
    ∃ s', winExec s [.callWait t limit, .run t, .run t]
      = .ok (s', [.callWait t limit, .pass t, .retWait t true]) :=
  ⟨_, by simp [winExec, Client.Win.step, hp, Client.Win.run, W.goto, put, hv, ok_bind]; rfl⟩

theorem win_fire {s : W} {t : Nat} (hp : s.pc t = .idle) {n : Nat} (hv : Client.Win.raised s.kind s.val = some n) :
    ∃ s', winExec s [.callFire t, .run t, .run t] = .ok (s', [.callFire t, .fire t, .retFire t true]) :=
  ⟨_, by simp [winExec, Client.Win.step, hp, Client.Win.run, W.goto, put, hv, ok_bind]; rfl⟩

theorem win_reset {s : W} {t : Nat} (hp : s.pc t = .idle) {m : Bool} (hk : s.kind = .event m) :
    ∃ s', winExec s [.callReset t, .run t, .run t] = .ok (s', [.callReset t, .reset t, .retReset t true]) :=
  ⟨_, by simp [winExec, Client.Win.step, hp, Client.Win.run, W.goto, put, hk, ok_bind]; rfl⟩

theorem win_pass {s : W} {t limit : Nat} (hp : s.pc t = .wait limit) (hv : s.val ≠ 0) :
    ∃ s', winExec s [.run t, .run t] = .ok (s', [.pass t, .retWait t true]) :=
  ⟨_, by simp [winExec, Client.Win.step, hp, Client.Win.run, W.goto, put, hv, ok_bind]; rfl⟩

/-- Whoever was killed wherever: a live thread outside gets a unit if the effects so far leave one, with any time limit, one
that waits gets it, and a live thread can release below the maximum. -/
theorem win_sem_lives (n : Nat) (as : List (CAct Act)) (s : W) (ls : List Label)
    (h : winRun (Client.Win.sem n) nobody as = .ok (s, ls)) (v : Nat) (hv : units n n ls = some v) (t : Nat)
    (hl : dead nobody as t = false) :
    (phase t (some .out) ls = some .out →
      (0 < v → ∀ limit, ∃ s', winRun s (dead nobody as) ([.callWait t limit, .run t, .run t].map .act)
        = .ok (s', [.callWait t limit, .pass t, .retWait t true])) ∧
      (v < n → ∃ s', winRun s (dead nobody as) ([.callFire t, .run t, .run t].map .act)
        = .ok (s', [.callFire t, .fire t, .retFire t true]))) ∧
    ∀ limit, s.pc t = .wait limit → 0 < v → ∃ s', winRun s (dead nobody as) ([.run t, .run t].map .act)
      = .ok (s', [.pass t, .retWait t true]) := by
  obtain ⟨s0, ls0, h1, h2⟩ := win_exec (moves winWho (fun _ => false) nobody as) (small_sem n)
  rw [winRun, h1] at h
  cases h
  have e := h2.hist
  rw [show history (Client.Win.sem n).kind (Client.Win.sem n).val ls = units n n ls from rfl, hv] at e
  cases e
  have hk : s.kind = .sem n := h2.kind
  refine ⟨fun ho => ?_, fun limit hp h0 => ?_⟩
  · have hp : s.pc t = .idle := by
      have := h2.ph t
      rw [show winPhase ((Client.Win.sem n).pc t) = .out from rfl, ho] at this
      exact idle_of_out (Option.some.inj this).symm
    refine ⟨fun h0 limit => ?_, fun h0 => ?_⟩
    · rw [winRun, moves_own hl _ (win_own t _ rfl)]
      exact win_wait hp (by omega) limit
    · rw [winRun, moves_own hl _ (win_own t _ rfl)]
      exact win_fire hp (n := s.val + 1) (by rw [hk, Client.Win.raised, if_pos h0])
  · rw [winRun, moves_own hl _ (by simp [winWho])]
    exact win_pass hp (by omega)

/-- Whoever was killed wherever: a live thread outside passes if the effects so far leave the event signalled, with any
time limit, one that waits passes, and a live thread can fire it and reset it. -/
theorem win_ev_lives (manual prefire : Bool) (as : List (CAct Act)) (s : W) (ls : List Label)
    (h : winRun (Client.Win.event manual prefire) nobody as = .ok (s, ls)) (b : Bool)
    (hv : signal manual prefire ls = some b) (t : Nat) (hl : dead nobody as t = false) :
    (phase t (some .out) ls = some .out →
      (b = true → ∀ limit, ∃ s', winRun s (dead nobody as) ([.callWait t limit, .run t, .run t].map .act)
        = .ok (s', [.callWait t limit, .pass t, .retWait t true])) ∧
      (∃ s', winRun s (dead nobody as) ([.callFire t, .run t, .run t].map .act)
        = .ok (s', [.callFire t, .fire t, .retFire t true])) ∧
      ∃ s', winRun s (dead nobody as) ([.callReset t, .run t, .run t].map .act)
        = .ok (s', [.callReset t, .reset t, .retReset t true])) ∧
    ∀ limit, s.pc t = .wait limit → b = true → ∃ s', winRun s (dead nobody as) ([.run t, .run t].map .act)
      = .ok (s', [.pass t, .retWait t true]) := by
  obtain ⟨s0, ls0, h1, h2⟩ := win_exec (moves winWho (fun _ => false) nobody as) (small_event manual prefire)
  rw [winRun, h1] at h
  cases h
  have e := h2.hist
  have e' : s.val = b.toNat := by
    cases prefire <;> simp [history, Client.Win.event, hv] at e <;> exact e.symm
  have hk : s.kind = .event manual := h2.kind
  refine ⟨fun ho => ?_, fun limit hp h0 => ?_⟩
  · have hp : s.pc t = .idle := by
      have := h2.ph t
      rw [show winPhase ((Client.Win.event manual prefire).pc t) = .out from rfl, ho] at this
      exact idle_of_out (Option.some.inj this).symm
    refine ⟨fun h0 limit => ?_, ?_, ?_⟩
    · rw [winRun, moves_own hl _ (win_own t _ rfl)]
      exact win_wait hp (by rw [e', h0]; exact Nat.one_ne_zero) limit
    · rw [winRun, moves_own hl _ (win_own t _ rfl)]
      exact win_fire hp (n := 1) (by rw [hk, Client.Win.raised])
    · rw [winRun, moves_own hl _ (win_own t _ rfl)]
      exact win_reset hp hk
  · rw [winRun, moves_own hl _ (by simp [winWho])]
    exact win_pass hp (by rw [e', h0]; exact Nat.one_ne_zero)

def winShows (s : W) (as : List (CAct Act)) (p : W → List Label → Bool) : Bool :=
  match winRun s nobody as with
  | .ok (s, ls) => p s ls
  | .error _ => false

/-- Two units: thread 1 takes one and is killed, thread 2 is killed waiting, before the kernel answers, thread 3 takes one
and is killed before it returns, thread 4 waits, and thread 5 gives a unit. -/
def killedTakers : List (CAct Act) :=
  [.act (.callWait 1 7), .act (.run 1), .act (.run 1), .kill 1, .act (.run 1), .act (.callWait 2 7), .kill 2,
    .act (.run 2), .act (.callWait 3 0), .act (.run 3), .kill 3, .act (.run 3), .act (.callWait 4 7), .act (.run 4),
    .act (.callFire 5), .act (.run 5), .act (.run 5)]

example : winShows (Client.Win.sem 2) killedTakers (fun s ls => decide (units 2 2 ls = some 1) &&
    decide (s.pc 4 = .wait 7) && decide (phase 5 (some .out) ls = some .out) && !dead nobody killedTakers 4 &&
    dead nobody killedTakers 3 && decide (ls = [.callWait 1 7, .pass 1, .retWait 1 true, .callWait 2 7, .callWait 3 0,
      .pass 3, .callWait 4 7, .callFire 5, .fire 5, .retFire 5 true])) = true := rfl

example : winShows (Client.Win.event false true) killedTakers (fun s ls => decide (signal false true ls = some true) &&
    decide (s.pc 4 = .wait 7) && decide (phase 5 (some .out) ls = some .out) && !dead nobody killedTakers 4) = true := rfl

end Verif.Crash
