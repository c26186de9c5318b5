import Verif.Crash.Lemmas

/-! # Killed users of a semaphore or event (C141) -/

namespace Verif.Crash

/-! ## Semaphore -/

/-- Whoever is killed whenever: no undefined behaviour, and the effects of the calls are those of an atomic semaphore;
every call that has returned has had the effect it reports, one that was cut off has had it or not. -/
theorem sem_crash_linearizable (start max : Nat) (as : List (CAct Sem.Act)) :
    ∃ s ls, semRun (Sem.init start max) nobody as = .ok (s, ls) ∧
      (∃ n, Sem.Spec.atomic max (min start max) ls = some n ∧ n ≤ max ∧ ((∀ t, s.owner ≠ some t) → s.count = n)) ∧
      ∀ t, (Sem.Spec.phase t (some .out) ls).isSome = true := by
  obtain ⟨s, ls, h⟩ := Sem.no_ub start max (moves semWho semLeaves nobody as)
  exact ⟨s, ls, h, Sem.linearizable start max _ s ls h⟩

/-- If nobody holds the internal mutex, a live thread gets a unit that is there, with any time limit, and its release
succeeds, whoever has been killed elsewhere. -/
theorem sem_lives_partial (start max : Nat) (hmax : max < 4294967295) (as : List (CAct Sem.Act)) (s : Sem.S)
    (ls : List Sem.Label) (h : semRun (Sem.init start max) nobody as = .ok (s, ls)) (ho : s.owner = none) (t : Nat)
    (hl : dead nobody as t = false) (hp : s.pc t = .idle) :
    (s.count ≠ 0 → ∀ wait, ∃ bs s', semRun s (dead nobody as) bs =
      .ok (s', [.callWait t wait, .take t, .retWait t true])) ∧
    ∃ bs s', semRun s (dead nobody as) bs =
      .ok (s', [.callRelease t, .give t s.count, .retRelease t true s.count]) := by
  have mv : ∀ bs : List Sem.Act, (∀ b ∈ bs, semWho b = t) →
      moves semWho semLeaves (dead nobody as) (bs.map .act) = bs := by
    intro bs
    induction bs with
    | nil => intro _; rfl
    | cons b bs ih =>
      intro hb
      rw [List.map_cons, moves, hb b List.mem_cons_self, hl, if_neg (by simp),
        ih fun x hx => hb x (List.mem_cons_of_mem _ hx)]
  obtain ⟨s1, l1, n, he, hi, -, hm, -⟩ := Sem.exec_ok (moves semWho semLeaves nobody as) (Sem.init_inv start max)
  rw [semRun, he] at h
  cases h
  refine ⟨fun hc wait => ?_, ?_⟩
  · obtain ⟨s', h', -⟩ := Sem.wait_succeeds s t hp ho hc wait 0
    exact ⟨[.callWait t wait, .run t 0, .run t 0, .run t 0, .run t 0].map .act, s', by
      rw [semRun, mv _ (by simp [semWho])]; exact h'⟩
  · have hcnt : s.count < 4294967295 := by
      have h1 := hi.le
      rw [hm] at h1
      rcases hi.quiet with ⟨u, hu⟩ | hq
      · have := hi.crit u (Sem.crit_of_clamping hu); rw [ho] at this; cases this
      · rw [hq]; exact Nat.lt_of_le_of_lt h1 hmax
    cases hq : s.queue with
    | nil =>
      obtain ⟨s', h', -⟩ := Sem.release_gives s t hp ho hq hcnt 0
      exact ⟨(Sem.Act.callRelease t :: List.replicate 7 (.run t 0)).map .act, s', by
        rw [semRun, mv _ (by simp [semWho, List.replicate])]; exact h'⟩
    | cons u us =>
      have hb := (hi.queue u).1 (by rw [hq]; exact List.mem_cons_self)
      refine ⟨(Sem.Act.callRelease t :: List.replicate 7 (.run t u)).map .act, ?_⟩
      rw [semRun, mv _ (by simp [semWho, List.replicate])]
      cases hu : s.pc u <;> rw [hu] at hb <;> first | (cases hb; done) | skip
      rename_i w
      have hut : u ≠ t := by intro e; rw [e, hp] at hu; cases hu
      have hm1 : (s.count + 1) % 4294967296 = s.count + 1 := Nat.mod_eq_of_lt (by omega)
      simp [Sem.exec, Sem.step, hp, Sem.run, Sem.S.goto, ho, hq, hm1, List.replicate, hu, hut]

/-- The code breaks it when a thread is killed inside: nothing ever succeeds again. -/
theorem sem_killed_inside (start max : Nat) (as : List (CAct Sem.Act)) (s : Sem.S) (ls : List Sem.Label)
    (h : semRun (Sem.init start max) nobody as = .ok (s, ls)) (o : Nat) (hd : dead nobody as o = true)
    (ho : s.owner = some o) (bs : List (CAct Sem.Act)) (s' : Sem.S) (ls' : List Sem.Label)
    (h' : semRun s (dead nobody as) bs = .ok (s', ls')) (t r : Nat) :
    Sem.Label.retWait t true ∉ ls' ∧ Sem.Label.retRelease t true r ∉ ls' := by
  obtain ⟨s1, l1, n, he, hi, -⟩ := Sem.exec_ok (moves semWho semLeaves nobody as) (Sem.init_inv start max)
  rw [semRun, he] at h
  cases h
  refine sem_held_exec (o := o) ⟨ho, fun u hu => hi.others (.inr ho) hu⟩ (fun a ha => ?_) h' t r
  rcases (mem_moves ha).2 with e | e
  · exact .inl e
  · right; intro e'; rw [e', hd] at e; cases e

/-- Two units, three threads.  Thread 1 is killed in its sleep, thread 2 still waits and releases. -/
example : ∃ s ls, semRun (Sem.init 0 2) nobody
    [.act (.callWait 1 Sem.infinite), .act (.run 1 0), .act (.run 1 0), .kill 1] = .ok (s, ls) ∧
    dead (A := Sem.Act) nobody [.act (.callWait 1 Sem.infinite), .act (.run 1 0), .act (.run 1 0), .kill 1] 1 = true ∧
    s.pc 1 = .wBlocked Sem.infinite ∧ s.owner = none ∧ s.pc 2 = .idle := ⟨_, _, rfl, rfl, rfl, rfl, rfl⟩

/-- Thread 1 is killed right after it has locked the internal mutex. -/
example : ∃ s ls, semRun (Sem.init 2 2) nobody [.act (.callWait 1 0), .act (.run 1 0), .kill 1] = .ok (s, ls) ∧
    dead (A := Sem.Act) nobody [.act (.callWait 1 0), .act (.run 1 0), .kill 1] 1 = true ∧ s.owner = some 1 ∧ s.count = 2 :=
  ⟨_, _, rfl, rfl, rfl, rfl⟩

/-! ## Event -/

/-- The same for events. -/
theorem ev_crash_linearizable (manual signaled : Bool) (as : List (CAct Event.Act)) :
    ∃ s ls, evRun (Event.init manual signaled) nobody as = .ok (s, ls) ∧
      Event.Spec.atomic manual signaled ls = some s.signaled ∧
      ∀ t, (Event.Spec.phase t (some .out) ls).isSome = true := by
  obtain ⟨s, ls, h⟩ := Event.no_ub manual signaled (moves evWho evLeaves nobody as)
  exact ⟨s, ls, h, Event.linearizable manual signaled _ s ls h⟩

/-- If nobody holds the internal mutex, a live thread can fire, and it passes the event if that is signalled: a manual
one always, an automatic one if nobody, alive or killed, is asleep in a wait or on the way to it. -/
theorem ev_lives_partial (manual signaled : Bool) (as : List (CAct Event.Act)) (s : Event.S) (ls : List Event.Label)
    (h : evRun (Event.init manual signaled) nobody as = .ok (s, ls)) (ho : s.owner = none) (t : Nat)
    (hl : dead nobody as t = false) (hp : s.pc t = .idle) :
    (s.signaled = true → (manual = false → ∀ u, Event.counted (s.pc u) = false) → ∀ wait, ∃ bs s',
      evRun s (dead nobody as) bs = .ok (s', [.callWait t wait, .pass t, .retWait t true])) ∧
    ∃ bs s', evRun s (dead nobody as) bs = .ok (s', [.callFire t, .fire t, .retFire t true]) ∧ s'.signaled = true := by
  have mv : ∀ bs : List Event.Act, (∀ b ∈ bs, evWho b = t) →
      moves evWho evLeaves (dead nobody as) (bs.map .act) = bs := by
    intro bs
    induction bs with
    | nil => intro _; rfl
    | cons b bs ih =>
      intro hb
      rw [List.map_cons, moves, hb b List.mem_cons_self, hl, if_neg (by simp),
        ih fun x hx => hb x (List.mem_cons_of_mem _ hx)]
  obtain ⟨s1, l1, he, hi, hx⟩ := Event.exec_ok (moves evWho evLeaves nobody as) (Event.init_inv manual signaled)
  rw [evRun, he] at h
  cases h
  have hman : s.manual = manual := hx.2.1
  refine ⟨fun hs hq wait => ?_, ?_⟩
  · cases hm : s.manual with
    | true =>
      obtain ⟨s', h', -⟩ := Event.manual_open s t hm hs hp ho wait 0
      exact ⟨[.callWait t wait, .run t 0, .run t 0, .run t 0].map .act, s', by
        rw [evRun, mv _ (by simp [evWho])]; exact h'⟩
    | false =>
      obtain ⟨L, h1, h2, h3⟩ := (Event.exec_2 (ne := false) _ (Event.init_inv manual signaled)
        (Event.init_2 false manual signaled) (fun e => nomatch e) he).cnt
      have hw : s.waiting = 0 := by
        cases L with
        | nil => exact h3
        | cons u L =>
          have := (h2 u).1 List.mem_cons_self
          rw [hq (by rw [← hman, hm]) u] at this
          cases this
      obtain ⟨s', h', -⟩ := Event.auto_open s t hm hs hw hp ho wait 0
      exact ⟨[.callWait t wait, .run t 0, .run t 0, .run t 0, .run t 0].map .act, s', by
        rw [evRun, mv _ (by simp [evWho])]; exact h'⟩
  · cases hq : s.queue with
    | nil =>
      obtain ⟨s', h', h'', -⟩ := Event.fire_signals s t hp ho hq 0
      exact ⟨[.callFire t, .run t 0, .run t 0, .run t 0, .run t 0].map .act, s', by
        rw [evRun, mv _ (by simp [evWho])]; exact h', h''⟩
    | cons u us =>
      have hb := (hi.queue u).1 (by rw [hq]; exact List.mem_cons_self)
      refine ⟨[.callFire t, .run t u, .run t u, .run t u, .run t u].map .act, ?_⟩
      rw [evRun, mv _ (by simp [evWho])]
      cases hu : s.pc u <;> rw [hu] at hb <;> first | (cases hb; done) | skip
      rename_i w
      have hut : u ≠ t := by intro e; rw [e, hp] at hu; cases hu
      cases hm : s.manual <;>
        simp [Event.exec, Event.step, hp, Event.run, Event.S.goto, ho, hq, hu, hut, hm, Event.lock, Event.unlock,
          Event.wakeAll]

/-- The code breaks it when a thread is killed inside: no wait, fire or reset ever succeeds again. -/
theorem ev_killed_inside (manual signaled : Bool) (as : List (CAct Event.Act)) (s : Event.S) (ls : List Event.Label)
    (h : evRun (Event.init manual signaled) nobody as = .ok (s, ls)) (o : Nat) (hd : dead nobody as o = true)
    (ho : s.owner = some o) (bs : List (CAct Event.Act)) (s' : Event.S) (ls' : List Event.Label)
    (h' : evRun s (dead nobody as) bs = .ok (s', ls')) (t : Nat) :
    Event.Label.retWait t true ∉ ls' ∧ Event.Label.retFire t true ∉ ls' ∧ Event.Label.retReset t true ∉ ls' := by
  obtain ⟨s1, l1, he, hi, -⟩ := Event.exec_ok (moves evWho evLeaves nobody as) (Event.init_inv manual signaled)
  rw [evRun, he] at h
  cases h
  have key := ev_held_exec (o := o) ⟨ho, fun u hu => hi.others (.inr ho) hu⟩ (fun a ha => by
    rcases (mem_moves ha).2 with e | e
    · exact .inl e
    · right; intro e'; rw [e', hd] at e; cases e) h'
  exact ⟨(fun hm => nomatch key _ hm), (fun hm => nomatch key _ hm), (fun hm => nomatch key _ hm)⟩

/-- And when a thread is killed while it sleeps in a wait for an automatic event (or on the way there and back):
`MxWaiting` never becomes zero again, so whenever later a live thread asks with the time limit 0, the
answer is false although the event is signalled and nobody else is there. -/
theorem ev_killed_asleep (signaled : Bool) (as bs : List (CAct Event.Act)) (s s' : Event.S) (ls ls' : List Event.Label)
    (h : evRun (Event.init false signaled) nobody as = .ok (s, ls)) (o : Nat) (hd : dead nobody as o = true)
    (hc : Event.counted (s.pc o) = true) (h' : evRun s (dead nobody as) bs = .ok (s', ls'))
    (hn : ∀ a, CAct.act a ∈ as ++ bs → evWho a < 4294967295)
    (t : Nat) (hl : dead nobody (as ++ bs) t = false) (hp : s'.pc t = .idle) (ho : s'.owner = none) :
    ∃ cs s'', evRun s' (dead nobody (as ++ bs)) cs = .ok (s'', [.callWait t 0, .retWait t false]) ∧
      s''.signaled = s'.signaled := by
  have hall : Event.exec (Event.init false signaled) (moves evWho evLeaves nobody (as ++ bs)) = .ok (s', ls ++ ls') := by
    rw [moves_append]
    exact exec_append _ _ h h'
  have hc' : Event.counted (s'.pc o) = true := by
    refine ev_counted_exec hc (fun a ha => ?_) h'
    rcases (mem_moves ha).2 with e | e
    · exact .inl e
    · right; intro e'; rw [e', hd] at e; cases e
  obtain ⟨L, h1, h2, h3⟩ := (Event.exec_2 (ne := false) _ (Event.init_inv false signaled)
    (Event.init_2 false false signaled) (fun e => nomatch e) hall).cnt
  have hlen : L.length ≤ 4294967295 := nodup_lt h1 fun u hu => by
    by_cases hlt : u < 4294967295
    · exact hlt
    · exfalso
      have hid := ev_idle_exec (o := u) (s := Event.init false signaled) rfl (fun a ha e => by
        have := hn a (mem_moves ha).1
        rw [e] at this; exact hlt this) hall
      have := (h2 u).1 hu
      rw [hid] at this
      cases this
  have hpos : 0 < L.length := List.length_pos_of_mem ((h2 o).2 hc')
  have hw : s'.waiting ≠ 0 := by rw [h3, Nat.mod_eq_of_lt (by omega)]; omega
  have hm : s'.manual = false := by
    obtain ⟨s1, l1, he, _, hx⟩ := Event.exec_ok (moves evWho evLeaves nobody (as ++ bs)) (Event.init_inv false signaled)
    rw [hall] at he
    cases he
    exact hx.2.1
  refine ⟨[Event.Act.callWait t 0, .run t 0, .run t 0, .run t 0].map .act, ?_⟩
  simp [evRun, moves, evWho, hl, Event.exec, Event.step, hp, Event.run, Event.S.goto, ho, Event.lock, Event.unlock, hm, hw]

/-- Thread 1 is killed in its sleep; thread 2 fires and then asks: the event is signalled, the answer is false. -/
example : ∃ s ls s' ls', evRun (Event.init false false) nobody
      ([.act (.callWait 1 Event.infinite)] ++ List.replicate 4 (.act (.run 1 0)) ++ [.kill 1]) = .ok (s, ls) ∧
    s.pc 1 = .wBlocked Event.infinite ∧
    evRun s (fun u => decide (u = 1)) ([.act (.wake 1 true), .act (.callFire 2)] ++ List.replicate 4 (.act (.run 2 0)) ++
      [.act (.callWait 2 0)] ++ List.replicate 3 (.act (.run 2 0))) = .ok (s', ls') ∧
    ls' = [.callFire 2, .fire 2, .retFire 2 true, .callWait 2 0, .retWait 2 false] ∧ s'.signaled = true ∧ s'.owner = none :=
  ⟨_, _, _, _, rfl, rfl, rfl, rfl, rfl, rfl⟩

end Verif.Crash
