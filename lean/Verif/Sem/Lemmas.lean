import Verif.Sem.Spec

/-! # Invariants of the semaphore -/

namespace Verif.Sem

open Spec

/-- Positions at which the mutex is held. -/
def crit : Pc → Bool
  | .wTest _ | .wDec _ | .wRetest _ | .wUnlock _ => true
  | .rPrev | .rLoad _ | .rStore _ _ | .rClamp _ | .rSignal _ | .rUnlock _ => true
  | _ => false

def blocked : Pc → Bool
  | .wBlocked _ => true
  | _ => false

def clamping : Pc → Bool
  | .rClamp _ => true
  | _ => false

/-- What the counter `c` and the local values of a thread say about the abstract value `n`. -/
def Val (c n : Nat) : Pc → Prop
  | .wDec v => v = n ∧ 0 < n ∧ c = n
  | .rLoad p => p = n ∧ c = n
  | .rStore p v => p = n ∧ v = n ∧ c = n
  | .rClamp p => p = n ∧ c = (n + 1) % 4294967296
  | _ => True

theorem Val.of_not_crit {c n : Nat} {p : Pc} (h : crit p = false) : Val c n p := by
  cases p <;> first | trivial | cases h

structure Inv (s : S) (n : Nat) : Prop where
  le : n ≤ s.max
  crit : ∀ t, crit (s.pc t) = true → s.owner = some t
  queue : ∀ t, t ∈ s.queue ↔ blocked (s.pc t) = true
  nodup : s.queue.Nodup
  val : ∀ t, Val s.count n (s.pc t)
  quiet : (∃ t, clamping (s.pc t) = true) ∨ s.count = n

/-- The phase belonging to a position. -/
def phOf : Pc → Phase
  | .idle => .out
  | .wUnlock true => .took
  | .rLock | .rPrev | .rLoad _ | .rStore _ _ | .rClamp _ => .releasing
  | .rSignal p | .rUnlock p => .gave p
  | _ => .waiting

theorem goto_pc (s : S) (t u : Nat) (p : Pc) :
    (s.goto t p).pc u = if u = t then p else s.pc u := rfl

theorem crit_of_clamping {p : Pc} (h : clamping p = true) : Sem.crit p = true := by
  cases p <;> first | rfl | cases h

/-- If `t` holds the mutex or nobody does, no other thread is in its critical section. -/
theorem Inv.others {s : S} {n t u : Nat} (h : Inv s n) (ho : s.owner = none ∨ s.owner = some t)
    (hu : u ≠ t) : Sem.crit (s.pc u) = false := by
  cases hc : Sem.crit (s.pc u)
  · rfl
  · have := h.crit u hc
    rcases ho with ho | ho
    · rw [this] at ho; cases ho
    · rw [this] at ho; exact absurd (Option.some.inj ho) hu

theorem Inv.upd {s s' : S} {n n' t : Nat} {p : Pc} (h : Inv s n)
    (hs : ∀ u, s'.pc u = if u = t then p else s.pc u)
    (hmax : s'.max = s.max) (hn : n' ≤ s.max)
    (ho : s'.owner = s.owner ∨ s.owner = none ∨ s.owner = some t)
    (hp : Sem.crit p = true → s'.owner = some t)
    (hq : ∀ u, u ∈ s'.queue ↔ blocked (s'.pc u) = true) (hd : s'.queue.Nodup)
    (hv : Val s'.count n' p)
    (hc : (s'.count = s.count ∧ n' = n) ∨ Sem.crit (s.pc t) = true)
    (hquiet : clamping p = true ∨ s'.count = n' ∨
      (s'.count = s.count ∧ n' = n ∧ clamping (s.pc t) = false)) : Inv s' n' := by
  refine ⟨hmax ▸ hn, fun u hu => ?_, hq, hd, fun u => ?_, ?_⟩
  · rw [hs] at hu
    by_cases hut : u = t
    · rw [if_pos hut] at hu; rw [hut]; exact hp hu
    · rw [if_neg hut] at hu
      rcases ho with ho | ho
      · rw [ho]; exact h.crit u hu
      · rw [h.others ho hut] at hu; cases hu
  · rw [hs]
    by_cases hut : u = t
    · rw [if_pos hut]; exact hv
    · rw [if_neg hut]
      rcases hc with ⟨h1, h2⟩ | hc
      · rw [h1, h2]; exact h.val u
      · exact Val.of_not_crit (h.others (Or.inr (h.crit t hc)) hut)
  · rcases hquiet with hq | hq | ⟨h1, h2, h3⟩
    · exact Or.inl ⟨t, by rw [hs, if_pos rfl]; exact hq⟩
    · exact Or.inr hq
    · rcases h.quiet with ⟨u, hu⟩ | hq
      · refine Or.inl ⟨u, ?_⟩
        rw [hs, if_neg]
        · exact hu
        · intro e; rw [e, h3] at hu; cases hu
      · exact Or.inr (by rw [h1, h2, hq])

/-- A step that changes the queue not at all, `t` neither leaving nor joining it. -/
theorem queue_same {s s' : S} {n t : Nat} {p : Pc} (h : Inv s n)
    (hs : ∀ u, s'.pc u = if u = t then p else s.pc u) (hq : s'.queue = s.queue)
    (h1 : blocked (s.pc t) = false) (h2 : blocked p = false) :
    ∀ u, u ∈ s'.queue ↔ blocked (s'.pc u) = true := by
  intro u
  rw [hq, h.queue u, hs]
  by_cases hut : u = t
  · rw [if_pos hut, hut, h1, h2]
  · rw [if_neg hut]

/-- What a step does to the abstract value, the phases and the invariant. -/
def StepOk (s : S) (n : Nat) (r : Option (S × List Label)) : Prop :=
  ∀ s' ls, r = some (s', ls) → ∃ n', Inv s' n' ∧ atomic s.max n ls = some n' ∧ s'.max = s.max ∧
    ∀ t, phase t (some (phOf (s.pc t))) ls = some (phOf (s'.pc t))

theorem StepOk.none {s : S} {n : Nat} : StepOk s n none := fun _ _ h => nomatch h

theorem StepOk.some {s s' : S} {n n' t : Nat} {p : Pc} {ls : List Label} (hi : Inv s' n')
    (ha : atomic s.max n ls = some n') (hm : s'.max = s.max)
    (hs : ∀ u, s'.pc u = if u = t then p else s.pc u)
    (hw : ∀ l ∈ ls, who l = t)
    (hp : phase t (some (phOf (s.pc t))) ls = some (phOf p)) : StepOk s n (some (s', ls)) := by
  intro s'' ls' e
  cases e
  refine ⟨n', hi, ha, hm, fun u => ?_⟩
  rw [hs]
  by_cases hut : u = t
  · rw [if_pos hut, hut]; exact hp
  · rw [if_neg hut]
    clear hp ha
    induction ls with
    | nil => rfl
    | cons l ls ih =>
      rw [phase, if_neg]
      · exact ih fun l hl => hw l (List.mem_cons_of_mem _ hl)
      · rw [hw l (List.mem_cons_self ..)]; exact fun e => hut e.symm

theorem phase_one {t : Nat} {p : Option Phase} {l : Label} (h : who l = t) :
    phase t p [l] = p.bind (move · l) := by
  rw [phase, if_pos h]; rfl

theorem owner_of {s : S} {n t : Nat} (h : Inv s n) {p : Pc} (hpc : s.pc t = p)
    (hc : crit p = true) : s.owner = some t := h.crit t (hpc ▸ hc)

/-- The counter seen by a thread in its critical section outside the clamp is the abstract value. -/
theorem count_of {s : S} {n t : Nat} (h : Inv s n) (ho : s.owner = some t)
    (hc : clamping (s.pc t) = false) : s.count = n := by
  rcases h.quiet with ⟨u, hu⟩ | hq
  · exfalso
    have := h.crit u (crit_of_clamping hu)
    rw [ho] at this
    rw [← Option.some.inj this, hc] at hu
    cases hu
  · exact hq

theorem block_ok {s : S} {n t wait : Nat} (h : Inv s n) (hc : crit (s.pc t) = true)
    (hcl : clamping (s.pc t) = false) (hb : blocked (s.pc t) = false)
    (hph : phOf (s.pc t) = .waiting) :
    ∃ r, block s t wait = .ok r ∧ StepOk s n r := by
  have ho := h.crit t hc
  refine ⟨_, by rw [block, if_pos ho], ?_⟩
  refine StepOk.some (t := t) (p := .wBlocked wait) (n' := n)
    (h.upd (t := t) (p := .wBlocked wait) (fun u => rfl) rfl h.le (Or.inr (Or.inr ho))
      (fun e => nomatch e) ?_ ?_ trivial (Or.inl ⟨rfl, rfl⟩) (Or.inr (Or.inr ⟨rfl, rfl, hcl⟩)))
    rfl rfl (fun u => rfl) (fun l hl => nomatch hl) (by rw [hph]; rfl)
  · intro u
    rw [goto_pc]
    by_cases hut : u = t
    · rw [if_pos hut, hut]
      exact ⟨fun _ => rfl, fun _ => List.mem_cons_self ..⟩
    · rw [if_neg hut, ← h.queue u]
      show u ∈ t :: s.queue ↔ _
      rw [List.mem_cons]
      exact ⟨fun e => e.resolve_left hut, Or.inr⟩
  · show (t :: s.queue).Nodup
    refine List.nodup_cons.mpr ⟨fun hm => ?_, h.nodup⟩
    rw [(h.queue t), hb] at hm
    cases hm

/-- A thread leaves the condition variable. -/
theorem wake_inv {s : S} {n t wait : Nat} {zero : Bool} (h : Inv s n)
    (hpc : s.pc t = .wBlocked wait) :
    Inv (({ s with queue := s.queue.erase t } : S).goto t (.wWoken wait zero)) n := by
  refine h.upd (t := t) (p := .wWoken wait zero) (fun u => rfl) rfl h.le (Or.inl rfl)
    (fun e => nomatch e) ?_ (h.nodup.erase t) trivial (Or.inl ⟨rfl, rfl⟩)
    (Or.inr (Or.inr ⟨rfl, rfl, by rw [hpc]; rfl⟩))
  intro u
  show u ∈ s.queue.erase t ↔ _
  rw [h.nodup.mem_erase_iff, goto_pc]
  by_cases hut : u = t
  · rw [if_pos hut]
    exact ⟨fun e => absurd hut e.1, fun e => nomatch e⟩
  · rw [if_neg hut, h.queue u]
    exact ⟨And.right, fun e => ⟨hut, e⟩⟩

/-- A step that stays within the mutex and changes neither counter nor queue. -/
theorem plain_ok {s s' : S} {n t : Nat} {p : Pc} {ls : List Label} (h : Inv s n)
    (hs : ∀ u, s'.pc u = if u = t then p else s.pc u) (hm : s'.max = s.max)
    (hcnt : s'.count = s.count) (hq : s'.queue = s.queue)
    (ho : s'.owner = s.owner ∨ s.owner = none ∨ s.owner = some t)
    (hp : crit p = true → s'.owner = some t)
    (hb1 : blocked (s.pc t) = false) (hb2 : blocked p = false)
    (hcl : clamping (s.pc t) = false) (hv : Val s.count n p)
    (ha : atomic s.max n ls = some n) (hw : ∀ l ∈ ls, who l = t)
    (hph : phase t (some (phOf (s.pc t))) ls = some (phOf p)) : StepOk s n (some (s', ls)) :=
  StepOk.some (t := t) (p := p) (n' := n)
    (h.upd (t := t) (p := p) hs hm h.le ho hp (queue_same h hs hq hb1 hb2)
      (hq ▸ h.nodup) (hcnt ▸ hv) (Or.inl ⟨hcnt, rfl⟩) (Or.inr (Or.inr ⟨hcnt, rfl, hcl⟩)))
    ha hm hs hw hph

theorem run_ok {s : S} {n t pick : Nat} (h : Inv s n) :
    ∃ r, run s t pick = .ok r ∧ StepOk s n r := by
  unfold run
  cases hpc : s.pc t with
  | idle => exact ⟨_, rfl, .none⟩
  | wLock wait =>
    cases ho : s.owner with
    | none =>
      exact ⟨_, rfl, plain_ok h (t := t) (p := .wTest wait) (fun u => rfl) rfl rfl rfl
        (Or.inr (Or.inl ho)) (fun _ => rfl) (by rw [hpc]; rfl) rfl (by rw [hpc]; rfl) trivial rfl
        (fun l hl => nomatch hl) (by rw [hpc]; rfl)⟩
    | some o =>
      refine ⟨_, rfl, ?_⟩
      by_cases hw : wait = 0
      · rw [if_pos hw]
        exact plain_ok h (t := t) (p := .idle) (fun u => rfl) rfl rfl rfl (Or.inl rfl)
          (fun e => nomatch e) (by rw [hpc]; rfl) rfl (by rw [hpc]; rfl) trivial rfl
          (fun l hl => by rw [List.mem_singleton.mp hl]; rfl)
          (by rw [hpc, phase_one (t := t) (by rfl)]; rfl)
      · rw [if_neg hw]; exact .none
  | wTest wait =>
    have ho := owner_of h hpc rfl
    have hcn := count_of h ho (by rw [hpc]; rfl)
    by_cases hc : s.count ≠ 0
    · refine ⟨_, if_pos hc, plain_ok h (t := t) (p := .wDec s.count) (fun u => rfl) rfl rfl rfl
        (Or.inl rfl) (fun _ => ho) (by rw [hpc]; rfl) rfl (by rw [hpc]; rfl) ⟨hcn, by omega, hcn⟩
        rfl (fun l hl => nomatch hl) (by rw [hpc]; rfl)⟩
    · dsimp only
      rw [if_neg hc]
      by_cases hw : wait = 0
      · rw [if_pos hw]
        exact ⟨_, rfl, plain_ok h (t := t) (p := .wUnlock false) (fun u => rfl) rfl rfl rfl
          (Or.inl rfl) (fun _ => ho) (by rw [hpc]; rfl) rfl (by rw [hpc]; rfl) trivial
          rfl (fun l hl => nomatch hl) (by rw [hpc]; rfl)⟩
      · rw [if_neg hw]
        exact block_ok h (by rw [hpc]; rfl) (by rw [hpc]; rfl) (by rw [hpc]; rfl) (by rw [hpc]; rfl)
  | wDec v =>
    have ho := owner_of h hpc rfl
    have hv : Val s.count n (.wDec v) := hpc ▸ h.val t
    obtain ⟨rfl, hv0, hc⟩ := hv
    refine ⟨_, rfl, StepOk.some (t := t) (p := .wUnlock true) (n' := v - 1)
      (h.upd (t := t) (p := .wUnlock true) (fun u => rfl) rfl (by have := h.le; omega) (Or.inl rfl)
        (fun _ => ho) (queue_same h (t := t) (p := .wUnlock true) (fun u => rfl) rfl
          (by rw [hpc]; rfl) rfl) h.nodup trivial (Or.inr (by rw [hpc]; rfl)) (Or.inr (Or.inl rfl)))
      ?_ rfl (fun u => rfl) (fun l hl => by rw [List.mem_singleton.mp hl]; rfl) ?_⟩
    · rw [atomic, if_pos hv0]; rfl
    · rw [hpc, phase_one (t := t) (by rfl)]; rfl
  | wBlocked wait => exact ⟨_, rfl, .none⟩
  | wWoken wait zero =>
    cases ho : s.owner with
    | none =>
      refine ⟨_, rfl, plain_ok h (t := t) (p := if zero then .wRetest wait else .wUnlock false)
        (fun u => rfl) rfl rfl rfl (Or.inr (Or.inl ho)) (fun _ => rfl) (by rw [hpc]; rfl)
        (by cases zero <;> rfl) (by rw [hpc]; rfl) (by cases zero <;> trivial) rfl
        (fun l hl => nomatch hl) (by rw [hpc]; cases zero <;> rfl)⟩
    | some o => exact ⟨_, rfl, .none⟩
  | wRetest wait =>
    have ho := owner_of h hpc rfl
    have hcn := count_of h ho (by rw [hpc]; rfl)
    by_cases hc : s.count ≠ 0
    · refine ⟨_, if_pos hc, plain_ok h (t := t) (p := .wDec s.count) (fun u => rfl) rfl rfl rfl
        (Or.inl rfl) (fun _ => ho) (by rw [hpc]; rfl) rfl (by rw [hpc]; rfl) ⟨hcn, by omega, hcn⟩
        rfl (fun l hl => nomatch hl) (by rw [hpc]; rfl)⟩
    · dsimp only
      rw [if_neg hc]
      exact block_ok h (by rw [hpc]; rfl) (by rw [hpc]; rfl) (by rw [hpc]; rfl) (by rw [hpc]; rfl)
  | wUnlock r =>
    have ho := owner_of h hpc rfl
    refine ⟨_, if_pos ho, plain_ok h (t := t) (p := .idle) (fun u => rfl) rfl rfl rfl
      (Or.inr (Or.inr ho)) (fun e => nomatch e) (by rw [hpc]; rfl) rfl (by rw [hpc]; rfl) trivial rfl
      (fun l hl => by rw [List.mem_singleton.mp hl]; rfl) ?_⟩
    rw [hpc, phase_one (t := t) (by rfl)]
    cases r <;> rfl
  | rLock =>
    cases ho : s.owner with
    | none =>
      exact ⟨_, rfl, plain_ok h (t := t) (p := .rPrev) (fun u => rfl) rfl rfl rfl
        (Or.inr (Or.inl ho)) (fun _ => rfl) (by rw [hpc]; rfl) rfl (by rw [hpc]; rfl) trivial rfl
        (fun l hl => nomatch hl) (by rw [hpc]; rfl)⟩
    | some o => exact ⟨_, rfl, .none⟩
  | rPrev =>
    have ho := owner_of h hpc rfl
    have hcn := count_of h ho (by rw [hpc]; rfl)
    exact ⟨_, rfl, plain_ok h (t := t) (p := .rLoad s.count) (fun u => rfl) rfl rfl rfl
        (Or.inl rfl) (fun _ => ho) (by rw [hpc]; rfl) rfl (by rw [hpc]; rfl) ⟨hcn, hcn⟩ rfl
        (fun l hl => nomatch hl) (by rw [hpc]; rfl)⟩
  | rLoad prev =>
    have ho := owner_of h hpc rfl
    have hv : Val s.count n (.rLoad prev) := hpc ▸ h.val t
    exact ⟨_, rfl, plain_ok h (t := t) (p := .rStore prev s.count) (fun u => rfl) rfl rfl rfl
        (Or.inl rfl) (fun _ => ho) (by rw [hpc]; rfl) rfl (by rw [hpc]; rfl) ⟨hv.1, hv.2, hv.2⟩ rfl
        (fun l hl => nomatch hl) (by rw [hpc]; rfl)⟩
  | rStore prev v =>
    have ho := owner_of h hpc rfl
    have hv : Val s.count n (.rStore prev v) := hpc ▸ h.val t
    obtain ⟨rfl, rfl, hc⟩ := hv
    exact ⟨_, rfl, StepOk.some (t := t) (p := .rClamp v) (n' := v)
      (h.upd (t := t) (p := .rClamp v) (fun u => rfl) rfl h.le (Or.inl rfl)
        (fun _ => ho) (queue_same h (t := t) (p := .rClamp v) (fun u => rfl) rfl
          (by rw [hpc]; rfl) rfl) h.nodup ⟨rfl, rfl⟩ (Or.inr (by rw [hpc]; rfl)) (Or.inl rfl))
      rfl rfl (fun u => rfl) (fun l hl => nomatch hl) (by rw [hpc]; rfl)⟩
  | rClamp prev =>
    have ho := owner_of h hpc rfl
    have hv : Val s.count n (.rClamp prev) := hpc ▸ h.val t
    obtain ⟨rfl, hc⟩ := hv
    have hmin : (if s.count > s.max then s.max else s.count)
        = min s.max ((prev + 1) % 4294967296) := by
      rw [← hc]; by_cases hgt : s.count > s.max
      · rw [if_pos hgt]; omega
      · rw [if_neg hgt]; omega
    refine ⟨_, rfl, StepOk.some (t := t) (p := .rSignal prev)
      (n' := if s.count > s.max then s.max else s.count)
      (h.upd (t := t) (p := .rSignal prev) (fun u => rfl) rfl (by rw [hmin]; omega) (Or.inl rfl)
        (fun _ => ho) (queue_same h (t := t) (p := .rSignal prev) (fun u => rfl) rfl
          (by rw [hpc]; rfl) rfl) h.nodup trivial (Or.inr (by rw [hpc]; rfl)) (Or.inr (Or.inl rfl)))
      ?_ rfl (fun u => rfl) (fun l hl => by rw [List.mem_singleton.mp hl]; rfl) ?_⟩
    · rw [atomic, if_pos rfl, hmin]; rfl
    · rw [hpc, phase_one (t := t) (by rfl)]; rfl
  | rSignal prev =>
    have ho := owner_of h hpc rfl
    cases hq : s.queue with
    | nil =>
      exact ⟨_, rfl, plain_ok h (t := t) (p := .rUnlock prev) (fun u => rfl) rfl rfl rfl
        (Or.inl rfl) (fun _ => ho) (by rw [hpc]; rfl) rfl (by rw [hpc]; rfl) trivial rfl
        (fun l hl => nomatch hl) (by rw [hpc]; rfl)⟩
    | cons q qs =>
      cases hpp : s.pc pick with
      | wBlocked wait =>
        have hne : t ≠ pick := by intro e; rw [e, hpp] at hpc; cases hpc
        have hi := wake_inv (zero := true) h hpp
        have hpc' : (({ s with queue := s.queue.erase pick } : S).goto pick
            (.wWoken wait true)).pc t = .rSignal prev := by
          rw [goto_pc, if_neg hne]; exact hpc
        have hi2 := plain_ok hi (t := t) (p := .rUnlock prev) (ls := [])
          (s' := ((({ s with queue := s.queue.erase pick } : S).goto pick
            (.wWoken wait true)).goto t (.rUnlock prev)))
          (fun u => rfl) rfl rfl rfl (Or.inl rfl) (fun _ => ho) (by rw [hpc']; rfl) rfl
          (by rw [hpc']; rfl) trivial rfl (fun l hl => nomatch hl) (by rw [hpc']; rfl)
        rw [hq] at hi2
        refine ⟨_, rfl, fun s' ls e => ?_⟩
        obtain ⟨n', h1, h2, h3, h4⟩ := hi2 s' ls e
        refine ⟨n', h1, h2, h3, fun u => ?_⟩
        rw [← h4 u, goto_pc]
        by_cases hu : u = pick
        · rw [if_pos hu, hu, hpp]; rfl
        · rw [if_neg hu]
      | _ => exact ⟨_, rfl, .none⟩
  | rUnlock prev =>
    have ho := owner_of h hpc rfl
    refine ⟨_, if_pos ho, plain_ok h (t := t) (p := .idle) (fun u => rfl) rfl rfl rfl
      (Or.inr (Or.inr ho)) (fun e => nomatch e) (by rw [hpc]; rfl) rfl (by rw [hpc]; rfl) trivial rfl
      (fun l hl => by rw [List.mem_singleton.mp hl]; rfl) ?_⟩
    rw [hpc, phase_one (t := t) (by rfl)]
    show (if prev = prev then some Phase.out else none) = some .out
    exact if_pos rfl

theorem fail_ok {s : S} {n t : Nat} (h : Inv s n) : StepOk s n (fail s t) := by
  unfold fail
  have go : ∀ l, who l = t → atomic s.max n [l] = some n → blocked (s.pc t) = false →
      clamping (s.pc t) = false → phase t (some (phOf (s.pc t))) [l] = some .out →
      StepOk s n (some (s.goto t .idle, [l])) := fun l h1 h2 h3 h4 h5 =>
    plain_ok h (t := t) (p := .idle) (fun u => rfl) rfl rfl rfl (Or.inl rfl)
      (fun e => nomatch e) h3 rfl h4 trivial h2
      (fun l hl => by rw [List.mem_singleton.mp hl]; exact h1) h5
  cases hpc : s.pc t with
  | wLock wait =>
    exact go _ rfl rfl (by rw [hpc]; rfl) (by rw [hpc]; rfl) (by rw [hpc, phase_one (t := t) (by rfl)]; rfl)
  | wTest wait =>
    show StepOk s n (if _ then _ else _)
    split
    · exact go _ rfl rfl (by rw [hpc]; rfl) (by rw [hpc]; rfl) (by rw [hpc, phase_one (t := t) (by rfl)]; rfl)
    · exact .none
  | rLock =>
    exact go _ rfl rfl (by rw [hpc]; rfl) (by rw [hpc]; rfl) (by rw [hpc, phase_one (t := t) (by rfl)]; rfl)
  | _ => exact .none

theorem step_ok {s : S} {n : Nat} {a : Act} (h : Inv s n) :
    ∃ r, step s a = .ok r ∧ StepOk s n r := by
  cases a with
  | callWait t wait =>
    refine ⟨_, rfl, ?_⟩
    by_cases hpc : s.pc t = .idle
    · rw [if_pos hpc]
      exact plain_ok h (t := t) (p := .wLock wait) (fun u => rfl) rfl rfl rfl (Or.inl rfl)
        (fun e => nomatch e) (by rw [hpc]; rfl) rfl (by rw [hpc]; rfl) trivial rfl
        (fun l hl => by rw [List.mem_singleton.mp hl]; rfl) (by rw [hpc, phase_one (t := t) (by rfl)]; rfl)
    · rw [if_neg hpc]; exact .none
  | callRelease t =>
    refine ⟨_, rfl, ?_⟩
    by_cases hpc : s.pc t = .idle
    · rw [if_pos hpc]
      exact plain_ok h (t := t) (p := .rLock) (fun u => rfl) rfl rfl rfl (Or.inl rfl)
        (fun e => nomatch e) (by rw [hpc]; rfl) rfl (by rw [hpc]; rfl) trivial rfl
        (fun l hl => by rw [List.mem_singleton.mp hl]; rfl) (by rw [hpc, phase_one (t := t) (by rfl)]; rfl)
    · rw [if_neg hpc]; exact .none
  | run t pick => exact run_ok h
  | fail t => exact ⟨_, rfl, fail_ok h⟩
  | wake t zero =>
    refine ⟨_, rfl, ?_⟩
    cases hpc : s.pc t with
    | wBlocked wait =>
      exact StepOk.some (t := t) (p := .wWoken wait zero) (wake_inv h hpc) rfl rfl (fun u => rfl)
        (fun l hl => nomatch hl) (by rw [hpc]; rfl)
    | _ => exact .none

theorem atomic_append {m n k : Nat} {as bs : List Label} (h : atomic m n as = some k) :
    atomic m n (as ++ bs) = atomic m k bs := by
  induction as generalizing n with
  | nil => cases h; rfl
  | cons l as ih =>
    cases l with
    | take t =>
      rw [List.cons_append, atomic]; rw [atomic] at h
      by_cases h0 : 0 < n
      · rw [if_pos h0] at h ⊢; exact ih h
      · rw [if_neg h0] at h; cases h
    | give t p =>
      rw [List.cons_append, atomic]; rw [atomic] at h
      by_cases h0 : p = n
      · rw [if_pos h0] at h ⊢; exact ih h
      · rw [if_neg h0] at h; cases h
    | _ => exact ih h

theorem phase_append (t : Nat) (p : Option Phase) (as bs : List Label) :
    phase t p (as ++ bs) = phase t (phase t p as) bs := by
  induction as generalizing p with
  | nil => rfl
  | cons l as ih => rw [List.cons_append, phase, ih]; rfl

theorem exec_ok {s : S} {n : Nat} (as : List Act) (h : Inv s n) :
    ∃ s' ls n', exec s as = .ok (s', ls) ∧ Inv s' n' ∧ atomic s.max n ls = some n' ∧
      s'.max = s.max ∧ ∀ t, phase t (some (phOf (s.pc t))) ls = some (phOf (s'.pc t)) := by
  induction as generalizing s n with
  | nil => exact ⟨s, [], n, rfl, h, rfl, rfl, fun _ => rfl⟩
  | cons a as ih =>
    obtain ⟨r, hr, hok⟩ := step_ok (a := a) h
    rw [exec, hr, ok_bind]
    cases r with
    | none => exact ih h
    | some x =>
      obtain ⟨s1, l1⟩ := x
      obtain ⟨n1, hi1, ha1, hm1, hp1⟩ := hok s1 l1 rfl
      obtain ⟨s2, l2, n2, he2, hi2, ha2, hm2, hp2⟩ := ih hi1
      refine ⟨s2, l1 ++ l2, n2, by simp only [he2, ok_bind], hi2, ?_, hm2.trans hm1, fun t => ?_⟩
      · rw [atomic_append ha1, ← hm1]; exact ha2
      · rw [phase_append, hp1, hp2]

theorem init_inv (start max : Nat) : Inv (init start max) (min start max) := by
  have hm : (if start > max then max else start) = min start max := by
    by_cases h : start > max
    · rw [if_pos h]; omega
    · rw [if_neg h]; omega
  refine ⟨?_, fun t h => (nomatch h), fun t => ⟨fun h => (nomatch h), fun h => (nomatch h)⟩,
    List.nodup_nil, fun t => trivial, Or.inr hm⟩
  show _ ≤ max
  omega

end Verif.Sem
