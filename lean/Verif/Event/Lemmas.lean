import Verif.Event.Spec

/-! # Invariants of the event -/

namespace Verif.Event

open Spec

/-- Positions at which the mutex is held. -/
def crit : Pc → Bool
  | .wTest _ | .wInc _ | .wEnter _ | .wRetest _ | .wDec _ | .wClear | .wUnlock _ => true
  | .fSet | .fSignal | .fUnlock | .tSet | .tUnlock => true
  | _ => false

def blocked : Pc → Bool
  | .wBlocked _ => true
  | _ => false

/-- What a position says about the signal. -/
def Val (manual sig : Bool) : Pc → Prop
  | .wDec true => sig = true
  | .wClear => sig = true ∧ manual = false
  | .tLock | .tSet => manual = true
  | _ => True

theorem Val.of_not_crit {m b b' : Bool} {p : Pc} (h : crit p = false) (hv : Val m b p) :
    Val m b' p := by
  cases p <;> first | exact hv | trivial | cases h

structure Inv (s : S) : Prop where
  crit : ∀ t, crit (s.pc t) = true → s.owner = some t
  queue : ∀ t, t ∈ s.queue ↔ blocked (s.pc t) = true
  nodup : s.queue.Nodup
  val : ∀ t, Val s.manual s.signaled (s.pc t)

/-- The phase belonging to a position. -/
def phOf : Pc → Phase
  | .idle => .out
  | .wUnlock true => .passed
  | .fLock | .fSet => .firing
  | .fSignal | .fUnlock => .fired
  | .tManual | .tLock | .tSet => .resetting
  | .tUnlock => .reset
  | _ => .waiting

theorem goto_pc (s : S) (t u : Nat) (p : Pc) :
    (s.goto t p).pc u = if u = t then p else s.pc u := rfl

/-- If `t` holds the mutex or nobody does, no other thread is in its critical section. -/
theorem Inv.others {s : S} {t u : Nat} (h : Inv s) (ho : s.owner = none ∨ s.owner = some t)
    (hu : u ≠ t) : Event.crit (s.pc u) = false := by
  cases hc : Event.crit (s.pc u)
  · rfl
  · have := h.crit u hc
    rcases ho with ho | ho
    · rw [this] at ho; cases ho
    · rw [this] at ho; exact absurd (Option.some.inj ho) hu

theorem Inv.upd {s s' : S} {t : Nat} {p : Pc} (h : Inv s)
    (hs : ∀ u, s'.pc u = if u = t then p else s.pc u)
    (hm : s'.manual = s.manual)
    (ho : s'.owner = s.owner ∨ s.owner = none ∨ s.owner = some t)
    (hp : Event.crit p = true → s'.owner = some t)
    (hq : ∀ u, u ∈ s'.queue ↔ blocked (s'.pc u) = true) (hd : s'.queue.Nodup)
    (hv : Val s.manual s'.signaled p)
    (hc : s'.signaled = s.signaled ∨ Event.crit (s.pc t) = true) : Inv s' := by
  refine ⟨fun u hu => ?_, hq, hd, fun u => ?_⟩
  · rw [hs] at hu
    by_cases hut : u = t
    · rw [if_pos hut] at hu; rw [hut]; exact hp hu
    · rw [if_neg hut] at hu
      rcases ho with ho | ho
      · rw [ho]; exact h.crit u hu
      · rw [h.others ho hut] at hu; cases hu
  · rw [hs, hm]
    by_cases hut : u = t
    · rw [if_pos hut]; exact hv
    · rw [if_neg hut]
      rcases hc with h1 | hc
      · rw [h1]; exact h.val u
      · exact Val.of_not_crit (h.others (Or.inr (h.crit t hc)) hut) (h.val u)

/-- A step that changes the queue not at all, `t` neither leaving nor joining it. -/
theorem queue_same {s s' : S} {t : Nat} {p : Pc} (h : Inv s)
    (hs : ∀ u, s'.pc u = if u = t then p else s.pc u) (hq : s'.queue = s.queue)
    (h1 : blocked (s.pc t) = false) (h2 : blocked p = false) :
    ∀ u, u ∈ s'.queue ↔ blocked (s'.pc u) = true := by
  intro u
  rw [hq, h.queue u, hs]
  by_cases hut : u = t
  · rw [if_pos hut, hut, h1, h2]
  · rw [if_neg hut]

/-- What a step does to the abstract event, the phases and the invariant. -/
def StepOk (s : S) (r : Option (S × List Label)) : Prop :=
  ∀ s' ls, r = some (s', ls) → Inv s' ∧ atomic s.manual s.signaled ls = some s'.signaled ∧
    s'.manual = s.manual ∧ ∀ t, phase t (some (phOf (s.pc t))) ls = some (phOf (s'.pc t))

theorem StepOk.none {s : S} : StepOk s none := fun _ _ h => nomatch h

theorem phase_one {t : Nat} {p : Option Phase} {l : Label} (h : who l = t) :
    phase t p [l] = p.bind (move · l) := by
  rw [phase, if_pos h]; rfl

theorem StepOk.some {s s' : S} {t : Nat} {p : Pc} {ls : List Label} (hi : Inv s')
    (ha : atomic s.manual s.signaled ls = some s'.signaled) (hm : s'.manual = s.manual)
    (hs : ∀ u, s'.pc u = if u = t then p else s.pc u)
    (hw : ∀ l ∈ ls, who l = t)
    (hp : phase t (some (phOf (s.pc t))) ls = some (phOf p)) : StepOk s (some (s', ls)) := by
  intro s'' ls' e
  cases e
  refine ⟨hi, ha, hm, fun u => ?_⟩
  rw [hs]
  by_cases hut : u = t
  · rw [if_pos hut, hut]; exact hp
  · rw [if_neg hut]
    clear hp ha
    induction ls with
    | nil => rfl
    | cons l ls ih =>
      rw [phase, if_neg]
      · exact ih fun l hl => hw l (List.mem_cons_of_mem _ hl)
      · rw [hw l (List.mem_cons_self ..)]; exact fun e => hut e.symm

theorem owner_of {s : S} {t : Nat} (h : Inv s) {p : Pc} (hpc : s.pc t = p)
    (hc : crit p = true) : s.owner = some t := h.crit t (hpc ▸ hc)

theorem block_ok {s : S} {t wait : Nat} (h : Inv s) (hc : crit (s.pc t) = true)
    (hb : blocked (s.pc t) = false) (hph : phOf (s.pc t) = .waiting) :
    ∃ r, block s t wait = .ok r ∧ StepOk s r := by
  have ho := h.crit t hc
  refine ⟨_, by rw [block, if_pos ho], ?_⟩
  refine StepOk.some (t := t) (p := .wBlocked wait)
    (h.upd (t := t) (p := .wBlocked wait) (fun u => rfl) rfl (Or.inr (Or.inr ho))
      (fun e => nomatch e) ?_ ?_ trivial (Or.inl rfl))
    rfl rfl (fun u => rfl) (fun l hl => nomatch hl) (by rw [hph]; rfl)
  · intro u
    rw [goto_pc]
    by_cases hut : u = t
    · rw [if_pos hut, hut]
      exact ⟨fun _ => rfl, fun _ => List.mem_cons_self ..⟩
    · rw [if_neg hut, ← h.queue u]
      show u ∈ t :: s.queue ↔ _
      rw [List.mem_cons]
      exact ⟨fun e => e.resolve_left hut, Or.inr⟩
  · show (t :: s.queue).Nodup
    refine List.nodup_cons.mpr ⟨fun hm => ?_, h.nodup⟩
    rw [(h.queue t), hb] at hm
    cases hm

/-- A thread leaves the condition variable. -/
theorem wake_inv {s : S} {t wait : Nat} {zero : Bool} (h : Inv s)
    (hpc : s.pc t = .wBlocked wait) :
    Inv (({ s with queue := s.queue.erase t } : S).goto t (.wWoken wait zero)) := by
  refine h.upd (t := t) (p := .wWoken wait zero) (fun u => rfl) rfl (Or.inl rfl)
    (fun e => nomatch e) ?_ (h.nodup.erase t) trivial (Or.inl rfl)
  intro u
  show u ∈ s.queue.erase t ↔ _
  rw [h.nodup.mem_erase_iff, goto_pc]
  by_cases hut : u = t
  · rw [if_pos hut]
    exact ⟨fun e => absurd hut e.1, fun e => nomatch e⟩
  · rw [if_neg hut, h.queue u]
    exact ⟨And.right, fun e => ⟨hut, e⟩⟩

theorem wakeAll_pc (s : S) (u : Nat) :
    (blocked (s.pc u) = false ∧ (wakeAll s).pc u = s.pc u) ∨
    ∃ w, s.pc u = .wBlocked w ∧ (wakeAll s).pc u = .wWoken w true := by
  show _ ∨ ∃ w, _ ∧ (match s.pc u with | .wBlocked wait => Pc.wWoken wait true | p => p) = _
  show (_ ∧ (match s.pc u with | .wBlocked wait => Pc.wWoken wait true | p => p) = _) ∨ _
  cases hpc : s.pc u with
  | wBlocked w => exact Or.inr ⟨w, rfl, rfl⟩
  | _ => exact Or.inl ⟨rfl, rfl⟩

theorem wakeAll_inv {s : S} (h : Inv s) : Inv (wakeAll s) := by
  refine ⟨fun t ht => ?_, fun t => ?_, List.nodup_nil, fun t => ?_⟩
  · rcases wakeAll_pc s t with ⟨_, e⟩ | ⟨w, _, e⟩ <;> rw [e] at ht
    · exact h.crit t ht
    · cases ht
  · refine ⟨fun e => (nomatch e), fun e => ?_⟩
    rcases wakeAll_pc s t with ⟨hb, e'⟩ | ⟨w, _, e'⟩ <;> rw [e'] at e
    · rw [hb] at e; cases e
    · cases e
  · rcases wakeAll_pc s t with ⟨_, e⟩ | ⟨w, _, e⟩ <;> rw [e]
    · exact h.val t
    · trivial

/-- A step that changes only the position, the mutex, the number of waiters and the signal. -/
theorem plain_ok {s s' : S} {t : Nat} {p : Pc} {ls : List Label} (h : Inv s)
    (hs : ∀ u, s'.pc u = if u = t then p else s.pc u) (hm : s'.manual = s.manual)
    (hq : s'.queue = s.queue)
    (ho : s'.owner = s.owner ∨ s.owner = none ∨ s.owner = some t)
    (hp : crit p = true → s'.owner = some t)
    (hb1 : blocked (s.pc t) = false) (hb2 : blocked p = false)
    (hv : Val s.manual s'.signaled p)
    (hc : s'.signaled = s.signaled ∨ Event.crit (s.pc t) = true)
    (ha : atomic s.manual s.signaled ls = some s'.signaled) (hw : ∀ l ∈ ls, who l = t)
    (hph : phase t (some (phOf (s.pc t))) ls = some (phOf p)) : StepOk s (some (s', ls)) :=
  StepOk.some (t := t) (p := p)
    (h.upd (t := t) (p := p) hs hm ho hp (queue_same h hs hq hb1 hb2) (hq ▸ h.nodup) hv hc)
    ha hm hs hw hph

theorem lock_ok {s : S} {t : Nat} {p : Pc} (h : Inv s) (hb1 : blocked (s.pc t) = false)
    (hb2 : blocked p = false) (hv : Val s.manual s.signaled p)
    (hph : phOf (s.pc t) = phOf p) : ∃ r, lock s t p = .ok r ∧ StepOk s r := by
  unfold lock
  cases ho : s.owner with
  | none =>
    exact ⟨_, rfl, plain_ok h (t := t) (p := p) (fun u => rfl) rfl rfl (Or.inr (Or.inl ho))
      (fun _ => rfl) hb1 hb2 hv (Or.inl rfl) rfl (fun l hl => nomatch hl) (by rw [hph]; rfl)⟩
  | some o => exact ⟨_, rfl, .none⟩

theorem unlock_ok {s : S} {t : Nat} {l : Label} (h : Inv s) (hc : crit (s.pc t) = true)
    (hb : blocked (s.pc t) = false) (hl : who l = t) (ha : atomic s.manual s.signaled [l] = some s.signaled)
    (hph : move (phOf (s.pc t)) l = some .out) : ∃ r, unlock s t l = .ok r ∧ StepOk s r := by
  have ho := h.crit t hc
  refine ⟨_, if_pos ho, plain_ok h (t := t) (p := .idle) (fun u => rfl) rfl rfl
    (Or.inr (Or.inr ho)) (fun e => nomatch e) hb rfl trivial (Or.inl rfl) ha
    (fun k hk => by rw [List.mem_singleton.mp hk]; exact hl) ?_⟩
  rw [phase_one hl]
  exact hph

/-- A step that only moves the thread. -/
theorem move_ok {s : S} {t : Nat} {p : Pc} {ls : List Label} (h : Inv s)
    (hp : crit p = true → s.owner = some t)
    (hb1 : blocked (s.pc t) = false) (hb2 : blocked p = false)
    (hv : Val s.manual s.signaled p)
    (ha : atomic s.manual s.signaled ls = some s.signaled) (hw : ∀ l ∈ ls, who l = t)
    (hph : phase t (some (phOf (s.pc t))) ls = some (phOf p)) :
    StepOk s (some (s.goto t p, ls)) :=
  plain_ok h (t := t) (p := p) (fun u => rfl) rfl rfl (Or.inl rfl) hp hb1 hb2 hv (Or.inl rfl) ha hw hph

theorem atomic_pass {m : Bool} (t : Nat) : atomic m true [.pass t] = some m := by
  cases m <;> rfl

theorem run_ok {s : S} {t pick : Nat} (h : Inv s) :
    ∃ r, run s t pick = .ok r ∧ StepOk s r := by
  unfold run
  cases hpc : s.pc t with
  | idle => exact ⟨_, rfl, .none⟩
  | wLock wait =>
    dsimp only
    split
    · exact ⟨_, rfl, move_ok h (fun e => nomatch e) (by rw [hpc]; rfl) rfl trivial rfl
        (fun k hk => by rw [List.mem_singleton.mp hk]; rfl)
        (by rw [hpc, phase_one (t := t) (by rfl)]; rfl)⟩
    · exact lock_ok h (by rw [hpc]; rfl) rfl trivial (by rw [hpc]; rfl)
  | wTest wait =>
    have ho := owner_of h hpc rfl
    dsimp only
    split
    · rename_i hc
      split
      · rename_i hm
        refine ⟨_, rfl, move_ok h (fun _ => ho) (by rw [hpc]; rfl) rfl trivial ?_
          (fun k hk => by rw [List.mem_singleton.mp hk]; rfl)
          (by rw [hpc, phase_one (t := t) (by rfl)]; rfl)⟩
        rw [hc.1, hm]; exact atomic_pass t
      · rename_i hm
        exact ⟨_, rfl, move_ok h (fun _ => ho) (by rw [hpc]; rfl) rfl
          ⟨hc.1, by cases hs : s.manual <;> simp_all⟩ rfl (fun k hk => nomatch hk)
          (by rw [hpc]; rfl)⟩
    · split
      · exact ⟨_, rfl, move_ok h (fun _ => ho) (by rw [hpc]; rfl) rfl trivial rfl
          (fun k hk => nomatch hk) (by rw [hpc]; rfl)⟩
      · exact ⟨_, rfl, move_ok h (fun _ => ho) (by rw [hpc]; rfl) rfl trivial rfl
          (fun k hk => nomatch hk) (by rw [hpc]; rfl)⟩
  | wInc wait =>
    have ho := owner_of h hpc rfl
    exact ⟨_, rfl, plain_ok h (t := t) (p := .wEnter wait) (fun u => rfl) rfl rfl (Or.inl rfl)
      (fun _ => ho) (by rw [hpc]; rfl) rfl trivial (Or.inl rfl) rfl (fun k hk => nomatch hk)
      (by rw [hpc]; rfl)⟩
  | wEnter wait => exact block_ok h (by rw [hpc]; rfl) (by rw [hpc]; rfl) (by rw [hpc]; rfl)
  | wBlocked wait => exact ⟨_, rfl, .none⟩
  | wWoken wait zero =>
    cases zero
    · exact lock_ok h (by rw [hpc]; rfl) rfl trivial (by rw [hpc]; rfl)
    · exact lock_ok h (by rw [hpc]; rfl) rfl trivial (by rw [hpc]; rfl)
  | wRetest wait =>
    have ho := owner_of h hpc rfl
    dsimp only
    split
    · rename_i hs
      exact ⟨_, rfl, move_ok h (fun _ => ho) (by rw [hpc]; rfl) rfl hs rfl
        (fun k hk => nomatch hk) (by rw [hpc]; rfl)⟩
    · exact block_ok h (by rw [hpc]; rfl) (by rw [hpc]; rfl) (by rw [hpc]; rfl)
  | wDec zero =>
    have ho := owner_of h hpc rfl
    dsimp only
    generalize dec32 s.waiting = w
    cases zero
    · exact ⟨_, rfl, plain_ok h (t := t) (p := .wUnlock false) (fun u => rfl) rfl rfl (Or.inl rfl)
        (fun _ => ho) (by rw [hpc]; rfl) rfl trivial (Or.inl rfl) rfl (fun k hk => nomatch hk)
        (by rw [hpc]; rfl)⟩
    · have hv : Val s.manual s.signaled (.wDec true) := hpc ▸ h.val t
      have hv : s.signaled = true := hv
      rw [if_pos rfl]
      split
      · rename_i hm
        refine ⟨_, rfl, plain_ok h (t := t) (p := .wUnlock true) (fun u => rfl) rfl rfl (Or.inl rfl)
          (fun _ => ho) (by rw [hpc]; rfl) rfl trivial (Or.inl rfl) ?_
          (fun k hk => by rw [List.mem_singleton.mp hk]; rfl)
          (by rw [hpc, phase_one (t := t) (by rfl)]; rfl)⟩
        show atomic s.manual s.signaled [.pass t] = some s.signaled
        rw [hv, show s.manual = true from hm]; exact atomic_pass t
      · rename_i hm
        exact ⟨_, rfl, plain_ok h (t := t) (p := .wClear) (fun u => rfl) rfl rfl (Or.inl rfl)
          (fun _ => ho) (by rw [hpc]; rfl) rfl ⟨hv, by cases hs : s.manual <;> simp_all⟩ (Or.inl rfl)
          rfl (fun k hk => nomatch hk) (by rw [hpc]; rfl)⟩
  | wClear =>
    have ho := owner_of h hpc rfl
    have hv : Val s.manual s.signaled .wClear := hpc ▸ h.val t
    refine ⟨_, rfl, plain_ok h (t := t) (p := .wUnlock true) (fun u => rfl) rfl rfl (Or.inl rfl)
      (fun _ => ho) (by rw [hpc]; rfl) rfl trivial (Or.inr (by rw [hpc]; rfl)) ?_
      (fun k hk => by rw [List.mem_singleton.mp hk]; rfl)
      (by rw [hpc, phase_one (t := t) (by rfl)]; rfl)⟩
    show atomic s.manual s.signaled [.pass t] = some false
    rw [hv.1, hv.2]; rfl
  | wUnlock r =>
    refine unlock_ok h (by rw [hpc]; rfl) (by rw [hpc]; rfl) rfl rfl ?_
    rw [hpc]; cases r <;> rfl
  | fLock => exact lock_ok h (by rw [hpc]; rfl) rfl trivial (by rw [hpc]; rfl)
  | fSet =>
    have ho := owner_of h hpc rfl
    exact ⟨_, rfl, plain_ok h (t := t) (p := .fSignal) (fun u => rfl) rfl rfl (Or.inl rfl)
      (fun _ => ho) (by rw [hpc]; rfl) rfl trivial (Or.inr (by rw [hpc]; rfl)) rfl
      (fun k hk => by rw [List.mem_singleton.mp hk]; rfl)
      (by rw [hpc, phase_one (t := t) (by rfl)]; rfl)⟩
  | fSignal =>
    have ho := owner_of h hpc rfl
    dsimp only
    split
    · refine ⟨_, rfl, fun s' ls e => ?_⟩
      cases e
      have hpc' : (wakeAll s).pc t = .fSignal := by
        rcases wakeAll_pc s t with ⟨_, e⟩ | ⟨w, e, _⟩
        · rw [e, hpc]
        · rw [hpc] at e; cases e
      obtain ⟨h1, h2, h3, h4⟩ := move_ok (t := t) (p := .fUnlock) (ls := []) (wakeAll_inv h)
        (fun _ => ho) (by rw [hpc']; rfl) rfl trivial rfl (fun k hk => nomatch hk)
        (by rw [hpc']; rfl) _ _ rfl
      refine ⟨h1, rfl, rfl, fun u => ?_⟩
      rw [← h4 u]
      rcases wakeAll_pc s u with ⟨_, e⟩ | ⟨w, e1, e2⟩
      · rw [e]
      · rw [e1, e2]; rfl
    · cases hq : s.queue with
      | nil =>
        exact ⟨_, rfl, move_ok h (fun _ => ho) (by rw [hpc]; rfl) rfl trivial rfl
          (fun k hk => nomatch hk) (by rw [hpc]; rfl)⟩
      | cons q qs =>
        cases hpp : s.pc pick with
        | wBlocked wait =>
          have hne : t ≠ pick := by intro e; rw [e, hpp] at hpc; cases hpc
          have hi := wake_inv (zero := true) h hpp
          have hpc' : (({ s with queue := s.queue.erase pick } : S).goto pick
              (.wWoken wait true)).pc t = .fSignal := by
            rw [goto_pc, if_neg hne]; exact hpc
          refine ⟨_, rfl, fun s' ls e => ?_⟩
          cases e
          have hi2 := move_ok (t := t) (p := .fUnlock) (ls := []) hi (fun _ => ho)
            (by rw [hpc']; rfl) rfl trivial rfl (fun l hl => nomatch hl) (by rw [hpc']; rfl)
          obtain ⟨h1, h2, h3, h4⟩ := hi2 _ _ rfl
          rw [hq] at h1 h4
          refine ⟨h1, rfl, rfl, fun u => ?_⟩
          rw [← h4 u, goto_pc]
          by_cases hu : u = pick
          · rw [if_pos hu, hu, hpp]; rfl
          · rw [if_neg hu]
        | _ => exact ⟨_, rfl, .none⟩
  | fUnlock => exact unlock_ok h (by rw [hpc]; rfl) (by rw [hpc]; rfl) rfl rfl (by rw [hpc]; rfl)
  | tManual =>
    dsimp only
    split
    · rename_i hm
      exact ⟨_, rfl, move_ok h (fun e => nomatch e) (by rw [hpc]; rfl) rfl hm rfl
        (fun k hk => nomatch hk) (by rw [hpc]; rfl)⟩
    · exact ⟨_, rfl, move_ok h (fun e => nomatch e) (by rw [hpc]; rfl) rfl trivial rfl
        (fun k hk => by rw [List.mem_singleton.mp hk]; rfl)
        (by rw [hpc, phase_one (t := t) (by rfl)]; rfl)⟩
  | tLock =>
    have hv : Val s.manual s.signaled .tLock := hpc ▸ h.val t
    exact lock_ok h (by rw [hpc]; rfl) rfl hv (by rw [hpc]; rfl)
  | tSet =>
    have ho := owner_of h hpc rfl
    have hv : Val s.manual s.signaled .tSet := hpc ▸ h.val t
    refine ⟨_, rfl, plain_ok h (t := t) (p := .tUnlock) (fun u => rfl) rfl rfl (Or.inl rfl)
      (fun _ => ho) (by rw [hpc]; rfl) rfl trivial (Or.inr (by rw [hpc]; rfl)) ?_
      (fun k hk => by rw [List.mem_singleton.mp hk]; rfl)
      (by rw [hpc, phase_one (t := t) (by rfl)]; rfl)⟩
    rw [show s.manual = true from hv]; rfl
  | tUnlock => exact unlock_ok h (by rw [hpc]; rfl) (by rw [hpc]; rfl) rfl rfl (by rw [hpc]; rfl)

theorem fail_ok {s : S} {t : Nat} (h : Inv s) : StepOk s (fail s t) := by
  unfold fail
  cases hpc : s.pc t with
  | wLock wait =>
    exact move_ok h (fun e => nomatch e) (by rw [hpc]; rfl) rfl trivial rfl
        (fun k hk => by rw [List.mem_singleton.mp hk]; rfl)
        (by rw [hpc, phase_one (t := t) (by rfl)]; rfl)
  | wInc wait =>
    dsimp only
    split
    · exact move_ok h (fun _ => owner_of h hpc rfl) (by rw [hpc]; rfl) rfl trivial rfl
        (fun k hk => nomatch hk) (by rw [hpc]; rfl)
    · exact .none
  | fLock =>
    exact move_ok h (fun e => nomatch e) (by rw [hpc]; rfl) rfl trivial rfl
        (fun k hk => by rw [List.mem_singleton.mp hk]; rfl)
        (by rw [hpc, phase_one (t := t) (by rfl)]; rfl)
  | tLock =>
    exact move_ok h (fun e => nomatch e) (by rw [hpc]; rfl) rfl trivial rfl
        (fun k hk => by rw [List.mem_singleton.mp hk]; rfl)
        (by rw [hpc, phase_one (t := t) (by rfl)]; rfl)
  | _ => exact .none

theorem call_ok {s : S} {t : Nat} {p : Pc} {l : Label} (h : Inv s) (hc : crit p = false)
    (hb : blocked p = false) (hv : Val s.manual s.signaled p) (hl : who l = t)
    (ha : atomic s.manual s.signaled [l] = some s.signaled)
    (hm : move .out l = some (phOf p)) :
    StepOk s (if s.pc t = .idle then some (s.goto t p, [l]) else none) := by
  by_cases hpc : s.pc t = .idle
  · rw [if_pos hpc]
    exact move_ok h (fun e => by rw [hc] at e; cases e) (by rw [hpc]; rfl) hb hv ha
      (fun k hk => by rw [List.mem_singleton.mp hk]; exact hl)
      (by rw [hpc, phase_one hl]; exact hm)
  · rw [if_neg hpc]; exact .none

theorem step_ok {s : S} {a : Act} (h : Inv s) : ∃ r, step s a = .ok r ∧ StepOk s r := by
  cases a with
  | callWait t wait => exact ⟨_, rfl, call_ok h rfl rfl trivial rfl rfl rfl⟩
  | callFire t => exact ⟨_, rfl, call_ok h rfl rfl trivial rfl rfl rfl⟩
  | callReset t => exact ⟨_, rfl, call_ok h rfl rfl trivial rfl rfl rfl⟩
  | run t pick => exact run_ok h
  | fail t => exact ⟨_, rfl, fail_ok h⟩
  | wake t zero =>
    refine ⟨_, rfl, ?_⟩
    cases hpc : s.pc t with
    | wBlocked wait =>
      exact StepOk.some (t := t) (p := .wWoken wait zero) (wake_inv h hpc) rfl rfl (fun u => rfl)
        (fun l hl => nomatch hl) (by rw [hpc]; rfl)
    | _ => exact .none

theorem atomic_append {m b c : Bool} {as bs : List Label} (h : atomic m b as = some c) :
    atomic m b (as ++ bs) = atomic m c bs := by
  induction as generalizing b with
  | nil => cases h; rfl
  | cons l as ih =>
    cases l with
    | pass t =>
      rw [List.cons_append, atomic]; rw [atomic] at h
      cases b
      · cases h
      · exact ih h
    | reset t =>
      rw [List.cons_append, atomic]; rw [atomic] at h
      cases m
      · cases h
      · exact ih h
    | fire t => exact ih h
    | _ => exact ih h

theorem phase_append (t : Nat) (p : Option Phase) (as bs : List Label) :
    phase t p (as ++ bs) = phase t (phase t p as) bs := by
  induction as generalizing p with
  | nil => rfl
  | cons l as ih => rw [List.cons_append, phase, ih]; rfl

theorem exec_ok {s : S} (as : List Act) (h : Inv s) :
    ∃ s' ls, exec s as = .ok (s', ls) ∧ Inv s' ∧
      atomic s.manual s.signaled ls = some s'.signaled ∧
      s'.manual = s.manual ∧ ∀ t, phase t (some (phOf (s.pc t))) ls = some (phOf (s'.pc t)) := by
  induction as generalizing s with
  | nil => exact ⟨s, [], rfl, h, rfl, rfl, fun _ => rfl⟩
  | cons a as ih =>
    obtain ⟨r, hr, hok⟩ := step_ok (a := a) h
    rw [exec, hr, ok_bind]
    cases r with
    | none => exact ih h
    | some x =>
      obtain ⟨s1, l1⟩ := x
      obtain ⟨hi1, ha1, hm1, hp1⟩ := hok s1 l1 rfl
      obtain ⟨s2, l2, he2, hi2, ha2, hm2, hp2⟩ := ih hi1
      refine ⟨s2, l1 ++ l2, by simp only [he2, ok_bind], hi2, ?_, hm2.trans hm1, fun t => ?_⟩
      · rw [atomic_append ha1, ← hm1]; exact ha2
      · rw [phase_append, hp1, hp2]

theorem init_inv (manual signaled : Bool) : Inv (init manual signaled) :=
  ⟨fun t h => (nomatch h), fun t => ⟨fun h => (nomatch h), fun h => (nomatch h)⟩,
    List.nodup_nil, fun t => trivial⟩

end Verif.Event
