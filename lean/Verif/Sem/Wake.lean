import Verif.Sem.Lemmas
import Verif.Counts

/-! # No wake-up of the semaphore is lost -/

namespace Verif.Sem

open Spec

/-- Positions of threads that will look at the counter (again) before they may block. -/
def awake : Pc → Bool
  | .wWoken _ true | .wRetest _ | .wDec _ => true
  | _ => false

def signalling : Pc → Bool
  | .rSignal _ => true
  | _ => false

/-- If somebody is blocked, there are as many threads on their way to the counter as units (a thread
about to signal makes up for one). -/
def W (s : S) (n : Nat) : Prop :=
  s.queue = [] ∨ ∃ L : List Nat, L.Nodup ∧ (∀ t ∈ L, awake (s.pc t) = true) ∧
    (n ≤ L.length ∨ (n ≤ L.length + 1 ∧ ∃ t, signalling (s.pc t) = true))

theorem W.same {s s' : S} {n t : Nat} {p : Pc} (h : W s n)
    (hs : ∀ u, s'.pc u = if u = t then p else s.pc u) (hq : s.queue = [] → s'.queue = [])
    (h1 : awake (s.pc t) = true → awake p = true)
    (h2 : signalling (s.pc t) = true → signalling p = true) : W s' n := by
  rcases h with h | ⟨L, hd, hL, h⟩
  · exact Or.inl (hq h)
  · refine Or.inr ⟨L, hd, fun u hu => ?_, ?_⟩
    · rw [hs]
      by_cases hut : u = t
      · rw [if_pos hut]; exact h1 (hut ▸ hL u hu)
      · rw [if_neg hut]; exact hL u hu
    · rcases h with h | ⟨h, u, hu⟩
      · exact Or.inl h
      · refine Or.inr ⟨h, u, ?_⟩
        rw [hs]
        by_cases hut : u = t
        · rw [if_pos hut]; exact h2 (hut ▸ hu)
        · rw [if_neg hut]; exact hu

theorem W.zero {s : S} : W s 0 := Or.inr ⟨[], List.nodup_nil, fun _ h => (nomatch h), Or.inl (Nat.zero_le _)⟩

/-- Preservation, for what a step returned. -/
def WOk (s : S) (n : Nat) (r : CRes (Option (S × List Label))) : Prop :=
  ∀ s' ls n', r = .ok (some (s', ls)) → atomic s.max n ls = some n' → W s' n'

theorem WOk.none {s : S} {n : Nat} : WOk s n (.ok none) := fun _ _ _ h => nomatch h

theorem WOk.same {s s' : S} {n t : Nat} {p : Pc} {ls : List Label} (h : W s n)
    (hs : ∀ u, s'.pc u = if u = t then p else s.pc u) (hq : s'.queue = s.queue)
    (h1 : awake (s.pc t) = true → awake p = true)
    (h2 : signalling (s.pc t) = true → signalling p = true)
    (ha : atomic s.max n ls = some n) : WOk s n (.ok (some (s', ls))) := by
  intro s'' ls' n' e ha'
  cases e
  rw [ha] at ha'
  cases ha'
  exact h.same hs (fun e => hq.trans e) h1 h2

theorem block_w {s : S} {t wait : Nat} : WOk s 0 (block s t wait) := by
  intro s' ls n' e ha
  rw [block] at e
  split at e
  · cases e; cases ha; exact .zero
  · cases e

theorem signaller {s : S} {n t u : Nat} (h : Inv s n) (hc : crit (s.pc t) = true)
    (hu : signalling (s.pc u) = true) : u = t := by
  have hcu : crit (s.pc u) = true := by
    revert hu; cases s.pc u <;> intro hu <;> first | rfl | cases hu
  have := h.crit u hcu
  rw [h.crit t hc] at this
  exact (Option.some.inj this).symm

theorem run_w {s : S} {n t pick : Nat} (h : Inv s n) (hw : W s n) : WOk s n (run s t pick) := by
  unfold run
  have triv : ∀ {p : Pc}, s.pc t = p → awake p = false → ∀ {q : Pc}, awake (s.pc t) = true →
      awake q = true := by
    intro p hp h1 q h2; rw [hp, h1] at h2; cases h2
  have triv' : ∀ {p : Pc}, s.pc t = p → signalling p = false → ∀ {q : Pc},
      signalling (s.pc t) = true → signalling q = true := by
    intro p hp h1 q h2; rw [hp, h1] at h2; cases h2
  cases hpc : s.pc t with
  | idle => exact .none
  | wLock wait =>
    cases ho : s.owner with
    | none =>
      exact WOk.same hw (t := t) (p := .wTest wait) (fun u => rfl) rfl (triv hpc rfl)
        (triv' hpc rfl) rfl
    | some o =>
      dsimp only
      split
      · exact WOk.same hw (t := t) (p := .idle) (fun u => rfl) rfl (triv hpc rfl)
          (triv' hpc rfl) rfl
      · exact .none
  | wTest wait =>
    have ho := owner_of h hpc rfl
    have hcn := count_of h ho (by rw [hpc]; rfl)
    dsimp only
    by_cases hc : s.count ≠ 0
    · rw [if_pos hc]
      exact WOk.same hw (t := t) (p := .wDec s.count) (fun u => rfl) rfl (triv hpc rfl)
        (triv' hpc rfl) rfl
    · rw [if_neg hc]
      split
      · exact WOk.same hw (t := t) (p := .wUnlock false) (fun u => rfl) rfl (triv hpc rfl)
          (triv' hpc rfl) rfl
      · have : n = 0 := by omega
        subst this
        exact block_w
  | wDec v =>
    intro s' ls n' e ha
    cases e
    rw [atomic] at ha
    split at ha
    · cases ha
      rcases hw with hw | ⟨L, hd, hL, hw⟩
      · exact Or.inl hw
      · refine Or.inr ⟨L.erase t, hd.erase t, fun u hu => ?_, ?_⟩
        · have hm := hd.mem_erase_iff.mp hu
          rw [goto_pc, if_neg hm.1]
          exact hL u hm.2
        · have hlen : L.length ≤ (L.erase t).length + 1 := by
            by_cases hm : t ∈ L
            · rw [List.length_erase_of_mem hm]; omega
            · rw [List.erase_of_not_mem hm]; omega
          rcases hw with hw | ⟨hw, u, hu⟩
          · exact Or.inl (by omega)
          · exfalso
            have := signaller h (by rw [hpc]; rfl) hu
            rw [this, hpc] at hu; cases hu
    · cases ha
  | wBlocked wait => exact .none
  | wWoken wait zero =>
    cases ho : s.owner with
    | none =>
      refine WOk.same hw (t := t) (p := if zero then .wRetest wait else .wUnlock false)
        (fun u => rfl) rfl ?_ (triv' hpc rfl) rfl
      rw [hpc]; cases zero
      · exact fun e => nomatch e
      · exact fun _ => rfl
    | some o => exact .none
  | wRetest wait =>
    have ho := owner_of h hpc rfl
    have hcn := count_of h ho (by rw [hpc]; rfl)
    dsimp only
    by_cases hc : s.count ≠ 0
    · rw [if_pos hc]
      exact WOk.same hw (t := t) (p := .wDec s.count) (fun u => rfl) rfl (fun _ => rfl)
        (triv' hpc rfl) rfl
    · rw [if_neg hc]
      have : n = 0 := by omega
      subst this
      exact block_w
  | wUnlock r =>
    dsimp only
    rw [if_pos (owner_of h hpc rfl)]
    exact WOk.same hw (t := t) (p := .idle) (fun u => rfl) rfl (triv hpc rfl) (triv' hpc rfl) rfl
  | rLock =>
    cases ho : s.owner with
    | none =>
      exact WOk.same hw (t := t) (p := .rPrev) (fun u => rfl) rfl (triv hpc rfl) (triv' hpc rfl) rfl
    | some o => exact .none
  | rPrev =>
    exact WOk.same hw (t := t) (p := .rLoad s.count) (fun u => rfl) rfl (triv hpc rfl)
      (triv' hpc rfl) rfl
  | rLoad prev =>
    exact WOk.same hw (t := t) (p := .rStore prev s.count) (fun u => rfl) rfl (triv hpc rfl)
      (triv' hpc rfl) rfl
  | rStore prev v =>
    exact WOk.same hw (t := t) (p := .rClamp prev) (fun u => rfl) rfl (triv hpc rfl)
      (triv' hpc rfl) rfl
  | rClamp prev =>
    intro s' ls n' e ha
    cases e
    rw [atomic] at ha
    split at ha
    · cases ha
      rcases hw with hw | ⟨L, hd, hL, hw⟩
      · exact Or.inl hw
      · refine Or.inr ⟨L, hd, fun u hu => ?_, Or.inr ⟨?_, t, by rw [goto_pc, if_pos rfl]; rfl⟩⟩
        · rw [goto_pc]
          split
          · rename_i e
            have := hL u hu
            rw [e, hpc] at this; cases this
          · exact hL u hu
        · rcases hw with hw | ⟨hw, u, hu⟩
          · have := Nat.mod_le (n + 1) 4294967296
            omega
          · exfalso
            have := signaller h (by rw [hpc]; rfl) hu
            rw [this, hpc] at hu; cases hu
    · cases ha
  | rSignal prev =>
    cases hq : s.queue with
    | nil =>
      intro s' ls n' e ha
      cases e
      exact Or.inl hq
    | cons q qs =>
      cases hpp : s.pc pick with
      | wBlocked wait =>
        intro s' ls n' e ha
        cases e
        cases ha
        have hne : pick ≠ t := by intro e; rw [e, hpc] at hpp; cases hpp
        rcases hw with hw | ⟨L, hd, hL, hw⟩
        · rw [hq] at hw; cases hw
        · refine Or.inr ⟨pick :: L, List.nodup_cons.mpr ⟨fun hm => ?_, hd⟩, fun u hu => ?_,
            Or.inl ?_⟩
          · have := hL _ hm; rw [hpp] at this; cases this
          · rw [goto_pc]
            have hut : u ≠ t := by
              intro e
              rcases List.mem_cons.mp hu with hu | hu
              · exact hne (hu ▸ e)
              · have := hL _ hu; rw [e, hpc] at this; cases this
            rw [if_neg hut, goto_pc]
            split
            · rfl
            · rename_i hup
              exact hL u ((List.mem_cons.mp hu).resolve_left hup)
          · rw [List.length_cons]
            rcases hw with hw | ⟨hw, _⟩ <;> omega
      | _ => exact .none
  | rUnlock prev =>
    dsimp only
    rw [if_pos (owner_of h hpc rfl)]
    exact WOk.same hw (t := t) (p := .idle) (fun u => rfl) rfl (triv hpc rfl) (triv' hpc rfl) rfl

theorem step_w {s : S} {n : Nat} {a : Act} (h : Inv s n) (hw : W s n) : WOk s n (step s a) := by
  cases a with
  | callWait t wait =>
    rw [step]
    by_cases hpc : s.pc t = .idle
    · rw [if_pos hpc]
      exact WOk.same hw (t := t) (p := .wLock wait) (fun u => rfl) rfl
        (by rw [hpc]; exact fun e => nomatch e) (by rw [hpc]; exact fun e => nomatch e) rfl
    · rw [if_neg hpc]; exact .none
  | callRelease t =>
    rw [step]
    by_cases hpc : s.pc t = .idle
    · rw [if_pos hpc]
      exact WOk.same hw (t := t) (p := .rLock) (fun u => rfl) rfl
        (by rw [hpc]; exact fun e => nomatch e) (by rw [hpc]; exact fun e => nomatch e) rfl
    · rw [if_neg hpc]; exact .none
  | run t pick => exact run_w h hw
  | fail t =>
    rw [step, fail]
    cases hpc : s.pc t with
    | wLock wait =>
      exact WOk.same hw (t := t) (p := .idle) (fun u => rfl) rfl
        (by rw [hpc]; exact fun e => nomatch e) (by rw [hpc]; exact fun e => nomatch e) rfl
    | wTest wait =>
      dsimp only
      split
      · exact WOk.same hw (t := t) (p := .idle) (fun u => rfl) rfl
          (by rw [hpc]; exact fun e => nomatch e) (by rw [hpc]; exact fun e => nomatch e) rfl
      · exact .none
    | rLock =>
      exact WOk.same hw (t := t) (p := .idle) (fun u => rfl) rfl
        (by rw [hpc]; exact fun e => nomatch e) (by rw [hpc]; exact fun e => nomatch e) rfl
    | _ => exact .none
  | wake t zero =>
    rw [step]
    cases hpc : s.pc t with
    | wBlocked wait =>
      intro s' ls n' e ha
      cases e
      cases ha
      refine hw.same (t := t) (p := .wWoken wait zero) (fun u => rfl) (fun e => ?_)
        (by rw [hpc]; exact fun e => nomatch e) (by rw [hpc]; exact fun e => nomatch e)
      show s.queue.erase t = []
      rw [e]; rfl
    | _ => exact .none

theorem exec_w {s : S} {n : Nat} (as : List Act) (h : Inv s n) (hw : W s n) {s' : S}
    {ls : List Label} (he : exec s as = .ok (s', ls)) : ∃ n', Inv s' n' ∧ W s' n' := by
  induction as generalizing s n ls with
  | nil => cases he; exact ⟨n, h, hw⟩
  | cons a as ih =>
    obtain ⟨r, hr, hok⟩ := step_ok (a := a) h
    rw [exec, hr, ok_bind] at he
    cases r with
    | none => exact ih h hw he
    | some x =>
      obtain ⟨s1, l1⟩ := x
      obtain ⟨n1, hi1, ha1, _, _⟩ := hok s1 l1 rfl
      have hw1 := step_w h hw s1 l1 n1 hr ha1
      obtain ⟨s2, l2, _, he2, _⟩ := exec_ok as hi1
      simp only [he2, ok_bind] at he
      cases he
      exact ih hi1 hw1 he2

/-! ### Counting -/

def isRet : Label → Bool
  | .retWait _ true => true
  | _ => false

def isTake : Label → Bool
  | .take _ => true
  | _ => false

def isGive : Label → Bool
  | .give _ _ => true
  | _ => false

def isCall : Label → Bool
  | .callRelease _ => true
  | _ => false

theorem waits_eq (ls : List Label) : waits ls = ls.countP isRet := rfl
theorem releases_eq (ls : List Label) : releases ls = ls.countP isCall := rfl

theorem atomic_counts {m n k : Nat} {ls : List Label} (h : atomic m n ls = some k) :
    k + ls.countP isTake ≤ n + ls.countP isGive := by
  induction ls generalizing n with
  | nil => cases h; exact Nat.le_refl _
  | cons l ls ih =>
    rw [List.countP_cons, List.countP_cons]
    cases l with
    | take t =>
      rw [atomic] at h
      split at h
      · have := ih h
        simp only [isTake, isGive, if_true, if_false, Bool.false_eq_true]
        omega
      · cases h
    | give t p =>
      rw [atomic] at h
      split at h
      · have := ih h
        have := Nat.mod_le (n + 1) 4294967296
        simp only [isTake, isGive, if_true, if_false, Bool.false_eq_true]
        omega
      · cases h
    | _ => exact ih h

def inTook : Phase → Nat
  | .took => 1
  | _ => 0

def inReleasing : Phase → Nat
  | .releasing => 1
  | _ => 0

theorem move_counts {p q : Phase} {l : Label} (h : move p l = some q) :
    (if isRet l = true then 1 else 0) + inTook q = (if isTake l = true then 1 else 0) + inTook p ∧
    (if isGive l = true then 1 else 0) + inReleasing q
      ≤ (if isCall l = true then 1 else 0) + inReleasing p := by
  cases p <;> cases l <;> try (cases h; done)
  all_goals try (cases h; exact ⟨rfl, Nat.le_refl _⟩)
  · rename_i t b; cases b <;> cases h; exact ⟨rfl, Nat.le_refl _⟩
  · rename_i t b; cases b <;> cases h; exact ⟨rfl, Nat.le_refl _⟩
  · rename_i t b p; cases b <;> cases h; exact ⟨rfl, Nat.zero_le _⟩
  · rename_i v t b p
    cases b
    · cases h
    · simp only [move] at h
      split at h <;> cases h
      exact ⟨rfl, Nat.le_refl _⟩

theorem phase_none (t : Nat) (ls : List Label) : (phase t none ls).isSome = false := by
  induction ls with
  | nil => rfl
  | cons l ls ih => rw [phase]; split <;> exact ih

theorem phase_counts' {t : Nat} {p : Phase} {ls : List Label}
    (h : (phase t (some p) ls).isSome = true) :
    (ls.countP fun l => decide (who l = t) && isRet l)
      ≤ (ls.countP fun l => decide (who l = t) && isTake l) + inTook p ∧
    (ls.countP fun l => decide (who l = t) && isGive l)
      ≤ (ls.countP fun l => decide (who l = t) && isCall l) + inReleasing p := by
  induction ls generalizing p with
  | nil => exact ⟨Nat.zero_le _, Nat.zero_le _⟩
  | cons l ls ih =>
    rw [phase] at h
    by_cases hw : who l = t
    · rw [if_pos hw] at h
      cases hm : move p l with
      | none =>
        rw [show (some p).bind (move · l) = none from hm, phase_none] at h
        cases h
      | some q =>
        rw [show (some p).bind (move · l) = some q from hm] at h
        have h1 := ih h
        have h2 := move_counts hm
        simp only [List.countP_cons, hw, decide_true, Bool.true_and] at h1 ⊢
        omega
    · rw [if_neg hw] at h
      have := ih h
      simp only [List.countP_cons, hw, decide_false, Bool.false_and, Bool.false_eq_true,
        if_false] at this ⊢
      exact this

theorem phase_counts {t : Nat} {ls : List Label} (h : (phase t (some .out) ls).isSome = true) :
    (ls.countP fun l => decide (who l = t) && isRet l)
      ≤ (ls.countP fun l => decide (who l = t) && isTake l) ∧
    (ls.countP fun l => decide (who l = t) && isGive l)
      ≤ (ls.countP fun l => decide (who l = t) && isCall l) := phase_counts' h

end Verif.Sem
