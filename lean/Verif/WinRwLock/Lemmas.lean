import Verif.WinRwLock.Model
import Verif.RwLock.Lemmas

/-! # Invariants of the reader-writer lock on Windows -/

namespace Verif.WinRwLock

open Verif.RwLock (Label Act setAt)
open Verif.RwLock.Spec

/-- Positions at which the thread owns `MxWinWWaitMutex`. -/
def ownW : Pc → Bool
  | .rM | .rS | .rReset | .rRelS | .rRelM _ | .rRelW _ | .wE | .wRel | .wRet true | .xRel => true
  | _ => false

/-- Positions at which the thread owns `MxWinRSemMutex`. -/
def ownM : Pc → Bool
  | .rS | .rReset | .rRelS | .rRelM _ | .uRel | .uFire | .uBad | .uRelM _ => true
  | _ => false

/-- Positions at which the thread has a unit of the semaphore without being counted as a reader. -/
def holdS : Pc → Bool
  | .rReset | .rRelS => true
  | _ => false

/-- Read locks of a thread inside a call. -/
def pend : Pc → Nat
  | .rRelM true | .rRelW true | .rRet true | .uM | .uRel | .uBad => 1
  | _ => 0

/-- What holds between any two steps; `R` and `W` are the readers and the writer, `tw` and `tc` the owners of the
two binary semaphores. -/
structure Inv (s : S) (R : List Nat) (W tw tc : Option Nat) : Prop where
  ws : s.wsem = true → tw = none
  cs : s.msem = true → tc = none
  hw : ∀ t, ownW (s.pc t) = true ∨ s.wr t = true → tw = some t
  nw : ∀ t, ownW (s.pc t) = true → s.wr t = false
  hc : ∀ t, ownM (s.pc t) = true → tc = some t
  s1 : s.rsem + R.length ≤ longMax
  s2 : ∀ t, holdS (s.pc t) = true → s.rsem + R.length + 1 ≤ longMax
  ev : s.ev = true → R = []
  w1 : ∀ t, s.wr t = true ∨ s.pc t = .xRel ∨ s.pc t = .wRet true → W = some t
  w2 : ∀ t, W = some t → R = [] ∧ (s.wr t = true ∨ s.pc t = .xRel ∨ s.pc t = .wRet true)
  cnt : ∀ t, s.rd t + pend (s.pc t) ≤ R.count t
  vuf : ∀ t, s.pc t = .uFire → R = []

theorem holdS_own {p : Pc} (h : holdS p = true) : ownM p = true := by
  cases p <;> first | rfl | cases h

theorem init_inv : Inv init [] none none none := by
  constructor <;> simp [init, ownW, ownM, holdS, pend]

/-- The phase belonging to a position. -/
def phOf : Pc → Phase
  | .idle => .out
  | .rW | .rM | .rS | .rReset | .rRelS | .rRelM false | .rRelW false | .rRet false => .reading
  | .rRelM true | .rRelW true | .rRet true => .entered
  | .wW | .wE | .wRel | .wRet false => .writing
  | .wRet true => .entering
  | .uM | .uRel | .uBad | .uBadRet => .unreading
  | .uFire | .uRelM _ | .uRet _ => .unread
  | .xRel => .unwriting
  | .xRet => .unwritten

/-- What a step does to the abstract state, the phases, the ghosts and the invariant. -/
def StepOk (s : S) (R : List Nat) (W : Option Nat) (r : Option (S × List Label)) : Prop :=
  ∀ s' ls, r = some (s', ls) → ∃ R' W' tw' tc', Inv s' R' W' tw' tc' ∧
    atomic (R, W) ls = some (R', W') ∧ R'.length = readers R.length ls ∧
    (∀ t, phase t (some (phOf (s.pc t))) ls = some (phOf (s'.pc t))) ∧
    ∀ t, s'.rd t = reading t (s.rd t) ls ∧ s'.wr t = writing t (s.wr t) ls

theorem StepOk.none {s : S} {R W} : StepOk s R W none := fun _ _ h => nomatch h

theorem StepOk.mk {s s' : S} {R R' : List Nat} {W W' tw' tc' : Option Nat} {t : Nat} {p : Pc}
    {ls : List Label} (hi : Inv s' R' W' tw' tc') (ha : atomic (R, W) ls = some (R', W'))
    (hr : R'.length = readers R.length ls) (hs : s'.pc = setAt s.pc t p)
    (hw : ∀ l ∈ ls, who l = t) (hp : phase t (some (phOf (s.pc t))) ls = some (phOf p))
    (hg : ∀ t, s'.rd t = reading t (s.rd t) ls ∧ s'.wr t = writing t (s.wr t) ls) :
    StepOk s R W (some (s', ls)) := by
  intro s'' ls' e
  cases e
  refine ⟨R', W', tw', tc', hi, ha, hr, fun u => ?_, hg⟩
  rw [hs, setAt]
  by_cases hut : u = t
  · rw [if_pos hut, hut]; exact hp
  · rw [if_neg hut]
    clear hp ha hr hg
    induction ls with
    | nil => rfl
    | cons l ls ih =>
      rw [phase, if_neg]
      · exact ih fun l hl => hw l (List.mem_cons_of_mem _ hl)
      · rw [hw l (List.mem_cons_self ..)]; exact fun e => hut e.symm

/-- Steps that emit nothing. -/
theorem StepOk.silent {s s' : S} {R : List Nat} {W tw' tc' : Option Nat} {t : Nat} {p : Pc}
    (hi : Inv s' R W tw' tc') (hs : s'.pc = setAt s.pc t p)
    (hp : phOf (s.pc t) = phOf p) (hrd : s'.rd = s.rd) (hwr : s'.wr = s.wr) :
    StepOk s R W (some (s', [])) :=
  .mk hi rfl rfl hs (fun _ h => nomatch h) (by rw [hp]; rfl) (fun t => by rw [hrd, hwr]; exact ⟨rfl, rfl⟩)

set_option hygiene false in
macro "inv" : tactic => `(tactic|
  (obtain ⟨h1, h2, h3, h3', h4, h5, h5', h6, h7, h8, h9, h10⟩ := h
   constructor <;> simp only [S.goto, setAt] <;> grind [ownW, ownM, holdS, pend, setAt]))

theorem run_idle {s : S} {R W tw tc} {t : Nat}  (h : Inv s R W tw tc)
    (hpc : s.pc t = .idle) : StepOk s R W (run s t) := by
  unfold run
  rw [hpc]
  dsimp only
  exact .none

theorem run_rW {s : S} {R W tw tc} {t : Nat}  (h : Inv s R W tw tc)
    (hpc : s.pc t = .rW) : StepOk s R W (run s t) := by
  unfold run
  rw [hpc]
  dsimp only
  split
  · exact .silent (t := t) (p := .rM) (tw' := some t) (tc' := tc) (by inv) rfl (by rw [hpc]; rfl) rfl rfl
  · exact .none

theorem run_rM {s : S} {R W tw tc} {t : Nat}  (h : Inv s R W tw tc)
    (hpc : s.pc t = .rM) : StepOk s R W (run s t) := by
  unfold run
  rw [hpc]
  dsimp only
  split
  · exact .silent (t := t) (p := .rS) (tw' := tw) (tc' := some t) (by inv) rfl (by rw [hpc]; rfl) rfl rfl
  · exact .none

theorem run_rS {s : S} {R W tw tc} {t : Nat}  (h : Inv s R W tw tc)
    (hpc : s.pc t = .rS) : StepOk s R W (run s t) := by
  unfold run
  rw [hpc]
  dsimp only
  split
  · exact .silent (t := t) (p := .rReset) (tw' := tw) (tc' := tc) (by inv) rfl (by rw [hpc]; rfl) rfl rfl
  · exact .none

theorem run_rReset {s : S} {R W tw tc} {t : Nat}  (h : Inv s R W tw tc)
    (hpc : s.pc t = .rReset) : StepOk s R W (run s t) := by
  unfold run
  rw [hpc]
  dsimp only
  have hs2 := h.s2 t (by rw [hpc]; rfl)
  have hoth : ∀ u, u ≠ t → holdS (s.pc u) = false := by
    intro u hu
    cases e : holdS (s.pc u) with
    | false => rfl
    | true =>
      have e1 := h.hc u (holdS_own e)
      rw [h.hc t (by rw [hpc]; rfl)] at e1
      exact absurd (Option.some.inj e1).symm hu
  have hW : W = Option.none := by
    cases hW : W with
    | none => rfl
    | some u =>
      obtain ⟨h1, h2, h3, h3', h4, h5, h5', h6, h7, h8, h9, h10⟩ := h
      grind [ownW]
  exact .mk (t := t) (p := .rRelM true) (R' := t :: R) (W' := W) (tw' := tw) (tc' := tc) (by inv)
    (by subst hW; rfl) rfl rfl (fun l hl => by rw [List.mem_singleton.mp hl]; rfl)
    (by rw [hpc]; simp [phase, who, phOf, move]) (fun u => ⟨rfl, rfl⟩)

theorem run_rRelS {s : S} {R W tw tc} {t : Nat}  (h : Inv s R W tw tc)
    (hpc : s.pc t = .rRelS) : StepOk s R W (run s t) := by
  unfold run
  rw [hpc]
  dsimp only
  have hs2 := h.s2 t (by rw [hpc]; rfl)
  have hoth : ∀ u, u ≠ t → holdS (s.pc u) = false := by
    intro u hu
    cases e : holdS (s.pc u) with
    | false => rfl
    | true =>
      have e1 := h.hc u (holdS_own e)
      rw [h.hc t (by rw [hpc]; rfl)] at e1
      exact absurd (Option.some.inj e1).symm hu
  exact .silent (t := t) (p := .rRelM false) (tw' := tw) (tc' := tc) (by inv) rfl (by rw [hpc]; rfl) rfl rfl

theorem run_rRelM {s : S} {R W tw tc} {t : Nat} {r : Bool} (h : Inv s R W tw tc)
    (hpc : s.pc t = .rRelM r) : StepOk s R W (run s t) := by
  unfold run
  rw [hpc]
  dsimp only
  exact .silent (t := t) (p := .rRelW r) (tw' := tw) (tc' := Option.none) (by cases r <;> inv) rfl (by rw [hpc]; cases r <;> rfl) rfl rfl

theorem run_rRelW {s : S} {R W tw tc} {t : Nat} {r : Bool} (h : Inv s R W tw tc)
    (hpc : s.pc t = .rRelW r) : StepOk s R W (run s t) := by
  unfold run
  rw [hpc]
  dsimp only
  exact .silent (t := t) (p := .rRet r) (tw' := Option.none) (tc' := tc) (by cases r <;> inv) rfl (by rw [hpc]; cases r <;> rfl) rfl rfl

theorem run_rRet {s : S} {R W tw tc} {t : Nat} {r : Bool} (h : Inv s R W tw tc)
    (hpc : s.pc t = .rRet r) : StepOk s R W (run s t) := by
  unfold run
  rw [hpc]
  dsimp only
  exact .mk (t := t) (p := .idle) (R' := R) (W' := W) (tw' := tw) (tc' := tc) (by cases r <;> inv)
    rfl rfl rfl (fun l hl => by rw [List.mem_singleton.mp hl]; rfl)
    (by rw [hpc]; cases r <;> simp [phase, who, phOf, move]) (fun u => by cases r <;> simp [reading, writing, S.goto, setAt]; grind)

theorem run_wW {s : S} {R W tw tc} {t : Nat}  (h : Inv s R W tw tc)
    (hpc : s.pc t = .wW) : StepOk s R W (run s t) := by
  unfold run
  rw [hpc]
  dsimp only
  split
  · exact .silent (t := t) (p := .wE) (tw' := some t) (tc' := tc) (by inv) rfl (by rw [hpc]; rfl) rfl rfl
  · exact .none

theorem run_wE {s : S} {R W tw tc} {t : Nat}  (h : Inv s R W tw tc)
    (hpc : s.pc t = .wE) : StepOk s R W (run s t) := by
  unfold run
  rw [hpc]
  dsimp only
  split
  · rename_i he
    have hR := h.ev he
    subst hR
    have hW : W = Option.none := by
      cases hW : W with
      | none => rfl
      | some u =>
        obtain ⟨h1, h2, h3, h3', h4, h5, h5', h6, h7, h8, h9, h10⟩ := h
        grind [ownW]
    subst hW
    exact .mk (t := t) (p := .wRet true) (R' := []) (W' := some t) (tw' := tw) (tc' := tc) (by inv)
      rfl rfl rfl (fun l hl => by rw [List.mem_singleton.mp hl]; rfl)
      (by rw [hpc]; simp [phase, who, phOf, move]) (fun u => ⟨rfl, rfl⟩)
  · exact .none

theorem run_wRel {s : S} {R W tw tc} {t : Nat}  (h : Inv s R W tw tc)
    (hpc : s.pc t = .wRel) : StepOk s R W (run s t) := by
  unfold run
  rw [hpc]
  dsimp only
  exact .silent (t := t) (p := .wRet false) (tw' := Option.none) (tc' := tc) (by inv) rfl (by rw [hpc]; rfl) rfl rfl

theorem run_wRet {s : S} {R W tw tc} {t : Nat} {r : Bool} (h : Inv s R W tw tc)
    (hpc : s.pc t = .wRet r) : StepOk s R W (run s t) := by
  unfold run
  rw [hpc]
  dsimp only
  exact .mk (t := t) (p := .idle) (R' := R) (W' := W) (tw' := tw) (tc' := tc) (by cases r <;> inv)
    rfl rfl rfl (fun l hl => by rw [List.mem_singleton.mp hl]; rfl)
    (by rw [hpc]; cases r <;> simp [phase, who, phOf, move]) (fun u => by cases r <;> simp [reading, writing, S.goto, setAt]; grind)

theorem run_uM {s : S} {R W tw tc} {t : Nat}  (h : Inv s R W tw tc)
    (hpc : s.pc t = .uM) : StepOk s R W (run s t) := by
  unfold run
  rw [hpc]
  dsimp only
  split
  · exact .silent (t := t) (p := .uRel) (tw' := tw) (tc' := some t) (by inv) rfl (by rw [hpc]; rfl) rfl rfl
  · exact .none

theorem run_uRel {s : S} {R W tw tc} {t : Nat}  (h : Inv s R W tw tc)
    (hpc : s.pc t = .uRel) : StepOk s R W (run s t) := by
  unfold run
  rw [hpc]
  dsimp only
  have hmem : t ∈ R := by
    have := h.cnt t
    rw [hpc] at this
    exact List.count_pos_iff.mp (Nat.lt_of_lt_of_le (Nat.succ_pos _) this)
  have hlen := List.length_erase_of_mem hmem
  have hpos := List.length_pos_of_mem hmem
  have hcnt : ∀ u, (R.erase t).count u = if u = t then R.count u - 1 else R.count u := by
    intro u
    rw [List.count_erase]
    by_cases e : u = t
    · subst e; simp
    · have : ¬ t = u := fun e' => e e'.symm
      simp [e, this]
  have hWn : W = Option.none := by
    cases hW : W with
    | none => rfl
    | some u => rw [(h.w2 u hW).1] at hmem; cases hmem
  have ha : atomic (R, W) [.exitR t] = some (R.erase t, W) := by
    show (effect (R, W) (.exitR t)).bind _ = _
    rw [effect, if_pos hmem]; rfl
  rw [if_pos (by have := h.s1; omega)]
  by_cases hm : s.rsem = longMax - 1
  · rw [if_pos hm]
    have hR : R.erase t = [] := List.length_eq_zero_iff.mp (by have := h.s1; omega)
    exact .mk (t := t) (p := .uFire) (R' := R.erase t) (W' := W) (tw' := tw) (tc' := tc)
      (by
        generalize R.erase t = R' at hlen hcnt hR
        inv)
      ha hlen rfl (fun l hl => by rw [List.mem_singleton.mp hl]; rfl)
      (by rw [hpc]; simp [phase, who, phOf, move]) (fun u => ⟨rfl, rfl⟩)
  · rw [if_neg hm]
    exact .mk (t := t) (p := .uRelM true) (R' := R.erase t) (W' := W) (tw' := tw) (tc' := tc)
      (by
        generalize R.erase t = R' at hlen hcnt
        inv)
      ha hlen rfl (fun l hl => by rw [List.mem_singleton.mp hl]; rfl)
      (by rw [hpc]; simp [phase, who, phOf, move]) (fun u => ⟨rfl, rfl⟩)

theorem run_uFire {s : S} {R W tw tc} {t : Nat}  (h : Inv s R W tw tc)
    (hpc : s.pc t = .uFire) : StepOk s R W (run s t) := by
  unfold run
  rw [hpc]
  dsimp only
  exact .silent (t := t) (p := .uRelM true) (tw' := tw) (tc' := tc) (by inv) rfl (by rw [hpc]; rfl) rfl rfl

theorem run_uBad {s : S} {R W tw tc} {t : Nat}  (h : Inv s R W tw tc)
    (hpc : s.pc t = .uBad) : StepOk s R W (run s t) := by
  unfold run
  rw [hpc]
  dsimp only
  exact .silent (t := t) (p := .uBadRet) (tw' := tw) (tc' := Option.none) (by inv) rfl (by rw [hpc]; rfl) rfl rfl

theorem run_uBadRet {s : S} {R W tw tc} {t : Nat}  (h : Inv s R W tw tc)
    (hpc : s.pc t = .uBadRet) : StepOk s R W (run s t) := by
  unfold run
  rw [hpc]
  dsimp only
  exact .mk (t := t) (p := .idle) (R' := R) (W' := W) (tw' := tw) (tc' := tc) (by inv)
    rfl rfl rfl (fun l hl => by rw [List.mem_singleton.mp hl]; rfl)
    (by rw [hpc]; simp [phase, who, phOf, move]) (fun u => ⟨rfl, rfl⟩)

theorem run_uRelM {s : S} {R W tw tc} {t : Nat} {r : Bool} (h : Inv s R W tw tc)
    (hpc : s.pc t = .uRelM r) : StepOk s R W (run s t) := by
  unfold run
  rw [hpc]
  dsimp only
  exact .silent (t := t) (p := .uRet r) (tw' := tw) (tc' := Option.none) (by inv) rfl (by rw [hpc]; rfl) rfl rfl

theorem run_uRet {s : S} {R W tw tc} {t : Nat} {r : Bool} (h : Inv s R W tw tc)
    (hpc : s.pc t = .uRet r) : StepOk s R W (run s t) := by
  unfold run
  rw [hpc]
  dsimp only
  exact .mk (t := t) (p := .idle) (R' := R) (W' := W) (tw' := tw) (tc' := tc) (by inv)
    rfl rfl rfl (fun l hl => by rw [List.mem_singleton.mp hl]; rfl)
    (by rw [hpc]; simp [phase, who, phOf, move]) (fun u => ⟨rfl, rfl⟩)

theorem run_xRel {s : S} {R W tw tc} {t : Nat}  (h : Inv s R W tw tc)
    (hpc : s.pc t = .xRel) : StepOk s R W (run s t) := by
  unfold run
  rw [hpc]
  dsimp only
  exact .mk (t := t) (p := .xRet) (R' := R) (W' := Option.none) (tw' := Option.none) (tc' := tc) (by inv)
    (by
      show (effect (R, W) (.exitW t)).bind _ = _
      rw [effect, if_pos (h.w1 t (Or.inr (Or.inl hpc)))]; rfl) rfl rfl (fun l hl => by rw [List.mem_singleton.mp hl]; rfl)
    (by rw [hpc]; simp [phase, who, phOf, move]) (fun u => ⟨rfl, rfl⟩)

theorem run_xRet {s : S} {R W tw tc} {t : Nat}  (h : Inv s R W tw tc)
    (hpc : s.pc t = .xRet) : StepOk s R W (run s t) := by
  unfold run
  rw [hpc]
  dsimp only
  exact .mk (t := t) (p := .idle) (R' := R) (W' := W) (tw' := tw) (tc' := tc) (by inv)
    rfl rfl rfl (fun l hl => by rw [List.mem_singleton.mp hl]; rfl)
    (by rw [hpc]; simp [phase, who, phOf, move]) (fun u => ⟨rfl, rfl⟩)

theorem run_ok {s : S} {R W tw tc} (t : Nat) (h : Inv s R W tw tc) : StepOk s R W (run s t) := by
  cases hpc : s.pc t with
  | idle => exact run_idle h hpc
  | rW => exact run_rW h hpc
  | rM => exact run_rM h hpc
  | rS => exact run_rS h hpc
  | rReset => exact run_rReset h hpc
  | rRelS => exact run_rRelS h hpc
  | rRelM r => exact run_rRelM h hpc
  | rRelW r => exact run_rRelW h hpc
  | rRet r => exact run_rRet h hpc
  | wW => exact run_wW h hpc
  | wE => exact run_wE h hpc
  | wRel => exact run_wRel h hpc
  | wRet r => exact run_wRet h hpc
  | uM => exact run_uM h hpc
  | uRel => exact run_uRel h hpc
  | uFire => exact run_uFire h hpc
  | uBad => exact run_uBad h hpc
  | uBadRet => exact run_uBadRet h hpc
  | uRelM r => exact run_uRelM h hpc
  | uRet r => exact run_uRet h hpc
  | xRel => exact run_xRel h hpc
  | xRet => exact run_xRet h hpc

theorem fail_rW {s : S} {R W tw tc} {t : Nat}  (h : Inv s R W tw tc)
    (hpc : s.pc t = .rW) : StepOk s R W (fail s t) := by
  unfold fail
  rw [hpc]
  dsimp only
  exact .mk (t := t) (p := .idle) (R' := R) (W' := W) (tw' := tw) (tc' := tc) (by inv)
    rfl rfl rfl (fun l hl => by rw [List.mem_singleton.mp hl]; rfl)
    (by rw [hpc]; simp [phase, who, phOf, move]) (fun u => ⟨rfl, rfl⟩)

theorem fail_rM {s : S} {R W tw tc} {t : Nat}  (h : Inv s R W tw tc)
    (hpc : s.pc t = .rM) : StepOk s R W (fail s t) := by
  unfold fail
  rw [hpc]
  dsimp only
  exact .silent (t := t) (p := .rRelW false) (tw' := tw) (tc' := tc) (by inv) rfl (by rw [hpc]; rfl) rfl rfl

theorem fail_rS {s : S} {R W tw tc} {t : Nat}  (h : Inv s R W tw tc)
    (hpc : s.pc t = .rS) : StepOk s R W (fail s t) := by
  unfold fail
  rw [hpc]
  dsimp only
  exact .silent (t := t) (p := .rRelM false) (tw' := tw) (tc' := tc) (by inv) rfl (by rw [hpc]; rfl) rfl rfl

theorem fail_rReset {s : S} {R W tw tc} {t : Nat}  (h : Inv s R W tw tc)
    (hpc : s.pc t = .rReset) : StepOk s R W (fail s t) := by
  unfold fail
  rw [hpc]
  dsimp only
  exact .silent (t := t) (p := .rRelS) (tw' := tw) (tc' := tc) (by inv) rfl (by rw [hpc]; rfl) rfl rfl

theorem fail_rRelS {s : S} {R W tw tc} {t : Nat}  (h : Inv s R W tw tc)
    (hpc : s.pc t = .rRelS) : StepOk s R W (fail s t) := by
  unfold fail
  rw [hpc]
  dsimp only
  exact .silent (t := t) (p := .rRelM false) (tw' := tw) (tc' := tc) (by inv) rfl (by rw [hpc]; rfl) rfl rfl

theorem fail_rRelM {s : S} {R W tw tc} {t : Nat} {r : Bool} (h : Inv s R W tw tc)
    (hpc : s.pc t = .rRelM r) : StepOk s R W (fail s t) := by
  unfold fail
  rw [hpc]
  dsimp only
  exact .silent (t := t) (p := .rRelW r) (tw' := tw) (tc' := Option.none) (by cases r <;> inv) rfl (by rw [hpc]; cases r <;> rfl) rfl rfl

theorem fail_rRelW {s : S} {R W tw tc} {t : Nat} {r : Bool} (h : Inv s R W tw tc)
    (hpc : s.pc t = .rRelW r) : StepOk s R W (fail s t) := by
  unfold fail
  rw [hpc]
  dsimp only
  exact .silent (t := t) (p := .rRet r) (tw' := Option.none) (tc' := tc) (by cases r <;> inv) rfl (by rw [hpc]; cases r <;> rfl) rfl rfl

theorem fail_wW {s : S} {R W tw tc} {t : Nat}  (h : Inv s R W tw tc)
    (hpc : s.pc t = .wW) : StepOk s R W (fail s t) := by
  unfold fail
  rw [hpc]
  dsimp only
  exact .mk (t := t) (p := .idle) (R' := R) (W' := W) (tw' := tw) (tc' := tc) (by inv)
    rfl rfl rfl (fun l hl => by rw [List.mem_singleton.mp hl]; rfl)
    (by rw [hpc]; simp [phase, who, phOf, move]) (fun u => ⟨rfl, rfl⟩)

theorem fail_wE {s : S} {R W tw tc} {t : Nat}  (h : Inv s R W tw tc)
    (hpc : s.pc t = .wE) : StepOk s R W (fail s t) := by
  unfold fail
  rw [hpc]
  dsimp only
  exact .silent (t := t) (p := .wRel) (tw' := tw) (tc' := tc) (by inv) rfl (by rw [hpc]; rfl) rfl rfl

theorem fail_wRel {s : S} {R W tw tc} {t : Nat}  (h : Inv s R W tw tc)
    (hpc : s.pc t = .wRel) : StepOk s R W (fail s t) := by
  unfold fail
  rw [hpc]
  dsimp only
  exact .silent (t := t) (p := .wRet false) (tw' := Option.none) (tc' := tc) (by inv) rfl (by rw [hpc]; rfl) rfl rfl

theorem fail_uM {s : S} {R W tw tc} {t : Nat}  (h : Inv s R W tw tc)
    (hpc : s.pc t = .uM) : StepOk s R W (fail s t) := by
  unfold fail
  rw [hpc]
  dsimp only
  exact .mk (t := t) (p := .idle) (R' := R) (W' := W) (tw' := tw) (tc' := tc) (by inv)
    rfl rfl rfl (fun l hl => by rw [List.mem_singleton.mp hl]; rfl)
    (by rw [hpc]; simp [phase, who, phOf, move]) (fun u => ⟨rfl, rfl⟩)

theorem fail_uRel {s : S} {R W tw tc} {t : Nat}  (h : Inv s R W tw tc)
    (hpc : s.pc t = .uRel) : StepOk s R W (fail s t) := by
  unfold fail
  rw [hpc]
  dsimp only
  exact .silent (t := t) (p := .uBad) (tw' := tw) (tc' := tc) (by inv) rfl (by rw [hpc]; rfl) rfl rfl

theorem fail_uFire {s : S} {R W tw tc} {t : Nat}  (h : Inv s R W tw tc)
    (hpc : s.pc t = .uFire) : StepOk s R W (fail s t) := by
  unfold fail
  rw [hpc]
  dsimp only
  exact .silent (t := t) (p := .uRelM false) (tw' := tw) (tc' := tc) (by inv) rfl (by rw [hpc]; rfl) rfl rfl

theorem fail_uBad {s : S} {R W tw tc} {t : Nat}  (h : Inv s R W tw tc)
    (hpc : s.pc t = .uBad) : StepOk s R W (fail s t) := by
  unfold fail
  rw [hpc]
  dsimp only
  exact .silent (t := t) (p := .uBadRet) (tw' := tw) (tc' := Option.none) (by inv) rfl (by rw [hpc]; rfl) rfl rfl

theorem fail_uRelM {s : S} {R W tw tc} {t : Nat} {r : Bool} (h : Inv s R W tw tc)
    (hpc : s.pc t = .uRelM r) : StepOk s R W (fail s t) := by
  unfold fail
  rw [hpc]
  dsimp only
  exact .silent (t := t) (p := .uRet r) (tw' := tw) (tc' := Option.none) (by inv) rfl (by rw [hpc]; rfl) rfl rfl

theorem fail_xRel {s : S} {R W tw tc} {t : Nat}  (h : Inv s R W tw tc)
    (hpc : s.pc t = .xRel) : StepOk s R W (fail s t) := by
  unfold fail
  rw [hpc]
  dsimp only
  exact .mk (t := t) (p := .xRet) (R' := R) (W' := Option.none) (tw' := Option.none) (tc' := tc) (by inv)
    (by
      show (effect (R, W) (.exitW t)).bind _ = _
      rw [effect, if_pos (h.w1 t (Or.inr (Or.inl hpc)))]; rfl) rfl rfl (fun l hl => by rw [List.mem_singleton.mp hl]; rfl)
    (by rw [hpc]; simp [phase, who, phOf, move]) (fun u => ⟨rfl, rfl⟩)

theorem fail_ok {s : S} {R W tw tc} (t : Nat) (h : Inv s R W tw tc) : StepOk s R W (fail s t) := by
  cases hpc : s.pc t with
  | rW => exact fail_rW h hpc
  | rM => exact fail_rM h hpc
  | rS => exact fail_rS h hpc
  | rReset => exact fail_rReset h hpc
  | rRelS => exact fail_rRelS h hpc
  | rRelM r => exact fail_rRelM h hpc
  | rRelW r => exact fail_rRelW h hpc
  | wW => exact fail_wW h hpc
  | wE => exact fail_wE h hpc
  | wRel => exact fail_wRel h hpc
  | uM => exact fail_uM h hpc
  | uRel => exact fail_uRel h hpc
  | uFire => exact fail_uFire h hpc
  | uBad => exact fail_uBad h hpc
  | uRelM r => exact fail_uRelM h hpc
  | xRel => exact fail_xRel h hpc
  | _ => unfold fail; rw [hpc]; exact .none

theorem step_callRead {s : S} {R W tw tc} (t : Nat) (h : Inv s R W tw tc) :
    StepOk s R W (step false s (.callRead t)) := by
  unfold step
  dsimp only
  split
  · rename_i hpc
    exact .mk (t := t) (p := .rW) (R' := R) (W' := W) (tw' := tw) (tc' := tc) (by inv)
      rfl rfl rfl (fun l hl => by rw [List.mem_singleton.mp hl]; rfl)
      (by rw [hpc]; simp [phase, who, phOf, move]) (fun u => ⟨rfl, rfl⟩)
  · exact .none

theorem step_callWrite {s : S} {R W tw tc} (t : Nat) (h : Inv s R W tw tc) :
    StepOk s R W (step false s (.callWrite t)) := by
  unfold step
  dsimp only
  split
  · rename_i hpc
    exact .mk (t := t) (p := .wW) (R' := R) (W' := W) (tw' := tw) (tc' := tc) (by inv)
      rfl rfl rfl (fun l hl => by rw [List.mem_singleton.mp hl]; rfl)
      (by rw [hpc]; simp [phase, who, phOf, move]) (fun u => ⟨rfl, rfl⟩)
  · exact .none

theorem step_callReadUnlock {s : S} {R W tw tc} (t : Nat) (h : Inv s R W tw tc) :
    StepOk s R W (step false s (.callReadUnlock t)) := by
  unfold step
  dsimp only
  split
  · rename_i hpc
    obtain ⟨hpc, hd⟩ := hpc
    exact .mk (t := t) (p := .uM) (R' := R) (W' := W) (tw' := tw) (tc' := tc) (by inv)
      rfl rfl rfl (fun l hl => by rw [List.mem_singleton.mp hl]; rfl)
      (by rw [hpc]; simp [phase, who, phOf, move]) (fun u => by simp [reading, writing, S.goto, setAt]; grind)
  · exact .none

theorem step_callWriteUnlock {s : S} {R W tw tc} (t : Nat) (h : Inv s R W tw tc) :
    StepOk s R W (step false s (.callWriteUnlock t)) := by
  unfold step
  dsimp only
  split
  · rename_i hpc
    obtain ⟨hpc, hd⟩ := hpc
    exact .mk (t := t) (p := .xRel) (R' := R) (W' := W) (tw' := tw) (tc' := tc) (by inv)
      rfl rfl rfl (fun l hl => by rw [List.mem_singleton.mp hl]; rfl)
      (by rw [hpc]; simp [phase, who, phOf, move]) (fun u => by simp [reading, writing, S.goto, setAt]; grind)
  · exact .none

theorem step_ok {s : S} {R W tw tc} (a : Act) (h : Inv s R W tw tc) : StepOk s R W (step false s a) := by
  cases a with
  | callRead t => exact step_callRead t h
  | callWrite t => exact step_callWrite t h
  | callReadUnlock t => exact step_callReadUnlock t h
  | callWriteUnlock t => exact step_callWriteUnlock t h
  | run t => exact run_ok t h
  | fail t => exact fail_ok t h

theorem exec_ok (as : List Act) : ∀ {s : S} {R W tw tc} {pre : List Label} (_ : Inv s R W tw tc)
    (_ : atomic ([], none) pre = some (R, W)) (_ : R.length = readers 0 pre)
    (_ : ∀ t, phase t (some .out) pre = some (phOf (s.pc t)))
    (_ : ∀ t, s.rd t = reading t 0 pre ∧ s.wr t = writing t false pre),
    ∃ R' W' tw' tc', Inv (exec false s as).1 R' W' tw' tc' ∧
      atomic ([], none) (pre ++ (exec false s as).2) = some (R', W') ∧
      R'.length = readers 0 (pre ++ (exec false s as).2) ∧
      (∀ t, phase t (some .out) (pre ++ (exec false s as).2)
        = some (phOf ((exec false s as).1.pc t))) ∧
      ∀ t, (exec false s as).1.rd t = reading t 0 (pre ++ (exec false s as).2) ∧
        (exec false s as).1.wr t = writing t false (pre ++ (exec false s as).2) := by
  induction as with
  | nil =>
    intro s R W tw tc pre hi ha hr hp hg
    simp only [exec, List.append_nil]
    exact ⟨R, W, tw, tc, hi, ha, hr, hp, hg⟩
  | cons a as ih =>
    intro s R W tw tc pre hi ha hr hp hg
    have hok := step_ok a hi
    rw [exec]
    cases hs : step false s a with
    | none => exact ih hi ha hr hp hg
    | some x =>
      obtain ⟨s1, l1⟩ := x
      obtain ⟨R1, W1, tw1, tc1, hi1, ha1, hr1, hp1, hg1⟩ := hok s1 l1 hs
      dsimp only
      rw [← List.append_assoc]
      refine ih hi1 ?_ ?_ ?_ ?_
      · rw [RwLock.atomic_append, ha]; exact ha1
      · rw [RwLock.readers_append, ← hr]; exact hr1
      · intro t
        rw [RwLock.phase_append, hp]; exact hp1 t
      · intro t
        rw [RwLock.reading_append, RwLock.writing_append, ← (hg t).1, ← (hg t).2]
        exact hg1 t

theorem reach (as : List Act) :
    ∃ R W tw tc, Inv (exec false init as).1 R W tw tc ∧
      atomic ([], none) (exec false init as).2 = some (R, W) ∧
      R.length = readers 0 (exec false init as).2 ∧
      (∀ t, phase t (some .out) (exec false init as).2
        = some (phOf ((exec false init as).1.pc t))) ∧
      ∀ t, (exec false init as).1.rd t = reading t 0 (exec false init as).2 ∧
        (exec false init as).1.wr t = writing t false (exec false init as).2 := by
  have := exec_ok as (pre := []) init_inv rfl rfl (fun _ => rfl) (fun _ => ⟨rfl, rfl⟩)
  simpa only [List.nil_append] using this

end Verif.WinRwLock
