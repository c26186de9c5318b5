import Verif.RwLock.Spec

/-! # Invariants of the reader-writer lock -/

namespace Verif.RwLock

open Spec

/-- Positions at which the thread owns the write mutex. -/
def ownW : Pc → Bool
  | .rC | .rReset | .rLoad | .rStore _ | .rRelC _ | .rRelW _ | .wE | .wRel | .wRet true
  | .xRel => true
  | _ => false

/-- Positions at which the thread owns the counter mutex. -/
def ownC : Pc → Bool
  | .rReset | .rLoad | .rStore _ | .rRelC _ | .uTest | .uLoad | .uStore _ | .uZero | .uFire
  | .uBad | .uRel _ => true
  | _ => false

/-- Read locks of a thread inside a call. -/
def pend : Pc → Nat
  | .rRelC true | .rRelW true | .rRet true | .uC | .uTest | .uLoad | .uStore _ | .uBad => 1
  | _ => 0

structure Inv (s : S) (R : List Nat) (W tw tc : Option Nat) : Prop where
  ws : s.wsem = true → tw = none
  cs : s.csem = true → tc = none
  hw : ∀ t, ownW (s.pc t) = true ∨ s.wr t = true → tw = some t
  nw : ∀ t, ownW (s.pc t) = true → s.wr t = false
  hc : ∀ t, ownC (s.pc t) = true → tc = some t
  rc : s.rc = R.length
  ev : s.ev = true → R = []
  w1 : ∀ t, s.wr t = true ∨ s.pc t = .xRel ∨ s.pc t = .wRet true → W = some t
  w2 : ∀ t, W = some t → R = [] ∧ (s.wr t = true ∨ s.pc t = .xRel ∨ s.pc t = .wRet true)
  cnt : ∀ t, s.rd t + pend (s.pc t) ≤ R.count t
  vrs : ∀ t v, s.pc t = .rStore v → v = s.rc
  vus : ∀ t v, s.pc t = .uStore v → v = s.rc
  vuf : ∀ t, s.pc t = .uFire → R = []
  vev : ∀ t, s.pc t = .rLoad ∨ (∃ v, s.pc t = .rStore v) → s.ev = false

theorem init_inv : Inv init [] none none none := by
  constructor <;> simp [init, ownW, ownC, pend]

/-- The phase belonging to a position. -/
def phOf : Pc → Phase
  | .idle => .out
  | .rW | .rC | .rReset | .rLoad | .rStore _ | .rRelC false | .rRelW false | .rRet false => .reading
  | .rRelC true | .rRelW true | .rRet true => .entered
  | .wW | .wE | .wRel | .wRet false => .writing
  | .wRet true => .entering
  | .uC | .uTest | .uLoad | .uStore _ | .uBad | .uBadRet => .unreading
  | .uZero | .uFire | .uRel _ | .uRet _ => .unread
  | .xRel => .unwriting
  | .xRet => .unwritten

/-- What a step does to the abstract state, the phases, the ghosts and the invariant. -/
def StepOk (s : S) (R : List Nat) (W : Option Nat) (r : Option (S × List Label)) : Prop :=
  ∀ s' ls, r = some (s', ls) → ∃ R' W' tw' tc', Inv s' R' W' tw' tc' ∧
    atomic (R, W) ls = some (R', W') ∧ R'.length = readers R.length ls ∧
    (∀ t, phase t (some (phOf (s.pc t))) ls = some (phOf (s'.pc t))) ∧
    ∀ t, s'.rd t = reading t (s.rd t) ls ∧ s'.wr t = writing t (s.wr t) ls

theorem StepOk.none {s : S} {R W} : StepOk s R W none := fun _ _ h => nomatch h

theorem StepOk.mk {s s' : S} {R R' : List Nat} {W W' tw' tc' : Option Nat} {t : Nat} {p : Pc}
    {ls : List Label} (hi : Inv s' R' W' tw' tc') (ha : atomic (R, W) ls = some (R', W'))
    (hr : R'.length = readers R.length ls) (hs : s'.pc = setAt s.pc t p)
    (hw : ∀ l ∈ ls, who l = t) (hp : phase t (some (phOf (s.pc t))) ls = some (phOf p))
    (hg : ∀ t, s'.rd t = reading t (s.rd t) ls ∧ s'.wr t = writing t (s.wr t) ls) :
    StepOk s R W (some (s', ls)) := by
  intro s'' ls' e
  cases e
  refine ⟨R', W', tw', tc', hi, ha, hr, fun u => ?_, hg⟩
  rw [hs, setAt]
  by_cases hut : u = t
  · rw [if_pos hut, hut]; exact hp
  · rw [if_neg hut]
    clear hp ha hr hg
    induction ls with
    | nil => rfl
    | cons l ls ih =>
      rw [phase, if_neg]
      · exact ih fun l hl => hw l (List.mem_cons_of_mem _ hl)
      · rw [hw l (List.mem_cons_self ..)]; exact fun e => hut e.symm

/-- Steps that emit nothing. -/
theorem StepOk.silent {s s' : S} {R : List Nat} {W tw' tc' : Option Nat} {t : Nat} {p : Pc}
    (hi : Inv s' R W tw' tc') (hs : s'.pc = setAt s.pc t p)
    (hp : phOf (s.pc t) = phOf p) (hrd : s'.rd = s.rd) (hwr : s'.wr = s.wr) :
    StepOk s R W (some (s', [])) :=
  .mk hi rfl rfl hs (fun _ h => nomatch h) (by rw [hp]; rfl) (fun t => by rw [hrd, hwr]; exact ⟨rfl, rfl⟩)

set_option hygiene false in
macro "inv" : tactic => `(tactic|
  (obtain ⟨h1, h2, h3, h3', h4, h5, h6, h7, h8, h9, h10, h11, h12, h13⟩ := h
   constructor <;> simp only [S.goto, setAt] <;> grind [ownW, ownC, pend, setAt]))

theorem run_idle {s : S} {R W tw tc} {t : Nat} (h : Inv s R W tw tc)
    (hb : R.length < 4294967295) (hpc : s.pc t = .idle) : StepOk s R W (run s t) := by
  unfold run
  rw [hpc]
  dsimp only
  exact .none

theorem run_rW {s : S} {R W tw tc} {t : Nat} (h : Inv s R W tw tc)
    (hb : R.length < 4294967295) (hpc : s.pc t = .rW) : StepOk s R W (run s t) := by
  unfold run
  rw [hpc]
  dsimp only
  split
  · exact .silent (t := t) (p := .rC) (tw' := some t) (tc' := tc) (by inv) rfl (by rw [hpc]; rfl) rfl rfl
  · exact .none

theorem run_rC {s : S} {R W tw tc} {t : Nat} (h : Inv s R W tw tc)
    (hb : R.length < 4294967295) (hpc : s.pc t = .rC) : StepOk s R W (run s t) := by
  unfold run
  rw [hpc]
  dsimp only
  split
  · exact .silent (t := t) (p := .rReset) (tw' := tw) (tc' := some t) (by inv) rfl (by rw [hpc]; rfl) rfl rfl
  · exact .none

theorem run_rReset {s : S} {R W tw tc} {t : Nat} (h : Inv s R W tw tc)
    (hb : R.length < 4294967295) (hpc : s.pc t = .rReset) : StepOk s R W (run s t) := by
  unfold run
  rw [hpc]
  dsimp only
  exact .silent (t := t) (p := .rLoad) (tw' := tw) (tc' := tc) (by inv) rfl (by rw [hpc]; rfl) rfl rfl

theorem run_rLoad {s : S} {R W tw tc} {t : Nat} (h : Inv s R W tw tc)
    (hb : R.length < 4294967295) (hpc : s.pc t = .rLoad) : StepOk s R W (run s t) := by
  unfold run
  rw [hpc]
  dsimp only
  exact .silent (t := t) (p := .rStore s.rc) (tw' := tw) (tc' := tc) (by inv) rfl (by rw [hpc]; rfl) rfl rfl

theorem run_rStore {s : S} {R W tw tc} {t : Nat} {v : Nat} (h : Inv s R W tw tc)
    (hb : R.length < 4294967295) (hpc : s.pc t = .rStore v) : StepOk s R W (run s t) := by
  unfold run
  rw [hpc]
  dsimp only
  have hW : W = Option.none := by
    cases hW : W with
    | none => rfl
    | some u =>
      obtain ⟨h1, h2, h3, h3', h4, h5, h6, h7, h8, h9, h10, h11, h12, h13⟩ := h
      grind [ownW]
  exact .mk (t := t) (p := .rRelC true) (R' := t :: R) (W' := W) (tw' := tw) (tc' := tc) (by inv)
    (by subst hW; rfl) rfl rfl (fun l hl => by rw [List.mem_singleton.mp hl]; rfl)
    (by rw [hpc]; simp [phase, who, phOf, move]) (fun u => ⟨rfl, rfl⟩)

theorem run_rRelC {s : S} {R W tw tc} {t : Nat} {r : Bool} (h : Inv s R W tw tc)
    (hb : R.length < 4294967295) (hpc : s.pc t = .rRelC r) : StepOk s R W (run s t) := by
  unfold run
  rw [hpc]
  dsimp only
  exact .silent (t := t) (p := .rRelW r) (tw' := tw) (tc' := Option.none) (by cases r <;> inv) rfl
    (by rw [hpc]; cases r <;> rfl) rfl rfl

theorem run_rRelW {s : S} {R W tw tc} {t : Nat} {r : Bool} (h : Inv s R W tw tc)
    (hb : R.length < 4294967295) (hpc : s.pc t = .rRelW r) : StepOk s R W (run s t) := by
  unfold run
  rw [hpc]
  dsimp only
  exact .silent (t := t) (p := .rRet r) (tw' := Option.none) (tc' := tc) (by cases r <;> inv) rfl
    (by rw [hpc]; cases r <;> rfl) rfl rfl

theorem run_rRet {s : S} {R W tw tc} {t : Nat} {r : Bool} (h : Inv s R W tw tc)
    (hb : R.length < 4294967295) (hpc : s.pc t = .rRet r) : StepOk s R W (run s t) := by
  unfold run
  rw [hpc]
  dsimp only
  exact .mk (t := t) (p := .idle) (R' := R) (W' := W) (tw' := tw) (tc' := tc)
    (by cases r <;> inv)
    rfl rfl rfl (fun l hl => by rw [List.mem_singleton.mp hl]; rfl)
    (by rw [hpc]; cases r <;> simp [phase, who, phOf, move])
    (fun u => by cases r <;> simp [reading, writing, S.goto, setAt]; grind)

theorem run_wW {s : S} {R W tw tc} {t : Nat} (h : Inv s R W tw tc)
    (hb : R.length < 4294967295) (hpc : s.pc t = .wW) : StepOk s R W (run s t) := by
  unfold run
  rw [hpc]
  dsimp only
  split
  · exact .silent (t := t) (p := .wE) (tw' := some t) (tc' := tc) (by inv) rfl (by rw [hpc]; rfl) rfl rfl
  · exact .none

theorem run_wE {s : S} {R W tw tc} {t : Nat} (h : Inv s R W tw tc)
    (hb : R.length < 4294967295) (hpc : s.pc t = .wE) : StepOk s R W (run s t) := by
  unfold run
  rw [hpc]
  dsimp only
  split
  · rename_i he
    have hR := h.ev he
    subst hR
    have hW : W = Option.none := by
      cases hW : W with
      | none => rfl
      | some u =>
        obtain ⟨h1, h2, h3, h3', h4, h5, h6, h7, h8, h9, h10, h11, h12, h13⟩ := h
        grind [ownW]
    subst hW
    exact .mk (t := t) (p := .wRet true) (R' := []) (W' := some t) (tw' := tw) (tc' := tc) (by inv)
      rfl rfl rfl (fun l hl => by rw [List.mem_singleton.mp hl]; rfl)
      (by rw [hpc]; simp [phase, who, phOf, move]) (fun u => ⟨rfl, rfl⟩)
  · exact .none

theorem run_wRel {s : S} {R W tw tc} {t : Nat} (h : Inv s R W tw tc)
    (hb : R.length < 4294967295) (hpc : s.pc t = .wRel) : StepOk s R W (run s t) := by
  unfold run
  rw [hpc]
  dsimp only
  exact .silent (t := t) (p := .wRet false) (tw' := Option.none) (tc' := tc) (by inv) rfl
    (by rw [hpc]; rfl) rfl rfl

theorem run_wRet {s : S} {R W tw tc} {t : Nat} {r : Bool} (h : Inv s R W tw tc)
    (hb : R.length < 4294967295) (hpc : s.pc t = .wRet r) : StepOk s R W (run s t) := by
  unfold run
  rw [hpc]
  dsimp only
  exact .mk (t := t) (p := .idle) (R' := R) (W' := W) (tw' := tw) (tc' := tc)
    (by cases r <;> inv)
    rfl rfl rfl (fun l hl => by rw [List.mem_singleton.mp hl]; rfl)
    (by rw [hpc]; cases r <;> simp [phase, who, phOf, move])
    (fun u => by cases r <;> simp [reading, writing, S.goto, setAt]; grind)

theorem run_uC {s : S} {R W tw tc} {t : Nat} (h : Inv s R W tw tc)
    (hb : R.length < 4294967295) (hpc : s.pc t = .uC) : StepOk s R W (run s t) := by
  unfold run
  rw [hpc]
  dsimp only
  split
  · exact .silent (t := t) (p := .uTest) (tw' := tw) (tc' := some t) (by inv) rfl (by rw [hpc]; rfl) rfl rfl
  · exact .none

theorem run_uTest {s : S} {R W tw tc} {t : Nat} (h : Inv s R W tw tc)
    (hb : R.length < 4294967295) (hpc : s.pc t = .uTest) : StepOk s R W (run s t) := by
  unfold run
  rw [hpc]
  dsimp only
  by_cases h0 : s.rc ≠ 0
  · rw [if_pos h0]
    exact .silent (t := t) (p := .uLoad) (tw' := tw) (tc' := tc) (by inv) rfl (by rw [hpc]; rfl) rfl rfl
  · rw [if_neg h0]
    exact .silent (t := t) (p := .uBad) (tw' := tw) (tc' := tc) (by inv) rfl (by rw [hpc]; rfl) rfl rfl

theorem run_uLoad {s : S} {R W tw tc} {t : Nat} (h : Inv s R W tw tc)
    (hb : R.length < 4294967295) (hpc : s.pc t = .uLoad) : StepOk s R W (run s t) := by
  unfold run
  rw [hpc]
  dsimp only
  exact .silent (t := t) (p := .uStore s.rc) (tw' := tw) (tc' := tc) (by inv) rfl (by rw [hpc]; rfl) rfl rfl

theorem run_uStore {s : S} {R W tw tc} {t : Nat} {v : Nat} (h : Inv s R W tw tc)
    (hb : R.length < 4294967295) (hpc : s.pc t = .uStore v) : StepOk s R W (run s t) := by
  unfold run
  rw [hpc]
  dsimp only
  have hmem : t ∈ R := by
    have := h.cnt t
    rw [hpc] at this
    exact List.count_pos_iff.mp (Nat.lt_of_lt_of_le (Nat.succ_pos _) this)
  have hlen := List.length_erase_of_mem hmem
  have hpos := List.length_pos_of_mem hmem
  have hv := h.vus t v hpc
  rw [h.rc] at hv
  have hcnt : ∀ u, (R.erase t).count u = if u = t then R.count u - 1 else R.count u := by
    intro u
    rw [List.count_erase]
    by_cases e : u = t
    · subst e; simp
    · have : ¬ t = u := fun e' => e e'.symm
      simp [e, this]
  have hWn : W = Option.none := by
    cases hW : W with
    | none => rfl
    | some u => rw [(h.w2 u hW).1] at hmem; cases hmem
  exact .mk (t := t) (p := .uZero) (R' := R.erase t) (W' := W) (tw' := tw) (tc' := tc)
    (by
      generalize R.erase t = R' at hlen hcnt
      inv)
    (by
      show (effect (R, W) (.exitR t)).bind _ = _
      rw [effect, if_pos hmem]; rfl) hlen rfl (fun l hl => by rw [List.mem_singleton.mp hl]; rfl)
    (by rw [hpc]; simp [phase, who, phOf, move]) (fun u => ⟨rfl, rfl⟩)

theorem run_uZero {s : S} {R W tw tc} {t : Nat} (h : Inv s R W tw tc)
    (hb : R.length < 4294967295) (hpc : s.pc t = .uZero) : StepOk s R W (run s t) := by
  unfold run
  rw [hpc]
  dsimp only
  by_cases h0 : s.rc = 0
  · rw [if_pos h0]
    have hR : R = [] := List.length_eq_zero_iff.mp (h.rc ▸ h0)
    exact .silent (t := t) (p := .uFire) (tw' := tw) (tc' := tc) (by inv) rfl (by rw [hpc]; rfl) rfl rfl
  · rw [if_neg h0]
    exact .silent (t := t) (p := .uRel true) (tw' := tw) (tc' := tc) (by inv) rfl (by rw [hpc]; rfl) rfl rfl

theorem run_uFire {s : S} {R W tw tc} {t : Nat} (h : Inv s R W tw tc)
    (hb : R.length < 4294967295) (hpc : s.pc t = .uFire) : StepOk s R W (run s t) := by
  unfold run
  rw [hpc]
  dsimp only
  exact .silent (t := t) (p := .uRel true) (tw' := tw) (tc' := tc) (by inv) rfl (by rw [hpc]; rfl) rfl rfl

theorem run_uBad {s : S} {R W tw tc} {t : Nat} (h : Inv s R W tw tc)
    (hb : R.length < 4294967295)
    (hpc : s.pc t = .uBad) : StepOk s R W (run s t) := by
  unfold run
  rw [hpc]
  exact .silent (t := t) (p := .uBadRet) (tw' := tw) (tc' := Option.none) (by inv) rfl
    (by rw [hpc]; rfl) rfl rfl

theorem run_uBadRet {s : S} {R W tw tc} {t : Nat} (h : Inv s R W tw tc)
    (hb : R.length < 4294967295) (hpc : s.pc t = .uBadRet) : StepOk s R W (run s t) := by
  unfold run
  rw [hpc]
  exact .mk (t := t) (p := .idle) (R' := R) (W' := W) (tw' := tw) (tc' := tc) (by inv)
    rfl rfl rfl (fun l hl => by rw [List.mem_singleton.mp hl]; rfl)
    (by rw [hpc]; simp [phase, who, phOf, move]) (fun u => ⟨rfl, rfl⟩)

theorem run_uRel {s : S} {R W tw tc} {t : Nat} {r : Bool} (h : Inv s R W tw tc)
    (hb : R.length < 4294967295)
    (hpc : s.pc t = .uRel r) : StepOk s R W (run s t) := by
  unfold run
  rw [hpc]
  exact .silent (t := t) (p := .uRet r) (tw' := tw) (tc' := Option.none) (by inv) rfl
    (by rw [hpc]; rfl) rfl rfl

theorem run_uRet {s : S} {R W tw tc} {t : Nat} {r : Bool} (h : Inv s R W tw tc)
    (hb : R.length < 4294967295) (hpc : s.pc t = .uRet r) : StepOk s R W (run s t) := by
  unfold run
  rw [hpc]
  exact .mk (t := t) (p := .idle) (R' := R) (W' := W) (tw' := tw) (tc' := tc) (by inv)
    rfl rfl rfl (fun l hl => by rw [List.mem_singleton.mp hl]; rfl)
    (by rw [hpc]; simp [phase, who, phOf, move]) (fun u => ⟨rfl, rfl⟩)

theorem run_xRel {s : S} {R W tw tc} {t : Nat} (h : Inv s R W tw tc)
    (hb : R.length < 4294967295)
    (hpc : s.pc t = .xRel) : StepOk s R W (run s t) := by
  unfold run
  rw [hpc]
  exact .mk (t := t) (p := .xRet) (R' := R) (W' := Option.none) (tw' := Option.none) (tc' := tc) (by inv)
    (by
      show (effect (R, W) (.exitW t)).bind _ = _
      rw [effect, if_pos (h.w1 t (Or.inr (Or.inl hpc)))]; rfl) rfl rfl
    (fun l hl => by rw [List.mem_singleton.mp hl]; rfl)
    (by rw [hpc]; simp [phase, who, phOf, move]) (fun u => ⟨rfl, rfl⟩)

theorem run_xRet {s : S} {R W tw tc} {t : Nat} (h : Inv s R W tw tc)
    (hb : R.length < 4294967295) (hpc : s.pc t = .xRet) : StepOk s R W (run s t) := by
  unfold run
  rw [hpc]
  exact .mk (t := t) (p := .idle) (R' := R) (W' := W) (tw' := tw) (tc' := tc) (by inv)
    rfl rfl rfl (fun l hl => by rw [List.mem_singleton.mp hl]; rfl)
    (by rw [hpc]; simp [phase, who, phOf, move]) (fun u => ⟨rfl, rfl⟩)

theorem run_ok {s : S} {R W tw tc} (t : Nat) (h : Inv s R W tw tc) (hb : R.length < 4294967295) :
    StepOk s R W (run s t) := by
  cases hpc : s.pc t with
  | idle => exact run_idle h hb hpc
  | rW => exact run_rW h hb hpc
  | rC => exact run_rC h hb hpc
  | rReset => exact run_rReset h hb hpc
  | rLoad => exact run_rLoad h hb hpc
  | rStore v => exact run_rStore h hb hpc
  | rRelC r => exact run_rRelC h hb hpc
  | rRelW r => exact run_rRelW h hb hpc
  | rRet r => exact run_rRet h hb hpc
  | wW => exact run_wW h hb hpc
  | wE => exact run_wE h hb hpc
  | wRel => exact run_wRel h hb hpc
  | wRet r => exact run_wRet h hb hpc
  | uC => exact run_uC h hb hpc
  | uTest => exact run_uTest h hb hpc
  | uLoad => exact run_uLoad h hb hpc
  | uStore v => exact run_uStore h hb hpc
  | uZero => exact run_uZero h hb hpc
  | uFire => exact run_uFire h hb hpc
  | uBad => exact run_uBad h hb hpc
  | uBadRet => exact run_uBadRet h hb hpc
  | uRel r => exact run_uRel h hb hpc
  | uRet r => exact run_uRet h hb hpc
  | xRel => exact run_xRel h hb hpc
  | xRet => exact run_xRet h hb hpc

theorem fail_rW {s : S} {R W tw tc} {t : Nat} (h : Inv s R W tw tc)
    (hpc : s.pc t = .rW) : StepOk s R W (fail s t) := by
  unfold fail
  rw [hpc]
  exact .mk (t := t) (p := .idle) (R' := R) (W' := W) (tw' := tw) (tc' := tc) (by inv)
    rfl rfl rfl (fun l hl => by rw [List.mem_singleton.mp hl]; rfl)
    (by rw [hpc]; simp [phase, who, phOf, move]) (fun u => ⟨rfl, rfl⟩)

theorem fail_rC {s : S} {R W tw tc} {t : Nat} (h : Inv s R W tw tc)
    (hpc : s.pc t = .rC) : StepOk s R W (fail s t) := by
  unfold fail
  rw [hpc]
  exact .silent (t := t) (p := .rRelW false) (tw' := tw) (tc' := tc) (by inv) rfl (by rw [hpc]; rfl) rfl rfl

theorem fail_rReset {s : S} {R W tw tc} {t : Nat} (h : Inv s R W tw tc)
    (hpc : s.pc t = .rReset) : StepOk s R W (fail s t) := by
  unfold fail
  rw [hpc]
  exact .silent (t := t) (p := .rRelC false) (tw' := tw) (tc' := tc) (by inv) rfl (by rw [hpc]; rfl) rfl rfl

theorem fail_rRelC {s : S} {R W tw tc} {t : Nat} {r : Bool} (h : Inv s R W tw tc)
    (hpc : s.pc t = .rRelC r) : StepOk s R W (fail s t) := by
  unfold fail
  rw [hpc]
  exact .silent (t := t) (p := .rRelW r) (tw' := tw) (tc' := Option.none) (by cases r <;> inv) rfl (by rw [hpc]; cases r <;> rfl) rfl rfl

theorem fail_rRelW {s : S} {R W tw tc} {t : Nat} {r : Bool} (h : Inv s R W tw tc)
    (hpc : s.pc t = .rRelW r) : StepOk s R W (fail s t) := by
  unfold fail
  rw [hpc]
  exact .silent (t := t) (p := .rRet r) (tw' := Option.none) (tc' := tc) (by cases r <;> inv) rfl
    (by rw [hpc]; cases r <;> rfl) rfl rfl

theorem fail_wW {s : S} {R W tw tc} {t : Nat} (h : Inv s R W tw tc)
    (hpc : s.pc t = .wW) : StepOk s R W (fail s t) := by
  unfold fail
  rw [hpc]
  exact .mk (t := t) (p := .idle) (R' := R) (W' := W) (tw' := tw) (tc' := tc) (by inv)
    rfl rfl rfl (fun l hl => by rw [List.mem_singleton.mp hl]; rfl)
    (by rw [hpc]; simp [phase, who, phOf, move]) (fun u => ⟨rfl, rfl⟩)

theorem fail_wE {s : S} {R W tw tc} {t : Nat} (h : Inv s R W tw tc)
    (hpc : s.pc t = .wE) : StepOk s R W (fail s t) := by
  unfold fail
  rw [hpc]
  exact .silent (t := t) (p := .wRel) (tw' := tw) (tc' := tc) (by inv) rfl (by rw [hpc]; rfl) rfl rfl

theorem fail_wRel {s : S} {R W tw tc} {t : Nat} (h : Inv s R W tw tc)
    (hpc : s.pc t = .wRel) : StepOk s R W (fail s t) := by
  unfold fail
  rw [hpc]
  exact .silent (t := t) (p := .wRet false) (tw' := Option.none) (tc' := tc) (by inv) rfl
    (by rw [hpc]; rfl) rfl rfl

theorem fail_uC {s : S} {R W tw tc} {t : Nat} (h : Inv s R W tw tc)
    (hpc : s.pc t = .uC) : StepOk s R W (fail s t) := by
  unfold fail
  rw [hpc]
  exact .mk (t := t) (p := .idle) (R' := R) (W' := W) (tw' := tw) (tc' := tc) (by inv)
    rfl rfl rfl (fun l hl => by rw [List.mem_singleton.mp hl]; rfl)
    (by rw [hpc]; simp [phase, who, phOf, move]) (fun u => ⟨rfl, rfl⟩)

theorem fail_uFire {s : S} {R W tw tc} {t : Nat} (h : Inv s R W tw tc)
    (hpc : s.pc t = .uFire) : StepOk s R W (fail s t) := by
  unfold fail
  rw [hpc]
  exact .silent (t := t) (p := .uRel false) (tw' := tw) (tc' := tc) (by inv) rfl (by rw [hpc]; rfl) rfl rfl

theorem fail_uBad {s : S} {R W tw tc} {t : Nat} (h : Inv s R W tw tc)
    (hpc : s.pc t = .uBad) : StepOk s R W (fail s t) := by
  unfold fail
  rw [hpc]
  exact .silent (t := t) (p := .uBadRet) (tw' := tw) (tc' := Option.none) (by inv) rfl
    (by rw [hpc]; rfl) rfl rfl

theorem fail_uRel {s : S} {R W tw tc} {t : Nat} {r : Bool} (h : Inv s R W tw tc)
    (hpc : s.pc t = .uRel r) : StepOk s R W (fail s t) := by
  unfold fail
  rw [hpc]
  exact .silent (t := t) (p := .uRet r) (tw' := tw) (tc' := Option.none) (by inv) rfl
    (by rw [hpc]; rfl) rfl rfl

theorem fail_xRel {s : S} {R W tw tc} {t : Nat} (h : Inv s R W tw tc)
    (hpc : s.pc t = .xRel) : StepOk s R W (fail s t) := by
  unfold fail
  rw [hpc]
  exact .mk (t := t) (p := .xRet) (R' := R) (W' := Option.none) (tw' := Option.none) (tc' := tc) (by inv)
    (by
      show (effect (R, W) (.exitW t)).bind _ = _
      rw [effect, if_pos (h.w1 t (Or.inr (Or.inl hpc)))]; rfl) rfl rfl
    (fun l hl => by rw [List.mem_singleton.mp hl]; rfl)
    (by rw [hpc]; simp [phase, who, phOf, move]) (fun u => ⟨rfl, rfl⟩)

theorem fail_ok {s : S} {R W tw tc} (t : Nat) (h : Inv s R W tw tc) : StepOk s R W (fail s t) := by
  cases hpc : s.pc t with
  | rW => exact fail_rW h hpc
  | rC => exact fail_rC h hpc
  | rReset => exact fail_rReset h hpc
  | rRelC r => exact fail_rRelC h hpc
  | rRelW r => exact fail_rRelW h hpc
  | wW => exact fail_wW h hpc
  | wE => exact fail_wE h hpc
  | wRel => exact fail_wRel h hpc
  | uC => exact fail_uC h hpc
  | uFire => exact fail_uFire h hpc
  | uBad => exact fail_uBad h hpc
  | uRel r => exact fail_uRel h hpc
  | xRel => exact fail_xRel h hpc
  | _ => unfold fail; rw [hpc]; exact .none

theorem step_callRead {s : S} {R W tw tc} (t : Nat) (h : Inv s R W tw tc) :
    StepOk s R W (step false s (.callRead t)) := by
  unfold step
  dsimp only
  split
  · rename_i hpc
    exact .mk (t := t) (p := .rW) (R' := R) (W' := W) (tw' := tw) (tc' := tc) (by inv)
      rfl rfl rfl (fun l hl => by rw [List.mem_singleton.mp hl]; rfl)
      (by rw [hpc]; simp [phase, who, phOf, move]) (fun u => ⟨rfl, rfl⟩)
  · exact .none

theorem step_callWrite {s : S} {R W tw tc} (t : Nat) (h : Inv s R W tw tc) :
    StepOk s R W (step false s (.callWrite t)) := by
  unfold step
  dsimp only
  split
  · rename_i hpc
    exact .mk (t := t) (p := .wW) (R' := R) (W' := W) (tw' := tw) (tc' := tc) (by inv)
      rfl rfl rfl (fun l hl => by rw [List.mem_singleton.mp hl]; rfl)
      (by rw [hpc]; simp [phase, who, phOf, move]) (fun u => ⟨rfl, rfl⟩)
  · exact .none

theorem step_callReadUnlock {s : S} {R W tw tc} (t : Nat) (h : Inv s R W tw tc) :
    StepOk s R W (step false s (.callReadUnlock t)) := by
  unfold step
  dsimp only
  split
  · rename_i hpc
    obtain ⟨hpc, hd⟩ := hpc
    exact .mk (t := t) (p := .uC) (R' := R) (W' := W) (tw' := tw) (tc' := tc) (by inv)
      rfl rfl rfl (fun l hl => by rw [List.mem_singleton.mp hl]; rfl)
      (by rw [hpc]; simp [phase, who, phOf, move])
      (fun u => by simp [reading, writing, S.goto, setAt]; grind)
  · exact .none

theorem step_callWriteUnlock {s : S} {R W tw tc} (t : Nat) (h : Inv s R W tw tc) :
    StepOk s R W (step false s (.callWriteUnlock t)) := by
  unfold step
  dsimp only
  split
  · rename_i hpc
    obtain ⟨hpc, hd⟩ := hpc
    exact .mk (t := t) (p := .xRel) (R' := R) (W' := W) (tw' := tw) (tc' := tc) (by inv)
      rfl rfl rfl (fun l hl => by rw [List.mem_singleton.mp hl]; rfl)
      (by rw [hpc]; simp [phase, who, phOf, move])
      (fun u => by simp [reading, writing, S.goto, setAt]; grind)
  · exact .none

theorem step_ok {s : S} {R W tw tc} (a : Act) (h : Inv s R W tw tc) (hb : R.length < 4294967295) :
    StepOk s R W (step false s a) := by
  cases a with
  | callRead t => exact step_callRead t h
  | callWrite t => exact step_callWrite t h
  | callReadUnlock t => exact step_callReadUnlock t h
  | callWriteUnlock t => exact step_callWriteUnlock t h
  | run t => exact run_ok t h hb
  | fail t => exact fail_ok t h

theorem atomic_append (h : Inside) (as bs : List Label) :
    atomic h (as ++ bs) = (atomic h as).bind (atomic · bs) := by
  induction as generalizing h with
  | nil => rfl
  | cons l as ih =>
    rw [List.cons_append, atomic, atomic, Option.bind_assoc]
    congr 1
    funext x
    exact ih x

theorem phase_append (t : Nat) (p : Option Phase) (as bs : List Label) :
    phase t p (as ++ bs) = phase t (phase t p as) bs := by
  induction as generalizing p with
  | nil => rfl
  | cons l as ih => rw [List.cons_append, phase, ih]; rfl

theorem readers_append (n : Nat) (as bs : List Label) :
    readers n (as ++ bs) = readers (readers n as) bs := by
  induction as generalizing n with
  | nil => rfl
  | cons l as ih => cases l <;> simp [readers, ih]

theorem reading_append (t n : Nat) (as bs : List Label) :
    reading t n (as ++ bs) = reading t (reading t n as) bs := by
  induction as generalizing n with
  | nil => rfl
  | cons l as ih =>
    cases l with
    | retRead u r => cases r <;> simp [reading, ih]
    | _ => simp [reading, ih]

theorem writing_append (t : Nat) (n : Bool) (as bs : List Label) :
    writing t n (as ++ bs) = writing t (writing t n as) bs := by
  induction as generalizing n with
  | nil => rfl
  | cons l as ih =>
    cases l with
    | retWrite u r => cases r <;> simp [writing, ih]
    | _ => simp [writing, ih]

theorem exec_ok (as : List Act) : ∀ {s : S} {R W tw tc} {pre : List Label} (_ : Inv s R W tw tc)
    (_ : atomic ([], none) pre = some (R, W)) (_ : R.length = readers 0 pre)
    (_ : ∀ t, phase t (some .out) pre = some (phOf (s.pc t)))
    (_ : ∀ t, s.rd t = reading t 0 pre ∧ s.wr t = writing t false pre)
    (_ : Few (pre ++ (exec false s as).2)),
    ∃ R' W' tw' tc', Inv (exec false s as).1 R' W' tw' tc' ∧
      atomic ([], none) (pre ++ (exec false s as).2) = some (R', W') ∧
      (∀ t, phase t (some .out) (pre ++ (exec false s as).2)
        = some (phOf ((exec false s as).1.pc t))) ∧
      ∀ t, (exec false s as).1.rd t = reading t 0 (pre ++ (exec false s as).2) ∧
        (exec false s as).1.wr t = writing t false (pre ++ (exec false s as).2) := by
  induction as with
  | nil =>
    intro s R W tw tc pre hi ha hr hp hg _
    simp only [exec, List.append_nil]
    exact ⟨R, W, tw, tc, hi, ha, hp, hg⟩
  | cons a as ih =>
    intro s R W tw tc pre hi ha hr hp hg hf
    have hok := step_ok a hi (by rw [hr]; exact hf pre ⟨_, rfl⟩)
    rw [exec] at hf ⊢
    cases hs : step false s a with
    | none =>
      rw [hs] at hf
      exact ih hi ha hr hp hg hf
    | some x =>
      obtain ⟨s1, l1⟩ := x
      rw [hs] at hf
      obtain ⟨R1, W1, tw1, tc1, hi1, ha1, hr1, hp1, hg1⟩ := hok s1 l1 hs
      dsimp only at hf ⊢
      rw [← List.append_assoc] at hf ⊢
      refine ih hi1 ?_ ?_ ?_ ?_ hf
      · rw [atomic_append, ha]; exact ha1
      · rw [readers_append, ← hr]; exact hr1
      · intro t
        rw [phase_append, hp]; exact hp1 t
      · intro t
        rw [reading_append, writing_append, ← (hg t).1, ← (hg t).2]
        exact hg1 t

end Verif.RwLock
