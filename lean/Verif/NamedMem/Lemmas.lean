import Verif.NamedMem.Spec
import Mathlib.Data.List.Perm.Subperm

/-! # Invariants of the named object -/

namespace Verif.NamedMem
open Spec

theorem alignSize_ge (al n : Nat) : n ≤ alignSize al n := by
  unfold alignSize; split <;> omega

/-- Positions of a handle that has not seen the object yet. -/
def early : Pc → Bool
  | .idle | .opening | .oOpen | .dead => true
  | _ => false

/-- Positions possible while byte 0 is zero. -/
def dark : Pc → Bool
  | .idle | .opening | .oOpen | .dead | .cMap | .cInit | .cLock | .cByte | .oMap | .oSpin => true
  | _ => false

/-- Positions of the creator. -/
def creating : Pc → Bool
  | .cMap | .cInit | .cLock | .cByte | .cRef | .cRet | .mustInit | .mustReady => true
  | _ => false

/-- Positions of the creator before it set the counter. -/
def fresh : Pc → Bool
  | .cMap | .cInit | .cLock | .cByte | .cRef => true
  | _ => false

/-- Positions at which the handle has the mutex. -/
def own : Pc → Bool
  | .cByte | .cRef | .cRet | .mustInit | .mustReady | .oCheck | .oRef _ | .oUnlock _ | .kDec
  | .kUnlock => true
  | _ => false

/-- Positions at which the handle is counted. -/
def counted : Pc → Bool
  | .cRet | .mustInit | .mustReady | .oUnlock _ | .oRet _ | .opn | .kLock | .kDec => true
  | _ => false

/-- Positions that need the object initialised. -/
def needs : Pc → Bool
  | .mustReady | .oCheck | .oRef _ | .oUnlock _ | .oRet _ | .opn | .kLock | .kDec | .kUnlock
  | .kUnmap => true
  | _ => false

structure Inv (s : S) (g : Stage) (c : Option Nat) : Prop where
  i1 : s.ex = false → s.mtx = .raw ∧ s.byte0 = false ∧ c = none ∧ ∀ t, early (s.pc t) = true
  i2 : s.byte0 = false → s.hold = [] ∧ ∀ t, dark (s.pc t) = true
  i3 : ∀ t, creating (s.pc t) = true → c = some t
  i4 : ∀ t, own (s.pc t) = true → s.mtx = .held t
  i5 : s.mtx = .raw → s.byte0 = false
  i6 : ∀ t, counted (s.pc t) = true → t ∈ s.hold
  i7 : ∀ t, counted (s.pc t) = false → s.pc t ≠ .dead → t ∉ s.hold
  i8 : s.hold.Nodup
  i9 : ∀ t ∈ s.hold, t < 4294967295
  i10 : ∀ t, s.pc t ≠ .idle → s.pc t ≠ .dead → t < 4294967295
  i11 : s.ref = s.hold.length
  i12 : ∀ t, fresh (s.pc t) = true → s.hold = []
  i13 : ∀ t, fresh (s.pc t) = true ∨ s.pc t = .cRet → g = .none
  i14 : ∀ t, s.pc t = .mustInit → g = .pending t
  i15 : ∀ t, needs (s.pc t) = true → g = .done
  i16 : ∀ t r, s.pc t = .oRef r ∨ s.pc t = .oUnlock r ∨ s.pc t = .oRet r → r = .other
  i17 : s.mtx = .free → s.byte0 = true → g = .done
  i18 : s.byte0 = false → g = .none
  i19 : ∀ t, s.pc t = .cMap ∨ s.pc t = .cInit → s.mtx = .raw
  i20 : ∀ t, s.pc t = .cLock → s.mtx = .free
  i21 : ∀ t, s.pc t = .cMap ∨ s.pc t = .cInit ∨ s.pc t = .cLock ∨ s.pc t = .cByte → s.byte0 = false

theorem init_inv : Inv init .none none := by
  constructor <;> simp [init, early, dark, creating, own, counted, fresh, needs]

/-- Positions at which the handle may have the object open. -/
def having : Pc → Bool
  | .mustInit | .mustReady | .opn | .dead => true
  | _ => false

/-- The whole invariant, with the history. -/
structure HInv (s : S) (h : List Label) : Prop where
  inv : ∃ c, Inv s (stage h) c
  held : ∀ t, holds t h = true → t ∈ s.hold ∧ having (s.pc t) = true
  told : ∀ t, .ret t .first ∈ h → stage h ≠ .none

theorem init_hinv : HInv init [] :=
  ⟨⟨none, init_inv⟩, by intro t h; simp [holds] at h, by intro t h; simp at h⟩

/-- The labels are right one after the other. -/
def AllRight (total : Nat) : List Label → List Label → Prop
  | _, [] => True
  | h, l :: ls => right total h l ∧ AllRight total (h ++ [l]) ls

def StepOk (p : Par) (h : List Label) (r : Option (CRes (S × List Label))) : Prop :=
  r = none ∨ ∃ s' ls, r = some (.ok (s', ls)) ∧ HInv s' (h ++ ls) ∧ AllRight p.total h ls

structure ParOk (p : Par) : Prop where
  map : p.total ≤ p.mapped

theorem mutex_in (p : Par) : p.mutexPos + p.msz ≤ p.total := by
  have h1 := alignSize_ge p.al p.msz
  have h2 := alignSize_ge p.al (p.size + p.start)
  simp only [Par.total, Par.start, Par.refPos] at *
  omega

theorem byte_in (p : Par) : 0 + 1 ≤ p.total := by
  have h1 := alignSize_ge p.al 1
  have h2 := alignSize_ge p.al (p.size + p.start)
  simp only [Par.total, Par.start, Par.refPos, Par.mutexPos] at *
  omega

theorem ref_in (p : Par) : p.refPos + 4 ≤ p.total := by
  have h1 := alignSize_ge p.al 4
  have h2 := alignSize_ge p.al (p.size + p.start)
  simp only [Par.total, Par.start] at *
  omega

theorem data_in (p : Par) : p.start + p.size ≤ p.total := by
  have h2 := alignSize_ge p.al (p.size + p.start)
  simp only [Par.total] at *
  omega

theorem stage_touch (h : List Label) (t a b : Nat) : stage (h ++ [.touch t a b]) = stage h := by
  unfold stage
  rw [List.foldl_append]
  simp only [List.foldl_cons, List.foldl_nil]
  cases List.foldl stageStep Stage.none h <;> rfl

theorem holds_touch (h : List Label) (u t a b : Nat) :
    holds u (h ++ [.touch t a b]) = holds u h := by
  unfold holds
  rw [List.foldl_append]
  rfl

theorem HInv.touch {s : S} {h : List Label} (t a b : Nat) (hh : HInv s h) :
    HInv s (h ++ [.touch t a b]) := by
  obtain ⟨h1, h2, h3⟩ := hh
  refine ⟨by rwa [stage_touch], fun u => by rw [holds_touch]; exact h2 u, fun u hu => ?_⟩
  rw [stage_touch]
  exact h3 u (by simpa using hu)

/-- A step that accesses memory and emits `ls`. -/
theorem acc_ok {p : Par} (hp : ParOk p) {h : List Label} {t lo n : Nat} {s' : S} {ls : List Label}
    (hin : lo + n ≤ p.total) (hi : HInv s' (h ++ [.touch t lo (lo + n)] ++ ls))
    (hr : AllRight p.total (h ++ [.touch t lo (lo + n)]) ls) :
    StepOk p h (acc p t lo n (s', ls)) := by
  right
  refine ⟨s', .touch t lo (lo + n) :: ls, ?_, by simpa using hi, hin, hr⟩
  unfold acc
  rw [if_pos (Nat.le_trans hin hp.map)]

theorem HInv.silent {s s' : S} {h : List Label} {t : Nat} {q : Pc} (hh : HInv s h)
    (hinv : ∀ c, Inv s (stage h) c → ∃ c', Inv s' (stage h) c') (hpc : s'.pc = setAt s.pc t q)
    (hno : having (s.pc t) = false) (hsub : ∀ u, u ≠ t → u ∈ s.hold → u ∈ s'.hold) : HInv s' h := by
  obtain ⟨⟨c, h1⟩, h2, h3⟩ := hh
  refine ⟨hinv c h1, fun u hu => ?_, h3⟩
  have := h2 u hu
  have hut : u ≠ t := by rintro rfl; rw [hno] at this; simp at this
  refine ⟨hsub u hut this.1, ?_⟩
  rw [hpc, setAt, if_neg hut]
  exact this.2

/-- A step that accesses memory and emits nothing else. -/
theorem acc_silent {p : Par} (hp : ParOk p) {h : List Label} {t lo n : Nat} {s s' : S} {q : Pc}
    (hin : lo + n ≤ p.total) (hh : HInv s h)
    (hinv : ∀ c, Inv s (stage h) c → ∃ c', Inv s' (stage h) c') (hpc : s'.pc = setAt s.pc t q)
    (hno : having (s.pc t) = false) (hsub : ∀ u, u ≠ t → u ∈ s.hold → u ∈ s'.hold) :
    StepOk p h (acc p t lo n (s', [])) :=
  acc_ok hp hin (by rw [List.append_nil]; exact (hh.silent hinv hpc hno hsub).touch _ _ _) trivial

/-- A step that only moves. -/
theorem move_silent {p : Par} {h : List Label} {t : Nat} {s s' : S} {q : Pc} (hh : HInv s h)
    (hinv : ∀ c, Inv s (stage h) c → ∃ c', Inv s' (stage h) c') (hpc : s'.pc = setAt s.pc t q)
    (hno : having (s.pc t) = false) (hsub : ∀ u, u ≠ t → u ∈ s.hold → u ∈ s'.hold) :
    StepOk p h (some (.ok (s', []))) :=
  .inr ⟨s', [], rfl, by rw [List.append_nil]; exact hh.silent hinv hpc hno hsub, trivial⟩

theorem nodup_bound (l : List Nat) (n : Nat) (h1 : l.Nodup) (h2 : ∀ x ∈ l, x < n) : l.length ≤ n := by
  have h3 : l.Subperm (List.range n) := h1.subperm (fun x hx => List.mem_range.mpr (h2 x hx))
  simpa using h3.length_le

set_option hygiene false in
macro "inv" : tactic => `(tactic|
  (obtain ⟨h1, h2, h3, h4, h5, h6, h7, h8, h9, h10, h11, h12, h13, h14, h15, h16, h17, h18, h19, h20, h21⟩ := h
   constructor <;> simp only [S.goto, setAt] <;>
     grind [early, dark, creating, fresh, own, counted, needs]))

section
variable {p : Par} {s : S} {h : List Label} {t : Nat}

theorem stage_snoc (h : List Label) (l : Label) : stage (h ++ [l]) = stageStep (stage h) l := by
  simp [stage, List.foldl_append]

theorem holds_snoc (u : Nat) (h : List Label) (l : Label) :
    holds u (h ++ [l]) = holdStep u (holds u h) l := by
  simp [holds, List.foldl_append]

theorem told_of_foldl : ∀ (h : List Label) (g : Stage), g = .none → h.foldl stageStep g ≠ .none →
    ∃ t, .ret t .first ∈ h
  | [], g, hg, hn => absurd hg hn
  | l :: h, g, hg, hn => by
    subst hg
    by_cases hl : stageStep .none l = .none
    · obtain ⟨t, ht⟩ := told_of_foldl h _ hl hn
      exact ⟨t, List.mem_cons_of_mem _ ht⟩
    · cases l with
      | ret t r =>
        cases r with
        | first => exact ⟨t, List.mem_cons_self ..⟩
        | fail => exact absurd rfl hl
        | other => exact absurd rfl hl
      | _ => exact absurd rfl hl

theorem told_of_done (h : List Label) (hn : stage h ≠ .none) : ∃ t, .ret t .first ∈ h :=
  told_of_foldl h .none rfl hn

theorem run_opening (hp : ParOk p) (hh : HInv s h) (hpc : s.pc t = .opening) :
    StepOk p h (run p s t) := by
  unfold run
  rw [hpc]
  dsimp only
  split
  · exact move_silent (t := t) (q := .oOpen) hh (fun c h => ⟨c, by inv⟩) rfl (by rw [hpc]; rfl)
      (fun _ _ h => h)
  · exact move_silent (t := t) (q := .cMap) hh (fun c h => ⟨some t, by inv⟩) rfl (by rw [hpc]; rfl)
      (fun _ _ h => h)

theorem run_cMap (hp : ParOk p) (hh : HInv s h) (hpc : s.pc t = .cMap) :
    StepOk p h (run p s t) := by
  unfold run
  rw [hpc]
  dsimp only
  exact move_silent (t := t) (q := .cInit) hh (fun c h => ⟨c, by inv⟩) rfl (by rw [hpc]; rfl)
      (fun _ _ h => h)

theorem run_cInit (hp : ParOk p) (hh : HInv s h) (hpc : s.pc t = .cInit) :
    StepOk p h (run p s t) := by
  unfold run
  rw [hpc]
  dsimp only
  exact acc_silent hp (t := t) (q := .cLock) (mutex_in p) hh (fun c h => ⟨c, by inv⟩) rfl
      (by rw [hpc]; rfl) (fun _ _ h => h)

theorem run_cLock (hp : ParOk p) (hh : HInv s h) (hpc : s.pc t = .cLock) :
    StepOk p h (run p s t) := by
  unfold run
  rw [hpc]
  dsimp only
  have hraw : s.mtx ≠ .raw := by
    obtain ⟨c, h⟩ := hh.inv
    obtain ⟨h1, h2, h3, h4, h5, h6, h7, h8, h9, h10, h11, h12, h13, h14, h15, h16, h17, h18, h19, h20, h21⟩ := h
    grind [dark]
  unfold lock
  split
  · next e => exact absurd e hraw
  · exact acc_silent hp (t := t) (q := .cByte) (mutex_in p) hh (fun c h => ⟨c, by inv⟩) rfl
      (by rw [hpc]; rfl) (fun _ _ h => h)
  · exact .inl rfl

theorem run_cByte (hp : ParOk p) (hh : HInv s h) (hpc : s.pc t = .cByte) :
    StepOk p h (run p s t) := by
  unfold run
  rw [hpc]
  dsimp only
  exact acc_silent hp (t := t) (q := .cRef) (byte_in p) hh (fun c h => ⟨c, by inv⟩) rfl
      (by rw [hpc]; rfl) (fun _ _ h => h)

theorem run_cRef (hp : ParOk p) (hh : HInv s h) (hpc : s.pc t = .cRef) :
    StepOk p h (run p s t) := by
  unfold run
  rw [hpc]
  dsimp only
  have hold : s.hold = [] := by
    obtain ⟨c, h⟩ := hh.inv
    exact h.i12 t (by rw [hpc]; rfl)
  have hfc : ∀ x, fresh x = true → creating x = true := by
    intro x; cases x <;> simp [fresh, creating]
  exact acc_silent hp (t := t) (q := .cRet) (ref_in p) hh (fun c h => ⟨c, by inv⟩) rfl
      (by rw [hpc]; rfl) (fun _ _ h => by rw [hold] at h; cases h)

theorem run_oMap (hp : ParOk p) (hh : HInv s h) (hpc : s.pc t = .oMap) :
    StepOk p h (run p s t) := by
  unfold run
  rw [hpc]
  dsimp only
  exact move_silent (t := t) (q := .oSpin) hh (fun c h => ⟨c, by inv⟩) rfl (by rw [hpc]; rfl)
      (fun _ _ h => h)

theorem run_oSpin (hp : ParOk p) (hh : HInv s h) (hpc : s.pc t = .oSpin) :
    StepOk p h (run p s t) := by
  unfold run
  rw [hpc]
  dsimp only
  split
  · exact acc_silent hp (t := t) (q := .oLock) (byte_in p) hh (fun c h => ⟨c, by inv⟩) rfl
      (by rw [hpc]; rfl) (fun _ _ h => h)
  · exact acc_ok hp (byte_in p) (by rw [List.append_nil]; exact hh.touch _ _ _) trivial

theorem run_oLock (hp : ParOk p) (hh : HInv s h) (hpc : s.pc t = .oLock) :
    StepOk p h (run p s t) := by
  unfold run
  rw [hpc]
  dsimp only
  have hraw : s.mtx ≠ .raw := by
    obtain ⟨c, h⟩ := hh.inv
    obtain ⟨h1, h2, h3, h4, h5, h6, h7, h8, h9, h10, h11, h12, h13, h14, h15, h16, h17, h18, h19, h20, h21⟩ := h
    grind [dark]
  unfold lock
  split
  · next e => exact absurd e hraw
  · exact acc_silent hp (t := t) (q := .oCheck) (mutex_in p) hh (fun c h => ⟨c, by inv⟩) rfl
      (by rw [hpc]; rfl) (fun _ _ h => h)
  · exact .inl rfl

theorem run_oCheck (hp : ParOk p) (hk : Kept h) (hh : HInv s h) (hpc : s.pc t = .oCheck) :
    StepOk p h (run p s t) := by
  unfold run
  rw [hpc]
  dsimp only
  have href : s.ref ≠ 0 := by
    obtain ⟨c, hi⟩ := hh.inv
    have hd : stage h = .done := hi.i15 t (by rw [hpc]; rfl)
    obtain ⟨u, hu⟩ := hk h (List.prefix_refl h) (told_of_done h (by rw [hd]; simp))
    have := (hh.held u hu).1
    rw [hi.i11]
    have := List.length_pos_of_mem this
    omega
  rw [if_pos href]
  exact acc_silent hp (t := t) (q := (.oRef .other)) (ref_in p) hh (fun c h => ⟨c, by inv⟩) rfl
      (by rw [hpc]; rfl) (fun _ _ h => h)

theorem run_oRef {r : Res} (hp : ParOk p) (hh : HInv s h) (hpc : s.pc t = .oRef r) :
    StepOk p h (run p s t) := by
  unfold run
  rw [hpc]
  dsimp only
  have hb : s.hold.length < 4294967295 := by
    obtain ⟨c, hi⟩ := hh.inv
    have h1 := nodup_bound (t :: s.hold) 4294967295
      (List.nodup_cons.mpr ⟨hi.i7 t (by rw [hpc]; rfl) (by rw [hpc]; simp), hi.i8⟩)
      (by
        intro x hx
        rcases List.mem_cons.mp hx with e | e
        · rw [e]; exact hi.i10 t (by rw [hpc]; simp) (by rw [hpc]; simp)
        · exact hi.i9 x e)
    simp at h1
    omega
  have hm : (s.ref + 1) % 4294967296 = s.ref + 1 := by
    obtain ⟨c, hi⟩ := hh.inv
    have := hi.i11
    omega
  rw [hm]
  exact acc_silent hp (t := t) (q := (.oUnlock r)) (ref_in p) hh (fun c h => ⟨c, by inv⟩) rfl
      (by rw [hpc]; rfl) (fun _ _ h => List.mem_cons_of_mem _ h)

theorem run_oUnlock {r : Res} (hp : ParOk p) (hh : HInv s h) (hpc : s.pc t = .oUnlock r) :
    StepOk p h (run p s t) := by
  unfold run
  rw [hpc]
  dsimp only
  unfold unlock
  have hm : s.mtx = .held t := by
    obtain ⟨c, hi⟩ := hh.inv
    exact hi.i4 t (by rw [hpc]; rfl)
  rw [if_pos hm]
  exact acc_silent hp (t := t) (q := (.oRet r)) (mutex_in p) hh (fun c h => ⟨c, by inv⟩) rfl
      (by rw [hpc]; rfl) (fun _ _ h => h)

theorem run_kLock (hp : ParOk p) (hh : HInv s h) (hpc : s.pc t = .kLock) :
    StepOk p h (run p s t) := by
  unfold run
  rw [hpc]
  dsimp only
  have hraw : s.mtx ≠ .raw := by
    obtain ⟨c, h⟩ := hh.inv
    obtain ⟨h1, h2, h3, h4, h5, h6, h7, h8, h9, h10, h11, h12, h13, h14, h15, h16, h17, h18, h19, h20, h21⟩ := h
    grind [dark]
  unfold lock
  split
  · next e => exact absurd e hraw
  · exact acc_silent hp (t := t) (q := .kDec) (mutex_in p) hh (fun c h => ⟨c, by inv⟩) rfl
      (by rw [hpc]; rfl) (fun _ _ h => h)
  · exact .inl rfl

theorem run_kDec (hp : ParOk p) (hh : HInv s h) (hpc : s.pc t = .kDec) :
    StepOk p h (run p s t) := by
  unfold run
  rw [hpc]
  dsimp only
  have he : ∀ u, u ∈ s.hold.erase t ↔ u ≠ t ∧ u ∈ s.hold := by
    obtain ⟨c, hi⟩ := hh.inv
    intro u
    exact hi.i8.mem_erase_iff
  have hl : (s.hold.erase t).length = s.hold.length - 1 := by
    obtain ⟨c, hi⟩ := hh.inv
    exact List.length_erase_of_mem (hi.i6 t (by rw [hpc]; rfl))
  have hn : (s.hold.erase t).Nodup := by
    obtain ⟨c, hi⟩ := hh.inv
    exact hi.i8.erase t
  have hnil : s.hold = [] → s.hold.erase t = [] := by intro e; rw [e]; rfl
  generalize s.hold.erase t = hold' at *
  exact acc_silent hp (t := t) (q := .kUnlock) (ref_in p) hh (fun c h => ⟨c, by inv⟩) rfl
      (by rw [hpc]; rfl) (fun u h1 h2 => (he u).mpr ⟨h1, h2⟩)

theorem run_kUnlock (hp : ParOk p) (hh : HInv s h) (hpc : s.pc t = .kUnlock) :
    StepOk p h (run p s t) := by
  unfold run
  rw [hpc]
  dsimp only
  unfold unlock
  have hm : s.mtx = .held t := by
    obtain ⟨c, hi⟩ := hh.inv
    exact hi.i4 t (by rw [hpc]; rfl)
  rw [if_pos hm]
  exact acc_silent hp (t := t) (q := .kUnmap) (mutex_in p) hh (fun c h => ⟨c, by inv⟩) rfl
      (by rw [hpc]; rfl) (fun _ _ h => h)

/-- A step that emits one label that tells nothing about the stage. -/
theorem label_ok {p : Par} {h : List Label} {t : Nat} {s s' : S} {q : Pc} {l : Label} (hh : HInv s h)
    (hinv : ∀ c, Inv s (stage h) c → ∃ c', Inv s' (stage h) c') (hpc : s'.pc = setAt s.pc t q)
    (hst : stageStep (stage h) l = stage h) (hl : ∀ u, l ≠ .ret u .first)
    (hhold : ∀ u, holdStep u (holds u h) l = true → u ∈ s'.hold ∧ having (s'.pc u) = true)
    (hr : right p.total h l) :
    StepOk p h (some (.ok (s', [l]))) := by
  obtain ⟨⟨c, h1⟩, h2, h3⟩ := hh
  refine .inr ⟨s', [l], rfl, ⟨?_, ?_, ?_⟩, hr, trivial⟩
  · rw [stage_snoc, hst]; exact hinv c h1
  · intro u; rw [holds_snoc]; exact hhold u
  · intro u hu
    rw [stage_snoc, hst]
    rcases List.mem_append.mp hu with e | e
    · exact h3 u e
    · exact absurd (List.mem_singleton.mp e).symm (hl u)

theorem ret_fail (hh : HInv s h) (hpc : s.pc t = .cMap ∨ s.pc t = .oOpen ∨ s.pc t = .oMap) :
    StepOk p h (some (.ok (s.goto t .idle, [.ret t .fail]))) := by
  refine label_ok (t := t) (q := .idle) hh (fun c h => ⟨if s.pc t = .cMap then none else c, ?_⟩) rfl
    (by cases stage h <;> rfl) (by simp) ?_ trivial
  · have hc : s.pc t = .cMap → ∀ u, creating (s.pc u) = true → u = t := by
      intro e u hu
      have h1 := h.i3 u hu
      have h2 := h.i3 t (by rw [e]; rfl)
      rw [h1] at h2
      exact Option.some.inj h2
    inv
  · intro u hu
    simp only [holdStep, ne_eq, not_true, and_false, if_false] at hu
    have := hh.held u hu
    have hut : u ≠ t := by
      rintro rfl
      rcases hpc with e | e | e <;> rw [e] at this <;> simp [having] at this
    refine ⟨this.1, ?_⟩
    simp only [S.goto, setAt, if_neg hut]
    exact this.2

theorem run_cRet (hh : HInv s h) (hpc : s.pc t = .cRet) : StepOk p h (run p s t) := by
  unfold run
  rw [hpc]
  dsimp only
  obtain ⟨⟨c, hi⟩, h2, h3⟩ := hh
  have hg : stage h = .none := hi.i13 t (.inr hpc)
  refine .inr ⟨_, _, rfl, ⟨?_, ?_, ?_⟩, ?_, trivial⟩
  · refine ⟨c, ?_⟩
    have hs : stage (h ++ [.ret t .first]) = .pending t := by
      rw [stage_snoc, hg]; rfl
    rw [hs]
    rw [hg] at hi
    have h := hi
    inv
  · intro u hu
    rw [holds_snoc] at hu
    by_cases hut : u = t
    · subst hut
      exact ⟨hi.i6 u (by rw [hpc]; rfl), by simp [S.goto, setAt, having]⟩
    · simp only [holdStep] at hu
      rw [if_neg (by rintro ⟨e, _⟩; exact hut e.symm)] at hu
      have := h2 u hu
      exact ⟨this.1, by simp only [S.goto, setAt, if_neg hut]; exact this.2⟩
  · intro u _
    rw [stage_snoc, hg]
    simp [stageStep]
  · intro u hu
    exact h3 u hu hg

theorem run_oRet {r : Res} (hh : HInv s h) (hpc : s.pc t = .oRet r) : StepOk p h (run p s t) := by
  unfold run
  rw [hpc]
  dsimp only
  have hr : r = .other := by
    obtain ⟨c, hi⟩ := hh.inv
    exact hi.i16 t r (.inr (.inr hpc))
  subst hr
  refine label_ok (t := t) (q := .opn) hh (fun c h => ⟨c, ?_⟩) rfl
    (by cases stage h <;> rfl) (by simp) ?_ ?_
  · simp only [afterRet]
    inv
  · intro u hu
    obtain ⟨c, hi⟩ := hh.inv
    by_cases hut : u = t
    · subst hut
      exact ⟨hi.i6 u (by rw [hpc]; rfl), by simp [S.goto, setAt, having, afterRet]⟩
    · simp only [holdStep] at hu
      rw [if_neg (by rintro ⟨e, _⟩; exact hut e.symm)] at hu
      have := hh.held u hu
      exact ⟨this.1, by simp only [S.goto, setAt, if_neg hut]; exact this.2⟩
  · obtain ⟨c, hi⟩ := hh.inv
    exact hi.i15 t (by rw [hpc]; rfl)

theorem run_oOpen (hp : ParOk p) (hh : HInv s h) (hpc : s.pc t = .oOpen) :
    StepOk p h (run p s t) := by
  unfold run
  rw [hpc]
  dsimp only
  split
  · exact move_silent (t := t) (q := .oMap) hh (fun c h => ⟨c, by inv⟩) rfl (by rw [hpc]; rfl)
      (fun _ _ h => h)
  · exact ret_fail hh (.inr (.inl hpc))

theorem run_mustInit (hp : ParOk p) (hh : HInv s h) (hpc : s.pc t = .mustInit) :
    StepOk p h (run p s t) := by
  unfold run
  rw [hpc]
  dsimp only
  refine acc_ok hp (data_in p) ?_ ⟨trivial, trivial⟩
  have hh' := hh.touch t p.start (p.start + p.size)
  generalize h ++ [Label.touch t p.start (p.start + p.size)] = h' at *
  obtain ⟨⟨c, hi⟩, h2, h3⟩ := hh'
  have hg : stage h' = .pending t := hi.i14 t hpc
  have hs : stage (h' ++ [.inited t]) = .done := by
    rw [stage_snoc, hg]; simp [stageStep]
  refine ⟨⟨c, ?_⟩, ?_, ?_⟩
  · rw [hs]
    rw [hg] at hi
    have h := hi
    inv
  · intro u hu
    rw [holds_snoc] at hu
    have := h2 u hu
    refine ⟨this.1, ?_⟩
    by_cases hut : u = t
    · simp [S.goto, setAt, if_pos hut, having]
    · simp only [S.goto, setAt, if_neg hut]; exact this.2
  · intro u _
    rw [hs]
    simp

theorem run_mustReady (hp : ParOk p) (hh : HInv s h) (hpc : s.pc t = .mustReady) :
    StepOk p h (run p s t) := by
  unfold run
  rw [hpc]
  dsimp only
  unfold unlock
  have hm : s.mtx = .held t := by
    obtain ⟨c, hi⟩ := hh.inv
    exact hi.i4 t (by rw [hpc]; rfl)
  rw [if_pos hm]
  refine acc_ok hp (mutex_in p) ?_ ⟨trivial, trivial⟩
  have hh' := hh.touch t p.mutexPos (p.mutexPos + p.msz)
  generalize h ++ [Label.touch t p.mutexPos (p.mutexPos + p.msz)] = h' at *
  obtain ⟨⟨c, hi⟩, h2, h3⟩ := hh'
  have hs : stage (h' ++ [.ready t]) = stage h' := by
    rw [stage_snoc]; cases stage h' <;> rfl
  refine ⟨⟨c, ?_⟩, ?_, ?_⟩
  · rw [hs]
    have h := hi
    inv
  · intro u hu
    rw [holds_snoc] at hu
    have := h2 u hu
    refine ⟨this.1, ?_⟩
    by_cases hut : u = t
    · simp [S.goto, setAt, if_pos hut, having]
    · simp only [S.goto, setAt, if_neg hut]; exact this.2
  · intro u hu
    rw [hs]
    exact h3 u (by simpa using hu)

theorem run_kUnmap (hh : HInv s h) (hpc : s.pc t = .kUnmap) :
    StepOk p h (run p s t) := by
  unfold run
  rw [hpc]
  dsimp only
  refine label_ok (t := t) (q := .idle) hh (fun c h => ⟨c, by inv⟩) rfl
    (by cases stage h <;> rfl) (by simp) ?_ trivial
  intro u hu
  have := hh.held u hu
  have hut : u ≠ t := by
    rintro rfl
    rw [hpc] at this; simp [having] at this
  exact ⟨this.1, by simp only [S.goto, setAt, if_neg hut]; exact this.2⟩

theorem run_ok (hp : ParOk p) (hk : Kept h) (hh : HInv s h) : StepOk p h (run p s t) := by
  cases hpc : s.pc t with
  | idle => exact .inl (by unfold run; rw [hpc])
  | opn => exact .inl (by unfold run; rw [hpc])
  | dead => exact .inl (by unfold run; rw [hpc])
  | opening => exact run_opening hp hh hpc
  | cMap => exact run_cMap hp hh hpc
  | cInit => exact run_cInit hp hh hpc
  | cLock => exact run_cLock hp hh hpc
  | cByte => exact run_cByte hp hh hpc
  | cRef => exact run_cRef hp hh hpc
  | cRet => exact run_cRet hh hpc
  | oOpen => exact run_oOpen hp hh hpc
  | oMap => exact run_oMap hp hh hpc
  | oSpin => exact run_oSpin hp hh hpc
  | oLock => exact run_oLock hp hh hpc
  | oCheck => exact run_oCheck hp hk hh hpc
  | oRef r => exact run_oRef hp hh hpc
  | oUnlock r => exact run_oUnlock hp hh hpc
  | oRet r => exact run_oRet hh hpc
  | mustInit => exact run_mustInit hp hh hpc
  | mustReady => exact run_mustReady hp hh hpc
  | kLock => exact run_kLock hp hh hpc
  | kDec => exact run_kDec hp hh hpc
  | kUnlock => exact run_kUnlock hp hh hpc
  | kUnmap => exact run_kUnmap hh hpc

theorem fail_ok (hh : HInv s h) : StepOk p h (fail s t) := by
  unfold fail
  split
  · next hpc =>
    exact move_silent (t := t) (q := .oOpen) hh (fun c h => ⟨c, by inv⟩) rfl (by rw [hpc]; rfl)
      (fun _ _ h => h)
  · next hpc => exact ret_fail hh (.inl hpc)
  · next hpc => exact ret_fail hh (.inr (.inl hpc))
  · next hpc => exact ret_fail hh (.inr (.inr hpc))
  · exact .inl rfl

theorem step_ok (hp : ParOk p) (hk : Kept h) (hh : HInv s h) (a : Act) :
    StepOk p h (step p s a) := by
  cases a with
  | run t => exact run_ok hp hk hh
  | fail t => exact fail_ok hh
  | callOpen t =>
    unfold step
    dsimp only
    split
    · next hc =>
      obtain ⟨hpc, hlt⟩ := hc
      refine label_ok (t := t) (q := .opening) hh (fun c h => ⟨c, by inv⟩) rfl
        (by cases stage h <;> rfl) (by simp) ?_ trivial
      intro u hu
      have := hh.held u hu
      have hut : u ≠ t := by
        rintro rfl
        rw [hpc] at this; simp [having] at this
      exact ⟨this.1, by simp only [S.goto, setAt, if_neg hut]; exact this.2⟩
    · exact .inl rfl
  | use t =>
    unfold step
    dsimp only
    split
    · next hpc =>
      have hd : stage h = .done := by
        obtain ⟨c, hi⟩ := hh.inv
        exact hi.i15 t (by rw [hpc]; rfl)
      refine acc_ok hp (data_in p) ?_ ⟨?_, trivial⟩
      · have hh' := hh.touch t p.start (p.start + p.size)
        generalize h ++ [Label.touch t p.start (p.start + p.size)] = h' at *
        obtain ⟨⟨c, hi⟩, h2, h3⟩ := hh'
        have hs : stage (h' ++ [.use t]) = stage h' := by
          rw [stage_snoc]; cases stage h' <;> rfl
        exact ⟨⟨c, by rw [hs]; exact hi⟩, fun u hu => h2 u (by rw [holds_snoc] at hu; exact hu),
          fun u hu => by rw [hs]; exact h3 u (by simpa using hu)⟩
      · show stage _ = _
        rw [stage_touch]; exact hd
    · exact .inl rfl
  | callClose t =>
    unfold step
    dsimp only
    split
    · next hpc =>
      refine label_ok (t := t) (q := .kLock) hh (fun c h => ⟨c, by inv⟩) rfl
        (by cases stage h <;> rfl) (by simp) ?_ trivial
      intro u hu
      have hut : u ≠ t := by
        rintro rfl
        simp [holdStep] at hu
      simp only [holdStep, if_neg (Ne.symm hut)] at hu
      have := hh.held u hu
      exact ⟨this.1, by simp only [S.goto, setAt, if_neg hut]; exact this.2⟩
    · exact .inl rfl
  | crash t =>
    unfold step
    dsimp only
    refine label_ok (t := t) (q := .dead) hh (fun c h => ⟨c, by inv⟩) rfl
      (by cases stage h <;> rfl) (by simp) ?_ trivial
    intro u hu
    have := hh.held u hu
    refine ⟨this.1, ?_⟩
    by_cases hut : u = t
    · simp [S.goto, setAt, if_pos hut, having]
    · simp only [S.goto, setAt, if_neg hut]; exact this.2

end

theorem kept_prefix {a b : List Label} (h : Kept (a ++ b)) : Kept a :=
  fun q hq => h q (hq.trans (List.prefix_append ..))

theorem allRight_append (n : Nat) : ∀ (a b h : List Label), AllRight n h a → AllRight n (h ++ a) b →
    AllRight n h (a ++ b)
  | [], _, _, _, hb => by simpa using hb
  | l :: a, b, h, ha, hb => by
    refine ⟨ha.1, allRight_append n a b (h ++ [l]) ha.2 ?_⟩
    simpa using hb

theorem allRight_mem (n : Nat) : ∀ (ls h q : List Label) (l : Label), AllRight n h ls →
    q ++ [l] <+: ls → right n (h ++ q) l
  | [], h, q, l, _, hq => by
    have := hq.length_le; simp at this
  | a :: ls, h, [], l, ha, hq => by
    have : l = a := by
      obtain ⟨r, hr⟩ := hq
      simp at hr
      exact hr.1
    subst this
    simpa using ha.1
  | a :: ls, h, b :: q, l, ha, hq => by
    obtain ⟨r, hr⟩ := hq
    simp only [List.cons_append, List.cons.injEq] at hr
    obtain ⟨rfl, hr⟩ := hr
    have := allRight_mem n ls (h ++ [b]) q l ha.2 ⟨r, hr⟩
    simpa using this

theorem exec_ok {p : Par} (hp : ParOk p) : ∀ (as : List Act) (s : S) (h : List Label), HInv s h →
    Kept (h ++ (exec p s as).1) →
    (∃ s', (exec p s as).2 = .ok s') ∧ AllRight p.total h (exec p s as).1
  | [], s, h, _, _ => ⟨⟨s, rfl⟩, trivial⟩
  | a :: as, s, h, hh, hk => by
    rcases step_ok hp (h := h) (kept_prefix hk) hh a with e | ⟨s', ls, e, hh', hr⟩
    · simp only [exec, e] at hk ⊢
      exact exec_ok hp as s h hh hk
    · simp only [exec, e] at hk ⊢
      rw [← List.append_assoc] at hk
      obtain ⟨h1, h2⟩ := exec_ok hp as s' (h ++ ls) hh' hk
      exact ⟨h1, allRight_append _ _ _ _ hr h2⟩

end Verif.NamedMem
