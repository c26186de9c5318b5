import Verif.Client.MutexModel
import Verif.Mutex.PropsFull
import Verif.WinMutex.Props

/-! # The program and the history of its calls -/

namespace Verif.Client

open Verif.Mutex (Label)
open Verif.Mutex.Spec

variable {S A σ : Type}

/-- Histories of the library in which threads end only when they have nothing locked. -/
inductive Trace (step : S → A → CRes (Option (S × List Label))) (init : S) (quits : A → Option Nat) :
    S → List Label → Prop
  | nil : Trace step init quits init []
  | snoc {s c : S} {a : A} {tr ls : List Label} : Trace step init quits s tr → step s a = .ok (some (c, ls)) →
      (∀ t, quits a = some t → ∀ o, depth t o 0 tr = 0) → Trace step init quits c (tr ++ ls)

/-- What is used of the library. -/
structure Good (step : S → A → CRes (Option (S × List Label))) (init : S) (quits : A → Option Nat) : Prop where
  short : ∀ s a c ls, step s a = .ok (some (c, ls)) → ls.length ≤ 2
  phase : ∀ s ls, Trace step init quits s ls → Shallow ls → ∀ t, (phase t (some .out) ls).isSome = true
  one : ∀ s ls, Trace step init quits s ls → Shallow ls → ∀ t o t' o', Holds t o ls → Holds t' o' ls → t = t'

/-- Client, depth and phase of a thread go together. -/
def Rel (c : Cl σ) (d : Nat → Nat) (p : Option Phase) : Prop :=
  match c with
  | .idle => (∀ o, d o = 0) ∧ p = some .out
  | .locking o => (∀ o, d o = 0) ∧ (p = some (.locking o) ∨ p = some (.locked o) ∨ p = some (.lockFailed o))
  | .inside o => (∀ q, d q = if q = o then 1 else 0) ∧ p = some .out
  | .loaded o _ => (∀ q, d q = if q = o then 1 else 0) ∧ p = some .out
  | .unlocking o => (∀ q, d q = if q = o then 1 else 0) ∧
      ∃ b, p = some (.unlocking o b) ∨ p = some (.left o b) ∨ p = some (.unlockFailed o b)

def J (cl : Nat → Cl σ) (tr : List Label) : Prop :=
  ∀ t, Rel (cl t) (fun o => depth t o 0 tr) (phase t (some .out) tr)

theorem Rel.le {c : Cl σ} {d : Nat → Nat} {p : Option Phase} (h : Rel c d p) (o : Nat) : d o ≤ 1 := by
  cases c with
  | idle => have := h.1 o; omega
  | locking => have := h.1 o; omega
  | _ =>
    have := h.1 o
    rw [this]
    split <;> omega

theorem depth_one (t o d : Nat) (l : Label) : depth t o d [l] ≤ d + 1 := by
  cases l with
  | retLock t' o' r =>
    cases r
    · simp only [depth]; omega
    · simp only [depth]; split <;> omega
  | retUnlock t' o' all r =>
    cases r
    · simp only [depth]; omega
    · simp only [depth]; split
      · split <;> omega
      · omega
  | _ => simp only [depth]; omega

theorem depth_le (t o : Nat) (ls : List Label) (d : Nat) : depth t o d ls ≤ d + ls.length := by
  induction ls generalizing d with
  | nil => exact Nat.le_add_right _ _
  | cons l ls ih =>
    rw [show l :: ls = [l] ++ ls from rfl, Verif.Mutex.depth_append]
    have h1 := ih (depth t o d [l])
    have h2 := depth_one t o d l
    simp only [List.length_append, List.length_singleton]
    omega

theorem phase_other {t : Nat} {p : Option Phase} {l : Label} (h : who l ≠ t) : phase t p [l] = p := by
  rw [phase, if_neg h]; rfl

theorem phase_self {t : Nat} {p : Option Phase} {l : Label} (h : who l = t) :
    phase t p [l] = p.bind (move · l) := by
  rw [phase, if_pos h]; rfl

theorem depth_other {t o d : Nat} {l : Label} (h : who l ≠ t) : depth t o d [l] = d := by
  cases l with
  | retLock t' o' r => cases r <;> simp only [depth]; rw [if_neg (fun e => h e.1)]
  | retUnlock t' o' all r => cases r <;> simp only [depth]; rw [if_neg (fun e => h e.1)]
  | _ => rfl

theorem put_self {α : Type} (f : Nat → α) (t : Nat) (x : α) : put f t x t = x := if_pos rfl
theorem put_ne {α : Type} (f : Nat → α) {t u : Nat} (x : α) (h : u ≠ t) : put f t x u = f u := if_neg h

theorem see_other {cl cl' : Nat → Cl σ} {l : Label} {t : Nat} (h : see cl l = some cl') (ht : who l ≠ t) :
    cl' t = cl t := by
  have ht := Ne.symm ht
  cases l with
  | callLock u o w =>
    unfold see at h
    dsimp only at h
    split at h <;> cases h
    exact put_ne _ _ ht
  | callUnlock u o w =>
    unfold see at h
    dsimp only at h
    split at h
    · split at h <;> cases h
      exact put_ne _ _ ht
    · cases h
  | retLock u o r => cases r <;> cases h <;> exact put_ne _ _ ht
  | retUnlock u o b r => cases r <;> cases h <;> exact put_ne _ _ ht
  | _ => cases h; rfl

theorem move_retLock {p p' : Phase} {t o : Nat} {r : Bool} (h : move p (.retLock t o r) = some p') :
    p' = .out ∧ p = if r then .locked o else .lockFailed o := by
  cases p <;> cases r <;> simp [move] at h <;> obtain ⟨rfl, rfl⟩ := h <;> exact ⟨rfl, rfl⟩

theorem move_retUnlock {p p' : Phase} {t o : Nat} {b r : Bool} (h : move p (.retUnlock t o b r) = some p') :
    p' = .out ∧ p = if r then .left o b else .unlockFailed o b := by
  cases p <;> cases r <;> simp [move] at h <;> obtain ⟨⟨rfl, rfl⟩, rfl⟩ := h <;> exact ⟨rfl, rfl⟩

theorem J_one {cl cl' : Nat → Cl σ} {tr : List Label} {l : Label} (h : J cl tr) (hs : see cl l = some cl')
    (hp : ∀ t, (phase t (some .out) (tr ++ [l])).isSome = true) : J cl' (tr ++ [l]) := by
  intro t
  have ht := h t
  have hp := hp t
  simp only [Verif.Mutex.depth_append, Verif.Mutex.phase_append] at hp ⊢
  by_cases hw : who l = t
  · subst hw
    rw [phase_self rfl] at hp ⊢
    generalize phase (who l) (some .out) tr = p at ht hp ⊢
    generalize hd : (fun o => depth (who l) o 0 tr) = d at ht
    have hd : ∀ o, depth (who l) o 0 tr = d o := fun o => by rw [← hd]
    simp only [hd]
    cases l with
    | callLock u o w =>
      unfold see at hs
      simp only [who] at *
      split at hs <;> cases hs
      rename_i hc
      rw [hc] at ht
      rw [put_self]
      obtain ⟨h1, rfl⟩ := ht
      exact ⟨h1, .inl rfl⟩
    | callUnlock u o b =>
      unfold see at hs
      simp only [who] at *
      split at hs
      · rename_i q hc
        split at hs <;> cases hs
        rename_i e
        subst e
        rw [hc] at ht
        rw [put_self]
        obtain ⟨h1, rfl⟩ := ht
        exact ⟨h1, b, .inl rfl⟩
      · cases hs
    | retLock u o r =>
      simp only [who] at *
      cases p with
      | none => cases hp
      | some p =>
        obtain ⟨p', hm⟩ := Option.isSome_iff_exists.1 hp
        have hm : move p (.retLock u o r) = some p' := hm
        obtain ⟨rfl, hq⟩ := move_retLock hm
        show Rel _ _ (move p (.retLock u o r))
        rw [hm]
        have hl : ∀ q, d q = 0 := by
          cases hc : cl u with
          | locking o' => rw [hc] at ht; exact ht.1
          | idle => rw [hc] at ht; exact ht.1
          | inside o' => rw [hc] at ht; have := ht.2; rw [hq] at this; cases r <;> cases this
          | loaded o' v => rw [hc] at ht; have := ht.2; rw [hq] at this; cases r <;> cases this
          | unlocking o' =>
            rw [hc] at ht
            obtain ⟨-, b, h | h | h⟩ := ht <;> rw [hq] at h <;> cases r <;> cases h
        cases r with
        | true =>
          cases hs
          rw [put_self]
          refine ⟨fun q => ?_, rfl⟩
          simp only [depth, hl, true_and]
          simp only [eq_comm]
        | false =>
          cases hs
          rw [put_self]
          exact ⟨fun q => hl q, rfl⟩
    | retUnlock u o b r =>
      simp only [who] at *
      cases p with
      | none => cases hp
      | some p =>
        obtain ⟨p', hm⟩ := Option.isSome_iff_exists.1 hp
        have hm : move p (.retUnlock u o b r) = some p' := hm
        obtain ⟨rfl, hq⟩ := move_retUnlock hm
        show Rel _ _ (move p (.retUnlock u o b r))
        rw [hm]
        have hl : ∀ q, d q = if q = o then 1 else 0 := by
          cases hc : cl u with
          | locking o' => 
            rw [hc] at ht
            obtain ⟨-, h | h | h⟩ := ht <;> rw [hq] at h <;> cases r <;> cases h
          | idle => rw [hc] at ht; have := ht.2; rw [hq] at this; cases r <;> cases this
          | inside o' => rw [hc] at ht; have := ht.2; rw [hq] at this; cases r <;> cases this
          | loaded o' v => rw [hc] at ht; have := ht.2; rw [hq] at this; cases r <;> cases this
          | unlocking o' =>
            rw [hc] at ht
            obtain ⟨h0, b, h | h | h⟩ := ht <;> rw [hq] at h <;> cases r <;> cases h <;> exact h0
        cases r with
        | true =>
          cases hs
          rw [put_self]
          refine ⟨fun q => ?_, rfl⟩
          simp only [depth, hl, true_and]
          by_cases e : q = o
          · subst e; rw [if_pos rfl, if_pos rfl]; cases b <;> rfl
          · rw [if_neg (Ne.symm e), if_neg e]
        | false =>
          cases hs
          rw [put_self]
          exact ⟨fun q => hl q, rfl⟩
    | _ =>
      cases hs
      simp only [who] at *
      cases p with
      | none => cases hp
      | some p =>
        simp only [depth]
        have hp : (move p _).isSome = true := hp
        show Rel _ _ (move p _)
        cases hc : cl _ <;> rw [hc] at ht <;> simp only [Rel] at ht ⊢ <;> refine ⟨ht.1, ?_⟩ <;>
          have ht := ht.2 <;> grind [move]
  · rw [phase_other hw, see_other hs hw]
    simp only [depth_other hw]
    exact ht

end Verif.Client
