import Verif.Client.SemCore

/-! # The ring buffer -/

namespace Verif.Client.Sem

open Verif.Sem (Label isRet isCall)

/-- A boolean as a number. -/
def one (b : Bool) : Nat := if b then 1 else 0

theorem one_le {p q : Prop} [Decidable p] [Decidable q] (h : p → q) : one (decide p) ≤ one (decide q) := by
  by_cases hp : p
  · simp [one, hp, h hp]
  · simp [one, hp]

theorem seeWait_ok {t : Nat} {p p' : Pos} {l : Label} (h : seeWait t p l = some p') :
    one (p' = .use) ≤ one (p = .use) + one (isRet l) ∧ (p' = .give → p = .give) := by
  cases l with
  | callWait u w =>
    simp only [seeWait] at h
    split at h <;> cases h
    simp [one]
  | retWait u r =>
    simp only [seeWait] at h
    cases h
    by_cases e : u = t ∧ p = .waiting
    · rw [if_pos e]; cases r <;> simp [one, isRet]
    · rw [if_neg e]; exact ⟨Nat.le_add_right _ _, id⟩
  | _ => cases h; exact ⟨Nat.le_add_right _ _, id⟩

theorem seeRelease_ok {t : Nat} {p p' : Pos} {l : Label} (h : seeRelease t p l = some p') :
    one (isCall l) + one (p' = .give) ≤ one (p = .give) + one (isFail l) ∧ (p' = .use → p = .use) := by
  cases l with
  | callRelease u =>
    simp only [seeRelease] at h
    split at h <;> cases h
    rename_i e
    simp [one, isCall, e.2]
  | retRelease u r v =>
    simp only [seeRelease] at h
    cases h
    by_cases e : u = t ∧ p = .releasing
    · rw [if_pos e]; cases r <;> simp [one, isCall, isFail]
    · rw [if_neg e]; exact ⟨by simp [one, isCall], id⟩
  | _ => cases h; exact ⟨by simp [one, isCall], id⟩

theorem watch_ok {t u : Nat} {ls : List Label} : ∀ {p q p' q' : Pos}, watch t u p q ls = some (p', q') →
    one (p' = .use) ≤ one (p = .use) + ls.countP isRet ∧
    ls.countP isCall + one (q' = .give) ≤ one (q = .give) + ls.countP isFail ∧
    (p' = .give → p = .give) ∧ (q' = .use → q = .use) := by
  induction ls with
  | nil => intro p q p' q' h; cases h; simp
  | cons l ls ih =>
    intro p q p' q' h
    rw [watch] at h
    cases h1 : seeWait t p l with
    | none => rw [h1] at h; cases h
    | some p1 =>
      cases h2 : seeRelease u q l with
      | none => rw [h1, h2] at h; cases h
      | some q1 =>
        rw [h1, h2] at h
        have h : watch t u p1 q1 ls = some (p', q') := h
        obtain ⟨a1, a2, a3, a4⟩ := ih h
        obtain ⟨b1, b2⟩ := seeWait_ok h1
        obtain ⟨c1, c2⟩ := seeRelease_ok h2
        refine ⟨?_, ?_, fun e => b2 (a3 e), fun e => c2 (a4 e)⟩
        · rw [List.countP_cons]
          have : (if isRet l = true then 1 else 0) = one (isRet l) := rfl
          omega
        · rw [List.countP_cons, List.countP_cons]
          have : (if isCall l = true then 1 else 0) = one (isCall l) := rfl
          have : (if isFail l = true then 1 else 0) = one (isFail l) := rfl
          omega

structure Inv {L A α : Type} (step : L → A → CRes (Option (L × List Label))) (e f : L) (n : Nat) (inp : Nat → α)
    (s : Ring L α) : Prop where
  tE : Trace step e s.empty s.trE
  tF : Trace step f s.full s.trF
  e1 : s.i + one (s.prod = .use) ≤ s.trE.countP isRet
  e2 : s.trE.countP isCall + one (s.cons = .give) ≤ s.out.length + s.trE.countP isFail
  f1 : s.out.length + one (s.cons = .use) ≤ s.trF.countP isRet
  f2 : s.trF.countP isCall + one (s.prod = .give) ≤ s.i + s.trF.countP isFail
  slots : ∀ k, s.out.length ≤ k → k < s.i → s.slots (k % n) = some (inp k)
  out : s.out = (List.range s.out.length).map fun k => some (inp k)

theorem mod_ne {n k i : Nat} (h1 : k < i) (h2 : i < k + n) : k % n ≠ i % n := by
  intro e
  have h3 : (i - k) % n = 0 := Nat.sub_mod_eq_zero_of_mod_eq e.symm
  have h4 : (i - k) % n = i - k := Nat.mod_eq_of_lt (by omega)
  omega

theorem Inv.room {L A α : Type} {step : L → A → CRes (Option (L × List Label))} {e f : L} {n : Nat} {inp : Nat → α}
    {s : Ring L α} (he : Credit step e n) (hf : Credit step f 0) (h : Inv step e f n inp s) :
    s.i + one (s.prod = .use) ≤ s.out.length + n ∧ s.out.length + one (s.cons = .use) ≤ s.i := by
  have h1 := he _ _ h.tE
  have h2 := hf _ _ h.tF
  have := h.e1
  have := h.e2
  have := h.f1
  have := h.f2
  omega

theorem reach_inv {L A α : Type} {step : L → A → CRes (Option (L × List Label))} {e f : L} {n : Nat} {inp : Nat → α}
    {s : Ring L α} (he : Credit step e n) (hf : Credit step f 0) (h : Reach step e f n inp s) : Inv step e f n inp s := by
  induction h with
  | start => exact ⟨.nil, .nil, Nat.le_refl 0, Nat.le_refl 0, Nat.le_refl 0, Nat.le_refl 0,
    fun k _ h => absurd h (Nat.not_lt_zero _), rfl⟩
  | @empty s a c ls p q _ hs hw ih =>
    obtain ⟨h1, h2, h3, h4⟩ := watch_ok hw
    have h3 := one_le h3
    have h4 := one_le h4
    have g1 := ih.e1
    have g2 := ih.e2
    have g3 := ih.f1
    have g4 := ih.f2
    refine ⟨.snoc ih.tE hs, ih.tF, ?_, ?_, ?_, ?_, ih.slots, ih.out⟩ <;> dsimp only <;>
      (try rw [List.countP_append]) <;> (try rw [List.countP_append]) <;> omega
  | @full s a c ls p q _ hs hw ih =>
    obtain ⟨h1, h2, h3, h4⟩ := watch_ok hw
    have h3 := one_le h3
    have h4 := one_le h4
    have g1 := ih.e1
    have g2 := ih.e2
    have g3 := ih.f1
    have g4 := ih.f2
    refine ⟨ih.tE, .snoc ih.tF hs, ?_, ?_, ?_, ?_, ih.slots, ih.out⟩ <;> dsimp only <;>
      (try rw [List.countP_append]) <;> (try rw [List.countP_append]) <;> omega
  | @put s _ hp ih =>
    have hr := (ih.room he hf).1
    have g1 := ih.e1
    have g4 := ih.f2
    rw [hp] at hr g1 g4
    have e1 : one (decide (Pos.use = Pos.use)) = 1 := rfl
    have e2 : one (decide (Pos.use = Pos.give)) = 0 := rfl
    have e3 : one (decide (Pos.give = Pos.use)) = 0 := rfl
    have e4 : one (decide (Pos.give = Pos.give)) = 1 := rfl
    refine ⟨ih.tE, ih.tF, ?_, ih.e2, ih.f1, ?_, fun k h1 h2 => ?_, ih.out⟩
    · dsimp only; omega
    · dsimp only; omega
    · dsimp only at h1 h2 ⊢
      by_cases e : k = s.i
      · rw [e, put_self]
      · rw [put_ne _ _ (mod_ne (by omega) (by omega))]
        exact ih.slots k h1 (by omega)
  | @get s _ hc ih =>
    have hr := (ih.room he hf).2
    have g2 := ih.e2
    have g3 := ih.f1
    rw [hc] at hr g2 g3
    have e1 : one (decide (Pos.use = Pos.use)) = 1 := rfl
    have e2 : one (decide (Pos.use = Pos.give)) = 0 := rfl
    have e3 : one (decide (Pos.give = Pos.use)) = 0 := rfl
    have e4 : one (decide (Pos.give = Pos.give)) = 1 := rfl
    have hs := ih.slots s.out.length (Nat.le_refl _) (by omega)
    refine ⟨ih.tE, ih.tF, ih.e1, ?_, ?_, ih.f2, fun k h1 h2 => ?_, ?_⟩
    · dsimp only; rw [List.length_append, List.length_singleton]; omega
    · dsimp only; rw [List.length_append, List.length_singleton]; omega
    · simp only [List.length_append, List.length_singleton] at h1
      exact ih.slots k (by omega) h2
    · simp only [List.length_append, List.length_singleton, List.range_succ, List.map_append, List.map_cons,
        List.map_nil, hs, ← ih.out]

theorem reach_in_order {L A α : Type} {step : L → A → CRes (Option (L × List Label))} {e f : L} {n : Nat} {inp : Nat → α}
    {s : Ring L α} (he : Credit step e n) (hf : Credit step f 0) (h : Reach step e f n inp s) :
    s.out = ((List.range s.out.length).map fun k => some (inp k)) ∧ s.out.length ≤ s.i ∧ s.i ≤ s.out.length + n ∧
    ∀ k, s.out.length ≤ k → k < s.i → s.slots (k % n) = some (inp k) := by
  have hi := reach_inv he hf h
  have := hi.room he hf
  exact ⟨hi.out, by omega, by omega, hi.slots⟩

theorem reach_in_turn {L A α : Type} {step : L → A → CRes (Option (L × List Label))} {e f : L} {n : Nat} {inp : Nat → α}
    {s : Ring L α} (he : Credit step e n) (hf : Credit step f 0) (h : Reach step e f n inp s) :
    (s.prod = .use → ∀ k, s.out.length ≤ k → k < s.i → k % n ≠ s.i % n) ∧
    (s.cons = .use → s.slots (s.out.length % n) = some (inp s.out.length)) := by
  have hi := reach_inv he hf h
  have hr := hi.room he hf
  refine ⟨fun e k h1 h2 => mod_ne h2 ?_, fun e => hi.slots _ (Nat.le_refl _) ?_⟩
  · rw [e] at hr
    have : one (decide (Pos.use = Pos.use)) = 1 := rfl
    omega
  · rw [e] at hr
    have : one (decide (Pos.use = Pos.use)) = 1 := rfl
    omega

theorem reach_turns {L A α : Type} {step : L → A → CRes (Option (L × List Label))} {e f : L} {n : Nat} {inp : Nat → α}
    (as : List (Do A)) : ∀ {s s' : Ring L α}, Reach step e f n inp s → turns step n inp s as = some s' →
    Reach step e f n inp s' := by
  induction as with
  | nil => intro s s' h e1; cases e1; exact h
  | cons a as ih =>
    intro s s' h e2
    rw [turns] at e2
    cases e1 : turn step n inp s a with
    | none => rw [e1] at e2; cases e2
    | some s1 =>
      rw [e1] at e2
      refine ih ?_ e2
      cases a with
      | empty a =>
        simp only [turn] at e1
        split at e1
        · rename_i c ls hs
          cases hw : watch 0 1 s.prod s.cons ls with
          | none => rw [hw] at e1; cases e1
          | some r => rw [hw] at e1; cases e1; exact .empty h hs hw
        · cases e1
      | full a =>
        simp only [turn] at e1
        split at e1
        · rename_i c ls hs
          cases hw : watch 1 0 s.cons s.prod ls with
          | none => rw [hw] at e1; cases e1
          | some r => rw [hw] at e1; cases e1; exact .full h hs hw
        · cases e1
      | put =>
        simp only [turn] at e1
        split at e1 <;> cases e1
        exact .put h (by assumption)
      | get =>
        simp only [turn] at e1
        split at e1 <;> cases e1
        exact .get h (by assumption)

end Verif.Client.Sem
