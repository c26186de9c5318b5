import Verif.Client.JoinModel
import Verif.Client.SemCore

/-! # Counting what the workers have given -/

namespace Verif.Client.Join

open Verif.Sem (Label Act S step init exec isRet isTake isGive isCall)
open Verif.Client.Sem (isFail)
open Verif.Sem.Spec

/-- A `Release` that has succeeded. -/
def isSucc : Label → Bool
  | .retRelease _ true _ => true
  | _ => false

/-- The worker has still to release. -/
def Owes (c : Cl) : Prop := c = .working ∨ c = .again

structure K (n : Nat) (p : P) (tr : List Label) : Prop where
  owes : ∀ ts : List Nat, ts.Nodup → (∀ t ∈ ts, t < n ∧ Owes (p.cl t)) → tr.countP isCall + ts.length ≤ n + tr.countP isFail
  done : ∀ ts : List Nat, ts.Nodup → (∀ t ∈ ts, p.cl t = .finished) → ts.length ≤ tr.countP isSucc
  got : p.got ≤ tr.countP isRet

theorem small {n : Nat} : ∀ {ts : List Nat}, ts.Nodup → (∀ t ∈ ts, t < n) → ts.length ≤ n := by
  induction n with
  | zero =>
    intro ts _ h
    cases ts with
    | nil => exact Nat.le_refl _
    | cons t ts => exact absurd (h t List.mem_cons_self) (Nat.not_lt_zero t)
  | succ n ih =>
    intro ts hn h
    have h1 := ih (hn.erase n) fun u hu => by
      have := (List.Nodup.mem_erase_iff hn).1 hu
      have := h u this.2
      omega
    have h2 : ts.length ≤ (ts.erase n).length + 1 := by
      rw [List.length_erase]
      split <;> omega
    omega

theorem K_start (n : Nat) : K n ⟨fun _ => .working, false, 0⟩ [] where
  owes := fun ts hn h => by
    have := small hn fun t ht => (h t ht).1
    simpa using this
  done := fun ts _ h => by
    cases ts with
    | nil => exact Nat.le_refl _
    | cons t ts => exact nomatch h t List.mem_cons_self
  got := Nat.le_refl _

theorem len_erase {ts : List Nat} (t : Nat) : ts.length ≤ (ts.erase t).length + 1 := by
  rw [List.length_erase]
  split <;> omega

theorem K_same {n : Nat} {p p' : P} {tr : List Label} {l : Label} (h : K n p tr) (hc : p'.cl = p.cl)
    (hl : isCall l = false) (hg : p'.got ≤ p.got + if isRet l = true then 1 else 0) : K n p' (tr ++ [l]) where
  owes := fun ts hn hts => by
    have := h.owes ts hn (by rw [hc] at hts; exact hts)
    simp only [List.countP_append, List.countP_singleton, hl, Bool.false_eq_true, if_false]
    omega
  done := fun ts hn hts => by
    have := h.done ts hn (by rw [hc] at hts; exact hts)
    rw [List.countP_append]
    omega
  got := by
    have := h.got
    rw [List.countP_append, List.countP_singleton]
    omega

theorem K_one {n : Nat} {p p' : P} {tr : List Label} {l : Label} (h : K n p tr) (hs : see n p l = some p') :
    K n p' (tr ++ [l]) := by
  cases l with
  | callWait u w =>
    simp only [see] at hs
    split at hs <;> cases hs
    exact K_same h rfl rfl (Nat.le_add_right _ _)
  | retWait u r =>
    simp only [see] at hs
    cases hs
    split
    · cases r with
      | true => exact K_same h rfl rfl (Nat.le_refl _)
      | false => exact K_same h rfl rfl (Nat.le_refl _)
    · exact K_same h rfl rfl (Nat.le_add_right _ _)
  | callRelease u =>
    simp only [see] at hs
    split at hs <;> cases hs
    rename_i hu
    refine ⟨fun ts hn hts => ?_, fun ts hn hts => ?_, ?_⟩
    · have hnot : u ∉ ts := fun hm => by
        have := (hts u hm).2
        dsimp only at this
        rw [put_self] at this
        rcases this with e | e <;> cases e
      have := h.owes (u :: ts) (List.nodup_cons.2 ⟨hnot, hn⟩) fun t ht => by
        rcases List.mem_cons.1 ht with e | e
        · rw [e]; exact hu
        · have h1 := hts t e
          dsimp only at h1
          rw [put_ne _ _ (fun (e' : t = u) => hnot (e' ▸ e))] at h1
          exact h1
      simp [isCall, isFail] at this ⊢
      omega
    · have := h.done ts hn fun t ht => by
        have h1 := hts t ht
        dsimp only at h1
        by_cases e : t = u
        · rw [e, put_self] at h1; cases h1
        · rwa [put_ne _ _ e] at h1
      rw [List.countP_append]
      omega
    · have := h.got
      rw [List.countP_append]
      dsimp only
      omega
  | retRelease u r v =>
    simp only [see] at hs
    cases hs
    split
    · refine ⟨fun ts hn hts => ?_, fun ts hn hts => ?_, ?_⟩
      · dsimp only at hts
        cases r with
        | true =>
          have := h.owes ts hn fun t ht => by
            have h1 := hts t ht
            by_cases e : t = u
            · rw [e, put_self] at h1; rcases h1.2 with e | e <;> cases e
            · rwa [put_ne _ _ e] at h1
          simp [isCall, isFail] at this ⊢
          omega
        | false =>
          have := h.owes (ts.erase u) (hn.erase u) fun t ht => by
            have h2 := (List.Nodup.mem_erase_iff hn).1 ht
            have h1 := hts t h2.2
            rwa [put_ne _ _ h2.1] at h1
          have h3 := len_erase (ts := ts) u
          simp [isCall, isFail] at this ⊢
          omega
      · dsimp only at hts
        cases r with
        | true =>
          have := h.done (ts.erase u) (hn.erase u) fun t ht => by
            have h2 := (List.Nodup.mem_erase_iff hn).1 ht
            have h1 := hts t h2.2
            rwa [put_ne _ _ h2.1] at h1
          have h3 := len_erase (ts := ts) u
          simp [isSucc] at this ⊢
          omega
        | false =>
          have := h.done ts hn fun t ht => by
            have h1 := hts t ht
            by_cases e : t = u
            · rw [e, put_self] at h1; cases h1
            · rwa [put_ne _ _ e] at h1
          rw [List.countP_append]
          omega
      · have := h.got
        rw [List.countP_append]
        dsimp only
        omega
    · exact K_same h rfl rfl (Nat.le_add_right _ _)
  | take t => cases hs; exact K_same h rfl rfl (Nat.le_add_right _ _)
  | give t v => cases hs; exact K_same h rfl rfl (Nat.le_add_right _ _)

theorem K_follow {n : Nat} {ls : List Label} : ∀ {p p' : P} {tr : List Label}, K n p tr → follow n p ls = some p' → K n p' (tr ++ ls) := by
  induction ls with
  | nil => intro p p' tr h hf; cases hf; rw [List.append_nil]; exact h
  | cons l ls ih =>
    intro p p' tr h hf
    rw [follow] at hf
    cases hs : see n p l with
    | none => rw [hs] at hf; cases hf
    | some p1 =>
      rw [hs] at hf
      rw [show tr ++ l :: ls = (tr ++ [l]) ++ ls by simp]
      exact ih (K_one h hs) hf

/-- Results can only be finished, never begun again. -/
theorem see_working {n : Nat} {p p' : P} {l : Label} {t : Nat} (hs : see n p l = some p') (h : p'.cl t = .working) : p.cl t = .working := by
  have pt : ∀ (u : Nat) (c : Cl), c ≠ .working → put p.cl u c t = .working → p.cl t = .working := by
    intro u c hc h
    by_cases e : t = u
    · rw [e, put_self] at h; exact absurd h hc
    · rwa [put_ne _ _ e] at h
  cases l with
  | callWait u w => simp only [see] at hs; split at hs <;> cases hs; exact h
  | retWait u r => simp only [see] at hs; cases hs; split at h <;> exact h
  | callRelease u => simp only [see] at hs; split at hs <;> cases hs; exact pt u _ (by decide) h
  | retRelease u r v =>
    simp only [see] at hs; cases hs
    split at h
    · exact pt u _ (by cases r <;> decide) h
    · exact h
  | take t => cases hs; exact h
  | give t v => cases hs; exact h

theorem follow_working {n : Nat} {ls : List Label} {t : Nat} : ∀ {p p' : P}, follow n p ls = some p' → p'.cl t = .working → p.cl t = .working := by
  induction ls with
  | nil => intro p p' hf h; cases hf; exact h
  | cons l ls ih =>
    intro p p' hf h
    rw [follow] at hf
    cases hs : see n p l with
    | none => rw [hs] at hf; cases hf
    | some p1 => rw [hs] at hf; exact see_working hs (ih hf h)

structure Inv {L A σ : Type} (step : L → A → CRes (Option (L × List Label))) (e : L) (n : Nat) (s : St L σ) : Prop where
  trace : Sem.Trace step e s.lib s.tr
  k : K n s.p s.tr
  seen : ∀ x ∈ s.seen, x.1 < n ∧ s.p.cl x.1 ≠ .working ∧ s.data x.1 = x.2

theorem all_done {L A σ : Type} {step : L → A → CRes (Option (L × List Label))} {e : L} {n k : Nat} {s : St L σ}
    (he : Sem.Credit step e k) (h : Inv step e n s) (hg : s.p.got = k + n) {t : Nat} (ht : t < n) : ¬ Owes (s.p.cl t) := by
  intro ho
  have h1 := he _ _ h.trace
  have h2 := h.k.owes [t] (by simp) (by simp [ht, ho])
  have h3 := h.k.got
  simp only [List.length_singleton] at h2
  omega

theorem run_inv {L A σ : Type} {step : L → A → CRes (Option (L × List Label))} {e : L} {n k : Nat} (he : Sem.Credit step e k)
    (as : List (Do A σ)) : ∀ {s : St L σ}, Inv step e n s → Inv step e n (run step n k s as) := by
  induction as with
  | nil => intro s h; exact h
  | cons a as ih =>
    intro s h
    rw [run]
    cases hs : next step n k s a with
    | none => exact ih h
    | some s' =>
      refine ih ?_
      cases a with
      | lib a =>
        simp only [next] at hs
        split at hs
        · rename_i c ls hc
          cases hf : follow n s.p ls with
          | none => rw [hf] at hs; cases hs
          | some p =>
            rw [hf] at hs
            cases hs
            exact ⟨.snoc h.trace hc, K_follow h.k hf,
              fun x hx => ⟨(h.seen x hx).1, fun hw => (h.seen x hx).2.1 (follow_working hf hw), (h.seen x hx).2.2⟩⟩
        · cases hs
      | build t d =>
        simp only [next] at hs
        split at hs <;> cases hs
        rename_i ht
        refine ⟨h.trace, h.k, fun x hx => ⟨(h.seen x hx).1, (h.seen x hx).2.1, ?_⟩⟩
        have hne : x.1 ≠ t := fun e' => (h.seen x hx).2.1 (e' ▸ ht.2)
        show put s.data t d x.1 = x.2
        rw [put_ne _ _ hne]
        exact (h.seen x hx).2.2
      | read t =>
        simp only [next] at hs
        split at hs <;> cases hs
        rename_i ht
        refine ⟨h.trace, h.k, fun x hx => ?_⟩
        rcases List.mem_append.1 hx with hx | hx
        · exact h.seen x hx
        · rw [List.mem_singleton.1 hx]
          exact ⟨ht.1, fun hw => all_done he h ht.2.2 ht.1 (.inl hw), rfl⟩

theorem begin_inv {L A σ : Type} (step : L → A → CRes (Option (L × List Label))) (e : L) (n : Nat) (d : Nat → σ) :
    Inv step e n (begin0 e d) := ⟨.nil, K_start n, fun _ h => nomatch h⟩

/-! ## Nothing is lost -/

theorem atomic_exact {max : Nat} (hm : max < 4294967296) : ∀ {ls : List Label} {m v : Nat}, atomic max m ls = some v →
    m + ls.countP isGive ≤ max → v + ls.countP isTake = m + ls.countP isGive := by
  intro ls
  induction ls with
  | nil => intro m v h _; cases h; rfl
  | cons l ls ih =>
    intro m v h hle
    cases l with
    | take t =>
      rw [atomic] at h
      split at h
      · simp only [List.countP_cons, isTake, isGive, Bool.false_eq_true, if_false, if_true] at hle ⊢
        have := ih h (by omega)
        omega
      · cases h
    | give t q =>
      rw [atomic] at h
      split at h
      · simp only [List.countP_cons, isTake, isGive, Bool.false_eq_true, if_false, if_true] at hle ⊢
        have e : min max ((m + 1) % 4294967296) = m + 1 := by
          rw [Nat.mod_eq_of_lt (by omega)]; omega
        rw [e] at h
        have := ih h (by omega)
        omega
      · cases h
    | callWait t w => replace h : atomic max m ls = some v := h; simpa [List.countP_cons, isTake, isGive] using ih h (by simpa [List.countP_cons, isGive] using hle)
    | retWait t r => replace h : atomic max m ls = some v := h; simpa [List.countP_cons, isTake, isGive] using ih h (by simpa [List.countP_cons, isGive] using hle)
    | callRelease t => replace h : atomic max m ls = some v := h; simpa [List.countP_cons, isTake, isGive] using ih h (by simpa [List.countP_cons, isGive] using hle)
    | retRelease t r q => replace h : atomic max m ls = some v := h; simpa [List.countP_cons, isTake, isGive] using ih h (by simpa [List.countP_cons, isGive] using hle)

def took : Phase → Nat
  | .took => 1
  | _ => 0

def gave : Phase → Nat
  | .gave _ => 1
  | _ => 0

theorem move_took {p q : Phase} {l : Label} (h : move p l = some q) :
    (if isTake l = true then 1 else 0) + took p = (if isRet l = true then 1 else 0) + took q := by
  unfold move at h
  split at h
  case h_7 => split at h <;> cases h; simp [isTake, isRet, took]
  all_goals cases h <;> simp [isTake, isRet, took]

theorem move_gave {p q : Phase} {l : Label} (h : move p l = some q) :
    (if isSucc l = true then 1 else 0) + gave q = (if isGive l = true then 1 else 0) + gave p := by
  unfold move at h
  split at h
  case h_7 => split at h <;> cases h; simp [isSucc, isGive, gave]
  all_goals cases h <;> simp [isSucc, isGive, gave]

theorem phase_took {t : Nat} {p q : Phase} {ls : List Label} (h : phase t (some p) ls = some q) :
    (ls.countP fun l => decide (who l = t) && isTake l) + took p = (ls.countP fun l => decide (who l = t) && isRet l) + took q ∧
    (ls.countP fun l => decide (who l = t) && isSucc l) + gave q = (ls.countP fun l => decide (who l = t) && isGive l) + gave p := by
  induction ls generalizing p with
  | nil => cases h; exact ⟨rfl, rfl⟩
  | cons l ls ih =>
    rw [phase] at h
    by_cases hw : who l = t
    · rw [if_pos hw] at h
      cases hm : move p l with
      | none =>
        rw [show (some p).bind (move · l) = none from hm] at h
        have h0 := congrArg Option.isSome h
        rw [Verif.Sem.phase_none] at h0
        cases h0
      | some r =>
        rw [show (some p).bind (move · l) = some r from hm] at h
        have h1 := ih h
        have h2 := move_took hm
        have h3 := move_gave hm
        simp only [List.countP_cons, hw, decide_true, Bool.true_and] at h1 ⊢
        omega
    · rw [if_neg hw] at h
      have := ih h
      simp only [List.countP_cons, hw, decide_false, Bool.false_and, Bool.false_eq_true, if_false] at this ⊢
      exact this

end Verif.Client.Join
