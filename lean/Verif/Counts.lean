/-!
# Counting the labels of a history, thread by thread

Generic lemmas for the models with threads: a relation between two counts that holds for each thread
holds for the whole history.
-/

namespace Verif.Counts

variable {α : Type}

theorem countP_below (who : α → Nat) (P : α → Bool) (ls : List α) (b : Nat) :
    (ls.countP fun l => decide (who l < b + 1) && P l)
      = (ls.countP fun l => decide (who l < b) && P l)
        + (ls.countP fun l => decide (who l = b) && P l) := by
  induction ls with
  | nil => rfl
  | cons l ls ih =>
    rw [List.countP_cons, List.countP_cons, List.countP_cons, ih]
    cases P l
    · simp only [Bool.and_false, Bool.false_eq_true, if_false]; omega
    · simp only [Bool.and_true, decide_eq_true_eq]
      by_cases h1 : who l < b
      · rw [if_pos (by omega), if_pos h1, if_neg (by omega)]; omega
      · by_cases h2 : who l = b
        · rw [if_pos (by omega), if_neg h1, if_pos h2]; omega
        · rw [if_neg (by omega), if_neg h1, if_neg h2]; omega

theorem exists_bound (who : α → Nat) (ls : List α) : ∃ b, ∀ l ∈ ls, who l < b := by
  induction ls with
  | nil => exact ⟨0, fun _ h => nomatch h⟩
  | cons l ls ih =>
    obtain ⟨b, hb⟩ := ih
    refine ⟨max b (who l + 1), fun k hk => ?_⟩
    rcases List.mem_cons.mp hk with e | e
    · rw [e]; omega
    · have := hb k e; omega

theorem counts_le (who : α → Nat) {P Q : α → Bool} {ls : List α}
    (h : ∀ t, (ls.countP fun l => decide (who l = t) && P l)
      ≤ (ls.countP fun l => decide (who l = t) && Q l)) : ls.countP P ≤ ls.countP Q := by
  have hb : ∀ b, (ls.countP fun l => decide (who l < b) && P l)
      ≤ (ls.countP fun l => decide (who l < b) && Q l) := by
    intro b
    induction b with
    | zero => simp
    | succ b ih =>
      rw [countP_below, countP_below]
      have := h b
      omega
  obtain ⟨b, hlt⟩ := exists_bound who ls
  have he : ∀ R : α → Bool, (ls.countP fun l => decide (who l < b) && R l) = ls.countP R := by
    intro R
    refine List.countP_congr fun l hl => ?_
    simp [hlt l hl]
  rw [← he P, ← he Q]
  exact hb b

end Verif.Counts
