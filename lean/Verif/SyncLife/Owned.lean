import Verif.SyncLife.Lemmas

/-!
# Who owns which memory
-/

namespace Verif.SyncLife
open Verif.DirList (lt_of_get get_set set_same)

/-- `ms` says which block each object has: the blocks are alive and all different, there are no other live blocks, and
in the others no `pthread` object is left. -/
structure Owned (bs : List Blk) (ms : List (Option Nat)) : Prop where
  ok : ∀ (i b : Nat), ms[i]? = some (some b) → ∃ k, bs[b]? = some k ∧ k.alive = true
  own : ∀ (i j b : Nat), ms[i]? = some (some b) → ms[j]? = some (some b) → i = j
  used : ∀ (b : Nat) (k : Blk), bs[b]? = some k → k.alive = true → ∃ i : Nat, ms[i]? = some (some b)
  clean : ∀ (b : Nat) (k : Blk), bs[b]? = some k → k.alive = false → k.live = []

theorem Owned.empty : Owned [] [] := ⟨by simp, by simp, by simp, by simp⟩

/-- Object `i` gives its block back. -/
theorem Owned.drop {bs : List Blk} {ms : List (Option Nat)} {i b : Nat} {k : Blk} (h : Owned bs ms)
    (hi : ms[i]? = some (some b)) (hb : bs[b]? = some k) : Owned (bs.set b k.done) (ms.set i none) := by
  have hil := lt_of_get hi
  have hbl := lt_of_get hb
  refine ⟨fun j c hj => ?_, fun j l c h1 h2 => ?_, fun c k' hc ha => ?_, fun c k' hc ha => ?_⟩
  · rw [get_set hil] at hj
    split at hj
    · exact nomatch hj
    · next hne =>
      rw [get_set hbl, if_neg (fun e : c = b => hne (h.own j i b (e ▸ hj) hi))]
      exact h.ok j c hj
  · rw [get_set hil] at h1 h2
    split at h1
    · exact nomatch h1
    · split at h2
      · exact nomatch h2
      · exact h.own j l c h1 h2
  · rw [get_set hbl] at hc
    split at hc
    · cases hc
      exact nomatch ha
    · next hne =>
      obtain ⟨j, hj⟩ := h.used c k' hc ha
      refine ⟨j, ?_⟩
      rw [get_set hil, if_neg]
      · exact hj
      · rintro rfl
        rw [hi] at hj
        cases hj
        exact hne rfl
  · rw [get_set hbl] at hc
    split at hc
    · cases hc
      rfl
    · exact h.clean c k' hc ha

/-- Object `i` gets a new block. -/
theorem Owned.add {bs : List Blk} {ms : List (Option Nat)} {i : Nat} {k : Blk} (h : Owned bs ms)
    (hi : ms[i]? = some none) (hk : k.alive = true) : Owned (bs ++ [k]) (ms.set i (some bs.length)) := by
  have hil := lt_of_get hi
  have hlt : ∀ (j c : Nat), ms[j]? = some (some c) → c < bs.length := by
    intro j c hj
    obtain ⟨k', h1, -⟩ := h.ok j c hj
    exact lt_of_get h1
  refine ⟨fun j c hj => ?_, fun j l c h1 h2 => ?_, fun c k' hc ha => ?_, fun c k' hc ha => ?_⟩
  · rw [get_set hil] at hj
    split at hj
    · cases hj
      exact ⟨k, get_append_self _ _, hk⟩
    · rw [List.getElem?_append_left (hlt j c hj)]
      exact h.ok j c hj
  · rw [get_set hil] at h1 h2
    split at h1
    · next e1 =>
      split at h2
      · next e2 => rw [e1, e2]
      · cases h1
        exact absurd (hlt l _ h2) (Nat.lt_irrefl _)
    · split at h2
      · cases h2
        exact absurd (hlt j _ h1) (Nat.lt_irrefl _)
      · exact h.own j l c h1 h2
  · rcases Nat.lt_trichotomy c bs.length with hl | hl | hl
    · rw [List.getElem?_append_left hl] at hc
      obtain ⟨j, hj⟩ := h.used c k' hc ha
      refine ⟨j, ?_⟩
      rw [get_set hil, if_neg]
      · exact hj
      · rintro rfl
        rw [hi] at hj
        cases hj
    · exact ⟨i, by rw [get_set hil, if_pos rfl, hl]⟩
    · rw [List.getElem?_eq_none (by simp; omega)] at hc
      exact nomatch hc
  · rcases Nat.lt_trichotomy c bs.length with hl | hl | hl
    · rw [List.getElem?_append_left hl] at hc
      exact h.clean c k' hc ha
    · rw [hl, get_append_self] at hc
      cases hc
      rw [hk] at ha
      exact nomatch ha
    · rw [List.getElem?_eq_none (by simp; omega)] at hc
      exact nomatch hc

/-- A new object. -/
theorem Owned.more {bs : List Blk} {ms : List (Option Nat)} (h : Owned bs ms) : Owned bs (ms ++ [none]) := by
  have e : ∀ (j b : Nat), (ms ++ [none])[j]? = some (some b) ↔ ms[j]? = some (some b) := by
    intro j b
    rcases Nat.lt_trichotomy j ms.length with hl | hl | hl
    · rw [List.getElem?_append_left hl]
    · subst hl
      simp
    · rw [List.getElem?_eq_none (by simp; omega), List.getElem?_eq_none (by omega)]
  refine ⟨fun j c hj => h.ok j c ((e j c).mp hj), fun j l c h1 h2 => h.own j l c ((e _ _).mp h1) ((e _ _).mp h2),
    fun c k hc ha => ?_, h.clean⟩
  obtain ⟨j, hj⟩ := h.used c k hc ha
  exact ⟨j, (e _ _).mpr hj⟩

end Verif.SyncLife
