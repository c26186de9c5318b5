import Verif.Utf8.Model
import Verif.Utf8.Spec

namespace Verif.Utf8

open Spec

/-! ## Bits -/

theorem or_c0 {a : Nat} (h : a < 32) : 0xC0 ||| a = 0xC0 + a :=
  (by decide : ∀ a : Fin 32, 0xC0 ||| a.val = 0xC0 + a.val) ⟨a, h⟩

theorem or_e0 {a : Nat} (h : a < 16) : 0xE0 ||| a = 0xE0 + a :=
  (by decide : ∀ a : Fin 16, 0xE0 ||| a.val = 0xE0 + a.val) ⟨a, h⟩

theorem or_f0 {a : Nat} (h : a < 8) : 0xF0 ||| a = 0xF0 + a :=
  (by decide : ∀ a : Fin 8, 0xF0 ||| a.val = 0xF0 + a.val) ⟨a, h⟩

theorem or_80 {a : Nat} (h : a < 64) : 0x80 ||| a = 0x80 + a :=
  (by decide : ∀ a : Fin 64, 0x80 ||| a.val = 0x80 + a.val) ⟨a, h⟩

theorem and_3f (a : Nat) : a &&& 0x3F = a % 64 := Nat.and_two_pow_sub_one_eq_mod a 6
theorem and_1f (a : Nat) : a &&& 0x1F = a % 32 := Nat.and_two_pow_sub_one_eq_mod a 5
theorem and_0f (a : Nat) : a &&& 0x0F = a % 16 := Nat.and_two_pow_sub_one_eq_mod a 4
theorem and_07 (a : Nat) : a &&& 0x07 = a % 8 := Nat.and_two_pow_sub_one_eq_mod a 3
theorem and_3ff (a : Nat) : a &&& 0x3FF = a % 1024 := Nat.and_two_pow_sub_one_eq_mod a 10

theorem and_fffe (a : Nat) : (a &&& 0xFFFE) = 0xFFFE ↔ a % 0x10000 ≥ 0xFFFE := by
  have h1 : a &&& 0xFFFE = (a % 0x10000) &&& 0xFFFE := by
    have : a &&& 0xFFFE = a &&& (0xFFFF &&& 0xFFFE) := by rfl
    rw [this, ← Nat.and_assoc]
    congr 1
    exact Nat.and_two_pow_sub_one_eq_mod a 16
  rw [h1]
  have h2 : a % 0x10000 < 0x10000 := Nat.mod_lt _ (by decide)
  generalize a % 0x10000 = b at h2 ⊢
  have h3 : b &&& 0xFFFE = b / 2 * 2 := by
    apply Nat.eq_of_testBit_eq
    intro i
    rw [Nat.testBit_and]
    cases i with
    | zero =>
      simp [Nat.testBit_zero]
    | succ i =>
      rw [Nat.testBit_succ, Nat.testBit_succ, Nat.testBit_succ, Nat.mul_div_cancel _ (by decide)]
      rw [← Nat.testBit_and]
      rw [show (0xFFFE / 2 : Nat) = 2 ^ 15 - 1 from rfl, Nat.and_two_pow_sub_one_eq_mod,
        Nat.mod_eq_of_lt (by omega)]
  rw [h3]
  omega

theorem shift_or {a b i : Nat} (h : b < 2 ^ i) : (a <<< i) ||| b = a * 2 ^ i + b := by
  rw [← Nat.shiftLeft_add_eq_or_of_lt h, Nat.shiftLeft_eq]

/-- The classification of lead bytes. -/
theorem lead2 {a : Nat} (h : a < 32) : (0xC0 + a) &&& 0xE0 = 0xC0 :=
  (by decide : ∀ a : Fin 32, (0xC0 + a.val) &&& 0xE0 = 0xC0) ⟨a, h⟩
theorem lead3 {a : Nat} (h : a < 16) :
    (0xE0 + a) &&& 0xF0 = 0xE0 ∧ (0xE0 + a) &&& 0xE0 ≠ 0xC0 :=
  (by decide : ∀ a : Fin 16, (0xE0 + a.val) &&& 0xF0 = 0xE0 ∧ (0xE0 + a.val) &&& 0xE0 ≠ 0xC0) ⟨a, h⟩
theorem lead4 {a : Nat} (h : a < 8) :
    (0xF0 + a) &&& 0xF8 = 0xF0 ∧ (0xF0 + a) &&& 0xE0 ≠ 0xC0 ∧ (0xF0 + a) &&& 0xF0 ≠ 0xE0 :=
  (by decide : ∀ a : Fin 8, (0xF0 + a.val) &&& 0xF8 = 0xF0 ∧ (0xF0 + a.val) &&& 0xE0 ≠ 0xC0 ∧
    (0xF0 + a.val) &&& 0xF0 ≠ 0xE0) ⟨a, h⟩
theorem cont {a : Nat} (h : a < 64) : (0x80 + a) &&& 0xC0 = 0x80 :=
  (by decide : ∀ a : Fin 64, (0x80 + a.val) &&& 0xC0 = 0x80) ⟨a, h⟩

/-! ## Code point tests -/

theorem isCombining_iff (n : Nat) : isCombining n = true ↔ Combining n := by
  simp only [isCombining, Combining, Bool.or_eq_true, Bool.and_eq_true, decide_eq_true_eq, ge_iff_le]
  omega

theorem valid_iff (n : Nat) : Valid n ↔ reserved n = false ∧ n ≤ 0x10FFFF := by
  rw [← Bool.not_eq_true]
  simp only [reserved, Valid, Bool.or_eq_true, Bool.and_eq_true, decide_eq_true_eq, ge_iff_le,
    beq_iff_eq, and_fffe]
  omega

/-! ## Storing -/

theorem put_ok : ∀ (vs : List Nat) (b : List Nat) (i : Nat), i + vs.length ≤ b.length →
    put b i vs = .ok (b.take i ++ vs ++ b.drop (i + vs.length))
  | [], b, i, _ => by simp [put]
  | v :: vs, b, i, h => by
    simp only [List.length_cons] at h
    rw [put, wr_ok _ (show i < b.length by omega), ok_bind, put_ok vs _ (i + 1) (by simp; omega)]
    congr 1
    rw [List.take_add_one, List.take_set_of_le (Nat.le_refl _),
      List.drop_set_of_lt (show i < i + 1 + vs.length by omega)]
    simp [show i < b.length by omega, Nat.add_assoc, Nat.add_comm 1]

theorem store_null (n max : Nat) (vs : List Nat) :
    store ⟨none, n⟩ max vs = .ok (true, ⟨none, n + vs.length⟩) := rfl

theorem store_fit (b : List Nat) (n max : Nat) (vs : List Nat) (h0 : vs ≠ [])
    (h : n + vs.length ≤ max) (hm : max ≤ b.length) :
    store ⟨some b, n⟩ max vs =
      .ok (true, ⟨some (b.take n ++ vs ++ b.drop (n + vs.length)), n + vs.length⟩) := by
  have : 0 < vs.length := List.length_pos_iff.2 h0
  simp only [store]
  rw [if_neg (by omega), put_ok vs b n (by omega), ok_bind]

theorem store_full (b : List Nat) (n max : Nat) (vs : List Nat) (h0 : vs ≠ [])
    (h : max < n + vs.length) : store ⟨some b, n⟩ max vs = .ok (false, ⟨some b, n⟩) := by
  have : 0 < vs.length := List.length_pos_iff.2 h0
  simp only [store]
  rw [if_pos (by omega)]

theorem enc8_ne (n : Nat) : enc8 n ≠ [] := by unfold enc8; (repeat' split) <;> simp
theorem enc16_ne (n : Nat) : enc16 n ≠ [] := by unfold enc16; (repeat' split) <;> simp

theorem enc_ne (w n : Nat) : enc w n ≠ [] := by
  unfold enc
  split
  · exact enc8_ne n
  · split
    · exact enc16_ne n
    · simp

/-- The bytes the code computes are the standard form. -/
theorem appendUTF8_valid {cp : Nat} (d : D) (max : Nat) (h : Valid cp)
    (hc : ¬ (d.size = 0 ∧ Combining cp)) : appendUTF8 cp d max = store d max (enc8 cp) := by
  obtain ⟨h1, h2⟩ := (valid_iff cp).1 h
  unfold appendUTF8
  rw [h1, if_neg (by simp), if_neg (by rw [isCombining_iff]; exact hc)]
  unfold enc8
  by_cases a1 : cp < 0x80
  · rw [if_pos a1, if_pos (by omega), Nat.mod_eq_of_lt (by omega)]
  · rw [if_neg a1, if_neg (by omega)]
    by_cases a2 : cp < 0x800
    · rw [if_pos a2, if_pos (by omega), Nat.shiftRight_eq_div_pow, and_3f, or_c0 (by omega),
        or_80 (by omega), Nat.mod_eq_of_lt (by omega), Nat.mod_eq_of_lt (by omega)]
    · rw [if_neg a2, if_neg (by omega)]
      by_cases a3 : cp < 0x10000
      · rw [if_pos a3, if_pos (by omega)]
        simp only [Nat.shiftRight_eq_div_pow, and_3f]
        rw [or_e0 (by omega), or_80 (show cp / 2 ^ 6 % 64 < 64 by omega),
          or_80 (show cp % 64 < 64 by omega),
          Nat.mod_eq_of_lt (show 0xE0 + cp / 2 ^ 12 < 256 by omega),
          Nat.mod_eq_of_lt (show 0x80 + cp / 2 ^ 6 % 64 < 256 by omega),
          Nat.mod_eq_of_lt (show 0x80 + cp % 64 < 256 by omega)]
      · rw [if_neg a3, if_neg (by omega), if_pos h2]
        simp only [Nat.shiftRight_eq_div_pow, and_3f]
        rw [or_f0 (by omega), or_80 (show cp / 2 ^ 12 % 64 < 64 by omega),
          or_80 (show cp / 2 ^ 6 % 64 < 64 by omega),
          or_80 (show cp % 64 < 64 by omega),
          Nat.mod_eq_of_lt (show 0xF0 + cp / 2 ^ 18 < 256 by omega),
          Nat.mod_eq_of_lt (show 0x80 + cp / 2 ^ 12 % 64 < 256 by omega),
          Nat.mod_eq_of_lt (show 0x80 + cp / 2 ^ 6 % 64 < 256 by omega),
          Nat.mod_eq_of_lt (show 0x80 + cp % 64 < 256 by omega)]

theorem appendUTF8_combining {cp : Nat} (d : D) (max : Nat)
    (h : ¬ Valid cp ∨ (d.size = 0 ∧ Combining cp)) : appendUTF8 cp d max = .ok (false, d) := by
  unfold appendUTF8
  split
  · rfl
  · rename_i hr
    split
    · rfl
    · rename_i hc
      rw [isCombining_iff] at hc
      have hv : ¬ Valid cp := h.resolve_right hc
      rw [valid_iff] at hv
      have : ¬ cp ≤ 0x10FFFF := fun hh => hv ⟨by simpa using hr, hh⟩
      rw [if_neg (by omega), if_neg (by omega), if_neg (by omega), if_neg (by omega)]

/-- The wide form the code computes is the standard form. -/
theorem appendUTF_valid {cp : Nat} (d : D) (w max : Nat) (hw : w = 1 ∨ w = 2 ∨ w = 4) (h : Valid cp)
    (hc : ¬ (d.size = 0 ∧ Combining cp)) : appendUTF cp d w max = store d max (enc w cp) := by
  unfold appendUTF enc
  by_cases h1 : w = 1
  · rw [if_pos h1, if_pos h1]; exact appendUTF8_valid d max h hc
  · obtain ⟨h2, h3⟩ := (valid_iff cp).1 h
    have h4 : (reserved cp || decide (cp > 0x10FFFF)) = false := by
      rw [h2, Bool.false_or, decide_eq_false_iff_not]; omega
    rw [if_neg h1, if_neg h1, h4, if_neg Bool.false_ne_true,
      if_neg (by rw [isCombining_iff]; exact hc)]
    by_cases hw2 : w = 2
    · rw [if_pos hw2, if_pos hw2]
      unfold enc16
      by_cases a1 : cp < 0x10000
      · rw [if_pos a1, if_neg (by omega), Nat.mod_eq_of_lt (by omega)]
      · rw [if_neg a1, if_pos (by omega), Nat.shiftRight_eq_div_pow, and_3ff, and_3ff]
        rw [show ((cp - 0x10000) / 2 ^ 10 % 1024 + 0xD800) % 65536 = 0xD800 + (cp - 0x10000) / 1024 by
            omega,
          show ((cp - 0x10000) % 1024 + 0xDC00) % 65536 = 0xDC00 + (cp - 0x10000) % 1024 by omega]
    · have hw4 : w = 4 := by omega
      rw [if_neg hw2, if_neg hw2, if_pos hw4]

theorem appendUTF_reject {cp : Nat} (d : D) (w max : Nat)
    (h : ¬ Valid cp ∨ (d.size = 0 ∧ Combining cp)) : appendUTF cp d w max = .ok (false, d) := by
  unfold appendUTF
  split
  · exact appendUTF8_combining d max h
  · split
    · rfl
    · rename_i hr
      split
      · rfl
      · rename_i hc
        rw [isCombining_iff] at hc
        have hv : ¬ Valid cp := h.resolve_right hc
        rw [valid_iff] at hv
        simp only [Bool.or_eq_true, decide_eq_true_eq, not_or, gt_iff_lt, Nat.not_lt] at hr
        exact absurd ⟨by simpa using hr.1, hr.2⟩ hv

/-! ## Decoding -/

theorem conts_total (src : List Nat) : ∀ (k i : Nat), i + k ≤ src.length →
    ∃ c, conts src i k = .ok c
  | 0, i, _ => ⟨true, rfl⟩
  | k + 1, i, h => by
    rw [conts, rd_ok (show i < src.length by omega), ok_bind]
    split
    · exact conts_total src k (i + 1) (by omega)
    · exact ⟨false, rfl⟩

theorem andThen_total {c : Bool} {m : CRes Bool} (h : c = true → ∃ r, m = .ok r) :
    ∃ r, andThen c m = .ok r := by
  unfold andThen
  split
  · rename_i hc; exact h hc
  · exact ⟨false, rfl⟩

theorem andThen_true {c : Bool} {m : CRes Bool} (h : andThen c m = .ok true) : c = true := by
  unfold andThen at h
  split at h
  · assumption
  · cases h

/-- Decoding reads only inside the source and moves on by at least one. -/
theorem decodeAt_total (src : List Nat) (x : Nat) (hx : x < src.length) :
    ∃ r, decodeAt src x = .ok r ∧ ∀ cp len, r = some (cp, len) → 1 ≤ len ∧ x + len ≤ src.length := by
  unfold decodeAt
  rw [rd_ok hx]
  simp only [ok_bind]
  split
  · exact ⟨_, rfl, fun cp len h => by cases h; omega⟩
  · obtain ⟨c2, e2⟩ := andThen_total (c := (x + 1 < src.length && (src[x] &&& 0xE0) == 0xC0))
      (m := conts src (x + 1) 1) (fun h => by
        simp only [Bool.and_eq_true, decide_eq_true_eq] at h
        exact conts_total src 1 (x + 1) (by omega))
    rw [e2, ok_bind]
    split
    · rename_i hc
      subst hc
      have := andThen_true e2
      simp only [Bool.and_eq_true, decide_eq_true_eq] at this
      rw [rd_ok this.1, ok_bind]
      exact ⟨_, rfl, fun cp len h => by cases h; omega⟩
    · obtain ⟨c3, e3⟩ := andThen_total (c := (x + 2 < src.length && (src[x] &&& 0xF0) == 0xE0))
        (m := conts src (x + 1) 2) (fun h => by
          simp only [Bool.and_eq_true, decide_eq_true_eq] at h
          exact conts_total src 2 (x + 1) (by omega))
      rw [e3, ok_bind]
      split
      · rename_i hc
        subst hc
        have := andThen_true e3
        simp only [Bool.and_eq_true, decide_eq_true_eq] at this
        rw [rd_ok (show x + 1 < src.length by omega), ok_bind, rd_ok this.1, ok_bind]
        exact ⟨_, rfl, fun cp len h => by cases h; omega⟩
      · obtain ⟨c4, e4⟩ := andThen_total (c := (x + 3 < src.length && (src[x] &&& 0xF8) == 0xF0))
          (m := conts src (x + 1) 3) (fun h => by
            simp only [Bool.and_eq_true, decide_eq_true_eq] at h
            exact conts_total src 3 (x + 1) (by omega))
        rw [e4, ok_bind]
        split
        · rename_i hc
          subst hc
          have := andThen_true e4
          simp only [Bool.and_eq_true, decide_eq_true_eq] at this
          rw [rd_ok (show x + 1 < src.length by omega), ok_bind,
            rd_ok (show x + 2 < src.length by omega), ok_bind, rd_ok this.1, ok_bind]
          exact ⟨_, rfl, fun cp len h => by cases h; omega⟩
        · exact ⟨_, rfl, fun cp len h => nomatch h⟩

theorem rd_at {pre post : List Nat} {v x : Nat} (h : x = pre.length) :
    rd (pre ++ v :: post) x = .ok v := by
  subst h; simp [rd]

/-- Decoding the standard form gives back the code point. -/
theorem decodeAt_enc (pre post : List Nat) (cp : Nat) (h : cp ≤ 0x10FFFF) (x : Nat)
    (hx : x = pre.length) :
    decodeAt (pre ++ enc8 cp ++ post) x = .ok (some (cp, (enc8 cp).length)) := by
  subst hx
  unfold enc8
  split
  · rename_i h1
    unfold decodeAt
    rw [List.append_assoc, List.cons_append, rd_at rfl]
    simp only [ok_bind]
    rw [if_pos (by omega)]; rfl
  · split
    · rename_i h1 h2
      generalize ha : cp / 64 = a
      generalize hb : cp % 64 = b
      have ha' : a < 32 := by omega
      have hb' : b < 64 := by omega
      unfold decodeAt
      simp only [List.append_assoc, List.cons_append, List.nil_append]
      rw [rd_at rfl]
      simp only [ok_bind]
      have r1 : rd (pre ++ (0xC0 + a) :: (0x80 + b) :: post) (pre.length + 1) = .ok (0x80 + b) := by
        rw [List.append_cons]; exact rd_at (by simp)
      have hl : pre.length + 1 < (pre ++ (0xC0 + a) :: (0x80 + b) :: post).length := by simp
      rw [if_neg (by omega)]
      simp only [andThen, lead2 ha', decide_eq_true hl, BEq.rfl, Bool.and_self, if_true, conts, r1,
        ok_bind, cont hb']
      rw [and_1f, and_3f, shift_or (by omega)]
      congr 2
      simp only [List.length_cons, List.length_nil, Prod.mk.injEq, and_true]
      omega
    · split
      · rename_i h1 h2 h3
        generalize ha : cp / 4096 = a
        generalize hb : cp / 64 % 64 = b
        generalize hc : cp % 64 = c
        have ha' : a < 16 := by omega
        have hb' : b < 64 := by omega
        have hc' : c < 64 := by omega
        unfold decodeAt
        simp only [List.append_assoc, List.cons_append, List.nil_append]
        rw [rd_at rfl]
        simp only [ok_bind]
        have r1 : rd (pre ++ (0xE0 + a) :: (0x80 + b) :: (0x80 + c) :: post) (pre.length + 1)
            = .ok (0x80 + b) := by
          rw [List.append_cons]; exact rd_at (by simp)
        have r2 : rd (pre ++ (0xE0 + a) :: (0x80 + b) :: (0x80 + c) :: post) (pre.length + 2)
            = .ok (0x80 + c) := by
          rw [List.append_cons, List.append_cons]; exact rd_at (by simp)
        have hl : pre.length + 2 < (pre ++ (0xE0 + a) :: (0x80 + b) :: (0x80 + c) :: post).length := by
          simp
        have n2 : ((0xE0 + a) &&& 0xE0 == 0xC0) = false := by
          rw [beq_eq_false_iff_ne]; exact (lead3 ha').2
        rw [if_neg (by omega)]
        simp only [andThen, n2, (lead3 ha').1, decide_eq_true hl, BEq.rfl, Bool.and_self, Bool.and_false,
          Bool.false_eq_true, if_false, if_true, conts, r1, r2,
          ok_bind, cont hb', cont hc']
        rw [and_0f, and_3f, and_3f, Nat.shiftLeft_eq, ← Nat.shiftLeft_eq, Nat.or_assoc,
          shift_or (show (0x80 + c) % 64 < 2 ^ 6 by omega), shift_or (by omega)]
        congr 2
        simp only [List.length_cons, List.length_nil, Prod.mk.injEq, and_true]
        omega
      · rename_i h1 h2 h3
        generalize ha : cp / 262144 = a
        generalize hb : cp / 4096 % 64 = b
        generalize hc : cp / 64 % 64 = c
        generalize hd : cp % 64 = d
        have ha' : a < 8 := by omega
        have hb' : b < 64 := by omega
        have hc' : c < 64 := by omega
        have hd' : d < 64 := by omega
        unfold decodeAt
        simp only [List.append_assoc, List.cons_append, List.nil_append]
        rw [rd_at rfl]
        simp only [ok_bind]
        have r1 : rd (pre ++ (0xF0 + a) :: (0x80 + b) :: (0x80 + c) :: (0x80 + d) :: post)
            (pre.length + 1) = .ok (0x80 + b) := by
          rw [List.append_cons]; exact rd_at (by simp)
        have r2 : rd (pre ++ (0xF0 + a) :: (0x80 + b) :: (0x80 + c) :: (0x80 + d) :: post)
            (pre.length + 2) = .ok (0x80 + c) := by
          rw [List.append_cons, List.append_cons]; exact rd_at (by simp)
        have r3 : rd (pre ++ (0xF0 + a) :: (0x80 + b) :: (0x80 + c) :: (0x80 + d) :: post)
            (pre.length + 3) = .ok (0x80 + d) := by
          rw [List.append_cons, List.append_cons, List.append_cons]; exact rd_at (by simp)
        have hl : pre.length + 3 <
            (pre ++ (0xF0 + a) :: (0x80 + b) :: (0x80 + c) :: (0x80 + d) :: post).length := by simp
        have n2 : ((0xF0 + a) &&& 0xE0 == 0xC0) = false := by
          rw [beq_eq_false_iff_ne]; exact (lead4 ha').2.1
        have n3 : ((0xF0 + a) &&& 0xF0 == 0xE0) = false := by
          rw [beq_eq_false_iff_ne]; exact (lead4 ha').2.2
        rw [if_neg (by omega)]
        simp only [andThen, n2, n3, (lead4 ha').1, decide_eq_true hl, BEq.rfl, Bool.and_self,
          Bool.and_false, Bool.false_eq_true, if_false, if_true, conts, r1, r2, r3,
          ok_bind, cont hb', cont hc', cont hd']
        rw [and_07, and_3f, and_3f, and_3f, Nat.or_assoc, Nat.or_assoc,
          shift_or (show (0x80 + d) % 64 < 2 ^ 6 by omega),
          shift_or (show (0x80 + c) % 64 * 2 ^ 6 + (0x80 + d) % 64 < 2 ^ 12 by omega),
          shift_or (by omega)]
        congr 2
        simp only [List.length_cons, List.length_nil, Prod.mk.injEq, and_true]
        omega

/-! ## Appending a list of code points -/

/-- Appending every code point of a list, whatever the results. -/
def pushAll (L : List Nat) (d : D) (max : Nat) : CRes D :=
  match L with
  | [] => .ok d
  | c :: L => do
    let (_, d) ← appendUTF8 c d max
    pushAll L d max

/-- The buffer after storing `vs` from position `n` on. -/
def stored (b : List Nat) (n : Nat) (vs : List Nat) : D :=
  ⟨some (b.take n ++ vs ++ b.drop (n + vs.length)), n + vs.length⟩

theorem stored_nil (b : List Nat) (n : Nat) : stored b n [] = ⟨some b, n⟩ := by
  simp [stored]

theorem stored_stored (b : List Nat) (n : Nat) (u v : List Nat) (h : n + u.length ≤ b.length) :
    stored (b.take n ++ u ++ b.drop (n + u.length)) (n + u.length) v = stored b n (u ++ v) := by
  have h1 : (b.take n ++ u).length = n + u.length := by simp; omega
  simp only [stored, D.mk.injEq, Option.some.injEq, List.length_append]
  refine ⟨?_, by omega⟩
  rw [List.take_left' h1, List.drop_append, h1, List.drop_eq_nil_of_le (by omega), List.drop_drop,
    List.nil_append]
  simp only [List.append_assoc]
  congr 4
  omega

theorem stored_len (b : List Nat) (n : Nat) (u : List Nat) (h : n + u.length ≤ b.length) :
    (b.take n ++ u ++ b.drop (n + u.length)).length = b.length := by
  simp; omega

theorem text_cons (w c : Nat) (L : List Nat) : text w (c :: L) = enc w c ++ text w L := rfl

theorem text1_cons (c : Nat) (L : List Nat) : text 1 (c :: L) = enc8 c ++ text 1 L := rfl

/-- Whatever the room, what is appended is a selection of the valid code points of the list. -/
theorem pushAll_total (max : Nat) : ∀ (L : List Nat) (b : List Nat) (n : Nat), n ≤ max →
    max ≤ b.length → ∃ kept : List Nat, kept.Sublist L ∧ (∀ c ∈ kept, Valid c) ∧
      (n = 0 → ∀ c, kept.head? = some c → ¬ Combining c) ∧ n + (text 1 kept).length ≤ max ∧
      pushAll L ⟨some b, n⟩ max = .ok (stored b n (text 1 kept))
  | [], b, n, hn, _ => ⟨[], List.Sublist.refl _, by simp, by simp, by simpa [text] using hn, by
      rw [pushAll, show text 1 [] = [] from rfl, stored_nil]⟩
  | c :: L, b, n, hn, hm => by
    by_cases hr : ¬ Valid c ∨ (n = 0 ∧ Combining c)
    · obtain ⟨kept, h1, h2, h3, h4, h5⟩ := pushAll_total max L b n hn hm
      refine ⟨kept, h1.cons _, h2, h3, h4, ?_⟩
      rw [pushAll, appendUTF8_combining _ _ hr, ok_bind]
      exact h5
    · have hv : Valid c := Classical.byContradiction fun h => hr (.inl h)
      have hc : ¬ (n = 0 ∧ Combining c) := fun h => hr (.inr h)
      by_cases hf : n + (enc8 c).length ≤ max
      · obtain ⟨kept, h1, h2, h3, h4, h5⟩ := pushAll_total max L
          (b.take n ++ enc8 c ++ b.drop (n + (enc8 c).length)) (n + (enc8 c).length) hf
          (by rw [stored_len _ _ _ (by omega)]; exact hm)
        refine ⟨c :: kept, h1.cons_cons _, ?_, ?_, ?_, ?_⟩
        · intro e he
          rcases List.mem_cons.1 he with rfl | he
          · exact hv
          · exact h2 e he
        · intro h0 e he
          simp only [List.head?_cons, Option.some.injEq] at he
          subst he
          exact fun h => hc ⟨h0, h⟩
        · rw [text1_cons, List.length_append]; omega
        · rw [pushAll, appendUTF8_valid _ _ hv hc, store_fit _ _ _ _ (enc8_ne c) hf hm, ok_bind]
          simp only
          rw [h5, text1_cons, stored_stored _ _ _ _ (by omega)]
      · obtain ⟨kept, h1, h2, h3, h4, h5⟩ := pushAll_total max L b n hn hm
        refine ⟨kept, h1.cons _, h2, h3, h4, ?_⟩
        rw [pushAll, appendUTF8_valid _ _ hv hc, store_full _ _ _ _ (enc8_ne c) (by omega), ok_bind]
        exact h5

/-- The code points of a list that are appended when there is room, after `n` bytes. -/
def accepted (n : Nat) (L : List Nat) : List Nat :=
  if n = 0 then (L.filter (fun c => decide (Valid c))).dropWhile (fun c => decide (Combining c))
  else L.filter (fun c => decide (Valid c))

theorem accepted_skip {n c : Nat} {L : List Nat} (h : ¬ Valid c ∨ (n = 0 ∧ Combining c)) :
    accepted n (c :: L) = accepted n L := by
  unfold accepted
  by_cases hv : Valid c
  · obtain ⟨h0, hc⟩ := h.resolve_left (fun h => h hv)
    simp [h0, hv, hc]
  · simp [hv]

theorem accepted_take {n c : Nat} {L : List Nat} (hv : Valid c) (hc : ¬ (n = 0 ∧ Combining c))
    (m : Nat) (hm : 0 < m) : accepted n (c :: L) = c :: accepted (n + m) L := by
  unfold accepted
  rw [if_neg (show n + m ≠ 0 by omega)]
  by_cases h0 : n = 0
  · have : ¬ Combining c := fun h => hc ⟨h0, h⟩
    simp [h0, hv, this]
  · simp [h0, hv]

theorem accepted_good {L : List Nat} (h : GoodText L) : accepted 0 L = L := by
  unfold accepted
  rw [if_pos rfl, List.filter_eq_self.2 (fun c hc => by simpa using h.1 c hc)]
  cases L with
  | nil => rfl
  | cons c L => simp [h.2 c rfl]

theorem accepted_goodText (L : List Nat) : GoodText (accepted 0 L) := by
  unfold accepted
  rw [if_pos rfl]
  refine ⟨fun c hc => ?_, fun c hc => ?_⟩
  · have := (List.dropWhile_sublist (fun c => decide (Combining c))).mem hc
    simpa using (List.mem_filter.1 this).2
  · have h1 := List.head?_dropWhile_not (fun c => decide (Combining c))
      (L.filter (fun c => decide (Valid c)))
    rw [hc] at h1
    simpa using h1

theorem enc8_pos (c : Nat) : 0 < (enc8 c).length := List.length_pos_iff.2 (enc8_ne c)

theorem pushAll_null (max : Nat) : ∀ (L : List Nat) (n : Nat),
    pushAll L ⟨none, n⟩ max = .ok ⟨none, n + (text 1 (accepted n L)).length⟩
  | [], n => by simp [pushAll, accepted, text]
  | c :: L, n => by
    by_cases hr : ¬ Valid c ∨ (n = 0 ∧ Combining c)
    · rw [pushAll, appendUTF8_combining _ _ hr, ok_bind]
      simp only
      rw [pushAll_null max L n, accepted_skip hr]
    · have hv : Valid c := Classical.byContradiction fun h => hr (.inl h)
      have hc : ¬ (n = 0 ∧ Combining c) := fun h => hr (.inr h)
      rw [pushAll, appendUTF8_valid _ _ hv hc, store_null, ok_bind]
      simp only
      rw [pushAll_null max L _, accepted_take hv hc _ (enc8_pos c), text1_cons, List.length_append,
        Nat.add_assoc]

theorem pushAll_fit (max : Nat) : ∀ (L : List Nat) (b : List Nat) (n : Nat),
    n + (text 1 (accepted n L)).length ≤ max → max ≤ b.length →
    pushAll L ⟨some b, n⟩ max = .ok (stored b n (text 1 (accepted n L)))
  | [], b, n, _, _ => by
    rw [pushAll, show accepted n [] = [] by simp [accepted], show text 1 [] = [] from rfl, stored_nil]
  | c :: L, b, n, hn, hm => by
    by_cases hr : ¬ Valid c ∨ (n = 0 ∧ Combining c)
    · rw [accepted_skip hr] at hn ⊢
      rw [pushAll, appendUTF8_combining _ _ hr, ok_bind]
      exact pushAll_fit max L b n hn hm
    · have hv : Valid c := Classical.byContradiction fun h => hr (.inl h)
      have hc : ¬ (n = 0 ∧ Combining c) := fun h => hr (.inr h)
      rw [accepted_take hv hc _ (enc8_pos c), text1_cons] at hn ⊢
      rw [List.length_append] at hn
      rw [pushAll, appendUTF8_valid _ _ hv hc, store_fit _ _ _ _ (enc8_ne c) (by omega) hm, ok_bind]
      simp only
      rw [pushAll_fit max L _ _ (by omega) (by rw [stored_len _ _ _ (by omega)]; exact hm),
        stored_stored _ _ _ _ (by omega)]

/-! ## The loops of `ConvertToUTF8` push the decoded code points -/

/-- The code points the one-byte loop decodes. -/
def codes1 (src : List Nat) : Nat → Nat → List Nat
  | 0, _ => []
  | k + 1, x =>
    if x < src.length then
      match decodeAt src x with
      | .ok (some (cp, len)) => cp :: codes1 src k (x + len)
      | .ok none => codes1 src k (x + 1)
      | .error _ => []
    else []

theorem toLoop1_push (src : List Nat) (max : Nat) : ∀ (k x : Nat) (d : D) (lp : Option Nat) (d' : D),
    src.length < x + k → 0 < k → pushAll (codes1 src k x) d max = .ok d' →
    ∃ lp', toLoop1 src max k x d lp = .ok (d', lp')
  | 0, _, _, _, _, _, h0, _ => absurd h0 (by omega)
  | k + 1, x, d, lp, d', hk, _, h => by
    unfold codes1 at h
    rw [toLoop1]
    by_cases hx : x < src.length
    · rw [if_pos hx] at h ⊢
      obtain ⟨r, er, hr⟩ := decodeAt_total src x hx
      rw [er] at h
      rw [er, ok_bind]
      cases r with
      | none => exact toLoop1_push src max k (x + 1) d lp d' (by omega) (by omega) h
      | some p =>
        obtain ⟨cp, len⟩ := p
        simp only at h ⊢
        rw [pushAll] at h
        cases ea : appendUTF8 cp d max with
        | error e => rw [ea] at h; cases h
        | ok q =>
          rw [ea, ok_bind] at h
          rw [ok_bind]
          obtain ⟨h1, h2⟩ := hr cp len rfl
          exact toLoop1_push src max k (x + len) q.2 _ d' (by omega) (by omega) h
    · rw [if_neg hx] at h ⊢
      cases h
      exact ⟨_, rfl⟩

/-- Decoding the UTF-8 text of code points gives the code points. -/
theorem codes1_text : ∀ (cps pre : List Nat) (k : Nat), (∀ c ∈ cps, c ≤ 0x10FFFF) →
    (text 1 cps).length < k → codes1 (pre ++ text 1 cps) k pre.length = cps
  | [], pre, k, _, hk => by
    cases k with
    | zero => simp at hk
    | succ k => simp [codes1, text]
  | c :: cps, pre, k, hv, hk => by
    cases k with
    | zero => simp at hk
    | succ k =>
      rw [text1_cons] at hk ⊢
      rw [List.length_append] at hk
      have hp := enc8_pos c
      rw [codes1, if_pos (by simp; omega), ← List.append_assoc,
        decodeAt_enc pre (text 1 cps) c (hv c List.mem_cons_self) _ rfl]
      simp only
      congr 1
      rw [show pre.length + (enc8 c).length = (pre ++ enc8 c).length by simp]
      exact codes1_text cps (pre ++ enc8 c) k (fun e he => hv e (List.mem_cons_of_mem _ he)) (by omega)

theorem drop_at {src : List Nat} {x : Nat} (h : x < src.length) :
    src.drop x = src[x] :: src.drop (x + 1) := List.drop_eq_getElem_cons h

theorem decode16_cons (u : Nat) (r : List Nat) :
    decode16 (u :: r) = if u < 0xD800 ∨ 0xDC00 ≤ u then u :: decode16 r
      else match r with
        | [] => []
        | v :: r' =>
          if 0xDC00 ≤ v ∧ v ≤ 0xDFFF then
            (0x10000 + (u - 0xD800) * 1024 + (v - 0xDC00)) :: decode16 r'
          else decode16 r' := by
  rw [decode16.eq_def]
  cases r <;> rfl

theorem toLoop2_push (src : List Nat) (max : Nat) : ∀ (k x : Nat) (d : D) (lp : Option Nat) (d' : D),
    src.length < x + k → 0 < k → pushAll (decode16 (src.drop x)) d max = .ok d' →
    ∃ lp', toLoop2 src max k x d lp = .ok (d', lp')
  | 0, _, _, _, _, _, h0, _ => absurd h0 (by omega)
  | k + 1, x, d, lp, d', hk, _, h => by
    rw [toLoop2]
    by_cases hx : x < src.length
    · rw [drop_at hx, decode16_cons] at h
      rw [if_pos hx, rd_ok hx, ok_bind]
      by_cases hs : src[x] < 0xD800 ∨ src[x] > 0xDBFF
      · rw [if_pos (by omega), pushAll] at h
        rw [if_pos hs]
        cases ea : appendUTF8 src[x] d max with
        | error e => rw [ea] at h; cases h
        | ok q =>
          rw [ea, ok_bind] at h
          rw [ok_bind]
          exact toLoop2_push src max k (x + 1) q.2 _ d' (by omega) (by omega) h
      · rw [if_neg (by omega)] at h
        rw [if_neg hs]
        by_cases hx2 : x + 1 < src.length
        · rw [drop_at hx2] at h
          simp only at h
          rw [if_pos hx2, rd_ok hx2, ok_bind]
          by_cases hl : src[x + 1] ≥ 0xDC00 ∧ src[x + 1] ≤ 0xDFFF
          · rw [if_pos (by omega), pushAll] at h
            rw [if_pos hl, shift_or (by omega),
              show (src[x] - 0xD800) * 2 ^ 10 + (src[x + 1] - 0xDC00) + 0x10000
                = 0x10000 + (src[x] - 0xD800) * 1024 + (src[x + 1] - 0xDC00) by omega]
            cases ea : appendUTF8 (0x10000 + (src[x] - 0xD800) * 1024 + (src[x + 1] - 0xDC00)) d max with
            | error e => rw [ea] at h; cases h
            | ok q =>
              rw [ea, ok_bind] at h
              rw [ok_bind]
              exact toLoop2_push src max k (x + 2) q.2 _ d' (by omega) (by omega) h
          · rw [if_neg (by omega)] at h
            rw [if_neg hl]
            exact toLoop2_push src max k (x + 2) d lp d' (by omega) (by omega) h
        · rw [List.drop_eq_nil_of_le (by omega)] at h
          rw [if_neg hx2]
          refine toLoop2_push src max k (x + 2) d lp d' (by omega) (by omega) ?_
          rw [List.drop_eq_nil_of_le (by omega)]
          exact h
    · rw [List.drop_eq_nil_of_le (by omega)] at h
      rw [if_neg hx]
      cases h
      exact ⟨_, rfl⟩

/-- Decoding the UTF-16 text of code points gives the code points. -/
theorem decode16_text : ∀ (cps : List Nat), (∀ c ∈ cps, Valid c) → decode16 (text 2 cps) = cps
  | [], _ => rfl
  | c :: cps, hv => by
    have ih := decode16_text cps (fun e he => hv e (List.mem_cons_of_mem _ he))
    obtain ⟨h1, h2, -, -⟩ := hv c List.mem_cons_self
    rw [text_cons, show enc 2 c = enc16 c from rfl]
    unfold enc16
    split
    · rw [List.cons_append, List.nil_append, decode16_cons, if_pos (by omega), ih]
    · rw [List.cons_append, List.cons_append, List.nil_append, decode16_cons, if_neg (by omega)]
      simp only
      rw [if_pos (by omega), ih,
        show 0x10000 + (0xD800 + (c - 0x10000) / 1024 - 0xD800) * 1024
          + (0xDC00 + (c - 0x10000) % 1024 - 0xDC00) = c by omega]

theorem text4 (cps : List Nat) : text 4 cps = cps := by
  induction cps with
  | nil => rfl
  | cons c cps ih => rw [text_cons, ih]; rfl

theorem toLoop4_push (src : List Nat) (max : Nat) : ∀ (k x : Nat) (d : D) (lp : Option Nat) (d' : D),
    src.length < x + k → 0 < k → pushAll (src.drop x) d max = .ok d' →
    ∃ lp', toLoop4 src max k x d lp = .ok (d', lp')
  | 0, _, _, _, _, _, h0, _ => absurd h0 (by omega)
  | k + 1, x, d, lp, d', hk, _, h => by
    rw [toLoop4]
    by_cases hx : x < src.length
    · rw [drop_at hx, pushAll] at h
      rw [if_pos hx, rd_ok hx, ok_bind]
      cases ea : appendUTF8 src[x] d max with
      | error e => rw [ea] at h; cases h
      | ok q =>
        rw [ea, ok_bind] at h
        rw [ok_bind]
        exact toLoop4_push src max k (x + 1) q.2 _ d' (by omega) (by omega) h
    · rw [List.drop_eq_nil_of_le (by omega)] at h
      rw [if_neg hx]
      cases h
      exact ⟨_, rfl⟩

/-- The code points `ConvertToUTF8` finds in its source. -/
def codes (w : Nat) (src : List Nat) : List Nat :=
  if w = 1 then codes1 src (src.length + 1) 0
  else if w = 2 then decode16 src
  else if w = 4 then src
  else []

/-- `ConvertToUTF8` appends the code points it finds, one after the other. -/
theorem convertTo_push (src : List Nat) (w : Nat) (buf : Option (List Nat)) (max : Nat)
    (lp : Option Nat) (d' : D) (h : pushAll (codes w src) ⟨buf, 0⟩ max = .ok d') :
    ∃ lp', convertTo src w buf max lp = .ok (d', lp') := by
  unfold convertTo
  unfold codes at h
  split
  · rename_i hw
    rw [if_pos hw] at h
    exact toLoop1_push src max _ 0 _ _ d' (by omega) (by omega) h
  · rename_i hw
    rw [if_neg hw] at h
    split
    · rename_i hw2
      rw [if_pos hw2] at h
      exact toLoop2_push src max _ 0 _ _ d' (by omega) (by omega) h
    · rename_i hw2
      rw [if_neg hw2] at h
      split
      · rename_i hw4
        rw [if_pos hw4] at h
        exact toLoop4_push src max _ 0 _ _ d' (by omega) (by omega) h
      · rename_i hw4
        rw [if_neg hw4] at h
        cases h
        exact ⟨_, rfl⟩

theorem codes_text (w : Nat) (hw : w = 1 ∨ w = 2 ∨ w = 4) (cps : List Nat)
    (h : ∀ c ∈ cps, Valid c) : codes w (text w cps) = cps := by
  unfold codes
  rcases hw with rfl | rfl | rfl
  · exact codes1_text cps [] _ (fun c hc => (h c hc).1) (by omega)
  · exact decode16_text cps h
  · exact text4 cps

/-! ## The loop of `ConvertFromUTF8` -/

theorem fromLoop_total (src : List Nat) (w max : Nat) (hw : w = 1 ∨ w = 2 ∨ w = 4) :
    ∀ (k x : Nat) (b : List Nat) (n : Nat), src.length < x + k → 0 < k → n ≤ max → max ≤ b.length →
    ∃ kept : List Nat, (∀ c ∈ kept, Valid c) ∧ (n = 0 → ∀ c, kept.head? = some c → ¬ Combining c) ∧
      n + (text w kept).length ≤ max ∧
      fromLoop src w max k x ⟨some b, n⟩ = .ok (stored b n (text w kept))
  | 0, _, _, _, _, h0, _, _ => absurd h0 (by omega)
  | k + 1, x, b, n, hk, _, hn, hm => by
    have stop : ∃ kept : List Nat, (∀ c ∈ kept, Valid c) ∧
        (n = 0 → ∀ c, kept.head? = some c → ¬ Combining c) ∧
        n + (text w kept).length ≤ max ∧
        (.ok ⟨some b, n⟩ : CRes D) = .ok (stored b n (text w kept)) :=
      ⟨[], by simp, by simp, by simpa [text] using hn, by
        rw [show text w [] = [] from rfl, stored_nil]⟩
    rw [fromLoop]
    by_cases hx : x < src.length ∧ max ≠ 0
    · rw [if_pos hx]
      obtain ⟨r, er, hr⟩ := decodeAt_total src x hx.1
      rw [er, ok_bind]
      cases r with
      | none => exact fromLoop_total src w max hw k (x + 1) b n (by omega) (by omega) hn hm
      | some p =>
        obtain ⟨cp, len⟩ := p
        obtain ⟨l1, l2⟩ := hr cp len rfl
        simp only
        by_cases hrj : ¬ Valid cp ∨ (n = 0 ∧ Combining cp)
        · rw [appendUTF_reject _ _ _ hrj, ok_bind]
          simp only [Bool.false_eq_true, if_false]
          exact stop
        · have hv : Valid cp := Classical.byContradiction fun h => hrj (.inl h)
          have hc : ¬ (n = 0 ∧ Combining cp) := fun h => hrj (.inr h)
          rw [appendUTF_valid _ _ _ hw hv hc]
          by_cases hf : n + (enc w cp).length ≤ max
          · rw [store_fit _ _ _ _ (enc_ne w cp) hf hm, ok_bind]
            simp only [if_true]
            obtain ⟨kept, h2, h3, h4, h5⟩ := fromLoop_total src w max hw k (x + len)
              (b.take n ++ enc w cp ++ b.drop (n + (enc w cp).length)) (n + (enc w cp).length)
              (by omega) (by omega) hf (by rw [stored_len _ _ _ (by omega)]; exact hm)
            refine ⟨cp :: kept, ?_, ?_, ?_, ?_⟩
            · intro e he
              rcases List.mem_cons.1 he with rfl | he
              · exact hv
              · exact h2 e he
            · intro h0 e he
              simp only [List.head?_cons, Option.some.injEq] at he
              subst he
              exact fun h => hc ⟨h0, h⟩
            · rw [text_cons, List.length_append]; omega
            · rw [h5, text_cons, stored_stored _ _ _ _ (by omega)]
          · rw [store_full _ _ _ _ (enc_ne w cp) (by omega), ok_bind]
            simp only [Bool.false_eq_true, if_false]
            exact stop
    · rw [if_neg hx]
      exact stop

theorem fromLoop_text (w max : Nat) (hw : w = 1 ∨ w = 2 ∨ w = 4) :
    ∀ (cps pre : List Nat) (k : Nat) (b : List Nat) (n : Nat), (text 1 cps).length < k →
    (∀ c ∈ cps, Valid c) → (n = 0 → ∀ c, cps.head? = some c → ¬ Combining c) →
    n + (text w cps).length ≤ max → max ≤ b.length →
    fromLoop (pre ++ text 1 cps) w max k pre.length ⟨some b, n⟩ = .ok (stored b n (text w cps))
  | [], pre, k, b, n, hk, _, _, _, _ => by
    cases k with
    | zero => simp at hk
    | succ k =>
      rw [fromLoop, if_neg (by simp [text]), show text w [] = [] from rfl, stored_nil]
  | c :: cps, pre, k, b, n, hk, hv, hc, hn, hm => by
    cases k with
    | zero => simp at hk
    | succ k =>
      rw [text1_cons, List.length_append] at hk
      rw [text_cons, List.length_append] at hn
      have hp := enc8_pos c
      have hpw : 0 < (enc w c).length := List.length_pos_iff.2 (enc_ne w c)
      rw [text1_cons, fromLoop, if_pos ⟨by simp; omega, by omega⟩, ← List.append_assoc,
        decodeAt_enc pre (text 1 cps) c (hv c List.mem_cons_self).1 _ rfl, ok_bind]
      simp only
      rw [appendUTF_valid _ _ _ hw (hv c List.mem_cons_self) (fun h => hc h.1 c rfl h.2),
        store_fit _ _ _ _ (enc_ne w c) (by omega) hm, ok_bind]
      simp only [if_true]
      rw [show pre.length + (enc8 c).length = (pre ++ enc8 c).length by simp,
        fromLoop_text w max hw cps (pre ++ enc8 c) k _ _ (by omega)
          (fun e he => hv e (List.mem_cons_of_mem _ he)) (fun h => absurd h (by omega)) (by omega)
          (by rw [stored_len _ _ _ (by omega)]; exact hm),
        stored_stored _ _ _ _ (by omega), text_cons]

theorem fromLoop_text_null (w max : Nat) (hw : w = 1 ∨ w = 2 ∨ w = 4) (hm : max ≠ 0) :
    ∀ (cps pre : List Nat) (k n : Nat), (text 1 cps).length < k →
    (∀ c ∈ cps, Valid c) → (n = 0 → ∀ c, cps.head? = some c → ¬ Combining c) →
    fromLoop (pre ++ text 1 cps) w max k pre.length ⟨none, n⟩
      = .ok ⟨none, n + (text w cps).length⟩
  | [], pre, k, n, hk, _, _ => by
    cases k with
    | zero => simp at hk
    | succ k => rw [fromLoop, if_neg (by simp [text])]; simp [text]
  | c :: cps, pre, k, n, hk, hv, hc => by
    cases k with
    | zero => simp at hk
    | succ k =>
      rw [text1_cons, List.length_append] at hk
      have hp := enc8_pos c
      have hpw : 0 < (enc w c).length := List.length_pos_iff.2 (enc_ne w c)
      rw [text1_cons, fromLoop, if_pos ⟨by simp; omega, hm⟩, ← List.append_assoc,
        decodeAt_enc pre (text 1 cps) c (hv c List.mem_cons_self).1 _ rfl, ok_bind]
      simp only
      rw [appendUTF_valid _ _ _ hw (hv c List.mem_cons_self) (fun h => hc h.1 c rfl h.2),
        store_null, ok_bind]
      simp only [if_true]
      rw [show pre.length + (enc8 c).length = (pre ++ enc8 c).length by simp,
        fromLoop_text_null w max hw hm cps (pre ++ enc8 c) k _ (by omega)
          (fun e he => hv e (List.mem_cons_of_mem _ he)) (fun h => absurd h (by omega)),
        text_cons, List.length_append, Nat.add_assoc]

/-! ## The parser -/

/-- The first byte of the UTF-8 form. -/
def lead (n : Nat) : Nat :=
  if n < 0x80 then n
  else if n < 0x800 then 0xC0 + n / 64
  else if n < 0x10000 then 0xE0 + n / 4096
  else 0xF0 + n / 262144

theorem lead_pos {n : Nat} (h : n ≠ 0) : lead n ≠ 0 := by
  unfold lead
  (repeat' split) <;> omega

theorem lead_lt {n : Nat} (h : n ≤ 0x10FFFF) : lead n < 256 := by
  unfold lead
  (repeat' split) <;> omega

theorem enc8_lead (n : Nat) : ∃ t, enc8 n = lead n :: t := by
  unfold enc8 lead
  (repeat' split) <;> exact ⟨_, rfl⟩

theorem isCombining_byte {b : Nat} (h : b < 256) : isCombining b = false := by
  rw [← Bool.not_eq_true, isCombining_iff]
  unfold Combining
  omega

/-- `NextCodePoint` moves over the standard form of a code point. -/
theorem advance_enc (pre post : List Nat) (cp : Nat) (h : cp ≤ 0x10FFFF) (size : Nat)
    (hs : pre.length + (enc8 cp).length ≤ size) :
    advance (pre ++ enc8 cp ++ post) (lead cp) pre.length size
      = .ok (some (pre.length + (enc8 cp).length)) := by
  unfold enc8 lead at *
  by_cases a1 : cp < 0x80
  · simp only [if_pos a1] at hs ⊢
    unfold advance
    rw [if_pos (by omega)]; rfl
  · simp only [if_neg a1] at hs ⊢
    by_cases a2 : cp < 0x800
    · simp only [if_pos a2] at hs ⊢
      generalize ha : cp / 64 = a at *
      generalize hb : cp % 64 = b at *
      have ha' : a < 32 := by omega
      have hb' : b < 64 := by omega
      simp only [List.length_cons, List.length_nil] at hs
      unfold advance
      simp only [List.append_assoc, List.cons_append, List.nil_append]
      have r1 : rd (pre ++ (0xC0 + a) :: (0x80 + b) :: post) (pre.length + 1) = .ok (0x80 + b) := by
        rw [List.append_cons]; exact rd_at (by simp)
      have hl : pre.length + 1 < size := by omega
      rw [if_neg (by omega)]
      simp only [andThen, lead2 ha', decide_eq_true hl, BEq.rfl, Bool.and_self, if_true, conts, r1,
        ok_bind, cont hb']
      rfl
    · simp only [if_neg a2] at hs ⊢
      by_cases a3 : cp < 0x10000
      · simp only [if_pos a3] at hs ⊢
        generalize ha : cp / 4096 = a at *
        generalize hb : cp / 64 % 64 = b at *
        generalize hc : cp % 64 = c at *
        have ha' : a < 16 := by omega
        have hb' : b < 64 := by omega
        have hc' : c < 64 := by omega
        simp only [List.length_cons, List.length_nil] at hs
        unfold advance
        simp only [List.append_assoc, List.cons_append, List.nil_append]
        have r1 : rd (pre ++ (0xE0 + a) :: (0x80 + b) :: (0x80 + c) :: post) (pre.length + 1)
            = .ok (0x80 + b) := by
          rw [List.append_cons]; exact rd_at (by simp)
        have r2 : rd (pre ++ (0xE0 + a) :: (0x80 + b) :: (0x80 + c) :: post) (pre.length + 2)
            = .ok (0x80 + c) := by
          rw [List.append_cons, List.append_cons]; exact rd_at (by simp)
        have hl : pre.length + 2 < size := by omega
        have n2 : ((0xE0 + a) &&& 0xE0 == 0xC0) = false := by
          rw [beq_eq_false_iff_ne]; exact (lead3 ha').2
        rw [if_neg (by omega)]
        simp only [andThen, n2, (lead3 ha').1, decide_eq_true hl, BEq.rfl, Bool.and_self,
          Bool.and_false, Bool.false_eq_true, if_false, if_true, conts, r1, r2,
          ok_bind, cont hb', cont hc']
        rfl
      · simp only [if_neg a3] at hs ⊢
        generalize ha : cp / 262144 = a at *
        generalize hb : cp / 4096 % 64 = b at *
        generalize hc : cp / 64 % 64 = c at *
        generalize hd : cp % 64 = d at *
        have ha' : a < 8 := by omega
        have hb' : b < 64 := by omega
        have hc' : c < 64 := by omega
        have hd' : d < 64 := by omega
        simp only [List.length_cons, List.length_nil] at hs
        unfold advance
        simp only [List.append_assoc, List.cons_append, List.nil_append]
        have r1 : rd (pre ++ (0xF0 + a) :: (0x80 + b) :: (0x80 + c) :: (0x80 + d) :: post)
            (pre.length + 1) = .ok (0x80 + b) := by
          rw [List.append_cons]; exact rd_at (by simp)
        have r2 : rd (pre ++ (0xF0 + a) :: (0x80 + b) :: (0x80 + c) :: (0x80 + d) :: post)
            (pre.length + 2) = .ok (0x80 + c) := by
          rw [List.append_cons, List.append_cons]; exact rd_at (by simp)
        have r3 : rd (pre ++ (0xF0 + a) :: (0x80 + b) :: (0x80 + c) :: (0x80 + d) :: post)
            (pre.length + 3) = .ok (0x80 + d) := by
          rw [List.append_cons, List.append_cons, List.append_cons]; exact rd_at (by simp)
        have hl : pre.length + 3 < size := by omega
        have n2 : ((0xF0 + a) &&& 0xE0 == 0xC0) = false := by
          rw [beq_eq_false_iff_ne]; exact (lead4 ha').2.1
        have n3 : ((0xF0 + a) &&& 0xF0 == 0xE0) = false := by
          rw [beq_eq_false_iff_ne]; exact (lead4 ha').2.2
        rw [if_neg (by omega)]
        simp only [andThen, n2, n3, (lead4 ha').1, decide_eq_true hl, BEq.rfl, Bool.and_self,
          Bool.and_false, Bool.false_eq_true, if_false, if_true, conts, r1, r2, r3,
          ok_bind, cont hb', cont hc', cont hd']
        rfl

theorem rd_enc (pre post : List Nat) (c : Nat) :
    rd (pre ++ enc8 c ++ post) pre.length = .ok (lead c) := by
  obtain ⟨t, ht⟩ := enc8_lead c
  rw [ht, List.append_assoc, List.cons_append]
  exact rd_at rfl

/-- `NextCodePoint` on a continuation: what it leaves in the state. -/
theorem peek_text (pre cps : List Nat) (next size : Nat) (comb : Bool)
    (hv : ∀ c ∈ cps, c ≤ 0x10FFFF ∧ c ≠ 0) (hs : (pre ++ text 1 cps).length ≤ size) :
    peek (pre ++ text 1 cps ++ [0]) ⟨next, pre.length, size, comb⟩ = .ok (match cps with
      | [] => ⟨0, pre.length, size, false⟩
      | c :: _ => ⟨lead c, pre.length + (enc8 c).length, size, false⟩) := by
  cases cps with
  | nil =>
    unfold peek
    simp only [show text 1 [] = [] from rfl, List.append_nil]
    rw [rd_at rfl, ok_bind]
    rfl
  | cons c cps =>
    obtain ⟨h1, h2⟩ := hv c List.mem_cons_self
    rw [text1_cons] at hs ⊢
    simp only [List.length_append] at hs
    unfold peek
    simp only
    rw [show pre ++ (enc8 c ++ text 1 cps) ++ [0] = pre ++ enc8 c ++ (text 1 cps ++ [0]) by simp,
      rd_enc, ok_bind, if_neg (lead_pos h2), advance_enc _ _ _ h1 _ (by omega), ok_bind,
      isCombining_byte (lead_lt h1)]

theorem countLoop_text (len : CRes Nat) : ∀ (cps pre : List Nat) (c size r k : Nat),
    c ≤ 0x10FFFF ∧ c ≠ 0 → (∀ c ∈ cps, c ≤ 0x10FFFF ∧ c ≠ 0) → pre ≠ [] →
    (pre ++ text 1 cps).length ≤ size → cps.length + 1 < k →
    countLoop len (pre ++ text 1 cps ++ [0]) k ⟨lead c, pre.length, size, false⟩ r
      = .ok (r + 1 + cps.length)
  | cps, pre, c, size, r, 0, _, _, _, _, hk => absurd hk (by omega)
  | [], pre, c, size, r, k + 1, hc, hv, hp, hs, hk => by
    have hpl : pre.length ≠ 0 := fun h => hp (List.length_eq_zero_iff.1 h)
    rw [countLoop, nextCP, if_pos hpl, if_neg (lead_pos hc.2), peek_text _ _ _ _ _ hv hs, ok_bind,
      ok_bind]
    simp only [if_true, Bool.false_eq_true, if_false]
    cases k with
    | zero => exact absurd hk (by simp)
    | succ k =>
      rw [countLoop, nextCP, if_pos hpl]
      rfl
  | c' :: cps, pre, c, size, r, k + 1, hc, hv, hp, hs, hk => by
    have hpl : pre.length ≠ 0 := fun h => hp (List.length_eq_zero_iff.1 h)
    rw [countLoop, nextCP, if_pos hpl, if_neg (lead_pos hc.2), peek_text _ _ _ _ _ hv hs, ok_bind,
      ok_bind]
    simp only [if_true, Bool.false_eq_true, if_false]
    have ih := countLoop_text len cps (pre ++ enc8 c') c' size (r + 1) k (hv c' List.mem_cons_self)
      (fun e he => hv e (List.mem_cons_of_mem _ he)) (by simp [hp])
      (by rw [List.append_assoc, ← text1_cons]; exact hs) (by simp at hk; omega)
    rw [List.append_assoc pre, ← text1_cons, List.length_append] at ih
    rw [ih, List.length_cons]
    congr 1
    omega

theorem strlenWith_text (cps : List Nat) (hv : ∀ c ∈ cps, c ≤ 0x10FFFF ∧ c ≠ 0) :
    strlenWith (.ok (text 1 cps).length) (text 1 cps ++ [0]) = .ok cps.length := by
  unfold strlenWith
  cases cps with
  | nil => rfl
  | cons c cps =>
    obtain ⟨h1, h2⟩ := hv c List.mem_cons_self
    have hp := enc8_pos c
    have hl : cps.length ≤ (text 1 cps).length := by
      clear hv
      induction cps with
      | nil => simp
      | cons e cps ih => have := enc8_pos e; rw [text1_cons]; simp; omega
    rw [List.length_append, countLoop, nextCP, if_neg (by simp), ok_bind]
    simp only
    have e0 : rd (text 1 (c :: cps) ++ [0]) 0 = .ok (lead c) := by
      have := rd_enc [] (text 1 cps ++ [0]) c
      rw [text1_cons, List.append_assoc]
      exact this
    have e1 : advance (text 1 (c :: cps) ++ [0]) (lead c) 0 (text 1 (c :: cps)).length
        = .ok (some (enc8 c).length) := by
      have := advance_enc [] (text 1 cps ++ [0]) c h1 (text 1 (c :: cps)).length
        (by rw [text1_cons]; simp)
      rw [text1_cons, List.append_assoc]
      simpa [text1_cons] using this
    have hv' : ∀ e ∈ cps, e ≤ 0x10FFFF ∧ e ≠ 0 := fun e he => hv e (List.mem_cons_of_mem _ he)
    rw [e0, ok_bind, if_neg (lead_pos h2), e1, ok_bind]
    simp only
    rw [isCombining_byte (lead_lt h1), if_neg Bool.false_ne_true, text1_cons,
      peek_text (enc8 c) cps 0 _ false hv' (Nat.le_refl _), ok_bind, ok_bind]
    cases cps with
    | nil =>
      simp only [if_true, Bool.false_eq_true, if_false]
      rw [show (enc8 c ++ text 1 []).length + [0].length = (enc8 c ++ text 1 []).length + 1 from rfl,
        countLoop, nextCP, if_pos (show (enc8 c).length ≠ 0 by omega)]
      rfl
    | cons c' cps =>
      simp only [if_true, Bool.false_eq_true, if_false]
      have hp' := enc8_pos c'
      have hle : (enc8 c ++ enc8 c' ++ text 1 cps).length ≤ (enc8 c ++ text 1 (c' :: cps)).length := by
        rw [text1_cons, List.append_assoc]; exact Nat.le_refl _
      have ih := countLoop_text (.ok (enc8 c ++ text 1 (c' :: cps)).length) cps (enc8 c ++ enc8 c') c'
        (enc8 c ++ text 1 (c' :: cps)).length (0 + 1)
        ((enc8 c ++ text 1 (c' :: cps)).length + [0].length) (hv' c' List.mem_cons_self)
        (fun e he => hv' e (List.mem_cons_of_mem _ he))
        (by intro h; rw [List.append_eq_nil_iff] at h; exact enc8_ne c h.1) hle
        (by simp only [List.length_append, List.length_cons, List.length_nil] at hl ⊢; omega)
      rw [List.append_assoc (enc8 c) (enc8 c') (text 1 cps), ← text1_cons c' cps,
        List.length_append (as := enc8 c) (bs := enc8 c')] at ih
      rw [ih, List.length_cons, List.length_cons]
      congr 1
      omega

theorem walk_text (len : CRes Nat) : ∀ (cps pre : List Nat) (c size k : Nat),
    c ≤ 0x10FFFF ∧ c ≠ 0 → (∀ c ∈ cps, c ≤ 0x10FFFF ∧ c ≠ 0) → pre ≠ [] →
    (pre ++ text 1 cps).length ≤ size → cps.length + 1 < k →
    walk len (pre ++ text 1 cps ++ [0]) k ⟨lead c, pre.length, size, false⟩
      = .ok (lead c :: cps.map lead)
  | cps, pre, c, size, 0, _, _, _, _, hk => absurd hk (by omega)
  | [], pre, c, size, k + 1, hc, hv, hp, hs, hk => by
    have hpl : pre.length ≠ 0 := fun h => hp (List.length_eq_zero_iff.1 h)
    rw [walk, nextCP, if_pos hpl, if_neg (lead_pos hc.2), peek_text _ _ _ _ _ hv hs, ok_bind,
      ok_bind]
    simp only [if_true, Bool.false_eq_true, if_false]
    cases k with
    | zero => exact absurd hk (by simp)
    | succ k =>
      rw [walk, nextCP, if_pos hpl]
      rfl
  | c' :: cps, pre, c, size, k + 1, hc, hv, hp, hs, hk => by
    have hpl : pre.length ≠ 0 := fun h => hp (List.length_eq_zero_iff.1 h)
    rw [walk, nextCP, if_pos hpl, if_neg (lead_pos hc.2), peek_text _ _ _ _ _ hv hs, ok_bind,
      ok_bind]
    simp only [if_true, Bool.false_eq_true, if_false]
    have ih := walk_text len cps (pre ++ enc8 c') c' size k (hv c' List.mem_cons_self)
      (fun e he => hv e (List.mem_cons_of_mem _ he)) (by simp [hp])
      (by rw [List.append_assoc, ← text1_cons]; exact hs) (by simp at hk; omega)
    rw [List.append_assoc pre, ← text1_cons, List.length_append] at ih
    rw [ih, ok_bind, List.map_cons]

theorem walk_start (cps : List Nat) (hv : ∀ c ∈ cps, c ≤ 0x10FFFF ∧ c ≠ 0) :
    walk (.ok (text 1 cps).length) (text 1 cps ++ [0]) ((text 1 cps ++ [0]).length + 1)
      ⟨0, 0, 0, false⟩ = .ok (cps.map lead) := by
  cases cps with
  | nil => rfl
  | cons c cps =>
    obtain ⟨h1, h2⟩ := hv c List.mem_cons_self
    have hp := enc8_pos c
    have hl : cps.length ≤ (text 1 cps).length := by
      clear hv
      induction cps with
      | nil => simp
      | cons e cps ih => have := enc8_pos e; rw [text1_cons]; simp; omega
    rw [List.length_append, walk, nextCP, if_neg (by simp), ok_bind]
    simp only
    have e0 : rd (text 1 (c :: cps) ++ [0]) 0 = .ok (lead c) := by
      have := rd_enc [] (text 1 cps ++ [0]) c
      rw [text1_cons, List.append_assoc]
      exact this
    have e1 : advance (text 1 (c :: cps) ++ [0]) (lead c) 0 (text 1 (c :: cps)).length
        = .ok (some (enc8 c).length) := by
      have := advance_enc [] (text 1 cps ++ [0]) c h1 (text 1 (c :: cps)).length
        (by rw [text1_cons]; simp)
      rw [text1_cons, List.append_assoc]
      simpa [text1_cons] using this
    have hv' : ∀ e ∈ cps, e ≤ 0x10FFFF ∧ e ≠ 0 := fun e he => hv e (List.mem_cons_of_mem _ he)
    rw [e0, ok_bind, if_neg (lead_pos h2), e1, ok_bind]
    simp only
    rw [isCombining_byte (lead_lt h1), if_neg Bool.false_ne_true, text1_cons,
      peek_text (enc8 c) cps 0 _ false hv' (Nat.le_refl _), ok_bind, ok_bind]
    cases cps with
    | nil =>
      simp only [if_true, Bool.false_eq_true, if_false]
      rw [show (enc8 c ++ text 1 []).length + [0].length = (enc8 c ++ text 1 []).length + 1 from rfl,
        walk, nextCP, if_pos (show (enc8 c).length ≠ 0 by omega)]
      rfl
    | cons c' cps =>
      simp only [if_true, Bool.false_eq_true, if_false]
      have hp' := enc8_pos c'
      have hle : (enc8 c ++ enc8 c' ++ text 1 cps).length ≤ (enc8 c ++ text 1 (c' :: cps)).length := by
        rw [text1_cons, List.append_assoc]; exact Nat.le_refl _
      have ih := walk_text (.ok (enc8 c ++ text 1 (c' :: cps)).length) cps (enc8 c ++ enc8 c') c'
        (enc8 c ++ text 1 (c' :: cps)).length
        ((enc8 c ++ text 1 (c' :: cps)).length + [0].length) (hv' c' List.mem_cons_self)
        (fun e he => hv' e (List.mem_cons_of_mem _ he))
        (by intro h; rw [List.append_eq_nil_iff] at h; exact enc8_ne c h.1) hle
        (by simp only [List.length_append, List.length_cons, List.length_nil] at hl ⊢; omega)
      rw [List.append_assoc (enc8 c) (enc8 c') (text 1 cps), ← text1_cons c' cps,
        List.length_append (as := enc8 c) (bs := enc8 c')] at ih
      rw [ih, ok_bind, List.map_cons, List.map_cons]

/-! ## `LastPos` -/

/-- Appending a valid code point that fits. -/
theorem append_fit {c : Nat} {b : List Nat} {n max : Nat} (hv : Valid c)
    (hc : n = 0 → ¬ Combining c) (hf : n + (enc8 c).length ≤ max) (hm : max ≤ b.length) :
    appendUTF8 c ⟨some b, n⟩ max = .ok (true, stored b n (enc8 c)) := by
  rw [appendUTF8_valid _ _ hv (fun h => hc h.1 h.2), store_fit _ _ _ _ (enc8_ne c) hf hm]
  rfl

theorem toLoop1_last (max : Nat) : ∀ (cps pre : List Nat) (k : Nat) (b : List Nat) (n v : Nat),
    (text 1 cps).length < k → (∀ c ∈ cps, Valid c) →
    (n = 0 → ∀ c, cps.head? = some c → ¬ Combining c) → (∀ c ∈ cps, c < 0x800) →
    n + (text 1 cps).length ≤ max → max ≤ b.length →
    ∃ d, toLoop1 (pre ++ text 1 cps) max k pre.length ⟨some b, n⟩ (some v) =
      .ok (d, some (if cps = [] then v else (pre ++ text 1 cps).length))
  | [], pre, k, b, n, v, hk, _, _, _, _, _ => by
    cases k with
    | zero => simp at hk
    | succ k => exact ⟨⟨some b, n⟩, by rw [toLoop1, if_neg (by simp [text])]; rfl⟩
  | c :: cps, pre, k, b, n, v, hk, hv, hc, hs, hn, hm => by
    cases k with
    | zero => simp at hk
    | succ k =>
      rw [text1_cons, List.length_append] at hk hn
      have hp := enc8_pos c
      have hl : (enc8 c).length ≤ 2 := by
        have := hs c List.mem_cons_self
        unfold enc8
        split
        · simp
        · simp
      obtain ⟨d, ih⟩ := toLoop1_last max cps (pre ++ enc8 c) k
        (b.take n ++ enc8 c ++ b.drop (n + (enc8 c).length)) (n + (enc8 c).length)
        (pre.length + (enc8 c).length) (by omega)
        (fun e he => hv e (List.mem_cons_of_mem _ he)) (fun h => absurd h (by omega))
        (fun e he => hs e (List.mem_cons_of_mem _ he)) (by omega)
        (by rw [stored_len _ _ _ (by omega)]; exact hm)
      refine ⟨d, ?_⟩
      rw [text1_cons, toLoop1, if_pos (by simp; omega), ← List.append_assoc,
        decodeAt_enc pre (text 1 cps) c (hv c List.mem_cons_self).1 _ rfl, ok_bind]
      simp only
      rw [append_fit (hv c List.mem_cons_self) (fun h => hc h c rfl) (by omega) hm, ok_bind]
      simp only [lastPos1, if_true]
      rw [if_neg (show (enc8 c).length ≠ 3 by omega), if_neg (show (enc8 c).length ≠ 4 by omega)]
      rw [List.length_append] at ih
      rw [show stored b n (enc8 c) = ⟨some (b.take n ++ enc8 c ++ b.drop (n + (enc8 c).length)),
        n + (enc8 c).length⟩ from rfl, ih]
      cases cps with
      | nil => simp [text]
      | cons e cps => rfl

theorem toLoop2_last (max : Nat) : ∀ (cps pre : List Nat) (k : Nat) (b : List Nat) (n v : Nat),
    (text 2 cps).length < k → (∀ c ∈ cps, Valid c) →
    (n = 0 → ∀ c, cps.head? = some c → ¬ Combining c) →
    n + (text 1 cps).length ≤ max → max ≤ b.length →
    ∃ d, toLoop2 (pre ++ text 2 cps) max k pre.length ⟨some b, n⟩ (some v) =
      .ok (d, some (if cps = [] then v else (pre ++ text 2 cps).length - 1))
  | [], pre, k, b, n, v, hk, _, _, _, _ => by
    cases k with
    | zero => simp at hk
    | succ k => exact ⟨⟨some b, n⟩, by rw [toLoop2, if_neg (by simp [text])]; rfl⟩
  | c :: cps, pre, k, b, n, v, hk, hv, hc, hn, hm => by
    cases k with
    | zero => simp at hk
    | succ k =>
      rw [text_cons, List.length_append] at hk
      rw [text1_cons, List.length_append] at hn
      have hp := enc8_pos c
      have hp2 : 0 < (enc 2 c).length := List.length_pos_iff.2 (enc_ne 2 c)
      obtain ⟨d, ih⟩ := toLoop2_last max cps (pre ++ enc 2 c) k
        (b.take n ++ enc8 c ++ b.drop (n + (enc8 c).length)) (n + (enc8 c).length)
        (pre.length + (enc 2 c).length - 1) (by omega)
        (fun e he => hv e (List.mem_cons_of_mem _ he)) (fun h => absurd h (by omega)) (by omega)
        (by rw [stored_len _ _ _ (by omega)]; exact hm)
      refine ⟨d, ?_⟩
      have fin : (if cps = [] then pre.length + (enc 2 c).length - 1
          else (pre ++ enc 2 c ++ text 2 cps).length - 1)
          = (if c :: cps = [] then v else (pre ++ text 2 (c :: cps)).length - 1) := by
        rw [if_neg (List.cons_ne_nil c cps), text_cons, List.append_assoc]
        cases cps with
        | nil => simp [text]
        | cons e t => rfl
      rw [fin] at ih
      have ap := append_fit (b := b) (hv c List.mem_cons_self) (fun h => hc h c rfl)
        (show n + (enc8 c).length ≤ max by omega) hm
      obtain ⟨v1, v2, -, -⟩ := hv c List.mem_cons_self
      rw [toLoop2, if_pos (by rw [text_cons]; simp; omega)]
      by_cases hbmp : c < 0x10000
      · have he : enc 2 c = [c] := by
          show enc16 c = [c]
          unfold enc16
          rw [if_pos hbmp]
        rw [he] at ih
        rw [text_cons, he, List.cons_append, List.nil_append, rd_at rfl, ok_bind,
          if_pos (by omega), ap, ok_bind]
        rw [List.append_assoc, List.cons_append, List.nil_append, text_cons, he, List.cons_append,
          List.nil_append, List.length_append] at ih
        exact ih
      · have he : enc 2 c = [0xD800 + (c - 0x10000) / 1024, 0xDC00 + (c - 0x10000) % 1024] := by
          show enc16 c = _
          unfold enc16
          rw [if_neg hbmp]
        rw [he] at ih
        generalize hhi : (c - 0x10000) / 1024 = hi at he ih
        generalize hlo : (c - 0x10000) % 1024 = lo at he ih
        have r1 : rd (pre ++ (0xD800 + hi) :: (0xDC00 + lo) :: text 2 cps) (pre.length + 1)
            = .ok (0xDC00 + lo) := by
          rw [List.append_cons]; exact rd_at (by simp)
        rw [text_cons, he, List.cons_append, List.cons_append, List.nil_append, rd_at rfl, ok_bind,
          if_neg (by omega), if_pos (by simp), r1, ok_bind, if_pos (by omega), shift_or (by omega),
          show (0xD800 + hi - 0xD800) * 2 ^ 10 + (0xDC00 + lo - 0xDC00) + 0x10000 = c by omega, ap,
          ok_bind]
        rw [List.append_assoc, List.cons_append, List.cons_append, List.nil_append, text_cons, he,
          List.cons_append, List.cons_append, List.nil_append, List.length_append] at ih
        exact ih

theorem toLoop4_last (max : Nat) : ∀ (cps pre : List Nat) (k : Nat) (b : List Nat) (n v : Nat),
    (text 4 cps).length < k → (∀ c ∈ cps, Valid c) →
    (n = 0 → ∀ c, cps.head? = some c → ¬ Combining c) →
    n + (text 1 cps).length ≤ max → max ≤ b.length →
    ∃ d, toLoop4 (pre ++ text 4 cps) max k pre.length ⟨some b, n⟩ (some v) =
      .ok (d, some (if cps = [] then v else (pre ++ text 4 cps).length - 1))
  | [], pre, k, b, n, v, hk, _, _, _, _ => by
    cases k with
    | zero => simp at hk
    | succ k => exact ⟨⟨some b, n⟩, by rw [toLoop4, if_neg (by simp [text])]; rfl⟩
  | c :: cps, pre, k, b, n, v, hk, hv, hc, hn, hm => by
    cases k with
    | zero => simp at hk
    | succ k =>
      rw [text4] at hk
      rw [text1_cons, List.length_append] at hn
      have hp := enc8_pos c
      obtain ⟨d, ih⟩ := toLoop4_last max cps (pre ++ [c]) k
        (b.take n ++ enc8 c ++ b.drop (n + (enc8 c).length)) (n + (enc8 c).length)
        pre.length (by rw [text4]; simp at hk; omega)
        (fun e he => hv e (List.mem_cons_of_mem _ he)) (fun h => absurd h (by omega)) (by omega)
        (by rw [stored_len _ _ _ (by omega)]; exact hm)
      refine ⟨d, ?_⟩
      have ap := append_fit (b := b) (hv c List.mem_cons_self) (fun h => hc h c rfl)
        (show n + (enc8 c).length ≤ max by omega) hm
      rw [text4] at ih ⊢
      rw [toLoop4, if_pos (by simp), rd_at rfl, ok_bind, ap, ok_bind]
      rw [List.append_assoc, List.cons_append, List.nil_append, List.length_append] at ih
      have fin : (if cps = [] then pre.length else (pre ++ c :: cps).length - 1)
          = (if c :: cps = [] then v else (pre ++ c :: cps).length - 1) := by
        rw [if_neg (List.cons_ne_nil c cps)]
        cases cps with
        | nil => simp
        | cons e t => rfl
      rw [fin] at ih
      exact ih

/-! ## The allocating form -/

theorem withNul_append : ∀ (units rest : List Nat), 0 ∉ units →
    withNul (units ++ 0 :: rest) = .ok (units ++ [0])
  | [], rest, _ => by simp [withNul]
  | u :: units, rest, h => by
    rw [List.mem_cons, not_or] at h
    rw [List.cons_append, withNul, if_neg (fun e => h.1 e.symm), withNul_append units rest h.2]
    rfl

theorem text_append (w : Nat) (a b : List Nat) : text w (a ++ b) = text w a ++ text w b :=
  List.flatMap_append

theorem text_zero (w : Nat) (hw : w = 1 ∨ w = 2 ∨ w = 4) : text w [0] = [0] := by
  rcases hw with rfl | rfl | rfl <;> rfl

theorem enc_no_zero (w : Nat) (hw : w = 1 ∨ w = 2 ∨ w = 4) (c : Nat) (h : c ≠ 0) : 0 ∉ enc w c := by
  unfold enc enc8 enc16
  rcases hw with rfl | rfl | rfl
  · rw [if_pos rfl]
    (repeat' split) <;> simp only [List.mem_cons, List.not_mem_nil, or_false, not_or] <;> omega
  · rw [if_neg (by decide), if_pos rfl]
    split <;> simp only [List.mem_cons, List.not_mem_nil, or_false, not_or] <;> omega
  · rw [if_neg (by decide), if_neg (by decide)]
    simp only [List.mem_cons, List.not_mem_nil, or_false]
    omega

theorem text_no_zero (w : Nat) (hw : w = 1 ∨ w = 2 ∨ w = 4) (cps : List Nat)
    (_ : ∀ c ∈ cps, c ≤ 0x10FFFF) (h : 0 ∉ cps) : 0 ∉ text w cps := by
  intro h0
  obtain ⟨c, h1, h2⟩ := List.mem_flatMap.1 h0
  exact enc_no_zero w hw c (fun e => h (e ▸ h1)) h2

theorem alloc_of_codes (w : Nat) (hw : w = 1 ∨ w = 2 ∨ w = 4) (obj src : List Nat) (lp : Option Nat)
    (junk fill : Nat) (e : withNul obj = .ok src) :
    ∃ lp', convertToAlloc obj w lp junk fill
      = .ok (some (text 1 (accepted 0 (codes w src))), lp') := by
  obtain ⟨l1, h1⟩ := convertTo_push src w none junk none _ (pushAll_null junk (codes w src) 0)
  rw [Nat.zero_add] at h1
  obtain ⟨l2, h2⟩ := convertTo_push src w
    (some (List.replicate (text 1 (accepted 0 (codes w src))).length fill))
    (text 1 (accepted 0 (codes w src))).length lp _
    (pushAll_fit _ (codes w src) (List.replicate (text 1 (accepted 0 (codes w src))).length fill) 0
      (by omega) (by simp))
  refine ⟨l2, ?_⟩
  unfold convertToAlloc
  rw [if_pos hw, e, ok_bind, h1, ok_bind]
  simp only
  rw [h2, ok_bind]
  simp [stored]

theorem conts_true (src : List Nat) : ∀ (k i : Nat), conts src i k = .ok true →
    ∀ j, i ≤ j → j < i + k → ∃ b, rd src j = .ok b ∧ b &&& 0xC0 = 0x80
  | 0, i, _, j, h1, h2 => absurd h2 (by omega)
  | k + 1, i, h, j, h1, h2 => by
    rw [conts] at h
    cases er : rd src i with
    | error e => rw [er] at h; cases h
    | ok b =>
      rw [er, ok_bind] at h
      split at h
      · rename_i hb
        by_cases hj : j = i
        · subst hj; exact ⟨b, er, hb⟩
        · exact conts_true src k (i + 1) h j (by omega) (by omega)
      · cases h

theorem andThen_true' {c : Bool} {m : CRes Bool} (h : andThen c m = .ok true) : m = .ok true := by
  unfold andThen at h
  split at h
  · exact h
  · cases h

/-- The bytes of a decoded sequence after the first are continuation bytes. -/
theorem decodeAt_conts (src : List Nat) (x cp len : Nat) (h : decodeAt src x = .ok (some (cp, len))) :
    ∀ j, x < j → j < x + len → ∃ b, rd src j = .ok b ∧ b &&& 0xC0 = 0x80 := by
  unfold decodeAt at h
  cases er : rd src x with
  | error e => rw [er] at h; cases h
  | ok b =>
    rw [er] at h
    simp only [ok_bind] at h
    split at h
    · cases h; intro j h1 h2; omega
    · cases e2 : andThen (x + 1 < src.length && (b &&& 0xE0) == 0xC0) (conts src (x + 1) 1) with
      | error e => rw [e2] at h; cases h
      | ok c2 =>
        rw [e2, ok_bind] at h
        cases c2 with
        | true =>
          simp only [if_true] at h
          cases e : rd src (x + 1) with
          | error e' => rw [e] at h; cases h
          | ok b1 =>
            rw [e, ok_bind] at h
            cases h
            intro j h1 h2
            exact conts_true src 1 (x + 1) (andThen_true' e2) j (by omega) (by omega)
        | false =>
          simp only [Bool.false_eq_true, if_false] at h
          cases e3 : andThen (x + 2 < src.length && (b &&& 0xF0) == 0xE0) (conts src (x + 1) 2) with
          | error e => rw [e3] at h; cases h
          | ok c3 =>
            rw [e3, ok_bind] at h
            cases c3 with
            | true =>
              simp only [if_true] at h
              cases e : rd src (x + 1) with
              | error e' => rw [e] at h; cases h
              | ok b1 =>
                rw [e, ok_bind] at h
                cases e' : rd src (x + 2) with
                | error e'' => rw [e'] at h; cases h
                | ok b2 =>
                  rw [e', ok_bind] at h
                  cases h
                  intro j h1 h2
                  exact conts_true src 2 (x + 1) (andThen_true' e3) j (by omega) (by omega)
            | false =>
              simp only [Bool.false_eq_true, if_false] at h
              cases e4 : andThen (x + 3 < src.length && (b &&& 0xF8) == 0xF0)
                (conts src (x + 1) 3) with
              | error e => rw [e4] at h; cases h
              | ok c4 =>
                rw [e4, ok_bind] at h
                cases c4 with
                | true =>
                  simp only [if_true] at h
                  cases e : rd src (x + 1) with
                  | error e' => rw [e] at h; cases h
                  | ok b1 =>
                    rw [e, ok_bind] at h
                    cases e' : rd src (x + 2) with
                    | error e'' => rw [e'] at h; cases h
                    | ok b2 =>
                      rw [e', ok_bind] at h
                      cases e'' : rd src (x + 3) with
                      | error e3 => rw [e''] at h; cases h
                      | ok b3 =>
                        rw [e'', ok_bind] at h
                        cases h
                        intro j h1 h2
                        exact conts_true src 3 (x + 1) (andThen_true' e4) j (by omega) (by omega)
                | false =>
                  simp only [Bool.false_eq_true, if_false] at h
                  cases h

/-- A terminated byte string decodes to a list of code points ending with the terminator. -/
theorem codes1_nul (units : List Nat) : ∀ (k x : Nat), units.length + 1 < x + k →
    x ≤ units.length → ∃ L, codes1 (units ++ [0]) k x = L ++ [0]
  | 0, x, h, hx => absurd h (by omega)
  | k + 1, x, h, hx => by
    rw [codes1, if_pos (by simp; omega)]
    obtain ⟨r, er, hr⟩ := decodeAt_total (units ++ [0]) x (by simp; omega)
    rw [er]
    by_cases hxl : x = units.length
    · have e0 : rd (units ++ [0]) x = .ok 0 := rd_at hxl
      have ez : decodeAt (units ++ [0]) x = .ok (some (0, 1)) := by
        unfold decodeAt
        rw [e0]
        rfl
      rw [ez] at er
      cases er
      simp only
      refine ⟨[], ?_⟩
      cases k with
      | zero => rfl
      | succ k => rw [codes1, if_neg (by simp; omega)]; rfl
    · cases r with
      | none =>
        exact codes1_nul units k (x + 1) (by omega) (by omega)
      | some p =>
        obtain ⟨cp, len⟩ := p
        obtain ⟨l1, l2⟩ := hr cp len rfl
        have hle : x + len ≤ units.length := by
          rw [List.length_append] at l2
          simp only [List.length_cons, List.length_nil] at l2
          by_cases hh : x + len = units.length + 1
          · obtain ⟨b, hb1, hb2⟩ := decodeAt_conts _ _ _ _ er units.length (by omega) (by omega)
            rw [rd_at rfl] at hb1
            cases hb1
            exact absurd hb2 (by decide)
          · omega
        obtain ⟨L, hL⟩ := codes1_nul units k (x + len) (by omega) hle
        exact ⟨cp :: L, by simp only; rw [hL]; rfl⟩

theorem accepted_nul (L : List Nat) : ∃ K, accepted 0 (L ++ [0]) = K ++ [0] := by
  unfold accepted
  rw [if_pos rfl, List.filter_append, show [0].filter (fun c => decide (Valid c)) = [0] by decide]
  induction L.filter (fun c => decide (Valid c)) with
  | nil => exact ⟨[], by decide⟩
  | cons a t ih =>
    rw [List.cons_append, List.dropWhile_cons]
    split
    · exact ih
    · exact ⟨a :: t, rfl⟩

end Verif.Utf8
