import Verif.Csprng.Model
import Mathlib.Logic.Equiv.Defs

/-! # Properties C51-C52: random integers and bytes -/

namespace Verif.Csprng

/-! ## C51 -/

/-- The mask loop stops within 64 steps at the smallest `2^b - 1` that is at least `max2`. -/
theorem maskLoop_spec (max2 : BitVec 64) : ∀ (n : Nat) (mask : BitVec 64) (b : Nat),
    b + n = 65 → mask.toNat = 2 ^ b - 1 → b ≤ 64 → (b = 0 ∨ 2 ^ (b - 1) ≤ max2.toNat) →
    ∃ b', maskLoop max2 n mask = .ok (BitVec.ofNat 64 (2 ^ b' - 1)) ∧ b' ≤ 64 ∧ max2.toNat < 2 ^ b' ∧
      (b' = 0 ∨ 2 ^ (b' - 1) ≤ max2.toNat) := by
  intro n
  induction n with
  | zero => intro mask b h1 h2 h3; omega
  | succ n ih =>
    intro mask b h1 h2 h3 h4
    unfold maskLoop
    have hm := max2.isLt
    have hp : 0 < 2 ^ b := Nat.pow_pos (by omega)
    by_cases hlt : mask < max2
    · rw [if_pos hlt]
      have hlt' : mask.toNat < max2.toNat := BitVec.lt_def.1 hlt
      have hb : b < 64 := by
        rcases Nat.lt_or_ge b 64 with h | h
        · exact h
        · have : b = 64 := by omega
          subst this; omega
      have hpow : 2 ^ b ≤ 2 ^ 63 := Nat.pow_le_pow_right (by omega) (by omega)
      have hs : 2 ^ (b + 1) = 2 * 2 ^ b := by rw [Nat.pow_succ]; omega
      apply ih _ (b + 1) (by omega) _ (by omega) (by right; simp; omega)
      have hsh : (mask <<< 1).toNat = 2 * (2 ^ b - 1) := by
        rw [BitVec.toNat_shiftLeft, Nat.shiftLeft_eq, h2, Nat.mod_eq_of_lt] <;> omega
      have hor : mask <<< 1 ||| 1#64 = mask <<< 1 + 1#64 := by
        apply (BitVec.add_eq_or_of_and_eq_zero (mask <<< 1) 1#64 _).symm
        apply BitVec.eq_of_toNat_eq
        rw [BitVec.toNat_and, hsh]
        show 2 * (2 ^ b - 1) &&& 1 = 0
        rw [Nat.and_one_is_mod]; omega
      rw [hor, BitVec.toNat_add, hsh, hs]
      show (2 * (2 ^ b - 1) + 1) % 2 ^ 64 = _
      rw [Nat.mod_eq_of_lt] <;> omega
    · rw [if_neg hlt]
      have hlt' : ¬ mask.toNat < max2.toNat := fun h => hlt (BitVec.lt_def.2 h)
      refine ⟨b, ?_, h3, by omega, h4⟩
      congr 1
      apply BitVec.eq_of_toNat_eq
      rw [h2, BitVec.toNat_ofNat, Nat.mod_eq_of_lt]
      have : 2 ^ b ≤ 2 ^ 64 := Nat.pow_le_pow_right (by omega) h3
      omega

/-- Whole function: there is a bit count `b`, as small as the range allows, such that each word is
reduced to its low `b` bits, accepted if that is within the range, and shifted by the lower bound. -/
theorem getInteger_spec (mn mx : BitVec 64) : ∃ b, b ≤ 64 ∧
    (max mn.toNat mx.toNat - min mn.toNat mx.toNat) < 2 ^ b ∧
    (b = 0 ∨ 2 ^ (b - 1) ≤ max mn.toNat mx.toNat - min mn.toNat mx.toNat) ∧
    ∀ os, ∃ r, getInteger mn mx os = .ok r ∧
      r = sampleLoop (BitVec.ofNat 64 (min mn.toNat mx.toNat))
        (BitVec.ofNat 64 (max mn.toNat mx.toNat - min mn.toNat mx.toNat))
        (BitVec.ofNat 64 (2 ^ b - 1)) os := by
  have key : ∀ lo hi : BitVec 64, lo.toNat ≤ hi.toNat → ∃ b, b ≤ 64 ∧
      (hi.toNat - lo.toNat) < 2 ^ b ∧ (b = 0 ∨ 2 ^ (b - 1) ≤ hi.toNat - lo.toNat) ∧
      hi - lo = BitVec.ofNat 64 (hi.toNat - lo.toNat) ∧
      maskLoop (hi - lo) 65 0#64 = .ok (BitVec.ofNat 64 (2 ^ b - 1)) := by
    intro lo hi h
    have hsub : (hi - lo).toNat = hi.toNat - lo.toNat := BitVec.toNat_sub_of_le (BitVec.le_def.2 h)
    obtain ⟨b, h1, h2, h3, h4⟩ := maskLoop_spec (hi - lo) 65 0#64 0 (by omega) (by simp) (by omega)
      (Or.inl rfl)
    rw [hsub] at h3 h4
    refine ⟨b, h2, h3, h4, ?_, h1⟩
    apply BitVec.eq_of_toNat_eq
    rw [hsub, BitVec.toNat_ofNat, Nat.mod_eq_of_lt]
    have := hi.isLt
    omega
  by_cases hlt : mx < mn
  · have hlt' : mx.toNat < mn.toNat := BitVec.lt_def.1 hlt
    obtain ⟨b, h1, h2, h3, h4, h5⟩ := key mx mn (by omega)
    have e1 : max mn.toNat mx.toNat = mn.toNat := by omega
    have e2 : min mn.toNat mx.toNat = mx.toNat := by omega
    rw [e1, e2]
    refine ⟨b, h1, h2, h3, fun os => ⟨_, ?_, rfl⟩⟩
    unfold getInteger
    rw [if_pos hlt]
    simp only [h5, ok_bind]
    rw [h4]
    simp
  · have hlt' : ¬ mx.toNat < mn.toNat := fun h => hlt (BitVec.lt_def.2 h)
    obtain ⟨b, h1, h2, h3, h4, h5⟩ := key mn mx (by omega)
    have e1 : max mn.toNat mx.toNat = mx.toNat := by omega
    have e2 : min mn.toNat mx.toNat = mn.toNat := by omega
    rw [e1, e2]
    refine ⟨b, h1, h2, h3, fun os => ⟨_, ?_, rfl⟩⟩
    unfold getInteger
    rw [if_neg hlt]
    simp only [h5, ok_bind]
    rw [h4]
    simp

/-- A word is accepted with value `v`: fed with this single word, the call returns true and `v`. -/
def Yields (mn mx w v : BitVec 64) : Prop :=
  getInteger mn mx [some w] = .ok (.returned (some v) [])

/-- A word is rejected: fed with this single word, the call is still asking for more. -/
def Rejected (mn mx w : BitVec 64) : Prop := getInteger mn mx [some w] = .ok .pending

theorem mask_and (w : BitVec 64) (b : Nat) (hb : b ≤ 64) :
    (w &&& BitVec.ofNat 64 (2 ^ b - 1)).toNat = w.toNat % 2 ^ b := by
  have hp : 0 < 2 ^ b := Nat.pow_pos (by omega)
  have : 2 ^ b ≤ 2 ^ 64 := Nat.pow_le_pow_right (by omega) hb
  rw [BitVec.toNat_and, BitVec.toNat_ofNat, Nat.mod_eq_of_lt (by omega), Nat.and_two_pow_sub_one_eq_mod]

/-- The behaviour of the call in terms of numbers. -/
theorem getInteger_num (mn mx : BitVec 64) : ∃ b, b ≤ 64 ∧
    (max mn.toNat mx.toNat - min mn.toNat mx.toNat) < 2 ^ b ∧
    (b = 0 ∨ 2 ^ (b - 1) ≤ max mn.toNat mx.toNat - min mn.toNat mx.toNat) ∧
    (∀ w v, Yields mn mx w v ↔
      w.toNat % 2 ^ b ≤ max mn.toNat mx.toNat - min mn.toNat mx.toNat ∧
      v.toNat = w.toNat % 2 ^ b + min mn.toNat mx.toNat) ∧
    (∀ w, Rejected mn mx w ↔ max mn.toNat mx.toNat - min mn.toNat mx.toNat < w.toNat % 2 ^ b) ∧
    (getInteger mn mx [] = .ok .pending) ∧
    (∀ os, getInteger mn mx (none :: os) = .ok (.returned none os)) ∧
    (∀ w os, Rejected mn mx w → getInteger mn mx (some w :: os) = getInteger mn mx os) ∧
    (∀ w v os, Yields mn mx w v → getInteger mn mx (some w :: os) = .ok (.returned (some v) os)) := by
  obtain ⟨b, h1, h2, h3, h4⟩ := getInteger_spec mn mx
  have hmn := mn.isLt
  have hmx := mx.isLt
  have hg : ∀ os, getInteger mn mx os = .ok (sampleLoop (BitVec.ofNat 64 (min mn.toNat mx.toNat))
      (BitVec.ofNat 64 (max mn.toNat mx.toNat - min mn.toNat mx.toNat))
      (BitVec.ofNat 64 (2 ^ b - 1)) os) := by
    intro os
    obtain ⟨r, hr, rfl⟩ := h4 os
    exact hr
  generalize hD : max mn.toNat mx.toNat - min mn.toNat mx.toNat = D at *
  generalize hL : min mn.toNat mx.toNat = L at *
  have hsum : L + D < 2 ^ 64 := by omega
  have hDn : (BitVec.ofNat 64 D).toNat = D := by rw [BitVec.toNat_ofNat, Nat.mod_eq_of_lt]; omega
  have hLn : (BitVec.ofNat 64 L).toNat = L := by rw [BitVec.toNat_ofNat, Nat.mod_eq_of_lt]; omega
  have hcond : ∀ w, (BitVec.ofNat 64 D < (w &&& BitVec.ofNat 64 (2 ^ b - 1))) ↔ D < w.toNat % 2 ^ b := by
    intro w; rw [BitVec.lt_def, hDn, mask_and w b h1]
  have hrej : ∀ w, Rejected mn mx w ↔ D < w.toNat % 2 ^ b := by
    intro w
    unfold Rejected
    rw [hg, sampleLoop]
    by_cases h : D < w.toNat % 2 ^ b
    · rw [if_pos ((hcond w).2 h)]; simp [sampleLoop, h]
    · rw [if_neg (fun h' => h ((hcond w).1 h'))]; simp [h]
  refine ⟨b, h1, h2, h3, ?_, hrej, by rw [hg]; rfl, fun os => by rw [hg]; rfl, ?_, ?_⟩
  · intro w v
    unfold Yields
    rw [hg, sampleLoop]
    by_cases h : D < w.toNat % 2 ^ b
    · rw [if_pos ((hcond w).2 h)]; simp [sampleLoop]; intro; omega
    · rw [if_neg (fun h' => h ((hcond w).1 h'))]
      have hadd : (w &&& BitVec.ofNat 64 (2 ^ b - 1)).toNat + (BitVec.ofNat 64 L).toNat =
          w.toNat % 2 ^ b + L := by rw [mask_and w b h1, hLn]
      constructor
      · intro e
        simp only [Except.ok.injEq, Run.returned.injEq, Option.some.injEq, and_true] at e
        refine ⟨by omega, ?_⟩
        rw [← e, BitVec.toNat_add, hadd, Nat.mod_eq_of_lt]; omega
      · rintro ⟨-, e⟩
        simp only [Except.ok.injEq, Run.returned.injEq, Option.some.injEq, and_true]
        apply BitVec.eq_of_toNat_eq
        rw [e, BitVec.toNat_add, hadd, Nat.mod_eq_of_lt]; omega
  · intro w os h
    rw [hg, hg, sampleLoop, if_pos ((hcond w).2 ((hrej w).1 h))]
  · intro w v os h
    unfold Yields at h
    rw [hg, sampleLoop] at h ⊢
    by_cases hc : BitVec.ofNat 64 D < (w &&& BitVec.ofNat 64 (2 ^ b - 1))
    · rw [if_pos hc] at h; cases h
    · rw [if_neg hc] at h ⊢
      simp only [Except.ok.injEq, Run.returned.injEq, Option.some.injEq, and_true] at h
      rw [h]

/-- **C51, range.**  Whatever the generator delivers, `GetInteger` has no undefined behaviour (in particular
its mask loop ends), and when it returns true the result is between the smaller and the larger bound
inclusive. -/
theorem getInteger_in_range (mn mx : BitVec 64) (os : List (Option (BitVec 64))) :
    ∃ r, getInteger mn mx os = .ok r ∧ ∀ v rest, r = .returned (some v) rest →
      min mn.toNat mx.toNat ≤ v.toNat ∧ v.toNat ≤ max mn.toNat mx.toNat := by
  obtain ⟨b, h1, h2, h3, hy, hr, e0, en, er, ey⟩ := getInteger_num mn mx
  induction os with
  | nil => exact ⟨_, e0, fun v rest h => nomatch h⟩
  | cons a os ih =>
    cases a with
    | none => exact ⟨_, en os, fun v rest h => nomatch h⟩
    | some w =>
      by_cases h : max mn.toNat mx.toNat - min mn.toNat mx.toNat < w.toNat % 2 ^ b
      · rw [er w os ((hr w).2 h)]; exact ih
      · have hv : Yields mn mx w (BitVec.ofNat 64 (w.toNat % 2 ^ b + min mn.toNat mx.toNat)) := by
          rw [hy]
          refine ⟨by omega, ?_⟩
          have := mn.isLt
          have := mx.isLt
          rw [BitVec.toNat_ofNat, Nat.mod_eq_of_lt]; omega
        refine ⟨_, ey w _ os hv, ?_⟩
        rintro v rest e
        cases e
        have := (hy w _).1 hv
        omega

/-- A word is decided on its own: it is rejected or yields exactly one value, and a stream of outcomes is
answered by its first outcome that is not a rejected word. -/
theorem getInteger_stream (mn mx : BitVec 64) (os : List (Option (BitVec 64)))
    (v : BitVec 64) (rest : List (Option (BitVec 64))) :
    getInteger mn mx os = .ok (.returned (some v) rest) ↔
      ∃ (pre : List (BitVec 64)) (w : BitVec 64), os = pre.map some ++ some w :: rest ∧ (∀ x ∈ pre, Rejected mn mx x) ∧
        Yields mn mx w v := by
  obtain ⟨b, h1, h2, h3, hy, hr, e0, en, er, ey⟩ := getInteger_num mn mx
  induction os with
  | nil =>
    rw [e0]
    constructor
    · intro h; cases h
    · rintro ⟨pre, w, h, -⟩; simp at h
  | cons a os ih =>
    cases a with
    | none =>
      rw [en]
      constructor
      · intro h; cases h
      · rintro ⟨pre, w, h, -⟩; cases pre <;> simp at h
    | some w =>
      by_cases h : max mn.toNat mx.toNat - min mn.toNat mx.toNat < w.toNat % 2 ^ b
      · have hrej := (hr w).2 h
        rw [er w os hrej, ih]
        constructor
        · rintro ⟨pre, w', rfl, hpre, hw'⟩
          refine ⟨w :: pre, w', by simp, ?_, hw'⟩
          intro x hx
          rcases List.mem_cons.1 hx with rfl | hx
          · exact hrej
          · exact hpre x hx
        · rintro ⟨pre, w', e, hpre, hw'⟩
          cases pre with
          | nil =>
            simp only [List.map_nil, List.nil_append, List.cons.injEq, Option.some.injEq] at e
            obtain ⟨rfl, -⟩ := e
            have := (hy _ _).1 hw'
            omega
          | cons x pre =>
            simp only [List.map_cons, List.cons_append, List.cons.injEq, Option.some.injEq] at e
            obtain ⟨rfl, rfl⟩ := e
            exact ⟨pre, w', rfl, fun y hy => hpre y (by simp [hy]), hw'⟩
      · have hv : Yields mn mx w (BitVec.ofNat 64 (w.toNat % 2 ^ b + min mn.toNat mx.toNat)) := by
          rw [hy]
          refine ⟨by omega, ?_⟩
          have := mn.isLt
          have := mx.isLt
          rw [BitVec.toNat_ofNat, Nat.mod_eq_of_lt]; omega
        rw [ey w _ os hv]
        constructor
        · intro e; cases e
          exact ⟨[], w, rfl, by simp, hv⟩
        · rintro ⟨pre, w', e, hpre, hw'⟩
          cases pre with
          | nil =>
            simp only [List.map_nil, List.nil_append, List.cons.injEq, Option.some.injEq] at e
            obtain ⟨rfl, rfl⟩ := e
            have a1 := (hy _ _).1 hw'
            have a2 := (hy _ _).1 hv
            have : v = BitVec.ofNat 64 (w.toNat % 2 ^ b + min mn.toNat mx.toNat) :=
              BitVec.eq_of_toNat_eq (by omega)
            rw [this]
          | cons x pre =>
            simp only [List.map_cons, List.cons_append, List.cons.injEq, Option.some.injEq] at e
            obtain ⟨rfl, -⟩ := e
            exact absurd ((hr w).1 (hpre w (by simp))) h

/-- XOR with a constant, as a permutation of the 64-bit words. -/
def xorPerm (d : BitVec 64) : Equiv.Perm (BitVec 64) where
  toFun w := w ^^^ d
  invFun w := w ^^^ d
  left_inv w := by simp [BitVec.xor_assoc]
  right_inv w := by simp [BitVec.xor_assoc]

theorem xor_mod (w d b : Nat) (hd : d < 2 ^ b) : (w ^^^ d) % 2 ^ b = (w % 2 ^ b) ^^^ d := by
  rw [← Nat.and_two_pow_sub_one_eq_mod, Nat.and_xor_distrib_right, Nat.and_two_pow_sub_one_eq_mod,
    Nat.and_two_pow_sub_one_eq_mod, Nat.mod_eq_of_lt hd]

/-- **C51, unbiased.**  Any two values of the range are yielded by equally many of the `2^64` words: some
permutation of all words carries the words yielding the one exactly onto those yielding the other. -/
theorem getInteger_unbiased (mn mx v v' : BitVec 64)
    (hv : min mn.toNat mx.toNat ≤ v.toNat) (hv2 : v.toNat ≤ max mn.toNat mx.toNat)
    (hv' : min mn.toNat mx.toNat ≤ v'.toNat) (hv2' : v'.toNat ≤ max mn.toNat mx.toNat) :
    ∃ e : Equiv.Perm (BitVec 64), ∀ w, Yields mn mx w v ↔ Yields mn mx (e w) v' := by
  obtain ⟨b, h1, h2, h3, hy, -⟩ := getInteger_num mn mx
  generalize hL : min mn.toNat mx.toNat = L at *
  have hb64 : 2 ^ b ≤ 2 ^ 64 := Nat.pow_le_pow_right (by omega) h1
  have ha : v.toNat - L < 2 ^ b := by omega
  have ha' : v'.toNat - L < 2 ^ b := by omega
  have hd : (v.toNat - L) ^^^ (v'.toNat - L) < 2 ^ b := Nat.xor_lt_two_pow ha ha'
  refine ⟨xorPerm (BitVec.ofNat 64 ((v.toNat - L) ^^^ (v'.toNat - L))), fun w => ?_⟩
  have hx : (xorPerm (BitVec.ofNat 64 ((v.toNat - L) ^^^ (v'.toNat - L))) w).toNat % 2 ^ b =
      (w.toNat % 2 ^ b) ^^^ ((v.toNat - L) ^^^ (v'.toNat - L)) := by
    show (w ^^^ _).toNat % 2 ^ b = _
    rw [BitVec.toNat_xor, BitVec.toNat_ofNat, Nat.mod_eq_of_lt (a := (v.toNat - L) ^^^ (v'.toNat - L)) (b := 2 ^ 64) (by omega),
      xor_mod _ _ _ hd]
  rw [hy, hy, hx]
  constructor
  · rintro ⟨a1, a2⟩
    have : w.toNat % 2 ^ b = v.toNat - L := by omega
    rw [this, ← Nat.xor_assoc, Nat.xor_self, Nat.zero_xor]
    omega
  · rintro ⟨a1, a2⟩
    have e1 : w.toNat % 2 ^ b ^^^ (v.toNat - L ^^^ (v'.toNat - L)) = v'.toNat - L := by omega
    have e2 : w.toNat % 2 ^ b = v.toNat - L := by
      have := congrArg (fun t => t ^^^ (v.toNat - L ^^^ (v'.toNat - L))) e1
      simp only [Nat.xor_assoc, Nat.xor_self, Nat.xor_zero] at this
      rw [this, Nat.xor_comm (v.toNat - L), ← Nat.xor_assoc, Nat.xor_self, Nat.zero_xor]
    omega

/-- Every value of the range is yielded by some word (so the equal numbers above are not zero). -/
theorem getInteger_onto (mn mx v : BitVec 64)
    (hv : min mn.toNat mx.toNat ≤ v.toNat) (hv2 : v.toNat ≤ max mn.toNat mx.toNat) :
    ∃ w, Yields mn mx w v := by
  obtain ⟨b, h1, h2, h3, hy, -⟩ := getInteger_num mn mx
  have := v.isLt
  refine ⟨BitVec.ofNat 64 (v.toNat - min mn.toNat mx.toNat), ?_⟩
  rw [hy, BitVec.toNat_ofNat, Nat.mod_eq_of_lt (by omega), Nat.mod_eq_of_lt (by omega)]
  omega

/-- At most half of the words are rejected: a permutation carries every rejected word to an accepted one.
(So with random words the expected number of rounds is at most two.) -/
theorem getInteger_rejects_at_most_half (mn mx : BitVec 64) :
    ∃ e : Equiv.Perm (BitVec 64), ∀ w, Rejected mn mx w → ∃ v, Yields mn mx (e w) v := by
  obtain ⟨b, h1, h2, h3, hy, hr, -⟩ := getInteger_num mn mx
  rcases Nat.eq_zero_or_pos b with rfl | hb
  · refine ⟨Equiv.refl _, fun w hw => ?_⟩
    have := (hr w).1 hw
    simp [Nat.mod_one] at this
  · have h3' : 2 ^ (b - 1) ≤ max mn.toNat mx.toNat - min mn.toNat mx.toNat := by
      rcases h3 with h | h
      · omega
      · exact h
    have hb' : 2 ^ b = 2 * 2 ^ (b - 1) := by
      rw [← Nat.pow_succ']; congr 1; omega
    have hb64 : 2 ^ b ≤ 2 ^ 64 := Nat.pow_le_pow_right (by omega) h1
    have hp : 0 < 2 ^ (b - 1) := Nat.pow_pos (by omega)
    refine ⟨xorPerm (BitVec.ofNat 64 (2 ^ (b - 1))), fun w hw => ?_⟩
    have hw' := (hr w).1 hw
    have hx : (xorPerm (BitVec.ofNat 64 (2 ^ (b - 1))) w).toNat % 2 ^ b =
        (w.toNat % 2 ^ b) ^^^ 2 ^ (b - 1) := by
      show (w ^^^ _).toNat % 2 ^ b = _
      rw [BitVec.toNat_xor, BitVec.toNat_ofNat, Nat.mod_eq_of_lt (a := 2 ^ (b - 1)) (by omega),
        xor_mod _ _ _ (by omega)]
    have hlt : w.toNat % 2 ^ b < 2 ^ b := Nat.mod_lt _ (by omega)
    have hsmall : (w.toNat % 2 ^ b) ^^^ 2 ^ (b - 1) < 2 ^ (b - 1) := by
      have hq : w.toNat % 2 ^ b / 2 ^ (b - 1) = 1 :=
        Nat.div_eq_of_lt_le (by omega) (by omega)
      have hz : ((w.toNat % 2 ^ b) ^^^ 2 ^ (b - 1)) / 2 ^ (b - 1) = 0 := by
        rw [Nat.xor_div_two_pow, hq, Nat.div_self hp, Nat.xor_self]
      rcases (Nat.div_eq_zero_iff).1 hz with h | h
      · omega
      · exact h
    have hmn := mn.isLt
    have hmx := mx.isLt
    generalize (w.toNat % 2 ^ b) ^^^ 2 ^ (b - 1) = X at hx hsmall
    refine ⟨BitVec.ofNat 64 (X + min mn.toNat mx.toNat), ?_⟩
    rw [hy, hx, BitVec.toNat_ofNat,
      Nat.mod_eq_of_lt (a := X + min mn.toNat mx.toNat) (b := 2 ^ 64) (by omega)]
    omega

/-- Rolling a die (bounds given in either order): word 7 is rejected, word 12 yields 5. -/
example : getInteger 6#64 1#64 [some 7#64, some 12#64, none] = .ok (.returned (some 5#64) [none]) := by
  decide
example : Yields 1#64 6#64 12#64 5#64 ∧ Rejected 1#64 6#64 7#64 := by
  unfold Yields Rejected; decide

/-! ## C52 -/

/-- Full statement of C52 for an opened device: (a) true is returned only by a call whose last read delivered
exactly `size` bytes, and these are what the buffer then holds; (b) if from some point on the generator only
fails (with errors other than interruptions), the call returns false. -/
def GetBytesSpec (size : Nat) : Prop :=
  (∀ buf os buf' rest, getBytes true size buf os = .returned (true, buf') rest →
    ∃ pre bytes, os = pre ++ .got bytes :: rest ∧ bytes.length = size ∧ buf' = bytes ++ buf'.drop size) ∧
  (∀ buf, ∃ n, ∃ buf' rest, getBytes true size buf (List.replicate n .fail) = .returned (false, buf') rest)

/-- **C52 (partial).**  Part (a) of the claim, for every request below 2^63 bytes and every behaviour of the
operating system, and the buffer keeps its size; a device that could not be opened gives false.
Missing: part (b), which the code violates, see `getBytes_never_false` and `getBytes_spec_fails`. -/
theorem getBytes_complete_partial (size : Nat) (hs : size < 2 ^ 63) :
    (∀ buf os buf' rest, getBytes true size buf os = .returned (true, buf') rest →
      ∃ pre bytes, os = pre ++ .got bytes :: rest ∧ bytes.length = size ∧
        buf' = bytes ++ buf'.drop size ∧
        (size ≤ buf.length → (∀ r b, r ∈ pre → r = .got b → b.length ≤ size) →
          buf'.length = buf.length)) ∧
    (∀ buf os, getBytes false size buf os = .returned (false, buf) os) := by
  refine ⟨?_, fun buf os => rfl⟩
  intro buf os buf' rest h
  simp only [getBytes, if_true] at h
  induction os generalizing buf with
  | nil => cases h
  | cons r rs ih =>
    rw [getBytesLoop] at h
    by_cases he : r = .eintr
    · subst he
      simp only [if_true] at h
      obtain ⟨pre, bytes, rfl, h2, h3, h4⟩ := ih _ h
      exact ⟨.eintr :: pre, bytes, rfl, h2, h3, fun hl hp => h4 hl (fun r b hr => hp r b (by simp [hr]))⟩
    · simp only [if_neg he] at h
      by_cases hr : r.ret ≠ ssize size
      · rw [if_pos hr] at h
        obtain ⟨pre, bytes, rfl, h2, h3, h4⟩ := ih _ h
        refine ⟨r :: pre, bytes, rfl, h2, h3, fun hl hp => ?_⟩
        have hsame : ∀ b, r = .got b → (fill buf b).length = buf.length := by
          intro b hb
          have := hp r b (by simp) hb
          simp [fill]; omega
        cases r with
        | got b =>
          have := h4 (by rw [afterRead, hsame b rfl]; exact hl) (fun r b hr => hp r b (by simp [hr]))
          rw [this, afterRead, hsame b rfl]
        | eintr => exact absurd rfl he
        | fail => exact h4 hl (fun r b hr => hp r b (by simp [hr]))
      · rw [if_neg hr] at h
        have hss : ssize size = size := by simp [ssize, hs]
        cases r with
        | got b =>
          have hb : b.length = size := by
            simp only [ReadRes.ret, hss, ne_eq, Decidable.not_not] at hr
            omega
          rw [if_neg (by simp [ReadRes.ret])] at h
          cases h
          refine ⟨[], b, rfl, hb, ?_, fun hl _ => by simp [afterRead, fill]; omega⟩
          simp [afterRead, fill, ← hb]
        | eintr => exact absurd rfl he
        | fail =>
          simp only [ReadRes.ret, hss, ne_eq, Decidable.not_not] at hr
          omega

/-- An interruption, a short read and then a full read: true, with the bytes of the full read. -/
example : getBytes true 2 [0, 0] [.eintr, .got [9], .got [4, 5], .fail] =
    .returned (true, [4, 5]) [.fail] := by decide

/-- **C52, negation of part (b).**  For requests below 2^63 bytes the call never returns false once the device
is open: under any finite sequence of failing or short reads it is still looping. -/
theorem getBytes_never_false (size : Nat) (hs : size < 2 ^ 63) (buf : List UInt8) (os : List ReadRes)
    (hbad : ∀ b, .got b ∈ os → b.length ≠ size) : getBytes true size buf os = .pending := by
  have hss : ssize size = size := by simp [ssize, hs]
  simp only [getBytes, if_true]
  induction os generalizing buf with
  | nil => rfl
  | cons r rs ih =>
    have ih' := fun buf => ih buf (fun b hb => hbad b (by simp [hb]))
    rw [getBytesLoop]
    cases r with
    | got b =>
      have := hbad b (by simp)
      simp only [reduceCtorEq, if_false]
      rw [if_pos (by simp only [ReadRes.ret, hss]; omega)]
      exact ih' _
    | eintr => simp only [if_true]; exact ih' _
    | fail =>
      simp only [reduceCtorEq, if_false]
      rw [if_pos (by simp only [ReadRes.ret, hss]; omega)]
      exact ih' _

/-- Hence the full claim fails for every request below 2^63 bytes. -/
theorem getBytes_spec_fails (size : Nat) (hs : size < 2 ^ 63) : ¬ GetBytesSpec size := by
  rintro ⟨-, h⟩
  obtain ⟨n, buf', rest, h⟩ := h []
  rw [getBytes_never_false size hs _ _ (fun b hb => by simp at hb)] at h
  cases h

end Verif.Csprng
