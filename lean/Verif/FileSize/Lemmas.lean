import Verif.ConvertInt.Lemmas
import Verif.FileSize.Model
import Verif.FileSize.Spec

namespace Verif.FileSize
open Spec ConvertInt.Spec ConvertInt

theorem wrPre_snoc (pre suf : List UInt8) (a v : UInt8) :
    wrPre (pre ++ a :: suf) (pre.length + 1) v = .ok (pre ++ v :: suf, pre.length) := by
  simp [wrPre, wr_append]

/-- `wrPre` at the end of a non-empty prefix. -/
theorem wrPre_pre (pre suf : List UInt8) (v : UInt8) (h : 0 < pre.length) :
    wrPre (pre ++ suf) pre.length v =
      .ok (pre.take (pre.length - 1) ++ v :: suf, pre.length - 1) := by
  obtain ⟨p, a, rfl⟩ := snoc_of_pos pre h
  have e : (p ++ [a]) ++ suf = p ++ a :: suf := by simp
  have e2 : (p ++ [a]).length = p.length + 1 := by simp
  rw [e, e2, wrPre_snoc]
  simp

theorem mulTen_eq (f e : Nat) : mulTen f e % W = e * 10 ^ f % W := by
  induction f generalizing e with
  | zero => simp [mulTen]
  | succ f ih =>
    rw [mulTen, ih, Nat.mod_mul_mod, Nat.pow_succ, Nat.mul_assoc, Nat.mul_comm 10]

theorem mulTen_eq_of_lt (f e : Nat) (h : e * 10 ^ f < W) : mulTen f e = e * 10 ^ f := by
  have hm : ∀ f e, e < W → mulTen f e < W := by
    intro f
    induction f with
    | zero => intro e h; exact h
    | succ f ih => intro e _; exact ih _ (Nat.mod_lt _ (by decide))
  have hp : 0 < 10 ^ f := Nat.pow_pos (by omega)
  have he : e < W := Nat.lt_of_le_of_lt (Nat.le_mul_of_pos_right e hp) h
  have := mulTen_eq f e
  rwa [Nat.mod_eq_of_lt (hm f e he), Nat.mod_eq_of_lt h] at this

/-! ### fraction digits -/

/-- The last `f` decimal digits of `e`, most significant first. -/
def fdig : Nat → Nat → List Nat
  | 0, _ => []
  | f + 1, e => fdig f (e / 10) ++ [e % 10]

theorem fdig_length (f e : Nat) : (fdig f e).length = f := by
  induction f generalizing e with
  | zero => rfl
  | succ f ih => simp [fdig, ih]

theorem fdig_lt (f e : Nat) : ∀ d ∈ fdig f e, d < 10 := by
  induction f generalizing e with
  | zero => simp [fdig]
  | succ f ih =>
    intro d hd
    simp only [fdig, List.mem_append, List.mem_singleton] at hd
    rcases hd with hd | hd
    · exact ih _ d hd
    · omega

theorem fdig_value (f e : Nat) (h : e < 10 ^ f) : valueOf 10 (fdig f e) = e := by
  induction f generalizing e with
  | zero => simp at h; simp [fdig, valueOf, h]
  | succ f ih =>
    rw [fdig, valueOf_snoc, ih (e / 10) (by rw [Nat.pow_succ] at h; omega)]
    omega

theorem fdig_zero (f : Nat) : fdig f 0 = List.replicate f 0 := by
  induction f with
  | zero => rfl
  | succ f ih => simp [fdig, ih, ← List.replicate_succ']

/-- The character of a decimal digit. -/
def dchar (d : Nat) : UInt8 := UInt8.ofNat (48 + d)

theorem dchar_eq (d : Nat) (h : d < 10) : UInt8.ofNat d + 48 = dchar d := by
  have : ∀ d : Fin 10, UInt8.ofNat d.val + 48 = dchar d.val := by decide
  exact this ⟨d, h⟩

theorem dchar_ne (d : Nat) (h : d < 10) : dchar d ≠ 0 := by
  have : ∀ d : Fin 10, dchar d.val ≠ 0 := by decide
  exact this ⟨d, h⟩

theorem pad_spec (f : Nat) (pre suf : List UInt8) (h : f ≤ pre.length) :
    padLoop f (pre ++ suf) pre.length =
      .ok (pre.take (pre.length - f) ++ (List.replicate f 48 ++ suf), pre.length - f) := by
  induction f generalizing pre suf with
  | zero => simp [padLoop]
  | succ f ih =>
    rw [padLoop, if_pos (by omega), wrPre_pre pre suf 48 (by omega)]
    simp only [ok_bind]
    have hl : (pre.take (pre.length - 1)).length = pre.length - 1 := by simp
    have := ih (pre.take (pre.length - 1)) (48 :: suf) (by omega)
    rw [hl] at this
    rw [this, List.take_take]
    have e1 : min (pre.length - 1 - f) (pre.length - 1) = pre.length - (f + 1) := by omega
    have e2 : pre.length - 1 - f = pre.length - (f + 1) := by omega
    rw [e1, e2]
    simp [List.replicate_succ' (n := f)]

theorem frac_spec (f e : Nat) (pre suf : List UInt8) (h : f ≤ pre.length) (he : e < 10 ^ f) :
    ∃ m1 x1 f1, fracLoop f (pre ++ suf) pre.length e = .ok (m1, x1, f1, 0) ∧
      padLoop f1 m1 x1 = .ok (pre.take (pre.length - f) ++ ((fdig f e).map dchar ++ suf),
        pre.length - f) := by
  induction f generalizing e pre suf with
  | zero =>
    have : e = 0 := by simpa using he
    subst this
    exact ⟨pre ++ suf, pre.length, 0, rfl, by simp [padLoop, fdig]⟩
  | succ f ih =>
    by_cases h0 : e = 0
    · subst h0
      refine ⟨pre ++ suf, pre.length, f + 1, by simp [fracLoop], ?_⟩
      rw [pad_spec (f + 1) pre suf h, fdig_zero, List.map_replicate]
      rfl
    · have hl : (pre.take (pre.length - 1)).length = pre.length - 1 := by simp
      obtain ⟨m1, x1, f1, h1, h2⟩ := ih (e / 10) (pre.take (pre.length - 1))
        (dchar (e % 10) :: suf) (by omega) (by rw [Nat.pow_succ] at he; omega)
      rw [hl] at h1 h2
      refine ⟨m1, x1, f1, ?_, ?_⟩
      · rw [fracLoop, if_pos ⟨h0, by omega⟩, wrPre_pre pre suf _ (by omega)]
        simp only [ok_bind]
        rw [dchar_eq _ (by omega)]
        exact h1
      · rw [h2, List.take_take]
        have e1 : min (pre.length - 1 - f) (pre.length - 1) = pre.length - (f + 1) := by omega
        have e2 : pre.length - 1 - f = pre.length - (f + 1) := by omega
        rw [e1, e2]
        simp [fdig]

/-- Whatever the value (also after wrap-around), the digit loops stay in the buffer and only
write between the final position and the old text. -/
theorem frac_total (f e : Nat) (pre suf : List UInt8) :
    ∃ x1 t f1 e1, fracLoop f (pre ++ suf) pre.length e = .ok (pre.take x1 ++ (t ++ suf), x1, f1, e1) ∧
      x1 ≤ pre.length ∧ t.length = pre.length - x1 ∧ f1 + (pre.length - x1) = f ∧
      0 ∉ t := by
  induction f generalizing e pre suf with
  | zero => exact ⟨pre.length, [], 0, e, by simp [fracLoop], by omega, by simp, by simp, by simp⟩
  | succ f ih =>
    by_cases hc : e ≠ 0 ∧ pre.length ≠ 0
    · have hl : (pre.take (pre.length - 1)).length = pre.length - 1 := by simp
      obtain ⟨x1, t, f1, e1, h1, h2, h3, h4, h5⟩ := ih (e / 10) (pre.take (pre.length - 1))
        ((UInt8.ofNat (e % 10) + 48) :: suf)
      rw [hl] at h1 h2 h3 h4
      refine ⟨x1, t ++ [UInt8.ofNat (e % 10) + 48], f1, e1, ?_, by omega, ?_, by omega, ?_⟩
      · rw [fracLoop, if_pos hc, wrPre_pre pre suf _ (by omega)]
        simp only [ok_bind]
        rw [h1, List.take_take, Nat.min_eq_left h2]
        simp
      · simp only [List.length_append, List.length_cons, List.length_nil]; omega
      · rw [dchar_eq _ (by omega)]
        simp only [List.mem_append, List.mem_singleton, not_or]
        exact ⟨h5, fun h => dchar_ne (e % 10) (by omega) h.symm⟩
    · exact ⟨pre.length, [], f + 1, e, by rw [fracLoop, if_neg hc]; simp, by omega, by simp, by simp, by simp⟩

theorem pad_total (f : Nat) (pre suf : List UInt8) :
    ∃ x1 t, padLoop f (pre ++ suf) pre.length = .ok (pre.take x1 ++ (t ++ suf), x1) ∧
      x1 = pre.length - f ∧ t.length = pre.length - x1 ∧ 0 ∉ t := by
  induction f generalizing pre suf with
  | zero => exact ⟨pre.length, [], by simp [padLoop], by omega, by simp, by simp⟩
  | succ f ih =>
    by_cases hc : pre.length ≠ 0
    · have hl : (pre.take (pre.length - 1)).length = pre.length - 1 := by simp
      obtain ⟨x1, t, h1, h2, h3, h4⟩ := ih (pre.take (pre.length - 1)) (48 :: suf)
      rw [hl] at h1 h2 h3
      refine ⟨x1, t ++ [48], ?_, by omega, ?_, by simp [h4]⟩
      · rw [padLoop, if_pos hc, wrPre_pre pre suf _ (by omega)]
        simp only [ok_bind]
        rw [h1, List.take_take, Nat.min_eq_left (by omega)]
        simp
      · simp only [List.length_append, List.length_cons, List.length_nil]; omega
    · exact ⟨pre.length, [], by simp [padLoop, hc], by omega, by simp, by simp⟩

theorem rendering_no_nul {radix : Nat} {sep : UInt8} {n : Nat} {text : List UInt8}
    (h : IsRendering radix sep n text) : 0 ∉ text := by
  obtain ⟨ds, -, cs, hcs, rfl⟩ := h
  intro h0
  rcases mem_group h0 with h0 | ⟨h0, h0'⟩
  · have := digits_mem hcs 0 h0
    revert this; decide
  · exact h0' h0.symm

/-! ### integer part -/

theorem memmove_front (q T : List UInt8) :
    memmoveIn (q ++ T) 0 q.length ((q ++ T).length - q.length) = .ok (T ++ (q ++ T).drop T.length) := by
  have e : (q ++ T).length - q.length = T.length := by simp
  rw [e]
  simp [memmoveIn]

theorem intPart_spec (pre suf : List UInt8) (num divider : Nat) (numSep : UInt8)
    (hp : 0 < pre.length) :
    ∃ ip, IsRendering 10 numSep (num / divider) ip ∧
      (ip.length ≤ pre.length → ∃ rest,
        intPart (pre ++ suf) pre.length num divider numSep = .ok (true, ip ++ suf ++ rest) ∧
        (ip ++ suf ++ rest).length = (pre ++ suf).length) ∧
      (pre.length < ip.length → ∃ m',
        intPart (pre ++ suf) pre.length num divider numSep = .ok (false, m') ∧
        m'.length = (pre ++ suf).length) := by
  by_cases hn : num / divider = 0
  · rw [hn]
    refine ⟨[48], ⟨[0], (numeral_zero 10 (by omega) _).2 rfl, [48], by decide, by simp [group]⟩, ?_, ?_⟩
    · intro _
      refine ⟨(pre.take (pre.length - 1) ++ 48 :: suf).drop (48 :: suf).length, ?_, ?_⟩
      · unfold intPart
        simp only [hn, if_true]
        rw [wrPre_pre pre suf 48 hp]
        simp only [ok_bind]
        have := memmove_front (pre.take (pre.length - 1)) (48 :: suf)
        have hl : (pre.take (pre.length - 1)).length = pre.length - 1 := by simp
        rw [hl] at this
        rw [this]
        simp
      · simp; omega
    · intro h; simp only [List.length_cons, List.length_nil] at h; omega
  · have hq : 0 < num / divider := Nat.pos_of_ne_zero hn
    obtain ⟨ds, hds, hloop⟩ := loop_spec numSep 10 (by omega) (num / divider) hq
    refine ⟨group numSep (ds.map digitChar),
      ⟨ds, (numeral_pos 10 _ hq ds).2 hds, ds.map digitChar,
        map_digitChar_spec 10 (by decide) ds hds.1, rfl⟩, ?_⟩
    rw [← groupOff_zero]
    obtain ⟨h1, h2⟩ := hloop 0 pre suf
    constructor
    · intro hl
      generalize groupOff numSep 0 (ds.map digitChar) = T at h1 hl ⊢
      refine ⟨(pre.take (pre.length - T.length) ++ (T ++ suf)).drop (T ++ suf).length, ?_, ?_⟩
      · unfold intPart
        simp only [hn, if_false]
        rw [h1 hl]
        simp only [ok_bind]
        rw [if_neg (by simp)]
        have := memmove_front (pre.take (pre.length - T.length)) (T ++ suf)
        have hl' : (pre.take (pre.length - T.length)).length = pre.length - T.length := by simp
        rw [hl', ← List.append_assoc] at this
        rw [this]
        simp
      · simp; omega
    · intro hl
      obtain ⟨m', hm', h⟩ := h2 hl
      refine ⟨m', ?_, hm'⟩
      unfold intPart
      simp only [hn, if_false]
      rcases h with h | ⟨n', hn', h⟩
      · rw [h]; rfl
      · rw [h]; simp [hn']

/-! ### unit choice -/

/-- Unit letter of index `k` (0 for plain bytes). -/
def letter : Nat → UInt8
  | 0 => 0 | 1 => 75 | 2 => 77 | 3 => 71 | 4 => 84 | 5 => 80 | _ => 69

theorem pick_spec (num numFrac : Nat) : ∃ k, UnitIndex (numFrac ≠ 0) num k ∧
    pick num numFrac = (letter k, 1024 ^ k, if numFrac ≠ 0 ∧ 2 ≤ k then numFrac else 0) := by
  unfold pick
  by_cases hf : numFrac = 0
  · subst hf
    have key : ∀ k, k ≤ 6 → (k = 0 ∨ 1024 ^ k ≤ num) → (k = 6 ∨ num < 1024 ^ (k + 1)) →
        UnitIndex (decide ((0 : Nat) ≠ 0)) num k := by
      intro k h1 h2 h3
      refine ⟨h1, ?_, ?_⟩
      · rcases h2 with rfl | h2
        · simp
        · by_cases hk : k = 0 <;> simp [hk]; exact h2
      · intro j hj hkj
        have hpow : 1024 ^ (k + 1) ≤ 1024 ^ j := Nat.pow_le_pow_right (by omega) hkj
        simp
        rw [if_neg (by omega)]
        omega
    simp only [ne_eq, not_true_eq_false, if_false, false_and]
    by_cases h6 : num ≥ 1152921504606846976
    · exact ⟨6, key 6 (by omega) (by right; simpa using h6) (by left; rfl), by simp [h6, letter]⟩
    by_cases h5 : num ≥ 1125899906842624
    · exact ⟨5, key 5 (by omega) (by right; simpa using h5) (by right; simpa using h6),
        by simp [h5, h6, letter]⟩
    by_cases h4 : num ≥ 1099511627776
    · exact ⟨4, key 4 (by omega) (by right; simpa using h4) (by right; simpa using h5),
        by simp [h4, h5, h6, letter]⟩
    by_cases h3 : num ≥ 1073741824
    · exact ⟨3, key 3 (by omega) (by right; simpa using h3) (by right; simpa using h4),
        by simp [h3, h4, h5, h6, letter]⟩
    by_cases h2 : num ≥ 1048576
    · exact ⟨2, key 2 (by omega) (by right; simpa using h2) (by right; simpa using h3),
        by simp [h2, h3, h4, h5, h6, letter]⟩
    by_cases h1 : num ≥ 1024
    · exact ⟨1, key 1 (by omega) (by right; simpa using h1) (by right; simpa using h2),
        by simp [h1, h2, h3, h4, h5, h6, letter]⟩
    · exact ⟨0, key 0 (by omega) (by left; rfl) (by right; simpa using h1),
        by simp [h1, h2, h3, h4, h5, h6, letter]⟩
  · have key : ∀ k, k ≤ 6 →
        (k = 0 ∨ (k = 1 ∧ 1024 ≤ num) ∨ (2 ≤ k ∧ 1000 * 1024 ^ (k - 1) ≤ num)) →
        (k = 6 ∨ (k = 0 ∧ num < 1024) ∨ (1 ≤ k ∧ num < 1000 * 1024 ^ k)) →
        UnitIndex (decide (numFrac ≠ 0)) num k := by
      intro k h1 h2 h3
      refine ⟨h1, ?_, ?_⟩
      · simp [hf]
        rcases h2 with rfl | ⟨rfl, h2⟩ | ⟨h2, h2'⟩
        · simp
        · simpa using h2
        · rw [if_neg (by omega), if_pos h2]; exact h2'
      · intro j hj hkj
        have hpow : 1024 ^ k ≤ 1024 ^ (j - 1) := Nat.pow_le_pow_right (by omega) (by omega)
        simp [hf]
        rw [if_neg (by omega)]
        rcases h3 with h3 | ⟨rfl, h3⟩ | ⟨h3, h3'⟩
        · omega
        · split
          · have : 1024 ^ 1 ≤ 1024 ^ (j - 1) := Nat.pow_le_pow_right (by omega) (by omega)
            omega
          · have : j = 1 := by omega
            subst this; simpa using h3
        · rw [if_pos (by omega)]; omega
    simp only [ne_eq, hf, not_false_eq_true, if_true, true_and]
    by_cases h6 : num ≥ 1125899906842624000
    · exact ⟨6, by simpa [hf] using (key 6 (by omega) (by right; right; simpa using h6) (by left; rfl)),
        by simp [h6, letter]⟩
    by_cases h5 : num ≥ 1099511627776000
    · exact ⟨5, by simpa [hf] using (key 5 (by omega) (by right; right; simpa using h5)
        (by right; right; simpa using h6)), by simp [h5, h6, letter]⟩
    by_cases h4 : num ≥ 1073741824000
    · exact ⟨4, by simpa [hf] using (key 4 (by omega) (by right; right; simpa using h4)
        (by right; right; simpa using h5)), by simp [h4, h5, h6, letter]⟩
    by_cases h3 : num ≥ 1048576000
    · exact ⟨3, by simpa [hf] using (key 3 (by omega) (by right; right; simpa using h3)
        (by right; right; simpa using h4)), by simp [h3, h4, h5, h6, letter]⟩
    by_cases h2 : num ≥ 1024000
    · exact ⟨2, by simpa [hf] using (key 2 (by omega) (by right; right; simpa using h2)
        (by right; right; simpa using h3)), by simp [h2, h3, h4, h5, h6, letter]⟩
    by_cases h1 : num ≥ 1024
    · exact ⟨1, by simpa [hf] using (key 1 (by omega) (by right; left; simpa using h1)
        (by right; right; simpa using h2)), by simp [h1, h2, h3, h4, h5, h6, letter]⟩
    · exact ⟨0, by simpa [hf] using (key 0 (by omega) (by left; rfl)
        (by right; left; simpa using h1)), by simp [h1, h2, h3, h4, h5, h6, letter]⟩

theorem unitIndex_unique (b : Bool) (num k k' : Nat) (h : UnitIndex b num k) (h' : UnitIndex b num k') :
    k = k' := by
  obtain ⟨h1, h2, h3⟩ := h
  obtain ⟨h1', h2', h3'⟩ := h'
  rcases Nat.lt_trichotomy k k' with hlt | heq | hgt
  · have := h3 k' h1' hlt
    exact absurd h2' (Nat.not_le.2 this)
  · exact heq
  · have := h3' k h1 hgt
    exact absurd h2 (Nat.not_le.2 this)

/-- The bytes after the number: separator and unit name. -/
def tailText (unitSep : UInt8) (unit : List UInt8) (k : Nat) : List UInt8 :=
  (if unitSep ≠ 0 then [unitSep] else []) ++ suffix unit k

theorem putUnit_spec (m : List UInt8) (k : Nat) (unitSep : UInt8) (unit : List UInt8)
    (h : 5 + unit.length ≤ m.length) :
    ∃ pre, putUnit m (letter k) unitSep unit =
        .ok (pre ++ (tailText unitSep unit k ++ [0]), pre.length) ∧
      0 < pre.length ∧ pre.length + (tailText unitSep unit k).length + 1 = m.length := by
  -- first part: unit name
  have part1 : ∃ pre, putName m (letter k) unit = .ok (pre ++ (suffix unit k ++ [0]), pre.length) ∧
      2 ≤ pre.length ∧ pre.length + (suffix unit k).length + 1 = m.length := by
    by_cases hk : k = 0
    · subst hk
      refine ⟨m.take (m.length - unit.length - 1), ?_, by simp; omega, by simp [suffix]; omega⟩
      have e1 : m.length - unit.length - 1 + (unit.length + 1) = m.length := by omega
      have e2 : (unit ++ [(0 : UInt8)]).length = unit.length + 1 := by simp
      unfold putName memcpyTo
      rw [if_neg (by simp [letter]), if_pos (by omega), if_pos (by omega), e1]
      simp only [ok_bind, suffix]
      rw [List.drop_length, List.take_of_length_le (l := unit ++ [0]) (by omega)]
      have e3 : (m.take (m.length - unit.length - 1)).length = m.length - unit.length - 1 := by
        rw [List.length_take]; omega
      rw [e3]
      simp
    · have hl : letter k ≠ 0 := by
        unfold letter; split <;> first | (exact absurd rfl hk) | decide
      have hs : suffix unit k = [letter k, 66] := by
        rcases k with _ | _ | _ | _ | _ | _ | k <;> first | (exact absurd rfl hk) | rfl
      unfold putName
      rw [if_pos hl, hs]
      obtain ⟨p1, c, rfl⟩ := snoc_of_pos m (by omega)
      obtain ⟨p2, b, rfl⟩ := snoc_of_pos p1 (by simp at h; omega)
      obtain ⟨p3, a, rfl⟩ := snoc_of_pos p2 (by simp at h; omega)
      refine ⟨p3, ?_, by simp at h; omega, by simp⟩
      have e1 : (p3 ++ [a] ++ [b] ++ [c]).length = (p3 ++ [a] ++ [b]).length + 1 := by simp
      have e2 : p3 ++ [a] ++ [b] ++ [c] = (p3 ++ [a] ++ [b]) ++ c :: [] := by simp
      rw [e1, e2, wrPre_snoc]
      simp only [ok_bind]
      have e1 : (p3 ++ [a] ++ [b]).length = (p3 ++ [a]).length + 1 := by simp
      have e2 : p3 ++ [a] ++ [b] ++ [0] = (p3 ++ [a]) ++ b :: [0] := by simp
      rw [e1, e2, wrPre_snoc]
      simp only [ok_bind]
      have e1 : (p3 ++ [a]).length = p3.length + 1 := by simp
      have e2 : p3 ++ [a] ++ [66, 0] = p3 ++ a :: [66, 0] := by simp
      rw [e1, e2, wrPre_snoc]
      simp
  obtain ⟨pre, he, h2, h3⟩ := part1
  unfold putUnit
  rw [he]
  simp only [ok_bind]
  by_cases hs : unitSep ≠ 0
  · refine ⟨pre.take (pre.length - 1), ?_, by simp; omega, ?_⟩
    · rw [if_pos hs, wrPre_pre pre _ unitSep (by omega)]
      simp [tailText, hs]
    · simp [tailText, hs]; omega
  · refine ⟨pre, by rw [if_neg hs]; simp [tailText, hs], by omega, by simp [tailText, hs]; omega⟩

theorem fdig_unique (f : Nat) : ∀ (ds : List Nat), ds.length = f → (∀ d ∈ ds, d < 10) →
    ds = fdig f (valueOf 10 ds) := by
  induction f with
  | zero => intro ds h _; simpa [fdig] using h
  | succ f ih =>
    intro ds h hd
    obtain ⟨p, a, rfl⟩ := snoc_of_pos ds (by omega)
    have ha : a < 10 := hd a (by simp)
    rw [fdig, valueOf_snoc]
    have h1 : (valueOf 10 p * 10 + a) / 10 = valueOf 10 p := by omega
    have h2 : (valueOf 10 p * 10 + a) % 10 = a := by omega
    rw [h1, h2, ← ih p (by simpa using h) (fun d h => hd d (by simp [h]))]

/-- The specification determines the text. -/
theorem isText_unique {num numFrac : Nat} {numSep decSep unitSep : UInt8} {unit t t' : List UInt8}
    (h : IsText num numFrac numSep decSep unitSep unit t)
    (h' : IsText num numFrac numSep decSep unitSep unit t') : t = t' := by
  obtain ⟨k, ip, h1, h2, fr, h3, rfl⟩ := h
  obtain ⟨k', ip', h1', h2', fr', h3', rfl⟩ := h'
  have hk := unitIndex_unique _ _ _ _ h1 h1'
  subst hk
  have hip := rendering_unique 10 (by omega) _ _ _ _ h2 h2'
  subst hip
  have : fr = fr' := by
    by_cases hf : numFrac ≠ 0 ∧ 2 ≤ k
    · rw [if_pos hf] at h3 h3'
      obtain ⟨-, ⟨ds, a1, a2, a3, rfl⟩, rfl⟩ := h3
      obtain ⟨-, ⟨ds', a1', a2', a3', rfl⟩, rfl⟩ := h3'
      have e := fdig_unique _ ds a1 a2
      have e' := fdig_unique _ ds' a1' a2'
      rw [a3] at e
      rw [a3'] at e'
      rw [e, e']
    · rw [if_neg hf] at h3 h3'
      rw [h3, h3']
  subst this
  rfl

/-! ### the whole function -/

/-- Complete behaviour without wrap-around. -/
theorem toFilesizeU_spec (m : List UInt8) (num numFrac : Nat) (numSep decSep unitSep : UInt8)
    (unit : List UInt8) (hm : m.length < W) (hg : 5 + unit.length ≤ m.length)
    (hw : ∀ k, UnitIndex (numFrac ≠ 0) num k → 2 ≤ k → num % 1024 ^ k * 10 ^ numFrac < W) :
    ∃ text, IsText num numFrac numSep decSep unitSep unit text ∧
      (text.length + 1 ≤ m.length → ∃ rest,
        toFilesizeU m num numFrac numSep decSep unitSep unit = .ok (true, text ++ 0 :: rest) ∧
        (text ++ 0 :: rest).length = m.length) ∧
      (m.length < text.length + 1 → ∃ m',
        toFilesizeU m num numFrac numSep decSep unitSep unit = .ok (false, m') ∧
        m'.length = m.length) := by
  obtain ⟨k, hk, hpick⟩ := pick_spec num numFrac
  obtain ⟨pre, hput, hpos, hlen⟩ := putUnit_spec m k unitSep unit hg
  have hpow : 0 < 1024 ^ k := Nat.pow_pos (by omega)
  generalize hT : tailText unitSep unit k = T at hput hlen
  have hunf : toFilesizeU m num numFrac numSep decSep unitSep unit = putNumber (pre ++ (T ++ [0]))
      pre.length num (1024 ^ k) (if numFrac ≠ 0 ∧ 2 ≤ k then numFrac else 0) numSep decSep := by
    unfold toFilesizeU
    rw [if_neg (by omega), hpick]
    simp only [hput, ok_bind]
  rw [hunf]
  clear hunf
  unfold putNumber
  by_cases hf : numFrac ≠ 0 ∧ 2 ≤ k
  · rw [if_pos hf, if_pos hf.1]
    have hwk := hw k hk hf.2
    rw [mulTen_eq_of_lt _ _ hwk]
    have hv : num % 1024 ^ k * 10 ^ numFrac / 1024 ^ k < 10 ^ numFrac := by
      rw [Nat.div_lt_iff_lt_mul hpow, Nat.mul_comm (10 ^ numFrac)]
      exact Nat.mul_lt_mul_of_pos_right (Nat.mod_lt _ hpow) (Nat.pow_pos (by omega))
    generalize hV : num % 1024 ^ k * 10 ^ numFrac / 1024 ^ k = V at hv
    have hfrac : IsFraction numFrac V ((fdig numFrac V).map dchar) :=
      ⟨fdig numFrac V, fdig_length _ _, fdig_lt _ _, fdig_value _ _ hv, rfl⟩
    by_cases hroom : numFrac + 2 ≤ pre.length
    · -- enough room for the fraction, the decimal separator and one digit
      have hnw : (numFrac + 2) % W = numFrac + 2 := Nat.mod_eq_of_lt (by omega)
      rw [hnw, if_neg (by omega)]
      obtain ⟨m1, x1, f1, h1, h2⟩ := frac_spec numFrac V pre (T ++ [0]) (by omega) hv
      rw [h1]
      simp only [ok_bind]
      rw [h2]
      simp only [ok_bind]
      rw [if_neg (by omega)]
      have hl1 : (pre.take (pre.length - numFrac)).length = pre.length - numFrac := by simp
      have hstep := wrPre_pre (pre.take (pre.length - numFrac))
        ((fdig numFrac V).map dchar ++ (T ++ [0])) decSep (by omega)
      rw [hl1] at hstep
      rw [hstep]
      simp only [ok_bind]
      rw [if_neg (by omega), List.take_take, Nat.min_eq_left (by omega)]
      have hl2 : (pre.take (pre.length - numFrac - 1)).length = pre.length - numFrac - 1 := by
        simp; omega
      obtain ⟨ip, hip, hi1, hi2⟩ := intPart_spec (pre.take (pre.length - numFrac - 1))
        (decSep :: ((fdig numFrac V).map dchar ++ (T ++ [0]))) num (1024 ^ k) numSep (by omega)
      rw [hl2] at hi1 hi2
      refine ⟨ip ++ (decSep :: (fdig numFrac V).map dchar) ++ T, ⟨k, ip, hk, hip,
        decSep :: (fdig numFrac V).map dchar, ?_, ?_⟩, ?_, ?_⟩
      · rw [if_pos hf]; exact ⟨_, by rw [hV]; exact hfrac, rfl⟩
      · rw [← hT, tailText]; simp
      · intro hl
        simp only [List.length_append, List.length_cons, List.length_map, fdig_length] at hl
        obtain ⟨rest, hr, hrl⟩ := hi1 (by clear hi1 hi2; omega)
        clear hi1 hi2
        refine ⟨rest, by rw [hr]; simp, ?_⟩
        simp only [List.length_append, List.length_cons, List.length_map, fdig_length, hl2,
          List.length_nil] at hrl ⊢
        omega
      · intro hl
        simp only [List.length_append, List.length_cons, List.length_map, fdig_length] at hl
        obtain ⟨m', hr, hrl⟩ := hi2 (by clear hi1 hi2; omega)
        clear hi1 hi2
        refine ⟨m', hr, ?_⟩
        simp only [List.length_append, List.length_cons, List.length_map, fdig_length, hl2,
          List.length_nil] at hrl ⊢
        omega
    · -- not enough room
      obtain ⟨ip, hip, -, -⟩ := intPart_spec [0] [] num (1024 ^ k) numSep (by simp)
      have hipl : 1 ≤ ip.length := by
        obtain ⟨ds, hds, cs, hcs, rfl⟩ := hip
        cases cs with
        | nil => cases ds with
          | nil => exact absurd rfl hds.2.2.1
          | cons a t => simp at hcs
        | cons c cs => unfold group; split <;> simp
      refine ⟨ip ++ (decSep :: (fdig numFrac V).map dchar) ++ T, ⟨k, ip, hk, hip,
        decSep :: (fdig numFrac V).map dchar, ?_, ?_⟩, ?_, ?_⟩
      · rw [if_pos hf]; exact ⟨_, by rw [hV]; exact hfrac, rfl⟩
      · rw [← hT, tailText]; simp
      · intro hl
        simp only [List.length_append, List.length_cons, List.length_map, fdig_length] at hl
        omega
      · intro _
        by_cases hg2 : pre.length < (numFrac + 2) % W
        · exact ⟨_, by rw [if_pos hg2], by simp; omega⟩
        · rw [if_neg hg2]
          -- the guard wrapped around: more fraction digits than any buffer has bytes
          have hbig : W ≤ numFrac + 2 := by
            apply Nat.le_of_not_lt
            intro hlt
            rw [Nat.mod_eq_of_lt hlt] at hg2
            omega
          have hWbig : 4 ≤ W := by decide
          obtain ⟨x1, t1, f1, e1, h1, h2, h3, h4, -⟩ := frac_total numFrac V pre (T ++ [0])
          rw [h1]
          simp only [ok_bind]
          have hl1 : (pre.take x1).length = x1 := by simp; omega
          obtain ⟨x2, t2, h5, h6, h7, hz2⟩ := pad_total f1 (pre.take x1) (t1 ++ (T ++ [0]))
          rw [hl1] at h5 h6 h7
          rw [h5]
          simp only [ok_bind]
          by_cases hx2 : e1 ≠ 0 ∨ x2 = 0
          · rw [if_pos hx2]
            refine ⟨_, rfl, ?_⟩
            simp only [List.length_append, List.length_take, List.length_cons, List.length_nil]
            omega
          · rw [if_neg hx2]
            -- only possible when one byte is left: fails after the decimal separator
            have hx2' : 0 < x2 := by omega
            have hl2 : ((pre.take x1).take x2).length = x2 := by simp; omega
            have hstep := wrPre_pre ((pre.take x1).take x2) (t2 ++ (t1 ++ (T ++ [0]))) decSep (by omega)
            rw [hl2] at hstep
            rw [hstep]
            simp only [ok_bind]
            rw [if_pos (by omega)]
            refine ⟨_, rfl, ?_⟩
            simp only [List.length_append, List.length_take, List.length_cons, List.length_nil]
            omega
  · rw [if_neg hf, if_neg (by simp)]
    obtain ⟨ip, hip, hi1, hi2⟩ := intPart_spec pre (T ++ [0]) num (1024 ^ k) numSep hpos
    refine ⟨ip ++ T, ⟨k, ip, hk, hip, [], by rw [if_neg hf], by rw [← hT, tailText]; simp⟩, ?_, ?_⟩
    · intro hl
      simp only [List.length_append] at hl
      obtain ⟨rest, hr, hrl⟩ := hi1 (by clear hi1 hi2; omega)
      clear hi1 hi2
      refine ⟨rest, by rw [hr]; simp, ?_⟩
      simp only [List.length_append, List.length_cons, List.length_nil] at hrl ⊢
      omega
    · intro hl
      simp only [List.length_append] at hl
      obtain ⟨m', hr, hrl⟩ := hi2 (by clear hi1 hi2; omega)
      clear hi1 hi2
      refine ⟨m', hr, ?_⟩
      simp only [List.length_append, List.length_cons, List.length_nil] at hrl ⊢
      omega

/-- In every case (also with wrap-around): no out-of-bounds access, and success leaves a text that
ends in the separator and unit name of the chosen unit. -/
theorem toFilesizeU_safe (m : List UInt8) (num numFrac : Nat) (numSep decSep unitSep : UInt8)
    (unit : List UInt8) :
    ∃ ok m', toFilesizeU m num numFrac numSep decSep unitSep unit = .ok (ok, m') ∧
      m'.length = m.length ∧
      (ok = true → ∃ k body rest, UnitIndex (numFrac ≠ 0) num k ∧ body ≠ [] ∧
        (decSep ≠ 0 → 0 ∉ body) ∧ m' = body ++ tailText unitSep unit k ++ 0 :: rest) := by
  by_cases hg : m.length < 5 + unit.length
  · exact ⟨false, m, by unfold toFilesizeU; rw [if_pos hg], rfl, fun h => nomatch h⟩
  obtain ⟨k, hk, hpick⟩ := pick_spec num numFrac
  obtain ⟨pre, hput, hpos, hlen⟩ := putUnit_spec m k unitSep unit (by omega)
  generalize hT : tailText unitSep unit k = T at hput hlen
  have hunf : toFilesizeU m num numFrac numSep decSep unitSep unit = putNumber (pre ++ (T ++ [0]))
      pre.length num (1024 ^ k) (if numFrac ≠ 0 ∧ 2 ≤ k then numFrac else 0) numSep decSep := by
    unfold toFilesizeU
    rw [if_neg hg, hpick]
    simp only [hput, ok_bind]
  rw [hunf]
  clear hunf
  unfold putNumber
  -- the integer part, from any position
  have hint : ∀ (p suf : List UInt8), 0 < p.length → (decSep ≠ 0 → 0 ∉ suf) → p.length + suf.length + T.length + 1 = m.length →
      ∃ ok m', intPart (p ++ (suf ++ (T ++ [0]))) p.length num (1024 ^ k) numSep = .ok (ok, m') ∧
        m'.length = m.length ∧
        (ok = true → ∃ k body rest, UnitIndex (numFrac ≠ 0) num k ∧ body ≠ [] ∧
          (decSep ≠ 0 → 0 ∉ body) ∧ m' = body ++ tailText unitSep unit k ++ 0 :: rest) := by
    intro p suf hp hz hl
    obtain ⟨ip, hip, hi1, hi2⟩ := intPart_spec p (suf ++ (T ++ [0])) num (1024 ^ k) numSep hp
    have hipl : ip ≠ [] := by
      obtain ⟨ds, hds, cs, hcs, rfl⟩ := hip
      cases cs with
      | nil => cases ds with
        | nil => exact absurd rfl hds.2.2.1
        | cons a t => simp at hcs
      | cons c cs => unfold group; split <;> simp
    by_cases hfit : ip.length ≤ p.length
    · obtain ⟨rest, hr, hrl⟩ := hi1 hfit
      refine ⟨true, _, hr, by rw [hrl]; simp; omega, fun _ => ⟨k, ip ++ suf, rest, hk, ?_, ?_, ?_⟩⟩
      · simp [hipl]
      · intro hd; simp only [List.mem_append, not_or]; exact ⟨rendering_no_nul hip, hz hd⟩
      · rw [hT]; simp
    · obtain ⟨m', hr, hrl⟩ := hi2 (by clear hi1 hi2; omega)
      exact ⟨false, m', hr, by rw [hrl]; simp; omega, fun h => nomatch h⟩
  by_cases hf : (if numFrac ≠ 0 ∧ 2 ≤ k then numFrac else 0) ≠ 0
  · rw [if_pos hf]
    generalize (if numFrac ≠ 0 ∧ 2 ≤ k then numFrac else 0) = nf at hf
    by_cases hg2 : pre.length < (nf + 2) % W
    · exact ⟨false, _, by rw [if_pos hg2], by simp; omega, fun h => nomatch h⟩
    rw [if_neg hg2]
    obtain ⟨x1, t1, f1, e1, h1, h2, h3, h4, hz1⟩ :=
      frac_total nf (mulTen nf (num % 1024 ^ k) / 1024 ^ k) pre (T ++ [0])
    rw [h1]
    simp only [ok_bind]
    have hl1 : (pre.take x1).length = x1 := by simp; omega
    obtain ⟨x2, t2, h5, h6, h7, hz2⟩ := pad_total f1 (pre.take x1) (t1 ++ (T ++ [0]))
    rw [hl1] at h5 h6 h7
    rw [h5]
    simp only [ok_bind]
    have hl2 : ((pre.take x1).take x2).length = x2 := by simp; omega
    by_cases hx2 : e1 ≠ 0 ∨ x2 = 0
    · rw [if_pos hx2]
      refine ⟨false, _, rfl, ?_, fun h => nomatch h⟩
      simp only [List.length_append, List.length_cons, List.length_nil, hl2]
      omega
    · rw [if_neg hx2]
      have hstep := wrPre_pre ((pre.take x1).take x2) (t2 ++ (t1 ++ (T ++ [0]))) decSep (by omega)
      rw [hl2] at hstep
      rw [hstep]
      simp only [ok_bind]
      have hl3 : (((pre.take x1).take x2).take (x2 - 1)).length = x2 - 1 := by simp; omega
      by_cases hx3 : x2 - 1 = 0
      · rw [if_pos hx3]
        refine ⟨false, _, rfl, ?_, fun h => nomatch h⟩
        simp only [List.length_append, List.length_cons, List.length_nil, hl3]
        omega
      · rw [if_neg hx3]
        have := hint (((pre.take x1).take x2).take (x2 - 1)) (decSep :: (t2 ++ t1)) (by omega)
          (fun hd => by simp [hz1, hz2, Ne.symm hd])
          (by simp only [List.length_cons, List.length_append, hl3]; omega)
        rw [hl3] at this
        simpa using this
  · rw [if_neg hf]
    simpa using hint pre [] hpos (by simp) (by simp; omega)

end Verif.FileSize
