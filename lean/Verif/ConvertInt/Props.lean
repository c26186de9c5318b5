import Verif.ConvertInt.Lemmas

/-! # Properties C01-C04: integer to text conversion -/

namespace Verif.ConvertInt
open Spec

/-- **C01.**  A successful unsigned `ToString` leaves a NUL-terminated text (with no earlier NUL) that is the
rendering of `num`: digits `0-9A-Z`, most significant first, no superfluous leading zero, separators inserted.
If the separator is not itself a digit character, deleting it and reading the text back gives `num`. -/
theorem toString_roundtrip (m m' : List UInt8) (num : Nat) (sep : UInt8) (radix : Nat)
    (h : toStringU m num sep radix = .ok (true, m')) :
    ∃ text rest, m' = text ++ 0 :: rest ∧ m'.length = m.length ∧ 0 ∉ text ∧
      IsRendering radix sep num text ∧
      (sep ∉ digitChars → parse radix (text.filter (· ≠ sep)) = some num) := by
  by_cases hr : 2 ≤ radix ∧ radix ≤ 36
  · obtain ⟨text, ht, h1, h2⟩ := toStringU_spec m num sep radix hr.1 hr.2
    by_cases hl : text.length + 1 ≤ m.length
    · obtain ⟨rest, e, hlen⟩ := h1 hl
      rw [e] at h; cases h
      refine ⟨text, rest, rfl, by simp; omega, ?_, ht, ?_⟩
      · obtain ⟨ds, -, cs, hcs, rfl⟩ := ht
        intro h0
        rcases mem_group h0 with h0 | ⟨h0, h0'⟩
        · have := digits_mem hcs 0 h0
          revert this; decide
        · exact h0' h0.symm
      · intro hsep
        obtain ⟨ds, hds, cs, hcs, rfl⟩ := ht
        rw [filter_group (fun h => hsep (digits_mem hcs sep h))]
        unfold parse
        rw [parse_digits radix hr.2 ds cs 0 hds.1 hcs, ← hds.2.1]; rfl
    · obtain ⟨m'', e, -⟩ := h2 (by omega)
      rw [e] at h; cases h
  · unfold toStringU at h
    rw [if_pos (by omega)] at h
    cases h

/-- The hypothesis of C01 is met by a non-trivial call: `ToString(buf, 10, 1048576, ',', 10)`. -/
example : toStringU (List.replicate 10 7) 1048576 44 10 =
    .ok (true, [49, 44, 48, 52, 56, 44, 53, 55, 54, 0]) := by decide

/-- **C02.**  Unsigned `ToString` never leaves the buffer (it always returns a buffer of the same size rather
than the out-of-bounds outcome), and it returns true exactly when the radix is valid and the text with its
terminator fits.  `text` is *the* rendering of the number (for a valid radix there is exactly one). -/
theorem toString_fits_iff (m : List UInt8) (num : Nat) (sep : UInt8) (radix : Nat) :
    ∃ ok m', toStringU m num sep radix = .ok (ok, m') ∧ m'.length = m.length ∧
      (ok = true ↔ 2 ≤ radix ∧ radix ≤ 36 ∧
        ∃ text, IsRendering radix sep num text ∧ text.length + 1 ≤ m.length) ∧
      (2 ≤ radix → radix ≤ 36 → ∃ text, IsRendering radix sep num text ∧
        ∀ text', IsRendering radix sep num text' → text' = text) := by
  by_cases hr : 2 ≤ radix ∧ radix ≤ 36
  · obtain ⟨text, ht, h1, h2⟩ := toStringU_spec m num sep radix hr.1 hr.2
    have huniq : 2 ≤ radix → radix ≤ 36 → ∃ text, IsRendering radix sep num text ∧
        ∀ text', IsRendering radix sep num text' → text' = text := fun _ _ =>
      ⟨text, ht, fun t' ht' => rendering_unique radix hr.1 sep num t' text ht' ht⟩
    by_cases hl : text.length + 1 ≤ m.length
    · obtain ⟨rest, e, hlen⟩ := h1 hl
      exact ⟨true, _, e, by simp; omega, ⟨fun _ => ⟨hr.1, hr.2, text, ht, hl⟩, fun _ => rfl⟩, huniq⟩
    · obtain ⟨m'', e, hlen⟩ := h2 (by omega)
      refine ⟨false, m'', e, hlen, ⟨(fun h => nomatch h), ?_⟩, huniq⟩
      rintro ⟨-, -, t', ht', hl'⟩
      rw [rendering_unique radix hr.1 sep num t' text ht' ht] at hl'
      exact absurd hl' hl
  · refine ⟨false, m, ?_, rfl, ⟨(fun h => nomatch h), fun h => absurd ⟨h.1, h.2.1⟩ hr⟩,
      fun h h' => absurd ⟨h, h'⟩ hr⟩
    unfold toStringU
    rw [if_pos (by omega)]

/-- Both outcomes of C02 occur: with one byte less the same call returns false. -/
example : toStringU (List.replicate 9 7) 1048576 44 10 =
    .ok (false, [44, 48, 52, 56, 44, 53, 55, 54, 0]) := by decide

/-- **C03.**  The text of a successful call is a digit sequence `cs` (characters `0-9A-Z` only) in which the
separator stands after a digit exactly when the number of digits to its right is a positive multiple of three
(`group`); hence the text has `(n - 1) / 3` separators for `n` digits, and none if `Separator` is NUL. -/
theorem toString_grouping (m m' : List UInt8) (num : Nat) (sep : UInt8) (radix : Nat)
    (h : toStringU m num sep radix = .ok (true, m')) :
    ∃ cs rest, m' = group sep cs ++ 0 :: rest ∧ (∀ c ∈ cs, c ∈ digitChars) ∧ cs ≠ [] ∧
      (sep = 0 → group sep cs = cs) ∧
      (sep ≠ 0 → (group sep cs).length = cs.length + (cs.length - 1) / 3) := by
  obtain ⟨text, rest, rfl, -, -, ⟨ds, hds, cs, hcs, rfl⟩, -⟩ := toString_roundtrip m m' num sep radix h
  refine ⟨cs, rest, rfl, digits_mem hcs, ?_, ?_, fun hs => group_length sep hs cs⟩
  · rintro rfl
    cases ds with
    | nil => exact hds.2.2.1 rfl
    | cons a t => simp at hcs
  · rintro rfl; exact group_none cs

example : group 44 [49, 48, 52, 56, 53, 55, 54] = [49, 44, 48, 52, 56, 44, 53, 55, 54] := by decide

/-- Full statement of C04 for one call: no undefined behaviour, same buffer size, and success exactly when the
text (with a minus sign for negatives) fits; on success the buffer holds that text and a terminator. -/
def SignedSpec (m : List UInt8) (num : Int) (sep : UInt8) (radix : Nat) : Prop :=
  ∃ ok m', toStringI m num sep radix = .ok (ok, m') ∧ m'.length = m.length ∧
    (ok = true ↔ 2 ≤ radix ∧ radix ≤ 36 ∧ ∃ text, IsRendering radix sep num.natAbs text ∧
      (if num < 0 then 1 else 0) + text.length + 1 ≤ m.length) ∧
    (ok = true → ∃ text rest, IsRendering radix sep num.natAbs text ∧
      m' = (if num < 0 then [45] else []) ++ text ++ 0 :: rest)

/-- **C04 (partial).**  The signed conversion is right for every number except the minimum `-2^63`.
Missing from the full claim: the minimum value, see `toString_signed_min_ub`. -/
theorem toString_signed_partial (m : List UInt8) (num : Int) (sep : UInt8) (radix : Nat)
    (hmin : num ≠ -(2 ^ 63)) : SignedSpec m num sep radix := by
  unfold SignedSpec
  by_cases hn : 0 ≤ num
  · obtain ⟨ok, m', e, hlen, hiff, -⟩ := toString_fits_iff m num.toNat sep radix
    have habs : num.natAbs = num.toNat := by omega
    have hlt : ¬ num < 0 := by omega
    refine ⟨ok, m', by unfold toStringI; rw [if_pos hn, e], hlen, ?_, ?_⟩
    · simpa [habs, hlt] using hiff
    · rintro rfl
      obtain ⟨text, rest, rfl, -, -, ht, -⟩ := toString_roundtrip m m' _ sep radix e
      exact ⟨text, rest, by rw [habs]; exact ht, by simp [hlt]⟩
  · have hlt : num < 0 := by omega
    have habs : num.natAbs = (-num).toNat := by omega
    cases m with
    | nil =>
      refine ⟨false, [], by unfold toStringI; rw [if_neg hn, if_pos (by simp)], rfl,
        ⟨(fun h => nomatch h), ?_⟩, (fun h => nomatch h)⟩
      rintro ⟨-, -, t, -, h⟩; simp at h
    | cons a tl =>
      obtain ⟨ok, m', e, hlen, hiff, -⟩ := toString_fits_iff tl (-num).toNat sep radix
      by_cases hs : (a :: tl).length < 2
      · refine ⟨false, a :: tl, by unfold toStringI; rw [if_neg hn, if_pos hs], rfl,
          ⟨(fun h => nomatch h), ?_⟩, (fun h => nomatch h)⟩
        rintro ⟨-, -, t, ht, h⟩
        simp only [hlt, if_true, List.length_cons] at h hs
        obtain ⟨ds, hds, cs, hcs, rfl⟩ := ht
        have : cs ≠ [] := by
          rintro rfl
          cases ds with
          | nil => exact hds.2.2.1 rfl
          | cons a t => simp at hcs
        cases cs with
        | nil => exact absurd rfl this
        | cons c cs => unfold group at h; split at h <;> simp at h <;> omega
      · refine ⟨ok, 45 :: m', ?_, by simp [hlen], ?_, ?_⟩
        · unfold toStringI
          rw [if_neg hn, if_neg hs]
          simp only [if_neg hmin, e, ok_bind]
        · rw [habs]; simp only [hlt, if_true, List.length_cons]
          rw [hiff]
          constructor
          · rintro ⟨h1, h2, t, ht, h⟩; exact ⟨h1, h2, t, ht, by omega⟩
          · rintro ⟨h1, h2, t, ht, h⟩; exact ⟨h1, h2, t, ht, by omega⟩
        · rintro rfl
          obtain ⟨text, rest, rfl, -, -, ht, -⟩ := toString_roundtrip tl m' _ sep radix e
          exact ⟨text, rest, by rw [habs]; exact ht, by simp [hlt]⟩

example : toStringI (List.replicate 8 7) (-1234) 44 10 =
    .ok (true, [45, 49, 44, 50, 51, 52, 0, 0]) := by decide

/-- **C04, negation at the excluded point.**  For the minimum value and any buffer of at least two bytes the
code negates `INT64_MIN`, which is undefined behaviour. -/
theorem toString_signed_min_ub (m : List UInt8) (sep : UInt8) (radix : Nat) (h : 2 ≤ m.length) :
    toStringI m (-(2 ^ 63)) sep radix = .error .signedOverflow := by
  cases m with
  | nil => simp at h
  | cons a tl =>
    unfold toStringI
    rw [if_neg (by decide), if_neg (by omega)]
    simp

/-- Hence the full claim fails there. -/
theorem toString_signed_min_fails : ¬ SignedSpec (List.replicate 30 0) (-(2 ^ 63)) 0 10 := by
  rintro ⟨ok, m', e, -⟩
  rw [toString_signed_min_ub _ _ _ (by simp)] at e
  cases e

end Verif.ConvertInt
