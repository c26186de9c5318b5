import Verif.FileSize.Lemmas

/-! # Properties C05-C06: file size text -/

namespace Verif.FileSize
open Spec ConvertInt.Spec

/-- What C05 asks of one outcome for the magnitude `num`: the buffer keeps its size (the model reports any
access outside as undefined behaviour instead of `.ok`), and on success the buffer holds a text followed by
a NUL; the text is a non-empty number part, then the unit separator (if any) and the name of the unit
belonging to the size.  The number part itself contains no NUL (unless NUL was asked for as decimal point),
so for an ordinary unit name the text ends where the C string ends. -/
def GoodEnd (m m' : List UInt8) (num numFrac : Nat) (decSep unitSep : UInt8) (unit : List UInt8)
    (ok : Bool) : Prop :=
  m'.length = m.length ∧
  (ok = true → ∃ k body rest, UnitIndex (numFrac ≠ 0) num k ∧ body ≠ [] ∧ (decSep ≠ 0 → 0 ∉ body) ∧
    m' = body ++ (if unitSep ≠ 0 then [unitSep] else []) ++ suffix unit k ++ 0 :: rest)

/-- **C05, unsigned.**  Whatever the number, fraction digits, separators, unit name and buffer:
`ToFilesizeString` stays inside the buffer, and on success leaves a NUL-terminated text ending in the unit
suffix. -/
theorem filesize_in_bounds (m : List UInt8) (num numFrac : Nat) (numSep decSep unitSep : UInt8)
    (unit : List UInt8) :
    ∃ ok m', toFilesizeU m num numFrac numSep decSep unitSep unit = .ok (ok, m') ∧
      GoodEnd m m' num numFrac decSep unitSep unit ok := by
  obtain ⟨ok, m', h1, h2, h3⟩ := toFilesizeU_safe m num numFrac numSep decSep unitSep unit
  refine ⟨ok, m', h1, h2, fun h => ?_⟩
  obtain ⟨k, body, rest, hk, hb, hz, e⟩ := h3 h
  exact ⟨k, body, rest, hk, hb, hz, by rw [e, tailText]; simp⟩

/-- "1.5 MB" (1572864 bytes, one fraction digit, blank before the unit). -/
example : toFilesizeU (List.replicate 12 7) 1572864 1 0 46 32 [98, 121, 116, 101, 115] =
    .ok (true, [49, 46, 53, 32, 77, 66, 0, 53, 32, 77, 66, 0]) := by decide

/-- **C05, signed (partial).**  The same for every signed number except the minimum, with a leading minus sign
for negative numbers.  Missing: `-2^63`, where the code negates the minimum (undefined behaviour), see
`filesize_signed_min_ub`. -/
theorem filesize_signed_in_bounds_partial (m : List UInt8) (num : Int) (numFrac : Nat)
    (numSep decSep unitSep : UInt8) (unit : List UInt8) (hmin : num ≠ -(2 ^ 63)) :
    ∃ ok m', toFilesizeI m num numFrac numSep decSep unitSep unit = .ok (ok, m') ∧
      m'.length = m.length ∧
      (0 ≤ num → GoodEnd m m' num.natAbs numFrac decSep unitSep unit ok) ∧
      (num < 0 → ok = true → ∃ tl tl', m' = 45 :: tl' ∧
        GoodEnd tl tl' num.natAbs numFrac decSep unitSep unit true) := by
  by_cases hn : 0 ≤ num
  · obtain ⟨ok, m', h1, h2⟩ := filesize_in_bounds m num.natAbs numFrac numSep decSep unitSep unit
    have : num.natAbs = num.toNat := by omega
    refine ⟨ok, m', ?_, h2.1, fun _ => h2, fun h => by omega⟩
    unfold toFilesizeI; rw [if_pos hn, ← this, h1]
  · have habs : num.natAbs = (-num).toNat := by omega
    by_cases hs : m.length < 2
    · exact ⟨false, m, by unfold toFilesizeI; rw [if_neg hn, if_pos hs], rfl, fun h => absurd h hn,
        fun _ h => nomatch h⟩
    · cases m with
      | nil => simp at hs
      | cons a tl =>
        obtain ⟨ok, m', h1, h2⟩ := filesize_in_bounds tl num.natAbs numFrac numSep decSep unitSep unit
        refine ⟨ok, 45 :: m', ?_, by simp [h2.1], fun h => absurd h hn, ?_⟩
        · unfold toFilesizeI
          rw [if_neg hn, if_neg hs]
          simp only [if_neg hmin, ← habs, h1, ok_bind]
        · rintro - rfl
          exact ⟨tl, m', rfl, h2⟩

example : toFilesizeI (List.replicate 12 7) (-1024) 2 0 46 32 [98] =
    .ok (true, [45, 49, 32, 75, 66, 0, 7, 49, 32, 75, 66, 0]) := by decide

/-- C05/C06 at the excluded point. -/
theorem filesize_signed_min_ub (m : List UInt8) (numFrac : Nat) (numSep decSep unitSep : UInt8)
    (unit : List UInt8) (h : 2 ≤ m.length) :
    toFilesizeI m (-(2 ^ 63)) numFrac numSep decSep unitSep unit = .error .signedOverflow := by
  cases m with
  | nil => simp at h
  | cons a tl =>
    unfold toFilesizeI
    rw [if_neg (by decide), if_neg (by omega)]
    simp

/-- Full statement of C06 for one unsigned call: on success the buffer holds the right text. -/
def FilesizeRight (m : List UInt8) (num numFrac : Nat) (numSep decSep unitSep : UInt8)
    (unit : List UInt8) : Prop :=
  ∀ m', toFilesizeU m num numFrac numSep decSep unitSep unit = .ok (true, m') →
    ∃ text rest, m' = text ++ 0 :: rest ∧ IsText num numFrac numSep decSep unitSep unit text

/-- **C06 (partial).**  The printed text is right (integer part, exactly `numFrac` fraction digits of the
truncated quotient, unit), provided the scaled remainder fits in 64 bits; in that case success is moreover
equivalent to the text fitting (and the buffer having the 5 + strlen(unit) bytes the function insists on).
Missing: numbers whose scaled remainder wraps, see `filesize_wrap_fails`. -/
theorem filesize_value_partial (m : List UInt8) (num numFrac : Nat) (numSep decSep unitSep : UInt8)
    (unit : List UInt8) (hm : m.length < 2 ^ 64)
    (hw : ∀ k, UnitIndex (numFrac ≠ 0) num k → 2 ≤ k → num % 1024 ^ k * 10 ^ numFrac < 2 ^ 64) :
    FilesizeRight m num numFrac numSep decSep unitSep unit ∧
    ((∃ m', toFilesizeU m num numFrac numSep decSep unitSep unit = .ok (true, m')) ↔
      5 + unit.length ≤ m.length ∧
      ∃ text, IsText num numFrac numSep decSep unitSep unit text ∧ text.length + 1 ≤ m.length) := by
  by_cases hg : 5 + unit.length ≤ m.length
  · obtain ⟨text, ht, h1, h2⟩ :=
      toFilesizeU_spec m num numFrac numSep decSep unitSep unit hm hg hw
    by_cases hl : text.length + 1 ≤ m.length
    · obtain ⟨rest, e, -⟩ := h1 hl
      refine ⟨fun m' h => ?_, fun _ => ⟨hg, text, ht, hl⟩, fun _ => ⟨_, e⟩⟩
      rw [e] at h; cases h
      exact ⟨text, rest, rfl, ht⟩
    · obtain ⟨m', e, -⟩ := h2 (by omega)
      refine ⟨fun m' h => ?_, ?_, ?_⟩
      · rw [e] at h; cases h
      · rintro ⟨m'', h⟩; rw [e] at h; cases h
      · rintro ⟨-, t', ht', hl'⟩
        rw [isText_unique ht' ht] at hl'
        exact absurd hl' hl
  · have e : toFilesizeU m num numFrac numSep decSep unitSep unit = .ok (false, m) := by
      unfold toFilesizeU; rw [if_pos (by omega)]
    refine ⟨fun m' h => ?_, ?_, fun h => absurd h.1 hg⟩
    · rw [e] at h; cases h
    · rintro ⟨m'', h⟩; rw [e] at h; cases h

/-- The no-wrap hypothesis holds for every number below 1000 PB with the default two fraction digits. -/
example (num : Nat) (h : num < 1125899906842624000) :
    ∀ k, UnitIndex ((2 : Nat) ≠ 0) num k → 2 ≤ k → num % 1024 ^ k * 10 ^ 2 < 2 ^ 64 := by
  intro k hk h2
  obtain ⟨h6, hs, -⟩ := hk
  have hk5 : k ≤ 5 := by
    rcases Nat.lt_or_ge k 6 with h' | h'
    · omega
    · have : k = 6 := by omega
      subst this
      simp at hs
      omega
  have h1 : num % 1024 ^ k < 1024 ^ k := Nat.mod_lt _ (Nat.pow_pos (by omega))
  have h3 : 1024 ^ k ≤ 1024 ^ 5 := Nat.pow_le_pow_right (by omega) hk5
  omega

/-- **C06, negation.**  1.5 EB (3 * 2^59 bytes) with the default two fraction digits is printed "1.02 EB",
because the multiplication by 100 wraps around 2^64. -/
theorem filesize_wrap_prints :
    toFilesizeU (List.replicate 8 0) 1729382256910270464 2 0 46 32 [98] =
      .ok (true, [49, 46, 48, 50, 32, 69, 66, 0]) := by decide

/-- Hence the full claim C06 fails. -/
theorem filesize_wrap_fails :
    ¬ FilesizeRight (List.replicate 8 0) 1729382256910270464 2 0 46 32 [98] := by
  intro h
  obtain ⟨text, rest, e, k, ip, hk, hip, fr, hfr, ht⟩ := h _ filesize_wrap_prints
  have hk6 : UnitIndex ((2 : Nat) ≠ 0) 1729382256910270464 6 :=
    ⟨by omega, by decide, fun j h1 h2 => by omega⟩
  have := unitIndex_unique _ _ _ _ hk hk6
  subst this
  rw [if_pos (by decide)] at hfr
  obtain ⟨ds, ⟨dn, hl, hd, hv, rfl⟩, rfl⟩ := hfr
  have hdn := fdig_unique 2 dn hl hd
  rw [hv] at hdn
  have hdn' : dn = [5, 0] := by rw [hdn]; decide
  subst hdn'
  have hip1 : IsRendering 10 0 1 [49] := ⟨[1], by simp [IsNumeral, valueOf], [49], by decide, by decide⟩
  have := ConvertInt.rendering_unique 10 (by omega) 0 _ ip [49]
    (by simpa using hip) hip1
  subst this
  simp [ht, suffix] at e

/-- **C06, signed (partial).**  For negative numbers other than the minimum a minus sign is put in front of
the text of the magnitude; non-negative numbers are handled as unsigned ones. -/
theorem filesize_signed_value_partial (m m' : List UInt8) (num : Int) (numFrac : Nat)
    (numSep decSep unitSep : UInt8) (unit : List UInt8) (hm : m.length < 2 ^ 64)
    (hw : ∀ k, UnitIndex (numFrac ≠ 0) num.natAbs k → 2 ≤ k →
      num.natAbs % 1024 ^ k * 10 ^ numFrac < 2 ^ 64)
    (h : toFilesizeI m num numFrac numSep decSep unitSep unit = .ok (true, m')) :
    ∃ text rest, m' = (if num < 0 then [45] else []) ++ text ++ 0 :: rest ∧
      IsText num.natAbs numFrac numSep decSep unitSep unit text := by
  unfold toFilesizeI at h
  by_cases hn : 0 ≤ num
  · have habs : num.natAbs = num.toNat := by omega
    rw [if_pos hn, ← habs] at h
    obtain ⟨text, rest, e, ht⟩ :=
      (filesize_value_partial m num.natAbs numFrac numSep decSep unitSep unit hm hw).1 m' h
    exact ⟨text, rest, by rw [if_neg (by omega), e]; simp, ht⟩
  · rw [if_neg hn] at h
    have habs : num.natAbs = (-num).toNat := by omega
    by_cases hs : m.length < 2
    · rw [if_pos hs] at h; cases h
    rw [if_neg hs] at h
    cases m with
    | nil => cases h
    | cons a tl =>
      simp only at h
      by_cases hmin : num = -(2 ^ 63)
      · rw [if_pos hmin] at h; cases h
      rw [if_neg hmin, ← habs] at h
      obtain ⟨ok, tl', e1, -⟩ := filesize_in_bounds tl num.natAbs numFrac numSep decSep unitSep unit
      rw [e1] at h
      simp only [ok_bind] at h
      cases h
      obtain ⟨text, rest, e, ht⟩ := (filesize_value_partial tl num.natAbs numFrac numSep decSep unitSep
        unit (by simp only [List.length_cons] at hm; omega) hw).1 tl' e1
      exact ⟨text, rest, by rw [if_pos (by omega), e]; simp, ht⟩

end Verif.FileSize
