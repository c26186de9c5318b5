import Verif.Utf8.Lemmas

/-!
# C30-C33, C58, C59: UTF-8 conversion
-/

namespace Verif.Utf8

open Spec

/-! ## C30 -/

/-- The specification's UTF-8 form is the one of Lean's own encoder. -/
theorem enc8_standard (c : Char) : (String.utf8EncodeChar c).map UInt8.toNat = enc8 c.toNat := by
  have hc : c.toNat < 0x110000 := by
    have := c.valid
    unfold UInt32.isValidChar Nat.isValidChar at this
    show c.val.toNat < _
    omega
  unfold String.utf8EncodeChar enc8
  rw [show c.val.toNat = c.toNat from rfl]
  generalize c.toNat = n at hc
  simp only
  by_cases h1 : n < 0x80
  · rw [if_pos h1, if_pos (by omega)]
    simp only [List.map_cons, List.map_nil, UInt8.toNat_ofNat']
    rw [Nat.mod_eq_of_lt (by omega)]
  · rw [if_neg h1, if_neg (by omega)]
    by_cases h2 : n < 0x800
    · rw [if_pos h2, if_pos (by omega)]
      simp only [List.map_cons, List.map_nil, UInt8.toNat_ofNat', List.cons.injEq, and_true]
      omega
    · rw [if_neg h2, if_neg (by omega)]
      by_cases h3 : n < 0x10000
      · rw [if_pos h3, if_pos (by omega)]
        simp only [List.map_cons, List.map_nil, UInt8.toNat_ofNat', List.cons.injEq, and_true]
        omega
      · rw [if_neg h3, if_neg (by omega)]
        simp only [List.map_cons, List.map_nil, UInt8.toNat_ofNat', List.cons.injEq, and_true]
        omega

/-- C30: `AppendUTF8CodePoint` on every 32-bit number, for every destination buffer and every amount
of room.  A valid code point (which is not a combining mark at the very beginning) is appended in
its standard form if that fits and nothing changes if it does not; every other number is refused
without any change.  Nothing but the appended bytes is written. -/
theorem append_code_point (cp : Nat) (b : List Nat) (n max : Nat) (hm : max ≤ b.length) :
    appendUTF8 cp ⟨some b, n⟩ max =
      if Valid cp ∧ ¬ (n = 0 ∧ Combining cp) ∧ n + (enc8 cp).length ≤ max then
        .ok (true, ⟨some (b.take n ++ enc8 cp ++ b.drop (n + (enc8 cp).length)), n + (enc8 cp).length⟩)
      else .ok (false, ⟨some b, n⟩) := by
  by_cases hr : ¬ Valid cp ∨ (n = 0 ∧ Combining cp)
  · rw [appendUTF8_combining _ _ hr, if_neg]
    rintro ⟨h1, h2, -⟩
    rcases hr with h | h
    · exact h h1
    · exact h2 h
  · have hv : Valid cp := Classical.byContradiction fun h => hr (.inl h)
    have hc : ¬ (n = 0 ∧ Combining cp) := fun h => hr (.inr h)
    rw [appendUTF8_valid _ _ hv hc]
    by_cases hf : n + (enc8 cp).length ≤ max
    · rw [if_pos ⟨hv, hc, hf⟩, store_fit _ _ _ _ (enc8_ne cp) hf hm]
    · rw [if_neg (fun h => hf h.2.2), store_full _ _ _ _ (enc8_ne cp) (by omega)]

/-- C30, the counting form (NULL destination). -/
theorem append_code_point_count (cp n max : Nat) :
    appendUTF8 cp ⟨none, n⟩ max =
      if Valid cp ∧ ¬ (n = 0 ∧ Combining cp) then .ok (true, ⟨none, n + (enc8 cp).length⟩)
      else .ok (false, ⟨none, n⟩) := by
  by_cases hr : ¬ Valid cp ∨ (n = 0 ∧ Combining cp)
  · rw [appendUTF8_combining _ _ hr, if_neg]
    rintro ⟨h1, h2⟩
    rcases hr with h | h
    · exact h h1
    · exact h2 h
  · have hv : Valid cp := Classical.byContradiction fun h => hr (.inl h)
    have hc : ¬ (n = 0 ∧ Combining cp) := fun h => hr (.inr h)
    rw [appendUTF8_valid _ _ hv hc, if_pos ⟨hv, hc⟩, store_null]

/-- The euro sign after one byte, with exactly enough room and with one byte too few. -/
example : appendUTF8 0x20AC ⟨some [65, 0, 0, 0], 1⟩ 4 = .ok (true, ⟨some [65, 0xE2, 0x82, 0xAC], 4⟩) ∧
    appendUTF8 0x20AC ⟨some [65, 0, 0, 0], 1⟩ 3 = .ok (false, ⟨some [65, 0, 0, 0], 1⟩) := by
  decide

/-! ## C31 -/

theorem stored_zero (b vs : List Nat) : stored b 0 vs = ⟨some (vs ++ b.drop vs.length), vs.length⟩ := by
  simp [stored]

/-- C31: text in UTF-16 or UTF-32 goes to its UTF-8 form and that goes back to the same units, for
all text that does not start with a combining mark and all buffers with enough room. -/
theorem round_trip (w : Nat) (hw : w = 2 ∨ w = 4) (cps : List Nat) (hg : GoodText cps)
    (b8 bw : List Nat) (max8 maxw : Nat) (lp : Option Nat)
    (h8 : (text 1 cps).length ≤ max8) (h8b : max8 ≤ b8.length)
    (hwm : (text w cps).length ≤ maxw) (hwb : maxw ≤ bw.length) :
    (∃ lp', convertTo (text w cps) w (some b8) max8 lp = .ok
      (⟨some (text 1 cps ++ b8.drop (text 1 cps).length), (text 1 cps).length⟩, lp')) ∧
    convertFrom (text 1 cps) (some bw) maxw w = .ok
      ⟨some (text w cps ++ bw.drop (text w cps).length), (text w cps).length⟩ := by
  have hw' : w = 1 ∨ w = 2 ∨ w = 4 := .inr hw
  constructor
  · refine convertTo_push _ _ _ _ _ _ ?_
    rw [codes_text w hw' cps hg.1]
    have := pushAll_fit max8 cps b8 0 (by rw [accepted_good hg]; omega) h8b
    rw [this, accepted_good hg, stored_zero]
  · have := fromLoop_text w maxw hw' cps [] ((text 1 cps).length + 1) bw 0 (by omega) hg.1
      (fun _ => hg.2) (by omega) hwb
    unfold convertFrom
    rw [← stored_zero]
    exact this

/-- C31: the sizes reported for a NULL destination are the sizes needed. -/
theorem counted_sizes (w : Nat) (hw : w = 2 ∨ w = 4) (cps : List Nat) (hg : GoodText cps)
    (max : Nat) (lp : Option Nat) :
    (∃ lp', convertTo (text w cps) w none max lp = .ok (⟨none, (text 1 cps).length⟩, lp')) ∧
    (max ≠ 0 → convertFrom (text 1 cps) none max w = .ok ⟨none, (text w cps).length⟩) := by
  have hw' : w = 1 ∨ w = 2 ∨ w = 4 := .inr hw
  constructor
  · refine convertTo_push _ _ _ _ _ _ ?_
    rw [codes_text w hw' cps hg.1, pushAll_null, accepted_good hg, Nat.zero_add]
  · intro hm
    have := fromLoop_text_null w max hw' hm cps [] ((text 1 cps).length + 1) 0 (by omega) hg.1
      (fun _ => hg.2)
    unfold convertFrom
    rw [Nat.zero_add] at this
    exact this

/-- C31: UTF-8 text converted "to UTF-8" is unchanged. -/
theorem utf8_unchanged (cps : List Nat) (hg : GoodText cps) (b : List Nat) (max : Nat)
    (lp : Option Nat) (h : (text 1 cps).length ≤ max) (hb : max ≤ b.length) :
    ∃ lp', convertTo (text 1 cps) 1 (some b) max lp = .ok
      (⟨some (text 1 cps ++ b.drop (text 1 cps).length), (text 1 cps).length⟩, lp') := by
  refine convertTo_push _ _ _ _ _ _ ?_
  rw [codes_text 1 (.inl rfl) cps hg.1]
  have := pushAll_fit max cps b 0 (by rw [accepted_good hg]; omega) hb
  rw [this, accepted_good hg, stored_zero]

/-- "A", e acute (decomposed), the euro sign and a code point beyond the BMP. -/
example : GoodText [65, 101, 0x301, 0x20AC, 0x1F600] := by
  refine ⟨by decide, ?_⟩
  intro c hc
  simp only [List.head?_cons, Option.some.injEq] at hc
  subst hc
  decide

example : convertTo [65, 101, 0x301, 0x20AC, 0xD83D, 0xDE00] 2 (some (List.replicate 13 7)) 12 none =
      .ok (⟨some [65, 101, 0xCC, 0x81, 0xE2, 0x82, 0xAC, 0xF0, 0x9F, 0x98, 0x80, 7, 7], 11⟩, none) ∧
    convertFrom [65, 101, 0xCC, 0x81, 0xE2, 0x82, 0xAC, 0xF0, 0x9F, 0x98, 0x80]
      (some (List.replicate 7 9)) 6 2 =
      .ok ⟨some [65, 101, 0x301, 0x20AC, 0xD83D, 0xDE00, 9], 6⟩ := by
  decide

/-! ## C32 -/

/-- C32: `ConvertToUTF8` on an arbitrary source (any width, also ill-formed) and an arbitrary
destination size.  It never reads outside the source or writes outside the first `max` bytes of the
destination (the model reports such an access as an error), and what it leaves is the UTF-8 form of
acceptable text followed by the untouched rest of the buffer. -/
theorem convert_to_safe (src : List Nat) (w : Nat) (b : List Nat) (max : Nat) (lp : Option Nat)
    (hm : max ≤ b.length) :
    ∃ cps lp', GoodText cps ∧ (text 1 cps).length ≤ max ∧
      convertTo src w (some b) max lp = .ok
        (⟨some (text 1 cps ++ b.drop (text 1 cps).length), (text 1 cps).length⟩, lp') := by
  obtain ⟨kept, h1, h2, h3, h4, h5⟩ := pushAll_total max (codes w src) b 0 (Nat.zero_le _) hm
  obtain ⟨lp', h6⟩ := convertTo_push src w (some b) max lp _ h5
  rw [stored_zero] at h6
  exact ⟨kept, lp', ⟨h2, h3 rfl⟩, by omega, h6⟩

/-- C32: `ConvertFromUTF8` on an arbitrary source and destination size. -/
theorem convert_from_safe (src : List Nat) (w : Nat) (hw : w = 1 ∨ w = 2 ∨ w = 4) (b : List Nat)
    (max : Nat) (hm : max ≤ b.length) :
    ∃ cps, GoodText cps ∧ (text w cps).length ≤ max ∧
      convertFrom src (some b) max w = .ok
        ⟨some (text w cps ++ b.drop (text w cps).length), (text w cps).length⟩ := by
  obtain ⟨kept, h2, h3, h4, h5⟩ :=
    fromLoop_total src w max hw (src.length + 1) 0 b 0 (by omega) (by omega) (Nat.zero_le _) hm
  rw [stored_zero] at h5
  exact ⟨kept, ⟨h2, h3 rfl⟩, by omega, h5⟩

/-- C32: with enough room nothing valid is lost from UTF-16 or UTF-32: unpaired surrogates, numbers
that are not code points and leading combining marks are dropped, everything else is kept. -/
theorem convert_to_keeps (src : List Nat) (w : Nat) (hw : w = 2 ∨ w = 4) (b : List Nat) (max : Nat)
    (lp : Option Nat) (cps : List Nat)
    (hc : cps = ((if w = 2 then decode16 src else src).filter (fun c => decide (Valid c))).dropWhile
      (fun c => decide (Combining c)))
    (hr : (text 1 cps).length ≤ max) (hm : max ≤ b.length) :
    ∃ lp', convertTo src w (some b) max lp = .ok
      (⟨some (text 1 cps ++ b.drop (text 1 cps).length), (text 1 cps).length⟩, lp') := by
  have e : cps = accepted 0 (codes w src) := by
    rw [hc]
    unfold accepted codes
    rcases hw with rfl | rfl <;> simp
  refine convertTo_push _ _ _ _ _ _ ?_
  rw [pushAll_fit max (codes w src) b 0 (by rw [← e]; omega) hm, ← e, stored_zero]

/-- An overlong sequence, a lone continuation byte, a surrogate and a truncated sequence at the very
end: only the letters (and the overlong "/" in its short form) remain. -/
example : convertTo [65, 0xC0, 0xAF, 0x80, 0xED, 0xA0, 0x80, 66, 0xE2, 0x82] 1
      (some (List.replicate 4 7)) 4 none = .ok (⟨some [65, 47, 66, 7], 3⟩, none) ∧
    convertTo [0xDC00, 65, 0xD800, 66, 67, 0xD800] 2 (some (List.replicate 4 7)) 4 none
      = .ok (⟨some [65, 67, 7, 7], 2⟩, none) := by
  decide

/-! ## C33 -/

/-- C33 fails: `Util::strlen` calls itself before it does anything else, on every string and to
every depth. -/
theorem strlen_never_returns (depth : Nat) (s : List Nat) : strlen depth s = .error .diverges := by
  induction depth with
  | zero => rfl
  | succ k ih =>
    rw [strlen, ih, strlenWith, countLoop, nextCP, if_neg (by simp)]
    rfl

/-- C33: so the allocating `ConvertFromUTF8` never returns either. -/
theorem convert_from_alloc_never_returns (depth : Nat) (s : List Nat) (w junk fill : Nat) :
    convertFromAlloc depth s w junk fill = .error .diverges := by
  rw [convertFromAlloc, strlen_never_returns]
  rfl

/-- C33, what remains true: if the inner call were the C library's `strlen`, the function would
return the number of code points of every valid string, which is the number of characters if none
of them is a combining mark. -/
theorem count_partial (cps : List Nat) (hv : ∀ c ∈ cps, Valid c ∧ c ≠ 0) :
    strlenWith (.ok (text 1 cps).length) (text 1 cps ++ [0]) = .ok cps.length :=
  strlenWith_text cps (fun c hc => ⟨(hv c hc).1.1, (hv c hc).2⟩)

example : strlenWith (.ok 7) (text 1 [65, 0x20AC, 0xE9, 66] ++ [0]) = .ok 4 := by decide

/-- C33 fails even then: "e" with a combining acute accent is one character and is counted as two. -/
theorem count_counts_combining :
    Combining 0x301 ∧ strlenWith (.ok 3) (text 1 [101, 0x301] ++ [0]) = .ok 2 := by decide

/-- C33, what remains true of `NextCodePoint` with the C library's `strlen`: a caller's loop visits
the characters of an ASCII string one by one. -/
theorem walk_ascii_partial (cps : List Nat) (hv : ∀ c ∈ cps, c ≠ 0 ∧ c < 0x80) :
    walk (.ok cps.length) (cps ++ [0]) (cps.length + 2) ⟨0, 0, 0, false⟩ = .ok cps := by
  have e : text 1 cps = cps := by
    induction cps with
    | nil => rfl
    | cons c cps ih =>
      rw [text1_cons, ih (fun e he => hv e (List.mem_cons_of_mem _ he))]
      unfold enc8
      rw [if_pos (hv c List.mem_cons_self).2]; rfl
  have l : cps.map lead = cps := by
    clear e
    induction cps with
    | nil => rfl
    | cons c cps ih =>
      rw [List.map_cons, ih (fun e he => hv e (List.mem_cons_of_mem _ he))]
      unfold lead
      rw [if_pos (hv c List.mem_cons_self).2]
  have := walk_start cps (fun c hc => ⟨by have := (hv c hc).2; omega, (hv c hc).1⟩)
  rw [e, l, List.length_append] at this
  exact this

example : walk (.ok 2) [72, 105, 0] 4 ⟨0, 0, 0, false⟩ = .ok [72, 105] := by decide

/-- ... and the code point reported for a sequence of several bytes is its first byte: the e acute
(0xE9) is not found, 0xC3 is; and the position reported for "a" in "ab" is 2. -/
theorem find_misses :
    findWith (.ok 2) 0xE9 (text 1 [0xE9] ++ [0]) false = .ok none ∧
    findWith (.ok 2) 0xC3 (text 1 [0xE9] ++ [0]) false = .ok (some 2) ∧
    findWith (.ok 2) 97 (text 1 [97, 98] ++ [0]) false = .ok (some 2) := by decide

/-! ## C58 -/

/-- C58, what remains true for one-byte sources: text with sequences of one and two bytes only. -/
theorem last_pos_utf8_partial (cps : List Nat) (hg : GoodText cps) (hne : cps ≠ [])
    (hs : ∀ c ∈ cps, c < 0x800) (b : List Nat) (max v : Nat)
    (h : (text 1 cps).length ≤ max) (hb : max ≤ b.length) :
    ∃ d, convertTo (text 1 cps) 1 (some b) max (some v) = .ok (d, some (text 1 cps).length) := by
  obtain ⟨d, h1⟩ := toLoop1_last max cps [] ((text 1 cps).length + 1) b 0 v (by omega) hg.1
    (fun _ => hg.2) hs (by omega) hb
  rw [if_neg hne] at h1
  exact ⟨d, h1⟩

/-- C58, what remains true for wide sources: the position reported is that of the last unit of the
last code point converted (not the one after it). -/
theorem last_pos_wide_partial (w : Nat) (hw : w = 2 ∨ w = 4) (cps : List Nat) (hg : GoodText cps)
    (hne : cps ≠ []) (b : List Nat) (max v : Nat)
    (h : (text 1 cps).length ≤ max) (hb : max ≤ b.length) :
    ∃ d, convertTo (text w cps) w (some b) max (some v) = .ok (d, some ((text w cps).length - 1)) := by
  rcases hw with rfl | rfl
  · obtain ⟨d, h1⟩ := toLoop2_last max cps [] ((text 2 cps).length + 1) b 0 v (by omega) hg.1
      (fun _ => hg.2) (by omega) hb
    rw [if_neg hne] at h1
    exact ⟨d, h1⟩
  · obtain ⟨d, h1⟩ := toLoop4_last max cps [] ((text 4 cps).length + 1) b 0 v (by omega) hg.1
      (fun _ => hg.2) (by omega) hb
    rw [if_neg hne] at h1
    exact ⟨d, h1⟩

example : convertTo [65, 0xC3, 0xA9] 1 (some (List.replicate 3 7)) 3 (some 99)
      = .ok (⟨some [65, 0xC3, 0xA9], 3⟩, some 3) ∧
    convertTo [65, 0xD83D, 0xDE00] 2 (some (List.replicate 5 7)) 5 (some 99)
      = .ok (⟨some [65, 0xF0, 0x9F, 0x98, 0x80], 5⟩, some 2) := by decide

/-- C58 fails: a three-byte sequence does not move `LastPos` at all, and for one of four bytes it is
left at the start of the sequence although that was converted. -/
theorem last_pos_wrong :
    convertTo [0xE2, 0x82, 0xAC] 1 (some (List.replicate 3 7)) 3 (some 99)
      = .ok (⟨some [0xE2, 0x82, 0xAC], 3⟩, some 99) ∧
    convertTo [0xF0, 0x9F, 0x98, 0x80] 1 (some (List.replicate 4 7)) 4 (some 99)
      = .ok (⟨some [0xF0, 0x9F, 0x98, 0x80], 4⟩, some 0) := by decide

/-! ## C59 -/

/-- C59: the allocating `ConvertToUTF8` on text (without NUL) of any width: the block has exactly the
needed size and holds the UTF-8 form and its terminator, whatever follows the terminator of the
source, whatever the uninitialised size variable held and whatever the new block contained. -/
theorem alloc_text (w : Nat) (hw : w = 1 ∨ w = 2 ∨ w = 4) (cps rest : List Nat) (hg : GoodText cps)
    (h0 : 0 ∉ cps) (lp : Option Nat) (junk fill : Nat) :
    ∃ lp', convertToAlloc (text w cps ++ 0 :: rest) w lp junk fill
      = .ok (some (text 1 cps ++ [0]), lp') := by
  have hv : ∀ c ∈ cps ++ [0], Valid c := by
    intro c hc
    rcases List.mem_append.1 hc with hc | hc
    · exact hg.1 c hc
    · rw [List.mem_singleton.1 hc]; decide
  have hg' : GoodText (cps ++ [0]) := by
    refine ⟨hv, fun c hc => ?_⟩
    cases cps with
    | nil => simp only [List.nil_append, List.head?_cons, Option.some.injEq] at hc; subst hc; decide
    | cons e cps => exact hg.2 c hc
  have e1 : withNul (text w cps ++ 0 :: rest) = .ok (text w (cps ++ [0])) := by
    rw [withNul_append (text w cps) rest (text_no_zero w hw cps (fun c hc => (hg.1 c hc).1) h0)]
    rw [text_append, text_zero w hw]
  obtain ⟨lp', h⟩ := alloc_of_codes w hw _ _ lp junk fill e1
  refine ⟨lp', ?_⟩
  rw [h, codes_text w hw _ hv, accepted_good hg', text_append, text_zero 1 (.inl rfl)]

/-- C59, arbitrary terminated source: no access outside the source or the new block, and the block
holds exactly the UTF-8 form of acceptable text, with no uninitialised byte left. -/
theorem alloc_safe (w : Nat) (hw : w = 1 ∨ w = 2 ∨ w = 4) (units rest : List Nat) (h0 : 0 ∉ units)
    (lp : Option Nat) (junk fill : Nat) :
    ∃ cps lp', GoodText cps ∧
      convertToAlloc (units ++ 0 :: rest) w lp junk fill = .ok (some (text 1 cps), lp') := by
  obtain ⟨lp', h⟩ := alloc_of_codes w hw _ _ lp junk fill (withNul_append units rest h0)
  exact ⟨_, lp', accepted_goodText _, h⟩

/-- C59, arbitrary terminated source of bytes or 32-bit units: the result is terminated. -/
theorem alloc_terminated_partial (w : Nat) (hw : w = 1 ∨ w = 4) (units rest : List Nat)
    (h0 : 0 ∉ units) (lp : Option Nat) (junk fill : Nat) :
    ∃ bytes lp',
      convertToAlloc (units ++ 0 :: rest) w lp junk fill = .ok (some (bytes ++ [0]), lp') := by
  obtain ⟨lp', h⟩ := alloc_of_codes w (by omega) _ _ lp junk fill (withNul_append units rest h0)
  obtain ⟨L, hL⟩ : ∃ L, codes w (units ++ [0]) = L ++ [0] := by
    rcases hw with rfl | rfl
    · obtain ⟨L, hL⟩ := codes1_nul units ((units ++ [0]).length + 1) 0 (by simp) (by simp)
      exact ⟨L, hL⟩
    · exact ⟨units, rfl⟩
  obtain ⟨K, hK⟩ := accepted_nul L
  rw [hL, hK, text_append, text_zero 1 (.inl rfl)] at h
  exact ⟨_, lp', h⟩

/-- C59 fails for 16-bit units: an unpaired high surrogate at the end swallows the terminator, and the
caller gets a string without one. -/
theorem alloc_unterminated :
    convertToAlloc [65, 0xD800, 0] 2 none 12345 7 = .ok (some [65], none) := by decide

example : convertToAlloc [65, 0x20AC, 0, 66] 2 none 12345 7
    = .ok (some [65, 0xE2, 0x82, 0xAC, 0], none) := by decide

end Verif.Utf8
