import Verif.Path.NameLemmas

/-!
# C44, C45: file names
-/

namespace Verif.Path
open Spec Verif.Utf8.Spec

/-! ## C44 -/

/-- C44 where `char` is unsigned: `GetPlatformFilename` accepts exactly the non-empty names that fit, are
UTF-8 text (see C30: valid code points, no leading combining mark) and have no forbidden character;
the result is the name with each backslash replaced by a slash.  No other access is made. -/
theorem platform_name (f rest buf : List Nat) (size : Nat) (h0 : 0 ∉ f) (hs : size ≤ buf.length) :
    ∃ ok r, getPlatform false buf size (f ++ 0 :: rest) = .ok (ok, r) ∧ r.length = buf.length ∧
      (ok = true ↔ f ≠ [] ∧ f.length + 1 ≤ size ∧ (∃ cps, GoodText cps ∧ f = text 1 cps) ∧
        ∀ c ∈ f, ¬ Forbidden c) ∧
      (ok = true → Holds r (slashed f)) := by
  obtain ⟨ok, r, h1, h2, h3, h4⟩ := getPlatform_ok false f rest buf size h0 hs
  refine ⟨ok, r, h1, h2, ?_, fun h => ⟨_, h4 h⟩⟩
  rw [h3]
  constructor
  · rintro ⟨a, b, c, d, _⟩; exact ⟨a, b, c, d⟩
  · rintro ⟨a, b, c, d⟩; exact ⟨a, b, c, d, (fun h => nomatch h)⟩

/-- C44 (partial): where `char` is signed, the same for names of ASCII characters.  Missing: all other
names, see `non_ascii_rejected`. -/
theorem platform_name_ascii_partial (sgn : Bool) (f rest buf : List Nat) (size : Nat) (h0 : 0 ∉ f)
    (hs : size ≤ buf.length) (ha : ∀ c ∈ f, c < 0x80) :
    ∃ ok r, getPlatform sgn buf size (f ++ 0 :: rest) = .ok (ok, r) ∧ r.length = buf.length ∧
      (ok = true ↔ f ≠ [] ∧ f.length + 1 ≤ size ∧ ∀ c ∈ f, ¬ Forbidden c) ∧
      (ok = true → Holds r (slashed f)) := by
  obtain ⟨ok, r, h1, h2, h3, h4⟩ := getPlatform_ok sgn f rest buf size h0 hs
  refine ⟨ok, r, h1, h2, ?_, fun h => ⟨_, h4 h⟩⟩
  rw [h3]
  constructor
  · rintro ⟨a, b, c, d, _⟩; exact ⟨a, b, d⟩
  · rintro ⟨a, b, d⟩
    refine ⟨a, b, ⟨f, ⟨?_, ?_⟩, ?_⟩, d, fun _ => ha⟩
    · intro c hc
      have := ha c hc
      unfold Valid
      omega
    · intro c hc
      have := ha c (List.mem_of_mem_head? hc)
      unfold Combining
      omega
    · clear h1 h2 h3 h4 d b a h0
      induction f with
      | nil => rfl
      | cons c f ih =>
        rw [Utf8.text1_cons, ← ih (fun x hx => ha x (List.mem_cons_of_mem _ hx))]
        have := ha c List.mem_cons_self
        unfold enc8
        rw [if_pos this]
        rfl

/-- `IsValidFilenameFormat` is that test with a buffer of 8192 bytes. -/
theorem valid_name (sgn : Bool) (f rest junk : List Nat) (h0 : 0 ∉ f) (hj : junk.length = 8192)
    (ha : ∀ c ∈ f, c < 0x80) :
    ∃ ok, isValid sgn junk (f ++ 0 :: rest) = .ok ok ∧
      (ok = true ↔ f ≠ [] ∧ f.length < 8192 ∧ ∀ c ∈ f, ¬ Forbidden c) := by
  obtain ⟨ok, r, h1, h2, h3, h4⟩ := platform_name_ascii_partial sgn f rest junk 8192 h0 (by omega) ha
  refine ⟨ok, ?_, h3⟩
  unfold isValid
  rw [h1, ok_bind]

/-- Negation of C44 where `char` is signed: every name with a character beyond ASCII is refused. -/
theorem non_ascii_rejected (f rest junk : List Nat) (h0 : 0 ∉ f) (hj : junk.length = 8192)
    (c : Nat) (hc : c ∈ f) (h80 : 0x80 ≤ c) :
    isValid true junk (f ++ 0 :: rest) = .ok false := by
  obtain ⟨ok, r, h1, h2, h3, h4⟩ := getPlatform_ok true f rest junk 8192 h0 (by omega)
  unfold isValid
  rw [h1, ok_bind]
  cases ok with
  | false => rfl
  | true =>
    have := (h3.1 rfl).2.2.2.2 rfl c hc
    omega

/-- "é.txt" is UTF-8 text without forbidden characters. -/
example : GoodText [0xE9, 46, 116, 120, 116] ∧ text 1 [0xE9, 46, 116, 120, 116] = [0xC3, 0xA9, 46, 116, 120, 116] ∧
    getPlatform false (List.replicate 9 7) 9 [0xC3, 0xA9, 92, 120, 0] = .ok (true, [0xC3, 0xA9, 47, 120, 0, 7, 7, 7, 7]) ∧
    getPlatform true (List.replicate 9 7) 9 [0xC3, 0xA9, 92, 120, 0] = .ok (false, [0xC3, 0xA9, 92, 120, 0, 7, 7, 7, 7]) := by
  refine ⟨⟨by decide, ?_⟩, by decide, by decide, by decide⟩
  intro c hc
  cases hc
  decide

/-! ## C45 -/

/-- C45.  For every name: the directory part, the stem and the extensions concatenate to the name; the
directory part is empty or ends with a slash, the rest has no slash, the stem has no dot; the
extension part is empty or starts with a dot, and the last extension is empty (then there is none)
or starts with the last dot.  The reported numbers are the positions where the parts begin. -/
theorem name_parts (f rest : List Nat) (h0 : 0 ∉ f) :
    ∃ dir stem mid last, f = dir ++ stem ++ mid ++ last ∧
      info (f ++ 0 :: rest) = .ok
        { startVolume := 0, startPath := 0, startFilename := dir.length, startExt := (dir ++ stem).length,
          startLastExt := (dir ++ stem ++ mid).length, length := f.length } ∧
      (dir = [] ∨ dir.getLast? = some 47) ∧ 47 ∉ stem ++ mid ++ last ∧ 46 ∉ stem ∧
      (mid = [] ∨ mid.head? = some 46) ∧
      ((mid = [] ∧ last = []) ∨ (last.head? = some 46 ∧ 46 ∉ last.tail)) := by
  obtain ⟨s, h1, h2, h3, h4⟩ := backSlash_ok f (0 :: rest) f.length (Nat.le_refl _)
  obtain ⟨e, k1, k2, k3, k4, k5⟩ := toDot_ok f (0 :: rest) (f.length - s) s (by omega)
  obtain ⟨l, g1, g2⟩ := lastDot_ok f (0 :: rest) (f.length - e) e e (by omega)
  have hel : e ≤ l ∧ l ≤ f.length := by rcases g2 with ⟨g, _⟩ | ⟨g, g', _⟩ <;> omega
  have d1 : (f.drop s).take (e - s) ++ (f.drop e).take (l - e) = (f.drop s).take (l - s) := by
    rw [show l - s = (e - s) + (l - e) by omega, List.take_add, List.drop_drop, show s + (e - s) = e by omega]
  refine ⟨f.take s, (f.drop s).take (e - s), (f.drop e).take (l - e), f.drop l, ?_, ?_, ?_, ?_, ?_, ?_, ?_⟩
  · rw [List.append_assoc (f.take s), d1, List.append_assoc]
    conv => lhs; rw [← List.take_append_drop s f, ← List.take_append_drop (l - s) (f.drop s), List.drop_drop,
      show s + (l - s) = l by omega]
  · unfold info
    rw [cstr_ok f rest h0, ok_bind]
    dsimp only
    rw [h2, ok_bind, k3, ok_bind, g1, ok_bind]
    congr 2 <;> simp <;> omega
  · rcases h3 with h3 | h3
    · left; simp [h3]
    · right
      by_cases hs : s = 0
      · subst hs
        have := h4 0 (Nat.le_refl _)
        cases f with
        | nil => simp at h3
        | cons a t => simp at h3; simp at this; exact absurd h3 this
      · rw [List.getLast?_eq_getElem?, List.length_take, Nat.min_eq_left h1, List.getElem?_take, if_pos (by omega), h3]
  · rw [d1, show f.drop l = (f.drop s).drop (l - s) by rw [List.drop_drop]; congr 1; omega, List.take_append_drop]
    intro hm
    obtain ⟨j, hj⟩ := List.mem_iff_getElem?.1 hm
    rw [List.getElem?_drop] at hj
    have := (List.getElem?_eq_some_iff.1 hj).1
    exact h4 (s + j) (by omega) this hj
  · intro hm
    obtain ⟨j, hj⟩ := List.mem_iff_getElem?.1 hm
    have hlt := (List.getElem?_eq_some_iff.1 hj).1
    rw [List.getElem?_take, if_pos (by simp at hlt; omega), List.getElem?_drop] at hj
    exact k5 (s + j) (by omega) (by simp at hlt; omega) hj
  · by_cases hle : l = e
    · left; simp [hle]
    · right
      rw [List.head?_eq_getElem?, List.getElem?_take, if_pos (by omega), List.getElem?_drop, Nat.add_zero]
      rcases k4 with k4 | k4
      · omega
      · exact k4
  · by_cases hef : e = f.length
    · left
      have : l = e := by omega
      subst this
      simp [hef]
    · right
      have hfe : f[e]? = some 46 := by
        rcases k4 with k4 | k4
        · omega
        · exact k4
      have hall : f[l]? = some 46 ∧ ∀ j, l < j → j < f.length → f[j]? ≠ some 46 := by
        rcases g2 with ⟨g, g'⟩ | ⟨g, g', g3, g4⟩
        · exact absurd hfe (g' e (Nat.le_refl _) (by omega))
        · exact ⟨g3, fun j hj hj2 => g4 j hj (by omega)⟩
      refine ⟨by rw [List.head?_eq_getElem?, List.getElem?_drop, Nat.add_zero, hall.1], ?_⟩
      intro hm
      rw [List.tail_drop] at hm
      obtain ⟨j, hj⟩ := List.mem_iff_getElem?.1 hm
      rw [List.getElem?_drop] at hj
      have := (List.getElem?_eq_some_iff.1 hj).1
      exact hall.2 (l + 1 + j) (by omega) this hj

/-- "/a.b/c.tar.gz": directory "/a.b/", stem "c", extensions ".tar" and ".gz". -/
example : info [47, 97, 46, 98, 47, 99, 46, 116, 97, 114, 46, 103, 122, 0] =
    .ok { startVolume := 0, startPath := 0, startFilename := 5, startExt := 6, startLastExt := 10, length := 13 } := by
  decide

end Verif.Path
