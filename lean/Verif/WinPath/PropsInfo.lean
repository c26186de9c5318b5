import Verif.WinPath.NameLemmas
import Verif.Path.NameLemmas

/-!
# C85: `GetPlatformFilenameInfo` on Windows
-/

namespace Verif.WinPath
open Spec
open Verif.Path (cstr cstr_ok toDot_ok lastDot_ok)

theorem toSlash_ok (f rest : List Nat) : ∀ k x, x + k ≤ f.length →
    ∃ e, x ≤ e ∧ e ≤ x + k ∧ toSlash (f ++ rest) k x = .ok e ∧ (e = x + k ∨ f[e]? = some 92) ∧
      ∀ j, x ≤ j → j < e → f[j]? ≠ some 92
  | 0, x, _ => ⟨x, Nat.le_refl _, Nat.le_refl _, rfl, .inl rfl, by omega⟩
  | k + 1, x, h => by
    have hx : x < f.length := by omega
    have hl : f[x]? = some f[x] := List.getElem?_eq_getElem hx
    rw [toSlash, rd_in f rest hx, ok_bind]
    by_cases hc : f[x] = 92
    · exact ⟨x, Nat.le_refl _, by omega, by rw [if_neg (by simp [hc])], .inr (by rw [hl, hc]), by omega⟩
    · obtain ⟨e, h1, h2, h3, h4, h5⟩ := toSlash_ok f rest k (x + 1) (by omega)
      refine ⟨e, by omega, by omega, by rw [if_pos hc, h3], by rw [show x + (k + 1) = x + 1 + k by omega]; exact h4, ?_⟩
      intro j hj1 hj2
      by_cases hjx : j = x
      · rw [hjx, hl]
        simpa using hc
      · exact h5 j (by omega) hj2

theorem backSlash_ok (f rest : List Nat) (sp : Nat) : ∀ n, sp + n ≤ f.length →
    ∃ s, sp ≤ s ∧ s ≤ sp + n ∧ backSlash (f ++ rest) sp n = .ok s ∧ (s = sp ∨ (sp < s ∧ f[s - 1]? = some 92)) ∧
      ∀ j, s ≤ j → j < sp + n → f[j]? ≠ some 92
  | 0, _ => ⟨sp, Nat.le_refl _, Nat.le_refl _, rfl, .inl rfl, by omega⟩
  | n + 1, h => by
    have hx : sp + n < f.length := by omega
    have hl : f[sp + n]? = some f[sp + n] := List.getElem?_eq_getElem hx
    rw [backSlash, rd_in f rest hx, ok_bind]
    by_cases hc : f[sp + n] = 92
    · refine ⟨sp + n + 1, by omega, by omega, by rw [if_neg (by simp [hc])],
        .inr ⟨by omega, by rw [Nat.add_sub_cancel, hl, hc]⟩, by omega⟩
    · obtain ⟨s, h0, h1, h2, h3, h4⟩ := backSlash_ok f rest sp n (by omega)
      refine ⟨s, h0, by omega, by rw [if_pos hc, h2], h3, ?_⟩
      intro j hj1 hj2
      by_cases hjn : j = sp + n
      · rw [hjn, hl]
        simpa using hc
      · exact h4 j hj1 (by omega)

theorem startVolume_ok (f rest : List Nat) : startVolume (f ++ 0 :: rest) = .ok (root f) := by
  unfold startVolume root
  rw [atI_ok f rest _ 0 (by decide) (Nat.zero_le _), ok_bind, List.drop_zero]
  by_cases hu : Begins unc f
  · rw [if_pos (decide_eq_true (show Begins preUnc f from hu)), if_pos hu]
  · rw [if_neg (fun h : decide (Begins preUnc f) = true => hu (of_decide_eq_true h)), if_neg hu,
      at_ok f rest _ 0 (by decide) (Nat.zero_le _), ok_bind, List.drop_zero]
    simp only [decide_eq_true_eq]
    rfl

/-- Two neighbouring parts. -/
theorem part_add (f : List Nat) {a b c : Nat} (h1 : a ≤ b) (h2 : b ≤ c) :
    (f.drop a).take (b - a) ++ (f.drop b).take (c - b) = (f.drop a).take (c - a) := by
  rw [show c - a = (b - a) + (c - b) by omega, List.take_add, List.drop_drop, show a + (b - a) = b by omega]

theorem part_all (f : List Nat) (a : Nat) : (f.drop a).take (f.length - a) = f.drop a := by
  rw [List.take_of_length_le]
  rw [List.length_drop]
  exact Nat.le_refl _

theorem part_len (f : List Nat) {a b : Nat} (h : b ≤ f.length) : ((f.drop a).take (b - a)).length = b - a := by
  rw [List.length_take, List.length_drop]
  omega

theorem part_not (f : List Nat) {a b c : Nat} (h : ∀ j, a ≤ j → j < b → f[j]? ≠ some c) :
    c ∉ (f.drop a).take (b - a) := by
  intro hm
  obtain ⟨j, hj⟩ := List.mem_iff_getElem?.1 hm
  have hlt := (List.getElem?_eq_some_iff.1 hj).1
  rw [List.length_take] at hlt
  rw [List.getElem?_take, if_pos (by omega), List.getElem?_drop] at hj
  exact h (a + j) (by omega) (by omega) hj

theorem part_head (f : List Nat) {a b : Nat} (h : a < b) : ((f.drop a).take (b - a)).head? = f[a]? := by
  rw [List.head?_eq_getElem?, List.getElem?_take, if_pos (by omega), List.getElem?_drop, Nat.add_zero]

theorem part_last (f : List Nat) {a b : Nat} (h : a < b) (hb : b ≤ f.length) :
    ((f.drop a).take (b - a)).getLast? = f[b - 1]? := by
  rw [List.getLast?_eq_getElem?, part_len f hb, List.getElem?_take, if_pos (by omega), List.getElem?_drop]
  congr 1
  omega

/-- C85.  For every name: the prefix, the volume (or the host), the directory part, the stem and the extensions
concatenate to the name, and the reported numbers are the positions where the parts begin.  The prefix is `\\?\UNC\` (in any
case) or else `\\?\`, if the name begins so, and otherwise empty; the volume has no backslash, is empty without a prefix, and
after a prefix reaches to the next backslash or the end; the directory part is empty or ends with a
backslash, the rest has no backslash, the stem has no dot; the extension part is empty or starts with a dot, and the last extension
is empty (then there is none) or starts with the last dot. -/
theorem win_name_parts (f rest : List Nat) (h0 : 0 ∉ f) :
    ∃ pre volume dir stem mid last, f = pre ++ volume ++ dir ++ stem ++ mid ++ last ∧
      info (f ++ 0 :: rest) = .ok
        { startVolume := pre.length, startPath := (pre ++ volume).length, startFilename := (pre ++ volume ++ dir).length,
          startExt := (pre ++ volume ++ dir ++ stem).length,
          startLastExt := (pre ++ volume ++ dir ++ stem ++ mid).length, length := f.length } ∧
      (if Begins unc f then Same pre unc else if uni <+: f then pre = uni else pre = []) ∧
      92 ∉ volume ∧
      (if pre = [] then volume = [] else dir ++ stem ++ mid ++ last = [] ∨ (dir ++ stem ++ mid ++ last).head? = some 92) ∧
      (dir = [] ∨ dir.getLast? = some 92) ∧ 92 ∉ stem ++ mid ++ last ∧ 46 ∉ stem ∧
      (mid = [] ∨ mid.head? = some 46) ∧
      ((mid = [] ∧ last = []) ∨ (last.head? = some 46 ∧ 46 ∉ last.tail)) := by
  have hrl := root_le f
  have hsp : ∃ sp, root f ≤ sp ∧ sp ≤ f.length ∧
      (if root f = 0 then .ok 0 else toSlash (f ++ 0 :: rest) (f.length - root f) (root f) : CRes Nat) = .ok sp ∧
      (root f = 0 → sp = 0) ∧ (root f ≠ 0 → sp = f.length ∨ f[sp]? = some 92) ∧
      ∀ j, root f ≤ j → j < sp → f[j]? ≠ some 92 := by
    by_cases h : root f = 0
    · rw [if_pos h]
      exact ⟨0, by omega, by omega, rfl, fun _ => rfl, fun h' => absurd h h', fun j _ hj => by omega⟩
    · rw [if_neg h]
      obtain ⟨e, h1, h2, h3, h4, h5⟩ := toSlash_ok f (0 :: rest) (f.length - root f) (root f) (by omega)
      exact ⟨e, h1, by omega, h3, fun h' => absurd h' h, fun _ => h4.imp_left (by omega), h5⟩
  obtain ⟨sp, p1, p2, p3, p4, p5, p6⟩ := hsp
  obtain ⟨sf, s1, s2, s3, s4, s5⟩ := backSlash_ok f (0 :: rest) sp (f.length - sp) (by omega)
  obtain ⟨e, k1, k2, k3, k4, k5⟩ := toDot_ok f (0 :: rest) (f.length - sf) sf (by omega)
  obtain ⟨l, g1, g2⟩ := lastDot_ok f (0 :: rest) (f.length - e) e e (by omega)
  have hel : e ≤ l ∧ l ≤ f.length := by rcases g2 with ⟨g, _⟩ | ⟨g, g', _⟩ <;> omega
  have d0 : f.take (root f) = (f.drop 0).take (root f - 0) := by simp
  refine ⟨(f.drop 0).take (root f - 0), (f.drop (root f)).take (sp - root f), (f.drop sp).take (sf - sp), (f.drop sf).take (e - sf),
    (f.drop e).take (l - e), (f.drop l).take (f.length - l), ?_, ?_, ?_, ?_, ?_, ?_, ?_, ?_, ?_, ?_⟩
  · rw [part_add f (by omega) p1, part_add f (by omega) s1, part_add f (by omega) k1, part_add f (by omega) hel.1,
      part_add f (by omega) hel.2]
    simp
  · unfold info
    rw [cstr_ok f rest h0, ok_bind]
    dsimp only
    rw [startVolume_ok, ok_bind, p3, ok_bind, s3, ok_bind, k3, ok_bind, g1, ok_bind]
    rw [part_add f (by omega) p1, part_add f (by omega) s1, part_add f (by omega) k1, part_add f (by omega) hel.1,
      part_len f (by omega), part_len f (by omega), part_len f (by omega), part_len f (by omega), part_len f (by omega)]
    rfl
  · rw [← d0]
    by_cases hu : Begins unc f
    · rw [if_pos hu, show root f = 8 by unfold root; rw [if_pos hu]]
      exact (begins_take f unc 8 rfl (begins_len hu)).1 hu
    · rw [if_neg hu]
      by_cases hn : uni <+: f
      · rw [if_pos hn, show root f = 4 by unfold root; rw [if_neg hu, if_pos hn]]
        exact (List.prefix_iff_eq_take.1 hn).symm
      · rw [if_neg hn, show root f = 0 by unfold root; rw [if_neg hu, if_neg hn]]
        rfl
  · exact part_not f p6
  · by_cases hr : root f = 0
    · rw [if_pos (by rw [hr]; rfl), p4 hr]
      simp
    · rw [if_neg (fun h => hr (by have := congrArg List.length h; rw [part_len f (by omega)] at this; simpa using this))]
      rw [part_add f s1 k1, part_add f (by omega) hel.1, part_add f (by omega) hel.2]
      rcases p5 hr with h | h
      · left
        rw [h]
        simp
      · right
        have := (List.getElem?_eq_some_iff.1 h).1
        rw [part_head f this, h]
  · rcases s4 with h | ⟨h, h'⟩
    · left; simp [h]
    · right
      rw [part_last f h (by omega), h']
  · rw [part_add f k1 hel.1, part_add f (by omega) hel.2]
    exact part_not f (fun j h1 h2 => s5 j h1 (by omega))
  · exact part_not f k5
  · by_cases hle : l = e
    · left; simp [hle]
    · right
      rw [part_head f (by omega)]
      rcases k4 with k4 | k4
      · omega
      · exact k4
  · by_cases hef : e = f.length
    · left
      have : l = e := by omega
      subst this
      simp [hef]
    · right
      have hfe : f[e]? = some 46 := by
        rcases k4 with k4 | k4
        · omega
        · exact k4
      have hall : f[l]? = some 46 ∧ ∀ j, l < j → j < f.length → f[j]? ≠ some 46 := by
        rcases g2 with ⟨g, g'⟩ | ⟨g, g', g3, g4⟩
        · exact absurd hfe (g' e (Nat.le_refl _) (by omega))
        · exact ⟨g3, fun j hj hj2 => g4 j hj (by omega)⟩
      rw [part_all]
      refine ⟨by rw [List.head?_eq_getElem?, List.getElem?_drop, Nat.add_zero, hall.1], ?_⟩
      intro hm
      rw [List.tail_drop] at hm
      obtain ⟨j, hj⟩ := List.mem_iff_getElem?.1 hm
      rw [List.getElem?_drop] at hj
      have := (List.getElem?_eq_some_iff.1 hj).1
      exact hall.2 (l + 1 + j) (by omega) this hj

/-- `\\?\C:\d\a.b.c`: prefix `\\?\`, volume `C:`, directory `\d\`, stem `a`, extensions `.b` and `.c`. -/
example : info [92, 92, 63, 92, 67, 58, 92, 100, 92, 97, 46, 98, 46, 99, 0] =
    .ok { startVolume := 4, startPath := 6, startFilename := 9, startExt := 10, startLastExt := 12, length := 14 } := by
  decide

/-- `\\?\unc\h\s`: host `h`, directory `\`, stem `s`. -/
example : info [92, 92, 63, 92, 117, 110, 99, 92, 104, 92, 115, 0] =
    .ok { startVolume := 8, startPath := 9, startFilename := 10, startExt := 11, startLastExt := 11, length := 11 } := by
  decide

end Verif.WinPath
