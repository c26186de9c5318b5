import Verif.WinOps.Model
import Verif.WinOps.Spec
import Verif.WinAbs.Props
import Verif.Utf8.Props

/-!
# File names in UTF-16
-/

namespace Verif.WinOps
open Verif.WinPath Verif.WinPath.Spec
open Verif.WinAbs (Accepted Usable Fit get_ok canon_zero normal_zero)
open Verif.Utf8.Spec (GoodText text enc enc8 enc16 Valid Combining)
open Verif.WinOps.Spec

/-- A UTF-8 string, without regard to its first character. -/
def Txt (s : List Nat) : Prop := ∃ cps, (∀ c ∈ cps, Valid c) ∧ s = text 1 cps

theorem text_append (w : Nat) (a b : List Nat) : text w (a ++ b) = text w a ++ text w b := by
  simp [text, List.flatMap_append]

theorem enc8_ascii {c : Nat} (h : c < 0x80) : enc8 c = [c] := by unfold enc8; rw [if_pos h]

theorem enc8_big {c : Nat} (h : ¬ c < 0x80) : ∀ d ∈ enc8 c, 0x80 ≤ d := by
  unfold enc8
  rw [if_neg h]
  intro d hd
  split at hd
  · simp only [List.mem_cons, List.not_mem_nil, or_false] at hd; omega
  · split at hd <;> simp only [List.mem_cons, List.not_mem_nil, or_false] at hd <;> omega

theorem enc8_ne (c : Nat) : enc8 c ≠ [] := by
  unfold enc8
  split
  · simp
  · split
    · simp
    · split <;> simp

theorem ascii_valid {c : Nat} (h : c < 0x80) : Valid c := by unfold Valid; omega

theorem text_ascii : ∀ {s : List Nat}, (∀ c ∈ s, c < 0x80) → text 1 s = s
  | [], _ => rfl
  | c :: s, h => by
    rw [Utf8.text1_cons, enc8_ascii (h c List.mem_cons_self), text_ascii (fun d hd => h d (List.mem_cons_of_mem _ hd))]
    rfl

/-- Leaving away ASCII characters at the beginning. -/
theorem Txt.drop : ∀ {k : Nat} {s : List Nat}, Txt s → (∀ c ∈ s.take k, c < 0x80) → Txt (s.drop k)
  | 0, s, h, _ => by simpa using h
  | k + 1, [], h, _ => by simpa using h
  | k + 1, x :: s, h, ha => by
    obtain ⟨cps, hv, e⟩ := h
    cases cps with
    | nil => cases e
    | cons c cps =>
      rw [Utf8.text1_cons] at e
      have hx : x < 0x80 := ha x (by simp)
      have hc : c < 0x80 := by
        by_contra hc
        cases he : enc8 c with
        | nil => exact enc8_ne c he
        | cons d l =>
          rw [he, List.cons_append] at e
          have := enc8_big hc d (by rw [he]; exact List.mem_cons_self)
          have := (List.cons.inj e).1
          omega
      rw [enc8_ascii hc] at e
      rw [List.drop_succ_cons]
      exact Txt.drop ⟨cps, fun d hd => hv d (List.mem_cons_of_mem _ hd), (List.cons.inj e).2⟩
        (fun d hd => ha d (by rw [List.take_succ_cons]; exact List.mem_cons_of_mem _ hd))

theorem Txt.append {a s : List Nat} (ha : ∀ c ∈ a, c < 0x80) (h : Txt s) : Txt (a ++ s) := by
  obtain ⟨cps, hv, e⟩ := h
  refine ⟨a ++ cps, ?_, by rw [text_append, text_ascii ha, e]⟩
  intro c hc
  rcases List.mem_append.1 hc with hc | hc
  · exact ascii_valid (ha c hc)
  · exact hv c hc

theorem Txt.good {c : Nat} {s : List Nat} (h : Txt (c :: s)) (hc : c < 0x80) : ∃ cps, GoodText cps ∧ c :: s = text 1 cps := by
  obtain ⟨cps, hv, e⟩ := h
  refine ⟨cps, ⟨hv, ?_⟩, e⟩
  intro d hd
  cases cps with
  | nil => cases hd
  | cons b cps =>
    obtain rfl : b = d := Option.some.inj hd
    rw [Utf8.text1_cons] at e
    by_cases hb : b < 0x80
    · unfold Combining; omega
    · exfalso
      cases he : enc8 b with
      | nil => exact enc8_ne b he
      | cons d l =>
        rw [he, List.cons_append] at e
        have := enc8_big hb d (by rw [he]; exact List.mem_cons_self)
        have := (List.cons.inj e).1
        omega

/-- Slashes to backslashes, in code points. -/
theorem text_backed : ∀ (cps : List Nat), (text 1 cps).map (fun c => if c = 47 then 92 else c) =
    text 1 (cps.map (fun c => if c = 47 then 92 else c))
  | [] => rfl
  | c :: cps => by
    rw [List.map_cons, Utf8.text1_cons, Utf8.text1_cons, List.map_append, text_backed cps]
    congr 1
    by_cases hc : c < 0x80
    · rw [enc8_ascii hc]
      by_cases h : c = 47
      · subst h; rfl
      · rw [if_neg h, enc8_ascii hc, List.map_cons, if_neg h]; rfl
    · have h := enc8_big hc
      rw [if_neg (by omega)]
      refine List.map_congr_left (g := id) (fun d hd => ?_) |>.trans (List.map_id _)
      have := h d hd
      rw [if_neg (by omega)]
      rfl

theorem prefix_ascii {p s : List Nat} (hp : ∀ c ∈ p, c < 0x80) (h : p <+: s) : ∀ c ∈ s.take p.length, c < 0x80 := by
  obtain ⟨t, rfl⟩ := h
  rw [List.take_left' rfl]
  exact hp

theorem fold_small {c : Nat} (h : fold c < 0x80) : c < 0x80 := by unfold fold at h; split at h <;> omega

theorem begins_ascii {p s : List Nat} (hp : ∀ c ∈ p.map fold, c < 0x80) (h : Begins p s) : ∀ c ∈ s.take p.length, c < 0x80 := by
  obtain ⟨t, ht⟩ := h
  intro c hc
  have : fold c ∈ (s.map fold).take (p.map fold).length := by
    rw [List.length_map, ← List.map_take]
    exact List.mem_map_of_mem hc
  rw [← ht, List.take_left' rfl] at this
  exact fold_small (hp _ this)

theorem Txt.upper {s : List Nat} (h : Txt s) : Txt (upperDrive s) := by
  unfold upperDrive
  split
  · next hd =>
    match s, hd with
    | c :: d :: r, hd =>
      obtain ⟨h1, rfl⟩ := hd
      have := h.drop (k := 1) (by simp; omega)
      refine Txt.append (a := [_]) ?_ this
      intro e he
      simp only [List.mem_cons, List.not_mem_nil, or_false] at he
      subst he
      split <;> omega
  · exact h

theorem canon_good {f : List Nat} (h : ∃ cps, GoodText cps ∧ f = text 1 cps) : ∃ cps, GoodText cps ∧ canon f = text 1 cps := by
  obtain ⟨cps, hg, rfl⟩ := h
  have hb := text_backed cps
  have hv : ∀ c ∈ cps.map (fun c => if c = 47 then 92 else c), Valid c := by
    intro c hc
    obtain ⟨d, hd, rfl⟩ := List.mem_map.1 hc
    split
    · exact ascii_valid (by decide)
    · exact hg.1 d hd
  unfold canon
  dsimp only
  rw [hb]
  split
  · next hp =>
    have ht : Txt (text 1 (cps.map (fun c => if c = 47 then 92 else c))) := ⟨_, hv, rfl⟩
    have := (ht.drop (k := 4) (prefix_ascii (p := [92, 63, 63, 92]) (by decide) hp)).append (a := uni) (by decide)
    exact Txt.good this (by decide)
  · refine ⟨_, ⟨hv, ?_⟩, rfl⟩
    intro c hc
    cases cps with
    | nil => cases hc
    | cons d cps =>
      cases hc
      dsimp only
      split
      · decide
      · exact hg.2 d rfl

theorem normal_good {s : List Nat} (h : ∃ cps, GoodText cps ∧ s = text 1 cps) :
    ∃ cps, GoodText cps ∧ codeNormal s = text 1 cps := by
  have ht : Txt s := by obtain ⟨cps, hg, e⟩ := h; exact ⟨cps, hg.1, e⟩
  unfold codeNormal
  split
  · next hu =>
    have ha := begins_ascii (p := unc) (by decide) hu
    have h1 : Txt (s.take 8 ++ upperDrive (s.drop 8)) := Txt.append ha ((ht.drop ha).upper)
    have hl : 8 ≤ s.length := begins_len hu
    cases s with
    | nil => simp at hl
    | cons c s => exact Txt.good h1 (ha c (by simp [unc]))
  · split
    · next hu =>
      have hd := ht.drop (k := 4) (prefix_ascii (p := uni) (by decide) hu)
      split
      · exact Txt.good (hd.upper.append (a := uni) (by decide)) (by decide)
      · exact Txt.good (hd.append (a := unc) (by decide)) (by decide)
    · split
      · exact Txt.good (ht.upper.append (a := uni) (by decide)) (by decide)
      · split
        · next hp =>
          exact Txt.good ((ht.drop (k := 2) (prefix_ascii (p := [92, 92]) (by decide) hp)).append (a := unc) (by decide)) (by decide)
        · exact h

/-- UTF-16 is not longer than UTF-8. -/
theorem text2_len : ∀ (cps : List Nat), (text 2 cps).length ≤ (text 1 cps).length
  | [] => Nat.le_refl _
  | c :: cps => by
    rw [Utf8.text_cons, Utf8.text1_cons, List.length_append, List.length_append]
    have := text2_len cps
    have : (enc 2 c).length ≤ (enc8 c).length := by
      show (enc16 c).length ≤ (enc8 c).length
      unfold enc16 enc8
      split
      · split
        · simp
        · split
          · simp
          · simp
      · rw [if_neg (by omega), if_neg (by omega)]
        simp
    omega

theorem text2_zero : ∀ {cps : List Nat}, 0 ∉ text 1 cps → 0 ∉ text 2 cps
  | [], _ => by simp [text]
  | c :: cps, h => by
    rw [Utf8.text1_cons] at h
    rw [Utf8.text_cons]
    intro hm
    rcases List.mem_append.1 hm with hm | hm
    · apply h
      apply List.mem_append_left
      change 0 ∈ enc16 c at hm
      unfold enc16 at hm
      split at hm
      · simp only [List.mem_cons, List.not_mem_nil, or_false] at hm
        rw [← hm]
        decide
      · simp only [List.mem_cons, List.not_mem_nil, or_false] at hm
        omega
    · exact text2_zero (fun hm' => h (List.mem_append_right _ hm')) hm

theorem good_zero {cps : List Nat} (h : GoodText cps) : GoodText (cps ++ [0]) := by
  refine ⟨?_, ?_⟩
  · intro c hc
    rcases List.mem_append.1 hc with hc | hc
    · exact h.1 c hc
    · simp only [List.mem_cons, List.not_mem_nil, or_false] at hc
      subst hc
      exact ascii_valid (by decide)
  · intro c hc
    cases cps with
    | nil => cases hc; decide
    | cons d cps => exact h.2 c hc

/-- The conversion to UTF-16. -/
theorem widen_ok (E : Env) (hw : E.wjunk.length = 8192) {cps : List Nat} (hg : GoodText cps) (rest : List Nat)
    (h0 : 0 ∉ text 1 cps) (hl : (text 1 cps).length + 1 ≤ 8192) :
    widen E (text 1 cps ++ 0 :: rest) (text 1 cps) = .ok (text 2 cps) := by
  have ht : (text 1 cps ++ 0 :: rest).take ((text 1 cps).length + 1) = text 1 (cps ++ [0]) := by
    rw [text_append, List.take_length_add_append]
    rfl
  have hl2 := text2_len cps
  have h2 : text 2 (cps ++ [0]) = text 2 cps ++ [0] := by rw [text_append]; rfl
  have := (Utf8.round_trip 2 (.inl rfl) (cps ++ [0]) (good_zero hg) (List.replicate ((text 1 cps).length + 1) 0) E.wjunk
    ((text 1 cps).length + 1) 8192 none (by rw [text_append]; simp [text, enc, enc8])
    (by simp) (by rw [h2]; simp; omega) (by omega)).2
  unfold widen
  rw [ht, this, ok_bind]
  dsimp only
  rw [h2, List.append_assoc]
  exact Path.cstr_ok _ _ (text2_zero h0)

/-- The UTF-16 form is unique. -/
theorem wide_unique {f w v : List Nat} (h : Wide f w) (h' : Wide f v) : w = v := by
  obtain ⟨a, ha, ea, rfl⟩ := h
  obtain ⟨b, hb, eb, rfl⟩ := h'
  have hab : text 1 a = text 1 b := ea.symm.trans eb
  have ra := (Utf8.round_trip 2 (.inl rfl) a ha (List.replicate (text 1 a).length 0)
    (List.replicate ((text 2 a).length + (text 2 b).length) 0) (text 1 a).length ((text 2 a).length + (text 2 b).length) none
    (Nat.le_refl _) (by simp) (by omega) (by simp)).2
  have rb := (Utf8.round_trip 2 (.inl rfl) b hb (List.replicate (text 1 b).length 0)
    (List.replicate ((text 2 a).length + (text 2 b).length) 0) (text 1 b).length ((text 2 a).length + (text 2 b).length) none
    (Nat.le_refl _) (by simp) (by omega) (by simp)).2
  rw [hab, rb] at ra
  injection ra with ra
  injection ra with r1 r2
  injection r1 with r1
  exact ((List.append_inj r1 r2).1).symm

/-- The name the system gets. -/
theorem platform_yes {E : Env} {f : List Nat} (rest : List Nat) (hf : Fit f) (hj : E.junk.length = 8192)
    (hw : E.wjunk.length = 8192) (ha : Accepted E.sgn f) :
    ∃ w tl, Wide f w ∧ 0 ∉ normal (canon f) ∧
      getPlatform E.sgn E.reg E.junk 8192 (f ++ 0 :: rest) false = .ok (true, normal (canon f) ++ 0 :: tl) ∧
      widen E (normal (canon f) ++ 0 :: tl) (normal (canon f)) = .ok w := by
  obtain ⟨ok, r, h1, h2, h3⟩ := get_ok E.sgn E.reg f rest E.junk hf.usable hj
  obtain ⟨cps, hg, e⟩ := normal_good (canon_good ha.2.2.1)
  have hz := normal_zero (canon_zero hf.1)
  have hlen := ha.2.2.2.2.2
  rw [hf.normal] at h3 e hz hlen
  refine ⟨text 2 cps, E.junk.drop ((normal (canon f)).length + 1), ⟨cps, hg, e, rfl⟩, hz, ?_, ?_⟩
  · rw [h1, h2.2 ha, h3 (h2.2 ha)]
  · rw [e] at hz hlen ⊢
    exact widen_ok E hw hg _ hz hlen

theorem platform_no {E : Env} {f : List Nat} (rest : List Nat) (hf : Fit f) (hj : E.junk.length = 8192)
    (ha : ¬ Accepted E.sgn f) : ∃ r, getPlatform E.sgn E.reg E.junk 8192 (f ++ 0 :: rest) false = .ok (false, r) := by
  obtain ⟨ok, r, h1, h2, _⟩ := get_ok E.sgn E.reg f rest E.junk hf.usable hj
  cases ok with
  | true => exact absurd (h2.1 rfl) ha
  | false => exact ⟨r, h1⟩

theorem wideName_yes {E : Env} {f : List Nat} (rest : List Nat) (hf : Fit f) (hj : E.junk.length = 8192)
    (hw : E.wjunk.length = 8192) (ha : Accepted E.sgn f) {w : List Nat} (h : Wide f w) :
    wideName E (f ++ 0 :: rest) = .ok (some w) := by
  obtain ⟨v, tl, hv, hz, h1, h2⟩ := platform_yes rest hf hj hw ha
  rw [wide_unique h hv]
  unfold wideName
  rw [h1, ok_bind]
  dsimp only [Bool.not_true]
  rw [if_neg (by decide), Path.cstr_ok _ _ hz, ok_bind, h2, ok_bind]

theorem wideName_no {E : Env} {f : List Nat} (rest : List Nat) (hf : Fit f) (hj : E.junk.length = 8192)
    (ha : ¬ Accepted E.sgn f) : wideName E (f ++ 0 :: rest) = .ok none := by
  obtain ⟨r, h⟩ := platform_no rest hf hj ha
  unfold wideName
  rw [h, ok_bind]
  rfl

theorem byName_yes {E : Env} {f : List Nat} (rest : List Nat) (hf : Fit f) (hj : E.junk.length = 8192)
    (hw : E.wjunk.length = 8192) (ha : Accepted E.sgn f) {w : List Nat} (h : Wide f w) (fs : Fs) (act : List Nat → Fs × Bool) :
    byName E fs (f ++ 0 :: rest) act = .ok (act w) := by
  unfold byName
  rw [wideName_yes rest hf hj hw ha h, ok_bind]

theorem byName_no {E : Env} {f : List Nat} (rest : List Nat) (hf : Fit f) (hj : E.junk.length = 8192)
    (ha : ¬ Accepted E.sgn f) (fs : Fs) (act : List Nat → Fs × Bool) :
    byName E fs (f ++ 0 :: rest) act = .ok (fs, false) := by
  unfold byName
  rw [wideName_no rest hf hj ha, ok_bind]

end Verif.WinOps
