import Verif.WinDir.PropsMk

/-!
# C97: the current directory on Windows
-/

namespace Verif.WinDir
open Spec
open Verif.Utf8.Spec
open Verif.WinOps (text_append text2_len good_zero)
open Verif.WinPath (getPlatform)
open Verif.WinPath.Spec (canon normal uni vol pieces body Reserved stem Device Acceptable Holds)

/-- What is passed on is the UTF-8 form of the current directory. -/
theorem getcwd_name (E : Env) (hE : E.Good) (cps : List Nat) (hg : GoodText cps) (hl : (text 1 cps).length ≤ 8191) (result : List Nat) (size : Nat) :
    ∃ cr, getcwd E (some (text 2 cps)) result size = getPlatform E.sgn E.reg result size (text 1 cps ++ 0 :: cr) false := by
  have hl2 := text2_len cps
  have h2 : text 2 (cps ++ [0]) = text 2 cps ++ [0] := by rw [text_append]; rfl
  have h1 : text 1 (cps ++ [0]) = text 1 cps ++ [0] := by rw [text_append]; rfl
  obtain ⟨lp, hr⟩ := (Utf8.round_trip 2 (.inl rfl) (cps ++ [0]) (good_zero hg) E.cjunk (List.replicate 8192 0) 8192 8192 none
    (by rw [h1]; simp; omega) (by rw [hE.lc]) (by rw [h2, List.length_append, List.length_singleton]; omega) (by rw [List.length_replicate])).1
  refine ⟨E.cjunk.drop ((text 1 cps).length + 1), ?_⟩
  unfold getcwd cwdText
  dsimp only
  rw [if_neg (by omega), ← h2, hr]
  simp [h1]

/-- Where `char` is unsigned, or for ASCII characters: `Getcwd` returns true exactly if the form for the system fits, and
gives this form.  The conditions are those of C84. -/
theorem win_getcwd_partial (E : Env) (hE : E.Good) (cps : List Nat) (hg : GoodText cps) (hl : (text 1 cps).length ≤ 8191)
    (result : List Nat) (size : Nat) (h0 : 0 ∉ text 1 cps) (hs : size ≤ result.length) (hv : ¬ vol <+: canon (text 1 cps))
    (hv2 : ¬ uni ++ vol <+: canon (text 1 cps)) (h4 : size ≠ (text 1 cps).length + 4) (h6 : size ≠ (text 1 cps).length + 6)
    (hr : ∀ g, (pieces (body (canon (text 1 cps)))).head? = some g → Reserved (stem g) → body (canon (text 1 cps)) = canon (text 1 cps))
    (hsgn : E.sgn = false ∨ ∀ c ∈ text 1 cps, c < 0x80) :
    ∃ ok r, getcwd E (some (text 2 cps)) result size = .ok (ok, r) ∧ r.length = result.length ∧
      (ok = true ↔ text 1 cps ≠ [] ∧ (text 1 cps).length + 1 ≤ size ∧ ¬ Device (canon (text 1 cps)) ∧ Acceptable (canon (text 1 cps)) ∧
        (normal (canon (text 1 cps))).length + 1 ≤ size) ∧
      (ok = true → Holds r (normal (canon (text 1 cps)))) := by
  obtain ⟨cr, h⟩ := getcwd_name E hE cps hg hl result size
  rw [h]
  have key : ∃ ok r, getPlatform E.sgn E.reg result size (text 1 cps ++ 0 :: cr) false = .ok (ok, r) ∧ r.length = result.length ∧
      (ok = true ↔ text 1 cps ≠ [] ∧ (text 1 cps).length + 1 ≤ size ∧
        if Device (canon (text 1 cps)) then false = true
        else Acceptable (canon (text 1 cps)) ∧ (normal (canon (text 1 cps))).length + 1 ≤ size) ∧
      (ok = true → Holds r (if Device (canon (text 1 cps)) then canon (text 1 cps) else normal (canon (text 1 cps)))) := by
    rcases hsgn with hu | ha
    · rw [hu]
      obtain ⟨ok, r, e1, e2, e3, e4⟩ := WinPath.win_name_partial E.reg (text 1 cps) cr result size false h0 hs hv hv2 h4 h6 hr
      exact ⟨ok, r, e1, e2, e3.trans ⟨fun h => ⟨h.1, h.2.1, h.2.2.2⟩, fun h => ⟨h.1, h.2.1, ⟨cps, hg, rfl⟩, h.2.2⟩⟩, e4⟩
    · exact WinPath.win_name_ascii_partial E.sgn E.reg (text 1 cps) cr result size false h0 hs hv hv2 h4 h6 hr ha
  obtain ⟨ok, r, e1, e2, e3, e4⟩ := key
  refine ⟨ok, r, e1, e2, ?_, ?_⟩
  · rw [e3]
    by_cases hD : Device (canon (text 1 cps))
    · rw [if_pos hD]
      exact ⟨(fun h => nomatch h.2.2), fun h => absurd hD h.2.2.1⟩
    · rw [if_neg hD]
      exact ⟨fun h => ⟨h.1, h.2.1, hD, h.2.2.1, h.2.2.2⟩, fun h => ⟨h.1, h.2.1, h.2.2.2.1, h.2.2.2.2⟩⟩
  · intro hok
    have hD : ¬ Device (canon (text 1 cps)) := by
      intro hD
      have := (e3.1 hok).2.2
      rw [if_pos hD] at this
      cases this
    have := e4 hok
    rw [if_neg hD] at this
    exact this

/-- `C:\a`. -/
example (E : Env) (hE : E.Good) : ∃ r, getcwd E (some [67, 58, 92, 97]) (List.replicate 20 7) 20 = .ok (true, r) ∧
    Holds r [92, 92, 63, 92, 67, 58, 92, 97] := by
  obtain ⟨ok, r, h1, _, h3, h4⟩ := win_getcwd_partial E hE [67, 58, 92, 97] (by unfold GoodText Valid Combining; decide) (by decide) (List.replicate 20 7) 20
    (by decide) (by decide) (by decide) (by decide) (by decide) (by decide) (by decide) (.inr (by decide))
  have hok := h3.2 (by decide)
  subst hok
  exact ⟨r, h1, h4 rfl⟩

/-- If the system does not give the directory, `Getcwd` returns false and writes nothing. -/
theorem win_getcwd_failed (E : Env) (result : List Nat) (size : Nat) : getcwd E none result size = .ok (false, result) := rfl

/-- The disagreements.  A current directory of 8192 or more units is not written by the system; the buffer is read all the same. -/
theorem win_getcwd_long (E : Env) (w result : List Nat) (size : Nat) (h : 8192 ≤ w.length) : getcwd E (some w) result size = .error .uninit := by
  unfold getcwd cwdText
  dsimp only
  rw [if_pos h]
  rfl

theorem decode_lone : ∀ (cps : List Nat) (z : Nat), (∀ c ∈ cps, Valid c) → z < 0xDC00 →
    decode16 (text 2 cps ++ [0xD800, z]) = cps
  | [], z, _, hz => by
    show decode16 [0xD800, z] = []
    unfold decode16
    rw [if_neg (by decide)]
    dsimp only
    rw [if_neg (by omega)]
    rfl
  | c :: cps, z, h, hz => by
    have ih := decode_lone cps z (fun x hx => h x (List.mem_cons_of_mem _ hx)) hz
    have hv := h c List.mem_cons_self
    rw [show text 2 (c :: cps) = enc16 c ++ text 2 cps by simp [text, enc]]
    unfold enc16
    unfold Valid at hv
    split
    · next hc =>
      show decode16 (c :: (text 2 cps ++ [0xD800, z])) = _
      rw [decode16.eq_def]
      dsimp only
      rw [if_pos (by omega), ih]
    · next hc =>
      show decode16 ((55296 + (c - 65536) / 1024) :: (56320 + (c - 65536) % 1024) :: (text 2 cps ++ [0xD800, z])) = _
      rw [decode16.eq_def]
      dsimp only
      rw [if_neg (by omega)]
      rw [if_pos (by omega), ih]
      have e : 65536 + (55296 + (c - 65536) / 1024 - 55296) * 1024 + (56320 + (c - 65536) % 1024 - 56320) = c := by omega
      rw [e]

/-- An unpaired high surrogate at the end (Windows allows it in names) takes the terminator with it: what the buffer held before is
taken for the rest of the name. -/
theorem win_getcwd_unterminated (E : Env) (hE : E.Good) (cps : List Nat) (hg : GoodText cps) (hl : (text 1 cps).length ≤ 8190) (result : List Nat) (size : Nat) :
    getcwd E (some (text 2 cps ++ [0xD800])) result size =
      getPlatform E.sgn E.reg result size (text 1 cps ++ E.cjunk.drop (text 1 cps).length) false := by
  have hl2 := text2_len cps
  have hd := decode_lone cps 0 hg.1 (by decide)
  obtain ⟨lp, hr⟩ := Utf8.convert_to_keeps (text 2 cps ++ [0xD800, 0]) 2 (.inl rfl) E.cjunk 8192 none cps
    (by
      rw [if_pos rfl, hd, List.filter_eq_self.2 (fun c hc => decide_eq_true (hg.1 c hc))]
      cases cps with
      | nil => rfl
      | cons c cps =>
        rw [List.dropWhile_cons_of_neg]
        simpa using hg.2 c rfl)
    (by omega) (by rw [hE.lc])
  unfold getcwd cwdText
  dsimp only
  rw [if_neg (by simp; omega), List.append_assoc, show ([0xD800] : List Nat) ++ [0] = [0xD800, 0] from rfl, hr]
  rfl

/-- In the directory `C:\` followed by an unpaired surrogate: `C:\X` is the answer if the letter X is left over. -/
example (E : Env) (hE : E.Good) (tl : List Nat) (h : E.cjunk.drop 3 = 88 :: 0 :: tl) :
    ∃ r, getcwd E (some [67, 58, 92, 0xD800]) (List.replicate 20 7) 20 = .ok (true, r) ∧ Holds r [92, 92, 63, 92, 67, 58, 92, 88] := by
  have h1 := win_getcwd_unterminated E hE [67, 58, 92] (by unfold GoodText Valid Combining; decide) (by decide) (List.replicate 20 7) 20
  rw [show (text 1 [67, 58, 92]).length = 3 from rfl, h] at h1
  obtain ⟨ok, r, e1, _, e3, e4⟩ := WinPath.win_name_ascii_partial E.sgn E.reg [67, 58, 92, 88] tl (List.replicate 20 7) 20 false
    (by decide) (by decide) (by decide) (by decide) (by decide) (by decide) (by decide) (by decide)
  have hok := e3.2 (by decide)
  subst hok
  exact ⟨r, h1.trans e1, e4 rfl⟩

end Verif.WinDir
