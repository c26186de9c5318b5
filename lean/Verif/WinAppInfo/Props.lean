import Verif.WinAppInfo.Lemmas

/-!
# C82, C83: storage directories and the program's own name on Windows
-/

namespace Verif.WinAppInfo
open Spec Utf8 Utf8.Spec

theorem text1_ne {kept : List Nat} (h : kept ≠ []) : text 1 kept ≠ [] := by
  cases kept with
  | nil => exact absurd rfl h
  | cons c L =>
    rw [text1_cons]
    have := enc8_ne c
    simp [this]

theorem dirName_len (s : List Nat) : s.length ≤ (dirName s).length := by unfold dirName; split <;> simp

theorem appDir_len (s : List Nat) (app : Option (List Nat)) : s.length ≤ (appDir s app).length := by
  unfold appDir
  cases app with
  | none => exact dirName_len s
  | some a =>
    have h1 := dirName_len s
    have h2 := dirName_len (dirName s ++ a)
    rw [List.length_append] at h2
    simp only
    omega

/-- `finish` after a conversion of a path. -/
theorem winDir_ok (cps b : List Nat) (app : Option (List Nat)) (z z2 : Nat) (hp : PathText cps)
    (hz : z ≤ z2) (h0 : 0 < z) (hb : z2 ≤ b.length) :
    ∃ kept : List Nat, kept.Sublist cps ∧ ((text 1 cps).length ≤ z → kept = cps) ∧
      ((∀ c ∈ cps, c < 0x800) → z < (text 1 cps).length → z ≤ (text 1 kept).length + 1) ∧
      Delivers z2 b (appDir (text 1 kept) app) (winDir (text 2 cps) b app z z2) := by
  obtain ⟨kept, lp', k1, k2, k3, k4, k5, k6⟩ := convert_path cps b z hp (by omega) h0
  refine ⟨kept, k1, k5, k6, ?_⟩
  unfold winDir
  rw [k4, ok_bind]
  simp only [bufOf, ok_bind]
  have := finish_ok (text 1 kept ++ b.drop (text 1 kept).length) (text 1 kept) app z2
    (by simp; omega) (by simp) (by omega) (text1_ne k2)
  unfold Delivers at this ⊢
  rw [show (text 1 kept ++ b.drop (text 1 kept).length).length = b.length by simp; omega] at this
  exact this

/-- C82, the part that holds of `GetSystemAppStorageDir` and `GetCurrentUserAppStorageDir`: for every folder
path and every buffer of at least the stated size there is no access outside the buffer, and the
function delivers, in the sense of `Delivers`, the application's directory below the folder, in UTF-8,
if the UTF-8 form of the folder's path fits into the buffer or if the path has only characters below
U+0800.  Missing: longer characters in a path that does not fit (`folder_dir_drops_character`). -/
theorem folder_dir_partial (cps b : List Nat) (z2 : Nat) (app : Option (List Nat)) (hp : PathText cps)
    (hb : z2 ≤ b.length) (hf : (text 1 cps).length ≤ z2 ∨ ∀ c ∈ cps, c < 0x800) :
    Delivers z2 b (appDir (text 1 cps) app) (folderDir b z2 (some (text 2 cps)) app) := by
  unfold folderDir
  obtain ⟨b1, h1, h2⟩ := clear_ok b z2 hb
  rw [h1, ok_bind]
  dsimp only
  rcases Nat.eq_zero_or_pos z2 with rfl | h0
  · obtain ⟨kept, lp', k1, k2, k3⟩ := convert_to_safe (text 2 cps) 2 b1 0 none (Nat.zero_le _)
    have k4 : text 1 kept = [] := List.eq_nil_of_length_eq_zero (by omega)
    unfold winDir
    rw [k3, k4, ok_bind]
    refine ⟨false, 0, b1, ?_, h2, ⟨(fun h => nomatch h), fun h => by omega⟩, (fun h => nomatch h), fun _ => rfl⟩
    cases app with
    | none => rfl
    | some a => cases a <;> rfl
  · obtain ⟨kept, k1, k2, k3, k4⟩ := winDir_ok cps b1 app z2 z2 hp (Nat.le_refl _) h0 (by omega)
    unfold Delivers at k4 ⊢
    rw [h2] at k4
    by_cases hle : (text 1 cps).length ≤ z2
    · rw [k2 hle] at k4
      exact k4
    · have k5 := k3 (hf.resolve_left hle) (by omega)
      have l1 := appDir_len (text 1 cps) app
      have l2 := appDir_len (text 1 kept) app
      obtain ⟨ok, z, b', e1, e2, e3, _, e5⟩ := k4
      have hok : ok = false := by
        cases ok with
        | false => rfl
        | true => have := e3.1 rfl; omega
      subst hok
      exact ⟨false, z, b', e1, e2, ⟨(fun h => nomatch h), fun h => by omega⟩, (fun h => nomatch h), e5⟩

/-- C82: whatever the characters and the size, there is no access outside the buffer, and what is delivered is
the application's directory below a path obtained from the folder's by leaving out characters. -/
theorem folder_dir_safe_partial (cps b : List Nat) (z2 : Nat) (app : Option (List Nat)) (hp : PathText cps)
    (hb : z2 ≤ b.length) :
    ∃ kept : List Nat, kept.Sublist cps ∧
      Delivers z2 b (appDir (text 1 kept) app) (folderDir b z2 (some (text 2 cps)) app) := by
  rcases Nat.eq_zero_or_pos z2 with rfl | h0
  · -- nothing fits; any selection will do
    obtain ⟨c, L, rfl⟩ : ∃ c L, cps = c :: L := by
      obtain ⟨_, c, hc, _⟩ := hp
      cases cps with
      | nil => cases hc
      | cons c L => exact ⟨_, _, rfl⟩
    refine ⟨c :: L, List.Sublist.refl _, ?_⟩
    unfold folderDir
    obtain ⟨b1, h1, h2⟩ := clear_ok b 0 hb
    rw [h1, ok_bind]
    dsimp only
    obtain ⟨kept, lp', k1, k2, k3⟩ := convert_to_safe (text 2 (c :: L)) 2 b1 0 none (Nat.zero_le _)
    have k4 : text 1 kept = [] := List.eq_nil_of_length_eq_zero (by omega)
    unfold winDir
    rw [k3, k4, ok_bind]
    refine ⟨false, 0, b1, ?_, h2, ⟨(fun h => nomatch h), fun h => by omega⟩, (fun h => nomatch h), fun _ => rfl⟩
    cases app with
    | none => rfl
    | some a => cases a <;> rfl
  · unfold folderDir
    obtain ⟨b1, h1, h2⟩ := clear_ok b z2 hb
    rw [h1, ok_bind]
    dsimp only
    obtain ⟨kept, k1, _, _, k4⟩ := winDir_ok cps b1 app z2 z2 hp (Nat.le_refl _) h0 (by omega)
    unfold Delivers at k4 ⊢
    rw [h2] at k4
    exact ⟨kept, k1, k4⟩

/-- `C:\é`, application `a`: eight bytes with the separators, nine with the terminator; a buffer of nine is refused,
one of ten is enough. -/
example : PathText [67, 58, 92, 0xE9] ∧
    folderDir (List.replicate 9 7) 9 (some (text 2 [67, 58, 92, 0xE9])) (some [97]) =
      .ok (false, 0, [67, 58, 92, 0xC3, 0xA9, 92, 97, 92, 0]) ∧
    folderDir (List.replicate 10 7) 10 (some (text 2 [67, 58, 92, 0xE9])) (some [97]) =
      .ok (true, 9, [67, 58, 92, 0xC3, 0xA9, 92, 97, 92, 0, 7]) := by
  refine ⟨⟨⟨by decide, by decide⟩, 67, rfl, by decide⟩, by decide, by decide⟩

/-- C82 fails for a path that does not fit and has a long character: `C:\日` in a buffer of five bytes gives
`C:\`, reported as success. -/
theorem folder_dir_drops_character :
    folderDir (List.replicate 5 7) 5 (some (text 2 [67, 58, 92, 0x65E5])) none =
      .ok (true, 4, [67, 58, 92, 0, 7]) ∧
    ¬ Delivers 5 (List.replicate 5 7) (appDir (text 1 [67, 58, 92, 0x65E5]) none)
      (folderDir (List.replicate 5 7) 5 (some (text 2 [67, 58, 92, 0x65E5])) none) := by
  have e : folderDir (List.replicate 5 7) 5 (some (text 2 [67, 58, 92, 0x65E5])) none =
      .ok (true, 4, [67, 58, 92, 0, 7]) := by decide
  refine ⟨e, ?_⟩
  rintro ⟨ok, z, b', h1, _, h3, _⟩
  rw [e] at h1
  simp only [Except.ok.injEq, Prod.mk.injEq] at h1
  obtain ⟨rfl, _⟩ := h1
  exact absurd (h3.1 rfl) (by decide)

/-- C82 fails for a folder path of which nothing can be converted: the byte before the buffer is read. -/
theorem folder_dir_empty_reads_before (b : List Nat) (z2 : Nat) (app : Option (List Nat)) (h0 : 0 < z2)
    (hb : z2 ≤ b.length) : folderDir b z2 (some []) app = .error .oobRead := by
  unfold folderDir
  obtain ⟨b1, h1, _⟩ := clear_ok b z2 hb
  rw [h1, ok_bind]
  dsimp only
  unfold winDir
  rw [show convertTo [] 2 (some b1) z2 none = .ok (⟨some b1, 0⟩, none) from rfl, ok_bind]
  simp only [bufOf, ok_bind]
  unfold finish slash
  rw [if_pos h0]
  rfl

example : folderDir [7, 7, 7] 3 (some []) (some [97]) = .error .oobRead := by decide

/-- If the folder cannot be found the call fails, with an empty string in the buffer. -/
theorem folder_dir_unknown (b : List Nat) (z2 : Nat) (app : Option (List Nat)) (h0 : 0 < z2) (hb : z2 ≤ b.length) :
    ∃ b', folderDir b z2 none app = .ok (false, 0, b') ∧ b'.length = b.length ∧ Holds b' [] := by
  unfold folderDir clear
  rw [if_pos (by omega), wr_ok _ (by omega : 0 < b.length), ok_bind]
  refine ⟨_, rfl, by simp, ?_⟩
  cases b with
  | nil => simp at hb; omega
  | cons c r => exact ⟨r, rfl⟩

example : folderDir [7, 7] 2 none none = .ok (false, 0, [0, 7]) := by decide

theorem ascii_text (w : Nat) (hw : w = 1 ∨ w = 2) : ∀ (t : List Nat), (∀ c ∈ t, c < 0x80) → text w t = t
  | [], _ => rfl
  | c :: t, h => by
    have hc := h c (by simp)
    have e : enc w c = [c] := by
      rcases hw with rfl | rfl
      · simp only [enc, if_true, enc8]; rw [if_pos hc]
      · simp only [enc, enc16]; rw [if_neg (by omega), if_pos trivial, if_pos (by omega)]
    rw [text_cons, e, ascii_text w hw t (fun c hc => h c (by simp [hc]))]
    rfl

theorem ascii_good (t : List Nat) (h : ∀ c ∈ t, c < 0x80) : GoodText t := by
  refine ⟨fun c hc => ?_, fun c hc => ?_⟩
  · have := h c hc
    unfold Valid; omega
  · have := h c (List.mem_of_mem_head? hc)
    unfold Combining; omega

/-- C82, the part that holds of `GetTempStorageDir`: an ASCII path that is not longer than the buffer is
delivered.  Missing: longer paths (`temp_dir_overruns`) and other characters
(`temp_dir_cuts`). -/
theorem temp_dir_partial (t b : List Nat) (z2 : Nat) (ht : t ≠ []) (ha : ∀ c ∈ t, c < 0x80) (hl : t.length ≤ z2)
    (hb : z2 ≤ b.length) : Delivers z2 b (dirName t) (tempDir b z2 (.path t)) := by
  have hpos := List.length_pos_iff.2 ht
  unfold tempDir
  obtain ⟨b1, h1, h2⟩ := clear_ok b z2 hb
  rw [h1, ok_bind]
  dsimp only
  rw [if_neg (by omega)]
  have hp : PathText t := by
    refine ⟨ascii_good t ha, ?_⟩
    cases t with
    | nil => exact absurd rfl ht
    | cons c r => exact ⟨c, rfl, ha c (by simp)⟩
  obtain ⟨kept, _, k2, _, k4⟩ := winDir_ok t b1 none t.length z2 hp hl hpos (by omega)
  rw [ascii_text 1 (.inl rfl) t ha] at k2
  rw [k2 (Nat.le_refl _), ascii_text 1 (.inl rfl) t ha, ascii_text 2 (.inr rfl) t ha] at k4
  unfold Delivers at k4 ⊢
  rw [h2] at k4
  exact k4

/-- `C:\T\`: delivered with room, refused in a buffer with just the room for the terminator. -/
example : tempDir (List.replicate 7 7) 7 (.path [67, 58, 92, 84, 92]) = .ok (true, 6, [67, 58, 92, 84, 92, 0, 7]) ∧
    tempDir (List.replicate 6 7) 6 (.path [67, 58, 92, 84, 92]) = .ok (false, 0, [67, 58, 92, 84, 92, 0]) := by
  decide

/-- C82 fails for `GetTempStorageDir` with a buffer smaller than the path: the conversion is given the length
of the path as its limit and runs over the end of the buffer, for every buffer and every ASCII path that is longer. -/
theorem temp_dir_overruns (t b : List Nat) (ha : ∀ c ∈ t, c < 0x80) (hl : b.length < t.length) :
    tempDir b b.length (.path t) = .error .oobWrite := by
  unfold tempDir
  obtain ⟨b1, h1, h2⟩ := clear_ok b b.length (Nat.le_refl _)
  rw [h1, ok_bind]
  dsimp only
  rw [if_neg (by omega)]
  unfold winDir convertTo
  dsimp only
  rw [if_neg (by omega), if_pos rfl,
    toLoop2_over t t.length (Nat.le_refl _) ha _ 0 b1 none (by omega) (Nat.zero_le _) (by omega)]
  rfl

example : tempDir [7, 7, 7, 7] 4 (.path [67, 58, 92, 84, 92]) = .error .oobWrite := by decide

/-- C82 fails for `GetTempStorageDir` with characters outside ASCII: the path `C:\éé\` is cut to `C:\é\`
in a buffer of 20 bytes, reported as success. -/
theorem temp_dir_cuts :
    tempDir (List.replicate 20 7) 20 (.path (text 2 [67, 58, 92, 0xE9, 0xE9, 92])) =
      .ok (true, 7, [67, 58, 92, 0xC3, 0xA9, 92, 0, 7, 7, 7, 7, 7, 7, 7, 7, 7, 7, 7, 7, 7]) := by
  decide

/-- C82 fails for `GetTempStorageDir` if the path has more than 8191 units: the array is used although nothing
was written to it. -/
theorem temp_dir_too_long (b : List Nat) (z2 n : Nat) (hb : z2 ≤ b.length) :
    tempDir b z2 (.tooLong n) = .error .uninit := by
  unfold tempDir
  obtain ⟨b1, h1, _⟩ := clear_ok b z2 hb
  rw [h1, ok_bind]

example : tempDir [7, 7, 7, 7] 4 (.tooLong 9000) = .error .uninit := by decide

/-! ## C83 -/

theorem pushAll_append (max : Nat) : ∀ (L1 L2 : List Nat) (d d' : D), pushAll L1 d max = .ok d' →
    pushAll (L1 ++ L2) d max = pushAll L2 d' max
  | [], L2, d, d', h => by
    cases h
    rfl
  | c :: L1, L2, d, d', h => by
    rw [pushAll] at h
    rw [List.cons_append, pushAll]
    cases ha : appendUTF8 c d max with
    | error e => rw [ha] at h; cases h
    | ok r =>
      rw [ha, ok_bind] at h
      rw [ok_bind]
      exact pushAll_append max L1 L2 r.2 d' h

theorem push_nul (b u : List Nat) (max : Nat) (hb : max ≤ b.length) (hu : u.length ≤ max) :
    ∃ b', b'.length = b.length ∧
      pushAll [0] (stored b 0 u) max = .ok ⟨some b', if u.length < max then u.length + 1 else u.length⟩ ∧
      (u.length < max → Holds b' u) := by
  have hv : Valid 0 := by decide
  have hst : stored b 0 u = ⟨some (u ++ b.drop u.length), u.length⟩ := stored_zero b u
  have hl : (u ++ b.drop u.length).length = b.length := by simp; omega
  rw [hst, pushAll, appendUTF8_valid _ _ hv (fun e => absurd e.2 (by decide))]
  rw [show enc8 0 = [0] from rfl]
  by_cases h : u.length < max
  · rw [store_fit _ _ _ _ (by simp) (by simp; omega) (by omega), ok_bind]
    rw [if_pos h]
    refine ⟨u ++ 0 :: (b.drop u.length).drop 1, ?_, ?_, fun _ => ⟨_, rfl⟩⟩
    · simp; omega
    · simp [pushAll]
  · rw [store_full _ _ _ _ (by simp) (by simp; omega), ok_bind, if_neg h]
    exact ⟨_, hl, rfl, fun e => absurd e h⟩

theorem text_append (w : Nat) (L1 L2 : List Nat) : text w (L1 ++ L2) = text w L1 ++ text w L2 := by
  simp [text]

/-- C83, the part that holds: for every path of the executable of fewer than 8191 units and every buffer of at
least the stated size there is no access outside the buffer and the path is delivered in UTF-8, in the sense
of `Delivers`, if its UTF-8 form fits or it has only characters below U+0800.  Missing: longer
characters in a path that does not fit (`exe_name_drops_character`), and a failing
`GetModuleFileNameW` (`exe_name_of_failure`). -/
theorem exe_name_partial (cps b : List Nat) (z2 : Nat) (hp : PathText cps) (hn : (text 2 cps).length < 8191)
    (hb : z2 ≤ b.length) (hf : (text 1 cps).length ≤ z2 ∨ ∀ c ∈ cps, c < 0x800) :
    Delivers z2 b (text 1 cps) (exeName b z2 (text 2 cps)) := by
  obtain ⟨hg, c, hc, ha⟩ := hp
  have hne : cps ≠ [] := by rintro rfl; cases hc
  unfold exeName
  obtain ⟨b1, h1, h2⟩ := clear_ok b z2 hb
  rw [h1, ok_bind, if_neg (by omega)]
  have hcv := convertTo_push (text 2 (cps ++ [0])) 2 (some b1) z2 none
  have hval : ∀ e ∈ cps ++ [0], Valid e := by
    intro e he
    rcases List.mem_append.1 he with he | he
    · exact hg.1 e he
    · simp only [List.mem_singleton] at he; subst he; decide
  rw [codes_text 2 (by simp) _ hval, text_append, show text 2 [0] = [0] from rfl] at hcv
  rcases Nat.eq_zero_or_pos z2 with rfl | h0
  · obtain ⟨kept, lp', _, k2, k3⟩ := convert_to_safe (text 2 cps ++ [0]) 2 b1 0 none (Nat.zero_le _)
    have k4 : text 1 kept = [] := List.eq_nil_of_length_eq_zero (by omega)
    rw [k3, k4, ok_bind]
    exact ⟨false, 0, b1, rfl, h2, ⟨(fun h => nomatch h), fun h => by omega⟩, (fun h => nomatch h), fun _ => rfl⟩
  · -- the path without the terminator
    obtain ⟨u, u2, u3, u4⟩ : ∃ u : List Nat, u.length ≤ z2 ∧
        pushAll cps ⟨some b1, 0⟩ z2 = .ok (stored b1 0 u) ∧
        (u = text 1 cps ∨ (z2 ≤ u.length + 1 ∧ z2 < (text 1 cps).length)) := by
      by_cases hle : (text 1 cps).length ≤ z2
      · have := pushAll_fit z2 cps b1 0 (by rw [accepted_good hg]; omega) (by omega)
        rw [accepted_good hg] at this
        exact ⟨_, hle, this, .inl rfl⟩
      · obtain ⟨kept, _, k2, k3, k4⟩ := push_small z2 cps b1 0 (by omega) (by omega)
          (fun c hc => ⟨hg.1 c hc, hf.resolve_left hle c hc⟩) (fun _ => hg.2) (by omega)
        exact ⟨_, by omega, k4, .inr ⟨by omega, by omega⟩⟩
    obtain ⟨b2, n1, n2, n3⟩ := push_nul b1 u z2 (by omega) u2
    obtain ⟨lp', h⟩ := hcv _ (by rw [pushAll_append _ _ _ _ _ u3, n2])
    rw [h, ok_bind]
    simp only [bufOf, ok_bind]
    by_cases hz : u.length + 1 < z2
    · have hu : u = text 1 cps := u4.resolve_right (by omega)
      rw [if_pos (show u.length < z2 by omega), if_neg (by omega), ← hu]
      exact ⟨_, _, _, rfl, by omega, ⟨fun _ => hz, fun _ => rfl⟩, fun _ => ⟨rfl, n3 (by omega)⟩, (fun h => nomatch h)⟩
    · rw [if_pos (by split <;> omega)]
      refine ⟨_, _, _, rfl, by omega, ⟨(fun h => nomatch h), fun h => ?_⟩, (fun h => nomatch h), fun _ => rfl⟩
      exfalso
      rcases u4 with rfl | ⟨_, h4⟩ <;> omega

/-- `C:\é`: six bytes with the terminator, so a buffer of seven is needed. -/
example : exeName (List.replicate 7 7) 7 (text 2 [67, 58, 92, 0xE9]) = .ok (true, 6, [67, 58, 92, 0xC3, 0xA9, 0, 7]) ∧
    exeName (List.replicate 6 7) 6 (text 2 [67, 58, 92, 0xE9]) = .ok (false, 0, [67, 58, 92, 0xC3, 0xA9, 0]) := by
  decide

/-- C83: a path that fills the array is refused. -/
theorem exe_name_too_long (b : List Nat) (z2 : Nat) (name : List Nat) (hb : z2 ≤ b.length)
    (hn : 8191 ≤ name.length) : ∃ b', exeName b z2 name = .ok (false, 0, b') ∧ b'.length = b.length := by
  unfold exeName
  obtain ⟨b1, h1, h2⟩ := clear_ok b z2 hb
  rw [h1, ok_bind, if_pos (by omega)]
  exact ⟨b1, rfl, h2⟩

example : ∃ b', exeName [7, 7] 2 (List.replicate 8192 65) = .ok (false, 0, b') ∧ b'.length = 2 :=
  exe_name_too_long [7, 7] 2 _ (by decide) (by rw [List.length_replicate]; omega)

/-- C83 fails if `GetModuleFileNameW` fails: the call succeeds, with an empty name, for every buffer of two or
more bytes. -/
theorem exe_name_of_failure (b : List Nat) (z2 : Nat) (h2 : 2 ≤ z2) (hb : z2 ≤ b.length) :
    ∃ b', exeName b z2 [] = .ok (true, 1, b') ∧ Holds b' [] := by
  unfold exeName
  obtain ⟨b1, h1, h3⟩ := clear_ok b z2 hb
  rw [h1, ok_bind, if_neg (by simp)]
  have hst : stored b1 0 [] = ⟨some b1, 0⟩ := by rw [stored_zero]; rfl
  obtain ⟨b2, n1, n2, n3⟩ := push_nul b1 [] z2 (by omega) (Nat.zero_le _)
  rw [hst] at n2
  obtain ⟨lp', h⟩ := convertTo_push [0] 2 (some b1) z2 none _ n2
  rw [List.nil_append, h, ok_bind]
  simp only [bufOf, ok_bind, List.length_nil]
  rw [if_pos (show 0 < z2 by omega), if_neg (by omega)]
  exact ⟨b2, rfl, n3 (by simp; omega)⟩

example : exeName [7, 7, 7] 3 [] = .ok (true, 1, [0, 7, 7]) := by decide

/-- C83 fails for a path that does not fit and has a long character: `C:\日` in a buffer of five bytes gives
`C:\`, reported as success. -/
theorem exe_name_drops_character :
    exeName (List.replicate 5 7) 5 (text 2 [67, 58, 92, 0x65E5]) = .ok (true, 4, [67, 58, 92, 0, 7]) ∧
    ¬ Delivers 5 (List.replicate 5 7) (text 1 [67, 58, 92, 0x65E5])
      (exeName (List.replicate 5 7) 5 (text 2 [67, 58, 92, 0x65E5])) := by
  have e : exeName (List.replicate 5 7) 5 (text 2 [67, 58, 92, 0x65E5]) = .ok (true, 4, [67, 58, 92, 0, 7]) := by
    decide
  refine ⟨e, ?_⟩
  rintro ⟨ok, z, b', h1, _, h3, _⟩
  rw [e] at h1
  simp only [Except.ok.injEq, Prod.mk.injEq] at h1
  obtain ⟨rfl, _⟩ := h1
  exact absurd (h3.1 rfl) (by decide)

end Verif.WinAppInfo
