import Verif.WinPath.Whole

/-!
# C84: `GetPlatformFilename` on Windows
-/

namespace Verif.WinPath
open Spec Verif.Utf8.Spec

theorem ascii_text (f : List Nat) (ha : ∀ c ∈ f, c < 0x80) : ∃ cps, GoodText cps ∧ f = text 1 cps := by
  refine ⟨f, ⟨?_, ?_⟩, ?_⟩
  · intro c hc
    have := ha c hc
    unfold Valid
    omega
  · intro c hc
    have := ha c (List.mem_of_mem_head? hc)
    unfold Combining
    omega
  · induction f with
    | nil => rfl
    | cons c f ih =>
      rw [Utf8.text1_cons, ← ih (fun x hx => ha x (List.mem_cons_of_mem _ hx))]
      have := ha c List.mem_cons_self
      unfold enc8
      rw [if_pos this]
      rfl

theorem canon_ascii {f : List Nat} (ha : ∀ c ∈ f, c < 0x80) : ∀ c ∈ canon f, c < 0x80 := by
  have hb : ∀ c ∈ backed f, c < 0x80 := by
    intro c hc
    obtain ⟨d, hd, rfl⟩ := List.mem_map.1 hc
    have := ha d hd
    split <;> omega
  rw [canon_backed]
  split
  · intro c hc
    rcases List.mem_append.1 hc with hc | hc
    · have : ∀ c ∈ uni, c < 0x80 := by decide
      exact this c hc
    · exact hb c (List.mem_of_mem_drop hc)
  · exact hb

/-- C84 (partial), where `char` is unsigned.  The name is accepted exactly if it is not empty, fits, is UTF-8
text and, with slashes as backslashes, either is the path of a device and these are allowed, or has neither
forbidden characters nor names of devices and its form for the system fits.  The result is that form.
Missing: buffers of exactly the length of the name plus four or six (`win_name_overruns`), volumes
(`win_name_volume`, `win_name_bare_volume`), and a name of a device directly after a prefix or a drive
letter (`win_name_reserved`). -/
theorem win_name_partial (reg : List Nat → Option Nat) (f rest buf : List Nat) (size : Nat) (allow : Bool)
    (h0 : 0 ∉ f) (hs : size ≤ buf.length) (hv : ¬ vol <+: canon f) (hv2 : ¬ uni ++ vol <+: canon f)
    (h4 : size ≠ f.length + 4) (h6 : size ≠ f.length + 6)
    (hr : ∀ g, (pieces (body (canon f))).head? = some g → Reserved (stem g) → body (canon f) = canon f) :
    ∃ ok r, getPlatform false reg buf size (f ++ 0 :: rest) allow = .ok (ok, r) ∧ r.length = buf.length ∧
      (ok = true ↔ f ≠ [] ∧ f.length + 1 ≤ size ∧ (∃ cps, GoodText cps ∧ f = text 1 cps) ∧
        if Device (canon f) then allow = true
        else Acceptable (canon f) ∧ (normal (canon f)).length + 1 ≤ size) ∧
      (ok = true → Holds r (if Device (canon f) then canon f else normal (canon f))) := by
  obtain ⟨ok, r, e1, e2, e3, e4⟩ := getPlatform_ok false reg f rest buf size allow h0 hs hv h4 h6
  rw [codeNormal_eq _ hv2, codeAccepts_iff false _ (fun h => nomatch h) hr] at e3
  rw [codeNormal_eq _ hv2] at e4
  exact ⟨ok, r, e1, e2, e3, e4⟩

/-- C84 (partial): the same for names of ASCII characters, whether or not `char` is signed. -/
theorem win_name_ascii_partial (sgn : Bool) (reg : List Nat → Option Nat) (f rest buf : List Nat) (size : Nat) (allow : Bool)
    (h0 : 0 ∉ f) (hs : size ≤ buf.length) (hv : ¬ vol <+: canon f) (hv2 : ¬ uni ++ vol <+: canon f)
    (h4 : size ≠ f.length + 4) (h6 : size ≠ f.length + 6)
    (hr : ∀ g, (pieces (body (canon f))).head? = some g → Reserved (stem g) → body (canon f) = canon f)
    (ha : ∀ c ∈ f, c < 0x80) :
    ∃ ok r, getPlatform sgn reg buf size (f ++ 0 :: rest) allow = .ok (ok, r) ∧ r.length = buf.length ∧
      (ok = true ↔ f ≠ [] ∧ f.length + 1 ≤ size ∧
        if Device (canon f) then allow = true
        else Acceptable (canon f) ∧ (normal (canon f)).length + 1 ≤ size) ∧
      (ok = true → Holds r (if Device (canon f) then canon f else normal (canon f))) := by
  obtain ⟨ok, r, e1, e2, e3, e4⟩ := getPlatform_ok sgn reg f rest buf size allow h0 hs hv h4 h6
  rw [codeNormal_eq _ hv2, codeAccepts_iff sgn _ (fun _ => canon_ascii ha) hr] at e3
  rw [codeNormal_eq _ hv2] at e4
  refine ⟨ok, r, e1, e2, e3.trans ⟨fun h => ⟨h.1, h.2.1, h.2.2.2⟩, fun h => ⟨h.1, h.2.1, ascii_text f ha, h.2.2⟩⟩, e4⟩

/-- `c:/a.b` becomes `\\?\C:\a.b`. -/
example : getPlatform true (fun _ => none) (List.replicate 20 7) 20 [99, 58, 47, 97, 46, 98, 0] false =
      .ok (true, [92, 92, 63, 92, 67, 58, 92, 97, 46, 98, 0, 7, 7, 7, 7, 7, 7, 7, 7, 7]) ∧
    normal (canon [99, 58, 47, 97, 46, 98]) = [92, 92, 63, 92, 67, 58, 92, 97, 46, 98] ∧
    pieces (body (canon [99, 58, 47, 97, 46, 98])) = [[], [97, 46, 98]] := by decide

/-- `//h/s` becomes `\\?\UNC\h\s`. -/
example : getPlatform true (fun _ => none) (List.replicate 12 7) 12 [47, 47, 104, 47, 115, 0] false =
      .ok (true, [92, 92, 63, 92, 85, 78, 67, 92, 104, 92, 115, 0]) ∧
    normal (canon [47, 47, 104, 47, 115]) = [92, 92, 63, 92, 85, 78, 67, 92, 104, 92, 115] := by decide

/-- `a\nul.txt` is refused, `//./x` is refused unless unsafe names are allowed. -/
example : getPlatform true (fun _ => none) (List.replicate 12 7) 12 [97, 92, 110, 117, 108, 46, 116, 0] false =
      .ok (false, [97, 92, 110, 117, 108, 46, 116, 0, 7, 7, 7, 7]) ∧
    getPlatform true (fun _ => none) (List.replicate 8 7) 8 [47, 47, 46, 47, 120, 0] false =
      .ok (false, [92, 92, 46, 92, 120, 0, 7, 7]) ∧
    getPlatform true (fun _ => none) (List.replicate 8 7) 8 [47, 47, 46, 47, 120, 0] true =
      .ok (true, [92, 92, 46, 92, 120, 0, 7, 7]) := by decide

/-- Negation: if a prefix is to be added and the buffer is one byte too small for the result, the function does
not refuse the name but writes behind the buffer. -/
theorem win_name_overruns (reg : List Nat → Option Nat) (f rest buf : List Nat) (allow : Bool)
    (h0 : 0 ∉ f) (hv : ¬ vol <+: canon f) (hv2 : ¬ uni ++ vol <+: canon f)
    (ht : ∃ cps, GoodText cps ∧ f = text 1 cps) (hd : ¬ Device (canon f)) (ha : Acceptable (canon f))
    (hp : (normal (canon f)).length ≠ (canon f).length) (hb : buf.length = (normal (canon f)).length) :
    getPlatform false reg buf buf.length (f ++ 0 :: rest) allow = .error .oobWrite := by
  have hcl := canon_len f
  have hacc : CodeAccepts false (canon f) := by
    refine ⟨fun c hc => ?_, ?_⟩
    · cases hx : rejected false c with
      | false => rfl
      | true =>
        rcases (rejected_iff false c).1 hx with hf | ⟨hs, _⟩
        · exact absurd hf (ha.1 c hc)
        · cases hs
    · split
      · exact ha.2
      · exact fun g hg => ha.2 g (List.mem_of_mem_tail hg)
  have hne : f ≠ [] := by
    rintro rfl
    exact hp rfl
  rw [← codeNormal_eq _ hv2] at hp hb
  have hll := lifted_len (canon f)
  have key : ∀ rest', (lifted (canon f) ++ 0 :: rest').length = (codeNormal (canon f)).length →
      f.length + 1 ≤ buf.length ∧
      prefixes reg (canon f).length buf.length (decide (Drive ((canon f).drop (root (canon f))) ∨ vol <+: canon f)) (decide (Begins unc (canon f)))
        (decide (Begins unc (canon f) ∨ uni <+: canon f)) (lifted (canon f) ++ 0 :: rest') = .error .oobWrite := by
    intro rest' hr
    rw [← hcl]
    generalize canon f = s at *
    have hrl : s.length + 1 + rest'.length = (codeNormal s).length := by simp at hr; omega
    unfold codeNormal at hp hb hrl
    unfold prefixes
    by_cases hu : Begins unc s
    · rw [if_pos hu] at hp
      have := root_le s
      unfold root at this
      rw [if_pos hu] at this
      rw [List.length_append, upper_len, List.length_take, List.length_drop] at hp
      omega
    rw [if_neg hu] at hp hb hrl
    rw [decide_eq_false hu]
    by_cases hn : uni <+: s
    · have hroot : root s = 4 := by unfold root; rw [if_neg hu, if_pos hn]
      obtain ⟨t, rfl⟩ := hn
      have hl : lifted (uni ++ t) = uni ++ upperDrive t := by
        unfold lifted
        rw [hroot]
        rfl
      have hd4 : (uni ++ t).drop 4 = t := rfl
      rw [if_pos (List.prefix_append _ _)] at hp hb hrl
      rw [decide_eq_true (show Begins unc (uni ++ t) ∨ uni <+: uni ++ t from .inr (List.prefix_append _ _)), hl, hroot]
      rw [hd4] at hp hb hrl ⊢
      by_cases hdr : Drive t
      · rw [if_pos hdr, List.length_append, upper_len] at hp
        simp at hp
      · rw [if_neg hdr] at hp hb hrl
        have hup : upperDrive t = t := by unfold upperDrive; rw [if_neg hdr]
        rw [decide_eq_false (show ¬ (Drive t ∨ vol <+: uni ++ t) by rintro (h | h); exact hdr h; exact hv h), hup]
        simp only [Bool.not_false, Bool.false_eq_true, if_false, if_true]
        have hl4 : (unc ++ t).length = (uni ++ t).length + 4 := by simp [unc, uni]
        rw [if_neg (by omega)]
        refine ⟨by omega, ?_⟩
        have := (unc_ok t rest').2 (by omega)
        rw [← bind_assoc, this]
        rfl
    · have hroot : root s = 0 := by unfold root; rw [if_neg hu, if_neg hn]
      have hl : lifted s = upperDrive s := by
        unfold lifted
        rw [hroot]
        rfl
      rw [if_neg hn] at hp hb hrl
      rw [decide_eq_false (show ¬ (Begins unc s ∨ uni <+: s) by rintro (h | h); exact hu h; exact hn h)]
      rw [hroot, List.drop_zero, hl]
      have hul := upper_len s
      by_cases hdr : Drive s
      · rw [if_pos hdr, List.length_append, hul] at hp hb hrl
        rw [decide_eq_true (.inl hdr)]
        simp only [Bool.not_false, if_true]
        simp only [uni, List.length_cons, List.length_nil] at hb hrl
        rw [if_neg (by omega)]
        refine ⟨by omega, ?_⟩
        have := (up_ok (upperDrive s) rest').2 (by omega)
        rw [← hul, ← bind_assoc, this]
        rfl
      · have hup : upperDrive s = s := by unfold upperDrive; rw [if_neg hdr]
        rw [if_neg hdr] at hp hb hrl
        rw [decide_eq_false (show ¬ (Drive s ∨ vol <+: s) by rintro (h | h); exact hdr h; exact hv h), hup]
        simp only [Bool.not_false, Bool.false_eq_true, if_false, if_true]
        rw [at_ok s rest' _ 0 (by decide) (Nat.zero_le _), ok_bind, List.drop_zero]
        by_cases hnet : [92, 92] <+: s
        · obtain ⟨t, rfl⟩ := hnet
          rw [if_pos (List.prefix_append _ _)] at hp hb hrl
          rw [decide_eq_true (List.prefix_append _ _), if_pos rfl]
          have hl6 : (unc ++ ([92, 92] ++ t).drop 2).length = ([92, 92] ++ t).length + 6 := by simp [unc]
          rw [if_neg (by omega)]
          refine ⟨by omega, ?_⟩
          have := (net_ok t rest').2 (by omega)
          rw [← bind_assoc, this]
          rfl
        · rw [if_neg hnet] at hp
          exact absurd rfl hp
  have hlong : (lifted (canon f) ++ 0 :: (buf.drop (f.length + 1))).length = (codeNormal (canon f)).length := by
    have : (canon f).length < (codeNormal (canon f)).length := by
      have h1 : (canon f).length ≤ (codeNormal (canon f)).length := by
        unfold codeNormal
        generalize canon f = s
        split
        · rw [List.length_append, upper_len, List.length_take, List.length_drop]; omega
        · split
          · next h =>
            obtain ⟨t, rfl⟩ := h
            split
            · simp only [List.length_append, upper_len]
              rw [show (uni ++ t).drop 4 = t from rfl]
              exact Nat.le_refl _
            · rw [show (uni ++ t).drop 4 = t from rfl]
              simp [unc, uni]
          · split
            · rw [List.length_append, upper_len]; omega
            · split
              · simp [unc]; omega
              · omega
      omega
    rw [List.length_append, List.length_cons, List.length_drop]
    omega
  obtain ⟨hf1, hpre⟩ := key _ hlong
  rw [(getPlatform_upto false reg f rest buf buf.length allow h0 (Nat.le_refl _)).2 ⟨hne, hf1, ht⟩]
  have hbl : (backed f).length = f.length := by simp [backed]
  have := (checkName_upto false reg buf.length (backed f) (buf.drop (f.length + 1)) allow (canon f) (canon_backed f)).2.2 hd hacc
  rw [hbl] at this
  rw [this, hpre]

/-- `C:a` with a buffer of seven bytes. -/
example : getPlatform false (fun _ => none) (List.replicate 7 7) 7 [67, 58, 97, 0] false = .error .oobWrite ∧
    normal (canon [67, 58, 97]) = [92, 92, 63, 92, 67, 58, 97] := by decide

/-- Negation: a volume given with the prefix `\\?\` is taken for a network path, the result has `\\?\UNC\` before
`Volume{`. -/
theorem win_name_volume (sgn : Bool) (reg : List Nat → Option Nat) (t rest buf : List Nat) (size : Nat) (allow : Bool)
    (h0 : 0 ∉ t) (ha : ∀ c ∈ t, c < 0x80) (h47 : 47 ∉ t) (hs : size ≤ buf.length) (hacc : Acceptable (uni ++ vol ++ t))
    (h4 : 16 + t.length ≤ size) (h6 : size ≠ t.length + 17) :
    ∃ r, getPlatform sgn reg buf size (uni ++ vol ++ t ++ 0 :: rest) allow = .ok (true, r) ∧ Holds r (unc ++ vol ++ t) := by
  have hb : backed (uni ++ vol ++ t) = uni ++ vol ++ t := by
    unfold backed
    rw [List.map_append]
    congr 1
    conv => rhs; rw [← List.map_id t]
    apply List.map_congr_left
    intro c hc
    rw [if_neg (fun e : c = 47 => h47 (e ▸ hc))]
    rfl
  have hc : canon (uni ++ vol ++ t) = uni ++ vol ++ t := by
    rw [canon_backed, hb, if_neg]
    simp [preNt, uni]
  have hl : (uni ++ vol ++ t).length = t.length + 11 := by simp [uni, vol]
  have hnd : ¬ Drive (vol ++ t) := by simp [vol, Drive]
  have hnu : ¬ Begins unc (uni ++ vol ++ t) := by simp [Begins, unc, uni, vol, fold]
  have hdev : ¬ Device (uni ++ vol ++ t) := by
    rintro (h | h)
    · simp [Begins, uni, vol, fold] at h
    · simp [uni] at h
  have hcn : codeNormal (uni ++ vol ++ t) = unc ++ vol ++ t := by
    unfold codeNormal
    rw [if_neg hnu, if_pos (by simp), show (uni ++ vol ++ t).drop 4 = vol ++ t from rfl, if_neg hnd, List.append_assoc]
  have hbody : body (uni ++ vol ++ t) = vol ++ t := by
    unfold body
    rw [if_neg hnu, if_pos (by simp), show (uni ++ vol ++ t).drop 4 = vol ++ t from rfl]
    unfold afterDrive
    rw [if_neg hnd]
  have hall : ∀ c ∈ uni ++ vol ++ t, c < 0x80 := by
    intro c hc
    rcases List.mem_append.1 hc with hc | hc
    · have : ∀ c ∈ uni ++ vol, c < 0x80 := by decide
      exact this c hc
    · exact ha c hc
  have hz : 0 ∉ uni ++ vol ++ t := by
    intro h
    rcases List.mem_append.1 h with h | h
    · exact absurd h (by decide)
    · exact h0 h
  have hcode : CodeAccepts sgn (uni ++ vol ++ t) := by
    refine ⟨fun c hc => ?_, ?_⟩
    · cases hx : rejected sgn c with
      | false => rfl
      | true =>
        rcases (rejected_iff sgn c).1 hx with hf | ⟨_, hf⟩
        · exact absurd hf (hacc.1 c hc)
        · rw [hbody] at hc
          have := hall c (by rw [List.append_assoc]; exact List.mem_append_right _ hc)
          omega
    · split
      · exact hacc.2
      · exact fun g hg => hacc.2 g (List.mem_of_mem_tail hg)
  obtain ⟨ok, r, e1, e2, e3, e4⟩ := getPlatform_ok sgn reg (uni ++ vol ++ t) rest buf size allow hz hs
    (by rw [hc]; simp [uni, vol]) (by omega) (by omega)
  rw [hc, if_neg hdev, hcn] at e3 e4
  have hul : (unc ++ vol ++ t).length = t.length + 15 := by simp [unc, vol]
  have : ok = true := e3.2 ⟨by simp [uni], by omega, ascii_text _ hall, hcode, by omega⟩
  subst this
  exact ⟨r, e1, e4 rfl⟩

/-- `\\?\Volume{1}\a` becomes `\\?\UNC\Volume{1}\a`. -/
example : Acceptable (uni ++ vol ++ [49, 125, 92, 97]) ∧
    normal (uni ++ vol ++ [49, 125, 92, 97]) = uni ++ vol ++ [49, 125, 92, 97] := by
  have hb : body (uni ++ vol ++ [49, 125, 92, 97]) = [86, 111, 108, 117, 109, 101, 123, 49, 125, 92, 97] := by decide
  refine ⟨?_, by decide⟩
  unfold Acceptable
  rw [hb, show pieces [86, 111, 108, 117, 109, 101, 123, 49, 125, 92, 97] = [[86, 111, 108, 117, 109, 101, 123, 49, 125], [97]] by decide]
  refine ⟨by simp [Forbidden], ?_⟩
  intro g hg hr
  rcases List.mem_cons.1 hg with rfl | hg
  · rw [stem_plain _ (by decide)] at hr
    rcases hr with h | h | h | h | h | ⟨d, _, _, h | h⟩ <;> exact absurd (same_len h) (by simp)
  · rcases List.mem_singleton.1 hg with rfl
    rw [stem_plain _ (by decide)] at hr
    rcases hr with h | h | h | h | h | ⟨d, _, _, h | h⟩ <;> exact absurd (same_len h) (by simp)

/-- Negation: directly after a drive letter a name of a device is accepted. -/
theorem win_name_reserved (sgn : Bool) (reg : List Nat → Option Nat) (c : Nat) (w rest buf : List Nat) (size : Nat) (allow : Bool)
    (hc : 65 ≤ c ∧ c ≤ 90) (hw : Reserved w) (hb : size ≤ buf.length) (hs : w.length + 7 ≤ size) (h6 : size ≠ w.length + 8) :
    ¬ Acceptable (c :: 58 :: w) ∧
    ∃ r, getPlatform sgn reg buf size (c :: 58 :: w ++ 0 :: rest) allow = .ok (true, r) ∧ Holds r (uni ++ c :: 58 :: w) := by
  have hchars : ∀ e ∈ w, e ≠ 47 ∧ e ≠ 0 ∧ e ≠ 46 ∧ e < 0x80 ∧ ¬ Forbidden e ∧ e ≠ 92 := by
    intro e he
    have key : ∀ n : List Nat, Same w n → (∀ x ∈ n.map fold, x = 36 ∨ (48 ≤ x ∧ x ≤ 57) ∨ (97 ≤ x ∧ x ≤ 122)) →
        e ≠ 47 ∧ e ≠ 0 ∧ e ≠ 46 ∧ e < 0x80 ∧ ¬ Forbidden e ∧ e ≠ 92 := by
      intro n hn h
      have h1 : fold e ∈ n.map fold := by rw [← hn]; exact List.mem_map_of_mem he
      have h2 := h _ h1
      unfold fold at h2
      unfold Forbidden
      split at h2 <;> omega
    rcases hw with h | h | h | h | h | ⟨d, h1, h2, h | h⟩
    · exact key _ h (by decide)
    · exact key _ h (by decide)
    · exact key _ h (by decide)
    · exact key _ h (by decide)
    · exact key _ h (by decide)
    · refine key _ h ?_
      intro x hx
      simp only [List.map_cons, List.map_nil, List.mem_cons, List.not_mem_nil, or_false] at hx
      rcases hx with rfl | rfl | rfl | rfl
      · decide
      · decide
      · decide
      · unfold fold; split <;> omega
    · refine key _ h ?_
      intro x hx
      simp only [List.map_cons, List.map_nil, List.mem_cons, List.not_mem_nil, or_false] at hx
      rcases hx with rfl | rfl | rfl | rfl
      · decide
      · decide
      · decide
      · unfold fold; split <;> omega
  have hb1 : backed (c :: 58 :: w) = c :: 58 :: w := by
    unfold backed
    conv => rhs; rw [← List.map_id (c :: 58 :: w)]
    apply List.map_congr_left
    intro e he
    have : e ≠ 47 := by
      rcases List.mem_cons.1 he with rfl | he
      · omega
      · rcases List.mem_cons.1 he with rfl | he
        · decide
        · exact (hchars e he).1
    rw [if_neg this]
    rfl
  have hcan : canon (c :: 58 :: w) = c :: 58 :: w := by
    rw [canon_backed, hb1, if_neg]
    simp [preNt]
  have hdrive : Drive (c :: 58 :: w) := ⟨.inl hc, rfl⟩
  have hnu : ¬ Begins unc (c :: 58 :: w) := by
    intro h
    have := (List.cons_prefix_cons.1 h).1
    simp only [fold] at this
    split at this <;> omega
  have hnn : ¬ uni <+: c :: 58 :: w := by
    intro h
    have := (List.cons_prefix_cons.1 h).1
    omega
  have hdev : ¬ Device (c :: 58 :: w) := by
    rintro (h | h)
    · have := (List.cons_prefix_cons.1 h).1
      simp only [fold] at this
      split at this <;> omega
    · have := (List.cons_prefix_cons.1 h).1
      omega
  have hbody : body (c :: 58 :: w) = w := by
    unfold body afterDrive
    rw [if_neg hnu, if_neg hnn, if_pos hdrive]
    rfl
  have hpieces : pieces w = [w] := by
    have := pieces_append w [] [] [] (fun h => (hchars 92 h).2.2.2.2.2 rfl) rfl
    simpa using this
  have hcn : codeNormal (c :: 58 :: w) = uni ++ c :: 58 :: w := by
    unfold codeNormal upperDrive
    rw [if_neg hnu, if_neg hnn, if_pos hdrive, if_pos hdrive]
    rw [upperFirst, if_neg (by omega)]
  refine ⟨fun h => ?_, ?_⟩
  · have := h.2 w (by rw [hbody, hpieces]; simp)
    rw [stem_plain w (fun h => (hchars 46 h).2.2.1 rfl)] at this
    exact this hw
  have hstart : start (c :: 58 :: w) ≠ 0 := by
    unfold start
    have : root (c :: 58 :: w) = 0 := by unfold root; rw [if_neg hnu, if_neg hnn]
    rw [this, List.drop_zero, if_pos hdrive]
    decide
  have hcode : CodeAccepts sgn (c :: 58 :: w) := by
    refine ⟨fun e he => ?_, ?_⟩
    · rw [hbody] at he
      cases hx : rejected sgn e with
      | false => rfl
      | true =>
        rcases (rejected_iff sgn e).1 hx with hf | ⟨_, hf⟩
        · exact absurd hf (hchars e he).2.2.2.2.1
        · have := (hchars e he).2.2.2.1; omega
    · rw [if_neg hstart, hbody, hpieces]
      simp
  have hz : 0 ∉ c :: 58 :: w := by
    simp only [List.mem_cons, not_or]
    exact ⟨by omega, by omega, fun h => (hchars 0 h).2.1 rfl⟩
  have hall : ∀ e ∈ c :: 58 :: w, e < 0x80 := by
    intro e he
    rcases List.mem_cons.1 he with rfl | he
    · omega
    · rcases List.mem_cons.1 he with rfl | he
      · decide
      · exact (hchars e he).2.2.2.1
  have hl : (c :: 58 :: w).length = w.length + 2 := rfl
  obtain ⟨ok, r, e1, e2, e3, e4⟩ := getPlatform_ok sgn reg (c :: 58 :: w) rest buf size allow hz hb
    (by
      rw [hcan]
      intro h
      have := (List.cons_prefix_cons.1 (List.cons_prefix_cons.1 h).2).1
      omega) (by omega) (by omega)
  rw [hcan, if_neg hdev, hcn] at e3 e4
  have : ok = true := e3.2 ⟨by simp, by omega, ascii_text _ hall, hcode, by simp [uni]; omega⟩
  subst this
  exact ⟨r, e1, e4 rfl⟩

/-- `C:nul`. -/
example : Reserved [110, 117, 108] ∧ getPlatform true (fun _ => none) (List.replicate 10 7) 10 [67, 58, 110, 117, 108, 0] false =
    .ok (true, [92, 92, 63, 92, 67, 58, 110, 117, 108, 0]) := ⟨.inl rfl, by decide⟩

/-- Negation where `char` is signed: a name with a character beyond ASCII after the prefix is refused. -/
theorem win_name_non_ascii (reg : List Nat → Option Nat) (f rest buf : List Nat) (size : Nat) (allow : Bool)
    (h0 : 0 ∉ f) (hs : size ≤ buf.length) (hd : ¬ Device (canon f)) (c : Nat) (hc : c ∈ body (canon f)) (h80 : 0x80 ≤ c) :
    ∃ r, getPlatform true reg buf size (f ++ 0 :: rest) allow = .ok (false, r) := by
  obtain ⟨hbad, hgood⟩ := getPlatform_upto true reg f rest buf size allow h0 hs
  by_cases ht : f ≠ [] ∧ f.length + 1 ≤ size ∧ ∃ cps, GoodText cps ∧ f = text 1 cps
  · rw [hgood ht]
    have hbl : (backed f).length = f.length := by simp [backed]
    have := (checkName_upto true reg size (backed f) (buf.drop (f.length + 1)) allow (canon f) (canon_backed f)).2.1 hd
      (fun h => by
        have h1 := h.1 c hc
        have h2 := (rejected_iff true c).2 (.inr ⟨rfl, h80⟩)
        rw [h1] at h2
        cases h2)
    rw [hbl] at this
    exact ⟨_, this⟩
  · obtain ⟨r, e1, e2⟩ := hbad ht
    exact ⟨r, e1⟩

/-- "é" -/
example : getPlatform true (fun _ => none) (List.replicate 4 7) 4 [0xC3, 0xA9, 0] false = .ok (false, [0xC3, 0xA9, 0, 7]) ∧
    getPlatform false (fun _ => none) (List.replicate 4 7) 4 [0xC3, 0xA9, 0] false = .ok (true, [0xC3, 0xA9, 0, 7]) ∧
    body (canon [0xC3, 0xA9]) = [0xC3, 0xA9] := by decide

/-- Negation, by a witness: with a volume mapped to the drive D, `Volume{1}\abcd` gives `\\?\D:\ame{1}\abcd`, because four bytes
too few are moved; and `Volume{1}\` reads outside the buffer, because the number of bytes wraps. -/
theorem win_name_bare_volume :
    getPlatform true (fun _ => some 68) (List.replicate 20 7) 20 (vol ++ [49, 125, 92, 97, 98, 99, 100, 0]) false =
      .ok (true, uni ++ [68, 58, 92, 97, 109, 101, 123, 49, 125, 92, 97, 98, 99, 100, 0, 7]) ∧
    getPlatform true (fun _ => some 68) (List.replicate 20 7) 20 (vol ++ [49, 125, 92, 0]) false = .error .oobRead := by
  decide

end Verif.WinPath
