import Verif.WinLink.Spec
import Verif.WinOps.PropsTimes

/-!
# C110: reading links on Windows
-/

namespace Verif.WinLink
open Spec
open Verif.Utf8.Spec
open Verif.Utf8 (convertTo)
open Verif.WinAbs (Fit Accepted)
open Verif.WinOps (text_append wideName_yes wideName_no DWord REPARSE wide_ascii)
open Verif.WinOps.Spec (Wide)
open Verif.WinPath.Spec (Holds canon normal)

theorem decode16_append : ∀ (cps x : List Nat), (∀ c ∈ cps, Valid c) → decode16 (text 2 cps ++ x) = cps ++ decode16 x
  | [], x, _ => rfl
  | c :: cps, x, hv => by
    have ih := decode16_append cps x (fun e he => hv e (List.mem_cons_of_mem _ he))
    obtain ⟨h1, h2, _, _⟩ := hv c List.mem_cons_self
    rw [Utf8.text_cons, List.append_assoc]
    change decode16 (enc16 c ++ _) = _
    unfold enc16
    split
    · rw [List.cons_append, List.nil_append, Utf8.decode16_cons, if_pos (by omega), ih]; rfl
    · rw [List.cons_append, List.cons_append, List.nil_append, Utf8.decode16_cons, if_neg (by omega)]
      dsimp only
      rw [if_pos (by omega), ih, List.cons_append,
        show 0x10000 + (0xD800 + (c - 0x10000) / 1024 - 0xD800) * 1024
          + (0xDC00 + (c - 0x10000) % 1024 - 0xDC00) = c by omega]

theorem decode16_zeros : ∀ n, decode16 (List.replicate n 0) = List.replicate n 0
  | 0 => rfl
  | n + 1 => by rw [List.replicate_succ, Utf8.decode16_cons, if_pos (by omega), decode16_zeros]

theorem enc8_len (c : Nat) : (enc8 c).length ≤ 4 ∧ (c < 0x10000 → (enc8 c).length ≤ 3) := by
  unfold enc8
  repeat' split
  all_goals simp
  all_goals omega

/-- UTF-8 needs at most three bytes for a character of 16 bits. -/
theorem text1_decode : ∀ (n : Nat) (u : List Nat), u.length ≤ n → (∀ x ∈ u, x < 0x10000) → (text 1 (decode16 u)).length ≤ 3 * u.length
  | _, [], _, _ => by simp [decode16, text]
  | 0, _ :: _, h, _ => by simp at h
  | n + 1, a :: r, h, hx => by
    have ha := hx a List.mem_cons_self
    simp only [List.length_cons] at h
    rw [Utf8.decode16_cons]
    split
    · have ih := text1_decode n r (by omega) (fun y hy => hx y (List.mem_cons_of_mem _ hy))
      rw [Utf8.text1_cons, List.length_append]
      have := (enc8_len a).2 ha
      simp only [List.length_cons]
      omega
    · cases r with
      | nil => simp [text]
      | cons v r' =>
        simp only [List.length_cons] at h
        have ih := text1_decode n r' (by omega)
          (fun y hy => hx y (List.mem_cons_of_mem _ (List.mem_cons_of_mem _ hy)))
        dsimp only
        split
        · rw [Utf8.text1_cons, List.length_append]
          have := (enc8_len (0x10000 + (a - 0xD800) * 1024 + (v - 0xDC00))).1
          simp only [List.length_cons]
          omega
        · simp only [List.length_cons]; omega

theorem text1_sublist {a b : List Nat} (h : a.Sublist b) : (text 1 a).length ≤ (text 1 b).length := by
  induction h with
  | slnil => exact Nat.le_refl _
  | cons c _ ih => rw [Utf8.text1_cons, List.length_append]; omega
  | cons_cons c _ ih => rw [Utf8.text1_cons, Utf8.text1_cons, List.length_append, List.length_append]; omega

theorem cap_le (t : Tag) : 8182 ≤ cap t ∧ cap t ≤ 8184 := by cases t <;> decide

theorem cap_start (t : Tag) : Spec.start t + 2 * cap t = 16384 := by cases t <;> decide

theorem pathBuffer_len (r : Reparse) : (pathBuffer r).length = cap r.tag := by
  unfold pathBuffer
  simp

/-- Converting a name that is followed by a zero among the characters read. -/
theorem link_text {r : Reparse} {result rest cps : List Nat} {size : Nat} (hg : GoodText cps)
    (hin : r.off + r.len ≤ cap r.tag) (hroom : 3 * r.len < size) (hs : size ≤ result.length) (hx : ∀ x ∈ r.path, x < 0x10000)
    (h : ((pathBuffer r).drop r.off).take r.len = text 2 cps ++ 0 :: rest) :
    linkUnits r = .ok (text 2 cps ++ 0 :: rest) ∧ ∃ T lp, (text 1 cps ++ 0 :: T).length ≤ 3 * r.len ∧
      convertTo (text 2 cps ++ 0 :: rest) 2 (some result) size none =
        .ok (⟨some (text 1 cps ++ 0 :: T ++ result.drop (text 1 cps ++ 0 :: T).length), (text 1 cps ++ 0 :: T).length⟩, lp) := by
  have hlen := congrArg List.length h
  rw [List.length_take, List.length_drop, pathBuffer_len, List.length_append, List.length_cons] at hlen
  have hu : linkUnits r = .ok (text 2 cps ++ 0 :: rest) := by
    unfold linkUnits
    rw [if_neg (by omega), if_pos hin, h]
  have hx' : ∀ x ∈ text 2 cps ++ 0 :: rest, x < 0x10000 := by
    intro x hm
    rw [← h] at hm
    have := List.mem_of_mem_drop (List.mem_of_mem_take hm)
    unfold pathBuffer at this
    rcases List.mem_append.1 (List.mem_of_mem_take this) with hm | hm
    · exact hx x hm
    · rw [List.mem_replicate] at hm; omega
  have hd : decode16 (text 2 cps ++ 0 :: rest) = cps ++ 0 :: decode16 rest := by
    rw [decode16_append _ _ hg.1, Utf8.decode16_cons, if_pos (by omega)]
  have hv0 : Valid 0 := by unfold Valid; decide
  have hkeep : ((decode16 (text 2 cps ++ 0 :: rest)).filter (fun c => decide (Valid c))).dropWhile (fun c => decide (Combining c)) =
      cps ++ 0 :: (decode16 rest).filter (fun c => decide (Valid c)) := by
    rw [hd, List.filter_append, List.filter_eq_self.2 (fun c hc => decide_eq_true (hg.1 c hc)), List.filter_cons_of_pos (by simpa using hv0)]
    cases cps with
    | nil => rw [List.nil_append, List.dropWhile_cons_of_neg (by decide)]
    | cons c cs =>
      have := hg.2 c rfl
      rw [List.cons_append, List.dropWhile_cons_of_neg (by simpa using this)]
  have hfit : (text 1 (cps ++ 0 :: (decode16 rest).filter (fun c => decide (Valid c)))).length ≤ 3 * r.len := by
    rw [← hkeep]
    have h1 := text1_sublist ((List.dropWhile_sublist (fun c => decide (Combining c))).trans
      (List.filter_sublist (p := fun c => decide (Valid c)) (l := decode16 (text 2 cps ++ 0 :: rest))))
    have h2 := text1_decode _ _ (Nat.le_refl _) hx'
    rw [List.length_append, List.length_cons] at h2
    omega
  obtain ⟨lp, hc⟩ := Utf8.convert_to_keeps (text 2 cps ++ 0 :: rest) 2 (.inl rfl) result size none _ rfl
    (by rw [if_pos rfl, hkeep]; omega) hs
  rw [if_pos rfl, hkeep] at hc
  have ht : text 1 (cps ++ 0 :: (decode16 rest).filter (fun c => decide (Valid c))) =
      text 1 cps ++ 0 :: text 1 ((decode16 rest).filter (fun c => decide (Valid c))) := by
    rw [text_append, Utf8.text1_cons]; rfl
  rw [ht] at hc hfit
  exact ⟨hu, _, lp, hfit, hc⟩

/-- Reading a name that is followed by a zero among the characters read. -/
theorem give_name {r : Reparse} {result rest cps : List Nat} {size : Nat} (hg : GoodText cps)
    (hin : r.off + r.len ≤ cap r.tag) (hroom : 3 * r.len < size) (hs : size ≤ result.length) (hx : ∀ x ∈ r.path, x < 0x10000)
    (h : ((pathBuffer r).drop r.off).take r.len = text 2 cps ++ 0 :: rest) :
    ∃ b, giveName r result size = .ok (true, b) ∧ b.length = result.length ∧ Holds b (text 1 cps) := by
  obtain ⟨hu, T, lp, hfit, hc⟩ := link_text hg hin hroom hs hx h
  unfold giveName
  rw [hu, ok_bind, hc, ok_bind]
  dsimp only
  rw [if_pos (by omega)]
  rw [wr_ok _ (by simp only [List.length_append, List.length_cons, List.length_drop] at hfit ⊢; omega), ok_bind]
  refine ⟨_, rfl, ?_, ?_⟩
  · simp only [List.length_set, List.length_append, List.length_cons, List.length_drop] at hfit ⊢; omega
  · refine ⟨(T ++ result.drop (text 1 cps ++ 0 :: T).length).set T.length 0, ?_⟩
    rw [List.append_assoc, List.cons_append, List.set_append_right _ _ (by simp), List.length_append, List.length_cons,
      show (text 1 cps).length + (T.length + 1) - (text 1 cps).length = T.length + 1 by omega, List.set_cons_succ]

/-- Where the characters read come from, if the target is first. -/
theorem target_first {r : Reparse} (hst : Stored r) (hfirst : TargetFirst r) (hlen : r.len ≤ 8182) (hne : r.len ≠ 0) :
    ∃ rest, ((pathBuffer r).drop r.off).take r.len = target r ++ 0 :: rest := by
  have hc := cap_le r.tag
  obtain ⟨ho, more, hm⟩ := hfirst
  have hin := hst.inside
  have htl : (target r).length = r.len / 2 := by
    unfold target
    rw [ho, Nat.zero_div, List.drop_zero, List.length_take]
    omega
  have hev := hst.len
  have e : pathBuffer r = target r ++ 0 :: (more ++ List.replicate (cap r.tag) 0).take (cap r.tag - (r.len / 2 + 1)) := by
    unfold pathBuffer
    generalize target r = t at hm htl
    rw [hm, List.append_assoc, List.cons_append, List.take_append, List.take_of_length_le (by omega), htl,
      show cap r.tag - r.len / 2 = (cap r.tag - (r.len / 2 + 1)) + 1 by omega, List.take_succ_cons]
  refine ⟨((more ++ List.replicate (cap r.tag) 0).take (cap r.tag - (r.len / 2 + 1))).take (r.len - (r.len / 2 + 1)), ?_⟩
  rw [ho, List.drop_zero, e, List.take_append, List.take_of_length_le (by omega), htl,
    show r.len - r.len / 2 = (r.len - (r.len / 2 + 1)) + 1 by omega, List.take_succ_cons]

theorem reparse_bit (a : DWord) : a &&& REPARSE = 0#32 ↔ a.getLsbD 10 = false := by
  rw [show REPARSE = BitVec.twoPow 32 10 from rfl, BitVec.and_twoPow]
  cases a.getLsbD 10
  · simp
  · simp only [if_true]; exact ⟨(fun h => absurd h (by decide)), (fun h => nomatch h)⟩

/-- The function up to the reparse point. -/
theorem readlink_eq {σ : Type} (S : Sys σ) (E : WinOps.Env) (s : σ) (result : List Nat) (size : Nat) {f rest w : List Nat} {a : DWord} {r : Reparse}
    (hf : Fit f) (hj : E.junk.length = 8192) (hw : E.wjunk.length = 8192) (ha : Accepted E.sgn f) (h : Wide f w)
    (h1 : S.attrs s w = some a) (h2 : a &&& REPARSE ≠ 0#32) (h3 : S.reparse s w = some r) (h4 : r.tag ≠ .other) :
    readlink S E s result size (f ++ 0 :: rest) = giveName r result size := by
  unfold readlink
  rw [wideName_yes rest hf hj hw ha h, ok_bind]
  simp only [h1, h3]
  rw [if_neg h2, if_neg h4]

/-- C110 (partial): for a link whose target comes first and is followed by a terminator (as in mount points), and a
buffer with room for three bytes per byte of the target, `Readlink` gives the target in UTF-8.
Missing: links with a name for display before the target, as symbolic links have (`win_readlink_relative`,
`win_readlink_absolute`), long targets (`win_readlink_overread`), and buffers with room for the target only (`win_readlink_tight`). -/
theorem win_readlink_first_partial {σ : Type} (S : Sys σ) (E : WinOps.Env) (s : σ) (result : List Nat) (size : Nat) (f rest w : List Nat) (a : DWord)
    (r : Reparse) (hf : Fit f) (hj : E.junk.length = 8192) (hw : E.wjunk.length = 8192) (ha : Accepted E.sgn f) (h : Wide f w)
    (h1 : S.attrs s w = some a) (h2 : a.getLsbD 10 = true) (h3 : S.reparse s w = some r) (h4 : r.tag ≠ .other)
    (hst : Stored r) (hx : ∀ x ∈ r.path, x < 0x10000) (hfirst : TargetFirst r) (hlen : r.len ≤ 8182) (hne : r.len ≠ 0) (hroom : 3 * r.len < size)
    (hs : size ≤ result.length) (cps : List Nat) (hg : GoodText cps) (h0 : 0 ∉ cps) (ht : target r = text 2 cps) :
    ∃ b, readlink S E s result size (f ++ 0 :: rest) = .ok (true, b) ∧ b.length = result.length ∧ Holds b (text 1 cps) := by
  have h2' : a &&& REPARSE ≠ 0#32 := fun e => by rw [(reparse_bit a).1 e] at h2; cases h2
  rw [readlink_eq S E s result size hf hj hw ha h h1 h2' h3 h4]
  have hc := cap_le r.tag
  obtain ⟨rest', e⟩ := target_first hst hfirst hlen hne
  rw [ht] at e
  have ho := hfirst.1
  exact give_name hg (by omega) hroom hs hx e

/-- Where the characters read come from, if a name for display is first. -/
theorem print_first {r : Reparse} {extra : Nat} (hst : Stored r) (h : PrintFirst r extra) (hin : r.off + r.len ≤ cap r.tag)
    (he : extra < r.len) : ∃ rest, ((pathBuffer r).drop r.off).take r.len = (target r).drop ((target r).length - extra) ++ 0 :: rest := by
  obtain ⟨shown, ho, hp, hl⟩ := h
  have hroom := hst.room
  have hc := cap_le r.tag
  have hev := hst.len
  have hplen := congrArg List.length hp
  rw [List.length_append] at hplen
  have htl : (target r).length = r.len / 2 := by
    have := hst.inside
    have := hst.off
    unfold target at hl ⊢
    rw [List.length_take, List.length_drop]
    omega
  have hb : pathBuffer r = r.path ++ List.replicate (cap r.tag - r.path.length) 0 := by
    unfold pathBuffer
    rw [List.take_append, List.take_of_length_le (by omega), List.take_replicate]
    congr 2
    omega
  refine ⟨List.replicate (r.len - extra - 1) 0, ?_⟩
  rw [hb, List.drop_append, List.drop_replicate]
  have h1 : r.path.drop r.off = (target r).drop ((target r).length - extra) := by
    conv => lhs; rw [hp]
    rw [List.drop_append, List.drop_of_length_le (by omega), List.nil_append]
    congr 1
    omega
  rw [h1]
  have h2 : ((target r).drop ((target r).length - extra)).length = extra := by rw [List.length_drop]; omega
  rw [List.take_append, List.take_of_length_le (by omega), h2, List.take_replicate, ← List.replicate_succ]
  congr 2
  omega

/-- Negation of C110, for all symbolic links with relative targets: the result is the empty string. -/
theorem win_readlink_relative {σ : Type} (S : Sys σ) (E : WinOps.Env) (s : σ) (result : List Nat) (size : Nat) (f rest w : List Nat) (a : DWord)
    (r : Reparse) (hf : Fit f) (hj : E.junk.length = 8192) (hw : E.wjunk.length = 8192) (ha : Accepted E.sgn f) (h : Wide f w)
    (h1 : S.attrs s w = some a) (h2 : a &&& REPARSE ≠ 0#32) (h3 : S.reparse s w = some r) (h4 : r.tag ≠ .other)
    (hst : Stored r) (hx : ∀ x ∈ r.path, x < 0x10000) (hfirst : PrintFirst r 0) (hlen : r.off + r.len ≤ 8182) (hne : r.len ≠ 0)
    (hroom : 3 * r.len < size) (hs : size ≤ result.length) :
    ∃ b, readlink S E s result size (f ++ 0 :: rest) = .ok (true, b) ∧ Holds b [] := by
  have hc := cap_le r.tag
  rw [readlink_eq S E s result size hf hj hw ha h h1 h2 h3 h4]
  obtain ⟨rest', hr⟩ := print_first hst hfirst (by omega) (by omega)
  rw [Nat.sub_zero, List.drop_length, List.nil_append] at hr
  obtain ⟨b, e1, _, e3⟩ := give_name (cps := []) ⟨(fun c h => nomatch h), (fun c h => nomatch h)⟩ (by omega) hroom hs hx hr
  exact ⟨b, e1, e3⟩

/-- Negation of C110, for all symbolic links with absolute targets: the result is the last four characters of the target. -/
theorem win_readlink_absolute {σ : Type} (S : Sys σ) (E : WinOps.Env) (s : σ) (result : List Nat) (size : Nat) (f rest w : List Nat) (a : DWord)
    (r : Reparse) (hf : Fit f) (hj : E.junk.length = 8192) (hw : E.wjunk.length = 8192) (ha : Accepted E.sgn f) (h : Wide f w)
    (h1 : S.attrs s w = some a) (h2 : a &&& REPARSE ≠ 0#32) (h3 : S.reparse s w = some r) (h4 : r.tag ≠ .other)
    (hst : Stored r) (hx : ∀ x ∈ r.path, x < 0x10000) (hfirst : PrintFirst r 4) (hlen : r.off + r.len ≤ 8182) (hne : 4 < r.len)
    (hroom : 3 * r.len < size) (hs : size ≤ result.length) (pre cps : List Nat) (hl : (text 2 cps).length = 4) (ht : target r = pre ++ text 2 cps)
    (hg : GoodText cps) (h0 : 0 ∉ cps) :
    ∃ b, readlink S E s result size (f ++ 0 :: rest) = .ok (true, b) ∧ Holds b (text 1 cps) := by
  have hc := cap_le r.tag
  rw [readlink_eq S E s result size hf hj hw ha h h1 h2 h3 h4]
  obtain ⟨rest', hr⟩ := print_first hst hfirst (by omega) (by omega)
  rw [ht, List.length_append, hl, Nat.add_sub_cancel, List.drop_left] at hr
  obtain ⟨b, e1, _, e3⟩ := give_name hg (by omega) hroom hs hx hr
  exact ⟨b, e1, e3⟩

/-- Negation of C110: if offset and length, as numbers of characters, lead out of the buffer, it is read past its end.  This happens for every link whose
target has more than 4091 characters, and for symbolic links with targets half as long. -/
theorem win_readlink_overread {σ : Type} (S : Sys σ) (E : WinOps.Env) (s : σ) (result : List Nat) (size : Nat) (f rest w : List Nat) (a : DWord)
    (r : Reparse) (hf : Fit f) (hj : E.junk.length = 8192) (hw : E.wjunk.length = 8192) (ha : Accepted E.sgn f) (h : Wide f w)
    (h1 : S.attrs s w = some a) (h2 : a &&& REPARSE ≠ 0#32) (h3 : S.reparse s w = some r) (h4 : r.tag ≠ .other)
    (hlen : ¬ Inside r) (hne : r.len ≠ 0) :
    readlink S E s result size (f ++ 0 :: rest) = .error .oobRead := by
  rw [readlink_eq S E s result size hf hj hw ha h h1 h2 h3 h4]
  have hc := cap_start r.tag
  unfold Inside at hlen
  unfold giveName linkUnits
  rw [if_neg hne, if_neg (by omega)]
  rfl

/-- Negation of C110: a buffer with room for the target and its terminator is not enough. -/
theorem win_readlink_tight : ∃ r result, Stored r ∧ TargetFirst r ∧ target r = [97] ∧ r.tag = .mount ∧
    giveName r result 2 = .ok (false, [97, 0]) ∧ result.length = 2 :=
  ⟨⟨.mount, 0, 2, [97, 0]⟩, [7, 7], ⟨rfl, rfl, by decide, by decide⟩, ⟨rfl, [], rfl⟩, rfl, rfl, by decide +kernel, rfl⟩

/-- For anything that is not a link, is not found or cannot be asked, and for names that are not accepted, `Readlink` returns false and
writes nothing. -/
theorem win_readlink_none {σ : Type} (S : Sys σ) (E : WinOps.Env) (s : σ) (result : List Nat) (size : Nat) (f rest : List Nat)
    (hf : Fit f) (hj : E.junk.length = 8192) (hw : E.wjunk.length = 8192)
    (h : ∀ w, Accepted E.sgn f → Wide f w → ∀ a, S.attrs s w = some a → a.getLsbD 10 = true → ∀ r, S.reparse s w = some r → r.tag = .other) :
    readlink S E s result size (f ++ 0 :: rest) = .ok (false, result) := by
  by_cases ha : Accepted E.sgn f
  · obtain ⟨w, _, hv, _⟩ := WinOps.platform_yes rest hf hj hw ha
    unfold readlink
    rw [wideName_yes rest hf hj hw ha hv, ok_bind]
    dsimp only
    cases h1 : S.attrs s w with
    | none => rfl
    | some a =>
      dsimp only
      by_cases h2 : a &&& REPARSE = 0#32
      · rw [if_pos h2]
      · rw [if_neg h2]
        cases h3 : S.reparse s w with
        | none => rfl
        | some r =>
          have hb : a.getLsbD 10 = true := by
            by_contra hb
            exact h2 ((reparse_bit a).2 (by simpa using hb))
          dsimp only
          rw [if_pos (h w ha hv a h1 hb r h3)]
  · unfold readlink
    rw [wideName_no rest hf hj ha, ok_bind]

/-- Whatever the link: if the characters read are inside the buffer, `Readlink` does not write past the given size, and if it returns
true the result is terminated. -/
theorem win_readlink_safe_partial {σ : Type} (S : Sys σ) (E : WinOps.Env) (s : σ) (result : List Nat) (size : Nat) (f rest : List Nat)
    (hf : Fit f) (hj : E.junk.length = 8192) (hw : E.wjunk.length = 8192) (hs : size ≤ result.length)
    (h : ∀ w r, S.reparse s w = some r → Inside r) :
    ∃ ok b, readlink S E s result size (f ++ 0 :: rest) = .ok (ok, b) ∧ b.length = result.length ∧ b.drop size = result.drop size ∧
      (ok = true → ∃ t, 0 ∉ t ∧ t.length < size ∧ Holds b t) := by
  have give : ∀ r : Reparse, Inside r → ∃ ok b, giveName r result size = .ok (ok, b) ∧ b.length = result.length ∧
      b.drop size = result.drop size ∧ (ok = true → ∃ t, 0 ∉ t ∧ t.length < size ∧ Holds b t) := by
    intro r hr
    have hc := cap_start r.tag
    unfold Inside at hr
    obtain ⟨u, hu⟩ : ∃ u, linkUnits r = .ok u := by
      unfold linkUnits
      split
      · exact ⟨_, rfl⟩
      · rw [if_pos (by omega)]; exact ⟨_, rfl⟩
    obtain ⟨cps, lp, _, h1, h2⟩ := Utf8.convert_to_safe u 2 result size none hs
    unfold giveName
    rw [hu, ok_bind, h2, ok_bind]
    dsimp only
    have first : ∀ t x : List Nat, ∃ y z, 0 ∉ y ∧ y.length ≤ t.length ∧ t ++ 0 :: x = y ++ 0 :: z := by
      intro t x
      induction t with
      | nil => exact ⟨[], x, by simp, Nat.le_refl _, rfl⟩
      | cons c t ih =>
        by_cases hc : c = 0
        · subst hc; exact ⟨[], t ++ 0 :: x, by simp, Nat.zero_le _, rfl⟩
        · obtain ⟨y, z, i1, i2, i3⟩ := ih
          refine ⟨c :: y, z, ?_, by simp only [List.length_cons]; omega, by rw [List.cons_append, i3]; rfl⟩
          intro hm
          rcases List.mem_cons.1 hm with hm | hm
          · exact hc hm.symm
          · exact i1 hm
    split
    · next hlt =>
      have hlen : (text 1 cps ++ result.drop (text 1 cps).length).length = result.length := by simp; omega
      rw [wr_ok _ (by omega), ok_bind]
      refine ⟨true, _, rfl, by rw [List.length_set, hlen], ?_, fun _ => ?_⟩
      · rw [List.drop_set_of_lt hlt, List.drop_append, List.drop_of_length_le (by omega), List.nil_append, List.drop_drop]
        congr 1; omega
      · have e : (text 1 cps ++ result.drop (text 1 cps).length).set (text 1 cps).length 0 =
            text 1 cps ++ 0 :: result.drop ((text 1 cps).length + 1) := by
          rw [List.set_append_right _ _ (Nat.le_refl _), Nat.sub_self, List.drop_eq_getElem_cons (by omega)]; rfl
        obtain ⟨y, z, i1, i2, i3⟩ := first (text 1 cps) (result.drop ((text 1 cps).length + 1))
        exact ⟨y, i1, by omega, z, by rw [e, i3]⟩
    · refine ⟨false, _, rfl, by simp; omega, ?_, (fun h => nomatch h)⟩
      rw [List.drop_append, List.drop_of_length_le (by omega), List.nil_append, List.drop_drop]
      congr 1; omega
  have stay : ∃ ok b, (.ok (false, result) : CRes (Bool × List Nat)) = .ok (ok, b) ∧ b.length = result.length ∧ b.drop size = result.drop size ∧
      (ok = true → ∃ t, 0 ∉ t ∧ t.length < size ∧ Holds b t) := ⟨false, result, rfl, rfl, rfl, (fun h => nomatch h)⟩
  by_cases ha : Accepted E.sgn f
  · obtain ⟨w, _, hv, _⟩ := WinOps.platform_yes rest hf hj hw ha
    unfold readlink
    rw [wideName_yes rest hf hj hw ha hv, ok_bind]
    dsimp only
    cases h1 : S.attrs s w with
    | none => exact stay
    | some a =>
      dsimp only
      split
      · exact stay
      · cases h3 : S.reparse s w with
        | none => exact stay
        | some r =>
          dsimp only
          split
          · exact stay
          · exact give r (h w r h3)
  · unfold readlink
    rw [wideName_no rest hf hj ha, ok_bind]
    exact stay

/-- The mount point `\??\D:\` and its display name `D:\`, as `mklink /J` stores them. -/
example : let r : Reparse := ⟨.mount, 0, 14, [92, 63, 63, 92, 68, 58, 92, 0, 68, 58, 92, 0]⟩
    Stored r ∧ TargetFirst r ∧ target r = text 2 [92, 63, 63, 92, 68, 58, 92] ∧
    GoodText [92, 63, 63, 92, 68, 58, 92] := by
  refine ⟨⟨by decide, by decide, by decide, by decide⟩, ⟨rfl, [68, 58, 92, 0], by decide⟩, by decide, ?_⟩
  unfold GoodText Valid Combining
  decide

/-- The symbolic link to `x/y` (relative) and one to `C:/abc` (absolute), as `CreateSymbolicLinkW` stores them. -/
example : let r : Reparse := ⟨.symlink, 6, 6, [120, 92, 121, 120, 92, 121]⟩
    let q : Reparse := ⟨.symlink, 12, 20, [67, 58, 92, 97, 98, 99, 92, 63, 63, 92, 67, 58, 92, 97, 98, 99]⟩
    Stored r ∧ PrintFirst r 0 ∧ target r = [120, 92, 121] ∧ Stored q ∧ PrintFirst q 4 ∧
      target q = [92, 63, 63, 92, 67, 58] ++ text 2 [92, 97, 98, 99] := by
  refine ⟨⟨by decide, by decide, by decide, by decide⟩, ⟨[120, 92, 121], by decide, by decide, by decide⟩, by decide,
    ⟨by decide, by decide, by decide, by decide⟩, ⟨[67, 58, 92, 97, 98, 99], by decide, by decide, by decide⟩, by decide⟩

/-- A symbolic link with a relative target of 2050 characters, stored as 4100 of them, leads out of the buffer. -/
example (t : List Nat) (h : t.length = 2050) : let r : Reparse := ⟨.symlink, 4100, 4100, t ++ t⟩
    Stored r ∧ PrintFirst r 0 ∧ target r = t ∧ ¬ Inside r := by
  have e : target ⟨.symlink, 4100, 4100, t ++ t⟩ = t := by
    unfold target
    dsimp only
    rw [show 4100 / 2 = t.length by omega, List.drop_left, List.take_length]
  refine ⟨⟨by dsimp only, by dsimp only, ?_, ?_⟩, ⟨t, by dsimp only; omega, by rw [e], by rw [e]; rfl⟩, e, by unfold Inside start; simp⟩
  · dsimp only; rw [List.length_append]; omega
  · dsimp only; rw [List.length_append]; omega

end Verif.WinLink
