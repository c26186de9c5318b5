import Verif.Utf8Var.Spec
import Verif.MixedVar.Props
import Verif.Utf8.Props

/-! # C67: wide text in a mixed variable -/

namespace Verif.Utf8Var
open Spec Verif.Utf8.Spec
open Verif.MixedVar (V WF content_length term_ok)
open Verif.MixedVar.Spec (content Terminated)

theorem bytes_length (cps : List Nat) : (bytes cps).length = (text 1 cps).length := by simp [bytes]

theorem toNat_ofNat (l : List UInt8) : (l.map UInt8.toNat).map UInt8.ofNat = l := by
  rw [List.map_map]
  refine (List.map_congr_left fun x _ => ?_).trans (List.map_id l)
  simp

/-- The result of a conversion into the array, from what `ConvertToUTF8` leaves. -/
theorem convertAt_of {str : List UInt8} {off : Nat} {src : List Nat} {w max : Nat} {cps : List Nat} {lp : Option Nat}
    (h : Utf8.convertTo src w (some ((str.drop off).map UInt8.toNat)) max none =
      .ok (⟨some (text 1 cps ++ ((str.drop off).map UInt8.toNat).drop (text 1 cps).length), (text 1 cps).length⟩, lp)) :
    convertAt str off src w max = .ok (str.take off ++ bytes cps ++ str.drop (off + (bytes cps).length), (bytes cps).length) := by
  unfold convertAt
  rw [h, ok_bind]
  simp only [List.map_append, List.map_drop, toNat_ofNat, bytes_length, List.drop_drop, List.append_assoc]
  rfl

theorem convertAt_safe (str : List UInt8) (off : Nat) (src : List Nat) (w max : Nat) (hm : off + max ≤ str.length) :
    ∃ cps, GoodText cps ∧ (bytes cps).length ≤ max ∧
      convertAt str off src w max = .ok (str.take off ++ bytes cps ++ str.drop (off + (bytes cps).length), (bytes cps).length) := by
  obtain ⟨cps, lp, h1, h2, h3⟩ := Utf8.convert_to_safe src w ((str.drop off).map UInt8.toNat) max none (by simp; omega)
  exact ⟨cps, h1, by rw [bytes_length]; exact h2, convertAt_of h3⟩

theorem getLast_take {l : List UInt8} {n : Nat} (h0 : n ≠ 0) (hn : n ≤ l.length) : (l.take n).getLast? = l[n - 1]? := by
  rw [List.getLast?_eq_getElem?, List.length_take, Nat.min_eq_left hn, List.getElem?_take_of_lt (by omega)]

/-- The last lines of both functions. -/
theorem finish_ok {n : Nat} {v : V} (hn : 1 ≤ n) (hl : v.str.length = n) (hp : v.pos ≤ n) :
    ∃ v', finish v = .ok v' ∧ WF n v' ∧ v'.mode = v.mode ∧ v'.mxInt = v.mxInt ∧ v'.dbl = v.dbl ∧
      content v' = trim n (content v) ∧ Terminated v' := by
  have hcl : (content v).length = v.pos := by simp [content]; omega
  have hb : mustStepBack v = .ok (decide ((content v).length = n ∨ (content v).getLast? = some 0)) := by
    unfold mustStepBack
    by_cases h : v.pos = n
    · rw [if_pos (by omega), hcl]; simp [h]
    · rw [if_neg (by omega)]
      by_cases h0 : v.pos = 0
      · rw [if_pos h0, hcl]
        have : content v = [] := by simp [content, h0]
        rw [this]; simp [h]
      · rw [if_neg h0, rd_ok (show v.pos - 1 < v.str.length by omega), ok_bind, hcl]
        have : (content v).getLast? = some (v.str[v.pos - 1]'(by omega)) := by
          unfold content
          rw [getLast_take h0 (by omega), List.getElem?_eq_getElem (by omega)]
        rw [this]; simp [h]
  unfold finish
  rw [hb, ok_bind]
  by_cases h : (content v).length = n ∨ (content v).getLast? = some 0
  · have hne : v.pos ≠ 0 := by
      intro h0
      have e : content v = [] := by simp [content, h0]
      rcases h with h | h
      · rw [e] at h; simp at h; omega
      · rw [e] at h; cases h
    obtain ⟨v', e, t, ht⟩ := term_ok (n := n) (v := { v with pos := v.pos - 1 }) ⟨hl, by simp only; omega⟩
    refine ⟨v', ?_, t.wf, t.mode, t.mxInt, t.dbl, ?_, ht⟩
    · simp only [h, decide_true, if_true]; exact e
    · rw [t.text]
      unfold trim
      rw [if_pos h]
      simp only [content]
      rw [List.dropLast_eq_take, List.take_take, List.length_take, hl]
      congr 1
      omega
  · have hlt : v.pos + 1 ≤ n := by
      have : ¬ (content v).length = n := fun e => h (.inl e)
      omega
    obtain ⟨v', e, t, ht⟩ := term_ok (n := n) (v := v) ⟨hl, hlt⟩
    refine ⟨v', ?_, t.wf, t.mode, t.mxInt, t.dbl, ?_, ht⟩
    · simp only [h, decide_false, Bool.false_eq_true, if_false]; exact e
    · rw [t.text]
      unfold trim
      rw [if_neg h]

theorem setUTF8_of {n : Nat} {v : V} (w : WF n v) {mem : List Nat} {size width : Nat} (hs : size ≤ mem.length) {cps : List Nat}
    (hc : (bytes cps).length ≤ n)
    (h : convertAt v.str 0 (mem.take size) width v.str.length =
      .ok (v.str.take 0 ++ bytes cps ++ v.str.drop (0 + (bytes cps).length), (bytes cps).length)) :
    ∃ v', setUTF8 v mem size width = .ok v' ∧ WF n v' ∧ v'.mode = .str ∧ v'.mxInt = v.mxInt ∧ v'.dbl = v.dbl ∧
      content v' = trim n (bytes cps) ∧ Terminated v' := by
  have hl := w.len; have hp := w.pos
  unfold setUTF8
  rw [if_neg (by omega), h, ok_bind]
  simp only [List.take_zero, List.nil_append, Nat.zero_add]
  obtain ⟨v', e, h1, h2, h3, h4, h5, h6⟩ := finish_ok (n := n)
    (v := { v with mode := .str, str := bytes cps ++ v.str.drop (bytes cps).length, pos := (bytes cps).length })
    (by omega) (by simp; omega) hc
  refine ⟨v', e, h1, h2, h3, h4, ?_, h6⟩
  rw [h5]
  simp [content]

theorem appendUTF8_of {n : Nat} {v : V} (w : WF n v) {src : List Nat} {width : Nat} {cps : List Nat}
    (hc : v.pos + (bytes cps).length ≤ n)
    (h : convertAt v.str v.pos (src.take (min src.length (n - v.pos))) width (min src.length (n - v.pos)) =
      .ok (v.str.take v.pos ++ bytes cps ++ v.str.drop (v.pos + (bytes cps).length), (bytes cps).length)) :
    ∃ v', appendUTF8 v src width = .ok v' ∧ WF n v' ∧ v'.mode = v.mode ∧ v'.mxInt = v.mxInt ∧ v'.dbl = v.dbl ∧
      content v' = trim n (content v ++ bytes cps) ∧ Terminated v' := by
  have hl := w.len; have hp := w.pos
  have e0 : (if src.length > v.str.length - v.pos then v.str.length - v.pos else src.length) = min src.length (n - v.pos) := by
    rw [hl]; split <;> omega
  unfold appendUTF8
  simp only [e0]
  rw [h, ok_bind]
  obtain ⟨v', e, h1, h2, h3, h4, h5, h6⟩ := finish_ok (n := n)
    (v := { v with str := v.str.take v.pos ++ bytes cps ++ v.str.drop (v.pos + (bytes cps).length), pos := v.pos + (bytes cps).length })
    (by omega) (by simp; omega) hc
  refine ⟨v', e, h1, h2, h3, h4, ?_, h6⟩
  rw [h5]
  congr 1
  simp only [content]
  rw [List.take_append_of_le_length (by simp; omega), List.take_of_length_le (by simp; omega)]

/-- One call. -/
theorem step_ok {n : Nat} {v : V} (width : Nat) (w : WF n v) (o : Op) (hl : Legal o) :
    ∃ v', step width v o = .ok v' ∧ WF n v' ∧ Effect n (content v) (content v') o ∧
      (Terminated v ∨ WritesNul o → Terminated v') := by
  have hlen := w.len; have hpos := w.pos; have hcl := content_length w
  cases o with
  | base o => exact MixedVar.step_ok w o hl
  | setUTF8 mem size =>
    obtain ⟨cps, h1, h2, h3⟩ := convertAt_safe v.str 0 (mem.take size) width v.str.length (by omega)
    obtain ⟨v', e, a, _, _, _, b, c⟩ := setUTF8_of w hl (by omega) h3
    exact ⟨v', e, a, ⟨cps, h1, by omega, b⟩, fun _ => c⟩
  | appendUTF8 src =>
    obtain ⟨cps, h1, h2, h3⟩ := convertAt_safe v.str v.pos (src.take (min src.length (n - v.pos))) width
      (min src.length (n - v.pos)) (by omega)
    obtain ⟨v', e, a, _, _, _, b, c⟩ := appendUTF8_of w (by omega) h3
    exact ⟨v', e, a, ⟨cps, h1, by omega, by omega, b⟩, fun _ => c⟩

/-- **C67**, safety: every history of calls, wide or not, on a variable of any size with any initial garbage stays inside
the variable, and the text evolves as specified; it is terminated once a call that writes the terminator was made. -/
theorem wide_text_safe_partial (width : Nat) (junk : List UInt8) (hn : junk ≠ []) (ops : List Op) (hl : ∀ o ∈ ops, Legal o) :
    ∃ v, run width (MixedVar.construct junk) ops = .ok v ∧ v.str.length = junk.length ∧ v.pos < v.str.length ∧
      Effects junk.length [] ops (content v) ∧ ((∃ o ∈ ops, WritesNul o) → Terminated v) := by
  have key : ∀ (ops : List Op) (v : V) (n : Nat), WF n v → (∀ o ∈ ops, Legal o) →
      ∃ v', run width v ops = .ok v' ∧ WF n v' ∧ Effects n (content v) ops (content v') ∧
        ((Terminated v ∨ ∃ o ∈ ops, WritesNul o) → Terminated v') := by
    intro ops
    induction ops with
    | nil => intro v n w _; exact ⟨v, rfl, w, .nil, fun h => h.elim id (fun ⟨o, ho, _⟩ => by simp at ho)⟩
    | cons o os ih =>
      intro v n w hl
      obtain ⟨v1, e1, w1, he1, ht1⟩ := step_ok width w o (hl o (by simp))
      obtain ⟨v2, e2, w2, he2, ht2⟩ := ih v1 n w1 (fun o ho => hl o (by simp [ho]))
      refine ⟨v2, by simp [run, e1, e2], w2, .cons he1 he2, fun h => ht2 ?_⟩
      rcases h with h | ⟨o', ho, hw⟩
      · exact Or.inl (ht1 (Or.inl h))
      · rcases List.mem_cons.1 ho with rfl | ho
        · exact Or.inl (ht1 (Or.inr hw))
        · exact Or.inr ⟨o', ho, hw⟩
  have hpos : 0 < junk.length := List.length_pos_iff.2 hn
  obtain ⟨v, e, w, he, ht⟩ := key ops (MixedVar.construct junk) junk.length ⟨rfl, by simp [MixedVar.construct]; omega⟩ hl
  have h1 := w.len; have h2 := w.pos
  exact ⟨v, e, h1, by omega, he, fun h => ht (Or.inr h)⟩

/-- "aé" set, "b" appended, in a variable of 8 bytes. -/
example : ∃ v, run 4 (MixedVar.construct (List.replicate 8 7)) [.setUTF8 [97, 0xE9] 2, .appendUTF8 [98]] = .ok v ∧
    content v = [97, 0xC3, 0xA9, 98] ∧ Terminated v := ⟨_, rfl, by decide, by unfold Terminated; decide⟩

theorem mem_bytes {cps : List Nat} (h0 : 0 ∉ cps) (hg : ∀ c ∈ cps, Valid c) : (0 : UInt8) ∉ bytes cps := by
  intro h
  obtain ⟨x, hx, e⟩ := List.mem_map.1 h
  have hne : x ≠ 0 := fun e0 => Utf8.text_no_zero 1 (.inl rfl) cps (fun c hc => (hg c hc).1) h0 (e0 ▸ hx)
  have hlt : x < 256 := by
    obtain ⟨c, hc, hx⟩ := List.mem_flatMap.1 hx
    have hv := (hg c hc).1
    simp only [enc, if_true] at hx
    unfold enc8 at hx
    (repeat' split at hx) <;> simp at hx <;> omega
  have := congrArg UInt8.toNat e
  simp at this
  omega

theorem trim_id {n : Nat} {cps : List Nat} {old : List UInt8} (h0 : 0 ∉ cps) (hg : ∀ c ∈ cps, Valid c)
    (ho : (0 : UInt8) ∉ old) (hf : old.length + (bytes cps).length < n) : trim n (old ++ bytes cps) = old ++ bytes cps := by
  unfold trim
  rw [if_neg]
  rintro (h | h)
  · simp at h; omega
  · rcases List.mem_append.1 (List.mem_of_getLast? h) with h | h
    · exact ho h
    · exact mem_bytes h0 hg h

/-- **C67**, content: wide text (UTF-16 or UTF-32) whose UTF-8 form leaves room for the terminator is stored exactly, whatever
was in the variable, also when the given size includes the terminator. -/
theorem set_wide_fits_partial {n : Nat} {v : V} (w : WF n v) (width : Nat) (hw : width = 2 ∨ width = 4) (cps rest : List Nat)
    (hg : GoodText cps) (h0 : 0 ∉ cps) (hf : (bytes cps).length < n) (nul : Bool) :
    ∃ v', setUTF8 v (text width cps ++ 0 :: rest) ((text width cps).length + if nul then 1 else 0) width = .ok v' ∧
      v'.mode = .str ∧ content v' = bytes cps ∧ Terminated v' ∧ WF n v' := by
  have hl := w.len
  have hw' : width = 1 ∨ width = 2 ∨ width = 4 := .inr hw
  have hx : ∃ ds, GoodText ds ∧ (bytes ds).length ≤ n ∧ trim n (bytes ds) = bytes cps ∧
      (text width cps ++ 0 :: rest).take ((text width cps).length + if nul then 1 else 0) = text width ds := by
    cases nul with
    | false =>
      refine ⟨cps, hg, by omega, ?_, by simp⟩
      have := trim_id (n := n) (old := []) h0 hg.1 (by simp) (by simpa using hf)
      simpa using this
    | true =>
      have e : bytes (cps ++ [0]) = bytes cps ++ [0] := by
        unfold bytes
        rw [Utf8.text_append, Utf8.text_zero 1 (.inl rfl), List.map_append]
        rfl
      refine ⟨cps ++ [0], ⟨?_, ?_⟩, by rw [e]; simp; omega, ?_, ?_⟩
      · intro c hc
        rcases List.mem_append.1 hc with hc | hc
        · exact hg.1 c hc
        · rw [List.mem_singleton.1 hc]; decide
      · intro c hc
        cases cps with
        | nil => cases hc; decide
        | cons d ds => exact hg.2 c hc
      · rw [e]
        unfold trim
        rw [if_pos (by simp)]
        simp
      · rw [Utf8.text_append, Utf8.text_zero width hw', if_pos rfl, List.take_length_add_append]
        rfl
  obtain ⟨ds, hgd, hn, ht, hsrc⟩ := hx
  obtain ⟨⟨lp, hr⟩, _⟩ := Utf8.round_trip width hw ds hgd ((v.str.drop 0).map UInt8.toNat) (List.replicate (text width ds).length 0)
    v.str.length (text width ds).length none (by rw [← bytes_length]; omega) (by simp) (Nat.le_refl _) (by simp)
  rw [← hsrc] at hr
  obtain ⟨v', e, a, b, _, _, c, d⟩ := setUTF8_of (size := (text width cps).length + if nul then 1 else 0)
    (mem := text width cps ++ 0 :: rest) (width := width) w (by cases nul <;> simp) hn (convertAt_of hr)
  exact ⟨v', e, b, c.trans ht, d, a⟩

/-- **C67**, reading back: such text is returned as it was, with its terminator. -/
theorem get_wide {n : Nat} {v : V} (w : WF n v) (ht : Terminated v) (width : Nat) (hw : width = 2 ∨ width = 4) (cps : List Nat)
    (hg : GoodText cps) (hv : content v = bytes cps) (dest : List Nat) (max : Nat)
    (hm : (text width cps).length + 1 ≤ max) (hd : max ≤ dest.length) :
    getWide v dest max width =
      .ok ⟨some (text width cps ++ 0 :: dest.drop ((text width cps).length + 1)), (text width cps).length + 1⟩ := by
  have hl := w.len; have hp := w.pos
  have hw' : width = 1 ∨ width = 2 ∨ width = 4 := .inr hw
  have hg' : GoodText (cps ++ [0]) := by
    constructor
    · intro c hc
      rcases List.mem_append.1 hc with hc | hc
      · exact hg.1 c hc
      · rw [List.mem_singleton.1 hc]; decide
    · intro c hc
      cases cps with
      | nil => cases hc; decide
      | cons d ds => exact hg.2 c hc
  have hs : (v.str.take (v.pos + 1)).map UInt8.toNat = text 1 (cps ++ [0]) := by
    have e1 : v.str.take (v.pos + 1) = bytes cps ++ [0] := by
      rw [List.take_add_one, ← hv]
      unfold Terminated at ht
      rw [ht]; rfl
    rw [e1, Utf8.text_append, Utf8.text_zero 1 (.inl rfl), List.map_append]
    unfold bytes
    rw [List.map_map]
    congr 1
    refine (List.map_congr_left fun x hx => ?_).trans (List.map_id _)
    have : x < 256 := by
      obtain ⟨c, hc, hx⟩ := List.mem_flatMap.1 hx
      have hv := (hg.1 c hc).1
      simp only [enc, if_true] at hx
      unfold enc8 at hx
      (repeat' split at hx) <;> simp at hx <;> omega
    simp [Nat.mod_eq_of_lt this]
  have et : text width (cps ++ [0]) = text width cps ++ [0] := by rw [Utf8.text_append, Utf8.text_zero width hw']
  obtain ⟨_, h⟩ := Utf8.round_trip width hw (cps ++ [0]) hg' (List.replicate (text 1 (cps ++ [0])).length 0) dest
    (text 1 (cps ++ [0])).length max none (Nat.le_refl _) (by simp) (by rw [et]; simp; omega) hd
  unfold getWide
  rw [if_neg (by omega), hs, h, et]
  simp

/-- **C67**, appending: ASCII text that leaves room for the terminator is appended exactly. -/
theorem append_ascii_partial {n : Nat} {v : V} (w : WF n v) (width : Nat) (hw : width = 2 ∨ width = 4) (src : List Nat)
    (ha : ∀ c ∈ src, c ≠ 0 ∧ c < 0x80) (ho : (0 : UInt8) ∉ content v) (hf : v.pos + src.length < n) :
    ∃ v', appendUTF8 v src width = .ok v' ∧ content v' = content v ++ src.map UInt8.ofNat ∧ Terminated v' ∧ WF n v' := by
  have hl := w.len; have hcl := content_length w
  have hg : GoodText src := by
    constructor
    · intro c hc
      have := (ha c hc).2
      unfold Valid; omega
    · intro c hc
      have := (ha c (List.mem_of_head? hc)).2
      unfold Combining; omega
  have h0 : 0 ∉ src := fun h => (ha 0 h).1 rfl
  have ht : ∀ k, text k src = src := by
    intro k
    unfold text
    have : ∀ l : List Nat, (∀ c ∈ l, c < 0x80) → l.flatMap (enc k) = l := by
      intro l
      induction l with
      | nil => intro _; rfl
      | cons c l ih =>
        intro h
        have hc : c < 0x80 := h c (by simp)
        rw [List.flatMap_cons, ih (fun d hd => h d (by simp [hd]))]
        have : enc k c = [c] := by
          unfold enc enc8 enc16
          rw [if_pos hc, if_pos (show c < 0x10000 by omega)]
          repeat' split
          all_goals rfl
        rw [this]; rfl
    exact this src (fun c hc => (ha c hc).2)
  have hb : bytes src = src.map UInt8.ofNat := by unfold bytes; rw [ht]
  have hbl : (bytes src).length = src.length := by rw [hb]; simp
  have hmin : min src.length (n - v.pos) = src.length := by omega
  obtain ⟨⟨lp, hr⟩, _⟩ := Utf8.round_trip width hw src hg ((v.str.drop v.pos).map UInt8.toNat) (List.replicate src.length 0)
    src.length src.length none (by rw [ht]; omega) (by simp; omega) (by rw [ht]; omega) (by simp)
  rw [ht width] at hr
  have hr' := convertAt_of hr
  obtain ⟨v', e, a, _, _, _, c, d⟩ := appendUTF8_of (src := src) (width := width) (cps := src) w (by omega)
    (by rw [hmin, List.take_length]; exact hr')
  refine ⟨v', e, ?_, d, a⟩
  rw [c, trim_id h0 hg.1 ho (by omega), hb]

/-! ## Disagreements -/

/-- Text that fills the variable loses its last byte: of the euro sign two bytes are left, which is not UTF-8. -/
theorem set_cuts_character : ∃ v, setUTF8 (MixedVar.construct [7, 7, 7]) [0x20AC] 1 4 = .ok v ∧ content v = [0xE2, 0x82] :=
  ⟨_, rfl, by decide⟩

/-- Of text that does not fit the characters that do fit are kept: not a prefix. -/
theorem set_skips_character : ∃ v, setUTF8 (MixedVar.construct [7, 7, 7]) [97, 0x20AC, 98] 3 4 = .ok v ∧ content v = [97, 98] :=
  ⟨_, rfl, by decide⟩

/-- Appending text of one non-ASCII character does nothing, however much room there is. -/
theorem append_drops_character {n : Nat} {v : V} (w : WF n v) (c : Nat) (hc : 0x80 ≤ c) (ho : (content v).getLast? ≠ some 0) :
    ∃ v', appendUTF8 v [c] 4 = .ok v' ∧ content v' = content v := by
  have hl := w.len; have hp := w.pos; have hcl := content_length w
  obtain ⟨cps, h1, h2, h3⟩ := convertAt_safe v.str v.pos [c] 4 1 (by omega)
  have hz : bytes cps = [] := by
    have hA := Utf8.append_code_point c ((v.str.drop v.pos).map UInt8.toNat) 0 1 (by simp; omega)
    have hlen : 2 ≤ (enc8 c).length := by
      unfold enc8
      rw [if_neg (by omega)]
      (repeat' split) <;> simp
    rw [if_neg (by omega)] at hA
    have hC : Utf8.convertTo [c] 4 (some ((v.str.drop v.pos).map UInt8.toNat)) 1 none =
        .ok (⟨some ((v.str.drop v.pos).map UInt8.toNat), 0⟩, none) := by
      generalize (v.str.drop v.pos).map UInt8.toNat = b at hA
      simp [Utf8.convertTo, Utf8.toLoop4, rd, hA, Utf8.lastPosW]
    unfold convertAt at h3
    rw [hC] at h3
    simp at h3
    exact List.length_eq_zero_iff.1 h3.2.symm
  obtain ⟨v', e, _, _, _, _, b, _⟩ := appendUTF8_of (src := [c]) (width := 4) (cps := cps) w (by rw [hz]; simp; omega)
    (by rw [show min [c].length (n - v.pos) = 1 by simp; omega]; exact h3)
  refine ⟨v', e, ?_⟩
  rw [b, hz, List.append_nil]
  unfold trim
  rw [if_neg]
  rintro (h | h)
  · omega
  · exact ho h

end Verif.Utf8Var
