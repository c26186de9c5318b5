import Verif.Utf8Var.Props

/-! # C67: the exact text after every history -/

namespace Verif.Utf8Var
open Spec Verif.MixedVar.Spec Verif.Utf8.Spec
open Verif.MixedVar (V WF content_length)
open Verif.Utf8 (pushAll stored)

namespace Spec

/-- The code points of a wide text: of 16-bit units as `decode16` reads them, of 32-bit units the units themselves. -/
def points (width : Nat) (src : List Nat) : List Nat := if width = 2 then decode16 src else src

/-- The code points that are stored in `room` bytes, `used` of which are in use: from left to right each valid one that still
fits, except that the first one stored is not a combining mark. -/
def fit (room : Nat) : (used : Nat) → List Nat → List Nat
  | _, [] => []
  | used, c :: cs =>
    if Verif.Utf8.Spec.Valid c ∧ ¬ (used = 0 ∧ Combining c) ∧ used + (enc8 c).length ≤ room then
      c :: fit room (used + (enc8 c).length) cs
    else fit room used cs

/-- What a call does to the text, exactly.  `AppendUTF8` looks at no more units, and stores no more bytes, than the smaller of
the number of units and the rest of the variable. -/
def ExactEffect (width n : Nat) (old new : List UInt8) : Op → Prop
  | .base o => MixedVar.Spec.Effect (n - 1) old new o
  | .setUTF8 mem size => new = trim n (bytes (fit n 0 (points width (mem.take size))))
  | .appendUTF8 src =>
    let m := min src.length (n - old.length)
    new = trim n (old ++ bytes (fit m 0 (points width (src.take m))))

inductive ExactEffects (width n : Nat) : List UInt8 → List Op → List UInt8 → Prop
  | nil {t} : ExactEffects width n t [] t
  | cons {t o u os w} : ExactEffect width n t u o → ExactEffects width n u os w → ExactEffects width n t (o :: os) w

end Spec

theorem fit_length (room : Nat) : ∀ (L : List Nat) (used : Nat), used ≤ room → used + (text 1 (fit room used L)).length ≤ room
  | [], used, h => by simpa [fit, text] using h
  | c :: L, used, h => by
    unfold fit
    split
    · rename_i hc
      rw [Utf8.text1_cons, List.length_append]
      have := fit_length room L _ hc.2.2
      omega
    · exact fit_length room L used h

theorem pushAll_exact (max : Nat) : ∀ (L b : List Nat) (n : Nat), n ≤ max → max ≤ b.length →
    pushAll L ⟨some b, n⟩ max = .ok (stored b n (text 1 (fit max n L)))
  | [], b, n, _, _ => by
    rw [pushAll, show fit max n [] = [] from rfl, show text 1 [] = [] from rfl, Utf8.stored_nil]
  | c :: L, b, n, hn, hm => by
    by_cases hr : ¬ Valid c ∨ (n = 0 ∧ Combining c)
    · rw [pushAll, Utf8.appendUTF8_combining _ _ hr, ok_bind]
      unfold fit
      rw [if_neg (fun h => hr.elim (fun h' => h' h.1) h.2.1)]
      exact pushAll_exact max L b n hn hm
    · have hv : Valid c := Classical.byContradiction fun h => hr (.inl h)
      have hc : ¬ (n = 0 ∧ Combining c) := fun h => hr (.inr h)
      by_cases hf : n + (enc8 c).length ≤ max
      · unfold fit
        rw [if_pos ⟨hv, hc, hf⟩, Utf8.text1_cons, pushAll, Utf8.appendUTF8_valid _ _ hv hc,
          Utf8.store_fit _ _ _ _ (Utf8.enc8_ne c) hf hm, ok_bind]
        simp only
        rw [pushAll_exact max L _ _ hf (by rw [Utf8.stored_len _ _ _ (by omega)]; exact hm), Utf8.stored_stored _ _ _ _ (by omega)]
      · unfold fit
        rw [if_neg (fun h => hf h.2.2), pushAll, Utf8.appendUTF8_valid _ _ hv hc,
          Utf8.store_full _ _ _ _ (Utf8.enc8_ne c) (by omega), ok_bind]
        exact pushAll_exact max L b n hn hm

theorem convertAt_exact (str : List UInt8) (off : Nat) (src : List Nat) (w max : Nat) (hw : w = 2 ∨ w = 4) (hm : off + max ≤ str.length) :
    convertAt str off src w max =
      .ok (str.take off ++ bytes (fit max 0 (points w src)) ++ str.drop (off + (bytes (fit max 0 (points w src))).length),
        (bytes (fit max 0 (points w src))).length) := by
  have e : Utf8.codes w src = points w src := by
    unfold Utf8.codes points
    rcases hw with rfl | rfl <;> simp
  obtain ⟨lp, h⟩ := Utf8.convertTo_push src w (some ((str.drop off).map UInt8.toNat)) max none _
    (pushAll_exact max (Utf8.codes w src) ((str.drop off).map UInt8.toNat) 0 (by omega) (by simp; omega))
  rw [Utf8.stored_zero, e] at h
  exact convertAt_of h

theorem step_exact {n : Nat} {v : V} (width : Nat) (hw : width = 2 ∨ width = 4) (w : WF n v) (o : Op) (hl : Legal o) :
    ∃ v', step width v o = .ok v' ∧ WF n v' ∧ ExactEffect width n (content v) (content v') o ∧
      (Terminated v ∨ WritesNul o → Terminated v') := by
  have hlen := w.len; have hpos := w.pos; have hcl := content_length w
  cases o with
  | base o => exact MixedVar.step_ok w o hl
  | setUTF8 mem size =>
    have hb : (bytes (fit n 0 (points width (mem.take size)))).length ≤ n := by
      rw [bytes_length]
      have := fit_length n (points width (mem.take size)) 0 (by omega)
      omega
    have h3 := convertAt_exact v.str 0 (mem.take size) width v.str.length hw (by omega)
    rw [hlen] at h3
    obtain ⟨v', e, a, _, _, _, b, c⟩ := setUTF8_of w hl hb (by rw [hlen]; exact h3)
    exact ⟨v', e, a, b, fun _ => c⟩
  | appendUTF8 src =>
    have hb : (bytes (fit (min src.length (n - v.pos)) 0 (points width (src.take (min src.length (n - v.pos)))))).length
        ≤ min src.length (n - v.pos) := by
      rw [bytes_length]
      have := fit_length (min src.length (n - v.pos)) (points width (src.take (min src.length (n - v.pos)))) 0 (by omega)
      omega
    have h3 := convertAt_exact v.str v.pos (src.take (min src.length (n - v.pos))) width (min src.length (n - v.pos)) hw (by omega)
    obtain ⟨v', e, a, _, _, _, b, c⟩ := appendUTF8_of w (by omega) h3
    refine ⟨v', e, a, ?_, fun _ => c⟩
    show content v' = trim n (content v ++ bytes (fit (min src.length (n - (content v).length)) 0
      (points width (src.take (min src.length (n - (content v).length))))))
    rw [hcl]
    exact b

/-- **C67**.  The exact text after every history of calls on a variable of any size with any initial garbage, for 16-bit and
32-bit units, any units at all: from left to right the code points that fit. -/
theorem wide_text_exact (width : Nat) (hw : width = 2 ∨ width = 4) (junk : List UInt8) (hn : junk ≠ []) (ops : List Op)
    (hl : ∀ o ∈ ops, Legal o) :
    ∃ v, run width (MixedVar.construct junk) ops = .ok v ∧ v.str.length = junk.length ∧ v.pos < v.str.length ∧
      ExactEffects width junk.length [] ops (content v) ∧ ((∃ o ∈ ops, WritesNul o) → Terminated v) := by
  have key : ∀ (ops : List Op) (v : V) (n : Nat), WF n v → (∀ o ∈ ops, Legal o) →
      ∃ v', run width v ops = .ok v' ∧ WF n v' ∧ ExactEffects width n (content v) ops (content v') ∧
        ((Terminated v ∨ ∃ o ∈ ops, WritesNul o) → Terminated v') := by
    intro ops
    induction ops with
    | nil => intro v n w _; exact ⟨v, rfl, w, .nil, fun h => h.elim id (fun ⟨o, ho, _⟩ => by simp at ho)⟩
    | cons o os ih =>
      intro v n w hl
      obtain ⟨v1, e1, w1, he1, ht1⟩ := step_exact width hw w o (hl o (by simp))
      obtain ⟨v2, e2, w2, he2, ht2⟩ := ih v1 n w1 (fun o ho => hl o (by simp [ho]))
      refine ⟨v2, by simp [run, e1, e2], w2, .cons he1 he2, fun h => ht2 ?_⟩
      rcases h with h | ⟨o', ho, hw⟩
      · exact Or.inl (ht1 (Or.inl h))
      · rcases List.mem_cons.1 ho with rfl | ho
        · exact Or.inl (ht1 (Or.inr hw))
        · exact Or.inr ⟨o', ho, hw⟩
  have hpos : 0 < junk.length := List.length_pos_iff.2 hn
  obtain ⟨v, e, w, he, ht⟩ := key ops (MixedVar.construct junk) junk.length ⟨rfl, by simp [MixedVar.construct]; omega⟩ hl
  have h1 := w.len; have h2 := w.pos
  exact ⟨v, e, h1, by omega, he, fun h => ht (Or.inr h)⟩

/-- A character beyond ASCII takes more bytes than units. -/
theorem enc_length (width : Nat) (hw : width = 2 ∨ width = 4) (c : Nat) : (enc width c).length ≤ (enc8 c).length ∧
    (0x80 ≤ c → (enc width c).length < (enc8 c).length) := by
  have h1 : width ≠ 1 := by omega
  unfold enc
  rw [if_neg h1]
  unfold enc8 enc16
  (repeat' split) <;> simp <;> omega

theorem text_length (width : Nat) (hw : width = 2 ∨ width = 4) : ∀ cps : List Nat, (text width cps).length ≤ (text 1 cps).length ∧
    ((∃ c ∈ cps, 0x80 ≤ c) → (text width cps).length < (text 1 cps).length)
  | [] => by simp [text]
  | c :: cs => by
    obtain ⟨h1, h2⟩ := enc_length width hw c
    obtain ⟨h3, h4⟩ := text_length width hw cs
    have e : ∀ w, text w (c :: cs) = enc w c ++ text w cs := fun w => by simp [text]
    have e1 : enc 1 c = enc8 c := rfl
    rw [e, e, e1, List.length_append, List.length_append]
    refine ⟨by omega, ?_⟩
    rintro ⟨d, hd, hd'⟩
    rcases List.mem_cons.1 hd with rfl | hd
    · have := h2 hd'; omega
    · have := h4 ⟨d, hd, hd'⟩; omega

/-- **C67**, negation: however much room there is, `AppendUTF8` appends a text completely exactly when it is ASCII. -/
theorem append_complete_iff {n : Nat} {v : V} (w : WF n v) (width : Nat) (hw : width = 2 ∨ width = 4) (cps : List Nat)
    (hg : GoodText cps) (h0 : 0 ∉ cps) (ho : (0 : UInt8) ∉ content v) (hf : v.pos + (bytes cps).length < n) :
    ∃ v', appendUTF8 v (text width cps) width = .ok v' ∧ (content v' = content v ++ bytes cps ↔ ∀ c ∈ cps, c < 0x80) := by
  have hcl := content_length w
  have hleg : Legal (.appendUTF8 (text width cps)) :=
    fun h => Utf8.text_no_zero width (.inr hw) cps (fun c hc => (hg.1 c hc).1) h0 h
  obtain ⟨v', e, -, he, -⟩ := step_exact width hw w (.appendUTF8 (text width cps)) hleg
  refine ⟨v', e, fun heq c hc => ?_, fun ha => ?_⟩
  · apply Nat.lt_of_not_le
    intro h80
    have hlt := (text_length width hw cps).2 ⟨c, hc, h80⟩
    have hlen : (content v').length ≤ (content v).length + (text width cps).length := by
      change content v' = trim n _ at he
      rw [he]
      have hb := fit_length (min (text width cps).length (n - (content v).length))
        (points width ((text width cps).take (min (text width cps).length (n - (content v).length)))) 0 (by omega)
      rw [← bytes_length] at hb
      unfold trim
      split <;> simp only [List.length_dropLast, List.length_append] <;> omega
    rw [heq, List.length_append, bytes_length] at hlen
    omega
  · have ht : ∀ k, text k cps = cps := by
      intro k
      have : ∀ l : List Nat, (∀ c ∈ l, c < 0x80) → l.flatMap (enc k) = l := by
        intro l
        induction l with
        | nil => intro _; rfl
        | cons c l ih =>
          intro h
          have hc : c < 0x80 := h c (by simp)
          rw [List.flatMap_cons, ih (fun d hd => h d (by simp [hd]))]
          have : enc k c = [c] := by
            unfold enc enc8 enc16
            rw [if_pos hc, if_pos (show c < 0x10000 by omega)]
            repeat' split
            all_goals rfl
          rw [this]; rfl
      exact this cps ha
    have hb : bytes cps = cps.map UInt8.ofNat := by unfold bytes; rw [ht]
    have hbl : (bytes cps).length = cps.length := by rw [hb]; simp
    obtain ⟨v2, e2, c2, -⟩ := append_ascii_partial w width hw cps (fun c hc => ⟨fun h => h0 (h ▸ hc), ha c hc⟩) ho (by omega)
    change appendUTF8 v (text width cps) width = .ok v' at e
    rw [ht width, e2] at e
    cases e
    rw [c2, hb]

/-- Too little room: the characters that fit are stored, whatever stands between them; the last byte makes room for the NUL. -/
example : ExactEffect 4 5 [] [97, 0xE2, 0x82, 0xAC] (.setUTF8 [97, 0x20AC, 0xD800, 0x1F600, 98, 99] 6) := by
  unfold ExactEffect; decide

/-- Four units, so four bytes: of two euro signs and two letters one of each is appended. -/
example : ExactEffect 4 20 [120] [120, 0xE2, 0x82, 0xAC, 97] (.appendUTF8 [0x20AC, 0x20AC, 97, 98]) := by
  unfold ExactEffect; decide

/-- A variable and a text that meet the hypotheses of `append_complete_iff`. -/
example : WF 20 (⟨.str, 0, 0, (List.replicate 20 0).set 0 120, 1⟩ : V) ∧ GoodText [0xE9, 97] ∧ 0 ∉ [0xE9, 97] ∧
    (0 : UInt8) ∉ content (⟨.str, 0, 0, (List.replicate 20 0).set 0 120, 1⟩ : V) ∧ 1 + (bytes [0xE9, 97]).length < 20 := by
  refine ⟨⟨rfl, by decide⟩, ⟨by decide, by decide⟩, by decide, by decide, by decide⟩

end Verif.Utf8Var
