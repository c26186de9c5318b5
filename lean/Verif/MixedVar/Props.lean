import Verif.MixedVar.Spec
import Verif.ConvertInt.Lemmas

/-! # Properties C41, C42 of `StaticMixedVar` -/

namespace Verif.MixedVar
open Spec

/-- The text ends inside the buffer. -/
structure WF (n : Nat) (v : V) : Prop where
  len : v.str.length = n
  pos : v.pos + 1 ≤ n

theorem set_take {m : List UInt8} {i : Nat} (c : UInt8) (h : i < m.length) :
    (m.set i c).take (i + 1) = m.take i ++ [c] := by
  rw [List.take_add_one, List.getElem?_set_self h, List.take_set_of_le (Nat.le_refl _)]
  rfl

/-- The outcome of a text-changing part: same size, values kept, new text. -/
structure To (n : Nat) (v v' : V) (t : List UInt8) : Prop where
  wf : WF n v'
  mode : v'.mode = v.mode
  mxInt : v'.mxInt = v.mxInt
  dbl : v'.dbl = v.dbl
  text : content v' = t

theorem content_length {n : Nat} {v : V} (w : WF n v) : (content v).length = v.pos := by
  have := w.len; have := w.pos
  simp [content]; omega

theorem cstr_cons (c : UInt8) (cs : List UInt8) (h : c ≠ 0) : cstr (c :: cs) = c :: cstr cs := by
  simp [cstr, h]

theorem copyStr_ok {n : Nat} : ∀ (s : List UInt8) (v : V), WF n v →
    ∃ v', copyStr v s = .ok v' ∧ To n v v' (app (n - 1) (content v) (cstr s))
  | [], v, w => by
    refine ⟨v, rfl, w, rfl, rfl, rfl, ?_⟩
    have := content_length w; have := w.pos
    simp only [app, cstr, List.append_nil]
    rw [List.take_of_length_le (by omega)]
  | c :: cs, v, w => by
    have hl := w.len; have hp := w.pos; have hc := content_length w
    unfold copyStr
    by_cases h : v.pos < v.str.length - 1 ∧ c ≠ 0
    · rw [if_pos h]
      have hlt : v.pos < v.str.length := by omega
      rw [wr_ok c hlt]
      simp only [ok_bind]
      obtain ⟨v', e, hw, h1, h2, h3, h4⟩ := copyStr_ok cs { v with str := v.str.set v.pos c, pos := v.pos + 1 }
        ⟨by simpa using hl, by simp only; omega⟩
      refine ⟨v', e, hw, h1, h2, h3, ?_⟩
      rw [h4, cstr_cons _ _ h.2]
      simp only [content, set_take c hlt, app]
      simp
    · rw [if_neg h]
      refine ⟨v, rfl, w, rfl, rfl, rfl, ?_⟩
      by_cases h0 : c = 0
      · subst h0
        simp only [app, cstr, if_true, List.append_nil]
        rw [List.take_of_length_le (by omega)]
      · have : v.pos = n - 1 := by
          have : ¬ v.pos < v.str.length - 1 := fun h' => h ⟨h', h0⟩
          omega
        unfold app
        rw [List.take_append_of_le_length (by omega), List.take_of_length_le (by omega)]

theorem copyData_ok {n : Nat} (mem : List UInt8) : ∀ (k i : Nat) (v : V), WF n v → i + k ≤ mem.length →
    ∃ v', copyData v mem k i = .ok v' ∧ To n v v' (app (n - 1) (content v) ((mem.drop i).take k))
  | 0, i, v, w, _ => by
    refine ⟨v, rfl, w, rfl, rfl, rfl, ?_⟩
    have := content_length w; have := w.pos
    simp only [app, List.take_zero, List.append_nil]
    rw [List.take_of_length_le (by omega)]
  | k + 1, i, v, w, hm => by
    have hl := w.len; have hp := w.pos; have hc := content_length w
    unfold copyData
    by_cases h : v.pos < v.str.length - 1
    · rw [if_pos h]
      have hlt : v.pos < v.str.length := by omega
      have hi : i < mem.length := by omega
      rw [rd_ok hi]
      simp only [ok_bind]
      rw [wr_ok _ hlt]
      simp only [ok_bind]
      obtain ⟨v', e, hw, h1, h2, h3, h4⟩ := copyData_ok mem k (i + 1)
        { v with str := v.str.set v.pos mem[i], pos := v.pos + 1 } ⟨by simpa using hl, by simp only; omega⟩ (by omega)
      refine ⟨v', e, hw, h1, h2, h3, ?_⟩
      have he : (mem.drop i).take (k + 1) = mem[i] :: (mem.drop (i + 1)).take k := by
        rw [List.drop_eq_getElem_cons hi, List.take_succ_cons]
      rw [h4, he]
      simp only [content, set_take _ hlt, app]
      simp
    · rw [if_neg h]
      refine ⟨v, rfl, w, rfl, rfl, rfl, ?_⟩
      unfold app
      rw [List.take_append_of_le_length (by omega), List.take_of_length_le (by omega)]

theorem term_ok {n : Nat} {v : V} (w : WF n v) :
    ∃ v', term v = .ok v' ∧ To n v v' (content v) ∧ Terminated v' := by
  have hl := w.len; have hp := w.pos
  have hlt : v.pos < v.str.length := by omega
  refine ⟨{ v with str := v.str.set v.pos 0 }, by simp [term, wr_ok 0 hlt], ⟨⟨by simpa using hl, hp⟩, rfl, rfl, rfl, ?_⟩, ?_⟩
  · simp only [content]
    rw [List.take_set_of_le (Nat.le_refl _)]
  · simp [Terminated, hlt]

theorem appendStr_ok {n : Nat} {v : V} (w : WF n v) (s : List UInt8) :
    ∃ v', appendStr v s = .ok v' ∧ To n v v' (app (n - 1) (content v) (cstr s)) ∧ Terminated v' := by
  obtain ⟨v1, e1, t1⟩ := copyStr_ok s v w
  obtain ⟨v2, e2, t2, h2⟩ := term_ok t1.wf
  exact ⟨v2, by simp [appendStr, e1, e2],
    ⟨t2.wf, t2.mode.trans t1.mode, t2.mxInt.trans t1.mxInt, t2.dbl.trans t1.dbl, by rw [t2.text, t1.text]⟩, h2⟩

theorem appendData_ok {n : Nat} {v : V} (w : WF n v) (mem : List UInt8) (k : Nat) (hk : k ≤ mem.length) :
    ∃ v', appendData v mem k = .ok v' ∧ To n v v' (app (n - 1) (content v) (mem.take k)) ∧ Terminated v' := by
  obtain ⟨v1, e1, t1⟩ := copyData_ok mem k 0 v w (by omega)
  obtain ⟨v2, e2, t2, h2⟩ := term_ok t1.wf
  exact ⟨v2, by simp [appendData, e1, e2],
    ⟨t2.wf, t2.mode.trans t1.mode, t2.mxInt.trans t1.mxInt, t2.dbl.trans t1.dbl, by rw [t2.text, t1.text]; simp⟩, h2⟩

theorem prependData_ok {n : Nat} {v : V} (w : WF n v) (mem : List UInt8) (k : Nat) (hk : k ≤ mem.length) :
    ∃ v', prependData v mem k = .ok v' ∧ To n v v' (pre (n - 1) (content v) (mem.take k)) ∧
      (Terminated v → Terminated v') := by
  have hl := w.len; have hp := w.pos; have hc := content_length w
  have hk' : (mem.take k).length = k := by simp; omega
  unfold prependData
  by_cases h : v.pos + k < v.str.length - 1
  · rw [if_pos h]
    have h1 : memmoveIn v.str k 0 (v.pos + 1) = .ok (v.str.take k ++ v.str.take (v.pos + 1) ++ v.str.drop (k + (v.pos + 1))) := by
      unfold memmoveIn
      rw [if_pos (by omega), if_pos (by omega)]
      simp
    have hlen1 : (v.str.take k ++ v.str.take (v.pos + 1) ++ v.str.drop (k + (v.pos + 1))).length = v.str.length := by
      simp; omega
    have hd : (v.str.take k ++ v.str.take (v.pos + 1) ++ v.str.drop (k + (v.pos + 1))).drop k =
        v.str.take (v.pos + 1) ++ v.str.drop (k + (v.pos + 1)) := by
      rw [List.append_assoc]
      rw [List.drop_append_of_le_length (by simp; omega)]
      simp
    have h2 : memcpyTo (v.str.take k ++ v.str.take (v.pos + 1) ++ v.str.drop (k + (v.pos + 1))) 0 mem k =
        .ok (mem.take k ++ (v.str.take (v.pos + 1) ++ v.str.drop (k + (v.pos + 1)))) := by
      unfold memcpyTo
      rw [if_pos hk, if_pos (by omega)]
      simp only [List.take_zero, List.nil_append, Nat.zero_add]
      rw [hd]
    refine ⟨{ v with str := mem.take k ++ (v.str.take (v.pos + 1) ++ v.str.drop (k + (v.pos + 1))), pos := v.pos + k },
      by rw [h1, ok_bind, h2, ok_bind], ⟨⟨by simp; omega, by simp only; omega⟩, rfl, rfl, rfl, ?_⟩, ?_⟩
    · unfold pre
      rw [if_pos (by omega)]
      simp only [content]
      have e1 : v.pos + k = (mem.take k).length + v.pos := by omega
      rw [e1, List.take_length_add_append, List.take_append_of_le_length (by simp; omega), List.take_take]
      congr 2
      omega
    · intro ht
      unfold Terminated at ht ⊢
      simp only
      rw [List.getElem?_append_right (by omega), hk', Nat.add_sub_cancel,
        List.getElem?_append_left (by simp; omega), List.getElem?_take, if_pos (by omega)]
      exact ht
  · rw [if_neg h]
    refine ⟨v, rfl, ⟨w, rfl, rfl, rfl, ?_⟩, id⟩
    unfold pre
    rw [if_neg (by omega)]

theorem cstr_prefix : ∀ s : List UInt8, s.take (cstr s).length = cstr s ∧ (cstr s).length ≤ s.length
  | [] => by simp [cstr]
  | c :: cs => by
    obtain ⟨h1, h2⟩ := cstr_prefix cs
    by_cases h : c = 0
    · simp [cstr, h]
    · rw [cstr_cons _ _ h]
      simp [h1, h2]

theorem prependStr_ok {n : Nat} {v : V} (w : WF n v) (s : List UInt8) :
    ∃ v', prependStr v s = .ok v' ∧ To n v v' (pre (n - 1) (content v) (cstr s)) ∧
      (Terminated v → Terminated v') := by
  obtain ⟨h1, h2⟩ := cstr_prefix s
  have := prependData_ok w s (cstr s).length h2
  rw [h1] at this
  exact this

/-! ## Integers -/

theorem intLoop_eq (radix : Nat) (hr : 2 ≤ radix) : ∀ (x : Nat) (m : List UInt8) (y num : Nat),
    ConvertInt.loop 0 radix x m y num = (intLoop radix x m num).map (fun r => .fall r.1 r.2.1 r.2.2)
  | 0, m, y, num => by simp [ConvertInt.loop, intLoop, Except.map]
  | 1, m, y, num => by
    have hd : ConvertInt.digitChar (num % radix) = digit (num % radix) := rfl
    unfold ConvertInt.loop intLoop
    by_cases h : num = 0
    · simp [h, Except.map]
    · simp only [h, if_false, hd]
      rw [if_neg (show ¬ radix = 0 by omega)]
      cases hw : wr m 0 (digit (num % radix)) with
      | error e => simp [Except.map]
      | ok m' => simp [intLoop, Except.map]
  | x + 2, m, y, num => by
    have hd : ConvertInt.digitChar (num % radix) = digit (num % radix) := rfl
    conv => lhs; unfold ConvertInt.loop
    rw [intLoop.eq_def]
    by_cases h : num = 0
    · simp [h, Except.map]
    · simp only [h, if_false, hd, ne_eq, not_true_eq_false, false_and]
      rw [if_neg (show ¬ radix = 0 by omega)]
      cases hw : wr m (x + 1) (digit (num % radix)) with
      | error e => simp [Except.map]
      | ok m' =>
        simp only [ok_bind]
        exact intLoop_eq radix hr (x + 1) m' (y + 1) (num / radix)

theorem intToStringU_eq (m : List UInt8) (num radix : Nat) (hr : 2 ≤ radix) (hr' : radix ≤ 36) :
    intToStringU m num radix = ConvertInt.toStringU m num 0 radix := by
  unfold intToStringU ConvertInt.toStringU
  by_cases h : m.length < 2
  · simp [h]
  · simp only [h, if_false, false_or]
    rw [if_neg (by omega)]
    cases hw : wr m (m.length - 1) 0 with
    | error e => simp
    | ok m' =>
      simp only [ok_bind]
      split
      · rfl
      · rw [intLoop_eq radix hr]
        cases hl : intLoop radix (m'.length - 1) m' num with
        | error e => simp [Except.map]
        | ok r => obtain ⟨a, b, c⟩ := r; simp [Except.map]

/-- Without a valid radix the conversion still stays inside its buffer. -/
theorem intLoop_safe (radix : Nat) (hr : radix ≠ 0) : ∀ (x : Nat) (m : List UInt8) (num : Nat), x ≤ m.length →
    ∃ m' x' n', intLoop radix x m num = .ok (m', x', n') ∧ m'.length = m.length ∧ x' ≤ m.length
  | 0, m, num, _ => ⟨m, 0, num, rfl, rfl, Nat.zero_le _⟩
  | x + 1, m, num, h => by
    unfold intLoop
    by_cases h0 : num = 0
    · rw [if_pos h0]; exact ⟨m, x + 1, num, rfl, rfl, h⟩
    · rw [if_neg h0, if_neg hr, wr_ok _ (by omega)]
      simp only [ok_bind]
      obtain ⟨m', x', n', h1, h2, h3⟩ := intLoop_safe radix hr x (m.set x (digit (num % radix))) (num / radix) (by simp; omega)
      exact ⟨m', x', n', h1, by simpa using h2, by simpa using h3⟩

theorem intToStringU_safe (m : List UInt8) (num radix : Nat) (hr : radix ≠ 0) :
    ∃ ok m', intToStringU m num radix = .ok (ok, m') := by
  unfold intToStringU
  by_cases h : m.length < 2
  · rw [if_pos h]; exact ⟨_, _, rfl⟩
  · rw [if_neg h, wr_ok _ (by omega)]
    simp only [ok_bind]
    have hl : (m.set (m.length - 1) 0).length = m.length := by simp
    by_cases h0 : num = 0
    · rw [if_pos h0, wr_ok _ (by omega)]
      simp only [ok_bind]
      refine ⟨true, ?_⟩
      simp only [memmoveIn]
      rw [if_pos (by simp; omega), if_pos (by simp; omega)]
      exact ⟨_, rfl⟩
    · rw [if_neg h0]
      obtain ⟨m', x', n', h1, h2, h3⟩ := intLoop_safe radix hr ((m.set (m.length - 1) 0).length - 1)
        (m.set (m.length - 1) 0) num (by omega)
      rw [h1]
      simp only [ok_bind]
      by_cases hn : n' = 0
      · rw [if_neg (by simpa using hn)]
        simp only [memmoveIn]
        rw [if_pos (by omega), if_pos (by omega)]
        exact ⟨_, _, rfl⟩
      · rw [if_pos hn]
        exact ⟨_, _, rfl⟩

theorem intToStringI_safe (num : Int) (radix : Nat) (hr : radix ≠ 0) (h : -(2 ^ 63) < num) :
    ∃ ok m', intToStringI (List.replicate 44 0) num radix = .ok (ok, m') := by
  unfold intToStringI
  by_cases h0 : 0 ≤ num
  · rw [if_pos h0]; exact intToStringU_safe _ _ _ hr
  · rw [if_neg h0, if_neg (by simp)]
    obtain ⟨ok, m', e⟩ := intToStringU_safe (List.replicate 43 0) (-num).toNat radix hr
    have e43 : List.replicate 44 (0 : UInt8) = 0 :: List.replicate 43 0 := rfl
    rw [e43]
    simp only
    rw [if_neg (by omega), e]
    exact ⟨ok, _, rfl⟩

theorem digitChars_ne_zero : ∀ c ∈ ConvertInt.Spec.digitChars, c ≠ 0 := by decide

theorem rendering_no_zero {radix n : Nat} {t : List UInt8} (h : ConvertInt.Spec.IsRendering radix 0 n t) : 0 ∉ t := by
  obtain ⟨ds, h1, cs, hcs, rfl⟩ := h
  rw [ConvertInt.group_none]
  intro h0
  exact digitChars_ne_zero 0 (ConvertInt.digits_mem hcs 0 h0) rfl

theorem cstr_append : ∀ (t rest : List UInt8), 0 ∉ t → cstr (t ++ 0 :: rest) = t
  | [], rest, _ => by simp [cstr]
  | c :: t, rest, h => by
    have hc : c ≠ 0 := fun e => h (by simp [e])
    have ht : 0 ∉ t := fun e => h (by simp [e])
    simp [cstr, hc, cstr_append t rest ht]

theorem intU_text (L num radix : Nat) (hr : 2 ≤ radix) (hr' : radix ≤ 36) :
    ∃ t, ConvertInt.Spec.IsRendering radix 0 num t ∧ 0 ∉ t ∧
      (t.length + 1 ≤ L → ∃ rest, intToStringU (List.replicate L 0) num radix = .ok (true, t ++ 0 :: rest)) ∧
      (L < t.length + 1 → ∃ m, intToStringU (List.replicate L 0) num radix = .ok (false, m)) := by
  obtain ⟨t, ht, h1, h2⟩ := ConvertInt.toStringU_spec (List.replicate L 0) num 0 radix hr hr'
  refine ⟨t, ht, rendering_no_zero ht, fun h => ?_, fun h => ?_⟩
  · obtain ⟨rest, h3, -⟩ := h1 (by simpa using h)
    exact ⟨rest, by rw [intToStringU_eq _ _ _ hr hr']; exact h3⟩
  · obtain ⟨m, h3, h4⟩ := h2 (by simpa using h)
    rw [intToStringU_eq _ _ _ hr hr']
    exact ⟨m, by first | exact h3 | exact h4⟩

/-- What happens to the temporary buffer: the text of the number if it has at most 43 characters. -/
theorem intI_text (num : Int) (radix : Nat) (hr : 2 ≤ radix) (hr' : radix ≤ 36) (h : -(2 ^ 63) < num) :
    ∃ t, IntText radix num t ∧
      (t.length ≤ 43 → ∃ m, intToStringI (List.replicate 44 0) num radix = .ok (true, m) ∧ cstr m = t) ∧
      (43 < t.length → ∃ m, intToStringI (List.replicate 44 0) num radix = .ok (false, m)) := by
  unfold intToStringI
  by_cases h0 : 0 ≤ num
  · rw [if_pos h0]
    obtain ⟨t, ht, hz, h1, h2⟩ := intU_text 44 num.toNat radix hr hr'
    have hn : num.natAbs = num.toNat := by omega
    refine ⟨t, ⟨t, by rw [hn]; exact ht, by simp [Int.not_lt.2 h0]⟩, fun hl => ?_, fun hl => h2 (by omega)⟩
    obtain ⟨rest, e⟩ := h1 (by omega)
    exact ⟨_, e, cstr_append t rest hz⟩
  · rw [if_neg h0, if_neg (by simp)]
    obtain ⟨t, ht, hz, h1, h2⟩ := intU_text 43 (-num).toNat radix hr hr'
    have hn : num.natAbs = (-num).toNat := by omega
    have e43 : List.replicate 44 (0 : UInt8) = 0 :: List.replicate 43 0 := rfl
    rw [e43]
    simp only
    rw [if_neg (by omega)]
    refine ⟨45 :: t, ⟨t, by rw [hn]; exact ht, by simp [Int.not_le.1 h0]⟩, fun hl => ?_, fun hl => ?_⟩
    · simp only [List.length_cons] at hl
      obtain ⟨rest, e⟩ := h1 (by omega)
      rw [e]
      refine ⟨_, rfl, ?_⟩
      show (if (45 : UInt8) = 0 then [] else 45 :: cstr (t ++ 0 :: rest)) = _
      rw [if_neg (by decide), cstr_append _ _ hz]
    · simp only [List.length_cons] at hl
      obtain ⟨m, e⟩ := h2 (by omega)
      rw [e]
      exact ⟨_, rfl⟩

theorem cstr_cstr : ∀ t : List UInt8, cstr (cstr t) = cstr t
  | [] => rfl
  | c :: t => by
    by_cases h : c = 0
    · simp [cstr, h]
    · rw [cstr_cons _ _ h, cstr_cons _ _ h, cstr_cstr t]

/-- The common form of the four integer calls. -/
theorem withInt_ok {n : Nat} {v : V} (w : WF n v) (num : Int) (radix : Nat) (f : V → List UInt8 → CRes V)
    (g : List UInt8 → List UInt8 → List UInt8) (r : CRes (Bool × List UInt8))
    (hf : ∀ t, ∃ v', f v t = .ok v' ∧ To n v v' (g (content v) (cstr t)) ∧ (Terminated v → Terminated v'))
    (hsafe : ∃ ok m, r = .ok (ok, m))
    (ht : 2 ≤ radix ∧ radix ≤ 36 → ∃ t, IntText radix num t ∧
      (t.length ≤ 43 → ∃ m, r = .ok (true, m) ∧ cstr m = t) ∧ (43 < t.length → ∃ m, r = .ok (false, m))) :
    ∃ v', withInt v r f = .ok v' ∧ (∃ t, To n v v' t) ∧ (Terminated v → Terminated v') ∧
      (2 ≤ radix ∧ radix ≤ 36 → ∃ t, IntText radix num t ∧
        content v' = if t.length ≤ 43 then g (content v) t else content v) := by
  obtain ⟨ok, m, hr⟩ := hsafe
  cases ok with
  | true =>
    obtain ⟨v', e, t', h'⟩ := hf (cstr m)
    refine ⟨v', by simp [withInt, hr, e], ⟨_, t'⟩, h', fun h => ?_⟩
    obtain ⟨t, h1, h2, h3⟩ := ht h
    refine ⟨t, h1, ?_⟩
    by_cases hl : t.length ≤ 43
    · rw [if_pos hl]
      obtain ⟨m', hm, hc⟩ := h2 hl
      rw [hr] at hm
      cases hm
      rw [t'.text, cstr_cstr, hc]
    · obtain ⟨m', hm⟩ := h3 (by omega)
      rw [hr] at hm
      cases hm
  | false =>
    refine ⟨v, by simp [withInt, hr], ⟨_, w, rfl, rfl, rfl, rfl⟩, id, fun h => ?_⟩
    obtain ⟨t, h1, h2, h3⟩ := ht h
    refine ⟨t, h1, ?_⟩
    by_cases hl : t.length ≤ 43
    · obtain ⟨m', hm, -⟩ := h2 hl
      rw [hr] at hm
      cases hm
    · rw [if_neg hl]

theorem getLast_content {n : Nat} {v : V} (w : WF n v) (c : UInt8) :
    endsWith v c = .ok (decide ((content v).getLast? = some c)) := by
  have hl := w.len; have hp := w.pos; have hc := content_length w
  unfold endsWith
  by_cases h0 : v.pos = 0
  · rw [if_pos h0]
    have : content v = [] := by simp [content, h0]
    rw [this]; simp
  · rw [if_neg h0]
    have hlt : v.pos - 1 < v.str.length := by omega
    rw [rd_ok hlt]
    simp only [ok_bind]
    have hg : (content v).getLast? = some v.str[v.pos - 1] := by
      rw [List.getLast?_eq_getElem?, hc]
      simp only [content]
      rw [List.getElem?_take, if_pos (by omega), List.getElem?_eq_getElem hlt]
    simp [hg]

theorem appendChar_ok {n : Nat} {v : V} (w : WF n v) (c : UInt8) :
    ∃ v', appendChar v c = .ok v' ∧ To n v v' (app (n - 1) (content v) [c]) ∧ (Terminated v → Terminated v') := by
  have hl := w.len; have hp := w.pos; have hc := content_length w
  unfold appendChar
  by_cases h : v.pos < v.str.length - 1
  · rw [if_pos h]
    have hlt : v.pos < v.str.length := by omega
    rw [wr_ok _ hlt, ok_bind]
    obtain ⟨v', e, t, ht⟩ := term_ok (n := n) (v := { v with str := v.str.set v.pos c, pos := v.pos + 1 })
      ⟨by simpa using hl, by simp only; omega⟩
    refine ⟨v', e, ⟨t.wf, t.mode, t.mxInt, t.dbl, ?_⟩, fun _ => ht⟩
    rw [t.text]
    simp only [content, set_take c hlt, app]
    exact (List.take_of_length_le (by simp; omega)).symm
  · rw [if_neg h]
    refine ⟨v, rfl, ⟨w, rfl, rfl, rfl, ?_⟩, id⟩
    unfold app
    rw [List.take_append_of_le_length (by omega), List.take_of_length_le (by omega)]

/-- One call. -/
theorem step_ok {n : Nat} {v : V} (w : WF n v) (o : Op) (hl : Legal o) :
    ∃ v', step v o = .ok v' ∧ WF n v' ∧ Effect (n - 1) (content v) (content v') o ∧
      (Terminated v ∨ WritesNul o → Terminated v') := by
  have pk : ∀ {x : CRes V} {u : List UInt8}, (∃ v', x = .ok v' ∧ To n v v' u ∧ (Terminated v → Terminated v')) →
      ¬ WritesNul o → (∀ v' : V, content v' = u → Effect (n - 1) (content v) (content v') o) →
      ∃ v', x = .ok v' ∧ WF n v' ∧ Effect (n - 1) (content v) (content v') o ∧
        (Terminated v ∨ WritesNul o → Terminated v') := by
    rintro x u ⟨v', e, t, h⟩ hw he
    exact ⟨v', e, t.wf, he v' t.text, fun h' => h (h'.resolve_right hw)⟩
  have pk2 : ∀ {x : CRes V} {u : List UInt8} {v0 : V}, (∃ v', x = .ok v' ∧ To n v0 v' u ∧ Terminated v') →
      (∀ v' : V, content v' = u → Effect (n - 1) (content v) (content v') o) →
      ∃ v', x = .ok v' ∧ WF n v' ∧ Effect (n - 1) (content v) (content v') o ∧
        (Terminated v ∨ WritesNul o → Terminated v') := by
    rintro x u v0 ⟨v', e, t, h⟩ he
    exact ⟨v', e, t.wf, he v' t.text, fun _ => h⟩
  have hlen := w.len; have hpos := w.pos; have hcl := content_length w
  have w0 : WF n { v with mode := .str, pos := 0 } := ⟨w.len, by simp only; omega⟩
  have c0 : content { v with mode := Mode.str, pos := 0 } = [] := by simp [content]
  cases o with
  | setBool b => exact ⟨_, rfl, ⟨w.len, w.pos⟩, rfl, fun h => h.resolve_right id⟩
  | setInt b => exact ⟨_, rfl, ⟨w.len, w.pos⟩, rfl, fun h => h.resolve_right id⟩
  | setUInt b => exact ⟨_, rfl, ⟨w.len, w.pos⟩, rfl, fun h => h.resolve_right id⟩
  | setDouble b => exact ⟨_, rfl, ⟨w.len, w.pos⟩, rfl, fun h => h.resolve_right id⟩
  | setStr s =>
    refine pk2 (appendStr_ok w0 s) (fun v' h => ?_)
    show content v' = (cstr s).take (n - 1)
    rw [h, c0]; rfl
  | setData mem k =>
    refine pk2 (appendData_ok w0 mem k hl) (fun v' h => ?_)
    show content v' = (mem.take k).take (n - 1)
    rw [h, c0]; rfl
  | prependStr s => exact pk (prependStr_ok w s) id (fun v' h => h)
  | prependDouble s => exact pk (prependStr_ok w s) id (fun v' h => h)
  | prependData mem k => exact pk (prependData_ok w mem k hl) id (fun v' h => h)
  | appendStr s => exact pk2 (appendStr_ok w s) (fun v' h => h)
  | appendDouble s => exact pk2 (appendStr_ok w s) (fun v' h => h)
  | appendData mem k => exact pk2 (appendData_ok w mem k hl) (fun v' h => h)
  | prependInt num r =>
    obtain ⟨v', e, ⟨t, ht⟩, h1, h2⟩ := withInt_ok w num r prependStr (pre (n - 1)) _ (prependStr_ok w)
      (intToStringI_safe num r hl.2.2 hl.1) (fun h => intI_text num r h.1 h.2 hl.1)
    exact ⟨v', e, ht.wf, h2, fun h => h1 (h.resolve_right id)⟩
  | appendInt num r =>
    obtain ⟨v', e, ⟨t, ht⟩, h1, h2⟩ := withInt_ok w num r appendStr (app (n - 1)) _
      (fun t => by obtain ⟨v', a, b, c⟩ := appendStr_ok w t; exact ⟨v', a, b, fun _ => c⟩)
      (intToStringI_safe num r hl.2.2 hl.1) (fun h => intI_text num r h.1 h.2 hl.1)
    exact ⟨v', e, ht.wf, h2, fun h => h1 (h.resolve_right id)⟩
  | prependUInt num r =>
    have hU : 2 ≤ r ∧ r ≤ 36 → ∃ t, IntText r num t ∧
        (t.length ≤ 43 → ∃ m, intToStringU (List.replicate 44 0) num r = .ok (true, m) ∧ cstr m = t) ∧
        (43 < t.length → ∃ m, intToStringU (List.replicate 44 0) num r = .ok (false, m)) := by
      intro h
      obtain ⟨t, h1, h2, h3, h4⟩ := intU_text 44 num r h.1 h.2
      refine ⟨t, ⟨t, by simpa using h1, by rw [if_neg (by omega)]; rfl⟩, fun hl => ?_, fun hl => h4 (by omega)⟩
      obtain ⟨rest, e⟩ := h3 (by omega)
      exact ⟨_, e, cstr_append _ _ h2⟩
    obtain ⟨v', e, ⟨t, ht⟩, h1, h2⟩ := withInt_ok w num r prependStr (pre (n - 1)) _ (prependStr_ok w)
      (intToStringU_safe (List.replicate 44 0) num r hl.2) hU
    exact ⟨v', e, ht.wf, h2, fun h => h1 (h.resolve_right id)⟩
  | appendUInt num r =>
    have hU : 2 ≤ r ∧ r ≤ 36 → ∃ t, IntText r num t ∧
        (t.length ≤ 43 → ∃ m, intToStringU (List.replicate 44 0) num r = .ok (true, m) ∧ cstr m = t) ∧
        (43 < t.length → ∃ m, intToStringU (List.replicate 44 0) num r = .ok (false, m)) := by
      intro h
      obtain ⟨t, h1, h2, h3, h4⟩ := intU_text 44 num r h.1 h.2
      refine ⟨t, ⟨t, by simpa using h1, by rw [if_neg (by omega)]; rfl⟩, fun hl => ?_, fun hl => h4 (by omega)⟩
      obtain ⟨rest, e⟩ := h3 (by omega)
      exact ⟨_, e, cstr_append _ _ h2⟩
    obtain ⟨v', e, ⟨t, ht⟩, h1, h2⟩ := withInt_ok w num r appendStr (app (n - 1)) _
      (fun t => by obtain ⟨v', a, b, c⟩ := appendStr_ok w t; exact ⟨v', a, b, fun _ => c⟩)
      (intToStringU_safe (List.replicate 44 0) num r hl.2) hU
    exact ⟨v', e, ht.wf, h2, fun h => h1 (h.resolve_right id)⟩
  | appendChar c => exact pk (appendChar_ok w c) id (fun v' h => h)
  | appendMissingChar c =>
    simp only [step, appendMissingChar, getLast_content w, ok_bind]
    by_cases h : (content v).getLast? = some c
    · simp only [h, decide_true, if_true]
      exact ⟨v, rfl, w, by simp [Effect, h], fun h' => h'.resolve_right id⟩
    · simp only [h, decide_false, Bool.false_eq_true, if_false]
      refine pk (appendChar_ok w c) id (fun v' h' => ?_)
      simp only [Effect, h, if_false]
      exact h'
  | removeTrailingChar c =>
    simp only [step, removeTrailingChar, getLast_content w, ok_bind]
    by_cases h : (content v).getLast? = some c
    · simp only [h, decide_true, if_true]
      have hne : v.pos ≠ 0 := by
        intro h0
        have : content v = [] := by simp [content, h0]
        rw [this] at h; cases h
      obtain ⟨v', e, t, ht⟩ := term_ok (n := n) (v := { v with pos := v.pos - 1 }) ⟨w.len, by simp only; omega⟩
      refine ⟨v', by simp [e], t.wf, ?_, fun _ => ht⟩
      simp only [Effect, h, if_true]
      rw [t.text]
      simp only [content]
      rw [List.dropLast_take (by omega)]
    · simp only [h, decide_false, Bool.false_eq_true, if_false]
      exact ⟨v, rfl, w, by simp [Effect, h], fun h' => h'.resolve_right id⟩
  | setSize k =>
    simp only [step, setSize]
    by_cases h : k < v.str.length
    · rw [if_pos h]
      obtain ⟨v', e, t, ht⟩ := term_ok (n := n) (v := { v with pos := k }) ⟨w.len, by simp only; omega⟩
      refine ⟨v', e, t.wf, ?_, fun _ => ht⟩
      simp only [Effect]
      rw [if_pos (by omega), t.text]
      simp only [content]
      refine ⟨by simp; omega, ?_⟩
      rw [List.take_take, List.take_take, List.length_take]
      congr 1
      omega
    · rw [if_neg h]
      refine ⟨v, rfl, w, ?_, fun h' => h'.resolve_right id⟩
      show if k ≤ n - 1 then _ else _
      rw [if_neg (by omega)]

/-- **C41** (partial: termination is guaranteed once a call that writes the terminator has been made; the minimum integer
and radix 0 are excluded).  Every history of calls on a variable of any size, with any initial garbage, stays inside the
buffer; the text evolves as specified — longest prefix that fits, prepending all or nothing. -/
theorem strings_truncated_safely_partial (junk : List UInt8) (hn : junk ≠ []) (ops : List Op)
    (hl : ∀ o ∈ ops, Legal o) :
    ∃ v, run (construct junk) ops = .ok v ∧ v.str.length = junk.length ∧ v.pos < v.str.length ∧
      Effects (junk.length - 1) [] ops (content v) ∧ ((∃ o ∈ ops, WritesNul o) → Terminated v) := by
  have key : ∀ (ops : List Op) (v : V) (n : Nat), WF n v → (∀ o ∈ ops, Legal o) →
      ∃ v', run v ops = .ok v' ∧ WF n v' ∧ Effects (n - 1) (content v) ops (content v') ∧
        ((Terminated v ∨ ∃ o ∈ ops, WritesNul o) → Terminated v') := by
    intro ops
    induction ops with
    | nil => intro v n w _; exact ⟨v, rfl, w, .nil, fun h => h.elim id (fun ⟨o, ho, _⟩ => by simp at ho)⟩
    | cons o os ih =>
      intro v n w hl
      obtain ⟨v1, e1, w1, he1, ht1⟩ := step_ok w o (hl o (by simp))
      obtain ⟨v2, e2, w2, he2, ht2⟩ := ih v1 n w1 (fun o ho => hl o (by simp [ho]))
      refine ⟨v2, by simp [run, e1, e2], w2, .cons he1 he2, fun h => ht2 ?_⟩
      rcases h with h | ⟨o', ho, hw⟩
      · exact Or.inl (ht1 (Or.inl h))
      · rcases List.mem_cons.1 ho with rfl | ho
        · exact Or.inl (ht1 (Or.inr hw))
        · exact Or.inr ⟨o', ho, hw⟩
  have hpos : 0 < junk.length := List.length_pos_iff.2 hn
  obtain ⟨v, e, w, he, ht⟩ := key ops (construct junk) junk.length ⟨rfl, by simp [construct]; omega⟩ hl
  have h1 := w.len; have h2 := w.pos
  exact ⟨v, e, h1, by omega, he, fun h => ht (Or.inr h)⟩

/-- A full buffer: set truncates, prepend refuses, append and remove work at the edge. -/
example : ∃ v, run (construct [7, 7, 7, 7, 7, 7])
    [.setStr [97, 98, 99, 100, 101, 102, 103], .prependStr [120], .removeTrailingChar 101, .removeTrailingChar 100,
     .prependStr [120], .appendInt (-7) 10] = .ok v ∧ content v = [120, 97, 98, 99, 45] ∧ Terminated v :=
  ⟨_, rfl, by decide, by unfold Terminated; decide⟩

/-- Prepending to a new variable moves the uninitialised byte where the terminator should be. -/
theorem prepend_to_new_not_terminated :
    ∃ v, run (construct [7, 7, 7, 7, 7, 7]) [.prependStr [97]] = .ok v ∧ content v = [97] ∧ v.str[v.pos]? = some 7 :=
  ⟨_, rfl, by decide, by decide⟩

/-! ## C42 -/

/-- **C42**, values: whatever the variable held before, a stored value is read back (`values_kept`: also after
any other calls). -/
theorem values_round_trip (v : V) :
    (∀ b, getBool (setBool v b) = b ∧ (setBool v b).mode = .bool) ∧
    (∀ n : Int, -(2 ^ 63) ≤ n → n < 2 ^ 63 → getInt (setInt v n) = n ∧ (setInt v n).mode = .int) ∧
    (∀ n : Nat, n < 2 ^ 64 → getUInt (setUInt v n) = n ∧ (setUInt v n).mode = .uint ∧
      -(2 ^ 63) ≤ (setUInt v n).mxInt ∧ (setUInt v n).mxInt < 2 ^ 63) ∧
    (∀ d, getDouble (setDouble v d) = d ∧ (setDouble v d).mode = .double) := by
  refine ⟨fun b => ⟨by cases b <;> simp [getBool, setBool], rfl⟩, fun n _ _ => ⟨rfl, rfl⟩, fun n hn => ?_,
    fun d => ⟨rfl, rfl⟩⟩
  simp only [getUInt, setUInt, toI64]
  by_cases h : n < 2 ^ 63
  · rw [if_pos h]
    refine ⟨?_, trivial, ?_, ?_⟩ <;> omega
  · rw [if_neg h]
    refine ⟨?_, trivial, ?_, ?_⟩ <;> omega

/-- **C42**, strings: on any variable with any contents, a string that fits is read back exactly, terminated, with the
mode set, and the numeric values are kept. -/
theorem strings_round_trip (v : V) (s : List UInt8) (hs : 0 ∉ s)
    (hf : s.length < v.str.length) :
    ∃ v', setStr v s = .ok v' ∧ v'.mode = .str ∧ v'.mxInt = v.mxInt ∧ v'.dbl = v.dbl ∧ content v' = s ∧
      Terminated v' := by
  have w0 : WF v.str.length { v with mode := .str, pos := 0 } := ⟨rfl, by simp only; omega⟩
  obtain ⟨v', e, t, ht⟩ := appendStr_ok w0 s
  have hc : cstr s = s := by
    have := cstr_append s [] hs
    clear e t ht hf w0
    induction s with
    | nil => rfl
    | cons c s ih =>
      have hc : c ≠ 0 := fun e => hs (by simp [e])
      rw [cstr_cons _ _ hc, ih (fun e => hs (by simp [e])) (cstr_append s [] (fun e => hs (by simp [e])))]
  refine ⟨v', e, t.mode, t.mxInt, t.dbl, ?_, ht⟩
  rw [t.text, hc]
  simp only [content, app, List.take_zero, List.nil_append]
  rw [List.take_of_length_le (by omega)]

/-- **C42**, numerals (partial: not the minimum `int64_t`; radix 2 to 36).  On any variable, `AppendInt`/`AppendUInt`
append exactly the numeral, cut to the room there is; nothing if the numeral has more than 43 characters. -/
theorem appended_integer_is_numeral_partial (v : V) (hv : v.pos < v.str.length) (radix : Nat) (hr : 2 ≤ radix)
    (hr' : radix ≤ 36) :
    (∀ n : Int, -(2 ^ 63) < n → n < 2 ^ 63 → ∃ v' t, step v (.appendInt n radix) = .ok v' ∧ IntText radix n t ∧
      content v' = if t.length ≤ 43 then (content v ++ t).take (v.str.length - 1) else content v) ∧
    (∀ n : Nat, n < 2 ^ 64 → ∃ v' t, step v (.appendUInt n radix) = .ok v' ∧ IntText radix n t ∧
      content v' = if t.length ≤ 43 then (content v ++ t).take (v.str.length - 1) else content v) := by
  have w : WF v.str.length v := ⟨rfl, by omega⟩
  constructor
  · intro n h1 h2
    obtain ⟨v', e, -, he, -⟩ := step_ok w (.appendInt n radix) ⟨h1, h2, by omega⟩
    obtain ⟨t, h3, h4⟩ := he ⟨hr, hr'⟩
    exact ⟨v', t, e, h3, h4⟩
  · intro n h1
    obtain ⟨v', e, -, he, -⟩ := step_ok w (.appendUInt n radix) ⟨h1, by omega⟩
    obtain ⟨t, h3, h4⟩ := he ⟨hr, hr'⟩
    exact ⟨v', t, e, h3, h4⟩

/-- `-255` in base 16 after `x`. -/
example : ∃ v', step { mode := .str, mxInt := 0, dbl := 0, str := [120, 0, 7, 7, 7, 7], pos := 1 } (.appendInt (-255) 16) =
    .ok v' ∧ content v' = [120, 45, 70, 70] := ⟨_, rfl, by decide⟩

/-- The minimum is negated, which overflows. -/
theorem minimum_int_undefined (v : V) (radix : Nat) :
    step v (.appendInt (-9223372036854775808) radix) = .error .signedOverflow := rfl

/-- A radix of zero divides by zero. -/
theorem radix_zero_undefined (v : V) : step v (.appendInt 5 0) = .error .divByZero := rfl

end Verif.MixedVar
