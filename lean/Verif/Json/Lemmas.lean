import Verif.Json.Spec
import Verif.ConvertInt.Lemmas

/-! # What each serializer call does, in terms of appended text and open scopes -/

namespace Verif.Json
open Spec

/-! ## Buffer writes -/

/-- The state is fit for writing: a buffer of `size + 1` bytes, position inside, depth inside. -/
structure WF (s : S) : Prop where
  buf : ∃ b, s.buf = some b ∧ b.length = s.size + 1
  pos : s.pos ≤ s.size
  depth : s.depth < s.modes.length

/-- `s'` is `s` with `t` appended to the text. -/
structure W (s s' : S) (t : List UInt8) : Prop where
  eq : ∃ b', s' = { s with buf := some b', pos := s.pos + t.length }
  buf : ∃ b b', s.buf = some b ∧ s'.buf = some b' ∧ b'.length = b.length ∧
    b'.take (s.pos + t.length) = b.take s.pos ++ t

/-- The text is terminated. -/
def Term (s : S) : Prop := ∃ b, s.buf = some b ∧ b[s.pos]? = some 0

theorem W.pos {s s' : S} {t : List UInt8} (h : W s s' t) : s'.pos = s.pos + t.length := by
  obtain ⟨b, rfl⟩ := h.eq; rfl
theorem W.size {s s' : S} {t : List UInt8} (h : W s s' t) : s'.size = s.size := by
  obtain ⟨b, rfl⟩ := h.eq; rfl
theorem W.modes {s s' : S} {t : List UInt8} (h : W s s' t) : s'.modes = s.modes := by
  obtain ⟨b, rfl⟩ := h.eq; rfl
theorem W.depth {s s' : S} {t : List UInt8} (h : W s s' t) : s'.depth = s.depth := by
  obtain ⟨b, rfl⟩ := h.eq; rfl
theorem W.esc {s s' : S} {t : List UInt8} (h : W s s' t) : s'.esc = s.esc := by
  obtain ⟨b, rfl⟩ := h.eq; rfl
theorem W.ks {s s' : S} {t : List UInt8} (h : W s s' t) : s'.ks = s.ks := by
  obtain ⟨b, rfl⟩ := h.eq; rfl
theorem W.vs {s s' : S} {t : List UInt8} (h : W s s' t) : s'.vs = s.vs := by
  obtain ⟨b, rfl⟩ := h.eq; rfl

theorem W.text {s s' : S} {t : List UInt8} (h : W s s' t) : text s' = text s ++ t := by
  obtain ⟨b, b', h1, h2, h3, h4⟩ := h.buf
  unfold Json.text
  rw [h1, h2, h.pos]
  exact h4

theorem W.wf {s s' : S} {t : List UInt8} (h : W s s' t) (w : WF s) (hp : s.pos + t.length ≤ s.size) : WF s' := by
  obtain ⟨b0, hb0, hl⟩ := w.buf
  obtain ⟨b, b', h1, h2, h3, h4⟩ := h.buf
  refine ⟨⟨b', h2, ?_⟩, by rw [h.pos, h.size]; exact hp, by rw [h.depth, h.modes]; exact w.depth⟩
  rw [hb0] at h1
  cases h1
  rw [h3, hl, h.size]

theorem W.refl {s : S} (w : WF s) : W s s [] := by
  obtain ⟨b0, hb0, hl⟩ := w.buf
  exact ⟨⟨b0, by simp [← hb0]⟩, b0, b0, hb0, hb0, rfl, by simp⟩

theorem W.trans {s1 s2 s3 : S} {t u : List UInt8} (h : W s1 s2 t) (h' : W s2 s3 u) : W s1 s3 (t ++ u) := by
  obtain ⟨c2, e2⟩ := h.eq
  obtain ⟨c3, e3⟩ := h'.eq
  obtain ⟨b1, b2, g1, g2, g3, g4⟩ := h.buf
  obtain ⟨b2', b3, k1, k2, k3, k4⟩ := h'.buf
  rw [g2] at k1
  cases k1
  have hpos := h.pos
  refine ⟨⟨c3, ?_⟩, b1, b3, g1, k2, by rw [k3, g3], ?_⟩
  · rw [e3, e2]; simp [Nat.add_assoc]
  · rw [hpos, g4] at k4
    rw [List.length_append, ← Nat.add_assoc, k4, List.append_assoc]

theorem put_ok {s : S} (w : WF s) (c : UInt8) (h : s.pos + 1 ≤ s.size) :
    ∃ s', put s c = .ok s' ∧ W s s' [c] := by
  obtain ⟨b, hb, hl⟩ := w.buf
  have hlt : s.pos < b.length := by omega
  refine ⟨_, by simp only [put, hb, wr_ok c hlt, ok_bind]; rfl, ⟨_, rfl⟩, b, _, hb, rfl, by simp, ?_⟩
  show (b.set s.pos c).take (s.pos + 1) = _
  rw [List.take_add_one, List.getElem?_set_self hlt, List.take_set_of_le (Nat.le_refl _)]
  rfl

theorem puts_ok : ∀ (t : List UInt8) {s : S}, WF s → s.pos + t.length ≤ s.size →
    ∃ s', puts s t = .ok s' ∧ W s s' t
  | [], s, w, _ => ⟨s, rfl, W.refl w⟩
  | c :: t, s, w, h => by
    simp only [List.length_cons] at h
    obtain ⟨s1, e1, w1⟩ := put_ok w c (by omega)
    obtain ⟨s2, e2, w2⟩ := puts_ok t (s := s1) (w1.wf w (by simp; omega)) (by rw [w1.pos, w1.size]; simp; omega)
    exact ⟨s2, by simp [puts, e1, e2], w1.trans w2⟩

theorem term_ok {s : S} (w : WF s) : ∃ s', term s = .ok s' ∧ W s s' [] ∧ Term s' := by
  obtain ⟨b, hb, hl⟩ := w.buf
  have hp := w.pos
  have hlt : s.pos < b.length := by omega
  refine ⟨_, by simp only [term, hb, wr_ok 0 hlt, ok_bind]; rfl, ⟨⟨_, rfl⟩, b, _, hb, rfl, by simp, ?_⟩, ?_⟩
  · show (b.set s.pos 0).take (s.pos + 0) = _
    rw [List.take_set_of_le (by omega)]; simp
  · exact ⟨_, rfl, by simp [hlt]⟩

theorem strcpyAt_ok {s : S} (w : WF s) (t : List UInt8) (h : s.pos + t.length ≤ s.size) :
    ∃ s', strcpyAt s t = .ok s' ∧ W s s' t ∧ Term s' := by
  obtain ⟨s1, e1, w1⟩ := puts_ok t w h
  obtain ⟨s2, e2, w2, h2⟩ := term_ok (w1.wf w h)
  exact ⟨s2, by simp [strcpyAt, e1, e2], by simpa using w1.trans w2, h2⟩

/-! ## Escaped strings -/

/-- The escaped form of a C string. -/
def escAll (esc : Bool) (l : List UInt8) : List UInt8 := (cstr l).flatMap (escOut esc)

theorem escOut_length (esc : Bool) (c : UInt8) : (escOut esc c).length ≤ extra esc c + 1 := by
  unfold escOut extra
  by_cases h1 : c = 34
  · simp [h1]
  by_cases h2 : c = 92
  · simp [h2]
  by_cases h3 : c = 47
  · subst h3; cases esc <;> simp
  by_cases h4 : c = 8
  · simp [h4]
  by_cases h5 : c = 12
  · simp [h5]
  by_cases h6 : c = 10
  · simp [h6]
  by_cases h7 : c = 13
  · simp [h7]
  by_cases h8 : c = 9
  · simp [h8]
  simp [h1, h2, h3, h4, h5, h6, h7, h8]

theorem escAll_length (esc : Bool) : ∀ l, (escAll esc l).length ≤ calcLoop esc l
  | [] => by simp [escAll, cstr]
  | c :: cs => by
    unfold calcLoop escAll cstr
    by_cases h : c = 0
    · simp [h]
    · have := escAll_length esc cs
      have h2 := escOut_length esc c
      rw [if_neg h, if_neg h]
      simp only [List.flatMap_cons, List.length_append]
      unfold escAll at this
      omega

theorem calcLoop_le (esc : Bool) : ∀ l, calcLoop esc l ≤ 2 * l.length
  | [] => by simp [calcLoop]
  | c :: cs => by
    unfold calcLoop
    have := calcLoop_le esc cs
    have h2 : extra esc c ≤ 1 := by
      unfold extra; split
      · omega
      · split
        · cases esc <;> simp
        · omega
    split <;> simp <;> omega

theorem appendLoop_ok : ∀ (l : List UInt8) {s : S}, WF s → s.pos + (escAll s.esc l).length ≤ s.size →
    ∃ s', appendLoop s l = .ok s' ∧ W s s' (escAll s.esc l)
  | [], s, w, _ => ⟨s, rfl, W.refl w⟩
  | c :: cs, s, w, h => by
    unfold appendLoop
    by_cases h0 : c = 0
    · rw [if_pos h0]
      exact ⟨s, rfl, by simpa [escAll, cstr, h0] using W.refl w⟩
    · rw [if_neg h0]
      have he : escAll s.esc (c :: cs) = escOut s.esc c ++ escAll s.esc cs := by
        simp [escAll, cstr, h0]
      rw [he] at h ⊢
      simp only [List.length_append] at h
      obtain ⟨s1, e1, w1⟩ := puts_ok (escOut s.esc c) w (by omega)
      obtain ⟨s2, e2, w2⟩ := appendLoop_ok cs (s := s1) (w1.wf w (by omega))
        (by rw [w1.pos, w1.size, w1.esc]; omega)
      rw [w1.esc] at w2
      exact ⟨s2, by simp [e1, e2], w1.trans w2⟩

theorem appendLoopN_ok : ∀ (n i : Nat) (mem : List UInt8) {s : S}, WF s → i + n ≤ mem.length →
    s.pos + (((mem.drop i).take n).flatMap (escOut s.esc)).length ≤ s.size →
    ∃ s', appendLoopN s mem n i = .ok s' ∧ W s s' (((mem.drop i).take n).flatMap (escOut s.esc))
  | 0, i, mem, s, w, _, _ => ⟨s, rfl, by simpa using W.refl w⟩
  | n + 1, i, mem, s, w, hm, h => by
    have hi : i < mem.length := by omega
    have he : (mem.drop i).take (n + 1) = mem[i] :: (mem.drop (i + 1)).take n := by
      rw [List.drop_eq_getElem_cons hi, List.take_succ_cons]
    rw [he] at h ⊢
    simp only [List.flatMap_cons, List.length_append] at h ⊢
    obtain ⟨s1, e1, w1⟩ := puts_ok (escOut s.esc mem[i]) w (by omega)
    obtain ⟨s2, e2, w2⟩ := appendLoopN_ok n (i + 1) mem (s := s1) (w1.wf w (by omega)) (by omega)
      (by rw [w1.pos, w1.size, w1.esc]; omega)
    rw [w1.esc] at w2
    exact ⟨s2, by simp [appendLoopN, rd_ok hi, e1, e2], w1.trans w2⟩

/-- Quotes around `t` unless inside a string. -/
def quoted (m : Mode) (t : List UInt8) : List UInt8 := if m = .str then t else 34 :: t ++ [34]

theorem curMode_ok {s : S} {m : Mode} (h : s.modes[s.depth]? = some m) : curMode s = .ok m := by
  simp [curMode, rd, h]

theorem internal_ok {s : S} (w : WF s) {m : Mode} (hm : s.modes[s.depth]? = some m)
    (f : S → CRes S) (t : List UInt8)
    (hf : ∀ s1 u, W s s1 u → s1.pos + t.length ≤ s1.size → WF s1 → ∃ s2, f s1 = .ok s2 ∧ W s1 s2 t)
    (h : s.pos + (quoted m t).length ≤ s.size) :
    ∃ s', (do let s ← quote s; let s ← f s; let s ← quote s; term s) = .ok s' ∧
      W s s' (quoted m t) ∧ Term s' := by
  by_cases hs : m = .str
  · have hq : quoted m t = t := by simp [quoted, hs]
    rw [hq] at h ⊢
    have q1 : quote s = .ok s := by simp [quote, curMode_ok hm, hs]
    obtain ⟨s2, e2, w2⟩ := hf s [] (W.refl w) h w
    have q2 : quote s2 = .ok s2 := by
      have : curMode s2 = .ok m := curMode_ok (by rw [w2.modes, w2.depth]; exact hm)
      simp [quote, this, hs]
    obtain ⟨s3, e3, w3, h3⟩ := term_ok (w2.wf w h)
    exact ⟨s3, by simp [q1, e2, q2, e3], by simpa using w2.trans w3, h3⟩
  · have hq : quoted m t = [34] ++ t ++ [34] := by simp [quoted, hs]
    rw [hq] at h ⊢
    simp only [List.length_append, List.length_cons, List.length_nil] at h
    obtain ⟨s1, e1, w1⟩ := put_ok w 34 (by omega)
    have wf1 := w1.wf w (by simp; omega)
    have q1 : quote s = .ok s1 := by simp [quote, curMode_ok hm, hs, e1]
    obtain ⟨s2, e2, w2⟩ := hf s1 _ w1 (by rw [w1.pos, w1.size]; simp; omega) wf1
    have wf2 := w2.wf wf1 (by rw [w1.pos, w1.size]; simp; omega)
    obtain ⟨s3, e3, w3⟩ := put_ok wf2 34 (by rw [w2.pos, w2.size, w1.pos, w1.size]; simp; omega)
    have q2 : quote s2 = .ok s3 := by
      have : curMode s2 = .ok m := curMode_ok (by rw [w2.modes, w2.depth, w1.modes, w1.depth]; exact hm)
      simp [quote, this, hs, e3]
    have wf3 := w3.wf wf2 (by rw [w2.pos, w2.size, w1.pos, w1.size]; simp; omega)
    obtain ⟨s4, e4, w4, h4⟩ := term_ok wf3
    exact ⟨s4, by simp [q1, e2, q2, e4], by simpa using ((w1.trans w2).trans w3).trans w4, h4⟩

theorem internalAppendStr_ok {s : S} (w : WF s) {m : Mode} (hm : s.modes[s.depth]? = some m) (l : List UInt8)
    (h : s.pos + (quoted m (escAll s.esc l)).length ≤ s.size) :
    ∃ s', internalAppendStr s l = .ok s' ∧ W s s' (quoted m (escAll s.esc l)) ∧ Term s' := by
  refine internal_ok w hm (fun s => appendLoop s l) (escAll s.esc l) ?_ h
  intro s1 u w1 h1 wf1
  have := appendLoop_ok l wf1 (by rw [w1.esc]; exact h1)
  rw [w1.esc] at this
  exact this

theorem internalAppendStrN_ok {s : S} (w : WF s) {m : Mode} (hm : s.modes[s.depth]? = some m)
    (mem : List UInt8) (n : Nat) (hn : n ≤ mem.length)
    (h : s.pos + (quoted m ((mem.take n).flatMap (escOut s.esc))).length ≤ s.size) :
    ∃ s', internalAppendStrN s mem n = .ok s' ∧ W s s' (quoted m ((mem.take n).flatMap (escOut s.esc))) ∧
      Term s' := by
  refine internal_ok w hm (fun s => appendLoopN s mem n 0) _ ?_ h
  intro s1 u w1 h1 wf1
  have := appendLoopN_ok n 0 mem wf1 (by omega) (by rw [w1.esc]; simpa using h1)
  rw [w1.esc] at this
  simpa using this

theorem appendCopy_ok : ∀ (n i : Nat) (mem : List UInt8) {s : S}, WF s → i + n ≤ mem.length →
    s.pos + n ≤ s.size → ∃ s', appendCopy s mem n i = .ok s' ∧ W s s' ((mem.drop i).take n)
  | 0, i, mem, s, w, _, _ => ⟨s, rfl, by simpa using W.refl w⟩
  | n + 1, i, mem, s, w, hm, h => by
    have hi : i < mem.length := by omega
    have he : (mem.drop i).take (n + 1) = mem[i] :: (mem.drop (i + 1)).take n := by
      rw [List.drop_eq_getElem_cons hi, List.take_succ_cons]
    rw [he]
    obtain ⟨s1, e1, w1⟩ := put_ok w mem[i] (by omega)
    obtain ⟨s2, e2, w2⟩ := appendCopy_ok n (i + 1) mem (s := s1) (w1.wf w (by simp; omega)) (by omega)
      (by rw [w1.pos, w1.size]; simp; omega)
    exact ⟨s2, by simp [appendCopy, rd_ok hi, e1, e2], w1.trans w2⟩

theorem append_ok {s : S} (w : WF s) (mem : List UInt8) (n : Nat) (hn : n ≤ mem.length)
    (h : s.pos + n ≤ s.size) : ∃ s', append s (some mem) n = .ok (true, s') ∧ W s s' (mem.take n) ∧ Term s' := by
  obtain ⟨s1, e1, w1⟩ := appendCopy_ok n 0 mem w (by omega) h
  simp only [List.drop_zero] at w1
  obtain ⟨s2, e2, w2, h2⟩ := term_ok (w1.wf w (by simp; omega))
  refine ⟨s2, ?_, by simpa using w1.trans w2, h2⟩
  unfold append
  rw [if_neg (by omega)]
  simp [e1, e2]

/-! ## The prefix -/

/-- The mode after a value has been announced. -/
def nextMode : Mode → Mode
  | .rootFirst => .rootNext
  | .objectFirst => .objectNext
  | .arrayFirst => .arrayNext
  | m => m

/-- The value splitter where one is due. -/
def sepText (s : S) (m : Mode) : List UInt8 := if m = .objectNext ∨ m = .arrayNext then s.vs else []

/-- The key and its splitter. -/
def keyText (s : S) : Option (List UInt8) → List UInt8
  | none => []
  | some k => 34 :: escAll s.esc k ++ [34] ++ s.ks

/-- The space the code reserves for the prefix. -/
def prefixNeed (s : S) (m : Mode) (key : Option (List UInt8)) : Nat :=
  (sepText s m).length + (match key with | none => 0 | some k => 2 + calcLoop s.esc k + s.ks.length)

theorem prefixSize_eq {s : S} {m : Mode} (hm : s.modes[s.depth]? = some m) (hs : m ≠ .str)
    (key : Option (List UInt8)) : prefixSize s m key = .ok (prefixNeed s m key) := by
  unfold prefixSize prefixNeed sepText
  cases key with
  | none => simp; split <;> rfl
  | some k =>
    simp only [calcStrSize, curMode_ok hm, ok_bind, hs, ne_eq, not_false_eq_true, if_true]
    congr 1
    split <;> simp

theorem keyText_length (s : S) (key : Option (List UInt8)) :
    (keyText s key).length ≤ (match key with | none => 0 | some k => 2 + calcLoop s.esc k + s.ks.length) := by
  cases key with
  | none => simp [keyText]
  | some k =>
    have := escAll_length s.esc k
    simp [keyText]
    omega

theorem prefixText_length (s : S) (m : Mode) (key : Option (List UInt8)) :
    (sepText s m ++ keyText s key).length ≤ prefixNeed s m key := by
  have := keyText_length s key
  simp only [List.length_append, prefixNeed]
  omega

/-- Same state with the mode advanced. -/
def marked (s : S) (m : Mode) : S := { s with modes := s.modes.set s.depth (nextMode m) }

theorem set_same {β : Type} {l : List β} {i : Nat} {b : β} (h : l[i]? = some b) : l.set i b = l := by
  apply List.ext_getElem?
  intro k
  rw [List.getElem?_set]
  split
  · rename_i e; subst e
    have : i < l.length := by
      rcases Nat.lt_or_ge i l.length with h' | h'
      · exact h'
      · rw [List.getElem?_eq_none h'] at h; cases h
    rw [if_pos this, h]
  · rfl

theorem marked_wf {s : S} (w : WF s) (m : Mode) : WF (marked s m) :=
  ⟨w.buf, w.pos, by simpa [marked] using w.depth⟩

theorem nextMode_ne_str {m : Mode} (h : m ≠ .str) : nextMode m ≠ .str := by
  cases m <;> simp_all [nextMode]

theorem splitOrMark_ok {s : S} (w : WF s) {m : Mode} (hm : s.modes[s.depth]? = some m)
    (h : s.pos + (sepText s m).length ≤ s.size) :
    ∃ s', splitOrMark s m = .ok s' ∧ W (marked s m) s' (sepText s m) := by
  have wm := marked_wf w m
  have hd := w.depth
  by_cases hn : m = .objectNext ∨ m = .arrayNext
  · have hmk : marked s m = s := by
      have : nextMode m = m := by rcases hn with rfl | rfl <;> rfl
      unfold marked
      rw [this, set_same hm]
    have hst : sepText s m = s.vs := by simp [sepText, hn]
    rw [hst] at h
    obtain ⟨s1, e1, w1, -⟩ := append_ok w s.vs s.vs.length (Nat.le_refl _) h
    rw [List.take_of_length_le (Nat.le_refl _)] at w1
    refine ⟨s1, ?_, by rw [hmk, hst]; exact w1⟩
    rcases hn with rfl | rfl <;> simp [splitOrMark, e1]
  · have hst : sepText s m = [] := by simp only [sepText, if_neg hn]
    rw [hst]
    refine ⟨marked s m, ?_, W.refl wm⟩
    have hset : ∀ x, nextMode m = x → setMode s x = .ok (marked s m) := by
      intro x hx
      simp [setMode, wr_ok x hd, marked, hx]
    cases m with
    | rootFirst => exact hset _ rfl
    | objectFirst => exact hset _ rfl
    | arrayFirst => exact hset _ rfl
    | rootNext =>
      simp only [splitOrMark, marked, nextMode]
      rw [set_same hm]
    | str =>
      simp only [splitOrMark, marked, nextMode]
      rw [set_same hm]
    | objectNext => simp at hn
    | arrayNext => simp at hn

theorem putKey_ok {s : S} (w : WF s) {m : Mode} (hm : s.modes[s.depth]? = some m) (hs : m ≠ .str)
    (key : Option (List UInt8)) (h : s.pos + (keyText s key).length ≤ s.size) :
    ∃ s', putKey s key = .ok s' ∧ W s s' (keyText s key) := by
  cases key with
  | none => exact ⟨s, rfl, W.refl w⟩
  | some k =>
    have hq : quoted m (escAll s.esc k) = 34 :: escAll s.esc k ++ [34] := by simp [quoted, hs]
    have hlen : (keyText s (some k)).length = (quoted m (escAll s.esc k)).length + s.ks.length := by
      simp [keyText, hq]; omega
    obtain ⟨s1, e1, w1, -⟩ := internalAppendStr_ok w hm k (by omega)
    have wf1 := w1.wf w (by omega)
    obtain ⟨s2, e2, w2, -⟩ := append_ok wf1 s1.ks s1.ks.length (Nat.le_refl _)
      (by rw [w1.pos, w1.size, w1.ks]; omega)
    rw [List.take_of_length_le (Nat.le_refl _), w1.ks] at w2
    refine ⟨s2, by simp [putKey, e1, e2], ?_⟩
    have := w1.trans w2
    rw [hq] at this
    exact this

/-- `InternalAppendNextPrefix` in full. -/
theorem nextPrefix_spec {s : S} (w : WF s) {m : Mode} (hm : s.modes[s.depth]? = some m)
    (key : Option (List UInt8)) (extra : Nat) :
    (refused m key = true → nextPrefix s key extra = .ok (false, s)) ∧
    (refused m key = false → s.size < s.pos + prefixNeed s m key + extra →
      nextPrefix s key extra = .ok (false, s)) ∧
    (refused m key = false → s.pos + prefixNeed s m key + extra ≤ s.size →
      ∃ s', nextPrefix s key extra = .ok (true, s') ∧ W (marked s m) s' (sepText s m ++ keyText s key)) := by
  unfold nextPrefix
  rw [curMode_ok hm]
  simp only [ok_bind]
  refine ⟨fun h => by simp [h], fun h => ?_, fun h => ?_⟩
  · have hs : m ≠ .str := by rintro rfl; simp [refused] at h
    intro hsz
    rw [prefixSize_eq hm hs]
    simp only [h, Bool.false_eq_true, if_false, ok_bind]
    rw [if_pos (by omega)]
  · have hs : m ≠ .str := by rintro rfl; simp [refused] at h
    intro hsz
    rw [prefixSize_eq hm hs]
    simp only [h, Bool.false_eq_true, if_false, ok_bind]
    rw [if_neg (by omega)]
    have hlen := prefixText_length s m key
    simp only [List.length_append] at hlen
    obtain ⟨s1, e1, w1⟩ := splitOrMark_ok w hm (by omega)
    have wm := marked_wf w m
    have hpos : (marked s m).pos = s.pos := rfl
    have hsize : (marked s m).size = s.size := rfl
    have wf1 := w1.wf wm (by rw [hpos, hsize]; omega)
    have hd := w.depth
    have hm1 : s1.modes[s1.depth]? = some (nextMode m) := by
      rw [w1.modes, w1.depth]; simp [marked, hd]
    have hk : keyText s1 key = keyText s key := by
      cases key with
      | none => rfl
      | some k => simp only [keyText, w1.esc, w1.ks]; rfl
    obtain ⟨s2, e2, w2⟩ := putKey_ok wf1 hm1 (nextMode_ne_str hs) key
      (by rw [hk, w1.pos, w1.size, hpos, hsize]; omega)
    rw [hk] at w2
    exact ⟨s2, by simp [e1, e2], w1.trans w2⟩

/-! ## Open scopes and modes -/

/-- The mode of the innermost scope. -/
def innerMode : Scope → Mode
  | .arr [] => .arrayFirst
  | .arr (_ :: _) => .arrayNext
  | .obj [] => .objectFirst
  | .obj (_ :: _) => .objectNext
  | .str _ => .str

/-- The mode of an enclosing scope. -/
def outerMode : Scope → Mode
  | .arr _ => .arrayNext
  | .obj _ => .objectNext
  | .str _ => .str

/-- The mode of the scope that receives the next value. -/
def headMode (b : Builder) : Mode :=
  match b.opened with
  | [] => match b.done with
    | none => .rootFirst
    | some _ => .rootNext
  | (_, sc) :: _ => innerMode sc

/-- The modes of the enclosing scopes, innermost first. -/
def belowModes (b : Builder) : List Mode :=
  match b.opened with
  | [] => []
  | _ :: rest => rest.map (fun f => outerMode f.2) ++ [Mode.rootNext]

/-- Scopes are properly nested. -/
def Nested : List (Option (List UInt8) × Scope) → Prop
  | [] => True
  | (k, _) :: rest => ({ done := none, opened := rest } : Builder).ValueAllowed k ∧ Nested rest

/-- Properly nested, and no root value while scopes are open. -/
structure BWF (b : Builder) : Prop where
  nested : Nested b.opened
  done : b.opened ≠ [] → b.done = none

/-- The serializer's state reflects the open scopes. -/
structure Rel (s : S) (b : Builder) : Prop where
  wf : WF s
  bwf : BWF b
  modes : ∃ rest, s.modes = (belowModes b).reverse ++ headMode b :: rest
  depth : s.depth = (belowModes b).length

theorem below_length (b : Builder) : (belowModes b).length = b.opened.length := by
  unfold belowModes
  split
  · rename_i h; simp [h]
  · rename_i h; simp [h]

theorem Rel.mode {s : S} {b : Builder} (R : Rel s b) : s.modes[s.depth]? = some (headMode b) := by
  obtain ⟨rest, h⟩ := R.modes
  rw [h, R.depth]
  rw [List.getElem?_append_right (by simp)]
  simp

/-- The refusal test is exactly the JSON rule. -/
theorem refused_iff (b : Builder) (key : Option (List UInt8)) :
    refused (headMode b) key = false ↔ b.ValueAllowed key := by
  unfold headMode Builder.ValueAllowed
  split
  · rename_i ho
    rw [ho]
    split <;> rename_i h <;> simp only [h] <;> cases key <;> simp [refused]
  · rename_i k sc rest h
    rw [h]
    cases sc with
    | arr xs => cases xs <;> cases key <;> simp [innerMode, refused]
    | obj ms => cases ms <;> cases key <;> simp [innerMode, refused]
    | str d => simp [innerMode, refused]

theorem keyOf_none (k : Option (List UInt8)) : keyOf k = none ↔ k = none := by
  cases k <;> simp [keyOf]

theorem allowed_keyOf (b : Builder) (k : Option (List UInt8)) :
    b.ValueAllowed (keyOf k) ↔ b.ValueAllowed k := by
  unfold Builder.ValueAllowed
  split <;> simp [keyOf_none]

theorem innerMode_append (xs : List J) (v : J) : innerMode (.arr (xs ++ [v])) = .arrayNext := by
  cases xs <;> rfl

theorem innerMode_append' (ms : List (List UInt8 × J)) (v : List UInt8 × J) :
    innerMode (.obj (ms ++ [v])) = .objectNext := by
  cases ms <;> rfl

theorem nextMode_inner (sc : Scope) : nextMode (innerMode sc) = outerMode sc := by
  cases sc with
  | arr xs => cases xs <;> rfl
  | obj xs => cases xs <;> rfl
  | str d => rfl

/-- Adding a value advances the mode and keeps everything else. -/
theorem add_modes {b : Builder} (w : BWF b) (key : Option (List UInt8)) (v : J) (h : b.ValueAllowed key) :
    headMode (b.add key v) = nextMode (headMode b) ∧ belowModes (b.add key v) = belowModes b ∧
      BWF (b.add key v) := by
  obtain ⟨hn, hd⟩ := w
  obtain ⟨dn, op⟩ := b
  match op, hn, hd, h with
  | [], hn, hd, h =>
    have h' : dn = none ∧ key = none := h
    refine ⟨?_, rfl, trivial, ?_⟩
    · rw [h'.1]; rfl
    · intro hne; exact absurd rfl hne
  | (k, .arr xs) :: rest, hn, hd, h =>
    refine ⟨?_, rfl, hn, fun _ => hd (by simp)⟩
    show innerMode (.arr (xs ++ [v])) = nextMode (innerMode (.arr xs))
    rw [innerMode_append, nextMode_inner]; rfl
  | (k, .obj ms) :: rest, hn, hd, h =>
    have h' : key ≠ none := h
    cases key with
    | none => exact absurd rfl h'
    | some key =>
      refine ⟨?_, rfl, hn, fun _ => hd (by simp)⟩
      show innerMode (.obj (ms ++ [(key, v)])) = nextMode (innerMode (.obj ms))
      rw [innerMode_append', nextMode_inner]; rfl
  | (k, .str d) :: rest, hn, hd, h => exact False.elim h

theorem set_at {β : Type} (pre : List β) (a v : β) (suf : List β) (i : Nat) (h : i = pre.length) :
    (pre ++ a :: suf).set i v = pre ++ v :: suf := by
  subst h; simp

/-- Writing a value into the state and into the document. -/
theorem rel_add {s s' : S} {b : Builder} (R : Rel s b) (key : Option (List UInt8)) (v : J)
    (h : b.ValueAllowed key) {t : List UInt8} (hw : W (marked s (headMode b)) s' t)
    (hp : s.pos + t.length ≤ s.size) : Rel s' (b.add key v) := by
  obtain ⟨h1, h2, h3⟩ := add_modes R.bwf key v h
  refine ⟨hw.wf (marked_wf R.wf _) hp, h3, ?_, ?_⟩
  · obtain ⟨rest, hr⟩ := R.modes
    refine ⟨rest, ?_⟩
    rw [hw.modes, h1, h2]
    simp only [marked]
    rw [hr, R.depth]
    exact set_at _ _ _ _ _ (by simp)
  · rw [hw.depth, h2]; exact R.depth

theorem outer_of_allowed {b : Builder} {key : Option (List UInt8)} (h : b.ValueAllowed key) :
    nextMode (headMode b) :: belowModes b = b.opened.map (fun f => outerMode f.2) ++ [Mode.rootNext] := by
  obtain ⟨dn, op⟩ := b
  match op, h with
  | [], h =>
    have h' : dn = none ∧ key = none := h
    rw [h'.1]; rfl
  | (k, sc) :: rest, h =>
    show nextMode (innerMode sc) :: _ = _
    rw [nextMode_inner]; rfl

end Verif.Json
