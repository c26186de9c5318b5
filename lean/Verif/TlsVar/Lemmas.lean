import Verif.TlsVar.Spec
import Verif.Tls.Lemmas
import Verif.MixedVar.Props

namespace Verif.TlsVar
open Spec
open Verif.Tls (St Ptr Cell Rel Live Serves put_put)
open Verif.Tls.Spec (put)
open Verif.MixedVar (cstr)
open Verif.MixedVar.Spec (IntText)

theorem put_self (l : Live) (b : Nat) (x : Option (List Cell)) : put l b x b = x := by simp [put]

theorem put_ne (l : Live) {b q : Nat} (x : Option (List Cell)) (h : q ≠ b) : put l b x q = l q := by simp [put, h]

theorem put_eq {l : Live} {b : Nat} {x : Option (List Cell)} (h : l b = x) : put l b x = l := by
  funext q
  unfold put
  split
  · next e => rw [e, h]
  · rfl

/-- The block behind a live pointer. -/
theorem blockOf {m K : Nat} {s : St} {le : Live} (h : Rel m K s le) {b : Nat} {cs : List Cell} (hb : le b = some cs) :
    ∃ c pos, s.heap[b]? = some (some c) ∧ c[0]? = some (some (UInt8.ofNat pos)) ∧ (pos ≤ K ∧ 3 ≤ K ∧ K ≤ 63) ∧
      2 ^ pos + 1 ≤ c.length ∧ cs.length + 1 ≤ c.length ∧ (pos < m → cs.length ≤ 2 ^ pos ∧ 16 ≤ c.length) ∧
      ∃ rest, c.drop 1 = cs ++ rest := by
  obtain ⟨c, pos, h1, h2, h3, h4, h5, h6, h7⟩ := h.live b cs hb
  refine ⟨c, pos, h1, h2, h3, h4, h5, h6, (c.drop 1).drop cs.length, ?_⟩
  conv => lhs; rw [← List.take_append_drop cs.length (c.drop 1)]
  rw [h7]

/-- The bytes of a live block are overwritten from `off` on. -/
theorem over {m K : Nat} {s : St} {le : Live} (h : Rel m K s le) {b : Nat} {cs : List Cell} (hb : le b = some cs)
    (off : Nat) (src : List Cell) (hf : off + src.length ≤ cs.length) {c : List Cell} (hc : s.heap[b]? = some (some c)) :
    Rel m K { s with heap := s.heap.set b (some (c.take (1 + off) ++ src ++ c.drop (1 + off + src.length))) }
      (put le b (some (cs.take off ++ src ++ cs.drop (off + src.length)))) := by
  obtain ⟨c', pos, h1, h2, h3, h4, h5, h6, rest, h7⟩ := blockOf h hb
  rw [hc] at h1
  cases h1
  have hlt := BHeap.lt_of_block hc
  refine Tls.reput h (by rw [hb]; simp) rfl rfl (fun q hq => List.getElem?_set_ne (Ne.symm hq)) ?_
  have hl1 : (c.take (1 + off) ++ src ++ c.drop (1 + off + src.length)).length = c.length := by simp; omega
  have hl2 : (cs.take off ++ src ++ cs.drop (off + src.length)).length = cs.length := by simp; omega
  refine ⟨_, pos, List.getElem?_set_self hlt, ?_, h3, by rw [hl1]; exact h4, by rw [hl1, hl2]; exact h5,
    by rw [hl1, hl2]; exact h6, ?_⟩
  · rw [List.append_assoc, List.getElem?_append_left (by simp; omega), List.getElem?_take, if_pos (by omega)]
    exact h2
  · rw [hl2]
    obtain ⟨x, y, rfl⟩ : ∃ x y, c = x :: y := by
      cases c with
      | nil => simp at h5
      | cons x y => exact ⟨x, y, rfl⟩
    rw [List.drop_succ_cons, List.drop_zero] at h7
    subst h7
    rw [show 1 + off = off + 1 by omega, show off + 1 + src.length = (off + src.length) + 1 by omega, List.take_succ_cons,
      List.drop_succ_cons, List.cons_append, List.cons_append, List.drop_succ_cons, List.drop_zero,
      List.take_append_of_le_length (l₁ := cs) (by omega), List.drop_append_of_le_length hf, ← List.append_assoc,
      List.take_append_of_le_length (by rw [hl2]; omega), List.take_of_length_le (by rw [hl2]; omega)]

theorem copyIn_ok {m K : Nat} {s : St} {le : Live} (h : Rel m K s le) {b : Nat} {cs : List Cell} (hb : le b = some cs)
    (off : Nat) (src : List Cell) (hf : off + src.length ≤ cs.length) :
    ∃ s', copyIn s (.blk b) off src = .ok s' ∧
      Rel m K s' (put le b (some (cs.take off ++ src ++ cs.drop (off + src.length)))) := by
  unfold copyIn
  by_cases h0 : src.length = 0
  · rw [if_pos h0]
    refine ⟨s, rfl, ?_⟩
    have : src = [] := List.length_eq_zero_iff.1 h0
    subst this
    rw [put_eq (by rw [hb]; simp)]
    exact h
  · rw [if_neg h0]
    obtain ⟨c, pos, h1, h2, h3, h4, h5, h6, rest, h7⟩ := blockOf h hb
    simp only
    rw [BHeap.block_ok h1, ok_bind, Tls.memcpyTo_ok c src _ _ (Nat.le_refl _) (by omega), ok_bind, List.take_length]
    exact ⟨_, rfl, over h hb off src hf h1⟩

theorem poke_ok {m K : Nat} {s : St} {le : Live} (h : Rel m K s le) {b : Nat} {cs : List Cell} (hb : le b = some cs)
    (i : Nat) (x : UInt8) (hf : i < cs.length) :
    ∃ s', Tls.poke s (.blk b) i x = .ok s' ∧ Rel m K s' (put le b (some (cs.set i (some x)))) := by
  obtain ⟨c, pos, h1, h2, h3, h4, h5, h6, rest, h7⟩ := blockOf h hb
  have := over h hb i [some x] (by simp; omega) h1
  unfold Tls.poke
  simp only
  rw [BHeap.store_ok h1 (show 1 + i < c.length by omega), ok_bind]
  refine ⟨_, rfl, ?_⟩
  have a1 : c.set (1 + i) (some x) = c.take (1 + i) ++ [some x] ++ c.drop (1 + i + 1) := by
    rw [List.set_eq_take_append_cons_drop, if_pos (by omega)]; simp
  have a2 : cs.set i (some x) = cs.take i ++ [some x] ++ cs.drop (i + 1) := by
    rw [List.set_eq_take_append_cons_drop, if_pos hf]; simp
  rw [a1, a2]
  exact this

theorem peek_ok {m K : Nat} {s : St} {le : Live} (h : Rel m K s le) {b : Nat} {cs : List Cell} (hb : le b = some cs)
    {i : Nat} {x : Cell} (hx : cs[i]? = some x) : Tls.peek s (.blk b) i = .ok x := by
  obtain ⟨c, pos, h1, h2, h3, h4, h5, h6, rest, h7⟩ := blockOf h hb
  unfold Tls.peek
  simp only
  refine BHeap.load_ok h1 ?_
  have hi : i < cs.length := by
    rcases Nat.lt_or_ge i cs.length with h | h
    · exact h
    · rw [List.getElem?_eq_none h] at hx; cases hx
  rw [← List.getElem?_drop, h7, List.getElem?_append_left hi]
  exact hx

theorem readAll_ok {m K : Nat} {s : St} {le : Live} (h : Rel m K s le) {b : Nat} {cs : List Cell} (hb : le b = some cs)
    (n : Nat) (hn : n ≤ cs.length) : readAll s (.blk b) n = .ok (cs.take n) := by
  obtain ⟨c, pos, h1, h2, h3, h4, h5, h6, rest, h7⟩ := blockOf h hb
  unfold readAll
  by_cases h0 : n = 0
  · rw [if_pos h0, h0]; rfl
  · rw [if_neg h0]
    simp only
    rw [BHeap.block_ok h1, ok_bind, if_pos (by omega), h7, List.take_append_of_le_length hn]

/-- A pointer was replaced by another; no other live block changed. -/
def Frame (le : Live) (p : Ptr) (le' : Live) (p' : Ptr) : Prop :=
  (∀ q, p ≠ .blk q → le q ≠ none → le' q = le q ∧ p' ≠ .blk q) ∧
  ∀ q, le' q ≠ none → p' = .blk q ∨ (le q ≠ none ∧ p ≠ .blk q)

theorem Frame.refl (le : Live) (p : Ptr) : Frame le p le p :=
  ⟨fun _ h _ => ⟨rfl, h⟩, fun q h => by
    by_cases e : p = .blk q
    · exact .inl e
    · exact .inr ⟨h, e⟩⟩

theorem Frame.trans {a b c : Live} {p q r : Ptr} (h : Frame a p b q) (k : Frame b q c r) : Frame a p c r := by
  constructor
  · intro x h1 h2
    obtain ⟨e1, e2⟩ := h.1 x h1 h2
    obtain ⟨e3, e4⟩ := k.1 x e2 (by rw [e1]; exact h2)
    exact ⟨e3.trans e1, e4⟩
  · intro x h1
    rcases k.2 x h1 with e | ⟨e1, e2⟩
    · exact .inl e
    · rcases h.2 x e1 with e | e
      · exact absurd e e2
      · exact .inr e

theorem Frame.put (le : Live) (b : Nat) (x : Option (List Cell)) : Frame le (.blk b) (put le b x) (.blk b) := by
  constructor
  · intro q h _
    have : q ≠ b := fun e => h (by rw [e])
    exact ⟨put_ne le x this, h⟩
  · intro q h
    by_cases e : q = b
    · exact .inl (by rw [e])
    · rw [put_ne le x e] at h
      exact .inr ⟨h, fun e' => e (by cases e'; rfl)⟩

/-- Freeing. -/
theorem Frame.del (le : Live) (b : Nat) : Frame le (.blk b) (Tls.Spec.put le b none) .null := by
  constructor
  · intro q h _
    have : q ≠ b := fun e => h (by rw [e])
    exact ⟨put_ne le none this, nofun⟩
  · intro q h
    by_cases e : q = b
    · rw [e, put_self] at h; exact absurd rfl h
    · rw [put_ne le none e] at h
      exact .inr ⟨h, fun e' => e (by cases e'; rfl)⟩

/-- Allocating. -/
theorem Frame.new (le : Live) {b : Nat} (h0 : le b = none) (x : List Cell) :
    Frame le .null (Tls.Spec.put le b (some x)) (.blk b) := by
  constructor
  · intro q _ h
    have : q ≠ b := fun e => h (by rw [e]; exact h0)
    exact ⟨put_ne le _ this, fun e => this (by cases e; rfl)⟩
  · intro q h
    by_cases e : q = b
    · exact .inl (by rw [e])
    · rw [put_ne le _ e] at h
      exact .inr ⟨h, nofun⟩

/-- The variable and its block. -/
def HasStr (le : Live) (p : Ptr) (pos : Nat) (str : Option Text) : Prop :=
  (p = .null ∧ pos = 0 ∧ str = none) ∨
  ∃ b cs t rest, p = .blk b ∧ le b = some cs ∧ str = some t ∧ pos = t.length ∧ cs = t ++ some 0 :: rest

structure Has (le : Live) (v : Var) (o : Obs) : Prop where
  mode : v.mode = o.mode
  int : v.mxInt = o.int
  dbl : v.dbl = o.dbl
  str : HasStr le v.ptr v.pos o.str

theorem Has.len {le : Live} {v : Var} {o : Obs} (h : Has le v o) : v.pos = o.text.length := by
  unfold Obs.text
  rcases h.str with ⟨_, h2, h3⟩ | ⟨b, cs, t, rest, h1, h2, h3, h4, h5⟩
  · rw [h3, h2]; rfl
  · rw [h3, h4]

theorem HasStr.frame {le le' : Live} {p p' q : Ptr} {pos : Nat} {str : Option Text} (h : HasStr le q pos str)
    (f : Frame le p le' p') (hne : ∀ b, q = .blk b → p ≠ .blk b) : HasStr le' q pos str := by
  rcases h with h | ⟨b, cs, t, rest, h1, h2, h3, h4, h5⟩
  · exact .inl h
  · exact .inr ⟨b, cs, t, rest, h1, by rw [(f.1 b (hne b h1) (by rw [h2]; simp)).1]; exact h2, h3, h4, h5⟩

/-- `malloc` with a system that has memory. -/
theorem alloc_ok {m K : Nat} {s : St} {le : Live} (h : Rel m K s le) (n : Nat) (h0 : 0 < n) (hn : n ≤ 2 ^ K) :
    ∃ b s' cs, Tls.malloc s true n = .ok (.blk b, s') ∧ le b = none ∧ cs.length = n ∧ Rel m K s' (put le b (some cs)) := by
  obtain ⟨r, s', l', e, hr, hm, hnn, _⟩ := Tls.malloc_ok h true n hn (.inl rfl)
  rcases hm with ⟨h1, _⟩ | ⟨b, cs, h1, h2, _, h4, h5⟩
  · exact absurd h1 (hnn rfl h0)
  · subst h1; subst h5
    exact ⟨b, s', cs, e, h2, h4, hr⟩

/-- `realloc` of a variable's text to at least its size with terminator. -/
theorem grow_ok {m K : Nat} (hm : m ≤ 31 ∨ K ≤ 31) {s : St} {le : Live} (h : Rel m K s le) {v : Var} {o : Obs} (hv : Has le v o)
    (n : Nat) (h0 : v.pos + 1 ≤ n) (hn : n ≤ 2 ^ K) :
    ∃ b s' cs le', Tls.realloc s true v.ptr n true = .ok (.blk b, s') ∧ Rel m K s' le' ∧ le' b = some cs ∧ cs.length = n ∧
      cs.take v.pos = o.text ∧ Frame le v.ptr le' (.blk b) := by
  rcases hv.str with ⟨h1, h2, h3⟩ | ⟨b, cs, t, rest, h1, h2, h3, h4, h5⟩
  · obtain ⟨b, s', cs, e, hb, hc, hr⟩ := alloc_ok h n (by omega) hn
    refine ⟨b, s', cs, _, ?_, hr, put_self .., hc, ?_, ?_⟩
    · rw [h1]; unfold Tls.realloc; rw [if_neg (by omega)]; exact e
    · rw [h2]; unfold Obs.text; rw [h3]; rfl
    · rw [h1]; exact Frame.new le hb cs
  · obtain ⟨p', s', cs', e, hp, hl, ht, hr⟩ := Tls.realloc_ok h b n cs true (.inl hm) hn (by omega) h2
    refine ⟨p', s', cs', _, by rw [h1]; exact e, hr, put_self .., hl, ?_, ?_⟩
    · have hlen : cs.length = t.length + 1 + rest.length := by rw [h5]; simp; omega
      have : cs'.take v.pos = cs.take v.pos := by
        have := congrArg (List.take v.pos) ht
        rw [List.take_take, List.take_take, Nat.min_eq_left (by omega)] at this
        exact this
      rw [this, h5, h4]
      unfold Obs.text
      rw [h3]
      simp
    · rw [h1]
      refine (Frame.del le b).trans ?_
      refine Frame.new _ ?_ cs'
      rcases hp with hp | hp
      · rw [hp, put_self]
      · by_cases e : p' = b
        · rw [e, put_self]
        · rw [put_ne le none e, hp]

/-- Copying the new text behind `t` and writing the terminator. -/
theorem fill_ok {m K : Nat} {s : St} {le : Live} (h : Rel m K s le) {b : Nat} {cs : List Cell} (hb : le b = some cs)
    (t src : List Cell) (ht : cs.take t.length = t) (hf : t.length + src.length + 1 ≤ cs.length) (v : Var)
    (hp : v.ptr = .blk b) (hpos : v.pos = t.length + src.length) :
    ∃ s' rest, (do let s ← copyIn s (.blk b) t.length src; term s v) = .ok (v, s') ∧
      Rel m K s' (put le b (some (t ++ src ++ some 0 :: rest))) := by
  obtain ⟨s1, e1, r1⟩ := copyIn_ok h hb t.length src (by omega)
  rw [ht] at r1
  have hl : (t ++ src ++ cs.drop (t.length + src.length)).length = cs.length := by simp; omega
  obtain ⟨s2, e2, r2⟩ := poke_ok r1 (put_self ..) (t.length + src.length) 0 (by rw [hl]; omega)
  refine ⟨s2, cs.drop (t.length + src.length + 1), ?_, ?_⟩
  · rw [e1, ok_bind]
    unfold term
    rw [hp, hpos, e2, ok_bind]
  · rw [put_put] at r2
    have : (t ++ src ++ cs.drop (t.length + src.length)).set (t.length + src.length) (some 0) =
        t ++ src ++ some 0 :: cs.drop (t.length + src.length + 1) := by
      rw [List.set_append_right _ _ (by simp), List.length_append, Nat.sub_self, List.drop_eq_getElem_cons (by omega)]
      rfl
    rw [this] at r2
    exact r2

/-- The result of a call on one variable. -/
structure Done (m K : Nat) (le : Live) (p : Ptr) (r : CRes (Var × St)) (o' : Obs) (v' : Var) (s' : St) (le' : Live) : Prop where
  eq : r = .ok (v', s')
  rel : Rel m K s' le'
  has : Has le' v' o'
  frame : Frame le p le' v'.ptr

theorem freeOld_ok {m K : Nat} {s : St} {le : Live} (h : Rel m K s le) {v : Var} {o : Obs} (hv : Has le v o) :
    ∃ s' le', freeOld s v = .ok s' ∧ Tls.free s v.ptr true = .ok s' ∧ Rel m K s' le' ∧ Frame le v.ptr le' .null := by
  unfold freeOld
  rcases hv.str with ⟨h1, h2, h3⟩ | ⟨b, cs, t, rest, h1, h2, h3, h4, h5⟩
  · rw [h1, if_pos rfl]
    exact ⟨s, le, rfl, rfl, h, Frame.refl le .null⟩
  · rw [h1, if_neg nofun]
    obtain ⟨s', e, hr, _⟩ := Tls.free_ok h b true (by rw [h2]; simp)
    exact ⟨s', _, e, e, hr, Frame.del le b⟩

theorem setCells_ok {m K : Nat} {s : St} {le : Live} (h : Rel m K s le) {v : Var} {o : Obs} (hv : Has le v o)
    (src : List Cell) (hn : src.length + 1 ≤ 2 ^ K) :
    ∃ v' s' le', Done m K le v.ptr (setCells s v true src) { o with mode := .str, str := some src } v' s' le' := by
  obtain ⟨s1, le1, e1, _, r1, f1⟩ := freeOld_ok h hv
  obtain ⟨b, s2, cs, e2, hb, hl, r2⟩ := alloc_ok r1 (src.length + 1) (by omega) hn
  obtain ⟨s3, rest, e3, r3⟩ := fill_ok r2 (put_self ..) [] src rfl (by simp; omega)
    { v with mode := .str, ptr := .blk b, pos := src.length } rfl (by simp)
  rw [put_put] at r3
  refine ⟨{ v with mode := .str, ptr := .blk b, pos := src.length }, s3, _, ?_, r3, ⟨rfl, hv.int, hv.dbl, .inr ⟨b, _, src, rest, rfl, put_self .., rfl, rfl, rfl⟩⟩, ?_⟩
  · unfold setCells
    rw [e1, ok_bind, e2, ok_bind]
    exact e3
  · exact f1.trans (Frame.new le1 hb _)

theorem appendCells_ok {m K : Nat} (hm : m ≤ 31 ∨ K ≤ 31) {s : St} {le : Live} (h : Rel m K s le) {v : Var} {o : Obs}
    (hv : Has le v o) (src : List Cell) (hn : o.text.length + src.length + 1 ≤ 2 ^ K) :
    ∃ v' s' le', Done m K le v.ptr (appendCells s v true src) (o.with (o.text ++ src)) v' s' le' := by
  have hp := hv.len
  obtain ⟨b, s1, cs, le1, e1, r1, hb, hl, ht, f1⟩ := grow_ok hm h hv (v.pos + src.length + 1) (by omega) (by omega)
  rw [hp] at ht
  obtain ⟨s2, rest, e2, r2⟩ := fill_ok r1 hb o.text src ht (by omega)
    { v with ptr := .blk b, pos := v.pos + src.length } rfl (by simp only; omega)
  refine ⟨{ v with ptr := .blk b, pos := v.pos + src.length }, s2, _, ?_, r2, ⟨hv.mode, hv.int, hv.dbl, .inr ⟨b, _, o.text ++ src, rest, rfl, put_self .., rfl, ?_, rfl⟩⟩,
    f1.trans (Frame.put le1 b _)⟩
  · unfold appendCells
    rw [e1, ok_bind]
    rw [← hp] at e2
    exact e2
  · simp only [List.length_append]; omega

theorem appendChar_eq (s : St) (v : Var) (ok : Bool) (c : UInt8) : appendChar s v ok c = appendCells s v ok [some c] := by
  unfold appendChar appendCells
  congr 1
  funext x
  obtain ⟨p, s⟩ := x
  simp only [copyIn, List.length_singleton, Nat.one_ne_zero, if_false]
  cases p with
  | null => rfl
  | one => rfl
  | blk b =>
    simp only [Tls.poke, BHeap.store]
    cases s.heap.block b with
    | error e => rfl
    | ok d =>
      simp only [ok_bind, wr, memcpyTo, List.length_singleton, Nat.le_refl, if_true]
      by_cases hlt : 1 + v.pos < d.length
      · have a1 : d.set (1 + v.pos) (some c) = d.take (1 + v.pos) ++ [some c].take 1 ++ d.drop (1 + v.pos + 1) := by
          rw [List.set_eq_take_append_cons_drop, if_pos hlt]; simp
        rw [if_pos hlt, if_pos (by omega), ok_bind, ok_bind, ok_bind, ok_bind, a1]
        rfl
      · rw [if_neg hlt, if_neg (by omega)]
        rfl

theorem prependCells_ok {m K : Nat} {s : St} {le : Live} (h : Rel m K s le) {v : Var} {o : Obs}
    (hv : Has le v o) (src : List Cell) (hn : o.text.length + src.length + 1 ≤ 2 ^ K) :
    ∃ v' s' le', Done m K le v.ptr (prependCells s v true src) (o.with (src ++ o.text)) v' s' le' := by
  have hp := hv.len
  obtain ⟨b, s1, cs, e1, hb, hl, r1⟩ := alloc_ok h (src.length + v.pos + 1) (by omega) (by omega)
  obtain ⟨s2, e2, r2⟩ := copyIn_ok r1 (put_self ..) 0 src (by omega)
  rw [put_put] at r2
  simp only [List.take_zero, List.nil_append, Nat.zero_add] at r2
  have hv2 : Has (put le b (some (src ++ cs.drop src.length))) v o := by
    refine ⟨hv.mode, hv.int, hv.dbl, hv.str.frame (Frame.new le hb _) (fun _ _ => nofun)⟩
  have hne : ∀ q, v.ptr = .blk q → q ≠ b := by
    intro q hq
    rcases hv.str with ⟨h1, _⟩ | ⟨q', cs', t, rest', h1, h2, _⟩
    · rw [h1] at hq; cases hq
    · rw [h1] at hq; cases hq
      intro e; rw [e, hb] at h2; cases h2
  have e3 : readAll s2 v.ptr v.pos = .ok o.text := by
    rcases hv2.str with ⟨h1, h2, h3⟩ | ⟨q, cs', t, rest', h1, h2, h3, h4, h5⟩
    · unfold readAll Obs.text
      rw [h2, if_pos rfl, h3]
    · rw [h1, readAll_ok r2 h2 v.pos (by rw [h4, h5]; simp), h5, h4]
      unfold Obs.text
      rw [h3]
      simp
  obtain ⟨s4, e4, r4⟩ := copyIn_ok r2 (put_self ..) src.length o.text (by simp; omega)
  rw [put_put] at r4
  simp only [List.take_left'] at r4
  rw [List.drop_append, List.drop_of_length_le (by omega), List.nil_append, List.drop_drop] at r4
  have hx : ((cs.drop (src.length + (src.length + o.text.length - src.length))).length) = 1 := by simp; omega
  obtain ⟨x, hx⟩ := List.length_eq_one_iff.1 hx
  rw [hx] at r4
  have f4 : Frame le .null (put le b (some (src ++ o.text ++ [x]))) (.blk b) := Frame.new le hb _
  have hv4 : Has (put le b (some (src ++ o.text ++ [x]))) v o :=
    ⟨hv.mode, hv.int, hv.dbl, hv.str.frame f4 (fun _ _ => nofun)⟩
  obtain ⟨s5, le5, _, e5, r5, f5⟩ := freeOld_ok r4 hv4
  have hb5 : le5 b = some (src ++ o.text ++ [x]) := by
    rw [(f5.1 b (fun e => hne b e rfl) (by rw [put_self]; simp)).1, put_self]
  obtain ⟨s6, e6, r6⟩ := poke_ok r5 hb5 (src.length + o.text.length) 0 (by simp)
  have : (src ++ o.text ++ [x]).set (src.length + o.text.length) (some 0) = src ++ o.text ++ some 0 :: [] := by
    rw [List.set_append_right _ _ (by simp)]
    simp
  rw [this] at r6
  refine ⟨{ v with ptr := .blk b, pos := v.pos + src.length }, s6, _, ?_, r6,
    ⟨hv.mode, hv.int, hv.dbl, .inr ⟨b, _, src ++ o.text, [], rfl, put_self .., rfl, ?_, rfl⟩⟩, ?_⟩
  · unfold prependCells
    rw [e1, ok_bind]
    simp only
    rw [e2, ok_bind, e3, ok_bind, e4, ok_bind, e5, ok_bind]
    unfold term
    simp only
    rw [show v.pos + src.length = src.length + o.text.length by omega, e6, ok_bind]
  · simp only [List.length_append]; omega
  · constructor
    · intro q h1 h2
      have hqb : q ≠ b := fun e => h2 (by rw [e]; exact hb)
      obtain ⟨a1, _⟩ := f4.1 q nofun h2
      obtain ⟨a2, _⟩ := f5.1 q h1 (by rw [a1]; exact h2)
      exact ⟨by rw [put_ne _ _ hqb, a2, a1], fun e => hqb (by cases e; rfl)⟩
    · intro q h1
      by_cases hqb : q = b
      · exact .inl (by rw [hqb])
      · rw [put_ne _ _ hqb] at h1
        rcases f5.2 q h1 with e | ⟨e1, e2⟩
        · cases e
        · rw [put_ne _ _ hqb] at e1
          exact .inr ⟨e1, e2⟩

/-- Cutting the text. -/
theorem cut_ok {m K : Nat} {s : St} {le : Live} (h : Rel m K s le) {v : Var} {o : Obs} (hv : Has le v o) {t : Text}
    (ht : o.str = some t) (n : Nat) (hn : n ≤ t.length) :
    ∃ v' s' le', Done m K le v.ptr (term s { v with pos := n }) (o.with (t.take n)) v' s' le' := by
  rcases hv.str with ⟨h1, h2, h3⟩ | ⟨b, cs, t', rest, h1, h2, h3, h4, h5⟩
  · rw [h3] at ht; cases ht
  · rw [ht] at h3; cases h3
    have hl : cs.length = t.length + 1 + rest.length := by rw [h5]; simp; omega
    obtain ⟨s1, rest', e1, r1⟩ := fill_ok h h2 (t.take n) [] (by
      rw [List.length_take, Nat.min_eq_left hn, h5, List.take_append_of_le_length hn]) (by simp; omega)
      { v with pos := n } h1 (by simp; omega)
    rw [List.append_nil] at r1
    refine ⟨{ v with pos := n }, s1, _, ?_, r1, ⟨hv.mode, hv.int, hv.dbl, .inr ⟨b, _, t.take n, rest', h1, put_self .., rfl, ?_, rfl⟩⟩, ?_⟩
    · simpa [copyIn] using e1
    · simp; omega
    · rw [h1]; exact Frame.put le b _

theorem endsWith_ok {m K : Nat} {s : St} {le : Live} (h : Rel m K s le) {v : Var} {o : Obs} (hv : Has le v o) (c : UInt8)
    (hk : o.text.getLast? ≠ some none) : endsWith s v c = .ok (decide (o.text.getLast? = some (some c))) := by
  have hp := hv.len
  unfold endsWith
  by_cases h0 : v.pos = 0
  · rw [if_pos h0]
    have : o.text = [] := List.length_eq_zero_iff.1 (by omega)
    rw [this]; simp
  · rw [if_neg h0]
    rcases hv.str with ⟨h1, h2, h3⟩ | ⟨b, cs, t, rest, h1, h2, h3, h4, h5⟩
    · omega
    · have ht : o.text = t := by unfold Obs.text; rw [h3]
      rw [ht] at hk ⊢
      have hg : t.getLast? = t[v.pos - 1]? := by rw [List.getLast?_eq_getElem?, h4]
      have hlt : v.pos - 1 < t.length := by omega
      have hx : cs[v.pos - 1]? = some t[v.pos - 1] := by
        rw [h5, List.getElem?_append_left hlt, List.getElem?_eq_getElem hlt]
      rw [hg, List.getElem?_eq_getElem hlt] at hk ⊢
      rw [h1, peek_ok h h2 hx, ok_bind]
      generalize t[v.pos - 1] = y at hk ⊢
      cases y with
      | none => exact absurd rfl hk
      | some y => simp

/-- Adding an integer. -/
theorem withInt_ok {m K : Nat} {s : St} {le : Live} (h : Rel m K s le) {v : Var} {o : Obs} (hv : Has le v o)
    (r : CRes (Bool × List UInt8)) (f : List Cell → CRes (Var × St)) (g : Text → Text) (n : Int) (radix : Nat)
    (hf : ∀ src : List Cell, src.length ≤ 44 → ∃ v' s' le', Done m K le v.ptr (f src) (o.with (g src)) v' s' le')
    (hsafe : ∃ ok t, r = .ok (ok, t) ∧ t.length ≤ 44)
    (ht : 2 ≤ radix ∧ radix ≤ 36 → ∃ t, IntText radix n t ∧
      (t.length ≤ 43 → ∃ x, r = .ok (true, x) ∧ cstr x = t) ∧ (43 < t.length → ∃ x, r = .ok (false, x))) :
    ∃ v' s' le' o', Done m K le v.ptr (withInt s v r f) o' v' s' le' ∧ addInt o o' n radix g := by
  obtain ⟨ok, x, hr, hx⟩ := hsafe
  unfold withInt
  rw [hr, ok_bind]
  cases ok with
  | true =>
    have := (MixedVar.cstr_prefix x).2
    obtain ⟨v', s', le', hd⟩ := hf ((cstr x).map some) (by simp; omega)
    refine ⟨v', s', le', _, hd, rfl, rfl, rfl, fun h => ?_⟩
    obtain ⟨t, h1, h2, h3⟩ := ht h
    refine ⟨t, h1, ?_⟩
    by_cases hl : t.length ≤ 43
    · rw [if_pos hl]
      obtain ⟨m', hm, hc⟩ := h2 hl
      rw [hr] at hm
      cases hm
      rw [hc]; rfl
    · obtain ⟨m', hm⟩ := h3 (by omega)
      rw [hr] at hm
      cases hm
  | false =>
    refine ⟨v, s, le, o, ⟨rfl, h, hv, Frame.refl ..⟩, rfl, rfl, rfl, fun h => ?_⟩
    obtain ⟨t, h1, h2, h3⟩ := ht h
    refine ⟨t, h1, ?_⟩
    by_cases hl : t.length ≤ 43
    · obtain ⟨m', hm, -⟩ := h2 hl
      rw [hr] at hm
      cases hm
    · rw [if_neg hl]

end Verif.TlsVar
