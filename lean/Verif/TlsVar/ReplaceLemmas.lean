import Verif.TlsVar.Lemmas
import Verif.FastFind.PropsReplace

namespace Verif.TlsVar
open Spec
open Verif.Tls (St Ptr Cell Rel Live put_put)
open Verif.Tls.Spec (put)
open Verif.FastFind (Ready)
open Verif.FastFind.Spec (MatchAt Replaced)

abbrev beq8 : UInt8 → UInt8 → Bool := (· == ·)

theorem beq8_ok : true = true → ∀ a b, beq8 a b = true ↔ a = b := fun _ a b => by simp [beq8]

theorem bytes_known (t : List UInt8) : bytes (known t) = .ok t := by
  induction t with
  | nil => rfl
  | cons x t ih =>
    show (do let r ← bytes (known t); .ok (x :: r) : CRes (List UInt8)) = _
    rw [ih, ok_bind]

theorem slice_ok {l : List UInt8} {a n : Nat} (h : a + n ≤ l.length) : slice l a n = .ok ((l.drop a).take n) := by
  unfold slice; rw [if_pos h]

/-- The finder sees only what lies behind its position. -/
theorem ready_swap {f : FastFind.Find UInt8} {p d d' : List UInt8} {c : Nat} (h : Ready beq8 f p d c)
    (hc : c ≤ d.length) (hl : d'.length = d.length) (hd : d'.drop c = d.drop c) : Ready beq8 { f with obj := d' } p d' c := by
  have hmatch : ∀ j, c ≤ j → (MatchAt beq8 p d' j ↔ MatchAt beq8 p d j) := by
    intro j hj
    have h1 := FastFind.MatchAt.drop (eq := beq8) (p := p) (d := d) (c := c) (i := j - c) hc
    have h2 := FastFind.MatchAt.drop (eq := beq8) (p := p) (d := d') (c := c) (i := j - c) (by omega)
    rw [show c + (j - c) = j by omega] at h1 h2
    rw [← h1, ← h2, hd]
  obtain ⟨s, hr, rfl, h3⟩ := h
  have pok : ∀ {p : List UInt8}, FastFind.PatOK f p → FastFind.PatOK { f with obj := d' } p :=
    fun k => ⟨k.ne, k.pat, k.lastPos, k.last, k.min, k.min2, k.mid, k.mid_min2, k.min2_min, k.min_size⟩
  rcases h3 with ⟨h1, h2, rfl⟩ | ⟨h1, h2⟩
  · refine ⟨{ s with d := d' }, ⟨hr.empty, fun hne => ⟨pok (hr.pat hne).1, (hr.pat hne).2⟩, fun hlive => ?_⟩, rfl,
      .inl ⟨h1, rfl, rfl⟩⟩
    obtain ⟨_, a2, a3, a4, a5⟩ := hr.run h1
    rw [h2] at a3 a4
    exact ⟨rfl, a2, by simp only [hl]; exact a3, by simp only [hl]; exact a4, a5⟩
  · refine ⟨s, ⟨hr.empty, fun hne => ⟨pok (hr.pat hne).1, (hr.pat hne).2⟩, fun hlive => ?_⟩, rfl, .inr ⟨h1, fun j hj => ?_⟩⟩
    · rw [h1] at hlive; cases hlive
    · rw [hmatch j hj]; exact h2 j hj

/-- An empty pattern is never found. -/
theorem empty_none {f : FastFind.Find UInt8} (h : f.pat = none) : FastFind.findNext beq8 true f = .ok (none, f) := by
  unfold FastFind.findNext
  split
  · next h2 => rw [h] at h2; cases h2
  · rfl

theorem setData_pat (f : FastFind.Find UInt8) (d : List UInt8) : (FastFind.setData f d).pat = f.pat := by
  unfold FastFind.setData
  dsimp only
  repeat' split
  all_goals rfl

theorem replaced_le {p w : List UInt8} {n k : Nat} {l out : List UInt8} (h : Replaced beq8 p w n k l out) :
    k * p.length ≤ l.length := by
  induction h with
  | none => simp
  | limit => simp
  | step _ hl _ _ ih =>
    simp only [List.length_append, Nat.add_mul, Nat.one_mul]
    omega

/-- Every text has a result of replacing. -/
theorem replacedAll_exists (p w t : List UInt8) : ∃ k out, ReplacedAll p w t k out := by
  by_cases hp : p = []
  · exact ⟨0, t, .inl ⟨hp, rfl, rfl⟩⟩
  · obtain ⟨k, out, _, h⟩ := FastFind.replaced_exists beq8 p w hp t.length (t.length + 1) t (Nat.le_refl _)
    refine ⟨k, out, .inr ⟨hp, t.length + 1, ?_, h⟩⟩
    have h1 := replaced_le h
    have h2 : 0 < p.length := List.length_pos_iff.2 hp
    have : k * 1 ≤ k * p.length := Nat.mul_le_mul_left _ h2
    omega

theorem replaced_more {p w : List UInt8} {n k : Nat} {l out : List UInt8} (h : Replaced beq8 p w n k l out) :
    k < n → ∀ n', k < n' → Replaced beq8 p w n' k l out := by
  induction h with
  | none n l hno => intro _ n' _; exact .none n' l hno
  | limit l => intro h; omega
  | step hm hl hf _ ih =>
    intro h n' h'
    obtain ⟨n', rfl⟩ : ∃ x, n' = x + 1 := ⟨n' - 1, by omega⟩
    exact .step hm hl hf (ih (by omega) n' (by omega))

/-- Number and result are determined by the text. -/
theorem replacedAll_unique {p w t : List UInt8} {k k' : Nat} {out out' : List UInt8} (h : ReplacedAll p w t k out)
    (h' : ReplacedAll p w t k' out') : k = k' ∧ out = out' := by
  rcases h with ⟨h1, rfl, rfl⟩ | ⟨h1, n, h2, h3⟩
  · rcases h' with ⟨_, rfl, rfl⟩ | ⟨h1', _⟩
    · exact ⟨rfl, rfl⟩
    · exact absurd h1 h1'
  · rcases h' with ⟨h1', _⟩ | ⟨_, n', h2', h3'⟩
    · exact absurd h1' h1
    · exact FastFind.replaced_unique (replaced_more h3 h2 (n + n') (by omega)) (replaced_more h3' h2' (n + n') (by omega))

/-! ## The growing result -/

/-- The result so far, in a block of its own. -/
structure GMem (m K : Nat) (le0 : Live) (s : St) (p : Ptr) (size : Nat) (o : List UInt8) (le : Live) : Prop where
  rel : Rel m K s le
  blk : ∃ b cs, p = .blk b ∧ le b = some cs ∧ cs.length = size + 1 ∧ cs.take o.length = o.map some ∧ Frame le0 .null le (.blk b)
  fits : o.length ≤ size

theorem resize_ok {m K : Nat} (hm : m ≤ 31 ∨ K ≤ 31) {le0 le : Live} {s : St} {g : Grow} {o : List UInt8}
    (h : GMem m K le0 s g.ptr g.dataSize o le) (n : Nat) (h1 : o.length ≤ n) (h2 : n + 1 ≤ 2 ^ K) :
    ∃ q s' le', g.resize s true n = .ok ({ g with ptr := q, dataSize := n }, s') ∧ GMem m K le0 s' q n o le' := by
  obtain ⟨b, cs, hp, hb, hl, ht, hf⟩ := h.blk
  have hfit := h.fits
  obtain ⟨p', s', cs', e, hq, hl', ht', hr⟩ := Tls.realloc_ok h.rel b (n + 1) cs true (.inl hm) h2 (by omega) hb
  refine ⟨.blk p', s', _, ?_, hr, ⟨p', cs', rfl, put_self .., hl', ?_, ?_⟩, h1⟩
  · unfold Grow.resize
    rw [hp, e, ok_bind]
  · have := congrArg (List.take o.length) ht'
    rw [List.take_take, List.take_take, Nat.min_eq_left (by omega)] at this
    rw [this, ht]
  · refine hf.trans ((Frame.del le b).trans (Frame.new _ ?_ cs'))
    rcases hq with hq | hq
    · rw [hq, put_self]
    · by_cases e : p' = b
      · rw [e, put_self]
      · rw [put_ne le none e, hq]

theorem write_ok {m K : Nat} {le0 le : Live} {s : St} {p : Ptr} {size : Nat} {o : List UInt8} (h : GMem m K le0 s p size o le)
    (x : List UInt8) (hx : o.length + x.length ≤ size) :
    ∃ s' le', copyIn s p o.length (x.map some) = .ok s' ∧ GMem m K le0 s' p size (o ++ x) le' := by
  obtain ⟨b, cs, hp, hb, hl, ht, hf⟩ := h.blk
  obtain ⟨s', e, hr⟩ := copyIn_ok h.rel hb o.length (x.map some) (by simp; omega)
  refine ⟨s', _, by rw [hp]; exact e, hr, ⟨b, _, hp, put_self .., ?_, ?_, hf.trans (Frame.put le b _)⟩, by simp; omega⟩
  · simp only [List.length_append, List.length_take, List.length_map, List.length_drop]; omega
  · rw [ht, List.map_append, List.take_append_of_le_length (by simp), List.take_of_length_le (by simp)]

/-- The loop invariant of `ReplaceAll`: `o` is the output so far. -/
structure GInv (m K : Nat) (le0 : Live) (s : St) (g : Grow) (d o : List UInt8) (le : Live) : Prop where
  mem : GMem m K le0 s g.ptr g.dataSize o le
  src : g.src = d
  curr : g.srcCurr ≤ d.length
  pos : g.dataPos = o.length

theorem findNext_none {m K : Nat} (hm : m ≤ 31 ∨ K ≤ 31) {le0 le : Live} {s : St} {g : Grow} {d o : List UInt8}
    (h : GInv m K le0 s g d o le) {f : FastFind.Find UInt8} (hn : FastFind.findNext beq8 true g.find = .ok (none, f))
    (hK : (o ++ d.drop g.srcCurr).length + 1 ≤ 2 ^ K) :
    ∃ g' s' le', g.findNext s true = .ok (none, g', s') ∧ g'.dataPos = (o ++ d.drop g.srcCurr).length ∧
      GMem m K le0 s' g'.ptr g'.dataPos (o ++ d.drop g.srcCurr) le' := by
  have hc := h.curr
  simp only [List.length_append, List.length_drop] at hK
  obtain ⟨q, s1, le1, e1, m1⟩ := resize_ok (g := { g with find := f }) hm h.mem (o.length + (d.length - g.srcCurr)) (by omega) (by omega)
  obtain ⟨s2, le2, e2, m2⟩ := write_ok m1 (d.drop g.srcCurr) (by simp)
  refine ⟨{ g with find := f, ptr := q, dataSize := o.length + (d.length - g.srcCurr), dataPos := o.length + (d.length - g.srcCurr) },
    s2, le2, ?_, by simp, m2⟩
  unfold Grow.findNext
  rw [show FastFind.findNext (· == ·) true g.find = _ from hn, ok_bind]
  dsimp only
  rw [h.src, h.pos, if_pos (.inr rfl), if_pos rfl, Nat.add_zero]
  have e1' := e1
  rw [show ({ g with find := f } : Grow) = { find := f, growth := g.growth, srcCurr := g.srcCurr, src := d, ptr := g.ptr, dataSize := g.dataSize, dataPos := o.length } from by rw [← h.src, ← h.pos]] at e1'
  rw [e1', ok_bind]
  dsimp only
  rw [slice_ok (by omega), ok_bind, List.take_of_length_le (by simp), e2, ok_bind]

theorem findNext_some {m K : Nat} (hm : m ≤ 31 ∨ K ≤ 31) {le0 le : Live} {s : St} {g : Grow} {d o : List UInt8}
    (h : GInv m K le0 s g d o le) {f : FastFind.Find UInt8} {i : Nat}
    (hn : FastFind.findNext beq8 true g.find = .ok (some i, f)) (hi : g.srcCurr ≤ i) (hd : i ≤ d.length)
    (hK : o.length + (i - g.srcCurr) + g.growth + 1 ≤ 2 ^ K) :
    ∃ g' s' le', g.findNext s true = .ok (some i, g', s') ∧ g'.find = f ∧ g'.growth = g.growth ∧ g'.srcCurr = g.srcCurr ∧
      g'.src = d ∧ g'.dataPos = (o ++ (d.drop g.srcCurr).take (i - g.srcCurr)).length ∧
      GMem m K le0 s' g'.ptr g'.dataSize (o ++ (d.drop g.srcCurr).take (i - g.srcCurr)) le' := by
  have hx : ((d.drop g.srcCurr).take (i - g.srcCurr)).length = i - g.srcCurr := by simp; omega
  unfold Grow.findNext
  rw [show FastFind.findNext (· == ·) true g.find = _ from hn, ok_bind]
  dsimp only
  by_cases hg : g.dataSize < o.length + (i - g.srcCurr)
  · obtain ⟨q, s1, le1, e1, m1⟩ := resize_ok (g := { g with find := f }) hm h.mem (o.length + (i - g.srcCurr) + g.growth) (by omega) (by omega)
    obtain ⟨s2, le2, e2, m2⟩ := write_ok m1 ((d.drop g.srcCurr).take (i - g.srcCurr)) (by rw [hx]; omega)
    rw [if_pos (.inl (by rw [h.pos]; exact hg)), if_neg nofun, h.pos, h.src]
    rw [show ({ g with find := f } : Grow) = { find := f, growth := g.growth, srcCurr := g.srcCurr, src := d, ptr := g.ptr, dataSize := g.dataSize, dataPos := o.length } from by rw [← h.src, ← h.pos]] at e1
    rw [e1, ok_bind]
    dsimp only
    rw [slice_ok (by omega), ok_bind, e2, ok_bind]
    exact ⟨_, s2, le2, rfl, rfl, rfl, rfl, rfl, by simp only [List.length_append, hx], m2⟩
  · obtain ⟨s2, le2, e2, m2⟩ := write_ok h.mem ((d.drop g.srcCurr).take (i - g.srcCurr)) (by rw [hx]; omega)
    rw [if_neg (by rw [h.pos]; intro hh; rcases hh with hh | hh; exact hg hh; cases hh), ok_bind]
    dsimp only
    rw [h.src, slice_ok (by omega), ok_bind, h.pos, e2, ok_bind]
    exact ⟨_, s2, le2, rfl, rfl, rfl, rfl, rfl, by simp only [List.length_append, hx], m2⟩

theorem grow_replace_ok {m K : Nat} (hm : m ≤ 31 ∨ K ≤ 31) {le0 le : Live} {s : St} {g : Grow} {d o : List UInt8}
    (hmem : GMem m K le0 s g.ptr g.dataSize o le) (hpos : g.dataPos = o.length) (hsrc : g.src = d) (w : List UInt8) {c : Nat}
    {f : FastFind.Find UInt8} (hs : FastFind.skipMatch g.find 0 = .ok (some c, f)) (hc : c ≤ d.length)
    (hK : o.length + w.length + g.growth + 1 ≤ 2 ^ K) :
    ∃ g' s' le', g.replace s true w = .ok (g', s') ∧ g'.find = f ∧ g'.growth = g.growth ∧ g'.srcCurr = c ∧
      GInv m K le0 s' g' d (o ++ w) le' := by
  unfold Grow.replace
  by_cases hg : g.dataSize < o.length + w.length
  · obtain ⟨q, s1, le1, e1, m1⟩ := resize_ok (g := g) hm hmem (o.length + w.length + g.growth) (by omega) (by omega)
    obtain ⟨s2, le2, e2, m2⟩ := write_ok m1 w (by omega)
    rw [if_pos (by rw [hpos]; exact hg), hpos, e1, ok_bind]
    dsimp only
    rw [hpos, e2, ok_bind, hs, ok_bind]
    dsimp only
    rw [FastFind.ptr, ok_bind, hsrc, if_neg (by omega)]
    exact ⟨_, s2, le2, rfl, rfl, rfl, rfl, m2, rfl, hc, by simp⟩
  · obtain ⟨s2, le2, e2, m2⟩ := write_ok hmem w (by omega)
    rw [if_neg (by rw [hpos]; exact hg), ok_bind]
    dsimp only
    rw [hpos, e2, ok_bind, hs, ok_bind]
    dsimp only
    rw [FastFind.ptr, ok_bind, hsrc, if_neg (by omega)]
    exact ⟨_, s2, le2, rfl, rfl, rfl, rfl, m2, rfl, hc, by simp⟩

theorem grow_loop_ok {m K : Nat} (hm : m ≤ 31 ∨ K ≤ 31) {le0 : Live} {p w d : List UInt8} (hp : p ≠ []) {G n k : Nat}
    {l out : List UInt8} (hR : Replaced beq8 p w n k l out) :
    ∀ (fuel num : Nat) (s : St) (g : Grow) (o : List UInt8) (le : Live), GInv m K le0 s g d o le →
      Ready beq8 g.find p d g.srcCurr → g.growth = G → l = d.drop g.srcCurr → k < n → num + k ≤ FastFind.sizeMax →
      l.length < fuel → (o ++ out).length + G + 1 ≤ 2 ^ K →
      ∃ g' s' le', Grow.loop true w fuel num s g = .ok (num + k, g', s') ∧ g'.dataPos = (o ++ out).length ∧
        GMem m K le0 s' g'.ptr g'.dataPos (o ++ out) le' := by
  induction hR with
  | limit l => intro _ _ _ _ _ _ _ _ _ _ h; omega
  | none n l hno =>
    intro fuel num s g o le h hr hG hl hk hnum hfuel hK
    obtain ⟨fuel, rfl⟩ : ∃ k, fuel = k + 1 := ⟨fuel - 1, by omega⟩
    have hno' : ∀ j, g.srcCurr ≤ j → ¬ MatchAt beq8 p d j := by
      intro j hj hmj
      apply hno (j - g.srcCurr)
      rw [hl, FastFind.MatchAt.drop h.curr, show g.srcCurr + (j - g.srcCurr) = j by omega]
      exact hmj
    obtain ⟨f', e1⟩ := hr.none true beq8_ok hno'
    obtain ⟨g', s', le', e2, h1, h2⟩ := findNext_none hm h e1 (by rw [← hl]; omega)
    refine ⟨g', s', le', ?_, by rw [hl]; exact h1, by rw [hl]; exact h2⟩
    rw [Grow.loop, e2]
    simp
  | @step n k pre mm post out hmt hml hf hrest ih =>
    intro fuel num s g o le h hr hG hl hk hnum hfuel hK
    obtain ⟨fuel, rfl⟩ : ∃ k, fuel = k + 1 := ⟨fuel - 1, by omega⟩
    obtain ⟨hm', hf'⟩ := FastFind.first_match h.curr hl.symm hmt hf
    obtain ⟨f', e1, f'', e2, hr'⟩ := hr.some true beq8_ok hp (Nat.le_add_right _ _) hm' hf'
    have hb := hm'.1
    simp only [List.length_append] at hK
    obtain ⟨g1, s1, le1, e3, a1, a2, a3, a4, a5, a6⟩ := findNext_some hm h e1 (by omega) (by omega) (by omega)
    rw [Nat.add_sub_cancel_left, ← hl, List.append_assoc, List.take_left] at a5 a6
    obtain ⟨g2, s2, le2, e4, b1, b2, b3, b4⟩ := grow_replace_ok hm a6 a5 a4 w (by rw [a1]; exact e2) hb
      (by simp only [List.length_append]; omega)
    have hpost := FastFind.drop_after hl.symm hml
    obtain ⟨g3, s3, le3, e5, c1, c2⟩ := ih fuel (num + 1) s2 g2 _ le2 b4 (by rw [b1, b3]; exact hr') (by rw [b2, a2, hG])
      (by rw [b3]; exact hpost.symm) (by omega) (by omega) (by simp only [List.length_append] at hfuel; have := List.length_pos_iff.2 hp; omega)
      (by simp only [List.length_append]; omega)
    refine ⟨g3, s3, le3, ?_, by rw [c1]; simp [List.append_assoc], by simpa [List.append_assoc] using c2⟩
    rw [Grow.loop, e3, ok_bind]
    dsimp only
    rw [if_pos ⟨rfl, by omega⟩, e4, ok_bind]
    dsimp only
    rw [e5]
    congr 2
    omega

theorem growthFor_eq (src dest : List UInt8) : FastFind.growthFor src dest 1024 = growth src dest := by
  unfold FastFind.growthFor growth
  split <;> omega

theorem growAll_ok {m K : Nat} (hm : m ≤ 31 ∨ K ≤ 31) {le : Live} {s : St} (h : Rel m K s le) {d p w : List UInt8} {k : Nat}
    {out : List UInt8} (hR : ReplacedAll p w d k out) (hp : p.length < 2 ^ 64) (hd : d.length < 2 ^ 64)
    (h1 : d.length + growth p w + 1 ≤ 2 ^ K) (h2 : out.length + growth p w + 1 ≤ 2 ^ K) :
    ∃ g' s' le', growAll s true d p w = .ok (k, g', s') ∧ g'.dataPos = out.length ∧
      GMem m K le s' g'.ptr g'.dataPos out le' := by
  obtain ⟨f, e, hr⟩ := FastFind.Rel.setPattern (f := FastFind.Find.init) (s := FastFind.Spec.S.init) beq8 p hp
  obtain ⟨b, s1, cs, e1, hb, hl, r1⟩ := alloc_ok h (d.length + growth p w + 1) (by omega) h1
  unfold growAll
  rw [show FastFind.setPattern (· == ·) FastFind.Find.init p = _ from e, ok_bind]
  dsimp only
  rw [growthFor_eq, e1, ok_bind]
  dsimp only
  have hi : GInv m K le s1 { find := FastFind.setData f d, growth := growth p w, srcCurr := 0, src := d, ptr := (.blk b), dataSize := d.length + growth p w, dataPos := 0 } d [] (put le b (some cs)) :=
    ⟨⟨r1, ⟨b, cs, rfl, put_self .., hl, rfl, Frame.new le hb cs⟩, Nat.zero_le _⟩, rfl, Nat.zero_le _, rfl⟩
  rcases hR with ⟨rfl, rfl, rfl⟩ | ⟨hne, n, hk, hR⟩
  · obtain ⟨g', s', le', e3, a1, a2⟩ := findNext_none hm hi (empty_none (by dsimp only; rw [setData_pat, (hr.empty rfl).1]))
      (by simp; omega)
    refine ⟨g', s', le', ?_, by simpa using a1, by simpa using a2⟩
    rw [Grow.loop, e3]
    simp
  · have hle := replaced_le hR
    have hpl : 0 < p.length := List.length_pos_iff.2 hne
    have hkd : k * 1 ≤ k * p.length := Nat.mul_le_mul_left _ hpl
    obtain ⟨g', s', le', e3, a1, a2⟩ := grow_loop_ok hm hne hR (d.length + 1) 0 s1 _ [] _ hi (FastFind.start_ready hne hr) rfl rfl
      hk (by unfold FastFind.sizeMax; omega) (by omega) (by simpa using h2)
    refine ⟨g', s', le', ?_, by simpa using a1, by simpa using a2⟩
    rw [e3, Nat.zero_add]

/-! ## The result in place -/

/-- The loop invariant of `StaticReplaceAll` in place: `o` is the output so far. -/
structure SInv (g : Shrink) (o l : List UInt8) (L : Nat) : Prop where
  len : g.buf.length = L
  out : g.buf.take o.length = o
  pos : g.dataPos = o.length
  le : o.length ≤ g.srcCurr
  curr : g.srcCurr ≤ L
  rest : l = g.buf.drop g.srcCurr

theorem shiftIn_ok {buf : List UInt8} {dst src n : Nat} (h1 : src + n ≤ buf.length) (h2 : dst + n ≤ buf.length) :
    shiftIn true buf dst src n = .ok (buf.take dst ++ (buf.drop src).take n ++ buf.drop (dst + n)) := by
  unfold shiftIn memmoveIn
  by_cases h0 : n = 0
  · rw [if_pos h0, h0]; simp
  · rw [if_neg h0, if_neg (by simp), if_pos h1, if_pos h2]

theorem drop_patch (b x : List UInt8) (a c : Nat) (h1 : a + x.length ≤ c) (h2 : c ≤ b.length) :
    (b.take a ++ x ++ b.drop (a + x.length)).drop c = b.drop c := by
  rw [List.append_assoc, List.drop_append, List.drop_of_length_le (by simp; omega), List.nil_append, List.length_take,
    Nat.min_eq_left (by omega), List.drop_append, List.drop_of_length_le (by omega), List.nil_append, List.drop_drop]
  congr 1
  omega

theorem take_patch (b o x : List UInt8) (h : b.take o.length = o) :
    (b.take o.length ++ x ++ b.drop (o.length + x.length)).take (o ++ x).length = o ++ x := by
  rw [h, List.take_append_of_le_length (by simp), List.take_of_length_le (by simp)]

theorem shrink_none {g : Shrink} {o l : List UInt8} {L : Nat} (h : SInv g o l L) {f : FastFind.Find UInt8}
    (hn : FastFind.findNext beq8 true { g.find with obj := g.buf } = .ok (none, f)) :
    ∃ g', g.findNext true = .ok (none, g') ∧ g'.dataPos = (o ++ l).length ∧ g'.buf.length = L ∧
      g'.buf.take (o ++ l).length = o ++ l := by
  have h1 := h.le
  have h2 := h.curr
  have h3 := h.len
  have hll : l.length = g.buf.length - g.srcCurr := by rw [h.rest, List.length_drop]
  unfold Shrink.findNext
  rw [show FastFind.findNext (· == ·) true { g.find with obj := g.buf } = _ from hn, ok_bind]
  dsimp only
  rw [h.pos, if_neg (by omega), shiftIn_ok (by omega) (by omega), ok_bind]
  refine ⟨_, rfl, by simp only [List.length_append]; omega, ?_, ?_⟩
  · simp only [List.length_append, List.length_take, List.length_drop]; omega
  · dsimp only
    have := take_patch g.buf o l h.out
    rw [← hll, ← h.rest, List.take_of_length_le (Nat.le_refl _)]
    exact this

theorem shrink_some {g : Shrink} {o l pre rest : List UInt8} {L : Nat} (h : SInv g o l L) {f : FastFind.Find UInt8}
    (hl : l = pre ++ rest)
    (hn : FastFind.findNext beq8 true { g.find with obj := g.buf } = .ok (some (g.srcCurr + pre.length), f)) :
    ∃ b, g.findNext true = .ok (some (g.srcCurr + pre.length),
        { g with find := f, buf := b, dataPos := (o ++ pre).length }) ∧ b.length = L ∧
      b.take (o ++ pre).length = o ++ pre ∧ ∀ c, g.srcCurr + pre.length ≤ c → c ≤ L → b.drop c = g.buf.drop c := by
  have h1 := h.le
  have h2 := h.curr
  have h3 := h.len
  have hll : (pre ++ rest).length = g.buf.length - g.srcCurr := by rw [← hl, h.rest, List.length_drop]
  rw [List.length_append] at hll
  have hx : (g.buf.drop g.srcCurr).take pre.length = pre := by rw [← h.rest, hl, List.take_left]
  unfold Shrink.findNext
  rw [show FastFind.findNext (· == ·) true { g.find with obj := g.buf } = _ from hn, ok_bind]
  dsimp only
  rw [h.pos, Nat.add_sub_cancel_left, if_neg (by omega), shiftIn_ok (by omega) (by omega), ok_bind, hx]
  refine ⟨_, by rw [List.length_append], ?_, take_patch g.buf o pre h.out, fun c hc1 hc2 => drop_patch _ _ _ _ (by omega) (by omega)⟩
  simp only [List.length_append, List.length_take, List.length_drop]; omega

theorem shrink_replace {g : Shrink} {o w : List UInt8} {L c : Nat} {f : FastFind.Find UInt8} (hlen : g.buf.length = L)
    (hout : g.buf.take o.length = o) (hpos : g.dataPos = o.length) (hs : FastFind.skipMatch g.find 0 = .ok (some c, f))
    (hc : c ≤ L) (hw : o.length + w.length ≤ c) :
    ∃ b, g.replace w = .ok { find := f, srcCurr := c, buf := b, dataPos := (o ++ w).length } ∧ b.drop c = g.buf.drop c ∧
      SInv { find := f, srcCurr := c, buf := b, dataPos := (o ++ w).length } (o ++ w) (b.drop c) L := by
  have hb : (g.buf.take o.length ++ w ++ g.buf.drop (o.length + w.length)).length = L := by
    simp only [List.length_append, List.length_take, List.length_drop]; omega
  refine ⟨g.buf.take o.length ++ w ++ g.buf.drop (o.length + w.length), ?_, drop_patch _ _ _ _ (by omega) (by omega),
    hb, take_patch _ _ _ hout, rfl, by simpa using hw, hc, rfl⟩
  unfold Shrink.replace
  dsimp only
  rw [hpos, if_neg (by omega)]
  unfold memcpyTo
  rw [if_pos (Nat.le_refl _), if_pos (by omega), ok_bind, hs, ok_bind]
  dsimp only
  rw [FastFind.ptr, ok_bind, if_neg (by omega), List.take_of_length_le (Nat.le_refl _), List.length_append]

theorem shrink_loop_ok {p w : List UInt8} (hp : p ≠ []) (hw : w.length ≤ p.length) {L n k : Nat} {l out : List UInt8}
    (hR : Replaced beq8 p w n k l out) :
    ∀ (fuel num : Nat) (g : Shrink) (o : List UInt8), SInv g o l L →
      Ready beq8 { g.find with obj := g.buf } p g.buf g.srcCurr → k < n → num + k ≤ FastFind.sizeMax → l.length < fuel →
      ∃ g', Shrink.loop true w fuel num g = .ok (num + k, g') ∧ g'.dataPos = (o ++ out).length ∧ g'.buf.length = L ∧
        g'.buf.take (o ++ out).length = o ++ out := by
  induction hR with
  | limit l => intro _ _ _ _ _ _ h; omega
  | none n l hno =>
    intro fuel num g o h hr hk hnum hfuel
    obtain ⟨fuel, rfl⟩ : ∃ k, fuel = k + 1 := ⟨fuel - 1, by omega⟩
    have hcur : g.srcCurr ≤ g.buf.length := by rw [h.len]; exact h.curr
    have hno' : ∀ j, g.srcCurr ≤ j → ¬ MatchAt beq8 p g.buf j := by
      intro j hj hmj
      apply hno (j - g.srcCurr)
      rw [h.rest, FastFind.MatchAt.drop hcur, show g.srcCurr + (j - g.srcCurr) = j by omega]
      exact hmj
    obtain ⟨f', e1⟩ := hr.none true beq8_ok hno'
    obtain ⟨g', e2, h1, h2, h3⟩ := shrink_none h e1
    refine ⟨g', ?_, h1, h2, h3⟩
    rw [Shrink.loop, e2]
    simp
  | @step n k pre mm post out hmt hml hf hrest ih =>
    intro fuel num g o h hr hk hnum hfuel
    obtain ⟨fuel, rfl⟩ : ∃ k, fuel = k + 1 := ⟨fuel - 1, by omega⟩
    have hcur : g.srcCurr ≤ g.buf.length := by rw [h.len]; exact h.curr
    obtain ⟨hm', hf'⟩ := FastFind.first_match hcur h.rest.symm hmt hf
    obtain ⟨f', e1, f'', e2, hr'⟩ := hr.some true beq8_ok hp (Nat.le_add_right _ _) hm' hf'
    have hb := hm'.1
    have hle := h.le
    have hlen := h.len
    obtain ⟨b1, e3, a1, a2, a3⟩ := shrink_some (pre := pre) (rest := mm ++ post) h (by rw [List.append_assoc]) e1
    obtain ⟨b2, e4, c1, c2⟩ := shrink_replace (g := { g with find := f', buf := b1, dataPos := (o ++ pre).length })
      (w := w) (c := g.srcCurr + pre.length + p.length) a1 a2 rfl e2 (by omega) (by simp only [List.length_append]; omega)
    dsimp only at c1
    have hpl := List.length_pos_iff.2 hp
    have hdrop : b2.drop (g.srcCurr + pre.length + p.length) = g.buf.drop (g.srcCurr + pre.length + p.length) := by
      rw [c1, a3 _ (by omega) (by omega)]
    have hpost := FastFind.drop_after h.rest.symm hml
    rw [← hdrop] at hpost
    rw [hpost] at c2
    have hr2 := ready_swap hr' hb (by rw [c2.len, hlen]) hdrop
    obtain ⟨g', e5, d1, d2, d3⟩ := ih fuel (num + 1) _ _ c2 hr2 (by omega) (by omega)
      (by simp only [List.length_append] at hfuel; omega)
    refine ⟨g', ?_, by rw [d1]; simp [List.append_assoc], d2, by simpa [List.append_assoc] using d3⟩
    rw [Shrink.loop, e3, ok_bind]
    dsimp only
    rw [if_pos ⟨rfl, by omega⟩, e4, ok_bind, e5]
    congr 2
    omega

theorem shrinkAll_ok {d p w : List UInt8} {k : Nat} {out : List UInt8} (hR : ReplacedAll p w d k out) (hp : p.length < 2 ^ 64)
    (hd : d.length < 2 ^ 64) (hw : w.length ≤ p.length) :
    ∃ g', shrinkAll true d p w = .ok (k, g') ∧ g'.dataPos = out.length ∧ g'.buf.length = d.length ∧
      g'.buf.take out.length = out := by
  obtain ⟨f, e, hr⟩ := FastFind.Rel.setPattern (f := FastFind.Find.init) (s := FastFind.Spec.S.init) beq8 p hp
  unfold shrinkAll
  rw [show FastFind.setPattern (· == ·) FastFind.Find.init p = _ from e, ok_bind]
  have hi : SInv { find := FastFind.setData f d, srcCurr := 0, buf := d, dataPos := 0 } [] d d.length :=
    ⟨rfl, rfl, rfl, Nat.zero_le _, Nat.zero_le _, rfl⟩
  rcases hR with ⟨rfl, rfl, rfl⟩ | ⟨hne, n, hk, hR⟩
  · obtain ⟨g', e3, a1, a2, a3⟩ := shrink_none hi (empty_none (by dsimp only; rw [setData_pat, (hr.empty rfl).1]))
    refine ⟨g', ?_, by simpa using a1, a2, by simpa using a3⟩
    rw [Shrink.loop, e3]
    simp
  · have hle := replaced_le hR
    have hpl : 0 < p.length := List.length_pos_iff.2 hne
    have hkd : k * 1 ≤ k * p.length := Nat.mul_le_mul_left _ hpl
    obtain ⟨g', e3, a1, a2, a3⟩ := shrink_loop_ok hne hw hR (d.length + 1) 0 _ [] hi
      (ready_swap (FastFind.start_ready hne hr) (Nat.zero_le _) rfl rfl)
      hk (by unfold FastFind.sizeMax; omega) (by omega)
    refine ⟨g', ?_, by simpa using a1, a2, by simpa using a3⟩
    rw [e3, Nat.zero_add]

theorem Has.read {m K : Nat} {s : St} {le : Live} (h : Rel m K s le) {v : Var} {o : Obs} (hv : Has le v o) :
    readAll s v.ptr v.pos = .ok o.text := by
  rcases hv.str with ⟨h1, h2, h3⟩ | ⟨q, cs, t, rest, h1, h2, h3, h4, h5⟩
  · unfold readAll Obs.text
    rw [h2, if_pos rfl, h3]
  · rw [h1, readAll_ok h h2 v.pos (by rw [h4, h5]; simp), h5, h4]
    unfold Obs.text
    rw [h3]
    simp

/-- `ReplaceData` on one variable. -/
theorem replaceData_ok {m K : Nat} (hm : m ≤ 31 ∨ K ≤ 31) {s : St} {le : Live} (h : Rel m K s le) {v : Var} {o : Obs}
    (hv : Has le v o) {ov : Bool} {src dest t : List UInt8} (ha : AllowedReplace K ov o src dest t) :
    ∃ k out v' s' le', replaceData s v true ov src dest = .ok (k, v', s') ∧ ReplacedAll src dest t k out ∧ Rel m K s' le' ∧
      Has le' v' (o.with (known out)) ∧ Frame le v.ptr le' v'.ptr := by
  obtain ⟨ht, htl, hsl, hgrow, hshrink⟩ := ha
  obtain ⟨k, out, hR⟩ := replacedAll_exists src dest t
  refine ⟨k, out, ?_⟩
  unfold replaceData
  rw [hv.read h, ok_bind, ht, bytes_known, ok_bind]
  by_cases hlt : src.length < dest.length
  · obtain ⟨hb1, hb2⟩ := hgrow hlt k out hR
    obtain ⟨g, s1, le1, e1, hpos, hmem⟩ := growAll_ok hm h hR hsl htl hb1 hb2
    obtain ⟨b, cs, hp, hb, hl, htk, hf⟩ := hmem.blk
    have hv1 : Has le1 v o := ⟨hv.mode, hv.int, hv.dbl, hv.str.frame hf (fun _ _ => nofun)⟩
    have hne : v.ptr ≠ .blk b := by
      intro e
      rcases hv.str with ⟨h1, _⟩ | ⟨q, cs', t', rest', h1, h2, _⟩
      · rw [h1] at e; cases e
      · rw [h1] at e; cases e
        exact (hf.1 b nofun (by rw [h2]; simp)).2 rfl
    obtain ⟨s2, le2, _, e2, r2, f2⟩ := freeOld_ok hmem.rel hv1
    have hb2 : le2 b = some cs := by rw [(f2.1 b hne (by rw [hb]; simp)).1, hb]
    have hol : (known out).length = out.length := by simp [known]
    obtain ⟨s3, rest, e3, r3⟩ := fill_ok r2 hb2 (known out) [] (by rw [hol]; exact htk) (by simp only [List.length_nil]; omega)
      { v with ptr := .blk b, pos := out.length } rfl (by simp [hol])
    rw [List.append_nil] at r3
    refine ⟨{ v with ptr := .blk b, pos := out.length }, s3, _, ?_, hR, r3,
      ⟨hv.mode, hv.int, hv.dbl, .inr ⟨b, _, known out, rest, rfl, put_self .., rfl, hol.symm, rfl⟩⟩, ?_⟩
    · rw [if_pos hlt, e1, ok_bind]
      dsimp only
      rw [e2, ok_bind, hp, hpos]
      have e3' : term s2 { v with ptr := .blk b, pos := out.length } = .ok ({ v with ptr := .blk b, pos := out.length }, s3) := by
        simpa [copyIn] using e3
      rw [e3', ok_bind]
    · constructor
      · intro q h1 h2
        obtain ⟨a1, a2⟩ := hf.1 q nofun h2
        obtain ⟨a3, _⟩ := f2.1 q h1 (by rw [a1]; exact h2)
        have hqb : q ≠ b := fun e => a2 (by rw [e])
        exact ⟨by rw [put_ne _ _ hqb, a3, a1], a2⟩
      · intro q h1
        by_cases hqb : q = b
        · exact .inl (by rw [hqb])
        · rw [put_ne _ _ hqb] at h1
          rcases f2.2 q h1 with e | ⟨e1, e2⟩
          · cases e
          · rcases hf.2 q e1 with e | ⟨e3, _⟩
            · cases e; exact absurd rfl hqb
            · exact .inr ⟨e3, e2⟩
  · obtain ⟨rfl, hstr⟩ := hshrink (by omega)
    rw [if_neg hlt]
    rcases hv.str with ⟨h1, h2, h3⟩ | ⟨b, cs, t', rest, h1, h2, h3, h4, h5⟩
    · exact absurd h3 hstr
    · have htt : o.text = t' := by unfold Obs.text; rw [h3]
      rw [ht] at htt
      rw [if_neg (by rw [h1]; nofun)]
      obtain ⟨g, e1, hpos, hlen, htk⟩ := shrinkAll_ok hR hsl htl (by omega)
      have htl' : t'.length = t.length := by rw [← htt]; simp [known]
      have hcl : cs.length = t'.length + 1 + rest.length := by rw [h5]; simp; omega
      obtain ⟨s1, e2, r1⟩ := copyIn_ok h h2 0 (g.buf.map some) (by simp; omega)
      have hout : out.length ≤ t.length := by
        have := congrArg List.length htk
        rw [List.length_take] at this
        omega
      have hol : (known out).length = out.length := by simp [known]
      obtain ⟨s2, rest', e3, r2⟩ := fill_ok r1 (put_self ..) (known out) []
        (by
          rw [hol, List.take_zero, List.nil_append, List.take_append_of_le_length (by simp; omega), ← List.map_take, htk]
          rfl)
        (by simp only [List.length_append, List.length_take, List.length_map, List.length_drop, List.length_nil]; omega)
        { v with pos := out.length } h1 (by simp [hol])
      rw [List.append_nil, put_put] at r2
      refine ⟨{ v with pos := out.length }, s2, _, ?_, hR, r2,
        ⟨hv.mode, hv.int, hv.dbl, .inr ⟨b, _, known out, rest', h1, put_self .., rfl, hol.symm, rfl⟩⟩, ?_⟩
      · rw [e1, ok_bind]
        dsimp only
        rw [h1, e2, ok_bind, hpos]
        have e3' : term s1 { v with pos := out.length } = .ok ({ v with pos := out.length }, s2) := by
          simpa [copyIn] using e3
        rw [← h1]
        rw [e3', ok_bind]
      · simp only
        rw [h1]
        exact Frame.put le b _

end Verif.TlsVar
