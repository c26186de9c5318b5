import Verif.PackedHash.Lemmas

/-! # Proof of the refinement of the packed ordered hash: whole table -/

namespace Verif.PackedHash
open Verif.Links Spec
open Verif.OrderedHash (Key intBytes)

variable {α : Type} {hf : List UInt8 → UInt64}

/-- Key and value of a slot. -/
def ent (K : Nat → Key) (V : Nat → α) (i : Nat) : Key × α := (K i, V i)

/-- Is the slot in use? -/
def live (w : W α) (i : Nat) : Bool := decide (w.pv i ≠ nil32)

/-- The invariant of the object between calls. -/
structure Inv (hf : List UInt8 → UInt64) (w : W α) (xs : List Nat) (K : Nat → Key) (V : Nat → α) : Prop extends T hf w xs K V where
  xs_eq : xs = (List.range w.pos).filter (live w)
  pos_le : w.pos ≤ w.cap
  used : w.used = xs.length
  c90 : w.c90 = w.cap - w.cap / 10
  r40 : w.r40 = w.cap * 8 / 10
  ini : ∀ i, i < w.pos → w.init i = true

theorem Inv.get {β : Type} {w : W α} {xs : List Nat} {K : Nat → Key} {V : Nat → α} (t : Inv hf w xs K V) {f : Nat → β} {i : Nat}
    (h : i < w.pos) : get w f i = .ok (f i) := get_ok ⟨Nat.lt_of_lt_of_le h t.pos_le, t.ini i h⟩

theorem Inv.used_le {w : W α} {xs : List Nat} {K : Nat → Key} {V : Nat → α} (t : Inv hf w xs K V) : w.used ≤ w.pos := by
  rw [t.used, t.xs_eq]
  exact Nat.le_trans (List.length_filter_le _ _) (by simp)

theorem filter_live_congr {w w' : W α} {l : List Nat} (h : ∀ y ∈ l, (w'.pv y ≠ nil32 ↔ w.pv y ≠ nil32)) :
    l.filter (live w') = l.filter (live w) := by
  apply List.filter_congr
  intro y hy
  unfold live
  simp only [decide_eq_decide]
  exact h y hy

/-! ## Optimize -/

theorem firstUnset_ok {w : W α} (hi : ∀ i, i < w.pos → i < w.cap ∧ w.init i = true) : ∀ (k i : Nat), i + k = w.pos →
    ∃ m, firstUnset w k i = .ok m ∧ i ≤ m ∧ m ≤ w.pos ∧ (∀ y, i ≤ y → y < m → w.pv y ≠ nil32) ∧ (m < w.pos → w.pv m = nil32)
  | 0, i, h => ⟨i, rfl, Nat.le_refl _, by omega, fun y h1 h2 => by omega, fun h' => by omega⟩
  | k + 1, i, h => by
    unfold firstUnset
    rw [get_ok (hi i (by omega)), ok_bind]
    by_cases e : w.pv i = nil32
    · rw [if_pos e]
      exact ⟨i, rfl, Nat.le_refl _, by omega, fun y h1 h2 => by omega, fun _ => e⟩
    · rw [if_neg e]
      obtain ⟨m, h1, h2, h3, h4, h5⟩ := firstUnset_ok hi k (i + 1) (by omega)
      refine ⟨m, h1, by omega, h3, fun y hy1 hy2 => ?_, h5⟩
      by_cases ey : y = i
      · rw [ey]; exact e
      · exact h4 y (by omega) hy2

theorem map_ent_upd {K : Nat → Key} {V : Nat → α} {l : List Nat} {x : Nat} {k : Key} {v : α} (h : x ∉ l) :
    l.map (ent (upd K x k) (upd V x v)) = l.map (ent K V) := by
  apply List.map_congr_left
  intro y hy
  have := ne_of_mem hy h
  simp [ent, upd_other _ _ this]

theorem optLoop_ok : ∀ (k : Nat) (w : W α) (j x : Nat) (K : Nat → Key) (V : Nat → α), j + k = w.pos → x < j → w.pos ≤ w.cap →
    (∀ i, i < w.pos → w.init i = true) → T hf w (List.range x ++ (List.range' j k).filter (live w)) K V →
    ∃ w' x' K' V', optLoop k w j x = .ok (w', x') ∧ T hf w' (List.range x') K' V' ∧
      (List.range x').map (ent K' V') = (List.range x ++ (List.range' j k).filter (live w)).map (ent K V) ∧
      w'.cap = w.cap ∧ w'.pos = w.pos ∧ w'.used = w.used ∧ w'.c90 = w.c90 ∧ w'.r40 = w.r40 ∧ ∀ i, i < w.pos → w'.init i = true
  | 0, w, j, x, K, V, _, _, _, hi, t => ⟨w, x, K, V, rfl, by simpa using t, by simp, rfl, rfl, rfl, rfl, rfl, hi⟩
  | k + 1, w, j, x, K, V, hjk, hxj, hp, hi, t => by
    have hjl : j < w.pos := by omega
    unfold optLoop
    rw [get_ok ⟨by omega, hi j hjl⟩, ok_bind]
    by_cases e : w.pv j = nil32
    · rw [if_pos e]
      have hl : (List.range' j (k + 1)).filter (live w) = (List.range' (j + 1) k).filter (live w) := by
        rw [List.range'_succ, List.filter_cons_of_neg (by simp [live, e])]
      rw [hl] at t ⊢
      exact optLoop_ok k w (j + 1) x K V (by omega) (by omega) hp hi t
    · rw [if_neg e]
      have hl : (List.range' j (k + 1)).filter (live w) = j :: (List.range' (j + 1) k).filter (live w) := by
        rw [List.range'_succ, List.filter_cons_of_pos (by simp [live, e])]
      rw [hl] at t ⊢
      have hxn : x ∉ List.range x ++ j :: (List.range' (j + 1) k).filter (live w) := by
        simp only [List.mem_append, List.mem_range, List.mem_cons, List.mem_filter, List.mem_range'_1]
        omega
      have hmem : ∀ y, y ∈ List.range (x + 1) ++ (List.range' (j + 1) k).filter (live w) ↔
          y = x ∨ (y ∈ List.range x ++ j :: (List.range' (j + 1) k).filter (live w) ∧ y ≠ j) := by
        intro y
        simp only [List.mem_append, List.mem_range, List.mem_cons, List.mem_filter, List.mem_range'_1]
        constructor
        · rintro (h | ⟨h, h'⟩)
          · by_cases ey : y = x
            · exact Or.inl ey
            · exact Or.inr ⟨Or.inl (by omega), by omega⟩
          · exact Or.inr ⟨Or.inr (Or.inr ⟨h, h'⟩), by omega⟩
        · rintro (h | ⟨h | h | h, h'⟩)
          · exact Or.inl (by omega)
          · exact Or.inl (by omega)
          · exact absurd h h'
          · exact Or.inr h
      obtain ⟨w1, h1, t1, e1, e2, e3, e4, e5, hin, hfr⟩ := t.move (j := j) (by simp) hxn (by omega) hmem
      have hlv : (List.range' (j + 1) k).filter (live w1) = (List.range' (j + 1) k).filter (live w) := by
        apply filter_live_congr
        intro y hy
        rw [List.mem_range'_1] at hy
        by_cases ly : w.pv y = nil32
        · rw [hfr y (by omega) ?_]
          simp only [List.mem_append, List.mem_range, List.mem_cons, List.mem_filter, List.mem_range'_1, live, ly]
          simp only [ne_eq, not_true_eq_false, decide_false, Bool.false_eq_true, and_false, or_false]
          omega
        · refine ⟨fun _ => ly, fun _ => t1.live ?_⟩
          simp only [List.mem_append, List.mem_filter, List.mem_range'_1, live]
          exact Or.inr ⟨hy, by simpa using ly⟩
      rw [h1, ok_bind]
      rw [← hlv] at t1
      obtain ⟨w', x', K', V', g1, g2, g3, g4, g5, g6, g7, g8, g9⟩ := optLoop_ok k w1 (j + 1) (x + 1) _ _ (by omega) (by omega)
        (by rw [e1, e2]; exact hp)
        (fun i hi' => by
          by_cases ei : i = x
          · rw [ei]; exact (t1.rng x (by simp)).2
          · rw [hin i ei]; exact hi i (by omega)) t1
      refine ⟨w', x', K', V', g1, g2, ?_, by rw [g4, e1], by rw [g5, e2], by rw [g6, e3], by rw [g7, e4], by rw [g8, e5],
        fun i hi' => g9 i (by omega)⟩
      rw [g3, hlv, List.range_succ]
      have hx1 : x ∉ List.range x := by simp
      have hx2 : x ∉ (List.range' (j + 1) k).filter (live w) := by
        simp only [List.mem_filter, List.mem_range'_1]; omega
      simp only [List.map_append, List.map_cons, List.map_nil, map_ent_upd hx1, map_ent_upd hx2, List.append_assoc,
        List.cons_append, List.nil_append]
      simp [ent]

theorem range_split {i pos : Nat} (h : i < pos) : List.range pos = List.range i ++ i :: List.range' (i + 1) (pos - (i + 1)) := by
  rw [List.range_eq_range', List.range_eq_range', ← List.range'_succ]
  have := List.range'_append_1 (s := 0) (m := i) (n := pos - (i + 1) + 1)
  simp only [Nat.zero_add] at this
  rw [this]
  congr 1
  omega

theorem optimize_ok {w : W α} {xs : List Nat} {K : Nat → Key} {V : Nat → α} (t : Inv hf w xs K V) :
    ∃ w' xs' K' V', optimize w = .ok w' ∧ Inv hf w' xs' K' V' ∧ xs'.map (ent K' V') = xs.map (ent K V) ∧ w'.pos = w.used ∧
      w'.cap = w.cap := by
  unfold optimize
  by_cases e : w.pos = w.used
  · rw [if_pos e]
    exact ⟨w, xs, K, V, rfl, t, rfl, e, rfl⟩
  · rw [if_neg e]
    obtain ⟨m, h1, -, h3, h4, h5⟩ := firstUnset_ok (fun i hi => ⟨Nat.lt_of_lt_of_le hi t.pos_le, t.ini i hi⟩) w.pos 0 (by omega)
    rw [h1, ok_bind]
    have hm : m ≠ w.pos := by
      intro em
      apply e
      rw [t.used, t.xs_eq, List.filter_eq_self.2]
      · simp
      · intro y hy
        have := h4 y (by omega) (by rw [em]; simpa using hy)
        simpa [live] using this
    rw [if_neg hm]
    have hml : m < w.pos := by omega
    have hxs : xs = List.range m ++ (List.range' (m + 1) (w.pos - (m + 1))).filter (live w) := by
      rw [t.xs_eq, range_split hml, List.filter_append, List.filter_cons_of_neg (by simp [live, h5 hml]), List.filter_eq_self.2]
      intro y hy
      have := h4 y (by omega) (by simpa using hy)
      simpa [live] using this
    have tt := t.toT
    rw [hxs] at tt
    obtain ⟨w', x', K', V', g1, g2, g3, g4, g5, g6, g7, g8, g9⟩ := optLoop_ok _ w (m + 1) m K V (by omega) (by omega) t.pos_le t.ini tt
    rw [g1]
    rw [← hxs] at g3
    have hlen : x' = w.used := by
      have := congrArg List.length g3
      simp only [List.length_map, List.length_range] at this
      rw [this, t.used]
    have hul := t.used_le
    have tc : T hf (optClean w' x') (List.range x') K' V' := by
      refine g2.congr (fun _ => Iff.rfl) rfl rfl rfl (fun y hy => ?_)
      have hy' : ¬ (x' ≤ y ∧ y < w'.pos) := by
        have := List.mem_range.1 hy
        omega
      simp only [optClean, if_neg hy']
      exact ⟨trivial, trivial, trivial, trivial, trivial, g2.val y hy, trivial⟩
    refine ⟨optClean w' x', List.range x', K', V', rfl, ⟨tc, ?_, ?_, ?_, ?_, ?_, ?_⟩, g3, g6, g4⟩
    · show List.range x' = (List.range w'.used).filter _
      rw [g6, ← hlen, eq_comm]
      apply List.filter_eq_self.2
      intro y hy
      have := tc.live hy
      simpa [live] using this
    · show w'.used ≤ w'.cap
      have := t.pos_le
      omega
    · show w'.used = (List.range x').length
      rw [g6, List.length_range, hlen]
    · show w'.c90 = w'.cap - w'.cap / 10
      rw [g7, g4]; exact t.c90
    · show w'.r40 = w'.cap * 8 / 10
      rw [g8, g4]; exact t.r40
    · intro i hi
      have hi : i < w'.used := hi
      exact g9 i (by omega)

/-! ## Resizing -/

theorem growTo_ok {m : Nat} (hm : m ≤ 2 ^ 30) : ∀ (k a : Nat), a ≤ 30 → 31 ≤ a + k →
    ∃ b, growTo k (2 ^ a) m = .ok (2 ^ b) ∧ a ≤ b ∧ b ≤ 30 ∧ m ≤ 2 ^ b
  | 0, a, h1, h2 => by omega
  | k + 1, a, h1, h2 => by
    unfold growTo
    by_cases h : 2 ^ a < m
    · rw [if_pos h]
      have ha : a ≠ 30 := by rintro rfl; omega
      obtain ⟨b, g1, g2, g3, g4⟩ := growTo_ok hm k (a + 1) (by omega) (by omega)
      rw [← Nat.pow_succ']
      exact ⟨b, g1, by omega, g3, g4⟩
    · rw [if_neg h]
      exact ⟨a, rfl, Nat.le_refl _, h1, by omega⟩

theorem T.emptyTable {k : Nat} (hk : k ≤ 30) (u : Nat) (K : Nat → Key) (V : Nat → α) : T hf (emptyTable (2 ^ k) u) [] K V := by
  refine ⟨⟨k, hk, rfl⟩, ?_, by simp [PackedHash.emptyTable], by simp, Bk.empty _ _ _ _, by simp, by simp, by simp⟩
  have h1 : 2 ^ k ≤ 2 ^ 30 := Nat.pow_le_pow_right (by omega) hk
  have h2 := Nat.two_pow_pos k
  show (2 ^ k - 1) % 2 ^ 32 = 2 ^ k - 1
  rw [Nat.mod_eq_of_lt]
  omega

theorem nodeHash_ok {w : W α} {xs : List Nat} {K : Nat → Key} {V : Nat → α} (t : T hf w xs K V) {i : Nat} (hi : i ∈ xs) :
    nodeHash hf w i = .ok (hashOf hf (K i)).toNat := by
  have hr := t.rng i hi
  have hk := t.key i hi
  unfold nodeHash
  rw [get_ok hr, get_ok hr, ok_bind, ok_bind]
  cases h : K i with
  | int j => rw [h] at hk; rw [hk.1, hk.2]; rfl
  | str bs => rw [h] at hk; rw [hk.1, hk.2]; simp [ofI64_toI64, hashOf]

theorem resLoop_ok {w : W α} {xs : List Nat} {K : Nat → Key} {V : Nat → α} (t : Inv hf w xs K V) :
    ∀ (k : Nat) (w2 : W α) (i x : Nat) (K2 : Nat → Key) (V2 : Nat → α), i + k = w.pos → T hf w2 (List.range x) K2 V2 →
    (List.range x).map (ent K2 V2) = ((List.range i).filter (live w)).map (ent K V) → w.used ≤ w2.cap →
    ∃ w' K' V', resLoop hf w k w2 i x = .ok w' ∧ T hf w' (List.range w.used) K' V' ∧
      (List.range w.used).map (ent K' V') = xs.map (ent K V) ∧
      w'.cap = w2.cap ∧ w'.pos = w2.pos ∧ w'.used = w2.used ∧ w'.c90 = w2.c90 ∧ w'.r40 = w2.r40
  | 0, w2, i, x, K2, V2, hik, t2, he, hc => by
    have hi : i = w.pos := by omega
    rw [hi, ← t.xs_eq] at he
    have hx : x = w.used := by
      have := congrArg List.length he
      simp only [List.length_map, List.length_range] at this
      rw [this, t.used]
    rw [hx] at t2 he
    exact ⟨w2, K2, V2, rfl, t2, he, rfl, rfl, rfl, rfl, rfl⟩
  | k + 1, w2, i, x, K2, V2, hik, t2, he, hc => by
    have hil : i < w.pos := by omega
    unfold resLoop
    rw [t.get hil, ok_bind]
    by_cases e : w.pv i = nil32
    · rw [if_pos e]
      refine resLoop_ok t k w2 (i + 1) x K2 V2 (by omega) t2 ?_ hc
      rw [he, List.range_succ, List.filter_append]
      simp [live, e]
    · rw [if_neg e]
      have hix : i ∈ xs := by
        rw [t.xs_eq]
        simp [hil, live, e]
      have hsplit := range_split hil
      have hxu : x < w.used := by
        have h1 := congrArg List.length he
        simp only [List.length_map, List.length_range] at h1
        have h2 := t.used
        rw [t.xs_eq, hsplit, List.filter_append, List.filter_cons_of_pos (by simp [live, e])] at h2
        simp only [List.length_append, List.length_cons] at h2
        omega
      have hnk : ∀ y ∈ List.range x, K2 y ≠ K i := by
        intro y hy hk
        have hm : ent K2 V2 y ∈ (List.range x).map (ent K2 V2) := List.mem_map_of_mem hy
        rw [he] at hm
        obtain ⟨z, hz, ez⟩ := List.mem_map.1 hm
        rw [List.mem_filter, List.mem_range] at hz
        have hzx : z ∈ xs := by
          rw [t.xs_eq, List.mem_filter, List.mem_range]
          exact ⟨by omega, hz.2⟩
        have hk' : K z = K i := by
          have := congrArg Prod.fst ez
          exact this.trans hk
        have := t.uniq z hzx i hix hk'
        omega
      obtain ⟨pv', nx', t', g1, g2, g3⟩ := t2.add (x := x) (by simp) (by omega) (v := V i) (t.key i hix) hnk
      unfold resMove
      rw [nodeHash_ok t.toT hix, ok_bind, t.val i hix, g1, ok_bind]
      have g2' := g2.congr (ys := List.range (x + 1)) (w' := _) (K' := upd K2 x (K i)) (V' := upd V2 x (V i))
        (fun y => by simp only [List.mem_cons, List.mem_range]; omega) rfl rfl rfl
        (fun y hy => ⟨rfl, rfl, rfl, rfl, rfl, g2.val y hy, rfl⟩)
      obtain ⟨w', K', V', f1, f2, f3, f4, f5, f6, f7, f8⟩ := resLoop_ok t k _ (i + 1) (x + 1) _ _ (by omega) g2' (by
        rw [List.range_succ, List.map_append, map_ent_upd (by simp), he, List.range_succ, List.filter_append, List.map_append]
        simp [live, e, ent]) hc
      exact ⟨w', K', V', f1, f2, f3, f4, f5, f6, f7, f8⟩

theorem inv_of_packed {w : W α} {K : Nat → Key} {V : Nat → α} (t : T hf w (List.range w.pos) K V) (hu : w.used = w.pos)
    (hc : w.c90 = w.cap - w.cap / 10) (hr : w.r40 = w.cap * 8 / 10) (hp : w.pos ≤ w.cap) : Inv hf w (List.range w.pos) K V := by
  refine ⟨t, ?_, hp, by rw [hu]; simp, hc, hr, fun i hi => (t.rng i (by simpa using hi)).2⟩
  rw [eq_comm]
  apply List.filter_eq_self.2
  intro y hy
  have := t.live hy
  simpa [live] using this

theorem internalResize_ok {w : W α} {xs : List Nat} {K : Nat → Key} {V : Nat → α} (t : Inv hf w xs K V) {a : Nat} (ha : a ≤ 30) :
    ∃ b w' xs' K' V', internalResize hf w (2 ^ a) = .ok (b, w') ∧ Inv hf w' xs' K' V' ∧ xs'.map (ent K' V') = xs.map (ent K V) ∧
      (w.cap < 2 ^ a → w'.pos < w'.cap) := by
  have hul := t.used_le
  have hpl := t.pos_le
  have hcap := t.cap_le
  obtain ⟨b, h1, h2, h3, h4⟩ := growTo_ok (m := w.used) (by omega) 64 a ha (by omega)
  unfold internalResize
  rw [h1, ok_bind]
  by_cases e : 2 ^ b = w.cap ∨ (2 ^ b < 512 ∧ 2 ^ b < w.cap)
  · rw [if_pos e]
    refine ⟨false, w, xs, K, V, rfl, t, rfl, fun h => ?_⟩
    have : 2 ^ a ≤ 2 ^ b := Nat.pow_le_pow_right (by omega) h2
    omega
  · rw [if_neg e]
    obtain ⟨w', K', V', f1, f2, f3, f4, f5, f6, f7, f8⟩ := resLoop_ok t w.pos (emptyTable (2 ^ b) w.used) 0 0 K V (by omega)
      (by simpa using T.emptyTable h3 _ K V) (by simp) h4
    have f4 : w'.cap = 2 ^ b := f4
    have f5 : w'.pos = w.used := f5
    have f6 : w'.used = w.used := f6
    rw [f1, ok_bind]
    rw [← f5] at f2 f3
    refine ⟨true, w', _, K', V', rfl, inv_of_packed f2 (by rw [f6, f5]) (by rw [f7, f4]; rfl) (by rw [f8, f4]; rfl) (by omega), f3, fun h => ?_⟩
    have : 2 ^ a ≤ 2 ^ b := Nat.pow_le_pow_right (by omega) h2
    omega

theorem resize_ok {w : W α} {xs : List Nat} {K : Nat → Key} {V : Nat → α} (t : Inv hf w xs K V) {m : Nat} (hm : m ≤ 2 ^ 30) :
    ∃ b w' xs' K' V', resize hf w m = .ok (b, w') ∧ Inv hf w' xs' K' V' ∧ xs'.map (ent K' V') = xs.map (ent K V) := by
  obtain ⟨a, h1, -, h3, -⟩ := growTo_ok hm 64 0 (by omega) (by omega)
  unfold resize
  have h1 : growTo 64 1 m = .ok (2 ^ a) := h1
  rw [h1, ok_bind]
  obtain ⟨b, w', xs', K', V', g1, g2, g3, -⟩ := internalResize_ok t h3
  exact ⟨b, w', xs', K', V', g1, g2, g3⟩

theorem autoResize_ok {w : W α} {xs : List Nat} {K : Nat → Key} {V : Nat → α} (t : Inv hf w xs K V) (hl : xs.length < Spec.limit) :
    ∃ b w' xs' K' V', autoResize hf w = .ok (b, w') ∧ Inv hf w' xs' K' V' ∧ xs'.map (ent K' V') = xs.map (ent K V) ∧
      w'.pos < w'.cap := by
  have hul := t.used_le
  have hpl := t.pos_le
  have hcap := t.cap_le
  have hc := t.c90
  have hr := t.r40
  have hu := t.used
  unfold autoResize
  by_cases e : w.used < w.c90
  · rw [if_pos e]
    obtain ⟨w', xs', K', V', g1, g2, g3, g4, g5⟩ := optimize_ok t
    rw [g1, ok_bind]
    exact ⟨true, w', xs', K', V', rfl, g2, g3, by omega⟩
  · rw [if_neg e, if_neg (by omega)]
    by_cases ep : w.pos = w.cap
    · rw [if_pos ep]
      obtain ⟨k, hk, ek⟩ := t.pow
      have hk30 : k ≠ 30 := by
        rintro rfl
        unfold Spec.limit at hl
        omega
      have : w.cap * 2 = 2 ^ (k + 1) := by rw [ek, Nat.pow_succ]
      rw [this]
      obtain ⟨b, w', xs', K', V', g1, g2, g3, g4⟩ := internalResize_ok t (a := k + 1) (by omega)
      exact ⟨b, w', xs', K', V', g1, g2, g3, g4 (by omega)⟩
    · rw [if_neg ep]
      exact ⟨false, w, xs, K, V, rfl, t, rfl, by omega⟩

theorem makeRoom_ok {w : W α} {xs : List Nat} {K : Nat → Key} {V : Nat → α} (t : Inv hf w xs K V) (hl : xs.length < Spec.limit) :
    ∃ w' xs' K' V', makeRoom hf w = .ok w' ∧ Inv hf w' xs' K' V' ∧ xs'.map (ent K' V') = xs.map (ent K V) ∧
      w'.pos < w'.cap := by
  unfold makeRoom
  by_cases e : w.pos = w.cap
  · rw [if_pos e]
    obtain ⟨b, w', xs', K', V', g1, g2, g3, g4⟩ := autoResize_ok t hl
    rw [g1]
    exact ⟨w', xs', K', V', rfl, g2, g3, g4⟩
  · rw [if_neg e]
    have := t.pos_le
    exact ⟨w, xs, K, V, rfl, t, rfl, by omega⟩

theorem construct_ok {n : Nat} (hn : n ≤ 2 ^ 30) (K : Nat → Key) (V : Nat → α) :
    ∃ w, construct hf n = .ok w ∧ Inv hf w [] K V := by
  obtain ⟨a, h1, -, h3, -⟩ := growTo_ok hn 64 0 (by omega) (by omega)
  have h1 : growTo 64 1 n = .ok (2 ^ a) := h1
  have h0 := Nat.two_pow_pos a
  unfold construct resize
  rw [h1, ok_bind]
  unfold internalResize
  have h2 : growTo 64 (2 ^ a) 0 = .ok (2 ^ a) := by simp [growTo]
  refine ⟨emptyTable (2 ^ a) 0, ?_, ?_⟩
  · show (do
      let (_, w) ← (do
        let n ← growTo 64 (2 ^ a) 0
        if n = 0 ∨ (n < 512 ∧ n < 0) then _ else _ : CRes (Bool × W α))
      .ok w) = _
    rw [h2, ok_bind, if_neg (by omega)]
    rfl
  · exact inv_of_packed (w := emptyTable (2 ^ a) 0) (T.emptyTable h3 _ K V) rfl rfl rfl (Nat.zero_le _)

end Verif.PackedHash
