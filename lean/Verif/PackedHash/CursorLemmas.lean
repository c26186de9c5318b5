import Verif.PackedHash.CursorSpec
import Verif.PackedHash.Props

/-!
# Lemmas on positions
-/

namespace Verif.PackedHash
open Verif.Links
open Verif.OrderedHash (Key)
open Spec

variable {α : Type} {hf : List UInt8 → UInt64}

/-! ## Calls that keep the positions -/

theorem append_pos {w w' : W α} {dflt : α} {k : Key} {x : Nat} (h : append hf dflt w k = .ok (x, w')) : w'.pos = w.pos + 1 := by
  unfold append at h
  generalize attach _ _ _ = r at h
  cases r with
  | error e => cases h
  | ok a => cases h; rfl

theorem unset_at {w : W α} {xs : List Nat} {K : Nat → Key} {V : Nat → α} (t : Inv hf w xs K V) {x : Nat} (h2 : x ∈ xs) :
    ∃ w', unset w (some x) = .ok (true, w') ∧ Inv hf w' (xs.filter fun y => decide (y ≠ x)) K V ∧ w'.pos = w.pos := by
  have hm : ∀ y, y ∈ xs.filter (fun y => decide (y ≠ x)) ↔ y ∈ xs ∧ y ≠ x := fun y => by simp
  obtain ⟨pv', nx', t', g1, g2, g3, g4⟩ := t.toT.unset h2 hm
  rw [g1]
  refine ⟨_, rfl, ⟨g2, ?_, t.pos_le, ?_, t.c90, t.r40, t.ini⟩, rfl⟩
  · have : (List.range w.pos).filter (fun y => decide (y ≠ x) && live w y) = xs.filter (fun y => decide (y ≠ x)) := by
      rw [t.xs_eq, List.filter_filter]
    rw [← this]
    apply List.filter_congr
    intro y hy
    have hyl : y < w.pos := by simpa using hy
    unfold live
    show _ = decide (pv' y ≠ nil32)
    by_cases e : y = x
    · rw [e, g3]; simp
    · simp only [ne_eq, e, not_false_eq_true, decide_true, Bool.true_and, decide_eq_decide]
      by_cases hyx : y ∈ xs
      · have h1 := t.toT.live hyx
        have h2 := g2.live ((hm y).2 ⟨hyx, e⟩)
        exact ⟨fun _ => h2, fun _ => h1⟩
      · rw [g4 y hyx]
  · show w.used - 1 = _
    rw [t.used]
    have hnd : xs.Nodup := by rw [t.xs_eq]; exact List.Nodup.filter _ List.nodup_range
    have : xs.filter (fun y => decide (y ≠ x)) = xs.erase x := by
      rw [List.Nodup.erase_eq_filter hnd]
      apply List.filter_congr
      intro y _
      simp [Bool.beq_eq_decide_eq, bne]
    rw [this, List.length_erase_of_mem h2]

/-- Without unset positions the nodes are all the positions. -/
theorem Inv.packed {w : W α} {xs : List Nat} {K : Nat → Key} {V : Nat → α} (t : Inv hf w xs K V) (h : w.used = w.pos) :
    xs = List.range w.pos := by
  have h1 := t.xs_eq
  have h2 : ((List.range w.pos).filter (live w)).length = (List.range w.pos).length := by
    rw [← h1, ← t.used, h, List.length_range]
  rw [h1]
  exact List.filter_eq_self.2 (List.length_filter_eq_length_iff.1 h2)

/-- Two tables without unset positions and with the same entries have them in the same positions. -/
theorem packed_same {w w' : W α} {xs xs' : List Nat} {K K' : Nat → Key} {V V' : Nat → α} (t : Inv hf w xs K V) (t' : Inv hf w' xs' K' V')
    (h : w.used = w.pos) (h' : w'.pos = w'.used) (e : xs'.map (ent K' V') = xs.map (ent K V)) :
    xs' = xs ∧ w'.pos = w.pos ∧ ∀ x ∈ xs, ent K' V' x = ent K V x := by
  have hl : xs'.length = xs.length := by simpa using congrArg List.length e
  have hp : w'.pos = w.pos := by rw [h', t'.used, hl, ← t.used, h]
  have hx : xs' = xs := by rw [t'.packed h'.symm, t.packed h, hp]
  subst hx
  exact ⟨rfl, hp, fun x hx => List.map_inj_left.1 e x hx⟩

theorem internalResize_pos {w : W α} {xs : List Nat} {K : Nat → Key} {V : Nat → α} (t : Inv hf w xs K V) (hp : w.used = w.pos) {a : Nat}
    (ha : a ≤ 30) {b : Bool} {w' : W α} (h : internalResize hf w (2 ^ a) = .ok (b, w')) : w'.pos = w'.used := by
  have hul := t.used_le
  have hpl := t.pos_le
  have hcap := t.cap_le
  obtain ⟨b', h1, h2, h3, h4⟩ := growTo_ok (m := w.used) (by omega) 64 a ha (by omega)
  unfold internalResize at h
  rw [h1, ok_bind] at h
  by_cases e : 2 ^ b' = w.cap ∨ (2 ^ b' < 512 ∧ 2 ^ b' < w.cap)
  · rw [if_pos e] at h
    cases h
    exact hp.symm
  · rw [if_neg e] at h
    obtain ⟨w1, K', V', f1, f2, f3, f4, f5, f6, f7, f8⟩ := resLoop_ok t w.pos (emptyTable (2 ^ b') w.used) 0 0 K V (by omega)
      (by simpa using T.emptyTable h3 _ K V) (by simp) h4
    rw [f1, ok_bind] at h
    cases h
    rw [f5, f6]
    rfl

theorem resize_at {w : W α} {xs : List Nat} {K : Nat → Key} {V : Nat → α} (t : Inv hf w xs K V) (hp : w.used = w.pos) {m : Nat}
    (hm : m ≤ 2 ^ 30) : ∃ b w' K' V', resize hf w m = .ok (b, w') ∧ Inv hf w' xs K' V' ∧ w'.pos = w.pos ∧
      ∀ x ∈ xs, ent K' V' x = ent K V x := by
  obtain ⟨a, h1, -, h3, -⟩ := growTo_ok hm 64 0 (by omega) (by omega)
  have h1 : growTo 64 1 m = .ok (2 ^ a) := h1
  obtain ⟨b, w', xs', K', V', g1, g2, g3, -⟩ := internalResize_ok t h3
  obtain ⟨rfl, h2, h4⟩ := packed_same t g2 hp (internalResize_pos t hp h3 g1) g3
  refine ⟨b, w', K', V', ?_, g2, h2, h4⟩
  unfold resize
  rw [h1, ok_bind, g1]

theorem optimize_at {w : W α} (hp : w.used = w.pos) : optimize w = .ok w := by
  unfold optimize
  rw [if_pos hp.symm]

theorem autoResize_at {w : W α} {xs : List Nat} {K : Nat → Key} {V : Nat → α} (t : Inv hf w xs K V) (hp : w.used = w.pos)
    (hl : xs.length < Spec.limit) : ∃ b w' K' V', autoResize hf w = .ok (b, w') ∧ Inv hf w' xs K' V' ∧ w'.pos = w.pos ∧
      (∀ x ∈ xs, ent K' V' x = ent K V x) ∧ w'.pos < w'.cap := by
  obtain ⟨b, w', xs', K', V', g1, g2, g3, g4⟩ := autoResize_ok t hl
  have hpos : w'.pos = w'.used := by
    have hc := t.c90
    have hr := t.r40
    have hu := t.used
    have hpl := t.pos_le
    have hcap := t.cap_le
    have g := g1
    unfold autoResize at g
    by_cases e : w.used < w.c90
    · rw [if_pos e, optimize_at hp, ok_bind] at g
      cases g
      exact hp.symm
    · rw [if_neg e, if_neg (by omega)] at g
      by_cases ep : w.pos = w.cap
      · rw [if_pos ep] at g
        obtain ⟨k, hk, ek⟩ := t.pow
        have hk30 : k ≠ 30 := by
          rintro rfl
          unfold Spec.limit at hl
          omega
        have : w.cap * 2 = 2 ^ (k + 1) := by rw [ek, Nat.pow_succ]
        rw [this] at g
        exact internalResize_pos t hp (a := k + 1) (by omega) g
      · rw [if_neg ep] at g
        cases g
        exact hp.symm
  obtain ⟨rfl, h2, h4⟩ := packed_same t g2 hp hpos g3
  exact ⟨b, w', K', V', g1, g2, h2, h4, g4⟩

theorem makeRoom_at {w : W α} {xs : List Nat} {K : Nat → Key} {V : Nat → α} (t : Inv hf w xs K V) (hp : w.pos < w.cap ∨ w.used = w.pos)
    (hl : xs.length < Spec.limit) : ∃ w' K' V', makeRoom hf w = .ok w' ∧ Inv hf w' xs K' V' ∧ w'.pos = w.pos ∧
      (∀ x ∈ xs, ent K' V' x = ent K V x) ∧ w'.pos < w'.cap := by
  unfold makeRoom
  by_cases e : w.pos = w.cap
  · rw [if_pos e]
    obtain ⟨b, w', K', V', g1, g2⟩ := autoResize_at t (by omega) hl
    rw [g1]
    exact ⟨w', K', V', rfl, g2⟩
  · rw [if_neg e]
    have := t.pos_le
    exact ⟨w, K, V, rfl, t, rfl, fun _ _ => rfl, by omega⟩

theorem set_new {w : W α} {xs : List Nat} {K : Nat → Key} {V : Nat → α} (t : Inv hf w xs K V) (dflt : α) (k : Key)
    (hn : xs.find? (fun x => decide (K x = k)) = none) (hp : w.pos < w.cap ∨ w.used = w.pos) (hl : xs.length < Spec.limit) :
    ∃ w' K' V', set hf dflt w k = .ok (w.pos, w') ∧ Inv hf w' (xs ++ [w.pos]) K' V' ∧ w'.pos = w.pos + 1 ∧
      (∀ x ∈ xs, ent K' V' x = ent K V x) ∧ ent K' V' w.pos = (k, dflt) := by
  unfold set
  rw [find_ok t.toT, ok_bind, hn]
  obtain ⟨w1, K1, V1, g1, g2, g3, g4, g5⟩ := makeRoom_at t hp hl
  dsimp only
  rw [g1, ok_bind]
  have hk : ∀ x ∈ xs, K1 x ≠ k := by
    intro x hx e
    have h1 : K1 x = K x := congrArg Prod.fst (g4 x hx)
    have := List.find?_eq_none.1 hn x hx
    rw [← h1, e] at this
    exact this (decide_eq_true rfl)
  obtain ⟨w2, f1, f2⟩ := append_ok g2 g5 dflt k hk
  have hx : w1.pos ∉ xs := by rw [g2.xs_eq]; simp
  rw [← g3]
  refine ⟨w2, _, _, f1, f2, append_pos f1, fun x hx' => ?_, ?_⟩
  · have : x ≠ w1.pos := fun e => hx (e ▸ hx')
    rw [← g4 x hx', ent, ent, upd_other _ _ this, upd_other _ _ this]
  · simp [ent]

/-! ## Where a position is -/

/-- The position `i` in the table is the position `c`. -/
def Loc (w : W α) (i : Nat) (xs : List Nat) (K : Nat → Key) (V : Nat → α) : Cur α → Prop
  | .off s => i = nil32 ∧ s = xs.map (ent K V)
  | .fin s => i = w.pos ∧ s = xs.map (ent K V)
  | .on lo here hi => i < w.pos ∧ lo = (xs.filter fun x => decide (x < i)).map (ent K V) ∧
      here = (if i ∈ xs then some (ent K V i) else none) ∧ hi = (xs.filter fun x => decide (i < x)).map (ent K V)

theorem parts {p : Nat → Bool} {i n : Nat} (h : i < n) :
    ((List.range n).filter p).filter (fun x => decide (x < i)) = (List.range i).filter p ∧
      ((List.range n).filter p).filter (fun x => decide (i < x)) = (List.range' (i + 1) (n - (i + 1))).filter p ∧
      (i ∈ (List.range n).filter p ↔ p i = true) := by
  refine ⟨?_, ?_, by simp [h]⟩
  · rw [range_split h, List.filter_append, List.filter_append]
    have h1 : ((i :: List.range' (i + 1) (n - (i + 1))).filter p).filter (fun x => decide (x < i)) = [] := by
      apply List.filter_eq_nil_iff.2
      intro x hx
      have := (List.mem_filter.1 hx).1
      simp only [List.mem_cons, List.mem_range'_1] at this
      simp only [decide_eq_true_eq]
      omega
    have h2 : ((List.range i).filter p).filter (fun x => decide (x < i)) = (List.range i).filter p := by
      apply List.filter_eq_self.2
      intro x hx
      have := (List.mem_filter.1 hx).1
      simpa using this
    rw [h1, h2, List.append_nil]
  · rw [range_split h, List.filter_append, List.filter_append, List.filter_cons]
    have h1 : ((List.range i).filter p).filter (fun x => decide (i < x)) = [] := by
      apply List.filter_eq_nil_iff.2
      intro x hx
      have := (List.mem_filter.1 hx).1
      simp only [List.mem_range] at this
      simp only [decide_eq_true_eq]
      omega
    have h2 : ((List.range' (i + 1) (n - (i + 1))).filter p).filter (fun x => decide (i < x)) = (List.range' (i + 1) (n - (i + 1))).filter p := by
      apply List.filter_eq_self.2
      intro x hx
      have := (List.mem_filter.1 hx).1
      simp only [List.mem_range'_1] at this
      simp only [decide_eq_true_eq]
      omega
    rw [h1, List.nil_append]
    split
    · rw [List.filter_cons_of_neg (by simp), h2]
    · exact h2

theorem split3 {p : Nat → Bool} {i n : Nat} (h : i < n) :
    (List.range n).filter p = (List.range i).filter p ++ ((if p i = true then [i] else []) ++ (List.range' (i + 1) (n - (i + 1))).filter p) := by
  rw [range_split h, List.filter_append, List.filter_cons]
  split <;> simp

theorem Loc.all {w : W α} {i : Nat} {xs : List Nat} {K : Nat → Key} {V : Nat → α} {c : Cur α} (t : Inv hf w xs K V)
    (h : Loc w i xs K V c) : c.all = xs.map (ent K V) := by
  cases c with
  | off s => exact h.2
  | fin s => exact h.2
  | on lo here hi =>
    obtain ⟨h0, rfl, rfl, rfl⟩ := h
    obtain ⟨h1, h2, h3⟩ := parts (p := live w) h0
    rw [← t.xs_eq] at h1 h2 h3
    have h4 := split3 (p := live w) h0
    rw [← t.xs_eq] at h4
    show _ ++ _ ++ _ = _
    rw [h1, h2]
    conv => rhs; rw [h4, List.map_append, List.map_append, ← List.append_assoc]
    congr 2
    by_cases e : live w i = true
    · rw [if_pos (h3.2 e), if_pos e]; rfl
    · rw [if_neg (fun x => e (h3.1 x)), if_neg e]; rfl

theorem Loc.map {w w' : W α} {i : Nat} {xs : List Nat} {K K' : Nat → Key} {V V' : Nat → α} {c : Cur α} {f : Key × α → Key × α}
    (h : Loc w i xs K V c) (hp : w'.pos = w.pos) (he : ∀ x ∈ xs, ent K' V' x = f (ent K V x)) : Loc w' i xs K' V' (c.map f) := by
  have hm : ∀ l : List Nat, (∀ x ∈ l, x ∈ xs) → (l.map (ent K V)).map f = l.map (ent K' V') := by
    intro l hl
    rw [List.map_map]
    exact List.map_congr_left fun x hx => (he x (hl x hx)).symm
  cases c with
  | off s => exact ⟨h.1, by rw [h.2]; exact hm xs (fun _ h => h)⟩
  | fin s => exact ⟨by rw [hp]; exact h.1, by rw [h.2]; exact hm xs (fun _ h => h)⟩
  | on lo here hi =>
    obtain ⟨h0, rfl, rfl, rfl⟩ := h
    refine ⟨by rw [hp]; exact h0, hm _ (fun x hx => (List.mem_filter.1 hx).1), ?_, hm _ (fun x hx => (List.mem_filter.1 hx).1)⟩
    by_cases e : i ∈ xs
    · rw [if_pos e, if_pos e, he i e]; rfl
    · rw [if_neg e, if_neg e]; rfl

theorem cur_map_id (c : Cur α) : c.map (fun e => e) = c := by
  cases c <;> simp [Cur.map]

theorem Loc.same {w w' : W α} {i : Nat} {xs : List Nat} {K K' : Nat → Key} {V V' : Nat → α} {c : Cur α}
    (h : Loc w i xs K V c) (hp : w'.pos = w.pos) (he : ∀ x ∈ xs, ent K' V' x = ent K V x) : Loc w' i xs K' V' c := by
  have := h.map (f := fun e => e) hp he
  rw [cur_map_id] at this
  exact this

theorem Loc.filter {w w' : W α} {i : Nat} {xs : List Nat} {K : Nat → Key} {V : Nat → α} {c : Cur α} {p : Key × α → Bool}
    (h : Loc w i xs K V c) (hp : w'.pos = w.pos) : Loc w' i (xs.filter fun x => p (ent K V x)) K V (c.filter p) := by
  have hm : ∀ l : List Nat, (l.map (ent K V)).filter p = (l.filter fun x => p (ent K V x)).map (ent K V) := by
    intro l
    rw [List.filter_map]
    rfl
  have hc : ∀ q : Nat → Bool, (xs.filter q).filter (fun x => p (ent K V x)) = (xs.filter fun x => p (ent K V x)).filter q := by
    intro q
    rw [List.filter_filter, List.filter_filter]
    exact List.filter_congr fun x _ => Bool.and_comm _ _
  cases c with
  | off s => exact ⟨h.1, by rw [h.2]; exact hm xs⟩
  | fin s => exact ⟨by rw [hp]; exact h.1, by rw [h.2]; exact hm xs⟩
  | on lo here hi =>
    obtain ⟨h0, rfl, rfl, rfl⟩ := h
    refine ⟨by rw [hp]; exact h0, by rw [hm, hc], ?_, by rw [hm, hc]⟩
    by_cases e : i ∈ xs
    · rw [if_pos e]
      by_cases e2 : p (ent K V i) = true
      · rw [if_pos (List.mem_filter.2 ⟨e, e2⟩)]
        simp [Option.filter, e2]
      · have : i ∉ xs.filter fun x => p (ent K V x) := fun hx => e2 (List.mem_filter.1 hx).2
        rw [if_neg this]
        simp [Option.filter, e2]
    · rw [if_neg e, if_neg (fun hx => e (List.mem_filter.1 hx).1)]
      rfl

theorem Loc.add {w w' : W α} {i : Nat} {xs : List Nat} {K K' : Nat → Key} {V V' : Nat → α} {c : Cur α} {e : Key × α} (t : Inv hf w xs K V)
    (h : Loc w i xs K V c) (hp : w'.pos = w.pos + 1) (he : ∀ x ∈ xs, ent K' V' x = ent K V x) (hn : ent K' V' w.pos = e) :
    Loc w' i (xs ++ [w.pos]) K' V' (c.add e) := by
  have hm : ∀ l : List Nat, (∀ x ∈ l, x ∈ xs) → l.map (ent K V) = l.map (ent K' V') :=
    fun l hl => List.map_congr_left fun x hx => (he x (hl x hx)).symm
  have hlt : ∀ x ∈ xs, x < w.pos := fun x hx => by rw [t.xs_eq] at hx; simpa using (List.mem_filter.1 hx).1
  cases c with
  | off s =>
    refine ⟨h.1, ?_⟩
    rw [h.2, hm xs (fun _ h => h), List.map_append, ← hn]
    rfl
  | fin s =>
    obtain ⟨rfl, rfl⟩ := h
    refine ⟨by omega, ?_, ?_, ?_⟩
    · rw [List.filter_append, hm xs (fun _ h => h)]
      have h1 : xs.filter (fun x => decide (x < w.pos)) = xs := List.filter_eq_self.2 fun x hx => decide_eq_true (hlt x hx)
      rw [h1]
      simp
    · rw [if_pos (by simp), hn]
    · have h1 : (xs ++ [w.pos]).filter (fun x => decide (w.pos < x)) = [] := by
        apply List.filter_eq_nil_iff.2
        intro x hx
        rcases List.mem_append.1 hx with hx | hx
        · have := hlt x hx
          simp only [decide_eq_true_eq]; omega
        · rw [List.mem_singleton.1 hx]; simp
      rw [h1]; rfl
  | on lo here hi =>
    obtain ⟨h0, rfl, rfl, rfl⟩ := h
    refine ⟨by omega, ?_, ?_, ?_⟩
    · rw [List.filter_append, hm _ (fun x hx => (List.mem_filter.1 hx).1)]
      rw [List.filter_cons_of_neg (by simp only [decide_eq_true_eq]; omega)]
      simp
    · by_cases e : i ∈ xs
      · rw [if_pos e, if_pos (by simp [e]), he i e]
      · rw [if_neg e, if_neg (by simp only [List.mem_append, e, List.mem_singleton, false_or]; omega)]
    · rw [List.filter_append, List.filter_cons_of_pos (by simp only [decide_eq_true_eq]; omega), List.map_append,
        hm _ (fun x hx => (List.mem_filter.1 hx).1), ← hn]
      rfl

/-! ## Moving -/

theorem Inv.rngs {w : W α} {xs : List Nat} {K : Nat → Key} {V : Nat → α} (t : Inv hf w xs K V) :
    ∀ i, i < w.pos → i < w.cap ∧ w.init i = true := fun i hi => ⟨Nat.lt_of_lt_of_le hi t.pos_le, t.ini i hi⟩

theorem entryOf_ok {w : W α} {xs : List Nat} {K : Nat → Key} {V : Nat → α} (t : Inv hf w xs K V) {x : Nat} (hx : x ∈ xs) :
    entryOf w (some x) = .ok (some (ent K V x)) := by
  simp [entryOf, getEntry_ok t.toT hx]

/-- The position of a node. -/
theorem Loc.node {w : W α} {xs : List Nat} {K : Nat → Key} {V : Nat → α} (t : Inv hf w xs K V) {x : Nat} (hx : x ∈ xs) {lo hi : List Nat}
    (h : xs = lo ++ x :: hi) : Loc w x xs K V (.on (lo.map (ent K V)) (some (ent K V x)) (hi.map (ent K V))) := by
  have hlt : x < w.pos := by
    have := hx
    rw [t.xs_eq] at this
    simpa using (List.mem_filter.1 this).1
  have hs : xs.Pairwise (· < ·) := by
    rw [t.xs_eq]
    exact List.Pairwise.filter _ List.pairwise_lt_range
  rw [h] at hs
  obtain ⟨h1, h2, h3⟩ := List.pairwise_append.1 hs
  obtain ⟨h4, h5⟩ := List.pairwise_cons.1 h2
  refine ⟨hlt, ?_, by rw [if_pos hx], ?_⟩
  · rw [h, List.filter_append, List.filter_cons_of_neg (by simp), List.filter_eq_self.2, List.filter_eq_nil_iff.2, List.append_nil]
    · intro y hy
      have := h4 y hy
      simp only [decide_eq_true_eq]; omega
    · intro y hy
      exact decide_eq_true (h3 y hy x (by simp))
  · rw [h, List.filter_append, List.filter_cons_of_neg (by simp), List.filter_eq_nil_iff.2, List.filter_eq_self.2, List.nil_append]
    · intro y hy
      exact decide_eq_true (h4 y hy)
    · intro y hy
      have := h3 y hy x (by simp)
      simp only [decide_eq_true_eq]; omega

theorem first_ok {w : W α} {xs : List Nat} {K : Nat → Key} {V : Nat → α} (t : Inv hf w xs K V) :
    ∃ r i e, nextScan w w.pos 0 = .ok (r, i) ∧ entryOf w r = .ok e ∧ e = (first (xs.map (ent K V))).get ∧
      Loc w i xs K V (first (xs.map (ent K V))) := by
  rw [nextScan_ok t.rngs w.pos 0 (by omega)]
  have hx := t.xs_eq
  rw [List.range_eq_range'] at hx
  rw [← hx]
  cases xs with
  | nil => exact ⟨none, w.pos, none, rfl, rfl, rfl, rfl, rfl⟩
  | cons x l => exact ⟨some x, x, _, rfl, entryOf_ok t (by simp), rfl, Loc.node t (by simp) (lo := []) rfl⟩

theorem next_ok {w : W α} {i : Nat} {xs : List Nat} {K : Nat → Key} {V : Nat → α} {c : Cur α} (t : Inv hf w xs K V) (h : Loc w i xs K V c) :
    ∃ r j e, next w i = .ok (r, j) ∧ entryOf w r = .ok e ∧ e = c.next.get ∧ Loc w j xs K V c.next := by
  have hall := h.all t
  unfold next
  cases c with
  | off s =>
    obtain ⟨rfl, rfl⟩ := h
    have := t.cap_le
    have := t.pos_le
    have : w.pos ≤ nil32 := by unfold nil32; omega
    rw [if_pos this]
    exact first_ok t
  | fin s =>
    obtain ⟨rfl, rfl⟩ := h
    rw [if_pos (Nat.le_refl _)]
    exact first_ok t
  | on lo here hi =>
    obtain ⟨h0, h1, h2, h3⟩ := h
    rw [if_neg (by omega), nextScan_ok t.rngs _ _ (by omega)]
    obtain ⟨p1, p2, p3⟩ := parts (p := live w) h0
    rw [← t.xs_eq] at p1 p2 p3
    rw [← p2]
    cases hL : xs.filter (fun x => decide (i < x)) with
    | nil =>
      rw [hL] at h3
      subst h3
      refine ⟨none, w.pos, none, rfl, rfl, rfl, rfl, ?_⟩
      rw [← hall]
      simp [Cur.all]
    | cons x l =>
      rw [hL] at h3
      subst h3
      have hx : x ∈ xs.filter (fun x => decide (i < x)) := by rw [hL]; simp
      have hx' := (List.mem_filter.1 hx).1
      refine ⟨some x, x, _, rfl, entryOf_ok t hx', rfl, ?_⟩
      have h4 := split3 (p := live w) h0
      rw [← t.xs_eq, ← p1, ← p2, hL, ← List.append_assoc] at h4
      have h5 := Loc.node t hx' h4
      rw [List.map_append, ← h1] at h5
      have h6 : here.toList = (if live w i = true then [i] else []).map (ent K V) := by
        rw [h2]
        by_cases e : live w i = true
        · rw [if_pos (p3.2 e), if_pos e]; rfl
        · rw [if_neg (fun x => e (p3.1 x)), if_neg e]; rfl
      rw [← h6] at h5
      exact h5

/-- `Prev` from position `i`, with what is before and behind. -/
theorem last_ok {w : W α} {xs : List Nat} {K : Nat → Key} {V : Nat → α} (t : Inv hf w xs K V) {i : Nat} (hi : i ≤ w.pos)
    {lo hl : List Nat} (h1 : lo = (List.range i).filter (live w)) (h2 : xs = lo ++ hl) :
    ∃ r j e, prevScan w i = .ok (r, j) ∧ entryOf w r = .ok e ∧ e = (last (lo.map (ent K V)) (hl.map (ent K V))).get ∧
      Loc w j xs K V (last (lo.map (ent K V)) (hl.map (ent K V))) := by
  rcases prevScan_ok t.rngs i hi with ⟨g1, g2⟩ | ⟨x, g1, g2, g3, g4⟩
  · rw [g1] at h1
    subst h1
    exact ⟨none, w.pos, none, g2, rfl, rfl, rfl, by rw [h2]; rfl⟩
  · rw [g3] at h1
    have hl' : last (lo.map (ent K V)) (hl.map (ent K V)) =
        .on (((List.range x).filter (live w)).map (ent K V)) (some (ent K V x)) (hl.map (ent K V)) := by
      rw [h1, last]
      simp
    have hx : x ∈ xs := by rw [h2, h1]; simp
    rw [hl']
    refine ⟨some x, x, _, g4, entryOf_ok t hx, rfl, Loc.node t hx ?_⟩
    rw [h2, h1]
    simp

theorem prev_ok {w : W α} {i : Nat} {xs : List Nat} {K : Nat → Key} {V : Nat → α} {c : Cur α} (t : Inv hf w xs K V) (h : Loc w i xs K V c) :
    ∃ r j e, prev w i = .ok (r, j) ∧ entryOf w r = .ok e ∧ e = c.prev.get ∧ Loc w j xs K V c.prev := by
  have hend := last_ok t (i := w.pos) (Nat.le_refl _) (lo := xs) (hl := []) t.xs_eq (by simp)
  unfold prev
  cases c with
  | off s =>
    obtain ⟨rfl, rfl⟩ := h
    have := t.cap_le
    have := t.pos_le
    have : w.pos < nil32 := by unfold nil32; omega
    rw [if_pos this]
    exact hend
  | fin s =>
    obtain ⟨rfl, rfl⟩ := h
    rw [if_neg (Nat.lt_irrefl _)]
    exact hend
  | on lo here hi =>
    obtain ⟨h0, h1, h2, h3⟩ := h
    rw [if_neg (by omega)]
    obtain ⟨p1, p2, p3⟩ := parts (p := live w) h0
    rw [← t.xs_eq] at p1 p2 p3
    have h4 := split3 (p := live w) h0
    rw [← t.xs_eq, ← p1, ← p2] at h4
    have h5 := last_ok t (i := i) (by omega) p1 h4
    have h6 : here.toList = (if live w i = true then [i] else []).map (ent K V) := by
      rw [h2]
      by_cases e : live w i = true
      · rw [if_pos (p3.2 e), if_pos e]; rfl
      · rw [if_neg (fun x => e (p3.1 x)), if_neg e]; rfl
    rw [List.map_append, ← h1, ← h3, ← h6] at h5
    exact h5

/-- `Get(Pos)`. -/
theorem get_at {w : W α} {i : Nat} {xs : List Nat} {K : Nat → Key} {V : Nat → α} {c : Cur α} (t : Inv hf w xs K V) (h : Loc w i xs K V c) :
    (c.get = none ∧ getPos w i = .ok none) ∨ (i ∈ xs ∧ getPos w i = .ok (some i) ∧ ∃ lo hi, c = .on lo (some (ent K V i)) hi) := by
  unfold getPos
  cases c with
  | off s =>
    obtain ⟨rfl, rfl⟩ := h
    have := t.cap_le
    have := t.pos_le
    have : w.pos ≤ nil32 := by unfold nil32; omega
    exact .inl ⟨rfl, by rw [if_pos this]⟩
  | fin s =>
    obtain ⟨rfl, rfl⟩ := h
    exact .inl ⟨rfl, by rw [if_pos (Nat.le_refl _)]⟩
  | on lo here hi =>
    obtain ⟨h0, h1, h2, h3⟩ := h
    obtain ⟨p1, p2, p3⟩ := parts (p := live w) h0
    rw [← t.xs_eq] at p3
    rw [if_neg (by omega), t.get h0, ok_bind]
    by_cases e : i ∈ xs
    · rw [if_pos e] at h2
      have := p3.1 e
      have : w.pv i ≠ nil32 := by simpa [live] using this
      exact .inr ⟨e, by rw [if_neg this], lo, hi, by rw [h2]⟩
    · rw [if_neg e] at h2
      have : ¬ live w i = true := fun x => e (p3.2 x)
      have : w.pv i = nil32 := by simpa [live] using this
      exact .inl ⟨h2, by rw [if_pos this]⟩

end Verif.PackedHash
