import Verif.PackedHash.Lemmas2
import Verif.DList.Props

/-! # Properties C22, C23, C24 of `PackedOrderedHash` -/

namespace Verif.PackedHash
open Verif.Links Spec
open Verif.OrderedHash (Key intBytes)
open Verif.DList (bind_some)

variable {α : Type} {hf : List UInt8 → UInt64}

/-- The table `w` represents the entries `s`. -/
def Rel (hf : List UInt8 → UInt64) (w : W α) (s : List (Key × α)) : Prop :=
  ∃ xs K V, Inv hf w xs K V ∧ s = xs.map (ent K V)

/-! ## The calls -/

theorem lookup_map {xs : List Nat} {K : Nat → Key} {V : Nat → α} (k : Key) :
    lookup (xs.map (ent K V)) k = (xs.find? fun x => decide (K x = k)).map V := by
  unfold lookup
  rw [List.find?_map, Option.map_map]
  rfl

theorem find_cases {xs : List Nat} {K : Nat → Key} (k : Key) :
    (xs.find? (fun x => decide (K x = k)) = none ∧ ∀ x ∈ xs, K x ≠ k) ∨
      ∃ x, xs.find? (fun x => decide (K x = k)) = some x ∧ x ∈ xs ∧ K x = k := by
  cases h : xs.find? (fun x => decide (K x = k)) with
  | none =>
    left
    rw [List.find?_eq_none] at h
    exact ⟨rfl, fun x hx => by simpa using h x hx⟩
  | some x =>
    right
    exact ⟨x, rfl, List.mem_of_find?_eq_some h, by simpa using List.find?_some h⟩

theorem append_ok {w : W α} {xs : List Nat} {K : Nat → Key} {V : Nat → α} (t : Inv hf w xs K V) (hp : w.pos < w.cap) (dflt : α) (k : Key)
    (hk : ∀ x ∈ xs, K x ≠ k) :
    ∃ w', append hf dflt w k = .ok (w.pos, w') ∧ Inv hf w' (xs ++ [w.pos]) (upd K w.pos k) (upd V w.pos dflt) := by
  have hx : w.pos ∉ xs := by rw [t.xs_eq]; simp
  obtain ⟨pv', nx', t', g1, g2, g3⟩ := t.toT.add hx hp (v := dflt) (keyRep_new hf k) hk
  unfold append
  rw [g1, ok_bind]
  have g2' : T hf { w with ik := upd w.ik w.pos (keyIk hf k), sk := upd w.sk w.pos (keySk k), val := upd w.val w.pos (some dflt),
                           init := upd w.init w.pos true, pv := pv', nx := nx', tbl := t', pos := w.pos + 1, used := w.used + 1 }
      (xs ++ [w.pos]) (upd K w.pos k) (upd V w.pos dflt) :=
    g2.congr (fun y => by simp only [List.mem_cons, List.mem_append, List.not_mem_nil, or_false]; exact Or.comm) rfl rfl rfl
      (fun y hy => ⟨rfl, rfl, rfl, rfl, rfl, g2.val y hy, rfl⟩)
  refine ⟨_, rfl, g2', ?_, ?_, ?_, t.c90, t.r40, ?_⟩
  · show xs ++ [w.pos] = (List.range (w.pos + 1)).filter _
    have hlast := g2'.live (x := w.pos) (by simp)
    rw [List.range_succ, List.filter_append, List.filter_cons_of_pos (by simpa [live] using hlast), List.filter_nil]
    congr 1
    rw [filter_live_congr (w := w) (fun y hy => ?_)]
    · exact t.xs_eq
    · have hyl : y < w.pos := by simpa using hy
      by_cases hyx : y ∈ xs
      · exact ⟨fun _ => t.toT.live hyx, fun _ => g2'.live (by simp [hyx])⟩
      · have := g3 y (by omega) hyx
        show pv' y ≠ nil32 ↔ _
        rw [this]
  · show w.pos + 1 ≤ w.cap
    omega
  · show w.used + 1 = _
    rw [t.used]; simp
  · intro i hi
    have hi : i < w.pos + 1 := hi
    show upd w.init w.pos true i = true
    by_cases e : i = w.pos
    · rw [e]; simp
    · rw [upd_other _ _ e]; exact t.ini i (by omega)

/-- `Set` on a key: the node it returns holds the key, in its old place or at the end. -/
theorem set_ok {w : W α} {xs : List Nat} {K : Nat → Key} {V : Nat → α} (t : Inv hf w xs K V) (dflt : α) (k : Key)
    (hl : (lookup (xs.map (ent K V)) k).isSome ∨ xs.length < Spec.limit) :
    ∃ x w' xs' K' V', set hf dflt w k = .ok (x, w') ∧ Inv hf w' xs' K' V' ∧ x ∈ xs' ∧ K' x = k ∧
      match lookup (xs.map (ent K V)) k with
      | some v => xs'.map (ent K' V') = xs.map (ent K V) ∧ V' x = v
      | none => ∃ ys, xs' = ys ++ [x] ∧ x ∉ ys ∧ ys.map (ent K' V') = xs.map (ent K V) ∧ V' x = dflt := by
  unfold set
  rw [find_ok t.toT, ok_bind]
  rw [lookup_map] at hl ⊢
  rcases find_cases (xs := xs) (K := K) k with ⟨h1, h2⟩ | ⟨x, h1, h2, h3⟩
  · rw [h1] at hl ⊢
    simp only [Option.map_none, Option.isSome_none, Bool.false_eq_true, false_or] at hl ⊢
    obtain ⟨w1, xs1, K1, V1, g1, g2, g3, g4⟩ := makeRoom_ok t hl
    rw [g1, ok_bind]
    have hk : ∀ x ∈ xs1, K1 x ≠ k := by
      intro x hx e
      have : ent K1 V1 x ∈ xs1.map (ent K1 V1) := List.mem_map_of_mem hx
      rw [g3] at this
      obtain ⟨y, hy, ey⟩ := List.mem_map.1 this
      exact h2 y hy ((congrArg Prod.fst ey).trans e)
    obtain ⟨w2, f1, f2⟩ := append_ok g2 g4 dflt k hk
    have hx : w1.pos ∉ xs1 := by rw [g2.xs_eq]; simp
    exact ⟨w1.pos, w2, _, _, _, f1, f2, by simp, by simp, xs1, rfl, hx, by rw [map_ent_upd hx, g3], by simp⟩
  · rw [h1]
    exact ⟨x, w, xs, K, V, rfl, t, h2, h3, rfl, rfl⟩

theorem inv_val {w : W α} {xs : List Nat} {K : Nat → Key} {V : Nat → α} (t : Inv hf w xs K V) (x : Nat) (v : α) :
    Inv hf { w with val := upd w.val x (some v) } xs K (upd V x v) := by
  refine ⟨t.toT.congr (fun _ => Iff.rfl) rfl rfl rfl (fun y hy => ⟨rfl, rfl, rfl, rfl, rfl, ?_, rfl⟩), t.xs_eq, t.pos_le, t.used, t.c90, t.r40, t.ini⟩
  show upd w.val x (some v) y = _
  by_cases e : y = x
  · simp [e]
  · rw [upd_other _ _ e, upd_other _ _ e]; exact t.val y hy

theorem put_present {w : W α} {xs : List Nat} {K : Nat → Key} {V : Nat → α} (t : T hf w xs K V) {x : Nat} (hx : x ∈ xs) (v : α) :
    xs.map (ent K (upd V x v)) = (xs.map (ent K V)).map fun e => if e.1 = K x then (K x, v) else e := by
  rw [List.map_map]
  apply List.map_congr_left
  intro y hy
  simp only [Function.comp_apply, ent]
  by_cases e : y = x
  · simp [e]
  · have : K y ≠ K x := fun h => e (t.uniq y hy x hx h)
    show (K y, upd V x v y) = if K y = K x then (K x, v) else (K y, V y)
    rw [if_neg this, upd_other _ _ e]

theorem setV_ok {w : W α} {xs : List Nat} {K : Nat → Key} {V : Nat → α} (t : Inv hf w xs K V) (dflt : α) (k : Key) (v : α)
    (hl : (lookup (xs.map (ent K V)) k).isSome ∨ xs.length < Spec.limit) :
    ∃ x w', setV hf dflt w k v = .ok (x, w') ∧ Rel hf w' (put (xs.map (ent K V)) k v) := by
  obtain ⟨x, w1, xs1, K1, V1, g1, g2, g3, g4, g5⟩ := set_ok t dflt k hl
  unfold setV
  rw [g1, ok_bind]
  simp only
  rw [getVal_ok g2.toT g3, ok_bind]
  refine ⟨x, _, rfl, xs1, K1, _, inv_val g2 x v, ?_⟩
  unfold put
  cases h : lookup (xs.map (ent K V)) k with
  | some v' =>
    rw [h] at g5
    simp only [Option.isSome_some, if_true]
    rw [put_present g2.toT g3, ← g5.1, g4]
  | none =>
    rw [h] at g5
    obtain ⟨ys, rfl, hx, h1, h2⟩ := g5
    simp only [Option.isSome_none, Bool.false_eq_true, if_false]
    rw [List.map_append, ← h1]
    congr 1
    · apply List.map_congr_left
      intro y hy
      simp [ent, upd_other _ _ (ne_of_mem hy hx)]
    · simp [ent, g4]

theorem unsetKey_ok {w : W α} {xs : List Nat} {K : Nat → Key} {V : Nat → α} (t : Inv hf w xs K V) (k : Key) :
    ∃ w', unsetKey hf w k = .ok ((lookup (xs.map (ent K V)) k).isSome, w') ∧
      Rel hf w' ((xs.map (ent K V)).filter fun e => decide (e.1 ≠ k)) := by
  unfold unsetKey
  rw [find_ok t.toT, ok_bind, lookup_map]
  rcases find_cases (xs := xs) (K := K) k with ⟨h1, h2⟩ | ⟨x, h1, h2, h3⟩
  · rw [h1]
    refine ⟨w, rfl, xs, K, V, t, List.filter_eq_self.2 ?_⟩
    intro e he
    obtain ⟨y, hy, rfl⟩ := List.mem_map.1 he
    exact decide_eq_true (h2 y hy)
  · rw [h1]
    have hm : ∀ y, y ∈ xs.filter (fun y => decide (y ≠ x)) ↔ y ∈ xs ∧ y ≠ x := fun y => by simp
    obtain ⟨pv', nx', t', g1, g2, g3, g4⟩ := t.toT.unset h2 hm
    rw [g1]
    refine ⟨_, rfl, _, K, V, ⟨g2, ?_, t.pos_le, ?_, t.c90, t.r40, t.ini⟩, ?_⟩
    · have : (List.range w.pos).filter (fun y => decide (y ≠ x) && live w y) = xs.filter (fun y => decide (y ≠ x)) := by
        rw [t.xs_eq, List.filter_filter]
      rw [← this]
      apply List.filter_congr
      intro y hy
      have hyl : y < w.pos := by simpa using hy
      unfold live
      show _ = decide (pv' y ≠ nil32)
      by_cases e : y = x
      · rw [e, g3]; simp
      · simp only [ne_eq, e, not_false_eq_true, decide_true, Bool.true_and, decide_eq_decide]
        by_cases hyx : y ∈ xs
        · have h1 := t.toT.live hyx
          have h2 := g2.live ((hm y).2 ⟨hyx, e⟩)
          exact ⟨fun _ => h2, fun _ => h1⟩
        · rw [g4 y hyx]
    · show w.used - 1 = _
      rw [t.used]
      have hnd : xs.Nodup := by rw [t.xs_eq]; exact List.Nodup.filter _ List.nodup_range
      have : xs.filter (fun y => decide (y ≠ x)) = xs.erase x := by
        rw [List.Nodup.erase_eq_filter hnd]
        apply List.filter_congr
        intro y _
        simp [Bool.beq_eq_decide_eq, bne]
      rw [this, List.length_erase_of_mem h2]
    · rw [List.filter_map]
      congr 1
      apply List.filter_congr
      intro y hy
      show decide (K y ≠ k) = decide (y ≠ x)
      simp only [decide_eq_decide]
      constructor
      · rintro h rfl; exact h h3
      · intro h h'; exact h (t.uniq y hy x h2 (h'.trans h3.symm))

theorem step_refines {dflt : α} {w : W α} {s s' : List (Key × α)} {op : Op α} {r : Ret α} (h : Rel hf w s)
    (hs : Spec.step dflt s op = some (r, s')) : ∃ w', step hf dflt w op = .ok (r, w') ∧ Rel hf w' s' := by
  obtain ⟨xs, K, V, t, rfl⟩ := h
  cases op with
  | set k v =>
    simp only [Spec.step] at hs
    split at hs
    · rename_i hl
      cases hs
      obtain ⟨x, w', g1, g2⟩ := setV_ok t dflt k v (by simpa using hl)
      exact ⟨w', by simp [step, g1], g2⟩
    · cases hs
  | touch k =>
    simp only [Spec.step] at hs
    cases hlk : lookup (xs.map (ent K V)) k with
    | some v =>
      rw [hlk] at hs
      cases hs
      obtain ⟨x, w', xs', K', V', g1, g2, g3, g4, g5⟩ := set_ok t dflt k (Or.inl (by rw [hlk]; rfl))
      rw [hlk] at g5
      exact ⟨w', by simp [step, g1, getVal_ok g2.toT g3, g5.2], xs', K', V', g2, g5.1.symm⟩
    | none =>
      rw [hlk] at hs
      simp only at hs
      split at hs
      · rename_i hl
        cases hs
        obtain ⟨x, w', xs', K', V', g1, g2, g3, g4, g5⟩ := set_ok t dflt k (Or.inr (by simpa using hl))
        rw [hlk] at g5
        obtain ⟨ys, rfl, hx, h1, h2⟩ := g5
        exact ⟨w', by simp [step, g1, getVal_ok g2.toT g3, h2], _, K', V', g2, by simp [h1, ent, g4, h2]⟩
      · cases hs
  | unset k =>
    cases hs
    obtain ⟨w', g1, g2⟩ := unsetKey_ok t k
    exact ⟨w', by simp [step, g1], g2⟩
  | find k =>
    cases hs
    refine ⟨w, ?_, xs, K, V, t, rfl⟩
    simp only [step]
    rw [find_ok t.toT, ok_bind, lookup_map]
    rcases find_cases (xs := xs) (K := K) k with ⟨h1, h2⟩ | ⟨x, h1, h2, h3⟩
    · rw [h1]; rfl
    · rw [h1]
      simp only
      rw [getVal_ok t.toT h2]
      rfl
  | resize n =>
    simp only [Spec.step] at hs
    split at hs
    · rename_i hn
      cases hs
      obtain ⟨b, w', xs', K', V', g1, g2, g3⟩ := resize_ok t hn
      exact ⟨w', by simp [step, g1], xs', K', V', g2, g3.symm⟩
    · cases hs
  | optimize =>
    cases hs
    obtain ⟨w', xs', K', V', g1, g2, g3, -, -⟩ := optimize_ok t
    exact ⟨w', by simp [step, g1], xs', K', V', g2, g3.symm⟩
  | autoResize =>
    simp only [Spec.step] at hs
    split at hs
    · rename_i hn
      cases hs
      obtain ⟨b, w', xs', K', V', g1, g2, g3, -⟩ := autoResize_ok t (by simpa using hn)
      exact ⟨w', by simp [step, g1], xs', K', V', g2, g3.symm⟩
    · cases hs
  | size =>
    cases hs
    exact ⟨w, by simp [step, t.used], xs, K, V, t, rfl⟩

theorem run_refines {dflt : α} : ∀ {ops : List (Op α)} {w : W α} {s s' : List (Key × α)} {rs : List (Ret α)}, Rel hf w s →
    Spec.run dflt s ops = some (rs, s') → ∃ w', run hf dflt w ops = .ok (rs, w') ∧ Rel hf w' s'
  | [], w, s, s', rs, h, hr => by cases hr; exact ⟨w, rfl, h⟩
  | op :: ops, w, s, s', rs, h, hr => by
    unfold Spec.run at hr
    obtain ⟨⟨r, s1⟩, h1, h2⟩ := bind_some hr
    obtain ⟨⟨rs', s2⟩, h3, h4⟩ := bind_some h2
    cases h4
    obtain ⟨w1, g1, g2⟩ := step_refines h h1
    obtain ⟨w2, g3, g4⟩ := run_refines g2 h3
    exact ⟨w2, by simp [run, g1, g3], g4⟩

theorem construct_rel (dflt : α) {n : Nat} (hn : n ≤ 2 ^ 30) : ∃ w, construct hf n = .ok w ∧ Rel hf w ([] : List (Key × α)) := by
  obtain ⟨w, h1, h2⟩ := construct_ok (hf := hf) hn (fun _ => .int 0) (fun _ => dflt)
  exact ⟨w, h1, [], _, _, h2, rfl⟩

/-! ## Iteration -/

theorem filter_range'_cons {p : Nat → Bool} : ∀ {k i x : Nat} {L : List Nat}, (List.range' i k).filter p = x :: L →
    i ≤ x ∧ x < i + k ∧ p x = true ∧ (List.range' (x + 1) (i + k - (x + 1))).filter p = L
  | 0, i, x, L, h => by simp at h
  | k + 1, i, x, L, h => by
    rw [List.range'_succ] at h
    by_cases e : p i = true
    · rw [List.filter_cons_of_pos e] at h
      cases h
      refine ⟨Nat.le_refl _, by omega, e, ?_⟩
      rw [show i + (k + 1) - (i + 1) = k by omega]
    · rw [List.filter_cons_of_neg e] at h
      obtain ⟨h1, h2, h3, h4⟩ := filter_range'_cons h
      exact ⟨by omega, by omega, h3, by rw [show i + (k + 1) - (x + 1) = i + 1 + k - (x + 1) by omega]; exact h4⟩

/-- What `Next` gives when the live positions ahead are `L`. -/
def scanRes (e : Nat) : List Nat → Option Nat × Nat
  | [] => (none, e)
  | x :: _ => (some x, x)

theorem nextScan_ok {w : W α} (hi : ∀ i, i < w.pos → i < w.cap ∧ w.init i = true) : ∀ (k i : Nat), i + k = w.pos →
    nextScan w k i = .ok (scanRes w.pos ((List.range' i k).filter (live w)))
  | 0, i, h => by simp only [nextScan, List.range'_zero, List.filter_nil]; rw [← h]; rfl
  | k + 1, i, h => by
    unfold nextScan
    rw [get_ok (hi i (by omega)), ok_bind, List.range'_succ]
    by_cases e : w.pv i = nil32
    · rw [if_pos e, List.filter_cons_of_neg (by simp [live, e])]
      exact nextScan_ok hi k (i + 1) (by omega)
    · rw [if_neg e, List.filter_cons_of_pos (by simp [live, e])]
      rfl

theorem getEntry_ok {w : W α} {xs : List Nat} {K : Nat → Key} {V : Nat → α} (t : T hf w xs K V) {x : Nat} (hx : x ∈ xs) :
    getEntry w x = .ok (ent K V x) := by
  have hr := t.rng x hx
  have hk := t.key x hx
  unfold getEntry
  rw [get_ok hr, get_ok hr, getVal_ok t hx, ok_bind, ok_bind, ok_bind]
  unfold ent
  cases h : K x with
  | int j => rw [h] at hk; rw [hk.1, hk.2]
  | str bs => rw [h] at hk; rw [hk.1]

theorem walkNext_ok {w : W α} {xs : List Nat} {K : Nat → Key} {V : Nat → α} (t : Inv hf w xs K V) : ∀ (L : List Nat) (k i : Nat),
    (i < w.pos ∧ (List.range' (i + 1) (w.pos - (i + 1))).filter (live w) = L ∨ i = w.pos ∧ (List.range' 0 w.pos).filter (live w) = L) →
    L.length < k → walkNext w k i = .ok (L.map (ent K V))
  | L, 0, i, _, h => by omega
  | L, k + 1, i, h, hk => by
    have hi : ∀ i, i < w.pos → i < w.cap ∧ w.init i = true := fun i hi => ⟨Nat.lt_of_lt_of_le hi t.pos_le, t.ini i hi⟩
    have hn : next w i = .ok (scanRes w.pos L) := by
      unfold next
      rcases h with ⟨h1, h2⟩ | ⟨h1, h2⟩
      · rw [if_neg (by omega), nextScan_ok hi _ _ (by omega), h2]
      · rw [if_pos (by omega), nextScan_ok hi _ _ (by omega), h2]
    unfold walkNext
    rw [hn, ok_bind]
    cases L with
    | nil => rfl
    | cons x L =>
      simp only [scanRes]
      have hx : x < w.pos ∧ live w x = true ∧ (List.range' (x + 1) (w.pos - (x + 1))).filter (live w) = L := by
        rcases h with ⟨h1, h2⟩ | ⟨h1, h2⟩
        · obtain ⟨a, b, c, d⟩ := filter_range'_cons h2
          rw [show i + 1 + (w.pos - (i + 1)) = w.pos by omega] at d
          exact ⟨by omega, c, d⟩
        · obtain ⟨a, b, c, d⟩ := filter_range'_cons h2
          rw [show 0 + w.pos = w.pos by omega] at d
          exact ⟨by omega, c, d⟩
      have hxs : x ∈ xs := by rw [t.xs_eq]; simp [hx.1, hx.2.1]
      rw [getEntry_ok t.toT hxs, ok_bind, walkNext_ok t L k x (Or.inl ⟨hx.1, hx.2.2⟩) (by simp at hk; omega)]
      rfl

theorem forward_ok {w : W α} {s : List (Key × α)} (h : Rel hf w s) : forward w = .ok s := by
  obtain ⟨xs, K, V, t, rfl⟩ := h
  unfold forward
  have hxs := t.xs_eq
  rw [List.range_eq_range'] at hxs
  refine walkNext_ok t xs _ _ (Or.inr ⟨rfl, hxs.symm⟩) ?_
  have := t.used_le
  rw [t.used] at this
  omega

theorem prevScan_ok {w : W α} (hi : ∀ i, i < w.pos → i < w.cap ∧ w.init i = true) : ∀ (i : Nat), i ≤ w.pos →
    ((List.range i).filter (live w) = [] ∧ prevScan w i = .ok (none, w.pos)) ∨
    ∃ x, x < i ∧ live w x = true ∧ (List.range i).filter (live w) = (List.range x).filter (live w) ++ [x] ∧ prevScan w i = .ok (some x, x)
  | 0, h => Or.inl ⟨rfl, rfl⟩
  | i + 1, h => by
    unfold prevScan
    rw [get_ok (hi i (by omega)), ok_bind, List.range_succ, List.filter_append]
    by_cases e : w.pv i = nil32
    · rw [if_pos e, List.filter_cons_of_neg (by simp [live, e]), List.filter_nil, List.append_nil]
      rcases prevScan_ok hi i (by omega) with h | ⟨x, h1, h2, h3, h4⟩
      · exact Or.inl h
      · exact Or.inr ⟨x, by omega, h2, h3, h4⟩
    · rw [if_neg e, List.filter_cons_of_pos (by simp [live, e]), List.filter_nil]
      exact Or.inr ⟨i, by omega, by simp [live, e], rfl, rfl⟩

theorem walkPrev_ok {w : W α} {xs : List Nat} {K : Nat → Key} {V : Nat → α} (t : Inv hf w xs K V) : ∀ (k i : Nat), i ≤ w.pos →
    ((List.range i).filter (live w)).length < k → walkPrev w k i = .ok (((List.range i).filter (live w)).map (ent K V)).reverse
  | 0, i, _, h => by omega
  | k + 1, i, hil, hk => by
    have hi : ∀ i, i < w.pos → i < w.cap ∧ w.init i = true := fun i hi => ⟨Nat.lt_of_lt_of_le hi t.pos_le, t.ini i hi⟩
    unfold walkPrev prev
    rw [if_neg (by omega)]
    rcases prevScan_ok hi i hil with ⟨h1, h2⟩ | ⟨x, h1, h2, h3, h4⟩
    · rw [h2, h1]; rfl
    · rw [h4, ok_bind, h3]
      have hxs : x ∈ xs := by
        rw [t.xs_eq, List.mem_filter, List.mem_range]; exact ⟨by omega, h2⟩
      simp only
      rw [h3] at hk
      rw [getEntry_ok t.toT hxs, ok_bind, walkPrev_ok t k x (by omega) (by simp at hk; omega)]
      simp

theorem backward_ok {w : W α} {s : List (Key × α)} (h : Rel hf w s) : backward w = .ok s.reverse := by
  obtain ⟨xs, K, V, t, rfl⟩ := h
  unfold backward
  have := t.used_le
  rw [t.used] at this
  have hxs := t.xs_eq
  rw [walkPrev_ok t _ _ (Nat.le_refl _) (by rw [← hxs]; omega), ← hxs]

theorem rel_nodup {w : W α} {s : List (Key × α)} (h : Rel hf w s) : (s.map Prod.fst).Nodup := by
  obtain ⟨xs, K, V, t, rfl⟩ := h
  rw [List.map_map]
  have hnd : xs.Nodup := by rw [t.xs_eq]; exact List.Nodup.filter _ List.nodup_range
  exact List.Nodup.map_on (fun x hx y hy e => t.uniq x hx y hy e) hnd

/-! ## C22 -/

/-- C22.  Every history of calls within the limits, on a table of any initial size and with any hash function, has no
undefined behaviour, returns what the list of entries says, and leaves a table whose forward iteration is that list and
whose backward iteration is its reverse; no key occurs twice. -/
theorem packed_hash_is_map_partial (hf : List UInt8 → UInt64) (dflt : α) (n : Nat) (hn : n ≤ 2 ^ 30) (ops : List (Op α)) (rs : List (Ret α))
    (s : List (Key × α)) (h : Spec.run dflt [] ops = some (rs, s)) :
    ∃ w0 w, construct hf n = .ok w0 ∧ run hf dflt w0 ops = .ok (rs, w) ∧ forward w = .ok s ∧ backward w = .ok s.reverse ∧
      (s.map Prod.fst).Nodup := by
  obtain ⟨w0, h0, r0⟩ := construct_rel (hf := hf) dflt hn
  obtain ⟨w, h1, r1⟩ := run_refines r0 h
  exact ⟨w0, w, h0, h1, forward_ok r1, backward_ok r1, rel_nodup r1⟩

/-- The value a key was last given by the history and that was not unset since. -/
def lastValue (dflt : α) (k : Key) (ops : List (Op α)) : Option α :=
  ops.foldl (fun c op => match op with
    | .set k' v => if k' = k then some v else c
    | .touch k' => if k' = k then some (c.getD dflt) else c
    | .unset k' => if k' = k then none else c
    | _ => c) none

theorem lookup_append (s t : List (Key × α)) (k : Key) : lookup (s ++ t) k = (lookup s k).or (lookup t k) := by
  unfold lookup
  rw [List.find?_append]
  cases s.find? _ <;> simp

theorem lookup_put (s : List (Key × α)) (k k' : Key) (v : α) : lookup (put s k v) k' = if k = k' then some v else lookup s k' := by
  unfold put
  split
  · rename_i h
    induction s with
    | nil => simp [lookup] at h
    | cons e s ih =>
      have hc : ∀ (e : Key × α) (s : List (Key × α)) (k : Key), lookup (e :: s) k = if e.1 = k then some e.2 else lookup s k := by
        intro e s k
        unfold lookup
        by_cases he : e.1 = k <;> simp [he]
      rw [List.map_cons, hc, hc]
      rw [hc] at h
      by_cases e1 : e.1 = k
      · rw [if_pos e1]
        by_cases e2 : k = k'
        · simp [e2]
        · have e3 : e.1 ≠ k' := by rw [e1]; exact e2
          simp only [e2, e3, if_false]
          clear ih h
          induction s with
          | nil => rfl
          | cons f s ih =>
            rw [List.map_cons, hc, hc, ih]
            by_cases e4 : f.1 = k
            · rw [if_pos e4]
              have : f.1 ≠ k' := by rw [e4]; exact e2
              simp [e2, this]
            · rw [if_neg e4]
      · rw [if_neg e1] at h ⊢
        rw [ih h]
        by_cases e2 : k = k'
        · have : e.1 ≠ k' := by rw [← e2]; exact e1
          simp [e2, this]
        · simp [e2]
  · rename_i h
    have h : lookup s k = none := by simpa using h
    rw [lookup_append]
    by_cases e : k = k'
    · rw [← e, h]; simp [lookup]
    · rw [if_neg e]
      have : lookup [(k, v)] k' = none := by simp [lookup, e]
      rw [this]; simp

theorem lookup_unset (s : List (Key × α)) (k k' : Key) :
    lookup (s.filter fun e => decide (e.1 ≠ k)) k' = if k = k' then none else lookup s k' := by
  unfold lookup
  rw [List.find?_filter]
  by_cases e : k = k'
  · rw [if_pos e, ← e, List.find?_eq_none.2]
    · rfl
    · intro x _; simp
  · rw [if_neg e]
    congr 2
    funext x
    by_cases h : x.1 = k'
    · have : x.1 ≠ k := by rw [h]; exact fun h => e h.symm
      simp [h]
      exact fun h => e h.symm
    · simp [h]

/-- C22.  `Find(key)` after any history returns the value the key was last given and that was not unset since. -/
theorem find_returns_last_value_partial (hf : List UInt8 → UInt64) (dflt : α) (n : Nat) (hn : n ≤ 2 ^ 30) (ops : List (Op α)) (rs : List (Ret α))
    (s : List (Key × α)) (h : Spec.run dflt [] ops = some (rs, s)) (k : Key) :
    ∃ w0 w, construct hf n = .ok w0 ∧ run hf dflt w0 ops = .ok (rs, w) ∧ step hf dflt w (.find k) = .ok (.val (lastValue dflt k ops), w) := by
  obtain ⟨w0, h0, r0⟩ := construct_rel (hf := hf) dflt hn
  obtain ⟨w, h1, r1⟩ := run_refines r0 h
  refine ⟨w0, w, h0, h1, ?_⟩
  have key : ∀ (ops : List (Op α)) (s s' : List (Key × α)) (rs : List (Ret α)), Spec.run dflt s ops = some (rs, s') →
      lookup s' k = ops.foldl (fun c op => match op with
        | .set k' v => if k' = k then some v else c
        | .touch k' => if k' = k then some (c.getD dflt) else c
        | .unset k' => if k' = k then none else c
        | _ => c) (lookup s k) := by
    intro ops
    induction ops with
    | nil => intro s s' rs h; cases h; rfl
    | cons op ops ih =>
      intro s s' rs h
      unfold Spec.run at h
      obtain ⟨⟨r, s1⟩, h1, h2⟩ := bind_some h
      obtain ⟨⟨rs', s2⟩, h3, h4⟩ := bind_some h2
      cases h4
      rw [ih s1 _ rs' h3, List.foldl_cons]
      congr 1
      cases op with
      | set k' v =>
        simp only [Spec.step] at h1
        split at h1
        · cases h1; simp only [lookup_put]
        · cases h1
      | touch k' =>
        simp only [Spec.step] at h1
        cases hl : lookup s k' with
        | some v =>
          rw [hl] at h1
          cases h1
          by_cases e : k' = k
          · subst e; rw [hl]; simp
          · simp [e]
        | none =>
          rw [hl] at h1
          simp only at h1
          split at h1
          · cases h1
            rw [lookup_append]
            by_cases e : k' = k
            · rw [← e, hl]; simp [lookup]
            · simp [lookup, e]
          · cases h1
      | unset k' => cases h1; simp only [lookup_unset]
      | find k' => cases h1; rfl
      | resize n =>
        simp only [Spec.step] at h1
        split at h1 <;> cases h1
        rfl
      | optimize => cases h1; rfl
      | autoResize =>
        simp only [Spec.step] at h1
        split at h1 <;> cases h1
        rfl
      | size => cases h1; rfl
  have hk := key ops [] s rs h
  obtain ⟨w2, g1, g2⟩ := step_refines (op := .find k) (dflt := dflt) r1 rfl
  have : w2 = w := by
    simp only [step] at g1
    cases hfd : find hf w k with
    | error e => rw [hfd] at g1; cases g1
    | ok r =>
      rw [hfd, ok_bind] at g1
      cases r with
      | none => exact (congrArg Prod.snd (Except.ok.inj g1)).symm
      | some x =>
        simp only at g1
        cases hv : getVal w x with
        | error e => rw [hv] at g1; cases g1
        | ok v => rw [hv] at g1; exact (congrArg Prod.snd (Except.ok.inj g1)).symm
  rw [this] at g1
  rw [g1, hk]
  rfl

/-- C22.  A key already present keeps its place when it is set again, a new key goes to the end, and `Unset` takes out
exactly its key. -/
theorem put_order (s : List (Key × α)) (k : Key) (v : α) :
    ((lookup s k).isSome = true → (put s k v).map Prod.fst = s.map Prod.fst) ∧
      ((lookup s k).isSome = false → put s k v = s ++ [(k, v)]) ∧
      ((lookup s k).isSome = true ↔ k ∈ s.map Prod.fst) := by
  refine ⟨fun h => ?_, fun h => by simp [put, h], ?_⟩
  · simp only [put, h, if_true, List.map_map]
    apply List.map_congr_left
    intro e _
    simp only [Function.comp_apply]
    split
    · rename_i h; exact h.symm
    · rfl
  · simp [lookup, List.find?_isSome]

/-- A history with collisions, a string key, growth, a hole and a re-set key. -/
def demoOps : List (Op Nat) :=
  [.set (.int 5) 50, .set (.str [65]) 1, .set (.int (-3)) 7, .unset (.int 5), .set (.str [65]) 2, .touch (.int 9), .find (.int 5),
   .set (.int 5) 51, .size]

example : (Spec.run 0 [] demoOps).map (fun r => r.2) = some [(.str [65], 2), (.int (-3), 7), (.int 9, 0), (.int 5, 51)] := by decide

example : ((construct (fun _ => 6) 1).bind fun w => (run (fun _ => 6) 0 w demoOps).bind fun r => forward r.2) =
    .ok [(.str [65], 2), (.int (-3), 7), (.int 9, 0), (.int 5, 51)] := by decide

example : lastValue 0 (.int 5) demoOps = some 51 := by decide

/-! ## C23 -/

/-- C23.  `ResizeHash`, `Optimize` and `AutoResizeHash` after any history change neither iteration nor any lookup. -/
theorem compaction_invisible_partial (hf : List UInt8 → UInt64) (dflt : α) (n : Nat) (hn : n ≤ 2 ^ 30) (ops : List (Op α)) (rs : List (Ret α))
    (s : List (Key × α)) (h : Spec.run dflt [] ops = some (rs, s)) (op : Op α)
    (hop : (∃ m, m ≤ 2 ^ 30 ∧ op = .resize m) ∨ op = .optimize ∨ (s.length < 966367642 ∧ op = .autoResize)) :
    ∃ w0 w r w', construct hf n = .ok w0 ∧ run hf dflt w0 ops = .ok (rs, w) ∧ step hf dflt w op = .ok (r, w') ∧
      forward w' = forward w ∧ backward w' = backward w ∧
      ∀ k, (step hf dflt w' (.find k)).map Prod.fst = (step hf dflt w (.find k)).map Prod.fst := by
  obtain ⟨w0, h0, r0⟩ := construct_rel (hf := hf) dflt hn
  obtain ⟨w, h1, r1⟩ := run_refines r0 h
  have hs : ∃ r, Spec.step dflt s op = some (r, s) := by
    rcases hop with ⟨m, hm, rfl⟩ | rfl | ⟨hl, rfl⟩
    · exact ⟨.void, by simp only [Spec.step, if_pos hm]⟩
    · exact ⟨.bool true, rfl⟩
    · exact ⟨.void, by rw [Spec.step, limit, if_pos hl]⟩
  obtain ⟨r, hs⟩ := hs
  obtain ⟨w', h2, r2⟩ := step_refines r1 hs
  refine ⟨w0, w, r, w', h0, h1, h2, by rw [forward_ok r1, forward_ok r2], by rw [backward_ok r1, backward_ok r2], fun k => ?_⟩
  obtain ⟨a, a1, -⟩ := step_refines (op := .find k) (dflt := dflt) r1 rfl
  obtain ⟨b, b1, -⟩ := step_refines (op := .find k) (dflt := dflt) r2 rfl
  rw [a1, b1]
  rfl

/-- C23.  The initial size and the hash function cannot be observed: two tables given the same calls answer alike. -/
theorem packed_table_invisible_partial (hf hf' : List UInt8 → UInt64) (dflt : α) (n n' : Nat) (hn : n ≤ 2 ^ 30) (hn' : n' ≤ 2 ^ 30) (ops : List (Op α))
    (rs : List (Ret α)) (s : List (Key × α)) (h : Spec.run dflt [] ops = some (rs, s)) :
    ∃ w0 w1 v0 v1, construct hf n = .ok w0 ∧ construct hf' n' = .ok v0 ∧ run hf dflt w0 ops = .ok (rs, w1) ∧
      run hf' dflt v0 ops = .ok (rs, v1) ∧ forward w1 = forward v1 ∧ backward w1 = backward v1 := by
  obtain ⟨w0, w1, a1, a2, a3, a4, -⟩ := packed_hash_is_map_partial hf dflt n hn ops rs s h
  obtain ⟨v0, v1, b1, b2, b3, b4, -⟩ := packed_hash_is_map_partial hf' dflt n' hn' ops rs s h
  exact ⟨w0, w1, v0, v1, a1, b1, a2, b2, by rw [a3, b3], by rw [a4, b4]⟩

/-- C23.  After `Optimize`, `Get(i)` is the `i`-th entry and NULL behind the last. -/
theorem get_after_optimize_partial (hf : List UInt8 → UInt64) (dflt : α) (n : Nat) (hn : n ≤ 2 ^ 30) (ops : List (Op α)) (rs : List (Ret α))
    (s : List (Key × α)) (h : Spec.run dflt [] ops = some (rs, s)) :
    ∃ w0 w w', construct hf n = .ok w0 ∧ run hf dflt w0 ops = .ok (rs, w) ∧ optimize w = .ok w' ∧
      ∀ i, (∃ hi : i < s.length, getPos w' i = .ok (some i) ∧ getEntry w' i = .ok s[i]) ∨ (s.length ≤ i ∧ getPos w' i = .ok none) := by
  obtain ⟨w0, h0, r0⟩ := construct_rel (hf := hf) dflt hn
  obtain ⟨w, h1, xs, K, V, t, rfl⟩ := run_refines r0 h
  obtain ⟨w', xs', K', V', g1, g2, g3, g4, -⟩ := optimize_ok t
  refine ⟨w0, w, w', h0, h1, g1, fun i => ?_⟩
  rw [← g3]
  have hlen : xs'.length = xs.length := by simpa using congrArg List.length g3
  have hpos : w'.pos = xs'.length := by rw [g4, t.used, hlen]
  have hxs : xs' = List.range w'.pos := by
    have := g2.xs_eq
    rw [eq_comm, this]
    have hl : ((List.range w'.pos).filter (live w')).length = (List.range w'.pos).length := by rw [← this]; simp [hpos]
    exact (List.filter_sublist.eq_of_length hl).symm
  by_cases hi : i < xs'.length
  · left
    refine ⟨by simpa using hi, ?_, ?_⟩
    · unfold getPos
      have hip : i < w'.pos := by omega
      have hm : i ∈ xs' := by rw [hxs]; simpa using hip
      rw [if_neg (by omega), g2.get hip, ok_bind, if_neg (g2.toT.live hm)]
    · have hm : i ∈ xs' := by rw [hxs, hpos]; simpa using hi
      rw [getEntry_ok g2.toT hm]
      simp only [List.getElem_map]
      congr 2
      have : xs'[i] = (List.range w'.pos)[i]'(by simp; omega) := by congr 1
      rw [this]; simp
  · right
    refine ⟨by simp; omega, ?_⟩
    unfold getPos
    rw [if_pos (by omega)]

example : ((construct (fun _ => 6) 1).bind fun w => (run (fun _ => 6) 0 w (demoOps ++ [.resize 64, .unset (.int 9), .optimize])).bind fun r =>
    forward r.2) = .ok [(.str [65], 2), (.int (-3), 7), (.int 5, 51)] := by decide

/-- C23.  Why the limit: in a table of 2^31 nodes the chain mark of the last bucket is the unset mark, so a key set there
is skipped by `Get`, `Next` and `Prev`. -/
theorem marker_collision : mark (hpos (2 ^ 31 - 1) 0x7FFFFFFF) = nil32 := by decide

theorem construct_large (hf : List UInt8 → UInt64) : construct hf (2 ^ 31) = .ok (emptyTable (2 ^ 31) 0 : W α) := by
  have h1 : growTo 64 1 (2 ^ 31) = .ok (2 ^ 31) := by rfl
  have h2 : growTo 64 (2 ^ 31) 0 = .ok (2 ^ 31) := by rfl
  unfold construct resize
  rw [h1, ok_bind]
  unfold internalResize
  show (growTo 64 (2 ^ 31) 0 >>= _) >>= _ = _
  rw [h2, ok_bind, if_neg (by show ¬ (2 ^ 31 = 0 ∨ _); omega)]
  rfl

/-- C22, C23.  What this means for a caller: in a hash made with 2^31 nodes, a key with such a hash value is stored,
counted and found, but going through the hash does not show it, in neither direction. -/
theorem large_table_hides (hf : List UInt8 → UInt64) (dflt v : α) (k : Key) (hk : (hashOf hf k).toNat % 2 ^ 31 = 2 ^ 31 - 1) :
    ∃ w0 w, construct hf (2 ^ 31) = .ok w0 ∧
      run hf dflt w0 [.set k v, .size, .find k] = .ok ([.void, .num 1, .val (some v)], w) ∧ forward w = .ok [] ∧ backward w = .ok [] := by
  have hp : hpos (2 ^ 31 - 1) (hashOf hf k).toNat = 2 ^ 31 - 1 := by
    unfold hpos
    rw [Nat.and_two_pow_sub_one_eq_mod, Nat.mod_mod_of_dvd _ (by decide), hk]
  have hmk : mark (2 ^ 31 - 1) = nil32 := by decide
  obtain ⟨N, hN⟩ : ∃ N : Nat, N = 2 ^ 31 := ⟨_, rfl⟩
  have hm : (N - 1) % 2 ^ 32 = 2 ^ 31 - 1 := by rw [hN]
  have hlt : 2 ^ 31 - 1 < N := by rw [hN]; decide
  refine ⟨emptyTable (2 ^ 31) 0, ?_⟩
  rw [construct_large, ← hN]
  have hrd : rd (List.replicate N nil32) (2 ^ 31 - 1) = .ok nil32 := by simp [rd, hlt]
  have hfind : find hf (emptyTable N 0 : W α) k = .ok none := by
    unfold find
    show rd (List.replicate N nil32) (hpos ((N - 1) % 2 ^ 32) _) >>= _ = _
    rw [hm, hp, hrd, ok_bind]
    simp [findLoop]
  obtain ⟨b, hb⟩ : ∃ b : α → W α, b = fun v => { (emptyTable N 0 : W α) with
      ik := upd (fun _ => 0) 0 (keyIk hf k), sk := upd (fun _ => none) 0 (keySk k), val := upd (fun _ => none) 0 (some v),
      init := upd (fun _ => false) 0 true, pv := upd (fun _ => 0) 0 nil32, nx := upd (fun _ => 0) 0 nil32,
      tbl := (List.replicate N nil32).set (2 ^ 31 - 1) 0, pos := 1, used := 1 } := ⟨_, rfl⟩
  have hmask : (emptyTable N 0 : W α).mask = 2 ^ 31 - 1 := hm
  have happ : append hf dflt (emptyTable N 0 : W α) k = .ok (0, b dflt) := by
    unfold append attach
    show (rd (List.replicate N nil32) (hpos ((N - 1) % 2 ^ 32) _) >>= _) >>= _ = _
    rw [hm, hp, hrd, ok_bind, if_pos (by show 0 < N; omega)]
    simp only [setNextLink, if_true, ok_bind, hmask, hp, hmk]
    have hw : wr (emptyTable N 0 : W α).tbl (2 ^ 31 - 1) (emptyTable N 0 : W α).pos = .ok ((List.replicate N nil32).set (2 ^ 31 - 1) 0) := by
      show wr (List.replicate N nil32) _ 0 = _
      simp [wr, hlt]
    rw [hw, ok_bind, ok_bind, hb]
    simp only [hmask]
    rfl
  have hcap : 0 < (b v).cap := by rw [hb]; show 0 < N; omega
  have hcap' : 0 < (b dflt).cap := by rw [hb]; show 0 < N; omega
  have hsetV : setV hf dflt (emptyTable N 0 : W α) k v = .ok (0, b v) := by
    unfold setV set
    rw [hfind, ok_bind]
    dsimp only
    have : makeRoom hf (emptyTable N 0 : W α) = .ok (emptyTable N 0) := by
      unfold makeRoom
      rw [if_neg (by show ¬ (0 = N); omega)]
    rw [this, ok_bind, happ, ok_bind]
    have : getVal (b dflt) 0 = .ok dflt := by
      unfold getVal Verif.PackedHash.get
      rw [if_pos hcap']
      rw [hb]
      simp
    dsimp only
    rw [this, ok_bind]
    have hu : upd (upd (fun _ => none) 0 (some dflt)) 0 (some v) = upd (fun _ => none) 0 (some v) := by
      funext x
      by_cases e : x = 0
      · simp [e]
      · rw [upd_other _ _ e, upd_other _ _ e, upd_other _ _ e]
    rw [hb]
    simp only [hu]
  have hg : ∀ {β : Type} (f : Nat → β), Verif.PackedHash.get (b v) f 0 = .ok (f 0) := by
    intro β f
    unfold Verif.PackedHash.get
    rw [if_pos hcap]
    rw [hb]
    simp
  have hfind2 : find hf (b v) k = .ok (some 0) := by
    have hm2 : (b v).mask = 2 ^ 31 - 1 := by rw [hb]; exact hmask
    have ht : rd (b v).tbl (2 ^ 31 - 1) = .ok 0 := by rw [hb]; simp [rd, hlt]
    have hik : (b v).ik 0 = keyIk hf k := by rw [hb]; simp
    have hsk : (b v).sk 0 = keySk k := by rw [hb]; simp
    unfold find
    rw [hm2, hp, ht, ok_bind]
    unfold findLoop
    rw [if_neg (by decide)]
    have : matchKey hf (b v) k 0 = .ok true := by
      cases k with
      | int i => simp [matchKey, matchInt, hg, hik, hsk, keyIk, keySk]
      | str bs => simp [matchKey, matchStr, hg, hik, hsk, keyIk, keySk]
    rw [this, ok_bind, if_pos rfl]
  have hval : getVal (b v) 0 = .ok v := by
    unfold getVal
    rw [hg, hb]
    simp
  have hpv : (b v).pv 0 = nil32 := by rw [hb]; simp
  have hpos : (b v).pos = 1 := by rw [hb]
  have hused : (b v).used = 1 := by rw [hb]
  refine ⟨b v, rfl, ?_, ?_, ?_⟩
  · simp only [run, step]
    rw [hsetV]
    simp [hfind2, hval, hused]
  · unfold forward
    rw [hpos]
    simp [walkNext, next, hpos, nextScan, hg, hpv]
  · unfold backward
    rw [hpos]
    simp [walkPrev, prev, hpos, prevScan, hg, hpv]

example : (hashOf (fun _ => 0x7FFFFFFF) (.int 5)).toNat % 2 ^ 31 = 2 ^ 31 - 1 := by decide

/-! ## C24 -/

/-- The copy after `k` rounds of the loop. -/
def copyUpTo (w : W α) : Nat → CRes (W α)
  | 0 => .ok (copyStart w)
  | k + 1 => do
    let c ← copyUpTo w k
    copyNode w c k

theorem copyLoop_round (w : W α) (k : Nat) (c : W α) (i : Nat) :
    copyLoop w (k + 1) c i = (copyNode w c i >>= fun c => copyLoop w k c (i + 1)) := by
  conv => lhs; unfold copyLoop
  rw [if_neg (fun h => by cases h)]

theorem copyLoop_upTo (w : W α) : ∀ (j k : Nat), copyLoop w (j + k) (copyStart w) 0 = (copyUpTo w j >>= fun c => copyLoop w k c j)
  | 0, k => by simp [copyUpTo]
  | j + 1, k => by
    rw [show j + 1 + k = j + (k + 1) by omega, copyLoop_upTo w j (k + 1), copyUpTo]
    cases copyUpTo w j with
    | error e => rfl
    | ok c => simp only [ok_bind, copyLoop_round]

theorem copyUpTo_ok {w : W α} {xs : List Nat} {K : Nat → Key} {V : Nat → α} (t : Inv hf w xs K V) : ∀ (k : Nat), k ≤ w.pos →
    ∃ c, copyUpTo w k = .ok c ∧ c.cap = w.cap ∧ c.mask = w.mask ∧ c.tbl = w.tbl ∧ c.pos = w.pos ∧ c.used = w.used ∧
      c.c90 = w.c90 ∧ c.r40 = w.r40 ∧ ∀ i, i < k → c.init i = true ∧ c.pv i = w.pv i ∧ c.nx i = w.nx i ∧ c.ik i = w.ik i ∧
        c.sk i = w.sk i ∧ (w.pv i ≠ nil32 → c.val i = w.val i)
  | 0, _ => by
    have := t.cap_le
    refine ⟨_, rfl, rfl, ?_, rfl, rfl, rfl, t.c90.symm, t.r40.symm, fun i hi => by omega⟩
    show (w.cap - 1) % 2 ^ 32 = w.mask
    rw [t.mask, Nat.mod_eq_of_lt]
    omega
  | k + 1, hk => by
    obtain ⟨c, h0, h1, h2, h3, h4, h5, h6, h7, h8⟩ := copyUpTo_ok t k (by omega)
    have hkp : k < w.pos := by omega
    have := t.pos_le
    unfold copyUpTo
    rw [h0, ok_bind]
    unfold copyNode
    simp only [t.get hkp, ok_bind]
    rw [if_pos (by omega)]
    refine ⟨_, rfl, h1, h2, h3, h4, h5, h6, h7, fun i hi => ?_⟩
    by_cases e : i = k
    · subst e
      simp only [upd_same, true_and]
      intro hne
      rw [if_neg hne]
      simp
    · simp only [upd_other _ _ e]
      obtain ⟨a, b, c', d, f, g⟩ := h8 i (by omega)
      refine ⟨a, b, c', d, f, fun hne => ?_⟩
      split
      · exact g hne
      · rw [upd_other _ _ e]; exact g hne

/-- C24.  What holds: after as many rounds of the copy loop as the source has node positions, the copy is a table with the
same entries in the same order and the same answers, and nothing outside the two tables was touched. -/
theorem copy_rounds_partial (hf : List UInt8 → UInt64) (dflt : α) (n : Nat) (hn : n ≤ 2 ^ 30) (ops : List (Op α)) (rs : List (Ret α))
    (s : List (Key × α)) (h : Spec.run dflt [] ops = some (rs, s)) :
    ∃ w0 w c, construct hf n = .ok w0 ∧ run hf dflt w0 ops = .ok (rs, w) ∧
      (∀ k, copyLoop w (w.pos + k) (copyStart w) 0 = copyLoop w k c w.pos) ∧ forward c = .ok s ∧ backward c = .ok s.reverse ∧
      ∀ k, (step hf dflt c (.find k)).map Prod.fst = (step hf dflt w (.find k)).map Prod.fst := by
  obtain ⟨w0, h0, r0⟩ := construct_rel (hf := hf) dflt hn
  obtain ⟨w, h1, r1⟩ := run_refines r0 h
  have r1' := r1
  obtain ⟨xs, K, V, t, rfl⟩ := r1'
  obtain ⟨c, g0, g1, g2, g3, g4, g5, g6, g7, g8⟩ := copyUpTo_ok t w.pos (Nat.le_refl _)
  have hxl : ∀ x ∈ xs, x < w.pos := fun x hx => by rw [t.xs_eq, List.mem_filter, List.mem_range] at hx; exact hx.1
  have tc : T hf c xs K V := t.toT.congr (fun _ => Iff.rfl) g1 g2 g3 (fun x hx => by
    obtain ⟨a, b, c', d, f, g⟩ := g8 x (hxl x hx)
    exact ⟨by rw [a, (t.rng x hx).2], b, c', d, f, by rw [g (t.toT.live hx)]; exact t.val x hx, rfl⟩)
  have rc : Rel hf c (xs.map (ent K V)) := by
    refine ⟨xs, K, V, ⟨tc, ?_, by rw [g4, g1]; exact t.pos_le, by rw [g5]; exact t.used, by rw [g6, g1]; exact t.c90,
      by rw [g7, g1]; exact t.r40, fun i hi => (g8 i (by omega)).1⟩, rfl⟩
    rw [g4, filter_live_congr (w := w)]
    · exact t.xs_eq
    · intro y hy
      rw [(g8 y (by simpa using hy)).2.1]
  refine ⟨w0, w, c, h0, h1, fun k => ?_, forward_ok rc, backward_ok rc, fun k => ?_⟩
  · rw [copyLoop_upTo, g0, ok_bind]
  · obtain ⟨a, a1, -⟩ := step_refines (op := .find k) (dflt := dflt) r1 rfl
    obtain ⟨b, b1, -⟩ := step_refines (op := .find k) (dflt := dflt) rc rfl
    rw [a1, b1]
    rfl

theorem copyLoop_error (w : W α) : ∀ (k i : Nat) (c : W α), i + k = w.cap + 1 → i ≤ w.cap → c.cap = w.cap →
    copyLoop w k c i = .error .uninit ∨ copyLoop w k c i = .error .oobRead
  | 0, i, c, h, hi, _ => by omega
  | k + 1, i, c, h, hi, hc => by
    rw [copyLoop_round]
    by_cases e : i < w.cap
    · by_cases e' : w.init i = true
      · have : ∃ c', copyNode w c i = .ok c' ∧ c'.cap = w.cap := by
          unfold copyNode
          simp only [get_ok ⟨e, e'⟩, ok_bind]
          rw [if_pos (by omega)]
          exact ⟨_, rfl, hc⟩
        obtain ⟨c', h1, h2⟩ := this
        rw [h1, ok_bind]
        exact copyLoop_error w k (i + 1) c' (by omega) (by omega) h2
      · left
        simp [copyNode, get, e, e']
    · right
      simp [copyNode, get, e]

/-- C24 fails: the copy constructor always reads an uninitialised node or reads behind the array, because the end of the
loop is a pointer into the other array. -/
theorem copy_never_finishes (w : W α) : copy w = .error .uninit ∨ copy w = .error .oobRead :=
  copyLoop_error w (w.cap + 1) 0 (copyStart w) (by omega) (by omega) rfl

example : ((construct (fun _ => 6) 4).bind fun w => (run (fun _ => 6) 0 w demoOps).bind fun r => (copyUpTo r.2 r.2.pos).bind forward) =
    .ok [(.str [65], 2), (.int (-3), 7), (.int 9, 0), (.int 5, 51)] := by decide

example : (((construct (fun _ => 6) 4).bind fun w => (run (fun _ => 6) 0 w demoOps).bind fun r => copy r.2).map fun _ => 0) =
    .error .oobRead := by decide

end Verif.PackedHash
