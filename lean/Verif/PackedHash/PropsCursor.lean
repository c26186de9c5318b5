import Verif.PackedHash.CursorLemmas

/-! # Property C125 of `PackedOrderedHash`: a position is a cursor -/

namespace Verif.PackedHash
open Verif.Links
open Verif.OrderedHash (Key)
open Spec

variable {α : Type} {hf : List UInt8 → UInt64}

/-! ## The calls a position survives -/

/-- Adding a key needs a free place behind the last one, or that no place is empty, and fewer than the limit of keys. -/
def Room (w : W α) : Prop := w.used < limit ∧ (w.pos < w.cap ∨ w.used = w.pos)

instance (w : W α) : Decidable (Room w) := by unfold Room; infer_instance

/-- The calls after which a position is still what it was: adding a key needs room; resizing and packing need that no place
is empty; all others are free. -/
def Fine (hf : List UInt8 → UInt64) (w : W α) : CAct α → Prop
  | .call (.set k _) => find hf w k ≠ .ok none ∨ Room w
  | .call (.touch k) => find hf w k ≠ .ok none ∨ Room w
  | .call (.resize n) => n ≤ 2 ^ 30 ∧ w.used = w.pos
  | .call .optimize => w.used = w.pos
  | .call .autoResize => w.used < limit ∧ w.used = w.pos
  | _ => True

instance (hf : List UInt8 → UInt64) (w : W α) (a : CAct α) : Decidable (Fine hf w a) := by
  cases a <;> try (unfold Fine; infer_instance)
  rename_i op
  cases op <;> (unfold Fine; infer_instance)

/-- Every action is such a call in the state in which it happens. -/
def Calm (hf : List UInt8 → UInt64) (dflt : α) : C α → List (CAct α) → Prop
  | _, [] => True
  | c, a :: as => Fine hf c.w a ∧ match cstep hf dflt c a with
    | .ok (_, c') => Calm hf dflt c' as
    | .error _ => True

instance instDecidableCalm (hf : List UInt8 → UInt64) (dflt : α) : ∀ (as : List (CAct α)) (c : C α), Decidable (Calm hf dflt c as)
  | [], _ => isTrue trivial
  | a :: as, c => by
    unfold Calm
    cases cstep hf dflt c a with
    | error e => infer_instance
    | ok p =>
      obtain ⟨r, c'⟩ := p
      have := instDecidableCalm hf dflt as c'
      infer_instance

/-- The object and the position are those of the specification. -/
def CRel (hf : List UInt8 → UInt64) (c : C α) (d : Cur α) : Prop :=
  ∃ xs K V, Inv hf c.w xs K V ∧ Loc c.w c.i xs K V d

theorem find_dropWhile {xs : List Nat} {K : Nat → Key} {V : Nat → α} {k : Key} : ∀ {x : Nat},
    xs.find? (fun x => decide (K x = k)) = some x → ∃ lo hi, xs = lo ++ x :: hi ∧
      (xs.map (ent K V)).takeWhile (fun e => decide (e.1 ≠ k)) = lo.map (ent K V) ∧
      (xs.map (ent K V)).dropWhile (fun e => decide (e.1 ≠ k)) = ent K V x :: hi.map (ent K V) := by
  induction xs with
  | nil => intro x h; cases h
  | cons y l ih =>
    intro x h
    by_cases e : K y = k
    · rw [List.find?_cons_of_pos (by simp [e])] at h
      cases h
      refine ⟨[], l, rfl, ?_, ?_⟩
      · rw [List.map_cons, List.takeWhile_cons_of_neg (by simp [ent, e])]; rfl
      · rw [List.map_cons, List.dropWhile_cons_of_neg (by simp [ent, e])]
    · rw [List.find?_cons_of_neg (by simp [e])] at h
      obtain ⟨lo, hi, h1, h2, h3⟩ := ih h
      refine ⟨y :: lo, hi, by rw [h1]; rfl, ?_, ?_⟩
      · rw [List.map_cons, List.takeWhile_cons_of_pos (by simp [ent, e]), h2]; rfl
      · rw [List.map_cons, List.dropWhile_cons_of_pos (by simp [ent, e]), h3]

theorem dropWhile_absent {xs : List Nat} {K : Nat → Key} {V : Nat → α} {k : Key} (h : ∀ x ∈ xs, K x ≠ k) :
    (xs.map (ent K V)).dropWhile (fun e => decide (e.1 ≠ k)) = [] := by
  induction xs with
  | nil => rfl
  | cons x l ih =>
    rw [List.map_cons, List.dropWhile_cons_of_pos (by have := h x (by simp); simp [ent, this])]
    exact ih fun y hy => h y (by simp [hy])

theorem loc_set {w : W α} {xs : List Nat} {K : Nat → Key} {V : Nat → α} {i : Nat} {v : α} {lo hi : List (Key × α)} {e : Key × α}
    (h : Loc w i xs K V (.on lo (some e) hi)) (hi' : i ∈ xs) {w' : W α} (hp : w'.pos = w.pos) :
    Loc w' i xs K (upd V i v) (.on lo (some (e.1, v)) hi) := by
  obtain ⟨h0, h1, h2, h3⟩ := h
  rw [if_pos hi'] at h2
  cases h2
  refine ⟨by rw [hp]; exact h0, ?_, ?_, ?_⟩
  · rw [h1]
    apply List.map_congr_left
    intro x hx
    have : x ≠ i := by rintro rfl; simp at hx
    rw [ent, ent, upd_other _ _ this]
  · rw [if_pos hi']; simp [ent]
  · rw [h3]
    apply List.map_congr_left
    intro x hx
    have : x ≠ i := by rintro rfl; simp at hx
    rw [ent, ent, upd_other _ _ this]

theorem loc_unset {w : W α} {xs : List Nat} {K : Nat → Key} {V : Nat → α} {i : Nat} {lo hi : List (Key × α)} {here : Option (Key × α)}
    (h : Loc w i xs K V (.on lo here hi)) {w' : W α} (hp : w'.pos = w.pos) :
    Loc w' i (xs.filter fun y => decide (y ≠ i)) K V (.on lo none hi) := by
  obtain ⟨h0, h1, h2, h3⟩ := h
  have hc : ∀ q : Nat → Bool, q i = false → (xs.filter fun y => decide (y ≠ i)).filter q = xs.filter q := by
    intro q hq
    rw [List.filter_filter]
    apply List.filter_congr
    intro x _
    by_cases e : x = i
    · rw [e, hq]; simp
    · simp [e]
  refine ⟨by rw [hp]; exact h0, ?_, ?_, ?_⟩
  · rw [hc _ (by simp)]; exact h1
  · rw [if_neg (by simp)]
  · rw [hc _ (by simp)]; exact h3

theorem lookup_none {xs : List Nat} {K : Nat → Key} {V : Nat → α} {k : Key} (h : xs.find? (fun x => decide (K x = k)) = none) :
    lookup (xs.map (ent K V)) k = none := by rw [lookup_map, h]; rfl

theorem lookup_some {xs : List Nat} {K : Nat → Key} {V : Nat → α} {k : Key} {x : Nat}
    (h : xs.find? (fun x => decide (K x = k)) = some x) : lookup (xs.map (ent K V)) k = some (V x) := by rw [lookup_map, h]; rfl

theorem room_of {w : W α} {xs : List Nat} {K : Nat → Key} {V : Nat → α} {k : Key} (t : Inv hf w xs K V)
    (hf' : find hf w k ≠ .ok none ∨ Room w) (h : xs.find? (fun x => decide (K x = k)) = none) :
    (w.pos < w.cap ∨ w.used = w.pos) ∧ xs.length < limit := by
  rcases hf' with h1 | h1
  · rw [find_ok t.toT, h] at h1
    exact absurd rfl h1
  · exact ⟨h1.2, by rw [← t.used]; exact h1.1⟩

theorem set_old {w : W α} {xs : List Nat} {K : Nat → Key} {V : Nat → α} {k : Key} {x : Nat} (dflt : α) (t : Inv hf w xs K V)
    (h : xs.find? (fun x => decide (K x = k)) = some x) : set hf dflt w k = .ok (x, w) := by
  unfold set
  rw [find_ok t.toT, ok_bind, h]

/-- One action. -/
theorem cstep_refines {dflt : α} {c : C α} {d : Cur α} {a : CAct α} (h : CRel hf c d) (hfn : Fine hf c.w a) :
    ∃ c', cstep hf dflt c a = .ok ((d.step dflt a).1, c') ∧ CRel hf c' (d.step dflt a).2 := by
  obtain ⟨w, i⟩ := c
  obtain ⟨xs, K, V, t, h⟩ := h
  have hall := h.all t
  cases a with
  | start => exact ⟨_, rfl, xs, K, V, t, rfl, hall⟩
  | next =>
    obtain ⟨r, j, e, g1, g2, g3, g4⟩ := next_ok t h
    refine ⟨⟨w, j⟩, ?_, xs, K, V, t, g4⟩
    simp only [cstep]
    rw [g1, ok_bind, g2, ok_bind, g3]
    rfl
  | prev =>
    obtain ⟨r, j, e, g1, g2, g3, g4⟩ := prev_ok t h
    refine ⟨⟨w, j⟩, ?_, xs, K, V, t, g4⟩
    simp only [cstep]
    rw [g1, ok_bind, g2, ok_bind, g3]
    rfl
  | get =>
    refine ⟨⟨w, i⟩, ?_, xs, K, V, t, h⟩
    simp only [cstep]
    rcases get_at t h with ⟨g1, g2⟩ | ⟨g1, g2, lo, hi, rfl⟩
    · rw [g2, ok_bind]
      simp [entryOf, Cur.step, g1]
    · rw [g2, ok_bind, entryOf_ok t g1]
      rfl
  | unsetHere =>
    simp only [cstep]
    rcases get_at t h with ⟨g1, g2⟩ | ⟨g1, g2, lo, hi, rfl⟩
    · rw [g2, ok_bind]
      refine ⟨⟨w, i⟩, ?_, xs, K, V, t, ?_⟩
      · simp [unset, Cur.step, g1]
      · cases d with
        | off s => exact h
        | fin s => exact h
        | on lo here hi => cases g1; exact h
    · rw [g2, ok_bind]
      obtain ⟨w', f1, f2, f3⟩ := unset_at t g1
      rw [f1, ok_bind]
      exact ⟨⟨w', i⟩, rfl, _, K, V, f2, loc_unset h f3⟩
  | setHere v =>
    simp only [cstep]
    rcases get_at t h with ⟨g1, g2⟩ | ⟨g1, g2, lo, hi, rfl⟩
    · rw [g2, ok_bind]
      refine ⟨⟨w, i⟩, ?_, xs, K, V, t, ?_⟩
      · simp [Cur.step, g1]
      · cases d with
        | off s => exact h
        | fin s => exact h
        | on lo here hi => cases g1; exact h
    · rw [g2, ok_bind]
      dsimp only
      rw [getVal_ok t.toT g1, ok_bind]
      exact ⟨_, rfl, xs, K, _, inv_val t i v, loc_set h g1 rfl⟩
  | seek k =>
    simp only [cstep]
    rw [find_ok t.toT, ok_bind]
    rcases find_cases (xs := xs) (K := K) k with ⟨h1, h2⟩ | ⟨x, h1, h2, h3⟩
    · have hs : d.seek k = .off (xs.map (ent K V)) := by
        unfold Cur.seek
        rw [hall, dropWhile_absent h2]
      rw [h1]
      refine ⟨⟨w, nil32⟩, ?_, xs, K, V, t, ?_⟩
      · simp only [Cur.step, hs, Cur.get]; rfl
      · show Loc w nil32 xs K V (d.seek k)
        rw [hs]; exact ⟨rfl, rfl⟩
    · obtain ⟨lo, hi, g1, g2, g3⟩ := find_dropWhile (V := V) h1
      have hs : d.seek k = .on (lo.map (ent K V)) (some (ent K V x)) (hi.map (ent K V)) := by
        unfold Cur.seek
        rw [hall, g3, g2]
      rw [h1, entryOf_ok t h2, ok_bind]
      refine ⟨⟨w, x⟩, ?_, xs, K, V, t, ?_⟩
      · simp only [Cur.step, hs, Cur.get]
      · show Loc w x xs K V (d.seek k)
        rw [hs]; exact Loc.node t h2 g1
  | call op =>
    cases op with
    | set k v =>
      rcases find_cases (xs := xs) (K := K) k with ⟨h1, h2⟩ | ⟨x, h1, h2, h3⟩
      · obtain ⟨r1, r2⟩ := room_of t hfn h1
        obtain ⟨w', K', V', f1, f2, f3, f4, f5⟩ := set_new t dflt k h1 r1 r2
        have hs : d.call dflt (.set k v) = d.add (k, v) := by
          simp only [Cur.call]
          rw [hall, lookup_none h1]; rfl
        have hx : w.pos ∈ xs ++ [w.pos] := by simp
        have hn : ∀ x ∈ xs, x ≠ w.pos := by
          intro x hx e
          rw [t.xs_eq, e] at hx
          simp at hx
        refine ⟨⟨{ w' with val := upd w'.val w.pos (some v) }, i⟩, ?_, _, K', upd V' w.pos v, inv_val f2 _ _, ?_⟩
        · simp only [cstep, step, setV]
          rw [f1, ok_bind, getVal_ok f2.toT hx]
          rfl
        · show Loc _ i _ _ _ (d.call dflt (.set k v))
          rw [hs]
          refine Loc.add t h f3 (fun x hx => ?_) ?_
          · rw [← f4 x hx, ent, ent, upd_other _ _ (hn x hx)]
          · have : K' w.pos = k := congrArg Prod.fst f5
            simp [ent, this]
      · have hs : d.call dflt (.set k v) = d.map fun e => if e.1 = k then (k, v) else e := by
          simp only [Cur.call]
          rw [hall, lookup_some h1]; rfl
        refine ⟨⟨{ w with val := upd w.val x (some v) }, i⟩, ?_, xs, K, _, inv_val t x v, ?_⟩
        · simp only [cstep, step, setV]
          rw [set_old dflt t h1, ok_bind, getVal_ok t.toT h2]
          rfl
        · show Loc _ i _ _ _ (d.call dflt (.set k v))
          rw [hs]
          refine Loc.map h rfl (fun y hy => ?_)
          by_cases e : y = x
          · subst e; simp [ent, h3]
          · have : K y ≠ k := fun hk => e (t.uniq y hy x h2 (hk.trans h3.symm))
            rw [ent, upd_other _ _ e]
            simp [ent, this]
    | touch k =>
      rcases find_cases (xs := xs) (K := K) k with ⟨h1, h2⟩ | ⟨x, h1, h2, h3⟩
      · obtain ⟨r1, r2⟩ := room_of t hfn h1
        obtain ⟨w', K', V', f1, f2, f3, f4, f5⟩ := set_new t dflt k h1 r1 r2
        have hx : w.pos ∈ xs ++ [w.pos] := by simp
        refine ⟨⟨w', i⟩, ?_, _, K', V', f2, ?_⟩
        · have : V' w.pos = dflt := congrArg Prod.snd f5
          simp only [cstep, step]
          rw [f1, ok_bind, getVal_ok f2.toT hx, this]
          simp only [Cur.step, ret, hall, lookup_none h1]
          rfl
        · show Loc _ i _ _ _ (d.call dflt (.touch k))
          simp only [Cur.call]
          rw [hall, lookup_none h1]
          exact Loc.add t h f3 f4 f5
      · refine ⟨⟨w, i⟩, ?_, xs, K, V, t, ?_⟩
        · simp only [cstep, step]
          rw [set_old dflt t h1, ok_bind, getVal_ok t.toT h2]
          simp only [Cur.step, ret, hall, lookup_some h1]
          rfl
        · show Loc _ i _ _ _ (d.call dflt (.touch k))
          simp only [Cur.call]
          rw [hall, lookup_some h1]
          exact h
    | unset k =>
      rcases find_cases (xs := xs) (K := K) k with ⟨h1, h2⟩ | ⟨x, h1, h2, h3⟩
      · refine ⟨⟨w, i⟩, ?_, _, K, V, ?_, Loc.filter (p := fun e => decide (e.1 ≠ k)) h rfl⟩
        · simp only [cstep, step, unsetKey]
          rw [find_ok t.toT, h1]
          simp only [Cur.step, ret, hall, lookup_none h1]
          rfl
        · rw [List.filter_eq_self.2]
          · exact t
          · intro y hy
            exact decide_eq_true (h2 y hy)
      · obtain ⟨w', f1, f2, f3⟩ := unset_at t h2
        refine ⟨⟨w', i⟩, ?_, _, K, V, ?_, Loc.filter (p := fun e => decide (e.1 ≠ k)) h f3⟩
        · simp only [cstep, step, unsetKey]
          rw [find_ok t.toT, h1, ok_bind, f1]
          simp only [Cur.step, ret, hall, lookup_some h1]
          rfl
        · have : (xs.filter fun y => decide (y ≠ x)) = xs.filter fun y => decide ((ent K V y).1 ≠ k) := by
            apply List.filter_congr
            intro y hy
            show decide (y ≠ x) = decide (K y ≠ k)
            rw [decide_eq_decide]
            constructor
            · intro h h'; exact h (t.uniq y hy x h2 (h'.trans h3.symm))
            · rintro h rfl; exact h h3
          rw [← this]
          exact f2
    | find k =>
      refine ⟨⟨w, i⟩, ?_, xs, K, V, t, h⟩
      simp only [cstep, step, Cur.step, ret, hall]
      rw [find_ok t.toT, ok_bind]
      rcases find_cases (xs := xs) (K := K) k with ⟨h1, h2⟩ | ⟨x, h1, h2, h3⟩
      · rw [h1, lookup_none h1]; rfl
      · rw [h1, lookup_some h1]
        dsimp only
        rw [getVal_ok t.toT h2]
        rfl
    | resize n =>
      obtain ⟨b, w', K', V', g1, g2, g3, g4⟩ := resize_at t hfn.2 hfn.1
      refine ⟨⟨w', i⟩, ?_, xs, K', V', g2, h.same g3 g4⟩
      simp only [cstep, step]
      rw [g1]
      rfl
    | optimize =>
      refine ⟨⟨w, i⟩, ?_, xs, K, V, t, h⟩
      simp only [cstep, step]
      rw [optimize_at hfn]
      rfl
    | autoResize =>
      obtain ⟨b, w', K', V', g1, g2, g3, g4, -⟩ := autoResize_at t hfn.2 (by rw [← t.used]; exact hfn.1)
      refine ⟨⟨w', i⟩, ?_, xs, K', V', g2, h.same g3 g4⟩
      simp only [cstep, step]
      rw [g1]
      rfl
    | size =>
      refine ⟨⟨w, i⟩, ?_, xs, K, V, t, h⟩
      have : w.used = xs.length := t.used
      simp only [cstep, step, Cur.step, ret, hall, this, List.length_map]
      rfl

theorem crun_refines {dflt : α} : ∀ {as : List (CAct α)} {c : C α} {d : Cur α}, CRel hf c d → Calm hf dflt c as →
    ∃ c', crun hf dflt c as = .ok ((d.run dflt as).1, c') ∧ CRel hf c' (d.run dflt as).2
  | [], c, d, h, _ => ⟨c, rfl, h⟩
  | a :: as, c, d, h, hc => by
    obtain ⟨c1, g1, g2⟩ := cstep_refines (dflt := dflt) h hc.1
    have hc2 := hc.2
    rw [g1] at hc2
    obtain ⟨c2, f1, f2⟩ := crun_refines g2 hc2
    refine ⟨c2, ?_, f2⟩
    simp only [crun]
    rw [g1, ok_bind, f1]
    rfl

/-- C125.  After any history within the limits, a caller that starts with `Pos = GetNextPos()` may move it forward and
backward, search with it, read, change and unset the entry it is on, and make any other calls that are fine for positions:
everything they get back is what a cursor in the list of entries gives, and the hash holds that list. -/
theorem cursor_refines (hf : List UInt8 → UInt64) (dflt : α) (n : Nat) (hn : n ≤ 2 ^ 30) (ops : List (Op α)) (rs : List (Ret α))
    (s : List (Key × α)) (h : Spec.run dflt [] ops = some (rs, s)) :
    ∃ w0 w, construct hf n = .ok w0 ∧ run hf dflt w0 ops = .ok (rs, w) ∧ ∀ as, Calm hf dflt ⟨w, w.pos⟩ as →
      ∃ c, crun hf dflt ⟨w, w.pos⟩ as = .ok ((Cur.run dflt (.fin s) as).1, c) ∧
        forward c.w = .ok (Cur.run dflt (.fin s) as).2.all := by
  obtain ⟨w0, h1, h2⟩ := construct_rel (hf := hf) dflt hn
  obtain ⟨w, h3, xs, K, V, t, rfl⟩ := run_refines h2 h
  refine ⟨w0, w, h1, h3, fun as ha => ?_⟩
  obtain ⟨c, g1, xs', K', V', g2, g3⟩ := crun_refines (hf := hf) (dflt := dflt) (c := ⟨w, w.pos⟩) (d := .fin (xs.map (ent K V)))
    ⟨xs, K, V, t, rfl, rfl⟩ ha
  exact ⟨c, g1, forward_ok ⟨xs', K', V', g2, g3.all g2⟩⟩

/-! ## Going through the hash while it changes -/

theorem has_iff {c : Cur α} {k : Key} : c.has k = true ↔ (lookup c.all k).isSome := by
  unfold Cur.has lookup
  rw [Option.isSome_map, List.find?_isSome, List.any_eq_true]

theorem keys_map {l : List (Key × α)} {f : Key × α → Key × α} (hf : ∀ e, (f e).1 = e.1) : (l.map f).map Prod.fst = l.map Prod.fst := by
  rw [List.map_map]
  exact List.map_congr_left fun e _ => hf e

theorem put_key (k : Key) (v : α) (e : Key × α) : (if e.1 = k then (k, v) else e).1 = e.1 := by
  split
  · rename_i h; exact h.symm
  · rfl

theorem all_filter (c : Cur α) (p : Key × α → Bool) : (c.filter p).all = c.all.filter p := by
  cases c with
  | off s => rfl
  | fin s => rfl
  | on lo here hi =>
    cases here with
    | none => simp [Cur.filter, Cur.all]
    | some e => cases h : p e <;> simp [Cur.filter, Cur.all, Option.filter, h]

/-- Keep the keys that are there before and after: adding or unsetting others does not show. -/
theorem keys_filter {l : List (Key × α)} {k : Key} {q : Key → Bool} (h : q k = false) :
    ((l.filter fun e => decide (e.1 ≠ k)).map Prod.fst).filter q = (l.map Prod.fst).filter q := by
  rw [List.filter_map, List.filter_map, List.filter_filter]
  congr 1
  apply List.filter_congr
  intro e _
  simp only [Function.comp_apply]
  by_cases he : e.1 = k
  · rw [he, h]; simp
  · simp [he]

/-- What does not move the position keeps the order on both sides. -/
theorem inner {dflt : α} {a : CAct α} (h1 : a ≠ .start) (h2 : a ≠ .next) (h3 : a ≠ .prev) (h4 : ∀ k, a ≠ .seek k)
    (lo hi : List (Key × α)) (here : Option (Key × α)) : ∃ lo' here' hi', ((Cur.on lo here hi).step dflt a).2 = .on lo' here' hi' ∧
      ∀ q : Key → Bool, (∀ k, q k = true → (Cur.on lo here hi).has k = true ∧ (Cur.on lo' here' hi').has k = true) →
        (lo'.map Prod.fst).filter q = (lo.map Prod.fst).filter q ∧ (hi'.map Prod.fst).filter q = (hi.map Prod.fst).filter q := by
  have hadd : ∀ e : Key × α, lookup (Cur.on lo here hi).all e.1 = none → ∀ q : Key → Bool,
      (∀ k, q k = true → (Cur.on lo here hi).has k = true ∧ ((Cur.on lo here hi).add e).has k = true) →
        (lo.map Prod.fst).filter q = (lo.map Prod.fst).filter q ∧ ((hi ++ [e]).map Prod.fst).filter q = (hi.map Prod.fst).filter q := by
    intro e he q hq
    refine ⟨rfl, ?_⟩
    have : q e.1 = false := by
      cases hqe : q e.1 with
      | false => rfl
      | true =>
        have := (hq _ hqe).1
        rw [has_iff, he] at this
        cases this
    simp [List.filter_append, this]
  cases a with
  | start => exact absurd rfl h1
  | next => exact absurd rfl h2
  | prev => exact absurd rfl h3
  | seek k => exact absurd rfl (h4 k)
  | get => exact ⟨lo, here, hi, rfl, fun _ _ => ⟨rfl, rfl⟩⟩
  | unsetHere => exact ⟨lo, none, hi, rfl, fun _ _ => ⟨rfl, rfl⟩⟩
  | setHere v => exact ⟨lo, _, hi, rfl, fun _ _ => ⟨rfl, rfl⟩⟩
  | call op =>
    show ∃ lo' here' hi', (Cur.on lo here hi).call dflt op = _ ∧ _
    cases op with
    | set k v =>
      cases hk : lookup (Cur.on lo here hi).all k with
      | none =>
        refine ⟨lo, here, hi ++ [(k, v)], by simp [Cur.call, hk, Cur.add], hadd (k, v) hk⟩
      | some x =>
        refine ⟨_, _, _, by simp only [Cur.call, hk]; rfl, fun q _ => ⟨?_, ?_⟩⟩
        · rw [keys_map (put_key k v)]
        · rw [keys_map (put_key k v)]
    | touch k =>
      cases hk : lookup (Cur.on lo here hi).all k with
      | none => exact ⟨lo, here, hi ++ [(k, dflt)], by simp [Cur.call, hk, Cur.add], hadd (k, dflt) hk⟩
      | some x => exact ⟨lo, here, hi, by simp [Cur.call, hk], fun _ _ => ⟨rfl, rfl⟩⟩
    | unset k =>
      refine ⟨_, _, _, rfl, fun q hq => ?_⟩
      have : q k = false := by
        cases hqk : q k with
        | false => rfl
        | true =>
          have h := (hq _ hqk).2
          have h' : ((Cur.on lo here hi).filter fun e => decide (e.1 ≠ k)).has k = true := h
          rw [has_iff, all_filter, lookup_unset, if_pos rfl] at h'
          cases h'
      exact ⟨keys_filter this, keys_filter this⟩
    | find k => exact ⟨lo, here, hi, rfl, fun _ _ => ⟨rfl, rfl⟩⟩
    | resize n => exact ⟨lo, here, hi, rfl, fun _ _ => ⟨rfl, rfl⟩⟩
    | optimize => exact ⟨lo, here, hi, rfl, fun _ _ => ⟨rfl, rfl⟩⟩
    | autoResize => exact ⟨lo, here, hi, rfl, fun _ _ => ⟨rfl, rfl⟩⟩
    | size => exact ⟨lo, here, hi, rfl, fun _ _ => ⟨rfl, rfl⟩⟩

theorem stays_head {dflt : α} {k : Key} {c : Cur α} : ∀ {as : List (CAct α)}, c.stays dflt k as = true → c.has k = true
  | [], h => h
  | a :: as, h => by
    simp only [Cur.stays, Bool.and_eq_true] at h
    exact h.1

theorem seen_inner {a : CAct α} (h2 : a ≠ .next) (h3 : a ≠ .prev) (back : Bool) (as : List (CAct α)) (r : CRet α) (rs : List (CRet α)) :
    seen back (a :: as) (r :: rs) = seen back as rs := by
  cases back <;> cases a <;> simp_all [seen]

theorem through_inner {a : CAct α} {back : Bool} {as : List (CAct α)} {r : CRet α} {rs : List (CRet α)} (h2 : a ≠ .next) (h3 : a ≠ .prev)
    (h : through back (a :: as) (r :: rs) = true) : a ≠ .start ∧ (∀ k, a ≠ .seek k) ∧ through back as rs = true := by
  cases a <;> simp_all [through]

theorem seen_on {dflt : α} (back : Bool) : ∀ (as : List (CAct α)) (lo hi : List (Key × α)) (here : Option (Key × α)) (q : Key → Bool),
    through back as ((Cur.on lo here hi).run dflt as).1 = true → (∀ k, q k = true → (Cur.on lo here hi).stays dflt k as = true) →
    (seen back as ((Cur.on lo here hi).run dflt as).1).filter q =
      (if back then (lo.map Prod.fst).reverse else hi.map Prod.fst).filter q
  | [], lo, hi, here, q, ht, _ => by cases ht
  | a :: as, lo, hi, here, q, ht, hq => by
    have hq1 : ∀ k, q k = true → (Cur.on lo here hi).has k = true := fun k hk => stays_head (hq k hk)
    have hq2 : ∀ k, q k = true → ((Cur.on lo here hi).step dflt a).2.stays dflt k as = true := fun k hk => by
      have := hq k hk
      simp only [Cur.stays, Bool.and_eq_true] at this
      exact this.2
    simp only [Cur.run] at ht ⊢
    by_cases e2 : a = .next
    · subst e2
      cases hi with
      | nil =>
        have ht : (!back && as.isEmpty) = true := ht
        simp only [Bool.and_eq_true, Bool.not_eq_true', List.isEmpty_iff] at ht
        obtain ⟨rfl, rfl⟩ := ht
        rfl
      | cons e hi =>
        have ht : (!back && through back as ((Cur.on (lo ++ here.toList) (some e) hi).run dflt as).1) = true := ht
        simp only [Bool.and_eq_true, Bool.not_eq_true'] at ht
        obtain ⟨rfl, ht⟩ := ht
        have ih := seen_on false as _ hi (some e) q ht hq2
        show (e.1 :: seen false as ((Cur.on (lo ++ here.toList) (some e) hi).run dflt as).1).filter q = _
        simp only [List.filter_cons]
        rw [ih]
        simp [List.filter_cons]
    · by_cases e3 : a = .prev
      · subst e3
        cases hl : lo.getLast? with
        | none =>
          have h0 : (Cur.on lo here hi).step dflt .prev = (.node none, .fin (here.toList ++ hi)) := by
            simp only [Cur.step, Cur.prev, last, hl]; rfl
          rw [h0] at ht ⊢
          have ht : (back && as.isEmpty) = true := ht
          simp only [Bool.and_eq_true, List.isEmpty_iff] at ht
          obtain ⟨rfl, rfl⟩ := ht
          rw [List.getLast?_eq_none_iff.1 hl]
          rfl
        | some e =>
          have h0 : (Cur.on lo here hi).step dflt .prev = (.node (some e), .on lo.dropLast (some e) (here.toList ++ hi)) := by
            simp only [Cur.step, Cur.prev, last, hl]; rfl
          rw [h0] at ht hq2 ⊢
          have ht : (back && through back as ((Cur.on lo.dropLast (some e) (here.toList ++ hi)).run dflt as).1) = true := ht
          simp only [Bool.and_eq_true] at ht
          obtain ⟨rfl, ht⟩ := ht
          have ih := seen_on true as lo.dropLast (here.toList ++ hi) (some e) q ht hq2
          show (e.1 :: seen true as ((Cur.on lo.dropLast (some e) (here.toList ++ hi)).run dflt as).1).filter q = _
          simp only [List.filter_cons]
          rw [ih]
          have hlo : lo = lo.dropLast ++ [e] := by
            have hne : lo ≠ [] := by rintro rfl; cases hl
            rw [List.getLast?_eq_getLast_of_ne_nil hne] at hl
            cases hl
            exact (List.dropLast_append_getLast hne).symm
          conv => rhs; rw [hlo]
          simp [List.filter_cons]
      · obtain ⟨h1, h4, h5⟩ := through_inner e2 e3 ht
        obtain ⟨lo', here', hi', g1, g2⟩ := inner (dflt := dflt) h1 e2 e3 h4 lo hi here
        rw [seen_inner e2 e3]
        rw [g1] at h5 hq2 ⊢
        rw [seen_on back as lo' hi' here' q h5 hq2]
        obtain ⟨g3, g4⟩ := g2 q fun k hk => ⟨hq1 k hk, stays_head (hq2 k hk)⟩
        cases back with
        | false => exact g4
        | true =>
          simp only [if_true]
          rw [List.filter_reverse, List.filter_reverse, g3]

/-- C125.  Going once through the hash with `Next` (or with `Prev`), until it returns NULL, visits every key that is there
all the time exactly once, in the order of the hash (in reverse), whatever other keys are added and unset on the way. -/
theorem visits_all (hf : List UInt8 → UInt64) (dflt : α) (n : Nat) (hn : n ≤ 2 ^ 30) (ops : List (Op α)) (rs : List (Ret α))
    (s : List (Key × α)) (h : Spec.run dflt [] ops = some (rs, s)) :
    ∃ w0 w, construct hf n = .ok w0 ∧ run hf dflt w0 ops = .ok (rs, w) ∧ ∀ (back : Bool) (as : List (CAct α)),
      Calm hf dflt ⟨w, w.pos⟩ ((if back then .prev else .next) :: as) →
      ∃ out c, crun hf dflt ⟨w, w.pos⟩ ((if back then .prev else .next) :: as) = .ok (out, c) ∧
        (through back ((if back then .prev else .next) :: as) out = true →
          (seen back ((if back then .prev else .next) :: as) out).filter
              (fun k => (Cur.fin s).stays dflt k ((if back then .prev else .next) :: as)) =
            (if back then (s.map Prod.fst).reverse else s.map Prod.fst).filter
              (fun k => (Cur.fin s).stays dflt k ((if back then .prev else .next) :: as))) := by
  obtain ⟨w0, w, h1, h2, h3⟩ := cursor_refines hf dflt n hn ops rs s h
  refine ⟨w0, w, h1, h2, fun back as ha => ?_⟩
  obtain ⟨c, g1, -⟩ := h3 _ ha
  refine ⟨_, c, g1, fun ht => ?_⟩
  cases back with
  | false =>
    have := seen_on (dflt := dflt) false (.next :: as) [] s none (fun k => (Cur.fin s).stays dflt k (.next :: as))
    cases s with
    | nil => exact this ht (fun k hk => hk)
    | cons e t => exact this ht (fun k hk => hk)
  | true =>
    have := seen_on (dflt := dflt) true (.prev :: as) s [] none (fun k => (Cur.fin s).stays dflt k (.prev :: as))
    have e : (Cur.on s none []).step dflt .prev = (Cur.fin s).step dflt .prev := rfl
    simp only [Cur.run, Cur.stays, e] at this ht ⊢
    have ea : (Cur.on s none []).has = (Cur.fin s).has := by
      funext k; simp [Cur.has, Cur.all]
    rw [ea] at this
    exact this ht (fun k hk => hk)

/-- Four keys in a table of four places. -/
def four : List (Op Nat) := [.set (.int 1) 10, .set (.int 2) 20, .set (.int 3) 30, .set (.int 4) 40]

example : Spec.run 0 [] four = some ([.void, .void, .void, .void], [(.int 1, 10), (.int 2, 20), (.int 3, 30), (.int 4, 40)]) := by decide

/-- On the way a key is added (the table grows), a later one is unset, an earlier one gets a value, and the one at the
position is unset. -/
def tour : List (CAct Nat) := [.next, .call (.set (.int 5) 50), .next, .call (.unset (.int 3)), .setHere 21, .next, .unsetHere,
  .call (.set (.int 1) 11), .get, .next, .next]

example : ((construct (fun _ => 0) 4).bind fun w0 => (run (fun _ => 0) 0 w0 four).bind fun p =>
      .ok (decide (Calm (fun _ => 0) 0 ⟨p.2, p.2.pos⟩ tour))) = .ok true ∧
    through false tour ((Cur.fin [(.int 1, 10), (.int 2, 20), (.int 3, 30), (.int 4, 40)]).run 0 tour).1 = true ∧
    seen false tour ((Cur.fin [(.int 1, 10), (.int 2, 20), (.int 3, 30), (.int 4, 40)]).run 0 tour).1 = [.int 1, .int 2, .int 4, .int 5] ∧
    (Cur.fin [(.int 1, 10), (.int 2, 20), (.int 3, 30), (.int 4, 40)]).stays 0 (.int 2) tour = true := by decide

/-- C125, the limit.  Adding a key when the array is full and has empty places packs it: the position is then further along,
and the iteration misses a key that was there all the time. -/
theorem iteration_skips : ∃ (as : List (CAct Nat)) (w0 w : W Nat) (out : List (CRet Nat)) (c : C Nat),
    construct (fun _ => 0) 4 = .ok w0 ∧ run (fun _ => 0) 0 w0 four = .ok ([.void, .void, .void, .void], w) ∧
      crun (fun _ => 0) 0 ⟨w, w.pos⟩ (.next :: as) = .ok (out, c) ∧ through false (.next :: as) out = true ∧
      (Cur.fin [(.int 1, 10), (.int 2, 20), (.int 3, 30), (.int 4, 40)]).stays 0 (.int 3) (.next :: as) = true ∧
      seen false (.next :: as) out = [.int 1, .int 2, .int 4, .int 5] ∧
      forward c.w = .ok [(.int 2, 20), (.int 3, 30), (.int 4, 40), (.int 5, 50)] := by
  have h : ∃ w0 w out c, construct (fun _ => 0) 4 = .ok w0 ∧ run (fun _ => 0) 0 w0 four = .ok ([.void, .void, .void, .void], w) ∧
      crun (fun _ => 0) 0 ⟨w, w.pos⟩ [.next, .unsetHere, .next, .call (.set (.int 5) 50), .next, .next, .next] = .ok (out, c) ∧
      out = [.node (some (.int 1, 10)), .bool true, .node (some (.int 2, 20)), .ret .void, .node (some (.int 4, 40)),
        .node (some (.int 5, 50)), .node none] ∧
      forward c.w = .ok [(.int 2, 20), (.int 3, 30), (.int 4, 40), (.int 5, 50)] := ⟨_, _, _, _, rfl, rfl, rfl, by decide, by decide⟩
  obtain ⟨w0, w, out, c, h1, h2, h3, h4, h5⟩ := h
  refine ⟨_, w0, w, out, c, h1, h2, h3, ?_, by decide, ?_, h5⟩
  · rw [h4]; decide
  · rw [h4]; decide

/-! ## Unsetting what one does not want -/

/-- `while ((Node = Hash.Next(Pos)) != NULL)  if (...) Hash.Unset(Node)`, when the entries are `s`. -/
def prune (p : Key × α → Bool) (s : List (Key × α)) : List (CAct α) :=
  s.flatMap (fun e => if p e then [.next, .unsetHere] else [.next]) ++ [.next]

theorem prune_on (dflt : α) (p : Key × α → Bool) : ∀ (hi lo : List (Key × α)) (here : Option (Key × α)),
    ((Cur.on lo here hi).run dflt (prune p hi)).2 = .fin (lo ++ here.toList ++ hi.filter fun e => !p e) ∧
      seen false (prune p hi) ((Cur.on lo here hi).run dflt (prune p hi)).1 = hi.map Prod.fst
  | [], lo, here => by simp [prune, Cur.run, Cur.step, Cur.next, Cur.get, seen]
  | e :: hi, lo, here => by
    by_cases hp : p e = true
    · have h0 : prune p (e :: hi) = .next :: .unsetHere :: prune p hi := by simp [prune, hp]
      obtain ⟨h1, h2⟩ := prune_on dflt p hi (lo ++ here.toList) none
      rw [h0]
      simp only [Cur.run, Cur.step, Cur.next, Cur.get]
      constructor
      · rw [h1]; simp [hp]
      · rw [show (e :: hi).map Prod.fst = e.1 :: hi.map Prod.fst from rfl, ← h2]; rfl
    · have h0 : prune p (e :: hi) = .next :: prune p hi := by simp [prune, hp]
      obtain ⟨h1, h2⟩ := prune_on dflt p hi (lo ++ here.toList) (some e)
      rw [h0]
      simp only [Cur.run, Cur.step, Cur.next, Cur.get]
      constructor
      · rw [h1]; simp [hp]
      · rw [show (e :: hi).map Prod.fst = e.1 :: hi.map Prod.fst from rfl, ← h2]; rfl

theorem calm_free {dflt : α} : ∀ (as : List (CAct α)) (c : C α), (∀ a ∈ as, ∀ op, a ≠ .call op) → Calm hf dflt c as
  | [], _, _ => trivial
  | a :: as, c, h => by
    refine ⟨?_, ?_⟩
    · cases a <;> try trivial
      rename_i op
      exact absurd rfl (h (.call op) (by simp) op)
    · cases cstep hf dflt c a with
      | error e => trivial
      | ok p => exact calm_free as p.2 fun a ha => h a (by simp [ha])

/-- C125.  The loop that unsets some of the entries while it goes through the hash sees every entry and leaves exactly the
others, in their order. -/
theorem prune_loop (hf : List UInt8 → UInt64) (dflt : α) (n : Nat) (hn : n ≤ 2 ^ 30) (ops : List (Op α)) (rs : List (Ret α))
    (s : List (Key × α)) (h : Spec.run dflt [] ops = some (rs, s)) (p : Key × α → Bool) :
    ∃ w0 w out c, construct hf n = .ok w0 ∧ run hf dflt w0 ops = .ok (rs, w) ∧
      crun hf dflt ⟨w, w.pos⟩ (prune p s) = .ok (out, c) ∧ seen false (prune p s) out = s.map Prod.fst ∧
      forward c.w = .ok (s.filter fun e => !p e) := by
  obtain ⟨w0, w, h1, h2, h3⟩ := cursor_refines hf dflt n hn ops rs s h
  obtain ⟨c, g1, g2⟩ := h3 (prune p s) (calm_free _ _ (by
    intro a ha op
    unfold prune at ha
    rcases List.mem_append.1 ha with ha | ha
    · obtain ⟨e, -, he⟩ := List.mem_flatMap.1 ha
      split at he <;> (simp at he; rcases he with rfl | rfl <;> exact nofun)
    · rw [List.mem_singleton.1 ha]; exact nofun))
  have e : (Cur.fin s).run dflt (prune p s) = (Cur.on [] none s).run dflt (prune p s) := by
    cases s with
    | nil => rfl
    | cons e t => by_cases hp : p e = true <;> simp [prune, hp, Cur.run, Cur.step, Cur.next, first]
  rw [e] at g1 g2
  obtain ⟨f1, f2⟩ := prune_on dflt p s [] none
  rw [f1] at g2
  exact ⟨w0, w, _, c, h1, h2, g1, f2, g2⟩

example : prune (fun e => decide (e.2 < 25)) [(.int 1, 10), (.int 2, 20), (.int 3, 30)] =
      [CAct.next, .unsetHere, .next, .unsetHere, .next, .next] := rfl

end Verif.PackedHash
