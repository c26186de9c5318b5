import Verif.PackedHash.Life
import Verif.PackedHash.Props
import Mathlib.Data.List.Perm.Basic
import Mathlib.Data.List.Nodup
import Mathlib.Data.List.Induction

/-! # C120: what a `PackedOrderedHash` takes and gives back; C24: assignment -/

namespace Verif.PackedHash
open Verif.Links Spec
open Verif.OrderedHash (Key intBytes)
open Verif.DList (bind_some)

variable {α : Type} {hf : List UInt8 → UInt64}

/-! ## Statements -/

namespace Spec

/-- How often a sequence of numbers changes from one element to the next. -/
def changes : List Nat → Nat
  | a :: b :: l => (if a = b then 0 else 1) + changes (b :: l)
  | _ => 0

/-- How many of the keys are strings. -/
def strings (s : List (Key × α)) : Nat := (s.filter fun e => match e.1 with | .str _ => true | .int _ => false).length

end Spec

/-! ## Ledgers -/

/-- The live numbers are those of `xs`, each once. -/
def Led (live : List Bool) (xs : List Nat) : Prop := xs.Nodup ∧ ∀ b : Nat, live[b]? = some true ↔ b ∈ xs

theorem Led.perm {live : List Bool} {xs ys : List Nat} (h : Led live xs) (p : xs.Perm ys) : Led live ys :=
  ⟨p.nodup_iff.1 h.1, fun b => (h.2 b).trans p.mem_iff⟩

theorem Led.alloc {live : List Bool} {xs : List Nat} (h : Led live xs) : Led (live ++ [true]) (live.length :: xs) := by
  refine ⟨List.nodup_cons.2 ⟨fun hm => ?_, h.1⟩, fun b => ?_⟩
  · have := (h.2 _).2 hm
    rw [List.getElem?_eq_none (Nat.le_refl _)] at this
    cases this
  · rw [List.mem_cons, ← h.2 b]
    rcases Nat.lt_trichotomy b live.length with hb | hb | hb
    · rw [List.getElem?_append_left hb]
      constructor
      · exact Or.inr
      · rintro (e | e)
        · omega
        · exact e
    · subst hb; simp
    · rw [List.getElem?_append_right (by omega), List.getElem?_eq_none (by simp; omega), List.getElem?_eq_none (by omega)]
      simp; omega

theorem Led.free {live : List Bool} {xs : List Nat} {b : Nat} (h : Led live (b :: xs)) :
    endLife live b = .ok (live.set b false) ∧ Led (live.set b false) xs := by
  have hb := (h.2 b).2 (by simp)
  have hl : b < live.length := by
    rcases Nat.lt_or_ge b live.length with h' | h'
    · exact h'
    · rw [List.getElem?_eq_none h'] at hb; cases hb
  have hn := List.nodup_cons.1 h.1
  refine ⟨by simp [endLife, hb], hn.2, fun c => ?_⟩
  rw [List.getElem?_set]
  by_cases e : b = c
  · subst e
    simp [hl, hn.1]
  · rw [if_neg e, h.2 c, List.mem_cons]
    constructor
    · rintro (e' | e')
      · exact absurd e'.symm e
      · exact e'
    · exact Or.inr

theorem count_true (live : List Bool) :
    live.count true = ((List.range live.length).filter fun b => decide (live[b]? = some true)).length := by
  induction live using List.reverseRecOn with
  | nil => rfl
  | append_singleton l a ih =>
    rw [List.length_append, List.length_singleton, List.range_succ, List.filter_append, List.count_append, List.length_append, ih]
    congr 1
    · congr 1
      apply List.filter_congr
      intro b hb
      rw [List.getElem?_append_left (by simpa using hb)]
    · cases a <;> simp

theorem Led.count {live : List Bool} {xs : List Nat} (h : Led live xs) : live.count true = xs.length := by
  rw [count_true]
  apply List.Perm.length_eq
  rw [List.perm_ext_iff_of_nodup (List.nodup_range.filter _) h.1]
  intro b
  rw [List.mem_filter, ← h.2 b, List.mem_range, decide_eq_true_eq]
  constructor
  · exact And.right
  · intro hb
    refine ⟨?_, hb⟩
    rcases Nat.lt_or_ge b live.length with h' | h'
    · exact h'
    · rw [List.getElem?_eq_none h'] at hb; cases hb

/-! ## The invariant -/

/-- The blocks of the strings. -/
def blocks (es : List (Key × Cell α)) : List Nat := es.filterMap fun e => e.2.blk

/-- The value objects. -/
def objects (es : List (Key × Cell α)) : List Nat := es.map fun e => e.2.obj

/-- The entries as the caller knows them. -/
def strip (es : List (Key × Cell α)) : List (Key × α) := es.map fun e => (e.1, e.2.v)

/-- A string key has a block, an integer key has none. -/
def Keyed (e : Key × Cell α) : Prop :=
  match e.1 with
  | .int _ => e.2.blk = none
  | .str _ => ∃ b, e.2.blk = some b

structure LInv (hf : List UInt8 → UInt64) (o : L α) (es : List (Key × Cell α)) (lost : List Nat) : Prop where
  rel : Rel hf o.w es
  arr : ∃ a, o.arr = some a ∧ Led o.mem (a :: (blocks es ++ lost))
  objs : Led o.objs (objects es)
  keys : ∀ e ∈ es, Keyed e

theorem lookup_strip (es : List (Key × Cell α)) (k : Key) : lookup (strip es) k = (lookup es k).map Cell.v := by
  unfold lookup strip
  rw [List.find?_map, Option.map_map, Option.map_map]
  rfl

theorem strip_length (es : List (Key × Cell α)) : (strip es).length = es.length := by simp [strip]

theorem blocks_length {es : List (Key × Cell α)} (h : ∀ e ∈ es, Keyed e) : (blocks es).length = Spec.strings (strip es) := by
  unfold blocks Spec.strings strip
  induction es with
  | nil => rfl
  | cons e es ih =>
    have he := h e (by simp)
    have ih := ih (fun e' h' => h e' (by simp [h']))
    obtain ⟨k, v, ob, b⟩ := e
    cases k with
    | int i =>
      have he : b = none := he
      subst he
      simpa using ih
    | str bs =>
      obtain ⟨b', he⟩ := he
      have he : b = some b' := he
      subst he
      simpa using ih

/-! ## Resizing -/

theorem attach_cap {w w' : W α} {x h : Nat} (e : attach w x h = .ok w') : w'.cap = w.cap := by
  unfold attach at e
  cases h1 : rd w.tbl (hpos w.mask h) with
  | error u => rw [h1] at e; cases e
  | ok f =>
    rw [h1, ok_bind] at e
    split at e
    · unfold setNextLink at e
      split at e
      · simp only [ok_bind] at e
        cases h2 : wr w.tbl (hpos w.mask h) x with
        | error u => rw [h2] at e; cases e
        | ok t => rw [h2, ok_bind] at e; cases e; rfl
      · unfold setPv at e
        split at e
        · simp only [ok_bind] at e
          cases h2 : wr w.tbl (hpos w.mask h) x with
          | error u => rw [h2] at e; cases e
          | ok t => rw [h2, ok_bind] at e; cases e; rfl
        · cases e
    · cases e

theorem resLoop_cap {w : W α} : ∀ (k : Nat) {w2 w' : W α} {i x : Nat}, resLoop hf w k w2 i x = .ok w' → w'.cap = w2.cap
  | 0, w2, w', i, x, e => by cases e; rfl
  | k + 1, w2, w', i, x, e => by
    unfold resLoop at e
    cases h1 : get w w.pv i with
    | error u => rw [h1] at e; cases e
    | ok p =>
      rw [h1, ok_bind] at e
      split at e
      · exact resLoop_cap k e
      · cases h2 : resMove hf w w2 i x with
        | error u => rw [h2] at e; cases e
        | ok w3 =>
          rw [h2, ok_bind] at e
          rw [resLoop_cap k e]
          unfold resMove at h2
          cases h3 : nodeHash hf w i with
          | error u => rw [h3] at h2; cases h2
          | ok h =>
            rw [h3, ok_bind] at h2
            have := attach_cap h2
            exact this

/-- `InternalResizeHash` says true exactly if the capacity is another one. -/
theorem internalResize_cap {w w' : W α} {n : Nat} {b : Bool} (e : internalResize hf w n = .ok (b, w')) :
    b = true ↔ w.cap ≠ w'.cap := by
  unfold internalResize at e
  cases h1 : growTo 64 n w.used with
  | error u => rw [h1] at e; cases e
  | ok m =>
    rw [h1, ok_bind] at e
    split at e
    · cases e; simp
    · rename_i hne
      cases h2 : resLoop hf w w.pos (emptyTable m w.used) 0 0 with
      | error u => rw [h2] at e; cases e
      | ok w2 =>
        rw [h2, ok_bind] at e
        cases e
        have := resLoop_cap _ h2
        have h3 : w'.cap = m := this
        simp only [true_iff]
        intro h4
        exact hne (Or.inl (by omega))

/-- One call changes the lost blocks: none, or the old array if the capacity changed. -/
def Lost (o o' : L α) (lost lost' : List Nat) : Prop := lost'.length = (if o.w.cap = o'.w.cap then 0 else 1) + lost.length

theorem lInternal_ok {o : L α} {es : List (Key × Cell α)} {lost : List Nat} {n : Nat} (h : LInv hf o es lost) {b : Bool}
    {w' : W (Cell α)} (e : internalResize hf o.w n = .ok (b, w')) (hr : Rel hf w' es) :
    ∃ o' lost', lInternal hf o n = .ok (b, o') ∧ LInv hf o' es lost' ∧ Lost o o' lost lost' ∧ o'.w = w' := by
  have hc := internalResize_cap e
  obtain ⟨a, ha, hm⟩ := h.arr
  unfold lInternal
  rw [e, ok_bind]
  cases b with
  | true =>
    have hc := hc.1 rfl
    simp only [if_true]
    refine ⟨_, a :: lost, rfl, ⟨hr, ⟨_, rfl, hm.alloc.perm (List.Perm.cons _ ?_)⟩, h.objs, h.keys⟩, ?_, rfl⟩
    · exact List.perm_middle.symm
    · unfold Lost
      rw [if_neg hc, List.length_cons, Nat.add_comm]
  | false =>
    have hc : o.w.cap = w'.cap := by
      by_contra hne
      exact nomatch hc.2 hne
    simp only [Bool.false_eq_true, if_false]
    refine ⟨_, lost, rfl, ⟨hr, ⟨a, ha, hm⟩, h.objs, h.keys⟩, ?_, rfl⟩
    unfold Lost
    rw [if_pos hc, Nat.zero_add]

theorem lResize_ok {o : L α} {es : List (Key × Cell α)} {lost : List Nat} {m : Nat} (h : LInv hf o es lost) (hm : m ≤ 2 ^ 30) :
    ∃ b o' lost', lResize hf o m = .ok (b, o') ∧ LInv hf o' es lost' ∧ Lost o o' lost lost' := by
  obtain ⟨xs, K, V, t, he⟩ := h.rel
  obtain ⟨b, w', xs', K', V', g1, g2, g3⟩ := resize_ok t hm
  unfold resize at g1
  unfold lResize
  cases h1 : growTo 64 1 m with
  | error u => rw [h1] at g1; cases g1
  | ok n =>
    rw [h1, ok_bind] at g1
    rw [ok_bind]
    obtain ⟨o', lost', f1, f2, f3, -⟩ := lInternal_ok h g1 ⟨xs', K', V', g2, by rw [he, g3]⟩
    exact ⟨b, o', lost', f1, f2, f3⟩

theorem lOptimize_ok {o : L α} {es : List (Key × Cell α)} {lost : List Nat} (h : LInv hf o es lost) {w' : W (Cell α)}
    (e : optimize o.w = .ok w') (hr : Rel hf w' es) (hc : w'.cap = o.w.cap) :
    ∃ o', lOptimize o = .ok o' ∧ LInv hf o' es lost ∧ Lost o o' lost lost ∧ o'.w = w' := by
  unfold lOptimize
  rw [e]
  exact ⟨_, rfl, ⟨hr, h.arr, h.objs, h.keys⟩, by unfold Lost; simp [hc], rfl⟩

theorem lAuto_ok {o : L α} {es : List (Key × Cell α)} {lost : List Nat} (h : LInv hf o es lost) (hl : es.length < Spec.limit) :
    ∃ b o' lost', lAuto hf o = .ok (b, o') ∧ LInv hf o' es lost' ∧ Lost o o' lost lost' ∧ o'.w.pos < o'.w.cap := by
  obtain ⟨xs, K, V, t, he⟩ := h.rel
  obtain ⟨b, w', xs', K', V', g1, g2, g3, g4⟩ := autoResize_ok t (by simpa [he] using hl)
  have hr : Rel hf w' es := ⟨xs', K', V', g2, by rw [he, g3]⟩
  unfold autoResize at g1
  unfold lAuto
  split
  · rename_i e
    rw [if_pos e] at g1
    obtain ⟨w1, -, -, -, f1, -, -, -, f2⟩ := optimize_ok t
    rw [f1, ok_bind] at g1
    cases g1
    obtain ⟨o', k1, k2, k3, k4⟩ := lOptimize_ok h f1 hr f2
    rw [k1]
    exact ⟨_, o', lost, rfl, k2, k3, by rw [k4]; exact g4⟩
  · rename_i e
    rw [if_neg e] at g1
    split
    · rename_i e
      rw [if_pos e] at g1
      obtain ⟨o', lost', f1, f2, f3, f4⟩ := lInternal_ok h g1 hr
      exact ⟨b, o', lost', f1, f2, f3, by rw [f4]; exact g4⟩
    · rename_i e
      rw [if_neg e] at g1
      split
      · rename_i e
        rw [if_pos e] at g1
        obtain ⟨o', lost', f1, f2, f3, f4⟩ := lInternal_ok h g1 hr
        exact ⟨b, o', lost', f1, f2, f3, by rw [f4]; exact g4⟩
      · rename_i e
        rw [if_neg e] at g1
        cases g1
        exact ⟨_, o, lost, rfl, h, by unfold Lost; simp, g4⟩

theorem lConstruct_ok {n : Nat} (hn : n ≤ 2 ^ 30) (dflt : α) : ∃ o : L α, lConstruct hf n = .ok o ∧ LInv hf o [] [] := by
  obtain ⟨w, h1, h2⟩ := construct_rel (α := Cell α) (hf := hf) ⟨dflt, 0, none⟩ hn
  unfold construct at h1
  unfold lConstruct lResize
  unfold resize at h1
  cases hg : growTo 64 1 n with
  | error u => rw [hg] at h1; cases h1
  | ok m =>
    rw [hg, ok_bind] at h1
    rw [ok_bind]
    unfold lInternal
    dsimp only
    cases hi : internalResize hf { (emptyTable 0 0 : W (Cell α)) with mask := 0, c90 := 0, r40 := 0 } m with
    | error u => rw [hi] at h1; cases h1
    | ok p =>
      obtain ⟨b, w'⟩ := p
      rw [hi, ok_bind] at h1
      cases h1
      have hc := internalResize_cap hi
      have hb : b = true := by
        rw [hc]
        obtain ⟨xs, K, V, t, -⟩ := h2
        have := t.cap_le
        have h0 : (let __src := (emptyTable 0 0 : W (Cell α)); { __src with mask := 0, c90 := 0, r40 := 0 } : W (Cell α)).cap = 0 := rfl
        rw [h0]
        omega
      subst hb
      exact ⟨_, rfl, h2, ⟨0, rfl, (show Led [] [] by simp [Led]).alloc⟩, by simp [Led, objects], by simp⟩

/-! ## Setting and unsetting -/

theorem Rel.length_le {w : W α} {s : List (Key × α)} (h : Rel hf w s) : s.length ≤ w.cap := by
  obtain ⟨xs, K, V, t, rfl⟩ := h
  have := t.used_le
  have := t.pos_le
  have := t.used
  simp
  omega

theorem lRoom_ok {o : L α} {es : List (Key × Cell α)} {lost : List Nat} (h : LInv hf o es lost) (hl : es.length < Spec.limit) :
    ∃ o' lost', lRoom hf o = .ok o' ∧ LInv hf o' es lost' ∧ Lost o o' lost lost' ∧ o'.w.pos < o'.w.cap := by
  unfold lRoom
  split
  · obtain ⟨b, o', lost', g1, g2, g3, g4⟩ := lAuto_ok h hl
    rw [g1]
    exact ⟨o', lost', rfl, g2, g3, g4⟩
  · rename_i e
    obtain ⟨xs, K, V, t, he⟩ := h.rel
    have := t.pos_le
    exact ⟨o, lost, rfl, h, by unfold Lost; simp, by omega⟩

theorem append_cap {w w' : W α} {d : α} {k : Key} {x : Nat} (e : append hf d w k = .ok (x, w')) : w'.cap = w.cap := by
  unfold append at e
  cases h1 : attach { w with ik := upd w.ik w.pos (keyIk hf k), sk := upd w.sk w.pos (keySk k), val := upd w.val w.pos (some d) }
    w.pos (hashOf hf k).toNat with
  | error u => rw [h1] at e; cases e
  | ok w1 =>
    rw [h1, ok_bind] at e
    cases e
    have := attach_cap h1
    exact this

theorem lAppend_ok {o : L α} {es : List (Key × Cell α)} {lost : List Nat} (h : LInv hf o es lost) (hp : o.w.pos < o.w.cap) (d : α)
    {k : Key} (hk : lookup es k = none) :
    ∃ x o' c, lAppend hf d o k = .ok (x, o') ∧ LInv hf o' (es ++ [(k, c)]) lost ∧ c.v = d ∧ o'.w.cap = o.w.cap ∧
      getVal o'.w x = .ok c ∧ ∀ v, Rel hf { o'.w with val := upd o'.w.val x (some v) } (es ++ [(k, v)]) := by
  obtain ⟨xs, K, V, t, he⟩ := h.rel
  obtain ⟨a, ha, hm⟩ := h.arr
  have hkx : ∀ x ∈ xs, K x ≠ k := by
    rw [he, lookup_map] at hk
    rcases find_cases (xs := xs) (K := K) k with ⟨h1, h2⟩ | ⟨x, h1, -, -⟩
    · exact h2
    · rw [h1] at hk; cases hk
  have hx : o.w.pos ∉ xs := by rw [t.xs_eq]; simp
  have gen : ∀ c : Cell α, ∃ w', append hf c o.w k = .ok (o.w.pos, w') ∧ Rel hf w' (es ++ [(k, c)]) ∧ w'.cap = o.w.cap ∧
      getVal w' o.w.pos = .ok c ∧ ∀ v, Rel hf { w' with val := upd w'.val o.w.pos (some v) } (es ++ [(k, v)]) := by
    intro c
    obtain ⟨w', f1, f2⟩ := append_ok t hp c k hkx
    refine ⟨w', f1, ⟨_, _, _, f2, ?_⟩, append_cap f1, ?_, fun v => ⟨_, _, _, inv_val f2 o.w.pos v, ?_⟩⟩
    · rw [List.map_append, map_ent_upd hx, he]
      simp [ent]
    · rw [getVal_ok f2.toT (by simp)]
      simp
    · rw [List.map_append, he]
      congr 1
      · apply List.map_congr_left
        intro y hy
        have : y ≠ o.w.pos := ne_of_mem hy hx
        simp [ent, upd_other _ _ this]
      · simp [ent]
  cases k with
  | int i =>
    obtain ⟨w', f1, f2, f3, f4, f5⟩ := gen ⟨d, o.objs.length, none⟩
    refine ⟨_, { o with w := w', objs := o.objs ++ [true] }, _, by unfold lAppend; simp only [f1, ok_bind], ⟨f2, ⟨a, ha, ?_⟩, ?_, ?_⟩, rfl, f3, f4, f5⟩
    · simpa [blocks] using hm
    · refine h.objs.alloc.perm ?_
      simp only [objects, List.map_append, List.map_cons, List.map_nil]
      exact (List.perm_append_singleton _ _).symm
    · intro e h'
      rcases List.mem_append.1 h' with h' | h'
      · exact h.keys e h'
      · rw [List.mem_singleton] at h'
        subst h'
        rfl
  | str bs =>
    obtain ⟨w', f1, f2, f3, f4, f5⟩ := gen ⟨d, o.objs.length, some o.mem.length⟩
    refine ⟨_, { o with w := w', objs := o.objs ++ [true], mem := o.mem ++ [true] }, _, by unfold lAppend; simp only [f1, ok_bind],
      ⟨f2, ⟨a, ha, ?_⟩, ?_, ?_⟩, rfl, f3, f4, f5⟩
    · refine hm.alloc.perm ?_
      simp only [blocks, List.filterMap_append, List.filterMap_cons, List.filterMap_nil, List.append_assoc, List.singleton_append]
      exact (List.Perm.swap _ _ _).trans (List.Perm.cons _ List.perm_middle.symm)
    · refine h.objs.alloc.perm ?_
      simp only [objects, List.map_append, List.map_cons, List.map_nil]
      exact (List.perm_append_singleton _ _).symm
    · intro e h'
      rcases List.mem_append.1 h' with h' | h'
      · exact h.keys e h'
      · rw [List.mem_singleton] at h'
        subst h'
        exact ⟨_, rfl⟩

theorem lVal_ok {o : L α} {es : List (Key × Cell α)} {lost : List Nat} (h : LInv hf o es lost) {x : Nat} {c : Cell α} {k : Key}
    (hv : getVal o.w x = .ok c) (hm : (k, c) ∈ es) : lVal o x = .ok c := by
  unfold lVal
  rw [hv, ok_bind, if_pos]
  exact (h.objs.2 _).2 (List.mem_map_of_mem (f := fun e : Key × Cell α => e.2.obj) hm)

theorem lookup_mem {s : List (Key × α)} {k : Key} {v : α} (h : lookup s k = some v) : (k, v) ∈ s := by
  unfold lookup at h
  cases hf : s.find? (fun e => decide (e.1 = k)) with
  | none => rw [hf] at h; cases h
  | some e =>
    rw [hf] at h
    have h1 := List.mem_of_find?_eq_some hf
    have h2 := List.find?_some hf
    obtain ⟨a, b⟩ := e
    simp at h h2
    subst h h2
    exact h1

/-- Replacing the value in a cell. -/
def putCell (k : Key) (v : α) (es : List (Key × Cell α)) : List (Key × Cell α) :=
  es.map fun e => if e.1 = k then (e.1, { e.2 with v := v }) else e

theorem putCell_blocks (k : Key) (v : α) (es : List (Key × Cell α)) : blocks (putCell k v es) = blocks es := by
  unfold blocks putCell
  rw [List.filterMap_map]
  congr 1
  funext e
  simp only [Function.comp_apply]
  split <;> rfl

theorem putCell_objects (k : Key) (v : α) (es : List (Key × Cell α)) : objects (putCell k v es) = objects es := by
  unfold objects putCell
  rw [List.map_map]
  congr 1
  funext e
  simp only [Function.comp_apply]
  split <;> rfl

theorem putCell_keys {k : Key} {v : α} {es : List (Key × Cell α)} (h : ∀ e ∈ es, Keyed e) : ∀ e ∈ putCell k v es, Keyed e := by
  intro e he
  obtain ⟨e', h1, rfl⟩ := List.mem_map.1 he
  have := h e' h1
  split
  · exact this
  · exact this

theorem putCell_strip (k : Key) (v : α) (es : List (Key × Cell α)) :
    strip (putCell k v es) = (strip es).map fun e => if e.1 = k then (k, v) else e := by
  unfold strip putCell
  rw [List.map_map, List.map_map]
  apply List.map_congr_left
  intro e _
  simp only [Function.comp_apply]
  split
  · rename_i h; simp [h]
  · rfl

/-- The value object of a present key is replaced by assignment: only the value in its cell changes. -/
theorem assign_present {w : W (Cell α)} {es : List (Key × Cell α)} {k : Key} {c : Cell α} (h : Rel hf w es) (hl : lookup es k = some c)
    (v : α) : ∃ x, find hf w k = .ok (some x) ∧ getVal w x = .ok c ∧
      Rel hf { w with val := upd w.val x (some { c with v := v }) } (putCell k v es) := by
  obtain ⟨xs, K, V, t, rfl⟩ := h
  rw [lookup_map] at hl
  rcases find_cases (xs := xs) (K := K) k with ⟨h1, h2⟩ | ⟨x, h1, h2, h3⟩
  · rw [h1] at hl; cases hl
  · rw [h1] at hl
    cases hl
    refine ⟨x, by rw [find_ok t.toT, h1], getVal_ok t.toT h2, xs, K, _, inv_val t x _, ?_⟩
    rw [put_present t.toT h2]
    unfold putCell
    rw [List.map_map, List.map_map]
    apply List.map_congr_left
    intro y hy
    simp only [Function.comp_apply, ent, h3]
    by_cases e : K y = k
    · have : y = x := t.uniq y hy x h2 (e.trans h3.symm)
      subst this
      simp [e]
    · simp [e]

theorem absent {w : W (Cell α)} {es : List (Key × Cell α)} {k : Key} (h : Rel hf w es) (hl : lookup es k = none) :
    find hf w k = .ok none := by
  obtain ⟨xs, K, V, t, rfl⟩ := h
  rw [lookup_map] at hl
  rw [find_ok t.toT]
  rcases find_cases (xs := xs) (K := K) k with ⟨h1, h2⟩ | ⟨x, h1, h2, h3⟩
  · rw [h1]
  · rw [h1] at hl; cases hl

theorem strip_append (es : List (Key × Cell α)) (k : Key) (c : Cell α) : strip (es ++ [(k, c)]) = strip es ++ [(k, c.v)] := by
  simp [strip]

theorem Lost.refl (o : L α) (lost : List Nat) : Lost o o lost lost := by simp [Lost]

theorem Lost.cap {o o' o'' : L α} {lost lost' : List Nat} (h : Lost o o' lost lost') (e : o''.w.cap = o'.w.cap) : Lost o o'' lost lost' := by
  unfold Lost at h ⊢
  rw [e]
  exact h

theorem erase_key {es : List (Key × Cell α)} {k : Key} {c : Cell α} (hn : (es.map Prod.fst).Nodup) (hm : (k, c) ∈ es) :
    es.Perm ((k, c) :: es.filter fun e => decide (e.1 ≠ k)) := by
  induction es with
  | nil => cases hm
  | cons e es ih =>
    rw [List.map_cons, List.nodup_cons] at hn
    rcases List.mem_cons.1 hm with h | h
    · subst h
      rw [List.filter_cons_of_neg (by simp), List.filter_eq_self.2]
      intro e he
      have : e.1 ≠ k := fun h => hn.1 (by show k ∈ es.map Prod.fst; rw [← h]; exact List.mem_map_of_mem (f := Prod.fst) he)
      simpa using this
    · have : e.1 ≠ k := fun h' => hn.1 (by rw [h']; exact List.mem_map_of_mem (f := Prod.fst) h)
      rw [List.filter_cons_of_pos (by simpa using this)]
      exact ((ih hn.2 h).cons e).trans (List.Perm.swap _ _ _)

theorem perm_blocks {es fs : List (Key × Cell α)} (p : es.Perm fs) : (blocks es).Perm (blocks fs) := p.filterMap _

theorem perm_objects {es fs : List (Key × Cell α)} (p : es.Perm fs) : (objects es).Perm (objects fs) := p.map _

/-- Ending the life of one node: one object and, for a string key, one block. -/
theorem endNode_ok {o : L α} {x : Nat} {k : Key} {c : Cell α} {es : List (Key × Cell α)} {rest : List Nat}
    (hv : getVal o.w x = .ok c) (hs : get o.w o.w.sk x = .ok (keySk k)) (hk : Keyed (k, c))
    (hm : Led o.mem (blocks ((k, c) :: es) ++ rest)) (ho : Led o.objs (objects ((k, c) :: es))) :
    ∃ o', endNode o x = .ok o' ∧ o'.w = o.w ∧ o'.arr = o.arr ∧ Led o'.mem (blocks es ++ rest) ∧ Led o'.objs (objects es) := by
  unfold endNode
  have ho' : Led o.objs (c.obj :: objects es) := ho
  rw [hv, ok_bind, ho'.free.1, ok_bind, hs, ok_bind]
  cases k with
  | int i =>
    have hk : c.blk = none := hk
    refine ⟨_, rfl, rfl, rfl, ?_, ho'.free.2⟩
    simpa [blocks, hk] using hm
  | str bs =>
    obtain ⟨b, hk⟩ := hk
    have hk : c.blk = some b := hk
    have hm' : Led o.mem (b :: (blocks es ++ rest)) := by simpa [blocks, hk] using hm
    simp only [keySk, hk]
    rw [hm'.free.1, ok_bind]
    exact ⟨_, rfl, rfl, rfl, hm'.free.2, ho'.free.2⟩

theorem keyRep_sk {w : W α} {xs : List Nat} {K : Nat → Key} {V : Nat → α} (t : T hf w xs K V) {x : Nat} (hx : x ∈ xs) :
    get w w.sk x = .ok (keySk (K x)) := by
  rw [get_ok (t.rng x hx)]
  have := t.key x hx
  cases hk : K x with
  | int i => rw [hk] at this; simp [KeyRep] at this; simp [keySk, this]
  | str bs => rw [hk] at this; simp [KeyRep] at this; simp [keySk, this]

theorem unset_cap {w w' : W α} {x : Nat} {b : Bool} (e : unset w (some x) = .ok (b, w')) : w'.cap = w.cap := by
  have hn : ∀ {w w' : W α} {n v : Nat}, setNextLink w n v = .ok w' → w'.cap = w.cap := by
    intro w w' n v h
    unfold setNextLink at h
    split at h
    · cases h; rfl
    · unfold setPv at h
      split at h
      · cases h; rfl
      · cases h
  have hp : ∀ {w w' : W α} {n v : Nat}, setPrevLink w n v = .ok w' → w'.cap = w.cap := by
    intro w w' n v h
    unfold setPrevLink at h
    split at h
    · cases h2 : wr w.tbl (n &&& 0x7FFFFFFF) v with
      | error u => rw [h2] at h; cases h
      | ok t => rw [h2, ok_bind] at h; cases h; rfl
    · unfold setNx at h
      split at h
      · cases h; rfl
      · cases h
  unfold unset at e
  simp only at e
  cases h1 : get w w.pv x with
  | error u => rw [h1] at e; cases e
  | ok p =>
    rw [h1, ok_bind] at e
    split at e
    · cases e; rfl
    · cases h2 : get w w.nx x with
      | error u => rw [h2] at e; cases e
      | ok n =>
        rw [h2, ok_bind] at e
        cases h3 : setNextLink w n p with
        | error u => rw [h3] at e; cases e
        | ok w1 =>
          rw [h3, ok_bind] at e
          cases h4 : setPrevLink w1 p n with
          | error u => rw [h4] at e; cases e
          | ok w2 =>
            rw [h4, ok_bind] at e
            cases e
            show w2.cap = w.cap
            rw [hp h4, hn h3]

theorem lUnset_ok {o : L α} {es : List (Key × Cell α)} {lost : List Nat} (h : LInv hf o es lost) (k : Key) :
    ∃ o', lUnset hf o k = .ok ((lookup es k).isSome, o') ∧ LInv hf o' (es.filter fun e => decide (e.1 ≠ k)) lost ∧ Lost o o' lost lost := by
  unfold lUnset
  cases hl : lookup es k with
  | none =>
    rw [absent h.rel hl, ok_bind]
    refine ⟨o, rfl, ?_, Lost.refl _ _⟩
    have : es.filter (fun e => decide (e.1 ≠ k)) = es := by
      rw [List.filter_eq_self]
      intro e he
      simp only [decide_eq_true_eq]
      intro h'
      unfold lookup at hl
      rw [Option.map_eq_none_iff, List.find?_eq_none] at hl
      exact hl e he (by simpa using h')
    rw [this]
    exact h
  | some c =>
    obtain ⟨a, ha, hm⟩ := h.arr
    have hmem := lookup_mem hl
    have hnd := rel_nodup h.rel
    have hp := erase_key hnd hmem
    obtain ⟨xs, K, V, t, he⟩ := h.rel
    have hul := unsetKey_ok t k
    rw [← he, hl] at hul
    obtain ⟨w', u1, u2⟩ := hul
    rw [he, lookup_map] at hl
    rcases find_cases (xs := xs) (K := K) k with ⟨h1, h2⟩ | ⟨x, h1, h2, h3⟩
    · rw [h1] at hl; cases hl
    · rw [h1] at hl
      have hc : V x = c := by simpa using hl
      unfold unsetKey at u1
      have hfd : find hf o.w k = .ok (some x) := by rw [find_ok t.toT, h1]
      rw [hfd, ok_bind] at u1
      rw [hfd, ok_bind]
      dsimp only
      have hsk := keyRep_sk t.toT h2
      rw [h3] at hsk
      obtain ⟨o', e1, e2, e3, e4, e5⟩ := endNode_ok (o := o) (x := x) (k := k) (c := c) (es := es.filter fun e => decide (e.1 ≠ k))
        (rest := a :: lost) (by rw [getVal_ok t.toT h2, hc]) hsk (h.keys _ hmem)
        (hm.perm (List.perm_middle.symm.trans ((perm_blocks hp).append_right _))) (h.objs.perm (perm_objects hp))
      rw [e1, ok_bind, e2, u1, ok_bind]
      refine ⟨_, rfl, ⟨u2, ⟨a, by rw [← ha]; exact e3, e4.perm List.perm_middle⟩, e5, ?_⟩, ?_⟩
      · intro e h'
        exact h.keys e (List.mem_of_mem_filter h')
      · unfold Lost
        rw [if_pos (by show o.w.cap = w'.cap; rw [unset_cap u1]), Nat.zero_add]

theorem strip_filter (es : List (Key × Cell α)) (k : Key) :
    strip (es.filter fun e => decide (e.1 ≠ k)) = (strip es).filter fun e => decide (e.1 ≠ k) := by
  unfold strip
  rw [List.filter_map]
  rfl

/-! ## Histories -/

theorem lStep_ok {dflt : α} {o : L α} {es : List (Key × Cell α)} {lost : List Nat} {op : Op α} {r : Ret α} {s' : List (Key × α)}
    (h : LInv hf o es lost) (hs : Spec.step dflt (strip es) op = some (r, s')) :
    ∃ o' es' lost', lStep hf dflt o op = .ok (r, o') ∧ LInv hf o' es' lost' ∧ Lost o o' lost lost' ∧ strip es' = s' := by
  cases op with
  | set k v =>
    simp only [Spec.step] at hs
    split at hs
    · rename_i hl
      cases hs
      rw [lookup_strip, Option.isSome_map, strip_length] at hl
      unfold put
      rw [lookup_strip, Option.isSome_map]
      change ∃ o' es' lost', (lSetV hf dflt o k v >>= fun o => (.ok (Ret.void, o) : CRes (Ret α × L α))) = _ ∧ _
      unfold lSetV lSet
      cases hk : lookup es k with
      | some c =>
        obtain ⟨x, f1, f2, f3⟩ := assign_present h.rel hk v
        obtain ⟨a, ha, hm⟩ := h.arr
        simp only [f1, ok_bind, lVal_ok h f2 (lookup_mem hk)]
        refine ⟨_, putCell k v es, lost, rfl, ⟨f3, ⟨a, ha, by rw [putCell_blocks]; exact hm⟩, by rw [putCell_objects]; exact h.objs,
          putCell_keys h.keys⟩, by simp [Lost], ?_⟩
        rw [putCell_strip]
        rfl
      | none =>
        rw [hk] at hl
        obtain ⟨o1, lost1, r1, r2, r3, r4⟩ := lRoom_ok h (by simpa using hl)
        obtain ⟨x, o2, c, a1, a2, a3, a4, a5, a6⟩ := lAppend_ok r2 r4 dflt hk
        obtain ⟨a, ha, hm⟩ := a2.arr
        simp only [absent h.rel hk, ok_bind, r1, a1, lVal_ok a2 a5 (by simp : (k, c) ∈ es ++ [(k, c)])]
        have hb : blocks (es ++ [(k, { c with v := v })]) = blocks (es ++ [(k, c)]) := by
          simp only [blocks, List.filterMap_append]; rfl
        have hob : objects (es ++ [(k, { c with v := v })]) = objects (es ++ [(k, c)]) := by simp [objects]
        refine ⟨_, es ++ [(k, { c with v := v })], lost1, rfl, ⟨a6 _, ⟨a, ha, by rw [hb]; exact hm⟩, by rw [hob]; exact a2.objs, ?_⟩,
          r3.cap a4, ?_⟩
        · intro e he
          rcases List.mem_append.1 he with he | he
          · exact a2.keys e (by simp [he])
          · rw [List.mem_singleton] at he
            subst he
            exact a2.keys (k, c) (by simp)
        · rw [strip_append]; rfl
    · cases hs
  | touch k =>
    change ∃ o' es' lost', (lSet hf dflt o k >>= fun p => lVal p.2 p.1 >>= fun c => (.ok (Ret.val (some c.v), p.2) : CRes (Ret α × L α))) = _ ∧ _
    simp only [Spec.step, lookup_strip] at hs
    unfold lSet
    cases hk : lookup es k with
    | some c =>
      rw [hk] at hs
      cases hs
      obtain ⟨x, f1, f2, -⟩ := assign_present h.rel hk dflt
      simp only [f1, ok_bind, lVal_ok h f2 (lookup_mem hk)]
      exact ⟨o, es, lost, rfl, h, Lost.refl _ _, rfl⟩
    | none =>
      rw [hk] at hs
      simp only [Option.map_none, strip_length] at hs
      split at hs
      · rename_i hl
        cases hs
        obtain ⟨o1, lost1, r1, r2, r3, r4⟩ := lRoom_ok h hl
        obtain ⟨x, o2, c, a1, a2, a3, a4, a5, a6⟩ := lAppend_ok r2 r4 dflt hk
        simp only [absent h.rel hk, ok_bind, r1, a1, lVal_ok a2 a5 (by simp : (k, c) ∈ es ++ [(k, c)])]
        exact ⟨o2, _, lost1, by rw [a3], a2, r3.cap a4, by rw [strip_append, a3]⟩
      · cases hs
  | unset k =>
    cases hs
    obtain ⟨o', g1, g2, g3⟩ := lUnset_ok h k
    refine ⟨o', _, lost, ?_, g2, g3, strip_filter es k⟩
    change (lUnset hf o k >>= fun p => (.ok (Ret.bool p.1, p.2) : CRes (Ret α × L α))) = _
    rw [g1, lookup_strip, Option.isSome_map]
    rfl
  | find k =>
    cases hs
    refine ⟨o, es, lost, ?_, h, Lost.refl _ _, rfl⟩
    simp only [lStep, lookup_strip]
    cases hk : lookup es k with
    | none => rw [absent h.rel hk]; rfl
    | some c =>
      obtain ⟨x, f1, f2, -⟩ := assign_present h.rel hk dflt
      simp only [f1, ok_bind, lVal_ok h f2 (lookup_mem hk)]
      rfl
  | resize n =>
    simp only [Spec.step] at hs
    split at hs
    · rename_i hn
      cases hs
      obtain ⟨b, o', lost', g1, g2, g3⟩ := lResize_ok h hn
      exact ⟨o', es, lost', by simp [lStep, g1], g2, g3, rfl⟩
    · cases hs
  | optimize =>
    cases hs
    obtain ⟨xs, K, V, t, he⟩ := h.rel
    obtain ⟨w', xs', K', V', g1, g2, g3, -, g4⟩ := optimize_ok t
    obtain ⟨o', f1, f2, f3, -⟩ := lOptimize_ok h g1 ⟨xs', K', V', g2, by rw [he, g3]⟩ g4
    exact ⟨o', es, lost, by simp [lStep, f1], f2, f3, rfl⟩
  | autoResize =>
    simp only [Spec.step, strip_length] at hs
    split at hs
    · rename_i hn
      cases hs
      obtain ⟨b, o', lost', g1, g2, g3, -⟩ := lAuto_ok h hn
      exact ⟨o', es, lost', by simp [lStep, g1], g2, g3, rfl⟩
    · cases hs
  | size =>
    cases hs
    obtain ⟨xs, K, V, t, he⟩ := h.rel
    refine ⟨o, es, lost, ?_, h, Lost.refl _ _, rfl⟩
    rw [strip_length, he]
    simp [lStep, t.used]

theorem lRun_ok {dflt : α} : ∀ {ops : List (Op α)} {o : L α} {es : List (Key × Cell α)} {lost : List Nat} {rs : List (Ret α)} {s' : List (Key × α)},
    LInv hf o es lost → Spec.run dflt (strip es) ops = some (rs, s') →
    ∃ o' es' lost' ns, lRun hf dflt o ops = .ok (rs, ns, o') ∧ LInv hf o' es' lost' ∧ strip es' = s' ∧
      lost'.length = Spec.changes (o.w.cap :: ns) + lost.length ∧ (o.w.cap :: ns).getLast? = some o'.w.cap
  | [], o, es, lost, rs, s', h, hr => by
    cases hr
    exact ⟨o, es, lost, [], rfl, h, rfl, by simp [Spec.changes], rfl⟩
  | op :: ops, o, es, lost, rs, s', h, hr => by
    unfold Spec.run at hr
    obtain ⟨⟨r, s1⟩, h1, h2⟩ := bind_some hr
    obtain ⟨⟨rs', s2⟩, h3, h4⟩ := bind_some h2
    cases h4
    obtain ⟨o1, es1, lost1, g1, g2, g3, g4⟩ := lStep_ok h h1
    rw [← g4] at h3
    obtain ⟨o2, es2, lost2, ns, f1, f2, f3, f4, f5⟩ := lRun_ok g2 h3
    refine ⟨o2, es2, lost2, o1.w.cap :: ns, by simp [lRun, g1, f1], f2, f3, ?_, ?_⟩
    · rw [f4, g3, Spec.changes]
      omega
    · rw [List.getLast?_cons_cons]
      exact f5

/-! ## The end -/

theorem endNodes_ok {w : W (Cell α)} {xs : List Nat} {K : Nat → Key} {V : Nat → Cell α} (t : Inv hf w xs K V) (rest : List Nat) :
    ∀ (k i : Nat) (o : L α), i + k = w.pos → o.w = w →
    (∀ x ∈ (List.range' i k).filter (live w), Keyed (ent K V x)) →
    Led o.mem (blocks (((List.range' i k).filter (live w)).map (ent K V)) ++ rest) →
    Led o.objs (objects (((List.range' i k).filter (live w)).map (ent K V))) →
    ∃ o', endNodes k o i = .ok o' ∧ o'.arr = o.arr ∧ Led o'.mem rest ∧ Led o'.objs []
  | 0, i, o, hi, hw, hk, hm, ho => ⟨o, rfl, rfl, by simpa [blocks] using hm, by simpa [objects] using ho⟩
  | k + 1, i, o, hi, hw, hk, hm, ho => by
    have hip : i < w.pos := by omega
    unfold endNodes
    rw [hw, t.get hip, ok_bind]
    rw [List.range'_succ] at hk hm ho
    by_cases e : w.pv i = nil32
    · have hlv : ¬ (live w i = true) := by simp [live, e]
      rw [List.filter_cons_of_neg hlv] at hk hm ho
      rw [if_pos e]
      exact endNodes_ok t rest k (i + 1) o (by omega) hw hk hm ho
    · have hlv : live w i = true := by simp [live, e]
      rw [List.filter_cons_of_pos hlv] at hk hm ho
      rw [if_neg e]
      have hx : i ∈ xs := by rw [t.xs_eq, List.mem_filter, List.mem_range]; exact ⟨hip, hlv⟩
      obtain ⟨o', e1, e2, e3, e4, e5⟩ := endNode_ok (o := o) (x := i) (k := K i) (c := V i)
        (es := ((List.range' (i + 1) k).filter (live w)).map (ent K V)) (rest := rest) (by rw [hw]; exact getVal_ok t.toT hx)
        (by rw [hw]; exact keyRep_sk t.toT hx) (hk i (by simp)) (by simpa [ent] using hm) (by simpa [ent] using ho)
      rw [e1, ok_bind]
      obtain ⟨o'', f1, f2, f3, f4⟩ := endNodes_ok t rest k (i + 1) o' (by omega) (by rw [e2, hw]) (fun x hx => hk x (List.mem_cons_of_mem _ hx)) e4 e5
      exact ⟨o'', f1, by rw [f2, e3], f3, f4⟩

theorem lRelease_ok {o : L α} {es : List (Key × Cell α)} {lost : List Nat} (h : LInv hf o es lost) :
    ∃ o', lRelease o = .ok o' ∧ Led o'.mem lost ∧ Led o'.objs [] := by
  obtain ⟨a, ha, hm⟩ := h.arr
  obtain ⟨xs, K, V, t, he⟩ := h.rel
  have hr : (List.range' 0 o.w.pos).filter (live o.w) = xs := by rw [t.xs_eq, List.range_eq_range']
  obtain ⟨o', e1, e2, e3, e4⟩ := endNodes_ok t (a :: lost) o.w.pos 0 o (by omega) rfl
    (by rw [hr]; intro x hx; exact h.keys _ (by rw [he]; exact List.mem_map_of_mem hx))
    (by rw [hr, ← he]; exact hm.perm List.perm_middle.symm) (by rw [hr, ← he]; exact h.objs)
  unfold lRelease
  rw [e1, ok_bind, e2, ha]
  simp only
  rw [e3.free.1, ok_bind]
  exact ⟨_, rfl, e3.free.2, e4⟩

/-- C120.  What holds: after every history of calls with any hash function, there is one live value object per entry, and
one block per string key, one for the array, and one for every time `GetHashSize()` has changed.  The destructor destroys
every value exactly once, frees every string and the array exactly once; what is left are the arrays given up when the size
changed.  Every call gives the answers of C22.  Missing: those arrays (`growth_leaks`); sizes above the limits of C22. -/
theorem packed_life_partial (hf : List UInt8 → UInt64) (dflt : α) (n : Nat) (hn : n ≤ 2 ^ 30) (ops : List (Op α)) (rs : List (Ret α))
    (s : List (Key × α)) (h : Spec.run dflt [] ops = some (rs, s)) :
    ∃ o0 ns o o', lConstruct hf n = .ok o0 ∧ lRun hf dflt o0 ops = .ok (rs, ns, o) ∧
      o.objs.count true = s.length ∧ o.mem.count true = Spec.strings s + 1 + Spec.changes (o0.w.cap :: ns) ∧
      lDestroy o = .ok o' ∧ o'.objs.count true = 0 ∧ o'.mem.count true = Spec.changes (o0.w.cap :: ns) := by
  obtain ⟨o0, h0, i0⟩ := lConstruct_ok (hf := hf) hn dflt
  obtain ⟨o, es, lost, ns, h1, i1, h2, h3, -⟩ := lRun_ok (es := []) i0 h
  obtain ⟨o', h4, h5, h6⟩ := lRelease_ok i1
  obtain ⟨a, ha, hm⟩ := i1.arr
  refine ⟨o0, ns, o, o', h0, h1, ?_, ?_, h4, by rw [h6.count]; rfl, by rw [h5.count, h3]; rfl⟩
  · rw [i1.objs.count, ← h2, strip_length]
    simp [objects]
  · rw [hm.count, ← h2, ← blocks_length i1.keys, List.length_cons, List.length_append, h3]
    simp only [List.length_nil]
    omega

theorem changes_zero : ∀ {l : List Nat} {a b : Nat}, Spec.changes (a :: l) = 0 → (a :: l).getLast? = some b → a = b
  | [], a, b, _, h => by simpa using h
  | c :: l, a, b, h, h' => by
    rw [Spec.changes] at h
    split at h
    · rename_i e
      rw [List.getLast?_cons_cons] at h'
      rw [e]
      exact changes_zero (by omega) h'
    · omega

/-- C120 fails: as soon as the table holds more entries than it was made for, memory is left behind after the destructor. -/
theorem growth_leaks (hf : List UInt8 → UInt64) (dflt : α) (n : Nat) (hn : n ≤ 2 ^ 30) (ops : List (Op α)) (rs : List (Ret α))
    (s : List (Key × α)) (h : Spec.run dflt [] ops = some (rs, s)) :
    ∃ o0 ns o o', lConstruct hf n = .ok o0 ∧ lRun hf dflt o0 ops = .ok (rs, ns, o) ∧ lDestroy o = .ok o' ∧
      (o0.w.cap < s.length → 0 < o'.mem.count true) := by
  obtain ⟨o0, h0, i0⟩ := lConstruct_ok (hf := hf) hn dflt
  obtain ⟨o, es, lost, ns, h1, i1, h2, h3, h7⟩ := lRun_ok (es := []) i0 h
  obtain ⟨o', h4, h5, h6⟩ := lRelease_ok i1
  refine ⟨o0, ns, o, o', h0, h1, h4, fun hlt => ?_⟩
  rw [h5.count, h3]
  rcases Nat.eq_zero_or_pos (Spec.changes (o0.w.cap :: ns)) with hz | hz
  · have := changes_zero hz h7
    have hl := i1.rel.length_le
    rw [← h2, strip_length] at hlt
    omega
  · omega

/-- C24 fails for assignment too: after everything the table owned has been given back properly, the copy loop never comes
to its end. -/
theorem assign_never_finishes (hf : List UInt8 → UInt64) (dflt : α) (n : Nat) (hn : n ≤ 2 ^ 30) (ops : List (Op α)) (rs : List (Ret α))
    (s : List (Key × α)) (h : Spec.run dflt [] ops = some (rs, s)) (src : W (Cell α)) :
    ∃ o0 ns o, lConstruct hf n = .ok o0 ∧ lRun hf dflt o0 ops = .ok (rs, ns, o) ∧
      (lAssign o (some src) = .error .uninit ∨ lAssign o (some src) = .error .oobRead) := by
  obtain ⟨o0, h0, i0⟩ := lConstruct_ok (hf := hf) hn dflt
  obtain ⟨o, es, lost, ns, h1, i1, -, -, -⟩ := lRun_ok (es := []) i0 h
  obtain ⟨o', h4, -, -⟩ := lRelease_ok i1
  refine ⟨o0, ns, o, h0, h1, ?_⟩
  unfold lAssign
  simp only [h4, ok_bind]
  rcases copy_never_finishes src with e | e
  · left; rw [e]; rfl
  · right; rw [e]; rfl

/-- Assigning a table to itself does nothing. -/
theorem assign_self (o : L α) : lAssign o none = .ok o := rfl

/-! ## Concrete cases -/

/-- Strings and integers, removal, growth from 2 to 8 with compaction. -/
def lifeOps : List (Op Nat) :=
  [.set (.str [65]) 1, .set (.int 5) 2, .set (.str [66, 0]) 3, .unset (.int 5), .set (.str [65]) 4, .touch (.int 7), .set (.int 8) 9,
   .set (.str []) 6, .unset (.str [66, 0]), .optimize]

example : (Spec.run 0 [] lifeOps).map (fun r => (r.2, Spec.strings r.2)) =
    some ([(.str [65], 4), (.int 7, 0), (.int 8, 9), (.str [], 6)], 2) := by decide

example : ((lConstruct (fun bs => bs.foldl (fun h b => h * 3 + b.toUInt64) 7) 2).bind fun o => (lRun (fun bs => bs.foldl (fun h b => h * 3 + b.toUInt64) 7) 0 o lifeOps).bind fun r =>
    (lDestroy r.2.2).map fun o' => (r.2.1, r.2.2.objs.count true, r.2.2.mem.count true, o'.objs.count true, o'.mem.count true)) =
    .ok ([2, 2, 4, 4, 4, 4, 4, 8, 8, 8], 4, 5, 0, 2) := by decide

end Verif.PackedHash
