import Verif.Static2D.Spec

/-! # Property C27: static two-dimensional arrays -/

namespace Verif.Static2D
open BHeap
open Spec (Grid)
variable {α : Type}

/-- How one object is represented in memory. -/
def Rep (cells : BHeap α) (tables : BHeap RowPtr) (a : Arr) (g : Grid α) : Prop :=
  a.width = g.width ∧ a.height = g.height ∧ g.width * g.height < 2 ^ 64 ∧
  ∃ p r b, a.base = some p ∧ a.rows = some r ∧ cells[p]? = some (some b) ∧
    tables[r]? = some (some (rowTable p g.width g.height)) ∧ b.length = g.width * g.height ∧
    ∀ (y x : Nat), y < g.height → x < g.width → b[g.width * y + x]? = some (g.cell y x)

/-- The world represents the abstract objects, and no two objects share memory. -/
structure Refines (w : World α) (s : Spec.State α) : Prop where
  len : w.objs.length = s.length
  rep : ∀ (i : Nat) a, w.objs[i]? = some (some a) → ∃ g, s[i]? = some (some g) ∧ Rep w.cells w.tables a g
  live : ∀ (i : Nat) g, s[i]? = some (some g) → ∃ a, w.objs[i]? = some (some a)
  sep : ∀ (i j : Nat) a t, i ≠ j → w.objs[i]? = some (some a) → w.objs[j]? = some (some t) →
    a.base ≠ t.base ∧ a.rows ≠ t.rows

theorem lt_of_getElem? {β : Type} {l : List β} {i : Nat} {b : β} (h : l[i]? = some b) : i < l.length := by
  rcases Nat.lt_or_ge i l.length with h' | h'
  · exact h'
  · rw [List.getElem?_eq_none h'] at h; cases h

theorem getElem?_app {β : Type} {l l' : List β} {i : Nat} {b : β} (h : l[i]? = some b) :
    (l ++ l')[i]? = some b := by
  rw [List.getElem?_append_left (lt_of_getElem? h), h]

theorem live_some {s : Spec.State α} {i : Nat} {g : Grid α} (h : Spec.live s i = some g) :
    s[i]? = some (some g) := by
  unfold Spec.live at h
  cases h' : s[i]? with
  | none => simp [h'] at h
  | some o => simp [h'] at h; rw [h]

theorem obj_of_live {w : World α} {s : Spec.State α} (R : Refines w s) {i : Nat} {g : Grid α}
    (h : Spec.live s i = some g) :
    ∃ a, w.objs[i]? = some (some a) ∧ w.obj i = .ok a ∧ Rep w.cells w.tables a g := by
  obtain ⟨a, ha⟩ := R.live i g (live_some h)
  obtain ⟨g', hy, hr⟩ := R.rep i a ha
  rw [live_some h] at hy
  cases hy
  exact ⟨a, ha, by simp [World.obj, ha], hr⟩

theorem refines_push {w : World α} {s : Spec.State α} (R : Refines w s) (cells : BHeap α)
    (tables : BHeap RowPtr) (a : Arr) (g : Grid α)
    (hold : ∀ (i : Nat) t g, w.objs[i]? = some (some t) → Rep w.cells w.tables t g → Rep cells tables t g)
    (hsep : ∀ (i : Nat) t, w.objs[i]? = some (some t) → a.base ≠ t.base ∧ a.rows ≠ t.rows)
    (hr : Rep cells tables a g) :
    Refines { cells := cells, tables := tables, objs := w.objs ++ [some a] } (s ++ [some g]) := by
  have hcase : ∀ (i : Nat) t, (w.objs ++ [some a])[i]? = some (some t) →
      (w.objs[i]? = some (some t)) ∨ (i = w.objs.length ∧ t = a) := by
    intro i t hi
    rcases Nat.lt_or_ge i w.objs.length with hl | hl
    · rw [List.getElem?_append_left hl] at hi; exact Or.inl hi
    · have := lt_of_getElem? hi
      have : i = w.objs.length := by simp at this; omega
      subst this
      simp at hi
      exact Or.inr ⟨rfl, hi.symm⟩
  constructor
  · simp [R.len]
  · intro i t hi
    rcases hcase i t hi with hi | ⟨rfl, rfl⟩
    · obtain ⟨g', h1, h2⟩ := R.rep i t hi
      exact ⟨g', getElem?_app h1, hold i t g' hi h2⟩
    · exact ⟨g, by rw [R.len]; simp, hr⟩
  · intro i g' hi
    rcases Nat.lt_or_ge i s.length with hl | hl
    · rw [List.getElem?_append_left hl] at hi
      obtain ⟨t, ht⟩ := R.live i g' hi
      exact ⟨t, getElem?_app ht⟩
    · have h' := lt_of_getElem? hi
      have : i = s.length := by simp at h'; omega
      subst this
      exact ⟨a, by rw [← R.len]; simp⟩
  · intro i j x y hij hi hj
    rcases hcase i x hi with hi' | ⟨h1, h2⟩ <;> rcases hcase j y hj with hj' | ⟨h3, h4⟩
    · exact R.sep i j x y hij hi' hj'
    · subst h4; exact ⟨fun h => (hsep i x hi').1 h.symm, fun h => (hsep i x hi').2 h.symm⟩
    · subst h2; exact hsep j y hj'
    · omega

theorem refines_update {w : World α} {s : Spec.State α} (R : Refines w s) (cells : BHeap α)
    (tables : BHeap RowPtr) (i : Nat) (a : Arr) (g : Grid α) (hi : i < w.objs.length)
    (hold : ∀ (j : Nat) t g, j ≠ i → w.objs[j]? = some (some t) → Rep w.cells w.tables t g →
      Rep cells tables t g)
    (hsep : ∀ (j : Nat) t, j ≠ i → w.objs[j]? = some (some t) → a.base ≠ t.base ∧ a.rows ≠ t.rows)
    (hr : Rep cells tables a g) :
    Refines { cells := cells, tables := tables, objs := w.objs.set i (some a) } (s.set i (some g)) := by
  have hs : i < s.length := by rw [← R.len]; exact hi
  have hcase : ∀ (j : Nat) t, (w.objs.set i (some a))[j]? = some (some t) →
      (j = i ∧ t = a) ∨ (j ≠ i ∧ w.objs[j]? = some (some t)) := by
    intro j t hj
    by_cases hij : i = j
    · subst hij
      rw [List.getElem?_set_self hi] at hj
      cases hj; exact Or.inl ⟨rfl, rfl⟩
    · rw [List.getElem?_set_ne hij] at hj
      exact Or.inr ⟨fun h => hij h.symm, hj⟩
  constructor
  · simp [R.len]
  · intro j t hj
    rcases hcase j t hj with ⟨rfl, rfl⟩ | ⟨hne, hj⟩
    · exact ⟨g, by rw [List.getElem?_set_self hs], hr⟩
    · obtain ⟨g', h1, h2⟩ := R.rep j t hj
      exact ⟨g', by rw [List.getElem?_set_ne (fun h => hne h.symm)]; exact h1, hold j t g' hne hj h2⟩
  · intro j g' hj
    by_cases hij : i = j
    · subst hij; exact ⟨a, by rw [List.getElem?_set_self hi]⟩
    · rw [List.getElem?_set_ne hij] at hj
      obtain ⟨t, ht⟩ := R.live j g' hj
      exact ⟨t, by rw [List.getElem?_set_ne hij]; exact ht⟩
  · intro x y b t hxy hx hy
    rcases hcase x b hx with ⟨h1, h2⟩ | ⟨h1, h2⟩ <;> rcases hcase y t hy with ⟨h3, h4⟩ | ⟨h3, h4⟩
    · omega
    · subst h2; exact hsep y t h3 h4
    · subst h4; exact ⟨fun h => (hsep x b h1 h2).1 h.symm, fun h => (hsep x b h1 h2).2 h.symm⟩
    · exact R.sep x y b t hxy h2 h4

theorem refines_destroy {w : World α} {s : Spec.State α} (R : Refines w s) (cells : BHeap α)
    (tables : BHeap RowPtr) (i : Nat) (hi : i < w.objs.length)
    (hold : ∀ (j : Nat) t g, j ≠ i → w.objs[j]? = some (some t) → Rep w.cells w.tables t g →
      Rep cells tables t g) :
    Refines { cells := cells, tables := tables, objs := w.objs.set i none } (s.set i none) := by
  have hs : i < s.length := by rw [← R.len]; exact hi
  have hcase : ∀ (j : Nat) t, (w.objs.set i none)[j]? = some (some t) →
      (j ≠ i ∧ w.objs[j]? = some (some t)) := by
    intro j t hj
    by_cases hij : i = j
    · subst hij
      rw [List.getElem?_set_self hi] at hj
      cases hj
    · rw [List.getElem?_set_ne hij] at hj
      exact ⟨fun h => hij h.symm, hj⟩
  constructor
  · simp [R.len]
  · intro j t hj
    obtain ⟨hne, hj⟩ := hcase j t hj
    obtain ⟨g', h1, h2⟩ := R.rep j t hj
    exact ⟨g', by rw [List.getElem?_set_ne (fun h => hne h.symm)]; exact h1, hold j t g' hne hj h2⟩
  · intro j g' hj
    by_cases hij : i = j
    · subst hij; rw [List.getElem?_set_self hs] at hj; cases hj
    · rw [List.getElem?_set_ne hij] at hj
      obtain ⟨t, ht⟩ := R.live j g' hj
      exact ⟨t, by rw [List.getElem?_set_ne hij]; exact ht⟩
  · intro x y b t hxy hx hy
    exact R.sep x y b t hxy (hcase x b hx).2 (hcase y t hy).2

/-- Changing only memory that an object does not use keeps it. -/
theorem rep_frame {cells cells' : BHeap α} {tables tables' : BHeap RowPtr} {a : Arr} {g : Grid α}
    (h : Rep cells tables a g)
    (hc : ∀ (p : Nat) b, a.base = some p → cells[p]? = some (some b) → cells'[p]? = some (some b))
    (ht : ∀ (r : Nat) b, a.rows = some r → tables[r]? = some (some b) → tables'[r]? = some (some b)) :
    Rep cells' tables' a g := by
  obtain ⟨h1, h2, h3, p, r, b, h4, h5, h6, h7, h8⟩ := h
  exact ⟨h1, h2, h3, p, r, b, h4, h5, hc p b h4 h6, ht r _ h5 h7, h8⟩

theorem rep_lt {cells : BHeap α} {tables : BHeap RowPtr} {a : Arr} {g : Grid α}
    (h : Rep cells tables a g) :
    (∃ p, a.base = some p ∧ p < cells.length) ∧ (∃ r, a.rows = some r ∧ r < tables.length) := by
  obtain ⟨-, -, -, p, r, b, h4, h5, h6, h7, -⟩ := h
  exact ⟨⟨p, h4, lt_of_block h6⟩, ⟨r, h5, lt_of_block h7⟩⟩

theorem mul_index_lt {w h y x : Nat} (hy : y < h) (hx : x < w) : w * y + x < w * h := by
  have : w * (y + 1) ≤ w * h := Nat.mul_le_mul_left w hy
  rw [Nat.mul_succ] at this
  omega

theorem mul_index_inj {w y x y' x' : Nat} (hx : x < w) (hx' : x' < w) (h : w * y + x = w * y' + x') :
    y = y' ∧ x = x' := by
  have h0 : 0 < w := by omega
  have e1 : (w * y + x) / w = y := by
    rw [Nat.mul_add_div h0, Nat.div_eq_of_lt hx]; omega
  have e2 : (w * y' + x') / w = y' := by
    rw [Nat.mul_add_div h0, Nat.div_eq_of_lt hx']; omega
  have : y = y' := by rw [← e1, ← e2, h]
  subst this
  exact ⟨rfl, by omega⟩

theorem rowTable_get {p w h y : Nat} (hy : y < h) (hwh : w * h < 2 ^ 64) :
    (rowTable p w h)[y]? = some (p, w * y) := by
  unfold rowTable
  have : w * y < 2 ^ 64 := Nat.lt_of_le_of_lt (Nat.mul_le_mul_left w (Nat.le_of_lt hy)) hwh
  rw [List.getElem?_map, List.getElem?_range hy]
  simp [mulSz, Nat.mod_eq_of_lt this]

/-- A freshly built array. -/
theorem build_rep (w : World α) (wd ht : Nat) (hsz : wd * ht < 2 ^ 64) (g : Grid α)
    (hw : g.width = wd) (hh : g.height = ht) (b : List α) (hb : b.length = wd * ht)
    (hcell : ∀ (y x : Nat), y < ht → x < wd → b[wd * y + x]? = some (g.cell y x)) :
    Rep (w.cells ++ [some b]) (w.tables ++ [some (rowTable w.cells.length wd ht)])
      { base := some w.cells.length, rows := some w.tables.length, width := wd, height := ht } g := by
  refine ⟨hw.symm, hh.symm, by rw [hw, hh]; exact hsz, _, _, b, rfl, rfl, by simp, ?_, by rw [hw, hh]; exact hb,
    by rw [hw, hh]; exact hcell⟩
  rw [hw, hh]; simp

theorem getElem?_replicate_some {n i : Nat} {x : α} (h : i < n) : (List.replicate n x)[i]? = some x := by
  simp [h]

theorem set_self_eq {β : Type} {l : List β} {i : Nat} {b : β} (h : l[i]? = some b) : l.set i b = l := by
  apply List.ext_getElem?
  intro k
  rw [List.getElem?_set]
  split
  · rename_i e; subst e; rw [if_pos (lt_of_getElem? h), h]
  · rfl

theorem step_refines (dflt : α) (w : World α) (s s' : Spec.State α) (op : Op α) (o : Out α)
    (R : Refines w s) (h : Spec.step false dflt s op = some (o, s')) :
    ∃ w', step dflt w op = .ok (o, w') ∧ Refines w' s' := by
  have hfr : ∀ (i : Nat) t (b : List α) (tb : List RowPtr), w.objs[i]? = some (some t) →
      some w.cells.length ≠ t.base ∧ some w.tables.length ≠ t.rows := by
    intro i t b tb hi
    obtain ⟨g, -, hr⟩ := R.rep i t hi
    obtain ⟨⟨p, hp, hpl⟩, ⟨r, hr', hrl⟩⟩ := rep_lt hr
    rw [hp, hr']
    simp
    omega
  cases op with
  | construct wd ht =>
    simp only [Spec.step] at h
    by_cases hsz : wd * ht < 2 ^ 64
    · rw [if_pos hsz] at h
      cases h
      refine ⟨_, rfl, ?_⟩
      have hm : mulSz wd ht = wd * ht := Nat.mod_eq_of_lt hsz
      have := refines_push R _ _ _ _ (fun i t g hi hr => rep_frame hr (fun p b _ hb => getElem?_app hb)
        (fun r b _ hb => getElem?_app hb)) (fun i t hi => hfr i t [] [] hi)
        (build_rep w wd ht hsz { width := wd, height := ht, cell := fun _ _ => dflt } rfl rfl
          (List.replicate (wd * ht) dflt) (by simp)
          (fun y x hy hx => getElem?_replicate_some (mul_index_lt hy hx)))
      simpa [construct, build, alloc, hm] using this
    · rw [if_neg hsz] at h; cases h
  | copyConstruct j =>
    cases hj : Spec.live s j with
    | none => simp [Spec.step, hj] at h
    | some t =>
      simp [Spec.step, hj] at h
      obtain ⟨rfl, rfl⟩ := h
      obtain ⟨a, ha, hobj, hw, hh, hsz, p, r, b, hp, hr, hcells, htab, hbl, hcell⟩ := obj_of_live R hj
      have hm : mulSz t.width t.height = t.width * t.height := Nat.mod_eq_of_lt hsz
      have hpl := lt_of_block hcells
      have key : copyCells (w.cells ++ [some (List.replicate (t.width * t.height) dflt)])
          (some w.cells.length) (some p) (t.width * t.height) = .ok (w.cells ++ [some b]) := by
        unfold copyCells
        by_cases hz : t.width * t.height = 0
        · rw [if_pos hz]
          have : b = [] := by rw [hz] at hbl; simpa using hbl
          rw [this, hz]; rfl
        · rw [if_neg hz]
          simp only [deref, ok_bind]
          rw [copyLoop_ok p w.cells.length (by omega) b _ 0 _ (List.replicate (t.width * t.height) dflt)
              (getElem?_app hcells) (by simp) (by omega) (by simp)]
          simp [← hbl]
      have := refines_push R _ _ _ _ (fun i t g hi hr => rep_frame hr (fun p b _ hb => getElem?_app hb)
        (fun r b _ hb => getElem?_app hb)) (fun i t hi => hfr i t [] [] hi)
        (build_rep w t.width t.height hsz t rfl rfl b hbl hcell)
      refine ⟨_, ?_, this⟩
      simp [step, copyConstruct, hobj, build, alloc, hw, hh, hm, hp, key]
  | destroy i =>
    cases hi : Spec.live s i with
    | none => simp [Spec.step, hi] at h
    | some t =>
      simp [Spec.step, hi] at h
      obtain ⟨rfl, rfl⟩ := h
      obtain ⟨a, ha, hobj, hw, hh, hsz, p, r, b, hp, hr, hcells, htab, hbl, hcell⟩ := obj_of_live R hi
      refine ⟨⟨w.cells.set p none, w.tables.set r none, w.objs.set i none⟩,
        by simp [step, destroy, hobj, hp, hr, freeOpt, free_ok hcells, free_ok htab],
        refines_destroy R _ _ i (lt_of_getElem? ha) ?_⟩
      intro j t g hne hj hrep
      have hs := R.sep i j a t (fun h => hne h.symm) ha hj
      rw [hp, hr] at hs
      refine rep_frame hrep (fun q c hq hc => ?_) (fun q c hq hc => ?_)
      · rw [List.getElem?_set_ne (by rintro rfl; exact hs.1 hq.symm)]; exact hc
      · rw [List.getElem?_set_ne (by rintro rfl; exact hs.2 hq.symm)]; exact hc
  | assign i j =>
    cases hi : Spec.live s i with
    | none => simp [Spec.step, hi] at h
    | some gi =>
      cases hj : Spec.live s j with
      | none => simp [Spec.step, hi, hj] at h
      | some gj =>
        simp [Spec.step, hi, hj] at h
        obtain ⟨has, rfl, rfl⟩ := h
        obtain ⟨a, ha, hobj, hw, hh, hsz, p, r, b, hp, hr, hcells, htab, hbl, hcell⟩ := obj_of_live R hi
        obtain ⟨t, ht, htobj, htw, hth, htsz, tp, tr, tb, htp, htr, htcells, httab, htbl, htcell⟩ :=
          obj_of_live R hj
        by_cases hij : i = j
        · subst hij
          rw [hi] at hj; cases hj
          exact ⟨w, by simp [step, assign, hobj], by rw [set_self_eq (live_some hi)]; exact R⟩
        · have hs := R.sep i j a t hij ha ht
          rw [hp, hr, htp, htr] at hs
          have hpt : p ≠ tp := fun h => hs.1 (by rw [h])
          have hm : mulSz gj.width gj.height = gj.width * gj.height := Nat.mod_eq_of_lt htsz
          by_cases hd : gi.width = gj.width ∧ gi.height = gj.height
          · -- same dimensions: copy the cells in place
            obtain ⟨hd1, hd2⟩ := hd
            have hmi : mulSz gi.width gi.height = gj.width * gj.height := by rw [hd1, hd2]; exact hm
            have key : copyCells w.cells (some p) (some tp) (gj.width * gj.height) =
                .ok (w.cells.set p (some tb)) := by
              unfold copyCells
              by_cases hz : gj.width * gj.height = 0
              · rw [if_pos hz]
                have e1 : tb = [] := by rw [hz] at htbl; simpa using htbl
                have e2 : b = [] := by rw [hd1, hd2, hz] at hbl; simpa using hbl
                rw [set_self_eq (by rw [e1, ← e2]; exact hcells)]
              · rw [if_neg hz]
                simp only [deref, ok_bind]
                rw [copyLoop_ok tp p hpt tb _ 0 _ b htcells hcells (by omega)
                  (by rw [hbl, hd1, hd2]; omega)]
                congr 3
                rw [List.take_zero, List.nil_append, List.drop_zero, List.take_of_length_le (by omega),
                  List.drop_of_length_le (by rw [hbl, hd1, hd2]; omega), List.append_nil]
            refine ⟨_, by
              simp [step, assign, hobj, htobj, hij, reshape, hw, hh, htw, hth, hd1, hd2, hp, htp, hm, key]
              rfl, ?_⟩
            refine refines_update R _ _ i a gj (lt_of_getElem? ha) ?_ ?_ ?_
            · intro k u g hne hk hrep
              have hs := R.sep i k a u (fun h => hne h.symm) ha hk
              rw [hp] at hs
              refine rep_frame hrep (fun q c hq hc => ?_) (fun q c _ hc => hc)
              rw [List.getElem?_set_ne (by rintro rfl; exact hs.1 hq.symm)]; exact hc
            · intro k u hne hk
              exact R.sep i k a u (fun h => hne h.symm) ha hk
            · refine ⟨by omega, by omega, htsz, p, r, tb, hp, hr, ?_, ?_, htbl, htcell⟩
              · rw [List.getElem?_set_self (lt_of_block hcells)]
              · rw [← hd1, ← hd2]; exact htab
          · -- different dimensions and an empty source
            have hz : gj.width * gj.height = 0 := by
              rcases has with h | h
              · exact absurd h hd
              · exact h
            have hd' : a.width ≠ t.width ∨ a.height ≠ t.height := by omega
            have hz' : mulSz t.width t.height = 0 := by rw [htw, hth, hm, hz]
            let w1 : World α := { w with cells := w.cells.set p none, tables := w.tables.set r none }
            have hb1 := build_rep w1 gj.width gj.height htsz gj rfl rfl [] (by simp [hz])
              (by
                intro y x hy hx
                have := mul_index_lt hy hx
                omega)
            refine ⟨{ cells := w1.cells ++ [some []],
                      tables := w1.tables ++ [some (rowTable w1.cells.length gj.width gj.height)],
                      objs := w.objs.set i (some ⟨some w1.cells.length, some w1.tables.length, gj.width, gj.height⟩) }, ?_, ?_⟩
            · have e1 : reshape dflt w a t = .ok (build dflt w1 gj.width gj.height) := by
                unfold reshape
                rw [if_pos hd', hp, hr]
                simp [freeOpt, free_ok hcells, free_ok htab, hm, hz, htw, hth, w1]
              simp [step, assign, hobj, htobj, hij, e1, build, alloc, hm, hz, copyCells, w1]
            · refine refines_update R _ _ i _ gj (lt_of_getElem? ha) ?_ ?_ hb1
              · intro k u g hne hk hrep
                have hs := R.sep i k a u (fun h => hne h.symm) ha hk
                rw [hp, hr] at hs
                refine rep_frame hrep (fun q c hq hc => ?_) (fun q c hq hc => ?_)
                · apply getElem?_app
                  show (w.cells.set p none)[q]? = _
                  rw [List.getElem?_set_ne (by rintro rfl; exact hs.1 hq.symm)]; exact hc
                · apply getElem?_app
                  show (w.tables.set r none)[q]? = _
                  rw [List.getElem?_set_ne (by rintro rfl; exact hs.2 hq.symm)]; exact hc
              · intro k u hne hk
                have := hfr k u [] [] hk
                simpa [w1] using this
  | set i r0 c0 x =>
    cases hi : Spec.live s i with
    | none => simp [Spec.step, hi] at h
    | some g =>
      simp [Spec.step, hi] at h
      obtain ⟨⟨hr0, hc0⟩, rfl, rfl⟩ := h
      obtain ⟨a, ha, hobj, hw, hh, hsz, p, r, b, hp, hr, hcells, htab, hbl, hcell⟩ := obj_of_live R hi
      have hidx := mul_index_lt hr0 hc0
      have hrow := load_ok htab (rowTable_get hr0 hsz (p := p))
      have hstore := store_ok (v := x) hcells (i := g.width * r0 + c0) (by omega)
      refine ⟨_, by simp [step, set, row, hobj, hr, deref, hrow, hstore]; rfl, ?_⟩
      have := refines_update (w := w) R (w.cells.set p (some (b.set (g.width * r0 + c0) x))) w.tables i a
        (g.write r0 c0 x) (lt_of_getElem? ha)
        (by
          intro k u g hne hk hrep
          have hs := R.sep i k a u (fun h => hne h.symm) ha hk
          rw [hp] at hs
          refine rep_frame hrep (fun q c hq hc => ?_) (fun q c _ hc => hc)
          rw [List.getElem?_set_ne (by rintro rfl; exact hs.1 hq.symm)]; exact hc)
        (fun k u hne hk => R.sep i k a u (fun h => hne h.symm) ha hk)
        (by
          refine ⟨hw, hh, hsz, p, r, b.set (g.width * r0 + c0) x, hp, hr, ?_, htab, by simp [hbl, Grid.write], ?_⟩
          · rw [List.getElem?_set_self (lt_of_block hcells)]
          · intro y x' hy hx
            show (b.set (g.width * r0 + c0) x)[g.width * y + x']? =
              some (if y = r0 ∧ x' = c0 then x else g.cell y x')
            by_cases he : y = r0 ∧ x' = c0
            · rw [if_pos he, he.1, he.2, List.getElem?_set_self (by omega)]
            · rw [if_neg he, List.getElem?_set_ne]
              · exact hcell y x' hy hx
              · intro h
                have := mul_index_inj hc0 hx h
                exact he ⟨this.1.symm, this.2.symm⟩)
      rw [set_self_eq ha] at this
      exact this
  | get i r0 c0 =>
    cases hi : Spec.live s i with
    | none => simp [Spec.step, hi] at h
    | some g =>
      simp [Spec.step, hi] at h
      obtain ⟨⟨hr0, hc0⟩, rfl, rfl⟩ := h
      obtain ⟨a, ha, hobj, hw, hh, hsz, p, r, b, hp, hr, hcells, htab, hbl, hcell⟩ := obj_of_live R hi
      have hrow := load_ok htab (rowTable_get hr0 hsz (p := p))
      exact ⟨w, by simp [step, get, row, hobj, hr, deref, hrow, load_ok hcells (hcell r0 c0 hr0 hc0)], R⟩
  | width i =>
    cases hi : Spec.live s i with
    | none => simp [Spec.step, hi] at h
    | some g =>
      simp [Spec.step, hi] at h
      obtain ⟨rfl, rfl⟩ := h
      obtain ⟨a, ha, hobj, hw, -⟩ := obj_of_live R hi
      exact ⟨w, by simp [step, hobj, hw], R⟩
  | height i =>
    cases hi : Spec.live s i with
    | none => simp [Spec.step, hi] at h
    | some g =>
      simp [Spec.step, hi] at h
      obtain ⟨rfl, rfl⟩ := h
      obtain ⟨a, ha, hobj, hw, hh, -⟩ := obj_of_live R hi
      exact ⟨w, by simp [step, hobj, hh], R⟩

theorem run_refines (dflt : α) (ops : List (Op α)) : ∀ (w : World α) (s s' : Spec.State α) os,
    Refines w s → Spec.run false dflt s ops = some (os, s') →
    ∃ w', run dflt w ops = .ok (os, w') ∧ Refines w' s' := by
  induction ops with
  | nil => intro w s s' os R h; cases h; exact ⟨w, rfl, R⟩
  | cons op ops ih =>
    intro w s s' os R h
    rw [Spec.run] at h
    cases h1 : Spec.step false dflt s op with
    | none => simp [h1] at h
    | some r =>
      obtain ⟨o, s1⟩ := r
      simp only [h1, Option.bind_eq_bind, Option.bind_some, Option.bind_eq_some_iff] at h
      obtain ⟨⟨os', s2⟩, h2, h⟩ := h
      cases h
      obtain ⟨w1, e1, R1⟩ := step_refines dflt w s s1 op o R h1
      obtain ⟨w2, e2, R2⟩ := ih w1 s1 s2 os' R1 h2
      exact ⟨w2, by simp [run, e1, e2], R2⟩

theorem refines_empty : Refines (emptyWorld : World α) [] :=
  { len := rfl, rep := by intro i v h; simp [emptyWorld] at h, live := by intro i xs h; simp at h
    sep := by intro i j v t _ h; simp [emptyWorld] at h }

/-- **C27 (part that holds).**  For every history of constructions, copies, destructions, cell writes and reads
and dimension queries, and of assignments between arrays of equal dimensions or from an empty array, the arrays
give exactly the answers of independent rectangles of cells; all memory accesses are valid.

Missing from the full claim: assignment between different non-empty dimensions and comparison, both of which
the code gets wrong (`assign_different_dims_is_null_write`, `eq_never_true`). -/
theorem static2D_refines_partial (dflt : α) (ops : List (Op α)) (os : List (Out α)) (s : Spec.State α)
    (h : Spec.run false dflt [] ops = some (os, s)) :
    ∃ w, run dflt emptyWorld ops = .ok (os, w) := by
  obtain ⟨w, h1, -⟩ := run_refines dflt ops emptyWorld [] s os refines_empty h
  exact ⟨w, h1⟩

/-- A history meeting the hypotheses: write, copy, write to the copy, read both, assign back. -/
example : (Spec.run false (0 : Nat) [] [.construct 3 2, .set 0 1 2 7, .copyConstruct 0, .set 1 0 0 5,
    .get 0 0 0, .get 1 1 2, .assign 0 1, .get 0 0 0, .destroy 1, .get 0 1 2, .width 0, .height 0]).map (·.1) =
    some [.none, .none, .none, .none, .val 0, .val 7, .none, .val 5, .none, .val 7, .num 3, .num 2] := by
  decide

/-- **C27, disagreement 1.**  After every supported history, assigning a non-empty array to an array of other
dimensions writes through a NULL pointer. -/
theorem assign_different_dims_is_null_write (dflt : α) (ops : List (Op α)) (os : List (Out α))
    (s : Spec.State α) (h : Spec.run false dflt [] ops = some (os, s)) (i j : Nat) (gi gj : Grid α)
    (hi : Spec.live s i = some gi) (hj : Spec.live s j = some gj)
    (hdim : gi.width ≠ gj.width ∨ gi.height ≠ gj.height) (hne : gj.width * gj.height ≠ 0) :
    run dflt emptyWorld (ops ++ [.assign i j]) = .error .nullDeref := by
  obtain ⟨w, h1, R⟩ := run_refines dflt ops emptyWorld [] s os refines_empty h
  have hrun : ∀ (ops : List (Op α)) (op : Op α) (w0 w : World α) os e, run dflt w0 ops = .ok (os, w) →
      step dflt w op = .error e → run dflt w0 (ops ++ [op]) = .error e := by
    intro ops op
    induction ops with
    | nil => intro w0 w os e h1 h2; cases h1; simp [run, h2]
    | cons o ops ih =>
      intro w0 w os e h1 h2
      rw [run] at h1
      cases h3 : step dflt w0 o with
      | error e' => simp [h3] at h1
      | ok r =>
        obtain ⟨o', w1⟩ := r
        simp only [h3, ok_bind] at h1
        cases h4 : run dflt w1 ops with
        | error e' => simp [h4] at h1
        | ok r =>
          obtain ⟨os2, w2⟩ := r
          simp only [h4, ok_bind] at h1
          cases h1
          have := ih w1 w os2 e h4 h2
          simp [run, h3, this]
  refine hrun ops _ _ w os _ h1 ?_
  obtain ⟨a, ha, hobj, hw, hh, hsz, p, r, b, hp, hr, hcells, htab, hbl, hcell⟩ := obj_of_live R hi
  obtain ⟨t, ht, htobj, htw, hth, htsz, tp, tr, tb, htp, htr, htcells, httab, htbl, htcell⟩ :=
    obj_of_live R hj
  have hij : i ≠ j := by
    rintro rfl
    rw [hi] at hj; cases hj
    omega
  have hm : mulSz gj.width gj.height = gj.width * gj.height := Nat.mod_eq_of_lt htsz
  have hd' : a.width ≠ t.width ∨ a.height ≠ t.height := by omega
  have e1 : reshape dflt w a t = .ok ({ base := none, rows := none, width := gj.width, height := gj.height },
      { w with tables := w.tables.set r none, cells := w.cells.set p none }) := by
    unfold reshape
    rw [if_pos hd', hp, hr]
    simp only [freeOpt, free_ok hcells, free_ok htab, ok_bind]
    rw [htw, hth, hm, if_pos hne]
  simp only [step, assign, hobj, htobj, ok_bind, e1, if_neg hij]
  rw [hm]
  simp [copyCells, hne, htp, deref]

/-- The full property (every assignment is legal) is refuted by assigning a 1×1 array to a 2×1 array. -/
theorem assign_spec_fails :
    (Spec.run true (0 : Nat) [] [.construct 2 1, .construct 1 1, .assign 0 1]).isSome = true ∧
    run (0 : Nat) emptyWorld [.construct 2 1, .construct 1 1, .assign 0 1] = .error .nullDeref := by decide

theorem eqLoop_not_true (cmp : α → RowPtr → Bool) (w : World α) (p q : Nat) (b : List α) (tb : List RowPtr)
    (hp : w.cells[p]? = some (some b)) (hq : w.tables[q]? = some (some tb)) :
    ∀ n x, tb.length < x + n → x + n = b.length → x ≤ tb.length →
      eqLoop cmp w p q n x = .ok false ∨ eqLoop cmp w p q n x = .error .oobRead := by
  intro n
  induction n with
  | zero => intro x h1 h2 h3; omega
  | succ n ih =>
    intro x h1 h2 h3
    rw [eqLoop, load_ok hp (List.getElem?_eq_getElem (by omega))]
    simp only [ok_bind]
    by_cases hx : x < tb.length
    · rw [load_ok hq (List.getElem?_eq_getElem hx)]
      simp only [ok_bind]
      split
      · exact ih (x + 1) (by omega) (by omega) (by omega)
      · simp
    · have : w.tables.load q x = .error .oobRead := by
        simp [load, block_ok hq, rd, List.getElem?_eq_none (Nat.le_of_not_lt hx)]
      simp [this]

/-- **C27, disagreement 2.**  However the element type compares with a pointer, comparing two arrays of equal
dimensions with at least two columns never yields "equal" after any supported history, not even for an array
and itself: the result is "different" or an out-of-bounds read of the row table. -/
theorem eq_never_true (cmp : α → RowPtr → Bool) (dflt : α) (ops : List (Op α)) (os : List (Out α))
    (s : Spec.State α) (h : Spec.run false dflt [] ops = some (os, s)) (i j : Nat) (gi gj : Grid α)
    (hi : Spec.live s i = some gi) (hj : Spec.live s j = some gj)
    (hw : gi.width = gj.width) (hh : gi.height = gj.height) (h2 : 2 ≤ gi.width) (h1 : 1 ≤ gi.height) :
    ∃ w, run dflt emptyWorld ops = .ok (os, w) ∧ (eq cmp w i j = .ok false ∨ eq cmp w i j = .error .oobRead) := by
  obtain ⟨w, hrun, R⟩ := run_refines dflt ops emptyWorld [] s os refines_empty h
  refine ⟨w, hrun, ?_⟩
  obtain ⟨a, ha, hobj, haw, hah, hsz, p, r, b, hp, hr, hcells, htab, hbl, hcell⟩ := obj_of_live R hi
  obtain ⟨t, ht, htobj, htw, hth, htsz, tp, tr, tb, htp, htr, htcells, httab, htbl, htcell⟩ :=
    obj_of_live R hj
  have hm : mulSz a.width a.height = gi.width * gi.height := by
    rw [haw, hah]; exact Nat.mod_eq_of_lt hsz
  have hbig : gi.height < gi.width * gi.height := by
    have : 2 * gi.height ≤ gi.width * gi.height := Nat.mul_le_mul_right _ h2
    omega
  unfold eq
  rw [hobj, htobj]
  simp only [ok_bind]
  rw [if_neg (by omega), hm, if_neg (by omega), hp, htr]
  simp only [deref, ok_bind]
  exact eqLoop_not_true cmp w p tr b _ hcells httab _ 0 (by simp [rowTable]; omega) (by omega) (by simp)

/-- The hypotheses hold for a 2×1 array compared with its copy. -/
example : ((Spec.run false (0 : Nat) [] [.construct 2 1, .copyConstruct 0]).bind
    (fun r => Spec.live r.2 1)).map (fun g => (g.width, g.height)) = some (2, 1) := by decide

end Verif.Static2D
