import Verif.StaticVector.Spec

/-! # Property C26: static vectors -/

namespace Verif.StaticVector
open BHeap
variable {α : Type}

/-- How one object is represented. -/
def Rep (h : BHeap α) (v : Vec) (xs : List α) : Prop :=
  v.size = xs.length ∧
  match v.ptr with
  | some p => h[p]? = some (some xs)
  | none => xs = []

/-- The world represents the abstract objects, and no two objects share a block. -/
structure Refines (w : World α) (s : Spec.State α) : Prop where
  len : w.objs.length = s.length
  rep : ∀ (i : Nat) v, w.objs[i]? = some (some v) → ∃ xs, s[i]? = some (some xs) ∧ Rep w.heap v xs
  live : ∀ (i : Nat) xs, s[i]? = some (some xs) → ∃ v, w.objs[i]? = some (some v)
  sep : ∀ (i j : Nat) v t p, w.objs[i]? = some (some v) → w.objs[j]? = some (some t) →
    v.ptr = some p → t.ptr = some p → i = j

theorem live_some {s : Spec.State α} {i : Nat} {xs : List α} (h : Spec.live s i = some xs) :
    s[i]? = some (some xs) := by
  unfold Spec.live at h
  cases h' : s[i]? with
  | none => simp [h'] at h
  | some o => simp [h'] at h; rw [h]

theorem obj_of_live {w : World α} {s : Spec.State α} (R : Refines w s) {i : Nat} {xs : List α}
    (h : Spec.live s i = some xs) : ∃ v, w.objs[i]? = some (some v) ∧ w.obj i = .ok v ∧ Rep w.heap v xs := by
  obtain ⟨v, hv⟩ := R.live i xs (live_some h)
  obtain ⟨ys, hy, hr⟩ := R.rep i v hv
  rw [live_some h] at hy
  cases hy
  exact ⟨v, hv, by simp [World.obj, hv], hr⟩

theorem getElem?_append_some {β : Type} {l l' : List β} {i : Nat} {b : β} (h : l[i]? = some b) :
    (l ++ l')[i]? = some b := by
  have : i < l.length := by
    rcases Nat.lt_or_ge i l.length with h' | h'
    · exact h'
    · rw [List.getElem?_eq_none h'] at h; cases h
  rw [List.getElem?_append_left this, h]

/-- A new object with a fresh block. -/
theorem refines_push {w : World α} {s : Spec.State α} (R : Refines w s) (xs : List α) (h : BHeap α)
    (hold : ∀ (p : Nat), p < w.heap.length → h[p]? = w.heap[p]?)
    (hnew : h[w.heap.length]? = some (some xs)) :
    Refines { heap := h, objs := w.objs ++ [some { ptr := some w.heap.length, size := xs.length }] }
      (s ++ [some xs]) := by
  have hptr : ∀ (i : Nat) v p, w.objs[i]? = some (some v) → v.ptr = some p → p < w.heap.length := by
    intro i v p hi hp
    obtain ⟨ys, -, hr⟩ := R.rep i v hi
    unfold Rep at hr
    rw [hp] at hr
    exact lt_of_block hr.2
  have hcase : ∀ (i : Nat) v,
      (w.objs ++ [some { ptr := some w.heap.length, size := xs.length }])[i]? = some (some v) →
      (w.objs[i]? = some (some v)) ∨ (i = w.objs.length ∧ v = ⟨some w.heap.length, xs.length⟩) := by
    intro i v hi
    rcases Nat.lt_or_ge i w.objs.length with hl | hl
    · rw [List.getElem?_append_left hl] at hi; exact Or.inl hi
    · rw [List.getElem?_append_right hl] at hi
      have : i = w.objs.length := by
        rcases Nat.lt_or_ge 0 (i - w.objs.length) with h' | h'
        · rw [List.getElem?_eq_none (by simp; omega)] at hi; cases hi
        · omega
      subst this
      simp at hi
      exact Or.inr ⟨rfl, hi.symm⟩
  constructor
  · simp [R.len]
  · intro i v hi
    rcases hcase i v hi with hi | ⟨rfl, rfl⟩
    · obtain ⟨ys, h1, h2, h3⟩ := R.rep i v hi
      refine ⟨ys, getElem?_append_some h1, h2, ?_⟩
      cases hp : v.ptr with
      | none => rw [hp] at h3; exact h3
      | some p =>
        rw [hp] at h3
        show h[p]? = _
        rw [hold p (lt_of_block h3)]; exact h3
    · refine ⟨xs, ?_, rfl, hnew⟩
      rw [R.len]; simp
  · intro i ys hi
    rcases Nat.lt_or_ge i s.length with hl | hl
    · rw [List.getElem?_append_left hl] at hi
      obtain ⟨v, hv⟩ := R.live i ys hi
      exact ⟨v, getElem?_append_some hv⟩
    · have : i = s.length := by
        rcases Nat.lt_or_ge i (s.length + 1) with h' | h'
        · omega
        · rw [List.getElem?_eq_none (by simp; omega)] at hi; cases hi
      subst this
      exact ⟨⟨some w.heap.length, xs.length⟩, by rw [← R.len]; simp⟩
  · intro i j v t p hi hj hv ht
    rcases hcase i v hi with hi | ⟨rfl, rfl⟩ <;> rcases hcase j t hj with hj | ⟨rfl, rfl⟩
    · exact R.sep i j v t p hi hj hv ht
    · have := hptr i v p hi hv; cases ht; omega
    · have := hptr j t p hj ht; cases hv; omega
    · rfl

/-- Replacing object `i` (its block changed or replaced by a fresh one). -/
theorem refines_update {w : World α} {s : Spec.State α} (R : Refines w s) {i : Nat} {v v' : Vec}
    {xs : List α} {h : BHeap α} (hv : w.objs[i]? = some (some v))
    (hold : ∀ (j : Nat) t q b, j ≠ i → w.objs[j]? = some (some t) → t.ptr = some q →
      w.heap[q]? = some (some b) → h[q]? = some (some b))
    (hfresh : ∀ p, v'.ptr = some p → v.ptr = some p ∨ w.heap.length ≤ p)
    (hr : Rep h v' xs) :
    Refines { heap := h, objs := w.objs.set i (some v') } (s.set i (some xs)) := by
  have hil : i < w.objs.length := by
    rcases Nat.lt_or_ge i w.objs.length with h' | h'
    · exact h'
    · rw [List.getElem?_eq_none h'] at hv; cases hv
  have hsl : i < s.length := by rw [← R.len]; exact hil
  have hptr : ∀ (i : Nat) v p, w.objs[i]? = some (some v) → v.ptr = some p → p < w.heap.length := by
    intro i v p hi hp
    obtain ⟨ys, -, hr⟩ := R.rep i v hi
    unfold Rep at hr
    rw [hp] at hr
    exact lt_of_block hr.2
  have hcase : ∀ (j : Nat) t, (w.objs.set i (some v'))[j]? = some (some t) →
      (j = i ∧ t = v') ∨ (j ≠ i ∧ w.objs[j]? = some (some t)) := by
    intro j t hj
    by_cases hij : i = j
    · subst hij
      rw [List.getElem?_set_self hil] at hj
      cases hj; exact Or.inl ⟨rfl, rfl⟩
    · rw [List.getElem?_set_ne hij] at hj
      exact Or.inr ⟨fun h => hij h.symm, hj⟩
  constructor
  · simp [R.len]
  · intro j t hj
    rcases hcase j t hj with ⟨rfl, rfl⟩ | ⟨hne, hj⟩
    · exact ⟨xs, by rw [List.getElem?_set_self hsl], hr⟩
    · obtain ⟨ys, h1, h2, h3⟩ := R.rep j t hj
      refine ⟨ys, by rw [List.getElem?_set_ne (fun h => hne h.symm)]; exact h1, h2, ?_⟩
      cases hp : t.ptr with
      | none => rw [hp] at h3; exact h3
      | some q =>
        rw [hp] at h3
        exact hold j t q ys hne hj hp h3
  · intro j ys hj
    by_cases hij : i = j
    · subst hij; exact ⟨v', by rw [List.getElem?_set_self hil]⟩
    · rw [List.getElem?_set_ne hij] at hj
      obtain ⟨t, ht⟩ := R.live j ys hj
      exact ⟨t, by rw [List.getElem?_set_ne hij]; exact ht⟩
  · intro a b x y p ha hb hx hy
    rcases hcase a x ha with ⟨rfl, rfl⟩ | ⟨hna, ha'⟩ <;> rcases hcase b y hb with ⟨hbi, hyv⟩ | ⟨hnb, hb⟩
    · exact hbi.symm
    · exfalso
      rcases hfresh p hx with h' | h'
      · exact hnb (R.sep b a y v p hb hv hy h')
      · have := hptr b y p hb hy; omega
    · exfalso
      rw [hyv] at hy
      rcases hfresh p hy with h' | h'
      · exact hna (R.sep a i x v p ha' hv hx h')
      · have := hptr a x p ha' hx; omega
    · exact R.sep a b x y p ha' hb hx hy

/-- Destroying object `i`. -/
theorem refines_destroy {w : World α} {s : Spec.State α} (R : Refines w s) {i : Nat} {v : Vec}
    {h : BHeap α} (hv : w.objs[i]? = some (some v))
    (hold : ∀ (j : Nat) t q b, j ≠ i → w.objs[j]? = some (some t) → t.ptr = some q →
      w.heap[q]? = some (some b) → h[q]? = some (some b)) :
    Refines { heap := h, objs := w.objs.set i none } (s.set i none) := by
  have hil : i < w.objs.length := by
    rcases Nat.lt_or_ge i w.objs.length with h' | h'
    · exact h'
    · rw [List.getElem?_eq_none h'] at hv; cases hv
  have hsl : i < s.length := by rw [← R.len]; exact hil
  have hcase : ∀ (j : Nat) t, (w.objs.set i none)[j]? = some (some t) →
      j ≠ i ∧ w.objs[j]? = some (some t) := by
    intro j t hj
    by_cases hij : i = j
    · subst hij; rw [List.getElem?_set_self hil] at hj; cases hj
    · rw [List.getElem?_set_ne hij] at hj
      exact ⟨fun h => hij h.symm, hj⟩
  constructor
  · simp [R.len]
  · intro j t hj
    obtain ⟨hne, hj⟩ := hcase j t hj
    obtain ⟨ys, h1, h2, h3⟩ := R.rep j t hj
    refine ⟨ys, by rw [List.getElem?_set_ne (fun h => hne h.symm)]; exact h1, h2, ?_⟩
    cases hp : t.ptr with
    | none => rw [hp] at h3; exact h3
    | some q =>
      rw [hp] at h3
      exact hold j t q ys hne hj hp h3
  · intro j ys hj
    by_cases hij : i = j
    · subst hij; rw [List.getElem?_set_self hsl] at hj; cases hj
    · rw [List.getElem?_set_ne hij] at hj
      obtain ⟨t, ht⟩ := R.live j ys hj
      exact ⟨t, by rw [List.getElem?_set_ne hij]; exact ht⟩
  · intro a b x y p ha hb hx hy
    exact R.sep a b x y p (hcase a x ha).2 (hcase b y hb).2 hx hy

theorem eqLoop_spec [DecidableEq α] (h : BHeap α) (p q : Nat) (xs ys : List α)
    (hp : h[p]? = some (some xs)) (hq : h[q]? = some (some ys)) (hl : xs.length = ys.length) :
    ∀ n x, x + n = xs.length → eqLoop h p q n x = .ok (decide (xs.drop x = ys.drop x)) := by
  intro n
  induction n with
  | zero =>
    intro x hx
    rw [List.drop_of_length_le (by omega), List.drop_of_length_le (by omega)]
    simp [eqLoop]
  | succ n ih =>
    intro x hx
    have h1 : x < xs.length := by omega
    have h2 : x < ys.length := by omega
    rw [eqLoop, load_ok hp (List.getElem?_eq_getElem h1)]
    simp only [ok_bind]
    rw [load_ok hq (List.getElem?_eq_getElem h2)]
    simp only [ok_bind]
    have e1 := List.drop_eq_getElem_cons h1
    have e2 := List.drop_eq_getElem_cons h2
    by_cases he : xs[x] = ys[x]
    · rw [if_pos he, ih (x + 1) (by omega)]
      congr 1
      rw [decide_eq_decide, e1, e2, he]
      simp only [List.cons.injEq, true_and]
    · rw [if_neg he]
      congr 1
      symm
      rw [decide_eq_false_iff_not, e1, e2]
      simp only [List.cons.injEq, he, false_and, not_false_eq_true]

theorem step_refines [DecidableEq α] (dflt : α) (w : World α) (s s' : Spec.State α) (op : Op α) (o : Out α)
    (R : Refines w s) (h : Spec.step dflt s op = some (o, s')) :
    ∃ w', step dflt w op = .ok (o, w') ∧ Refines w' s' := by
  cases op with
  | construct n =>
    cases h
    refine ⟨_, rfl, ?_⟩
    have := refines_push R (List.replicate n dflt) (w.heap ++ [some (List.replicate n dflt)]) 
      (fun p hp => List.getElem?_append_left hp) (by simp)
    simpa [construct, alloc] using this
  | copyConstruct j =>
    cases hj : Spec.live s j with
    | none => simp [Spec.step, hj] at h
    | some t =>
      simp [Spec.step, hj] at h
      obtain ⟨rfl, rfl⟩ := h
      obtain ⟨v, hv, hobj, hsz, hr⟩ := obj_of_live R hj
      have key : ∃ h', copyCells (w.heap ++ [some (List.replicate v.size dflt)]) (some w.heap.length) v.ptr
          v.size = .ok h' ∧ h'.length = w.heap.length + 1 ∧
          (∀ (p : Nat), p < w.heap.length → h'[p]? = w.heap[p]?) ∧
          h'[w.heap.length]? = some (some t) := by
        unfold copyCells
        by_cases hz : v.size = 0
        · rw [if_pos hz]
          have : t = [] := by rw [hsz] at hz; simpa using hz
          refine ⟨_, rfl, by simp, fun p hp => List.getElem?_append_left hp, ?_⟩
          simp [hz, this]
        · rw [if_neg hz]
          cases hp : v.ptr with
          | none => rw [hp] at hr; simp [hr] at hsz; omega
          | some p =>
            rw [hp] at hr
            have hpl := lt_of_block hr
            simp only [deref, ok_bind]
            rw [copyLoop_ok p w.heap.length (by omega) t v.size 0 _ (List.replicate v.size dflt)
              (getElem?_append_some hr) (by simp) (by omega) (by simp)]
            refine ⟨_, rfl, by simp, ?_, ?_⟩
            · intro q hq
              rw [List.getElem?_set_ne (by omega), List.getElem?_append_left hq]
            · rw [List.getElem?_set_self (by simp)]
              simp [hsz]
      obtain ⟨h', e1, e2, e3, e4⟩ := key
      refine ⟨_, ?_, refines_push R t h' e3 e4⟩
      rw [hsz] at e1
      simp [step, copyConstruct, hobj, alloc, e1, hsz]
  | destroy i =>
    cases hi : Spec.live s i with
    | none => simp [Spec.step, hi] at h
    | some t =>
      simp [Spec.step, hi] at h
      obtain ⟨rfl, rfl⟩ := h
      obtain ⟨v, hv, hobj, hsz, hr⟩ := obj_of_live R hi
      cases hp : v.ptr with
      | none =>
        refine ⟨_, by simp [step, destroy, hobj, hp, freeOpt]; rfl, refines_destroy R hv ?_⟩
        intro j t q b _ _ _ hb; exact hb
      | some p =>
        rw [hp] at hr
        refine ⟨_, by simp [step, destroy, hobj, hp, freeOpt, free_ok hr]; rfl, refines_destroy R hv ?_⟩
        intro j t q b hne hj hq hb
        rw [List.getElem?_set_ne]
        · exact hb
        · rintro rfl
          exact hne (R.sep j i t v p hj hv hq hp)
  | assign i j =>
    cases hi : Spec.live s i with
    | none => simp [Spec.step, hi] at h
    | some a =>
      cases hj : Spec.live s j with
      | none => simp [Spec.step, hi, hj] at h
      | some b =>
        simp [Spec.step, hi, hj] at h
        obtain ⟨rfl, rfl⟩ := h
        obtain ⟨v, hv, hvobj, hvsz, hvr⟩ := obj_of_live R hi
        obtain ⟨t, ht, htobj, htsz, htr⟩ := obj_of_live R hj
        by_cases hij : i = j
        · subst hij
          rw [hi] at hj; cases hj
          refine ⟨w, by simp [step, assign, hvobj], ?_⟩
          have : s.set i (some a) = s := by
            apply List.ext_getElem?
            intro k
            rw [List.getElem?_set]
            split
            · rename_i e; subst e
              rw [if_pos (lt_of_block (live_some hi)), live_some hi]
            · rfl
          rw [this]; exact R
        · -- after `resize`, object i has its own block of the right size (or size 0)
          have key : ∃ h' v', resize dflt w.heap v t = .ok (h', v') ∧ v'.size = t.size ∧
              (∀ p, v'.ptr = some p → v.ptr = some p ∨ w.heap.length ≤ p) ∧
              (∀ (k : Nat) u q c, k ≠ i → w.objs[k]? = some (some u) → u.ptr = some q →
                w.heap[q]? = some (some c) → h'[q]? = some (some c)) ∧
              (match v'.ptr with
                | some p => ∃ c, h'[p]? = some (some c) ∧ c.length = t.size
                | none => t.size = 0) := by
            unfold resize
            by_cases hsz : v.size ≠ t.size
            · rw [if_pos hsz]
              have hfree : ∃ h1, freeOpt w.heap v.ptr = .ok h1 ∧ h1.length = w.heap.length ∧
                  (∀ (k : Nat) u q c, k ≠ i → w.objs[k]? = some (some u) → u.ptr = some q →
                    w.heap[q]? = some (some c) → h1[q]? = some (some c)) := by
                cases hp : v.ptr with
                | none => exact ⟨_, rfl, rfl, fun k u q c _ _ _ hc => hc⟩
                | some p =>
                  rw [hp] at hvr
                  refine ⟨_, free_ok hvr, by simp, ?_⟩
                  intro k u q c hne hk hq hc
                  rw [List.getElem?_set_ne]
                  · exact hc
                  · rintro rfl; exact hne (R.sep k i u v p hk hv hq hp)
              obtain ⟨h1, e1, e2, e3⟩ := hfree
              rw [e1]
              simp only [ok_bind]
              by_cases hz : t.size = 0
              · rw [if_pos hz]
                exact ⟨_, _, rfl, rfl, fun p hp => (nomatch hp), e3, hz⟩
              · rw [if_neg hz]
                refine ⟨_, _, rfl, rfl, ?_, ?_, ?_⟩
                · intro p hp; cases hp; right; simp [alloc, e2]
                · intro k u q c hne hk hq hc
                  exact getElem?_append_some (e3 k u q c hne hk hq hc)
                · exact ⟨List.replicate t.size dflt, by simp [alloc], by simp⟩
            · rw [if_neg hsz]
              have hsz' : v.size = t.size := by omega
              refine ⟨_, _, rfl, hsz', fun p hp => Or.inl hp, fun k u q c _ _ _ hc => hc, ?_⟩
              cases hp : v.ptr with
              | none => rw [hp] at hvr; simp [hvr] at hvsz; simp; omega
              | some p => rw [hp] at hvr; exact ⟨a, hvr, by omega⟩
          obtain ⟨h', v', e1, e2, e3, e4, e5⟩ := key
          by_cases hz : t.size = 0
          · have hb : b = [] := by rw [htsz] at hz; simpa using hz
            refine ⟨_, by simp [step, assign, hvobj, htobj, hij, e1, copyCells, e2, hz]; rfl, ?_⟩
            apply refines_update R hv e4 e3
            refine ⟨by rw [e2, htsz], ?_⟩
            cases hp : v'.ptr with
            | none => exact hb
            | some p =>
              rw [hp] at e5
              obtain ⟨c, hc, hcl⟩ := e5
              simp only
              rw [hc, hb]
              have : c = [] := by rw [hz] at hcl; simpa using hcl
              rw [this]
          · cases hp' : v'.ptr with
            | none => rw [hp'] at e5; exact absurd e5 hz
            | some p =>
              rw [hp'] at e5
              obtain ⟨c, hc, hcl⟩ := e5
              cases hq : t.ptr with
              | none => rw [hq] at htr; simp [htr] at htsz; omega
              | some q =>
                rw [hq] at htr
                have hpq : p ≠ q := by
                  rintro rfl
                  rcases e3 p hp' with h1 | h1
                  · exact hij (R.sep i j v t p hv ht h1 hq)
                  · have := lt_of_block htr; omega
                have hq' := e4 j t q b (fun h => hij h.symm) ht hq htr
                have hcopy := copyLoop_ok q p hpq b t.size 0 h' c hq' hc (by omega) (by omega)
                refine ⟨_, by
                  simp [step, assign, hvobj, htobj, hij, e1, copyCells, e2, hz, hp', hq, deref, hcopy]
                  rfl, ?_⟩
                apply refines_update R hv _ e3
                · refine ⟨by rw [e2, htsz], ?_⟩
                  rw [hp']
                  simp only
                  rw [List.getElem?_set_self (lt_of_block hc)]
                  simp [htsz]
                  omega
                · intro k u r d hne hk hr hd
                  rw [List.getElem?_set_ne]
                  · exact e4 k u r d hne hk hr hd
                  · rintro rfl
                    rcases e3 p hp' with h1 | h1
                    · exact hne (R.sep k i u v p hk hv hr h1)
                    · have := lt_of_block hd; omega
  | set i k x =>
    cases hi : Spec.live s i with
    | none => simp [Spec.step, hi] at h
    | some a =>
      simp [Spec.step, hi] at h
      obtain ⟨hk, rfl, rfl⟩ := h
      obtain ⟨v, hv, hvobj, hvsz, hvr⟩ := obj_of_live R hi
      cases hp : v.ptr with
      | none => rw [hp] at hvr; simp [hvr] at hk
      | some p =>
        rw [hp] at hvr
        refine ⟨_, by simp [step, set, hvobj, hp, deref, store_ok hvr hk]; rfl, ?_⟩
        have hobjs : w.objs = w.objs.set i (some v) := by
          apply List.ext_getElem?
          intro k
          rw [List.getElem?_set]
          split
          · rename_i e; subst e
            have : i < w.objs.length := by
              rcases Nat.lt_or_ge i w.objs.length with h' | h'
              · exact h'
              · rw [List.getElem?_eq_none h'] at hv; cases hv
            rw [if_pos this, hv]
          · rfl
        have := refines_update (v' := v) (xs := a.set k x) (h := w.heap.set p (some (a.set k x))) R hv
          (by
            intro j t q b hne hj hq hb
            rw [List.getElem?_set_ne]
            · exact hb
            · rintro rfl; exact hne (R.sep j i t v p hj hv hq hp))
          (fun q hq => Or.inl hq)
          (by
            refine ⟨by simp [hvsz], ?_⟩
            rw [hp]
            simp only
            rw [List.getElem?_set_self (lt_of_block hvr)])
        rw [← hobjs] at this
        exact this
  | get i k =>
    cases hi : Spec.live s i with
    | none => simp [Spec.step, hi] at h
    | some a =>
      simp only [Spec.step, hi, Option.bind_eq_bind, Option.bind_some, Option.bind_eq_some_iff] at h
      obtain ⟨x, hx, h⟩ := h
      cases h
      obtain ⟨v, hv, hvobj, hvsz, hvr⟩ := obj_of_live R hi
      cases hp : v.ptr with
      | none => rw [hp] at hvr; simp [hvr] at hx
      | some p =>
        rw [hp] at hvr
        exact ⟨w, by simp [step, get, hvobj, hp, deref, load_ok hvr hx], R⟩
  | eq i j =>
    cases hi : Spec.live s i with
    | none => simp [Spec.step, hi] at h
    | some a =>
      cases hj : Spec.live s j with
      | none => simp [Spec.step, hi, hj] at h
      | some b =>
        simp [Spec.step, hi, hj] at h
        obtain ⟨rfl, rfl⟩ := h
        obtain ⟨v, hv, hvobj, hvsz, hvr⟩ := obj_of_live R hi
        obtain ⟨t, ht, htobj, htsz, htr⟩ := obj_of_live R hj
        refine ⟨w, ?_, R⟩
        have : eq w i j = .ok (decide (a = b)) := by
          unfold eq
          rw [hvobj, htobj]
          simp only [ok_bind]
          by_cases hs : v.size ≠ t.size
          · rw [if_pos hs]
            have : a ≠ b := by rintro rfl; omega
            simp [this]
          · rw [if_neg hs]
            by_cases hz : v.size = 0
            · have h1 : a = [] := by rw [hvsz] at hz; simpa using hz
              have h2 : b = [] := by
                have : b.length = 0 := by omega
                simpa using this
              rw [if_pos hz, h1, h2]; simp
            · rw [if_neg hz]
              cases hp : v.ptr with
              | none => rw [hp] at hvr; simp [hvr] at hvsz; omega
              | some p =>
                cases hq : t.ptr with
                | none => rw [hq] at htr; simp [htr] at htsz; omega
                | some q =>
                  rw [hp] at hvr
                  rw [hq] at htr
                  simp only [deref, ok_bind]
                  rw [eqLoop_spec w.heap p q a b hvr htr (by omega) v.size 0 (by omega)]
                  simp
        simp [step, this]
  | size i =>
    cases hi : Spec.live s i with
    | none => simp [Spec.step, hi] at h
    | some a =>
      simp [Spec.step, hi] at h
      obtain ⟨rfl, rfl⟩ := h
      obtain ⟨v, hv, hvobj, hvsz, hvr⟩ := obj_of_live R hi
      exact ⟨w, by simp [step, hvobj, hvsz], R⟩

theorem run_refines [DecidableEq α] (dflt : α) (ops : List (Op α)) : ∀ (w : World α) (s s' : Spec.State α) os,
    Refines w s → Spec.run dflt s ops = some (os, s') → ∃ w', run dflt w ops = .ok (os, w') ∧ Refines w' s' := by
  induction ops with
  | nil => intro w s s' os R h; cases h; exact ⟨w, rfl, R⟩
  | cons op ops ih =>
    intro w s s' os R h
    rw [Spec.run] at h
    cases h1 : Spec.step dflt s op with
    | none => simp [h1] at h
    | some r =>
      obtain ⟨o, s1⟩ := r
      simp only [h1, Option.bind_eq_bind, Option.bind_some, Option.bind_eq_some_iff] at h
      obtain ⟨⟨os', s2⟩, h2, h⟩ := h
      cases h
      obtain ⟨w1, e1, R1⟩ := step_refines dflt w s s1 op o R h1
      obtain ⟨w2, e2, R2⟩ := ih w1 s1 s2 os' R1 h2
      exact ⟨w2, by simp [run, e1, e2], R2⟩

/-- **C26.**  For every history of constructions, copies, assignments, destructions, element writes and reads,
comparisons and size queries in which objects are used only while alive and indices are in range, the
static vectors give exactly the answers that plain lists with value semantics give (a write is read back and
changes nothing else, copies are equal and independent, equality is equality of the contents), and no
operation touches memory it does not own. -/
theorem staticVector_refines [DecidableEq α] (dflt : α) (ops : List (Op α)) (os : List (Out α))
    (s : Spec.State α) (h : Spec.run dflt [] ops = some (os, s)) :
    ∃ w, run dflt { heap := [], objs := [] } ops = .ok (os, w) := by
  obtain ⟨w, h1, -⟩ := run_refines dflt ops { heap := [], objs := [] } [] s os
    { len := rfl, rep := by intro i v h; simp at h, live := by intro i xs h; simp at h
      sep := by intro i j v t p h; simp at h } h
  exact ⟨w, h1⟩

/-- A legal history: two vectors, a copy, a write to the copy, an assignment that changes the size. -/
example : Spec.run (0 : Nat) [] [.construct 2, .set 0 1 7, .copyConstruct 0, .set 1 0 9, .get 0 0, .get 1 1,
    .eq 0 1, .construct 3, .assign 2 1, .eq 2 1, .size 2, .destroy 1, .get 2 0] =
  some ([.none, .none, .none, .none, .val 0, .val 7, .bool false, .none, .none, .bool true, .num 2, .none,
    .val 9], [some [0, 7], none, some [9, 7]]) := by decide

end Verif.StaticVector
