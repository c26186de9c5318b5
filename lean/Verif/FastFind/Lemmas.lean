import Verif.FastFind.Model
import Verif.FastFind.Spec

namespace Verif.FastFind

open Spec

set_option linter.unusedSectionVars false

variable {α : Type} [DecidableEq α]

/-! ## SetPattern -/

theorem inner_ok (eq : α → α → Bool) (p : List α) (x : Nat) :
    ∀ (k x2 : Nat) (s : List Bool) (y : Nat), x + 1 < p.length → x2 + 1 + k ≤ p.length →
      x2 + k ≤ s.length →
      ∃ s' y', inner eq p x k x2 s y = .ok (s', y') ∧ s'.length = s.length ∧ y' ≤ y + k
  | 0, x2, s, y, _, _, _ => ⟨s, y, rfl, rfl, by omega⟩
  | k + 1, x2, s, y, h1, h2, h3 => by
    rw [inner, rd_ok (show x + 1 < p.length by omega), rd_ok (show x2 + 1 < p.length by omega)]
    simp only [ok_bind]
    split
    · rw [wr_ok _ (show x2 < s.length by omega)]
      obtain ⟨s', y', e, hl, hy⟩ := inner_ok eq p x k (x2 + 1) (s.set x2 true) (y + 1) h1 (by omega)
        (by rw [List.length_set]; omega)
      exact ⟨s', y', e, by rw [hl, List.length_set], by omega⟩
    · obtain ⟨s', y', e, hl, hy⟩ := inner_ok eq p x k (x2 + 1) s y h1 (by omega) (by omega)
      exact ⟨s', y', e, hl, by omega⟩

/-- What is known about the two chosen positions while the outer loop runs. -/
def Chosen (x : Nat) (a b : Option Nat) : Prop :=
  (∀ i, a = some i → 1 ≤ i ∧ i ≤ x) ∧
    (∀ j, b = some j → ∃ i, a = some i ∧ 1 ≤ j ∧ j < i)

theorem outer_ok (eq : α → α → Bool) (p : List α) :
    ∀ (k x : Nat) (s : List Bool) (mn : Nat) (a b : Option Nat), 2 ≤ p.length →
      x + k = p.length - 2 → s.length = p.length - 2 → Chosen x a b →
      (p.length < 10 → b = none) →
      ∃ a' b', outer eq p k x s mn a b = .ok (a', b') ∧ Chosen (x + k) a' b' ∧
        (p.length < 10 → b' = none) ∧ (a.isSome → a'.isSome)
  | 0, x, s, mn, a, b, _, _, _, hc, hb => ⟨a, b, rfl, hc, hb, id⟩
  | k + 1, x, s, mn, a, b, h2, hx, hs, hc, hb => by
    rw [outer, rd_ok (show x < s.length by omega)]
    simp only [ok_bind]
    have hc' : Chosen (x + 1) a b :=
      ⟨fun i hi => by have := hc.1 i hi; omega, hc.2⟩
    split
    · obtain ⟨a', b', e, h⟩ := outer_ok eq p k (x + 1) s mn a b h2 (by omega) hs hc' hb
      exact ⟨a', b', e, by rw [show x + (k + 1) = x + 1 + k by omega]; exact h⟩
    · rw [wr_ok _ (show x < s.length by omega)]
      obtain ⟨s', y, e, hl, hy⟩ := inner_ok eq p x (p.length - 2 - (x + 1)) (x + 1)
        (s.set x true) 1 (by omega) (by omega) (by rw [List.length_set]; omega)
      simp only [ok_bind, e]
      rw [List.length_set] at hl
      split
      · have hn : Chosen (x + 1) (some (x + 1)) (if p.length ≥ 10 then a else b) := by
          refine ⟨fun i hi => by cases hi; omega, fun j hj => ⟨x + 1, rfl, ?_⟩⟩
          split at hj
          · have := hc.1 j hj; omega
          · obtain ⟨i, hi, h1, h2⟩ := hc.2 j hj
            have := hc.1 i hi; omega
        have hb' : p.length < 10 → (if p.length ≥ 10 then a else b) = none := by
          intro h; rw [if_neg (by omega)]; exact hb h
        obtain ⟨a', b', e, h⟩ := outer_ok eq p k (x + 1) s' y (some (x + 1)) _ h2 (by omega)
          (by omega) hn hb'
        exact ⟨a', b', e, by rw [show x + (k + 1) = x + 1 + k by omega]; exact h.1, h.2.1,
          fun _ => h.2.2 rfl⟩
      · obtain ⟨a', b', e, h⟩ := outer_ok eq p k (x + 1) s' mn a b h2 (by omega) (by omega) hc' hb
        exact ⟨a', b', e, by rw [show x + (k + 1) = x + 1 + k by omega]; exact h⟩

/-- Started on a fresh pattern of at least three elements, the loop chooses a position. -/
theorem outer_start (eq : α → α → Bool) (p : List α) (h : 3 ≤ p.length) (hp : p.length < 2 ^ 64) :
    ∃ i b', outer eq p (p.length - 2) 0 (List.replicate (p.length - 2) false) sizeMax none none
        = .ok (some i, b') ∧ Chosen (p.length - 2) (some i) b' ∧ (p.length < 10 → b' = none) := by
  obtain ⟨n, hn⟩ : ∃ n, p.length - 2 = n + 1 := ⟨p.length - 3, by omega⟩
  rw [hn, outer, rd_ok (by simp)]
  simp only [ok_bind, List.getElem_replicate, Bool.false_eq_true, if_false]
  rw [wr_ok _ (by simp)]
  obtain ⟨s', y, e, hl, hy⟩ := inner_ok eq p 0 (p.length - 2 - (0 + 1)) (0 + 1)
    ((List.replicate (n + 1) false).set 0 true) 1 (by omega) (by omega) (by simp; omega)
  simp only [ok_bind, e]
  rw [if_pos (show sizeMax ≥ y by unfold sizeMax; omega)]
  simp only [List.length_set, List.length_replicate] at hl
  obtain ⟨a', b', e, hc, hb, ha⟩ := outer_ok eq p n (0 + 1) s' y (some (0 + 1))
    (if p.length ≥ 10 then none else none) (by omega) (by omega) (by omega)
    ⟨fun i hi => by cases hi; omega, fun j hj => by split at hj <;> cases hj⟩ (fun _ => by simp)
  have := ha rfl
  cases a' with
  | none => cases this
  | some i => exact ⟨i, b', e, by rw [show n + 1 = 0 + 1 + n by omega]; exact hc, hb⟩

theorem adjust_ok (n i : Nat) (b : Option Nat) (hn : 5 ≤ n) (hc : Chosen (n - 2) (some i) b)
    (hb : n < 10 → b = none) :
    ∃ i' b', adjust n (some i) b = (some i', b') ∧ 1 ≤ i' ∧ i' < n ∧
      (∀ j, b' = some j → 1 ≤ j ∧ j ≤ i') := by
  have h1 := hc.1 i rfl
  cases b with
  | none =>
    by_cases h10 : n ≥ 10
    · refine ⟨i + (n - 1 - i) / 2, _, by simp only [adjust]; rw [if_pos h10], by omega, by omega, ?_⟩
      intro j hj
      split at hj
      · cases hj; omega
      · cases hj; omega
    · by_cases hi : i = n - 1 - 1
      · refine ⟨(n - 1) / 2, none, ?_, by omega, by omega, (fun j hj => nomatch hj)⟩
        simp only [adjust]; rw [if_neg h10, if_pos hi]; rfl
      · refine ⟨i, none, ?_, by omega, by omega, (fun j hj => nomatch hj)⟩
        simp only [adjust]; rw [if_neg h10, if_neg hi]; rfl
  | some j =>
    obtain ⟨_, h, hj1, hj2⟩ := hc.2 j rfl
    cases h
    refine ⟨i, _, rfl, by omega, by omega, ?_⟩
    intro j' hj'
    split at hj'
    · cases hj'; omega
    · cases hj'; omega

theorem ptrDiff_eq {u v : Nat} (h : v ≤ u) : ptrDiff u v = u - v := by
  rw [ptrDiff, if_pos h]

theorem midpoint_ok (last i j m : Nat) (h1 : j ≤ i) (h2 : i ≤ last)
    (h : midpoint last i j = some m) : m ≤ last := by
  simp only [midpoint] at h
  rw [ptrDiff_eq (Nat.zero_le j), ptrDiff_eq h1, ptrDiff_eq h2] at h
  by_cases c1 : 1 < j - 0
  all_goals
    simp only [c1, if_true, if_false] at h
    split at h <;> rename_i hh <;> simp only at h <;> split at h <;> rename_i hh2
    all_goals
      simp only at h hh hh2
      first
        | (have h := Option.some.inj h; omega)
        | (split at h
           · have h := Option.some.inj h; omega
           · cases h)

/-- What `SetPattern` establishes for a non-empty pattern. -/
structure PatOK (f : Find α) (p : List α) : Prop where
  ne : 0 < p.length
  pat : f.pat = some p
  lastPos : f.lastPos = p.length - 1
  last : f.last = if p.length > 1 then some (p.length - 1) else none
  min : ∀ i, f.min = some i → i < p.length ∧ f.minPos = i
  min2 : ∀ i, f.min2 = some i → i < p.length ∧ f.min2Pos = i
  mid : ∀ i, f.mid = some i → i < p.length ∧ f.midPos = i
  mid_min2 : f.mid.isSome → f.min2.isSome
  min2_min : f.min2.isSome → f.min.isSome
  min_size : f.min.isSome → 5 ≤ p.length

theorem setPattern_ok (eq : α → α → Bool) (f : Find α) (p : List α) (h : 0 < p.length)
    (hp : p.length < 2 ^ 64) :
    ∃ f', setPattern eq f p = .ok f' ∧ PatOK f' p ∧ f'.hasData = false := by
  unfold setPattern
  rw [if_neg (by omega)]
  simp only
  by_cases h5 : p.length ≥ 5
  · rw [if_pos h5]
    obtain ⟨i, b, e, hc, hb⟩ := outer_start eq p (by omega) hp
    simp only [e, ok_bind]
    obtain ⟨i', b', e', h1, h2, h3⟩ := adjust_ok p.length i b h5 hc hb
    simp only [e', ptr, ok_bind]
    cases b' with
    | none =>
      exact ⟨_, rfl, ⟨h, rfl, rfl, rfl, fun j hj => by cases hj; exact ⟨h2, rfl⟩,
        (fun j hj => nomatch hj), (fun j hj => nomatch hj), (fun hj => nomatch hj),
        (fun hj => nomatch hj), fun _ => h5⟩, rfl⟩
    | some j =>
      have h3 := h3 j rfl
      simp only
      by_cases h15 : p.length ≥ 15
      · rw [if_pos h15]
        cases hm : midpoint (p.length - 1) i' j with
        | none =>
          exact ⟨_, rfl, ⟨h, rfl, rfl, rfl, fun j hj => by cases hj; exact ⟨h2, rfl⟩,
            fun j hj => by cases hj; exact ⟨by omega, rfl⟩, (fun j hj => nomatch hj),
            (fun hj => nomatch hj), fun _ => rfl, fun _ => h5⟩, rfl⟩
        | some m =>
          have := midpoint_ok _ _ _ _ h3.2 (by omega) hm
          exact ⟨_, rfl, ⟨h, rfl, rfl, rfl, fun j hj => by cases hj; exact ⟨h2, rfl⟩,
            fun j hj => by cases hj; exact ⟨by omega, rfl⟩,
            fun j hj => by cases hj; exact ⟨by omega, rfl⟩,
            fun _ => rfl, fun _ => rfl, fun _ => h5⟩, rfl⟩
      · rw [if_neg h15]
        exact ⟨_, rfl, ⟨h, rfl, rfl, rfl, fun j hj => by cases hj; exact ⟨h2, rfl⟩,
          fun j hj => by cases hj; exact ⟨by omega, rfl⟩, (fun j hj => nomatch hj),
          (fun hj => nomatch hj), fun _ => rfl, fun _ => h5⟩, rfl⟩
  · rw [if_neg h5]
    exact ⟨_, rfl, ⟨h, rfl, rfl, rfl, (fun j hj => nomatch hj), (fun j hj => nomatch hj),
      (fun j hj => nomatch hj), (fun hj => nomatch hj), (fun hj => nomatch hj), (fun hj => nomatch hj)⟩, rfl⟩

/-! ## FindNext -/

/-- Element `k` of the pattern equals the data element it lies on. -/
def EqAt (eq : α → α → Bool) (p d : List α) (cur k : Nat) : Prop :=
  ∀ a b, p[k]? = some a → d[cur + k]? = some b → eq a b = true

theorem eqAt_iff {eq : α → α → Bool} {p d : List α} {cur k : Nat} (h1 : k < p.length)
    (h2 : cur + k < d.length) : EqAt eq p d cur k ↔ eq p[k] d[cur + k] = true := by
  constructor
  · intro h; exact h _ _ (List.getElem?_eq_getElem h1) (List.getElem?_eq_getElem h2)
  · intro h a b ha hb
    rw [List.getElem?_eq_getElem h1] at ha
    rw [List.getElem?_eq_getElem h2] at hb
    cases ha; cases hb; exact h

theorem probe_ok (eq : α → α → Bool) (p d : List α) (cur : Nat) (hd : cur + p.length ≤ d.length) :
    ∀ ps : List (Option Nat × Nat), (∀ x ∈ ps, x.1 = some x.2 ∧ x.2 < p.length) →
      ∃ c, probe eq p d cur ps = .ok c ∧ (c = true ↔ ∀ x ∈ ps, EqAt eq p d cur x.2)
  | [], _ => ⟨true, rfl, by simp⟩
  | (q, off) :: r, h => by
    have h1 := h (q, off) List.mem_cons_self
    simp only at h1
    obtain ⟨rfl, h2⟩ := h1
    rw [probe, ptr, ok_bind, rd_ok h2, ok_bind, rd_ok (show cur + off < d.length by omega), ok_bind]
    have hi := eqAt_iff (eq := eq) h2 (show cur + off < d.length by omega)
    split
    · rename_i he
      obtain ⟨c, e, hc⟩ := probe_ok eq p d cur hd r (fun x hx => h x (List.mem_cons_of_mem _ hx))
      refine ⟨c, e, hc.trans ⟨fun hh x hx => ?_, fun hh x hx => hh x (List.mem_cons_of_mem _ hx)⟩⟩
      rcases List.mem_cons.1 hx with rfl | hx
      · exact hi.2 he
      · exact hh x hx
    · rename_i he
      refine ⟨false, rfl, ⟨(fun hh => nomatch hh), fun hh => ?_⟩⟩
      exact absurd (hi.1 (hh (some off, off) List.mem_cons_self)) he

theorem midLoop_ok (eq : α → α → Bool) (p d : List α) (cur : Nat)
    (hd : cur + p.length ≤ d.length) :
    ∀ k x : Nat, x + k < p.length →
      ∃ c, midLoop eq p d cur k x = .ok c ∧
        (c = true ↔ ∀ j, x ≤ j → j < x + k → EqAt eq p d cur j)
  | 0, x, _ => ⟨true, rfl, by simp; intro j h1 h2; omega⟩
  | k + 1, x, h => by
    rw [midLoop, rd_ok (show x < p.length by omega), ok_bind,
      rd_ok (show cur + x < d.length by omega), ok_bind]
    have hi := eqAt_iff (eq := eq) (show x < p.length by omega) (show cur + x < d.length by omega)
    split
    · rename_i he
      obtain ⟨c, e, hc⟩ := midLoop_ok eq p d cur hd k (x + 1) (by omega)
      refine ⟨c, e, hc.trans ⟨fun hh j h1 h2 => ?_, fun hh j h1 h2 => hh j (by omega) (by omega)⟩⟩
      by_cases hj : j = x
      · subst hj; exact hi.2 he
      · exact hh j (by omega) (by omega)
    · rename_i he
      exact ⟨false, rfl, ⟨(fun hh => nomatch hh), fun hh => absurd (hi.1 (hh x (by omega) (by omega))) he⟩⟩

theorem midCmp_ok (eq : α → α → Bool) (p d : List α) (cur : Nat)
    (he : ∀ a b, eq a b = true ↔ a = b) (hp : 1 < p.length)
    (hd : cur + p.length ≤ d.length) :
    ∃ c, midCmp p d cur (p.length - 1 - 1) = .ok c ∧
        (c = true ↔ ∀ j, 1 ≤ j → j < p.length - 1 → EqAt eq p d cur j) := by
  refine ⟨_, by rw [midCmp, if_pos (by omega)], ?_⟩
  rw [decide_eq_true_iff]
  constructor
  · intro h j h1 h2 a b ha hb
    rw [he]
    have := congrArg (fun l => l[j - 1]?) h
    simp only [List.getElem?_take, List.getElem?_drop] at this
    rw [if_pos (by omega), if_pos (by omega), show 1 + (j - 1) = j by omega,
      show cur + 1 + (j - 1) = cur + j by omega, ha, hb] at this
    exact Option.some.inj this
  · intro h
    apply List.ext_getElem?
    intro i
    simp only [List.getElem?_take, List.getElem?_drop]
    split
    · rename_i hi
      have hj := h (1 + i) (by omega) (by omega)
      rw [eqAt_iff (show 1 + i < p.length by omega) (show cur + (1 + i) < d.length by omega), he] at hj
      rw [List.getElem?_eq_getElem (show 1 + i < p.length by omega),
        show cur + 1 + i = cur + (1 + i) by omega,
        List.getElem?_eq_getElem (show cur + (1 + i) < d.length by omega), hj]
    · rfl

/-- What a choice of comparisons must satisfy to decide a match. -/
structure StratOK (eq : α → α → Bool) (p : List α) (ps : List (Option Nat × Nat)) (m : Middle) :
    Prop where
  good : ∀ x ∈ ps, x.1 = some x.2 ∧ x.2 < p.length
  first : (some 0, 0) ∈ ps
  last : (some (p.length - 1), p.length - 1) ∈ ps
  none : m = .none → p.length = 1
  two : m ≠ .none → 1 < p.length
  cmp : m = .memcmp → ∀ a b, eq a b = true ↔ a = b

theorem strategy_ok (eq : α → α → Bool) (f : Find α) (p : List α) (u : Bool) (h : PatOK f p)
    (hu : u = true → ∀ a b, eq a b = true ↔ a = b) :
    StratOK eq p (strategy f u).1 (strategy f u).2 := by
  have hn := h.ne
  have hbig : ∀ m, m = (if u = true then Middle.memcmp else Middle.loop) →
      m = .memcmp → ∀ a b, eq a b = true ↔ a = b := by
    intro m hm hm2
    cases u with
    | true => exact hu rfl
    | false => rw [hm] at hm2; cases hm2
  have hbn : (if u = true then Middle.memcmp else Middle.loop) ≠ .none := by cases u <;> simp
  have hlast : 1 < p.length → f.last = some (p.length - 1) := fun h1 => by rw [h.last, if_pos h1]
  unfold strategy
  simp only
  split
  · rename_i hm
    have h2 := h.mid_min2 hm
    have h3 := h.min2_min h2
    have h5 := h.min_size h3
    obtain ⟨a, ha⟩ := Option.isSome_iff_exists.1 hm
    obtain ⟨b, hb⟩ := Option.isSome_iff_exists.1 h2
    obtain ⟨c, hc⟩ := Option.isSome_iff_exists.1 h3
    obtain ⟨a1, a2⟩ := h.mid a ha
    obtain ⟨b1, b2⟩ := h.min2 b hb
    obtain ⟨c1, c2⟩ := h.min c hc
    rw [ha, hb, hc, a2, b2, c2, h.lastPos, hlast (by omega)]
    refine ⟨?_, List.mem_cons_self, List.mem_cons_of_mem _ List.mem_cons_self,
      fun e => absurd e hbn, fun _ => by omega, hbig _ rfl⟩
    intro x hx
    simp only [List.mem_cons, List.not_mem_nil, or_false] at hx
    rcases hx with rfl | rfl | rfl | rfl | rfl <;> refine ⟨rfl, ?_⟩ <;> simp only <;> omega
  · split
    · rename_i h2
      have h3 := h.min2_min h2
      have h5 := h.min_size h3
      obtain ⟨b, hb⟩ := Option.isSome_iff_exists.1 h2
      obtain ⟨c, hc⟩ := Option.isSome_iff_exists.1 h3
      obtain ⟨b1, b2⟩ := h.min2 b hb
      obtain ⟨c1, c2⟩ := h.min c hc
      rw [hb, hc, b2, c2, h.lastPos, hlast (by omega)]
      refine ⟨?_, List.mem_cons_self, List.mem_cons_of_mem _ List.mem_cons_self,
        fun e => absurd e hbn, fun _ => by omega, hbig _ rfl⟩
      intro x hx
      simp only [List.mem_cons, List.not_mem_nil, or_false] at hx
      rcases hx with rfl | rfl | rfl | rfl <;> refine ⟨rfl, ?_⟩ <;> simp only <;> omega
    · split
      · rename_i h3
        have h5 := h.min_size h3
        obtain ⟨c, hc⟩ := Option.isSome_iff_exists.1 h3
        obtain ⟨c1, c2⟩ := h.min c hc
        rw [hc, c2, h.lastPos, hlast (by omega)]
        refine ⟨?_, List.mem_cons_self, List.mem_cons_of_mem _ List.mem_cons_self,
          fun e => absurd e hbn, fun _ => by omega, hbig _ rfl⟩
        intro x hx
        simp only [List.mem_cons, List.not_mem_nil, or_false] at hx
        rcases hx with rfl | rfl | rfl <;> refine ⟨rfl, ?_⟩ <;> simp only <;> omega
      · by_cases h1 : 1 < p.length
        · rw [hlast h1, h.lastPos]
          simp only [Option.isSome_some, if_true]
          refine ⟨?_, List.mem_cons_self, List.mem_cons_of_mem _ List.mem_cons_self,
            (fun e => nomatch e), fun _ => by omega, (fun e => nomatch e)⟩
          intro x hx
          simp only [List.mem_cons, List.not_mem_nil, or_false] at hx
          rcases hx with rfl | rfl <;> refine ⟨rfl, ?_⟩ <;> simp only <;> omega
        · have hl : f.last = none := by rw [h.last, if_neg h1]
          rw [hl]
          simp only [Option.isSome_none, Bool.false_eq_true, if_false]
          have : p.length = 1 := by omega
          refine ⟨?_, List.mem_cons_self, by rw [this]; exact List.mem_cons_self,
            fun _ => this, fun e => absurd rfl e, (fun e => nomatch e)⟩
          intro x hx
          simp only [List.mem_cons, List.not_mem_nil, or_false] at hx
          subst hx
          exact ⟨rfl, by simp only; omega⟩

theorem middle_ok (eq : α → α → Bool) (p d : List α) (cur : Nat) (ps : List (Option Nat × Nat))
    (m : Middle) (h : StratOK eq p ps m) (hd : cur + p.length ≤ d.length) :
    ∃ c, middle eq p d cur (p.length - 1) m = .ok c ∧
        (c = true ↔ ∀ j, 1 ≤ j → j < p.length - 1 → EqAt eq p d cur j) := by
  cases m with
  | none =>
    have := h.none rfl
    exact ⟨true, rfl, by simp; intro j _ _; omega⟩
  | loop =>
    have := h.two (by simp)
    obtain ⟨c, e, hc⟩ := midLoop_ok eq p d cur hd (p.length - 1 - 1) 1 (by omega)
    refine ⟨c, e, hc.trans ?_⟩
    rw [show 1 + (p.length - 1 - 1) = p.length - 1 by omega]
  | memcmp => exact midCmp_ok eq p d cur (h.cmp rfl) (h.two (by simp)) hd

/-- One candidate position is judged correctly. -/
theorem candidate_ok (eq : α → α → Bool) (p d : List α) (cur : Nat) (ps : List (Option Nat × Nat))
    (m : Middle) (h : StratOK eq p ps m) (hn : 0 < p.length) (hd : cur + p.length ≤ d.length) :
    ∃ c, candidate eq p d cur (p.length - 1) ps m = .ok c ∧
      (c = true ↔ MatchAt eq p d cur) := by
  obtain ⟨c, e, hc⟩ := probe_ok eq p d cur hd ps h.good
  obtain ⟨c2, e2, hc2⟩ := middle_ok eq p d cur ps m h hd
  rw [candidate, e, ok_bind]
  cases c with
  | false =>
    refine ⟨false, rfl, ⟨(fun hh => nomatch hh), fun hh => ?_⟩⟩
    exact hc.2 (fun x _ => hh.2 x.2)
  | true =>
    refine ⟨c2, e2, hc2.trans ⟨fun hh => ⟨hd, fun k => ?_⟩, fun hh j _ _ => hh.2 j⟩⟩
    have h0 := hc.1 rfl _ h.first
    have h1 := hc.1 rfl _ h.last
    by_cases k0 : k = 0
    · subst k0; exact h0
    · by_cases kl : k = p.length - 1
      · subst kl; exact h1
      · by_cases kk : k < p.length - 1
        · exact hh k (by omega) kk
        · intro a b ha
          rw [List.getElem?_eq_none (by omega)] at ha
          cases ha

theorem scan_ok (eq : α → α → Bool) (p d : List α) (ps : List (Option Nat × Nat))
    (m : Middle) (h : StratOK eq p ps m) (hn : 0 < p.length) :
    ∀ k cur : Nat, cur + k + p.length ≤ d.length + 1 →
      ∃ c, scan eq p d (p.length - 1) ps m k cur = .ok c ∧ cur ≤ c ∧ c ≤ cur + k ∧
        (∀ j, cur ≤ j → j < c → ¬ MatchAt eq p d j) ∧ (c < cur + k → MatchAt eq p d c)
  | 0, cur, _ => ⟨cur, rfl, by omega, by omega, fun j h1 h2 => by omega, fun h => by omega⟩
  | k + 1, cur, hd => by
    obtain ⟨c, e, hc⟩ := candidate_ok eq p d cur ps m h hn (by omega)
    rw [scan, e, ok_bind]
    split
    · rename_i hh
      exact ⟨cur, rfl, by omega, by omega, fun j h1 h2 => by omega, fun _ => hc.1 hh⟩
    · rename_i hh
      obtain ⟨c', e2, h1, h2, h3, h4⟩ := scan_ok eq p d ps m h hn k (cur + 1) (by omega)
      refine ⟨c', e2, by omega, by omega, fun j hj1 hj2 => ?_, fun hl => h4 (by omega)⟩
      by_cases hj : j = cur
      · subst hj; exact fun hm => hh (hc.2 hm)
      · exact h3 j (by omega) hj2

end Verif.FastFind
