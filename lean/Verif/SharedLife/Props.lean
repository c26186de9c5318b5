import Verif.SharedLife.Model
import Verif.SharedLib.Props

/-! # Property C117: lives of shared libraries -/

namespace Verif.SharedLife

open Verif.SharedLib (Loader)

/-! ## Specification -/

/-- What a reader of the program knows: which modules live, and to which module each function belongs. -/
structure Known where
  live : List Bool
  of : List Nat

/-- The effect of an operation on it. -/
def Known.next (k : Known) : Op → Known
  | .newMod _ => { k with live := k.live ++ [true] }
  | .newFn i _ => { k with of := k.of ++ [i] }
  | .destroy i => { k with live := k.live.set i false }
  | _ => k

/-- Correct use: a function is made for a living module and called while that module lives, and a module is destroyed
once. -/
def Known.Ok (k : Known) : Op → Prop
  | .newFn i _ => k.live[i]? = some true
  | .call j _ => ∃ i, k.of[j]? = some i ∧ k.live[i]? = some true
  | .destroy i => k.live[i]? = some true
  | _ => True

/-- Correct use throughout. -/
def OkAll (k : Known) : List Op → Prop
  | [] => True
  | op :: ops => k.Ok op ∧ OkAll (k.next op) ops

/-- What a module did with the loader. -/
def byMod (i : Nat) (tr : List Ev) : List Ev :=
  tr.filter fun e => match e with
    | .opened (some x) _ => x == i
    | .closed x _ => x == i
    | _ => false

/-- How often `CallOnce` or `CallOnceVoid` opened a library. -/
def onces (tr : List Ev) (h : Nat) : Nat :=
  tr.countP fun e => e == .opened none (some h)

/-- The life of a module: it opens its library at most once, and closes what it opened exactly when it is destroyed. -/
def LifeOk (i : Nat) (lives : Bool) (l : List Ev) : Prop :=
  l = [] ∨ l = [.opened (some i) none] ∨
    ∃ h, l = if lives then [.opened (some i) (some h)] else [.opened (some i) (some h), .closed i h]

/-! ## Invariant -/

/-- A module holds a library. -/
def holds (h : Nat) (m : Option Mod) : Bool := m.bind (·.ptr) == some h

structure Inv (w : W) (k : Known) : Prop where
  live : k.live = w.mods.map (·.isSome)
  of : k.of = w.fns.map (·.mod)
  num : ∀ h, opens w.tr h = closes w.tr h + w.mods.countP (holds h) + onces w.tr h
  fn : ∀ (f : Fn), f ∈ w.fns → ∀ h a, f.ptr = some (h, a) → ∀ m, w.mods[f.mod]? = some (some m) → m.ptr = some h
  lt : ∀ (f : Fn), f ∈ w.fns → f.mod < w.mods.length
  mod : ∀ i m, w.mods[i]? = some (some m) →
    (m.ptr = none ∧ byMod i w.tr = [] ∧ m.filename ≠ none) ∨
    (m.filename = none ∧ byMod i w.tr = [.opened (some i) m.ptr])
  gone : ∀ i, w.mods[i]? = some none → byMod i w.tr = [] ∨ byMod i w.tr = [.opened (some i) none] ∨
    ∃ h, byMod i w.tr = [.opened (some i) (some h), .closed i h]
  none_ : ∀ i, w.mods.length ≤ i → byMod i w.tr = []

theorem opens_snoc (tr : List Ev) (e : Ev) (h : Nat) : opens (tr ++ [e]) h = opens tr h + opens [e] h := by
  simp [opens, List.countP_append]
theorem closes_snoc (tr : List Ev) (e : Ev) (h : Nat) : closes (tr ++ [e]) h = closes tr h + closes [e] h := by
  simp [closes, List.countP_append]
theorem onces_snoc (tr : List Ev) (e : Ev) (h : Nat) : onces (tr ++ [e]) h = onces tr h + onces [e] h := by
  simp [onces, List.countP_append]
theorem byMod_snoc (tr : List Ev) (e : Ev) (i : Nat) : byMod i (tr ++ [e]) = byMod i tr ++ byMod i [e] := by
  simp [byMod, List.filter_append]

theorem inv_init : Inv W.init ⟨[], []⟩ :=
  { live := rfl, of := rfl, num := fun _ => rfl
    fn := (fun f h => by cases h)
    lt := (fun f h => by cases h)
    mod := (fun i m h => by simp [W.init] at h)
    gone := (fun i h => by simp [W.init] at h)
    none_ := (fun _ _ => rfl) }

theorem countP_set {α} (p : α → Bool) : ∀ (l : List α) (i : Nat) (a b : α), l[i]? = some a →
    (l.set i b).countP p + (if p a then 1 else 0) = l.countP p + (if p b then 1 else 0)
  | [], i, a, b, h => by simp at h
  | x :: l, 0, a, b, h => by
    simp at h; subst h
    simp only [List.set_cons_zero, List.countP_cons]; omega
  | x :: l, i + 1, a, b, h => by
    have := countP_set p l i a b (by simpa using h)
    simp only [List.set_cons_succ, List.countP_cons]; omega

theorem held {w k} (hi : Inv w k) {i : Nat} {m : Mod} {h : Nat} (hm : w.mods[i]? = some (some m)) (hp : m.ptr = some h) :
    closes w.tr h < opens w.tr h := by
  rw [hi.num h]
  have : 0 < w.mods.countP (holds h) := by
    rw [List.countP_pos_iff]
    exact ⟨some m, List.mem_of_getElem? hm, by simp [holds, hp]⟩
  omega

theorem live_mod {w k} (hi : Inv w k) {i : Nat} (h : k.live[i]? = some true) : ∃ m, w.mods[i]? = some (some m) := by
  rw [hi.live, List.getElem?_map] at h
  cases e : w.mods[i]? with
  | none => rw [e] at h; cases h
  | some m =>
    cases m with
    | none => rw [e] at h; cases h
    | some m => exact ⟨m, rfl⟩

/-- Jumping changes nothing the invariant speaks of. -/
theorem inv_jump {w k} (hi : Inv w k) (h a : Nat) : Inv { w with tr := w.tr ++ [.jump h a] } k := by
  refine ⟨hi.live, hi.of, fun x => ?_, hi.fn, hi.lt, fun i m hm => ?_, fun i hm => ?_, fun i hm => ?_⟩
  · have := hi.num x
    rw [opens_snoc, closes_snoc, onces_snoc]; simpa [opens, closes, onces] using this
  · rw [byMod_snoc]; simpa [byMod] using hi.mod i m hm
  · rw [byMod_snoc]; simpa [byMod] using hi.gone i hm
  · rw [byMod_snoc]; simpa [byMod] using hi.none_ i hm

/-- So does changing a function that has no address, or gets one in its module's library. -/
theorem inv_fn {w k} (hi : Inv w k) {j : Nat} {f g : Fn} (hf : w.fns[j]? = some f) (hm : g.mod = f.mod)
    (hp : ∀ h a, g.ptr = some (h, a) → ∀ m, w.mods[g.mod]? = some (some m) → m.ptr = some h) :
    Inv { w with fns := w.fns.set j g } k := by
  have hmem : ∀ x ∈ w.fns.set j g, x ∈ w.fns ∨ x = g := fun x hx => List.mem_or_eq_of_mem_set hx
  refine ⟨hi.live, ?_, hi.num, fun x hx => ?_, fun x hx => ?_, hi.mod, hi.gone, hi.none_⟩
  · rw [hi.of]
    apply List.ext_getElem?
    intro n
    simp only [List.getElem?_map, List.getElem?_set]
    by_cases hn : j = n
    · subst hn
      have hlt : j < w.fns.length := (List.getElem?_eq_some_iff.1 hf).1
      rw [if_pos rfl, if_pos hlt, hf]
      simp [hm]
    · rw [if_neg hn]
  · rcases hmem x hx with h | h
    · exact hi.fn x h
    · subst h; exact hp
  · rcases hmem x hx with h | h
    · exact hi.lt x h
    · subst h
      show x.mod < w.mods.length
      rw [hm]; exact hi.lt f (List.mem_of_getElem? hf)

theorem load_ok (L : Loader) {w k} (hi : Inv w k) {i : Nat} {m : Mod} (hm : w.mods[i]? = some (some m)) :
    ∃ r w', load L w i = .ok (r, w') ∧ Inv w' k ∧ w'.fns = w.fns ∧
      (∃ m', w'.mods[i]? = some (some m') ∧ m'.ptr = r) := by
  unfold load getMod
  rw [hm, ok_bind]
  cases hp : m.ptr with
  | some h => exact ⟨_, _, rfl, hi, rfl, m, hm, hp⟩
  | none =>
    cases hf : m.filename with
    | none => exact ⟨_, _, rfl, hi, rfl, m, hm, hp⟩
    | some f =>
      dsimp only
      generalize L.dlopen (asked w.tr) f = r
      have hlt : i < w.mods.length := (List.getElem?_eq_some_iff.1 hm).1
      have hget : ∀ n, (w.mods.set i (some ⟨none, r⟩))[n]? = if n = i then some (some ⟨none, r⟩) else w.mods[n]? := by
        intro n
        rw [List.getElem?_set]
        by_cases hn : i = n
        · subst hn; rw [if_pos rfl, if_pos hlt, if_pos rfl]
        · rw [if_neg hn, if_neg (Ne.symm hn)]
      have hby : byMod i w.tr = [] := by
        rcases hi.mod i m hm with h | h
        · exact h.2.1
        · rw [hf] at h; cases h.1
      have hother : ∀ n, n ≠ i → byMod n (w.tr ++ [.opened (some i) r]) = byMod n w.tr := by
        intro n hn
        rw [byMod_snoc]
        simp [byMod, Ne.symm hn]
      have hself : byMod i (w.tr ++ [.opened (some i) r]) = [.opened (some i) r] := by
        rw [byMod_snoc, hby]; simp [byMod]
      refine ⟨_, _, rfl, ⟨?_, hi.of, fun h => ?_, fun x hx h a hxp y hy => ?_, fun x hx => ?_, fun n y hy => ?_,
        fun n hy => ?_, fun n hn => ?_⟩, rfl, ⟨none, r⟩, by show (w.mods.set i _)[i]? = _; rw [hget, if_pos rfl], rfl⟩
      · rw [hi.live]
        apply List.ext_getElem?
        intro n
        simp only [List.getElem?_map, hget]
        by_cases hn : n = i
        · subst hn; rw [if_pos rfl, hm]; rfl
        · rw [if_neg hn]
      · have h1 := hi.num h
        have h2 := countP_set (holds h) w.mods i (some m) (some ⟨none, r⟩) hm
        have h3 : holds h (some m) = false := by simp [holds, hp]
        rw [h3] at h2
        rw [opens_snoc, closes_snoc, onces_snoc]
        show _ = _ + _ + (w.mods.set i _).countP _ + _
        cases r with
        | none => simp [opens, closes, onces, holds] at h1 h2 ⊢; omega
        | some y =>
          by_cases hy : y = h
          · subst hy; simp [opens, closes, onces, holds] at h1 h2 ⊢; omega
          · simp [opens, closes, onces, holds, hy] at h1 h2 ⊢; omega
      · change (w.mods.set i _)[x.mod]? = _ at hy
        rw [hget] at hy
        by_cases hn : x.mod = i
        · have := hi.fn x hx h a hxp m (hn ▸ hm)
          rw [hp] at this; cases this
        · rw [if_neg hn] at hy
          exact hi.fn x hx h a hxp y hy
      · show x.mod < (w.mods.set i _).length
        rw [List.length_set]; exact hi.lt x hx
      · change (w.mods.set i _)[n]? = _ at hy
        rw [hget] at hy
        by_cases hn : n = i
        · subst hn
          rw [if_pos rfl] at hy; cases hy
          exact .inr ⟨rfl, hself⟩
        · rw [if_neg hn] at hy
          rw [hother n hn]; exact hi.mod n y hy
      · change (w.mods.set i _)[n]? = _ at hy
        rw [hget] at hy
        by_cases hn : n = i
        · rw [if_pos hn] at hy; cases hy
        · rw [if_neg hn] at hy
          rw [hother n hn]; exact hi.gone n hy
      · change (w.mods.set i _).length ≤ n at hn
        rw [List.length_set] at hn
        rw [hother n (by omega)]; exact hi.none_ n hn

theorem finish_ok {w k} (hi : Inv w k) (p : Option (Nat × Nat))
    (h : ∀ x, p = some x → closes w.tr x.1 < opens w.tr x.1) :
    ∃ r w', finish w p = .ok (r, w') ∧ Inv w' k := by
  cases p with
  | none => exact ⟨_, _, rfl, hi⟩
  | some p =>
    unfold finish jump
    dsimp only
    rw [if_pos (h p rfl)]
    exact ⟨_, _, rfl, inv_jump hi p.1 p.2⟩

theorem loadFuncPtr_ok (L : Loader) {w k} (hi : Inv w k) {j : Nat} {f : Fn} {m : Mod} (hf : w.fns[j]? = some f)
    (hm : w.mods[f.mod]? = some (some m)) :
    ∃ r w', loadFuncPtr L w j f = .ok (r, w') ∧ Inv w' k ∧ ∀ x, r = some x → closes w'.tr x.1 < opens w'.tr x.1 := by
  unfold loadFuncPtr
  cases f.name with
  | none => exact ⟨_, _, rfl, hi, fun x h => nomatch h⟩
  | some name =>
    dsimp only
    have hi1 : Inv { w with fns := w.fns.set j { f with name := none } } k :=
      inv_fn hi hf rfl (fun h a e m' hm' => hi.fn f (List.mem_of_getElem? hf) h a e m' hm')
    obtain ⟨r, w', h1, h2, h3, m', h4, h5⟩ := load_ok L hi1 (i := f.mod) (m := m) hm
    rw [h1, ok_bind]
    cases r with
    | none => exact ⟨_, _, rfl, h2, fun x h => nomatch h⟩
    | some h =>
      dsimp only
      have hf' : w'.fns[j]? = some { f with name := none } := by
        rw [h3]
        show (w.fns.set j _)[j]? = _
        rw [List.getElem?_set_self (List.getElem?_eq_some_iff.1 hf).1]
      refine ⟨_, _, rfl, inv_fn h2 hf' rfl ?_, ?_⟩
      · intro x a e y hy
        have : x = h := by
          cases hd : L.dlsym h name with
          | none => rw [hd] at e; cases e
          | some b => rw [hd] at e; cases e; rfl
        subst this
        change w'.mods[f.mod]? = _ at hy
        rw [h4] at hy; cases hy
        exact h5
      · intro x e
        have : x.1 = h := by
          cases hd : L.dlsym h name with
          | none => rw [hd] at e; cases e
          | some b => rw [hd] at e; cases e; rfl
        rw [this]
        exact held h2 h4 h5

theorem once_ok (L : Loader) {w k} (hi : Inv w k) (file name : String) :
    ∃ r w', callOnce L w file name = .ok (r, w') ∧ Inv w' k := by
  unfold callOnce
  dsimp only
  generalize L.dlopen (asked w.tr) file = r
  have hby : ∀ n, byMod n (w.tr ++ [.opened none r]) = byMod n w.tr := fun n => by rw [byMod_snoc]; simp [byMod]
  have hi1 : Inv { w with tr := w.tr ++ [.opened none r] } k := by
    refine ⟨hi.live, hi.of, fun h => ?_, hi.fn, hi.lt, fun n y hy => by rw [hby]; exact hi.mod n y hy,
      fun n hy => by rw [hby]; exact hi.gone n hy, fun n hn => by rw [hby]; exact hi.none_ n hn⟩
    have h1 := hi.num h
    rw [opens_snoc, closes_snoc, onces_snoc]
    show _ = _ + _ + w.mods.countP _ + _
    cases r with
    | none => simp [opens, closes, onces] at h1 ⊢; omega
    | some y =>
      by_cases hy : y = h
      · subst hy; simp [opens, closes, onces] at h1 ⊢; omega
      · simp [opens, closes, onces, hy] at h1 ⊢; omega
  cases r with
  | none => exact ⟨_, _, rfl, hi1⟩
  | some h =>
    apply finish_ok hi1
    intro x e
    have : x.1 = h := by
      cases hd : L.dlsym h name with
      | none => rw [hd] at e; cases e
      | some b => rw [hd] at e; cases e; rfl
    rw [this]
    have h1 := hi1.num h
    have h2 : onces (w.tr ++ [.opened none (some h)]) h = onces w.tr h + 1 := by
      rw [onces_snoc]; simp [onces]
    change opens (w.tr ++ _) h = _ + _ + onces (w.tr ++ _) h at h1
    show closes (w.tr ++ _) h < opens (w.tr ++ _) h
    change opens (w.tr ++ _) h = closes (w.tr ++ _) h + _ + _ at h1
    omega

theorem destroy_ok {w k} (hi : Inv w k) {i : Nat} (hl : k.live[i]? = some true) :
    ∃ w', destroy w i = .ok w' ∧ Inv w' { k with live := k.live.set i false } := by
  obtain ⟨m, hm⟩ := live_mod hi hl
  have hlt : i < w.mods.length := (List.getElem?_eq_some_iff.1 hm).1
  have hget : ∀ n, (w.mods.set i none)[n]? = if n = i then some none else w.mods[n]? := by
    intro n
    rw [List.getElem?_set]
    by_cases hn : i = n
    · subst hn; rw [if_pos rfl, if_pos hlt, if_pos rfl]
    · rw [if_neg hn, if_neg (Ne.symm hn)]
  have hlive : k.live.set i false = (w.mods.set i none).map (·.isSome) := by
    rw [List.map_set, ← hi.live]; rfl
  have main : ∀ tr, (∀ h, opens tr h = closes tr h + (w.mods.set i none).countP (holds h) + onces tr h) →
      (∀ n, n ≠ i → byMod n tr = byMod n w.tr) →
      (byMod i tr = [] ∨ byMod i tr = [.opened (some i) none] ∨
        ∃ h, byMod i tr = [.opened (some i) (some h), .closed i h]) →
      Inv { w with mods := w.mods.set i none, tr := tr } { k with live := k.live.set i false } := by
    intro tr h1 h2 h3
    refine ⟨hlive, hi.of, h1, fun x hx h a hxp y hy => ?_, fun x hx => ?_, fun n y hy => ?_, fun n hy => ?_,
      fun n hn => ?_⟩
    · change (w.mods.set i none)[x.mod]? = _ at hy
      rw [hget] at hy
      by_cases hn : x.mod = i
      · rw [if_pos hn] at hy; cases hy
      · rw [if_neg hn] at hy; exact hi.fn x hx h a hxp y hy
    · show x.mod < (w.mods.set i none).length
      rw [List.length_set]; exact hi.lt x hx
    · change (w.mods.set i none)[n]? = _ at hy
      rw [hget] at hy
      by_cases hn : n = i
      · rw [if_pos hn] at hy; cases hy
      · rw [if_neg hn] at hy
        show _ ∨ (_ ∧ byMod n tr = _)
        rw [h2 n hn]; exact hi.mod n y hy
    · change (w.mods.set i none)[n]? = _ at hy
      rw [hget] at hy
      by_cases hn : n = i
      · subst hn; exact h3
      · rw [if_neg hn] at hy
        rw [h2 n hn]; exact hi.gone n hy
    · change (w.mods.set i none).length ≤ n at hn
      rw [List.length_set] at hn
      rw [h2 n (by omega)]; exact hi.none_ n hn
  have hcount := fun h => countP_set (holds h) w.mods i (some m) none hm
  unfold destroy getMod
  rw [hm, ok_bind]
  cases hp : m.ptr with
  | none =>
    refine ⟨_, rfl, main w.tr (fun h => ?_) (fun _ _ => rfl) ?_⟩
    · have h1 := hi.num h
      have h2 := hcount h
      have h3 : holds h (some m) = false := by simp [holds, hp]
      have h4 : holds h none = false := by simp [holds]
      rw [h3, h4] at h2
      simp only [Bool.false_eq_true, if_false] at h2
      omega
    · rcases hi.mod i m hm with h | h
      · exact .inl h.2.1
      · rw [hp] at h; exact .inr (.inl h.2)
  | some h =>
    dsimp only
    rw [if_pos (held hi hm hp)]
    refine ⟨_, rfl, main _ (fun x => ?_) (fun n hn => ?_) ?_⟩
    · have h1 := hi.num x
      have h2 := hcount x
      have h3 := held hi hm hp
      rw [opens_snoc, closes_snoc, onces_snoc]
      by_cases hx : h = x
      · subst hx; simp [opens, closes, onces, holds, hp] at h1 h2 ⊢; omega
      · simp [opens, closes, onces, holds, hp, hx] at h1 h2 ⊢; omega
    · rw [byMod_snoc]; simp [byMod, Ne.symm hn]
    · rcases hi.mod i m hm with h' | h'
      · rw [hp] at h'; cases h'.1
      · refine .inr (.inr ⟨h, ?_⟩)
        rw [byMod_snoc, h'.2, hp]; simp [byMod]

theorem step_ok (L : Loader) {w k} (hi : Inv w k) (op : Op) (ho : k.Ok op) :
    ∃ r w', step L w op = .ok (r, w') ∧ Inv w' (k.next op) := by
  cases op with
  | newMod file =>
    refine ⟨_, _, rfl, ⟨?_, hi.of, fun h => ?_, fun x hx h a hxp y hy => ?_, fun x hx => ?_, fun n y hy => ?_,
      fun n hy => ?_, fun n hn => ?_⟩⟩
    · simp [Known.next, hi.live]
    · show _ = _ + (w.mods ++ _).countP _ + _
      rw [List.countP_append]
      simpa [holds] using hi.num h
    · have := hi.lt x hx
      change (w.mods ++ _)[x.mod]? = _ at hy
      rw [List.getElem?_append_left this] at hy
      exact hi.fn x hx h a hxp y hy
    · show x.mod < (w.mods ++ _).length
      have := hi.lt x hx
      simp; omega
    · change (w.mods ++ _)[n]? = _ at hy
      rcases Nat.lt_trichotomy n w.mods.length with h | h | h
      · rw [List.getElem?_append_left h] at hy; exact hi.mod n y hy
      · subst h
        simp at hy; subst hy
        exact .inl ⟨rfl, hi.none_ _ (Nat.le_refl _), fun e => nomatch e⟩
      · rw [List.getElem?_eq_none (by simp; omega)] at hy; cases hy
    · change (w.mods ++ _)[n]? = _ at hy
      rcases Nat.lt_trichotomy n w.mods.length with h | h | h
      · rw [List.getElem?_append_left h] at hy; exact hi.gone n hy
      · subst h; simp at hy
      · rw [List.getElem?_eq_none (by simp; omega)] at hy; cases hy
    · change (w.mods ++ _).length ≤ n at hn
      simp at hn
      exact hi.none_ n (by omega)
  | newFn i name =>
    obtain ⟨m, hm⟩ := live_mod hi ho
    have hlt : i < w.mods.length := (List.getElem?_eq_some_iff.1 hm).1
    refine ⟨_, _, rfl, ⟨hi.live, ?_, hi.num, fun x hx => ?_, fun x hx => ?_, hi.mod, hi.gone, hi.none_⟩⟩
    · simp [Known.next, hi.of]
    · rcases List.mem_append.1 hx with h | h
      · exact hi.fn x h
      · rw [List.mem_singleton.1 h]; exact fun h a e => nomatch e
    · rcases List.mem_append.1 hx with h | h
      · exact hi.lt x h
      · rw [List.mem_singleton.1 h]; exact hlt
  | call j void =>
    obtain ⟨i, hj, hl⟩ := ho
    obtain ⟨m, hm⟩ := live_mod hi hl
    rw [hi.of, List.getElem?_map] at hj
    cases hf : w.fns[j]? with
    | none => rw [hf] at hj; cases hj
    | some f =>
      rw [hf] at hj
      have hj : f.mod = i := by simpa using hj
      have hm : w.mods[f.mod]? = some (some m) := hj ▸ hm
      obtain ⟨p, w1, e1, i1, l1⟩ := loadFuncPtr_ok L hi hf hm
      obtain ⟨r2, w2, e2, i2⟩ := finish_ok i1 p l1
      show ∃ r w', (if void then callVoid L w j else call L w j) = _ ∧ Inv w' k
      cases void with
      | true =>
        rw [if_pos rfl]
        unfold callVoid getFn
        rw [hf, ok_bind]
        cases hp : f.ptr with
        | none => exact ⟨_, _, rfl, hi⟩
        | some q =>
          dsimp only
          rw [e1, ok_bind]
          exact ⟨_, _, e2, i2⟩
      | false =>
        rw [if_neg (by decide)]
        unfold call getFn
        rw [hf, ok_bind]
        cases hp : f.ptr with
        | none =>
          dsimp only
          rw [e1, ok_bind]
          exact ⟨_, _, e2, i2⟩
        | some q =>
          apply finish_ok hi
          intro x e
          cases e
          exact held hi hm (hi.fn f (List.mem_of_getElem? hf) q.1 q.2 hp m hm)
  | once file name => exact once_ok L hi file name
  | destroy i =>
    obtain ⟨w', h1, h2⟩ := destroy_ok hi ho
    refine ⟨true, w', ?_, h2⟩
    show (destroy w i >>= _) = _
    rw [h1, ok_bind]

theorem exec_ok (L : Loader) : ∀ (ops : List Op) {w k}, Inv w k → OkAll k ops →
    ∃ rs w', exec L w ops = .ok (rs, w') ∧ Inv w' (ops.foldl Known.next k)
  | [], w, k, hi, _ => ⟨_, _, rfl, hi⟩
  | op :: ops, w, k, hi, ho => by
    obtain ⟨r, w1, h1, h2⟩ := step_ok L hi op ho.1
    obtain ⟨rs, w2, h3, h4⟩ := exec_ok L ops h2 ho.2
    refine ⟨r :: rs, w2, ?_, h4⟩
    unfold exec
    rw [h1, ok_bind]
    dsimp only
    rw [h3, ok_bind]

/-! ## C117 -/

/-- **C117.**  In every correct use of any number of modules, functions and one-shot calls, whatever the loader
answers: the program never jumps into a library that is not loaded, never closes one that is not and never uses a
destroyed object (the run is defined); every module opens its library at most once and closes it exactly when it is
destroyed. -/
theorem lib_life (L : Loader) (ops : List Op) (h : OkAll ⟨[], []⟩ ops) :
    ∃ rs w, exec L W.init ops = .ok (rs, w) ∧
      ∀ (i : Nat) (b : Bool), (ops.foldl Known.next ⟨[], []⟩).live[i]? = some b → LifeOk i b (byMod i w.tr) := by
  obtain ⟨rs, w, h1, h2⟩ := exec_ok L ops inv_init h
  refine ⟨rs, w, h1, fun i b hb => ?_⟩
  rw [h2.live, List.getElem?_map] at hb
  cases hm : w.mods[i]? with
  | none => rw [hm] at hb; cases hb
  | some m =>
    rw [hm] at hb
    cases m with
    | none =>
      have hb : b = false := by simpa using hb.symm
      subst hb
      rcases h2.gone i hm with h | h | ⟨x, h⟩
      · exact .inl h
      · exact .inr (.inl h)
      · exact .inr (.inr ⟨x, by rw [h]; rfl⟩)
    | some m =>
      have hb : b = true := by simpa using hb.symm
      subst hb
      rcases h2.mod i m hm with h | h
      · exact .inl h.2.1
      · rw [h.2]
        cases m.ptr with
        | none => exact .inr (.inl rfl)
        | some x => exact .inr (.inr ⟨x, rfl⟩)

/-- **C117, at the end.**  Once all modules are destroyed, a library is loaded exactly as often as one-shot calls
opened it (these never close). -/
theorem lib_life_end (L : Loader) (ops : List Op) (h : OkAll ⟨[], []⟩ ops)
    (hd : ∀ b ∈ (ops.foldl Known.next ⟨[], []⟩).live, b = false) {rs w} (he : exec L W.init ops = .ok (rs, w)) (x : Nat) :
    opens w.tr x = closes w.tr x + onces w.tr x := by
  obtain ⟨rs', w', h1, h2⟩ := exec_ok L ops inv_init h
  rw [h1] at he
  cases he
  have := h2.num x
  have h0 : w.mods.countP (holds x) = 0 := by
    rw [List.countP_eq_zero]
    intro m hm hh
    rw [h2.live] at hd
    have := hd _ (List.mem_map.2 ⟨m, hm, rfl⟩)
    cases m with
    | none => simp [holds] at hh
    | some m => cases this
  omega

/-- **C117, while it lives.**  The library of a module that loaded it stays loaded until the module is destroyed. -/
theorem lib_stays (L : Loader) (ops : List Op) (h : OkAll ⟨[], []⟩ ops) {rs w} (he : exec L W.init ops = .ok (rs, w))
    {i x : Nat} (hl : (ops.foldl Known.next ⟨[], []⟩).live[i]? = some true) (ho : Ev.opened (some i) (some x) ∈ w.tr) :
    closes w.tr x < opens w.tr x := by
  obtain ⟨rs', w', h1, h2⟩ := exec_ok L ops inv_init h
  rw [h1] at he
  cases he
  obtain ⟨m, hm⟩ := live_mod h2 hl
  have hmem : Ev.opened (some i) (some x) ∈ byMod i w.tr := by
    unfold byMod
    exact List.mem_filter.2 ⟨ho, by simp⟩
  apply held h2 hm
  rcases h2.mod i m hm with h' | h'
  · rw [h'.2.1] at hmem; cases hmem
  · rw [h'.2] at hmem
    simpa using (List.mem_singleton.1 hmem).symm

/-- Two modules of the same library, one destroyed while the other is in use, and a one-shot call. -/
def sample : List Op := [.newMod "m", .newMod "m", .newFn 0 "sin", .newFn 1 "cosh", .call 0 false, .call 1 false, .destroy 0,
  .call 1 false, .call 1 true, .once "m" "tan", .destroy 1]

example : OkAll ⟨[], []⟩ sample ∧ (∀ b ∈ (sample.foldl Known.next ⟨[], []⟩).live, b = false) ∧
    (exec SharedLib.allFound W.init sample).map (fun x => (x.1, x.2.tr)) =
      .ok ([true, true, true, true, true, true, true, true, false, true, true],
        [.opened (some 0) (some 1), .jump 1 3, .opened (some 1) (some 1), .jump 1 4, .closed 0 1, .jump 1 4,
          .opened none (some 1), .jump 1 3, .closed 1 1]) := by
  refine ⟨⟨trivial, trivial, rfl, rfl, ⟨0, rfl, rfl⟩, ⟨1, rfl, rfl⟩, rfl, ⟨1, rfl, rfl⟩, ⟨1, rfl, rfl⟩, trivial, rfl,
    trivial⟩, by decide, by decide⟩

/-- The correct use is needed: a function called after its module is destroyed jumps into a library that is gone. -/
theorem lib_outlived : exec SharedLib.allFound W.init
    [.newMod "m", .newFn 0 "sin", .call 0 false, .destroy 0, .call 0 false] = .error .badPtr := by decide

end Verif.SharedLife
