import Verif.WinSync.Spec

/-!
# The kernel's side: handles, views and names
-/

namespace Verif.WinSync

/-- The kind of kernel object `k`. -/
def kindAt (w : W) (k : Nat) : Option Nat := (w.kobjs[k]?).map (·.st.kind)

variable {L : Prop}

/-- What is stored where: `H i s` is handle `s` of object `i`, `V i` its view, `kd i s` the kind it is to have. -/
structure Core (L : Prop) (w : W) (H : Nat → Nat → Option Nat) (V : Nat → Option Nat) (kd : Nat → Nat → Nat) : Prop where
  st : ∀ i s h, H i s = some h → ∃ k, w.handles[h]? = some (some k)
  inj : ∀ i s h j u, H i s = some h → H j u = some h → i = j ∧ s = u
  own : ∀ h k, w.handles[h]? = some (some k) → (∃ i s, H i s = some h) ∨ (L ∧ kindAt w k = some 3)
  vst : ∀ i v, V i = some v → ∃ k, w.views[v]? = some (some k)
  vinj : ∀ i j v, V i = some v → V j = some v → i = j
  vown : ∀ v k, w.views[v]? = some (some k) → ∃ i, V i = some v
  ok : ∀ k, alive w k = true → k < w.kobjs.length
  kinds : ∀ i s h k, H i s = some h → w.handles[h]? = some (some k) → kindAt w k = some (kd i s)
  uniq : ∀ (k k' : Nat) (o o' : KObj) (n : Str), alive w k = true → alive w k' = true → w.kobjs[k]? = some o → w.kobjs[k']? = some o' →
    o.name = some n → o'.name = some n → k = k'
  priv : ∀ (h h' k : Nat) (o : KObj), w.handles[h]? = some (some k) → w.handles[h']? = some (some k) → w.kobjs[k]? = some o → o.name = none →
    h = h'
  vkd : ∀ (v k : Nat), w.views[v]? = some (some k) → kindAt w k = some 2

/-- What a change of some places (`P`) and views (`Q`) leaves alone. -/
structure Frame (P : Nat → Nat → Prop) (Q : Nat → Prop) (w : W) (H : Nat → Nat → Option Nat) (V : Nat → Option Nat)
    (w' : W) (H' : Nat → Nat → Option Nat) (V' : Nat → Option Nat) : Prop where
  slot : ∀ i s, ¬ P i s → H' i s = H i s
  hand : ∀ i s h, ¬ P i s → H i s = some h → w'.handles[h]? = w.handles[h]?
  view : ∀ i, ¬ Q i → V' i = V i
  vhand : ∀ i v, ¬ Q i → V i = some v → w'.views[v]? = w.views[v]?
  kobj : ∀ (k : Nat) (o : KObj), w.kobjs[k]? = some o → ∃ o' : KObj, w'.kobjs[k]? = some o' ∧ o'.name = o.name ∧ o'.st.kind = o.st.kind ∧
    (o.st.kind = 3 ∨ o' = o)
  objs : w'.objs = w.objs

theorem Frame.refl {P Q w H V} : Frame P Q w H V w H V :=
  ⟨fun _ _ _ => rfl, fun _ _ _ _ _ => rfl, fun _ _ => rfl, fun _ _ _ _ => rfl, fun _ o h => ⟨o, h, rfl, rfl, .inr rfl⟩, rfl⟩

theorem Frame.trans {P Q w H V w1 H1 V1 w2 H2 V2} (h1 : Frame P Q w H V w1 H1 V1) (h2 : Frame P Q w1 H1 V1 w2 H2 V2) :
    Frame P Q w H V w2 H2 V2 := by
  refine ⟨fun i s h => (h2.slot i s h).trans (h1.slot i s h), fun i s h hp hh => ?_, fun i h => (h2.view i h).trans (h1.view i h),
    fun i v hq hv => ?_, fun k o ho => ?_, h2.objs.trans h1.objs⟩
  · rw [h2.hand i s h hp (by rw [h1.slot i s hp]; exact hh), h1.hand i s h hp hh]
  · rw [h2.vhand i v hq (by rw [h1.view i hq]; exact hv), h1.vhand i v hq hv]
  · obtain ⟨o1, a1, a2, a3, a4⟩ := h1.kobj k o ho
    obtain ⟨o2, b1, b2, b3, b4⟩ := h2.kobj k o1 a1
    refine ⟨o2, b1, b2.trans a2, b3.trans a3, ?_⟩
    rcases a4 with a4 | a4
    · exact .inl a4
    · rcases b4 with b4 | b4
      · exact .inl (a3 ▸ b4)
      · exact .inr (b4.trans a4)

theorem Frame.mono {P P' Q Q' w H V w1 H1 V1} (h1 : Frame P Q w H V w1 H1 V1) (hP : ∀ i s, P i s → P' i s) (hQ : ∀ i, Q i → Q' i) :
    Frame P' Q' w H V w1 H1 V1 :=
  ⟨fun i s h => h1.slot i s (fun e => h (hP i s e)), fun i s h hp => h1.hand i s h (fun e => hp (hP i s e)),
    fun i h => h1.view i (fun e => h (hQ i e)), fun i v h => h1.vhand i v (fun e => h (hQ i e)), h1.kobj, h1.objs⟩

/-- One place changes. -/
def upd (H : Nat → Nat → Option Nat) (i s : Nat) (x : Option Nat) : Nat → Nat → Option Nat :=
  fun j u => if j = i ∧ u = s then x else H j u

theorem upd_self (H : Nat → Nat → Option Nat) (i s : Nat) (x : Option Nat) : upd H i s x i s = x := if_pos ⟨rfl, rfl⟩

theorem upd_ne {H : Nat → Nat → Option Nat} {i s j u : Nat} (x : Option Nat) (h : ¬ (j = i ∧ u = s)) : upd H i s x j u = H j u :=
  if_neg h

theorem mem_of_get {l : List (Option Nat)} {h k : Nat} (e : l[h]? = some (some k)) : some k ∈ l := List.mem_of_getElem? e

theorem get_of_mem {l : List (Option Nat)} {k : Nat} (e : some k ∈ l) : ∃ h : Nat, l[h]? = some (some k) := List.getElem?_of_mem e

theorem lt_of_some {α} {l : List α} {h : Nat} {x : α} (e : l[h]? = some x) : h < l.length := by
  rw [List.getElem?_eq_some_iff] at e
  exact e.1

theorem alive_handle {w : W} {h k : Nat} (e : w.handles[h]? = some (some k)) : alive w k = true :=
  decide_eq_true (.inl (mem_of_get e))

theorem alive_view {w : W} {h k : Nat} (e : w.views[h]? = some (some k)) : alive w k = true :=
  decide_eq_true (.inr (mem_of_get e))

theorem alive_iff {w : W} {k : Nat} : alive w k = true ↔ (∃ h : Nat, w.handles[h]? = some (some k)) ∨ ∃ v : Nat, w.views[v]? = some (some k) := by
  unfold alive
  rw [decide_eq_true_iff]
  constructor
  · rintro (h | h)
    · exact .inl (get_of_mem h)
    · exact .inr (get_of_mem h)
  · rintro (⟨h, e⟩ | ⟨h, e⟩)
    · exact .inl (mem_of_get e)
    · exact .inr (mem_of_get e)

theorem set_get {l : List (Option Nat)} {h g k : Nat} : (l.set h none)[g]? = some (some k) ↔ g ≠ h ∧ l[g]? = some (some k) := by
  rw [List.getElem?_set]
  by_cases e : h = g
  · subst e; simp
  · rw [if_neg e]; simp [Ne.symm e]

theorem app_get {l : List (Option Nat)} {g k x : Nat} : (l ++ [some x])[g]? = some (some k) ↔ (g = l.length ∧ k = x) ∨ l[g]? = some (some k) := by
  rw [List.getElem?_append]
  by_cases e : g < l.length
  · rw [if_pos e]
    constructor
    · exact .inr
    · rintro (⟨h, _⟩ | h)
      · omega
      · exact h
  · rw [if_neg e]
    have hn : l[g]? = none := List.getElem?_eq_none (by omega)
    rw [hn]
    by_cases e2 : g = l.length
    · subst e2
      simp
      exact eq_comm
    · have : g - l.length ≠ 0 := by omega
      rw [List.getElem?_eq_none (by simp; omega)]
      simp [e2]

/-! ## Closing -/

theorem close_core {w H V kd} (hc : Core L w H V kd) {i s h : Nat} (hs : H i s = some h) :
    ∃ w', close w h = .ok w' ∧ Core L w' (upd H i s none) V kd ∧
      Frame (fun j u => j = i ∧ u = s) (fun _ => False) w H V w' (upd H i s none) V ∧ w'.blocks = w.blocks := by
  obtain ⟨k, hk⟩ := hc.st i s h hs
  have hup : ∀ j u g, upd H i s none j u = some g → H j u = some g ∧ g ≠ h := by
    intro j u g e
    unfold upd at e
    split at e
    · cases e
    · rename_i hne
      refine ⟨e, fun e' => hne ?_⟩
      subst e'
      exact hc.inj j u g i s e hs
  have hal : ∀ k', alive { w with handles := w.handles.set h none } k' = true → alive w k' = true := by
    intro k' e
    rw [alive_iff] at e ⊢
    rcases e with ⟨g, e⟩ | e
    · exact .inl ⟨g, (set_get.1 e).2⟩
    · exact .inr e
  refine ⟨{ w with handles := w.handles.set h none }, by unfold close handle; rw [hk]; rfl, ?_, ?_, rfl⟩
  · constructor
    · intro j u g e
      obtain ⟨e1, e2⟩ := hup j u g e
      obtain ⟨k', hk'⟩ := hc.st j u g e1
      exact ⟨k', set_get.2 ⟨e2, hk'⟩⟩
    · intro j u g j' u' e e'
      exact hc.inj j u g j' u' (hup _ _ _ e).1 (hup _ _ _ e').1
    · intro g k' e
      obtain ⟨e1, e2⟩ := set_get.1 e
      rcases hc.own g k' e2 with ⟨j, u, e3⟩ | e3
      · refine .inl ⟨j, u, ?_⟩
        rw [upd_ne _ ?_]
        · exact e3
        · rintro ⟨rfl, rfl⟩
          rw [hs] at e3
          exact e1 (Option.some.inj e3).symm
      · exact .inr e3
    · exact hc.vst
    · exact hc.vinj
    · exact hc.vown
    · exact fun k' e => hc.ok k' (hal k' e)
    · intro j u g k' e e'
      exact hc.kinds j u g k' (hup _ _ _ e).1 (set_get.1 e').2
    · intro a b o o' n ha hb
      exact hc.uniq a b o o' n (hal a ha) (hal b hb)
    · intro g g' k' o e e'
      exact hc.priv g g' k' o (set_get.1 e).2 (set_get.1 e').2
    · exact hc.vkd
  · refine ⟨fun j u hp => upd_ne _ hp, fun j u g hp e => ?_, fun _ _ => rfl, fun _ _ _ _ => rfl,
      fun _ o h => ⟨o, h, rfl, rfl, .inr rfl⟩, rfl⟩
    refine List.getElem?_set_ne ?_
    rintro rfl
    exact hp (hc.inj j u h i s e hs)

/-- All places of an object are empty. -/
def clear (H : Nat → Nat → Option Nat) (i : Nat) : Nat → Nat → Option Nat := fun j u => if j = i then none else H j u

theorem closeAll_core {V kd} {i : Nat} : ∀ (hs : List (Option Nat)) (n : Nat) (w : W) (H : Nat → Nat → Option Nat), Core L w H V kd →
    (∀ s, H i (n + s) = (hs[s]?).join) → (∀ s, s < n → H i s = none) →
    ∃ w', closeAll w hs = .ok w' ∧ Core L w' (clear H i) V kd ∧
      Frame (fun j _ => j = i) (fun _ => False) w H V w' (clear H i) V ∧ w'.blocks = w.blocks
  | [], n, w, H, hc, hs, hn => by
    have : clear H i = H := by
      funext j u
      unfold clear
      split
      · rename_i e
        subst e
        by_cases hu : u < n
        · exact (hn u hu).symm
        · have := hs (u - n)
          rw [Nat.add_sub_cancel' (by omega)] at this
          rw [this]; rfl
      · rfl
    rw [this]
    exact ⟨w, rfl, hc, Frame.refl, rfl⟩
  | none :: hs, n, w, H, hc, hh, hn => by
    refine closeAll_core hs (n + 1) w H hc (fun s => ?_) (fun s hs' => ?_)
    · have := hh (s + 1)
      rw [List.getElem?_cons_succ] at this
      rw [← this]; congr 1; omega
    · by_cases e : s = n
      · subst e
        exact hh 0
      · exact hn s (by omega)
  | some h :: hs, n, w, H, hc, hh, hn => by
    have h0 : H i n = some h := hh 0
    obtain ⟨w1, e1, c1, f1, b1⟩ := close_core hc h0
    obtain ⟨w2, e2, c2, f2, b2⟩ := closeAll_core hs (n + 1) w1 (upd H i n none) c1 (fun s => by
      rw [upd_ne _ (by omega)]
      have := hh (s + 1)
      rw [List.getElem?_cons_succ] at this
      rw [← this]; congr 1; omega) (fun s hs' => by
      by_cases e : s = n
      · subst e; exact upd_self ..
      · rw [upd_ne _ (by omega)]
        exact hn s (by omega))
    have hcl : clear (upd H i n none) i = clear H i := by
      funext j u
      unfold clear
      split
      · rfl
      · rename_i e
        exact upd_ne _ (fun h => e h.1)
    rw [hcl] at c2 f2
    refine ⟨w2, ?_, c2, (f1.mono (fun _ _ h => h.1) (fun _ h => h)).trans f2, b2.trans b1⟩
    rw [closeAll, e1, ok_bind, e2]

/-! ## Views -/

theorem unmap_core {w H V kd} (hc : Core L w H V kd) (i : Nat) :
    ∃ w', unmap w (V i) = .ok w' ∧ Core L w' H (fun j => if j = i then none else V j) kd ∧
      Frame (fun _ _ => False) (fun j => j = i) w H V w' H (fun j => if j = i then none else V j) ∧ w'.blocks = w.blocks := by
  cases hv : V i with
  | none =>
    have : (fun j => if j = i then none else V j) = V := by
      funext j
      split
      · rename_i e; rw [e, hv]
      · rfl
    rw [this]
    exact ⟨w, rfl, hc, Frame.refl, rfl⟩
  | some v =>
    obtain ⟨k, hk⟩ := hc.vst i v hv
    have hup : ∀ j g, (if j = i then none else V j) = some g → V j = some g ∧ g ≠ v := by
      intro j g e
      split at e
      · cases e
      · rename_i hne
        refine ⟨e, fun e' => hne ?_⟩
        subst e'
        exact hc.vinj j i g e hv
    have hal : ∀ k', alive { w with views := w.views.set v none } k' = true → alive w k' = true := by
      intro k' e
      rw [alive_iff] at e ⊢
      rcases e with e | ⟨g, e⟩
      · exact .inl e
      · exact .inr ⟨g, (set_get.1 e).2⟩
    refine ⟨{ w with views := w.views.set v none }, by unfold unmap; dsimp only; rw [hk], ?_, ?_, rfl⟩
    · constructor
      · exact hc.st
      · exact hc.inj
      · exact hc.own
      · intro j g e
        obtain ⟨e1, e2⟩ := hup j g e
        obtain ⟨k', hk'⟩ := hc.vst j g e1
        exact ⟨k', set_get.2 ⟨e2, hk'⟩⟩
      · intro j j' g e e'
        exact hc.vinj j j' g (hup _ _ e).1 (hup _ _ e').1
      · intro g k' e
        obtain ⟨e1, e2⟩ := set_get.1 e
        obtain ⟨j, e3⟩ := hc.vown g k' e2
        refine ⟨j, ?_⟩
        rw [if_neg]
        · exact e3
        · rintro rfl
          rw [hv] at e3
          exact e1 (Option.some.inj e3).symm
      · exact fun k' e => hc.ok k' (hal k' e)
      · exact hc.kinds
      · intro a b o o' n ha hb
        exact hc.uniq a b o o' n (hal a ha) (hal b hb)
      · exact hc.priv
      · intro g k' e
        exact hc.vkd g k' (set_get.1 e).2
    · refine ⟨fun _ _ _ => rfl, fun _ _ _ _ _ => rfl, fun j hj => if_neg hj, fun j g hj e => ?_,
        fun _ o h => ⟨o, h, rfl, rfl, .inr rfl⟩, rfl⟩
      refine List.getElem?_set_ne ?_
      rintro rfl
      exact hj (hc.vinj j i v e hv)

theorem map_core {w H V kd} (hc : Core L w H V kd) {i k : Nat} (hv : V i = none) (ha : alive w k = true) (hk : kindAt w k = some 2) :
    Core L { w with views := w.views ++ [some k] } H (fun j => if j = i then some w.views.length else V j) kd ∧
      Frame (fun _ _ => False) (fun j => j = i) w H V { w with views := w.views ++ [some k] } H
        (fun j => if j = i then some w.views.length else V j) := by
  have hnew : ∀ j g, V j = some g → g < w.views.length := fun j g e => by
    obtain ⟨k', hk'⟩ := hc.vst j g e
    exact lt_of_some hk'
  have hal : ∀ k', alive { w with views := w.views ++ [some k] } k' = true → alive w k' = true := by
    intro k' e
    rw [alive_iff] at e
    rcases e with e | ⟨g, e⟩
    · exact alive_iff.2 (.inl e)
    · rcases app_get.1 e with ⟨_, rfl⟩ | e
      · exact ha
      · exact alive_iff.2 (.inr ⟨g, e⟩)
  refine ⟨?_, fun _ _ _ => rfl, fun _ _ _ _ _ => rfl, fun j hj => if_neg hj, fun j g hj e => ?_,
    fun _ o h => ⟨o, h, rfl, rfl, .inr rfl⟩, rfl⟩
  · constructor
    · exact hc.st
    · exact hc.inj
    · exact hc.own
    · intro j g e
      split at e
      · cases e
        exact ⟨k, app_get.2 (.inl ⟨rfl, rfl⟩)⟩
      · obtain ⟨k', hk'⟩ := hc.vst j g e
        exact ⟨k', app_get.2 (.inr hk')⟩
    · intro j j' g e e'
      split at e <;> split at e'
      · rename_i a b; rw [a, b]
      · cases e
        exact absurd (hnew _ _ e') (Nat.lt_irrefl _)
      · cases e'
        exact absurd (hnew _ _ e) (Nat.lt_irrefl _)
      · exact hc.vinj j j' g e e'
    · intro g k' e
      rcases app_get.1 e with ⟨rfl, _⟩ | e
      · exact ⟨i, if_pos rfl⟩
      · obtain ⟨j, hj⟩ := hc.vown g k' e
        refine ⟨j, ?_⟩
        rw [if_neg]
        · exact hj
        · rintro rfl
          rw [hv] at hj
          cases hj
    · exact fun k' e => hc.ok k' (hal k' e)
    · exact hc.kinds
    · intro a b o o' n ha' hb'
      exact hc.uniq a b o o' n (hal a ha') (hal b hb')
    · exact hc.priv
    · intro g k' e
      rcases app_get.1 e with ⟨_, rfl⟩ | e
      · exact hk
      · exact hc.vkd g k' e
  · exact List.getElem?_append_left (hnew _ _ e)

/-! ## Opening and creating -/

theorem find_some {w : W} {n : Str} {k : Nat} (h : find w n = some k) : alive w k = true ∧ ∃ o, w.kobjs[k]? = some o ∧ o.name = some n := by
  have := List.find?_some h
  simp only [Bool.and_eq_true] at this
  obtain ⟨h1, h2⟩ := this
  refine ⟨h1, ?_⟩
  cases e : w.kobjs[k]? with
  | none => rw [e] at h2; cases h2
  | some o => rw [e] at h2; exact ⟨o, rfl, of_decide_eq_true h2⟩

theorem find_none {w : W} {n : Str} (h : find w n = none) {k : Nat} (ha : alive w k = true) {o : KObj} (ho : w.kobjs[k]? = some o) :
    o.name ≠ some n := by
  intro e
  have := List.find?_eq_none.1 h k (List.mem_range.2 (lt_of_some ho))
  rw [ha, ho] at this
  simp [e] at this

/-- The result of opening or creating for place `s` of object `i`. -/
structure Made1 (L : Prop) (w H V kd) (i s : Nat) (name : Option Str) (st : KSt) (r : W × Option Nat) : Prop where
  core : Core L r.1 (upd H i s r.2) V kd
  frame : Frame (fun j u => j = i ∧ u = s) (fun _ => False) w H V r.1 (upd H i s r.2) V
  views : r.1.views = w.views
  blocks : r.1.blocks = w.blocks
  got : ∀ h, r.2 = some h → ∃ (k : Nat) (o : KObj), r.1.handles[h]? = some (some k) ∧ r.1.kobjs[k]? = some o ∧ o.name = name ∧ o.st.kind = st.kind ∧
    ((w.kobjs[k]? = some o ∧ alive w k = true) ∨ (k = w.kobjs.length ∧ o.st = st))

theorem upd_none {H : Nat → Nat → Option Nat} {i s : Nat} (h : H i s = none) : upd H i s none = H := by
  funext j u
  unfold upd
  split
  · rename_i e; rw [e.1, e.2, h]
  · rfl

theorem made1_none {w H V kd} (hc : Core L w H V kd) {i s : Nat} (h : H i s = none) (name : Option Str) (st : KSt) :
    Made1 L w H V kd i s name st (w, none) := by
  refine ⟨?_, ?_, rfl, rfl, fun _ e => nomatch e⟩
  · rw [upd_none h]; exact hc
  · rw [upd_none h]; exact Frame.refl

theorem kopen_core {w H V kd} (hc : Core L w H V kd) {i s : Nat} (h : H i s = none) {n : Str} {st : KSt} (hk : kd i s = st.kind) :
    Made1 L w H V kd i s (some n) st (kopen w n st.kind) := by
  unfold kopen
  cases hf : find w n with
  | none => exact made1_none hc h _ _
  | some k =>
    obtain ⟨ha, o, ho, hn⟩ := find_some hf
    dsimp only
    rw [ho]
    dsimp only
    split
    · rename_i hkd
      have hnew : ∀ j u g, H j u = some g → g < w.handles.length := fun j u g e => by
        obtain ⟨k', hk'⟩ := hc.st j u g e
        exact lt_of_some hk'
      have hal : ∀ k', alive (handleTo w k).1 k' = true → alive w k' = true := by
        intro k' e
        rw [alive_iff] at e
        rcases e with ⟨g, e⟩ | e
        · rcases app_get.1 e with ⟨_, rfl⟩ | e
          · exact ha
          · exact alive_iff.2 (.inl ⟨g, e⟩)
        · exact alive_iff.2 (.inr e)
      have hup : ∀ j u g, upd H i s (some w.handles.length) j u = some g →
          (j = i ∧ u = s ∧ g = w.handles.length) ∨ (¬ (j = i ∧ u = s) ∧ H j u = some g) := by
        intro j u g e
        unfold upd at e
        split at e
        · rename_i e1; cases e; exact .inl ⟨e1.1, e1.2, rfl⟩
        · rename_i e1; exact .inr ⟨e1, e⟩
      refine ⟨?_, ?_, rfl, rfl, fun g e => ?_⟩
      · constructor
        · intro j u g e
          rcases hup j u g e with ⟨_, _, rfl⟩ | ⟨_, e⟩
          · exact ⟨k, app_get.2 (.inl ⟨rfl, rfl⟩)⟩
          · obtain ⟨k', hk'⟩ := hc.st j u g e
            exact ⟨k', app_get.2 (.inr hk')⟩
        · intro j u g j' u' e e'
          rcases hup j u g e with ⟨rfl, rfl, rfl⟩ | ⟨_, e9⟩ <;> rcases hup j' u' _ e' with ⟨rfl, rfl, e3⟩ | ⟨_, e'⟩
          · exact ⟨rfl, rfl⟩
          · exact absurd (hnew _ _ _ e') (Nat.lt_irrefl _)
          · subst e3; exact absurd (hnew _ _ _ e9) (Nat.lt_irrefl _)
          · exact hc.inj j u g j' u' e9 e'
        · intro g k' e
          rcases app_get.1 e with ⟨rfl, _⟩ | e
          · exact .inl ⟨i, s, upd_self ..⟩
          · rcases hc.own g k' e with ⟨j, u, e1⟩ | e1
            · refine .inl ⟨j, u, ?_⟩
              rw [upd_ne]
              · exact e1
              · rintro ⟨rfl, rfl⟩
                rw [h] at e1; cases e1
            · exact .inr e1
        · exact hc.vst
        · exact hc.vinj
        · exact hc.vown
        · exact fun k' e => hc.ok k' (hal k' e)
        · intro j u g k' e e'
          rcases hup j u g e with ⟨rfl, rfl, rfl⟩ | ⟨_, e⟩
          · rcases app_get.1 e' with ⟨_, rfl⟩ | e'
            · show kindAt w k' = _
              unfold kindAt
              rw [ho, hk, ← hkd]; rfl
            · exact absurd (lt_of_some e') (Nat.lt_irrefl _)
          · rcases app_get.1 e' with ⟨rfl, _⟩ | e'
            · exact absurd (hnew _ _ _ e) (Nat.lt_irrefl _)
            · exact hc.kinds j u g k' e e'
        · intro a b o o' n ha' hb'
          exact hc.uniq a b o o' n (hal a ha') (hal b hb')
        · intro g g' k' o1 e e' e1 e2
          rcases app_get.1 e with ⟨rfl, rfl⟩ | e <;> rcases app_get.1 e' with ⟨rfl, e3⟩ | e'
          · rfl
          · have e1 : w.kobjs[k']? = some o1 := e1
            rw [ho] at e1; cases e1; rw [hn] at e2; cases e2
          · subst e3
            have e1 : w.kobjs[k']? = some o1 := e1
            rw [ho] at e1; cases e1; rw [hn] at e2; cases e2
          · exact hc.priv g g' k' o1 e e' e1 e2
        · exact hc.vkd
      · refine ⟨fun j u hp => upd_ne _ hp, fun j u g hp e => ?_, fun _ _ => rfl, fun _ _ _ _ => rfl,
          fun _ o h => ⟨o, h, rfl, rfl, .inr rfl⟩, rfl⟩
        exact List.getElem?_append_left (hnew _ _ _ e)
      · cases e
        exact ⟨k, o, app_get.2 (.inl ⟨rfl, rfl⟩), ho, hn, hkd, .inl ⟨ho, ha⟩⟩
    · exact made1_none hc h _ _

theorem kfresh_core {w H V kd} (hc : Core L w H V kd) {i s : Nat} (h : H i s = none) (name : Option Str) {st : KSt}
    (hk : kd i s = st.kind) (hf : ∀ n, name = some n → find w n = none) :
    Made1 L w H V kd i s name st (kfresh w name st) := by
  have hnew : ∀ j u g, H j u = some g → g < w.handles.length := fun j u g e => by
    obtain ⟨k', hk'⟩ := hc.st j u g e
    exact lt_of_some hk'
  have hal : ∀ k', alive (kfresh w name st).1 k' = true → k' = w.kobjs.length ∨ (alive w k' = true ∧ k' < w.kobjs.length) := by
    intro k' e
    have h1 : alive w k' = true → (alive w k' = true ∧ k' < w.kobjs.length) := fun e => ⟨e, hc.ok k' e⟩
    rw [alive_iff] at e
    rcases e with ⟨g, e⟩ | e
    · rcases app_get.1 e with ⟨_, rfl⟩ | e
      · exact .inl rfl
      · exact .inr (h1 (alive_iff.2 (.inl ⟨g, e⟩)))
    · exact .inr (h1 (alive_iff.2 (.inr e)))
  have hold : ∀ k o, w.kobjs[k]? = some o → (w.kobjs ++ [⟨name, st⟩])[k]? = some o := fun k o e => by
    rw [List.getElem?_append_left (lt_of_some e)]; exact e
  have hlast : (w.kobjs ++ [⟨name, st⟩])[w.kobjs.length]? = some ⟨name, st⟩ := by simp
  have hback : ∀ k o, k < w.kobjs.length → (w.kobjs ++ [⟨name, st⟩])[k]? = some o → w.kobjs[k]? = some o := fun k o hl e => by
    rw [List.getElem?_append_left hl] at e; exact e
  have hkind : ∀ k x, kindAt w k = some x → kindAt (kfresh w name st).1 k = some x := by
    intro k x e
    unfold kindAt at e
    cases ho : w.kobjs[k]? with
    | none => rw [ho] at e; cases e
    | some o =>
      rw [ho] at e
      show Option.map _ ((w.kobjs ++ [⟨name, st⟩])[k]?) = _
      rw [hold k o ho]; exact e
  have hup : ∀ j u g, upd H i s (some w.handles.length) j u = some g →
      (j = i ∧ u = s ∧ g = w.handles.length) ∨ (¬ (j = i ∧ u = s) ∧ H j u = some g) := by
    intro j u g e
    unfold upd at e
    split at e
    · rename_i e1; cases e; exact .inl ⟨e1.1, e1.2, rfl⟩
    · rename_i e1; exact .inr ⟨e1, e⟩
  refine ⟨?_, ?_, rfl, rfl, fun g e => ?_⟩
  · constructor
    · intro j u g e
      rcases hup j u g e with ⟨_, _, rfl⟩ | ⟨_, e⟩
      · exact ⟨_, app_get.2 (.inl ⟨rfl, rfl⟩)⟩
      · obtain ⟨k', hk'⟩ := hc.st j u g e
        exact ⟨k', app_get.2 (.inr hk')⟩
    · intro j u g j' u' e e'
      rcases hup j u g e with ⟨rfl, rfl, rfl⟩ | ⟨_, e9⟩ <;> rcases hup j' u' _ e' with ⟨rfl, rfl, e3⟩ | ⟨_, e'⟩
      · exact ⟨rfl, rfl⟩
      · exact absurd (hnew _ _ _ e') (Nat.lt_irrefl _)
      · subst e3; exact absurd (hnew _ _ _ e9) (Nat.lt_irrefl _)
      · exact hc.inj j u g j' u' e9 e'
    · intro g k' e
      rcases app_get.1 e with ⟨rfl, _⟩ | e
      · exact .inl ⟨i, s, upd_self ..⟩
      · rcases hc.own g k' e with ⟨j, u, e1⟩ | e1
        · refine .inl ⟨j, u, ?_⟩
          rw [upd_ne]
          · exact e1
          · rintro ⟨rfl, rfl⟩
            rw [h] at e1; cases e1
        · exact .inr ⟨e1.1, hkind _ _ e1.2⟩
    · exact hc.vst
    · exact hc.vinj
    · exact hc.vown
    · intro k' e
      show k' < (w.kobjs ++ [_]).length
      rw [List.length_append, List.length_singleton]
      rcases hal k' e with rfl | ⟨_, e⟩ <;> omega
    · intro j u g k' e e'
      rcases hup j u g e with ⟨rfl, rfl, rfl⟩ | ⟨_, e⟩
      · rcases app_get.1 e' with ⟨_, rfl⟩ | e'
        · show Option.map _ ((w.kobjs ++ [⟨name, st⟩])[w.kobjs.length]?) = _
          rw [hlast, hk]; rfl
        · exact absurd (lt_of_some e') (Nat.lt_irrefl _)
      · rcases app_get.1 e' with ⟨rfl, _⟩ | e'
        · exact absurd (hnew _ _ _ e) (Nat.lt_irrefl _)
        · exact hkind _ _ (hc.kinds j u g k' e e')
    · intro a b o o' n ha hb ho ho' hn hn'
      have ho : (w.kobjs ++ [⟨name, st⟩])[a]? = some o := ho
      have ho' : (w.kobjs ++ [⟨name, st⟩])[b]? = some o' := ho'
      rcases hal a ha with rfl | ⟨ha, hla⟩ <;> rcases hal b hb with rfl | ⟨hb, hlb⟩
      · rfl
      · rw [hlast] at ho; cases ho
        exact absurd hn' (find_none (hf n hn) hb (hback _ _ hlb ho'))
      · rw [hlast] at ho'; cases ho'
        exact absurd hn (find_none (hf n hn') ha (hback _ _ hla ho))
      · exact hc.uniq a b o o' n ha hb (hback _ _ hla ho) (hback _ _ hlb ho') hn hn'
    · intro g g' k' o1 e e' e1 e2
      have hlt : ∀ g : Nat, w.handles[g]? = some (some k') → k' < w.kobjs.length := fun g e => hc.ok k' (alive_handle e)
      rcases app_get.1 e with ⟨rfl, rfl⟩ | e <;> rcases app_get.1 e' with ⟨rfl, e3⟩ | e'
      · rfl
      · exact absurd (hlt _ e') (Nat.lt_irrefl _)
      · subst e3; exact absurd (hlt _ e) (Nat.lt_irrefl _)
      · exact hc.priv g g' k' o1 e e' (hback _ _ (hlt _ e) e1) e2
    · exact fun v k' e => hkind _ _ (hc.vkd v k' e)
  · refine ⟨fun j u hp => upd_ne _ hp, fun j u g hp e => ?_, fun _ _ => rfl, fun _ _ _ _ => rfl,
      fun k o h => ⟨o, hold k o h, rfl, rfl, .inr rfl⟩, rfl⟩
    exact List.getElem?_append_left (hnew _ _ _ e)
  · cases e
    exact ⟨_, _, app_get.2 (.inl ⟨rfl, rfl⟩), hlast, rfl, rfl, .inr ⟨rfl, rfl⟩⟩

theorem kcreate_core {w H V kd} (hc : Core L w H V kd) {i s : Nat} (h : H i s = none) (name : Option Str) {st : KSt}
    (hk : kd i s = st.kind) (fails : Bool) : Made1 L w H V kd i s name st (kcreate w name st fails) := by
  unfold kcreate
  split
  · exact made1_none hc h _ _
  · split
    · exact kfresh_core hc h none hk (fun _ e => nomatch e)
    · rename_i n
      split
      · exact kopen_core hc h hk
      · rename_i hs
        refine kfresh_core hc h (some n) hk (fun m e => ?_)
        cases e
        cases hf : find w n with
        | none => rfl
        | some k => rw [hf] at hs; exact absurd rfl hs

/-! ## Changing the state of a kernel object -/

theorem setK_get {w : W} {k j : Nat} {st : KSt} {o : KObj} (h : w.kobjs[j]? = some o) :
    (setK w k st).kobjs[j]? = some (if j = k then { o with st := st } else o) := by
  unfold setK
  dsimp only
  rw [List.getElem?_modify, h]
  by_cases e : k = j
  · subst e; simp
  · simp [e, Ne.symm e]

theorem setK_back {w : W} {k j : Nat} {st : KSt} {o : KObj} (h : (setK w k st).kobjs[j]? = some o) :
    ∃ o', w.kobjs[j]? = some o' ∧ o = if j = k then { o' with st := st } else o' := by
  cases e : w.kobjs[j]? with
  | none =>
    unfold setK at h
    dsimp only at h
    rw [List.getElem?_modify, e] at h
    cases h
  | some o' =>
    rw [setK_get e] at h
    exact ⟨o', rfl, (Option.some.inj h).symm⟩

theorem setK_core {w H V kd} (hc : Core L w H V kd) {k : Nat} {st : KSt} {o : KObj} (ho : w.kobjs[k]? = some o) (hk : st.kind = o.st.kind) :
    Core L (setK w k st) H V kd := by
  have hkind : ∀ j, kindAt (setK w k st) j = kindAt w j := by
    intro j
    unfold kindAt
    cases e : w.kobjs[j]? with
    | none =>
      have : (setK w k st).kobjs[j]? = none := by
        cases e2 : (setK w k st).kobjs[j]? with
        | none => rfl
        | some x => obtain ⟨_, e3, _⟩ := setK_back e2; rw [e] at e3; cases e3
      rw [this]
    | some x =>
      rw [setK_get e]
      by_cases e2 : j = k
      · subst e2
        rw [ho] at e; cases e
        simp [hk]
      · simp [e2]
  have hname : ∀ {j : Nat} {x}, (setK w k st).kobjs[j]? = some x → ∃ y, w.kobjs[j]? = some y ∧ y.name = x.name := by
    intro j x e
    obtain ⟨y, e1, e2⟩ := setK_back e
    refine ⟨y, e1, ?_⟩
    rw [e2]; split <;> rfl
  constructor
  · exact hc.st
  · exact hc.inj
  · intro h k' e; rw [hkind]; exact hc.own h k' e
  · exact hc.vst
  · exact hc.vinj
  · exact hc.vown
  · intro k' e
    show k' < (w.kobjs.modify k _).length
    rw [List.length_modify]; exact hc.ok k' e
  · intro i s h k' e e'; rw [hkind]; exact hc.kinds i s h k' e e'
  · intro a b x y n ha hb hx hy hn hn'
    obtain ⟨x', e1, e2⟩ := hname hx
    obtain ⟨y', e3, e4⟩ := hname hy
    exact hc.uniq a b x' y' n ha hb e1 e3 (e2.trans hn) (e4.trans hn')
  · intro h h' k' x e e' hx hn
    obtain ⟨x', e1, e2⟩ := hname hx
    exact hc.priv h h' k' x' e e' e1 (e2.trans hn)
  · intro v k' e; rw [hkind]; exact hc.vkd v k' e

/-! ## Losing a handle of a mutex -/

theorem leak_core {w H V kd} (hc : Core L w H V kd) {i s : Nat} (hk : kd i s = 3) (hL : L ∨ H i s = none) :
    Core L w (upd H i s none) V kd ∧ Frame (fun j u => j = i ∧ u = s) (fun _ => False) w H V w (upd H i s none) V := by
  have hup : ∀ j u g, upd H i s none j u = some g → H j u = some g := by
    intro j u g e
    unfold upd at e
    split at e
    · cases e
    · exact e
  refine ⟨?_, fun j u hp => upd_ne _ hp, fun _ _ _ _ _ => rfl, fun _ _ => rfl, fun _ _ _ _ => rfl,
    fun _ o h => ⟨o, h, rfl, rfl, .inr rfl⟩, rfl⟩
  constructor
  · exact fun j u g e => hc.st j u g (hup _ _ _ e)
  · exact fun j u g j' u' e e' => hc.inj j u g j' u' (hup _ _ _ e) (hup _ _ _ e')
  · intro g k' e
    rcases hc.own g k' e with ⟨j, u, e1⟩ | e1
    · by_cases hju : j = i ∧ u = s
      · obtain ⟨rfl, rfl⟩ := hju
        refine .inr ⟨hL.resolve_right (fun e2 => by rw [e2] at e1; cases e1), ?_⟩
        rw [hc.kinds j u g k' e1 e, hk]
      · exact .inl ⟨j, u, by rw [upd_ne _ hju]; exact e1⟩
    · exact .inr e1
  · exact hc.vst
  · exact hc.vinj
  · exact hc.vown
  · exact hc.ok
  · exact fun j u g k' e => hc.kinds j u g k' (hup _ _ _ e)
  · exact hc.uniq
  · exact hc.priv
  · exact hc.vkd

end Verif.WinSync
