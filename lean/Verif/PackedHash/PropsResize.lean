import Verif.PackedHash.PropsLife

/-!
# When the packed ordered hash changes the size of its table (C126)

The comment above `AutoResizeHash` (packed_ordered_hash_util.h:417-420) promises: pack while less than 90 % of the places
are in use, shrink below 40 %, grow when the array is full.  The specification below says what is actually observable
through `GetHashSize()`, `GetNextPos()` and `GetSize()`, and bounds the size of the table by the numbers a caller knows:
the sizes asked for and the largest number of keys.
-/

namespace Verif.PackedHash
open Verif.OrderedHash (Key)

variable {α : Type} {hf : List UInt8 → UInt64}

namespace Spec

/-- The largest number of keys present at any time during a history. -/
def peak (dflt : α) : List (Key × α) → List (Op α) → Nat
  | s, [] => s.length
  | s, op :: ops =>
    match step dflt s op with
    | some (_, s') => Nat.max s.length (peak dflt s' ops)
    | none => s.length

/-- The largest size asked for with `ResizeHash`. -/
def asked : List (Op α) → Nat
  | [] => 0
  | .resize n :: ops => Nat.max n (asked ops)
  | _ :: ops => asked ops

/-- The history does not call `ResizeHash`. -/
def noResize : List (Op α) → Prop
  | [] => True
  | .resize _ :: _ => False
  | _ :: ops => noResize ops

end Spec

/-! ## The size after each call -/

theorem growTo_lt {m : Nat} : ∀ (k n : Nat) {r : Nat}, growTo k n m = .ok r → n ≤ r ∧ (r = n ∨ r < 2 * m)
  | 0, n, r, h => by cases h
  | k + 1, n, r, h => by
    unfold growTo at h
    split at h
    · have := growTo_lt k (2 * n) h
      omega
    · cases h
      exact ⟨Nat.le_refl _, Or.inl rfl⟩

/-- `InternalResizeHash` with a power of two: the size it settles on, and what it leaves. -/
theorem internalResize_exact {w : W α} {xs : List Nat} {K : Nat → Key} {V : Nat → α} (t : Inv hf w xs K V) {a : Nat} (ha : a ≤ 30) :
    ∃ c, 2 ^ a ≤ c ∧ (c = 2 ^ a ∨ c < 2 * w.used) ∧ w.used ≤ c ∧
      (((c = w.cap ∨ (c < 512 ∧ c < w.cap)) ∧ internalResize hf w (2 ^ a) = .ok (false, w)) ∨
        (¬(c = w.cap ∨ (c < 512 ∧ c < w.cap)) ∧ ∃ w', internalResize hf w (2 ^ a) = .ok (true, w') ∧ w'.cap = c ∧ w'.pos = w.used ∧
          w'.used = w.used)) := by
  have hul := t.used_le
  have hpl := t.pos_le
  have hcap := t.cap_le
  obtain ⟨b, h1, h2, h3, h4⟩ := growTo_ok (m := w.used) (by omega) 64 a ha (by omega)
  have h5 := growTo_lt _ _ h1
  refine ⟨2 ^ b, h5.1, h5.2, h4, ?_⟩
  unfold internalResize
  rw [h1, ok_bind]
  by_cases e : 2 ^ b = w.cap ∨ (2 ^ b < 512 ∧ 2 ^ b < w.cap)
  · exact Or.inl ⟨e, by rw [if_pos e]⟩
  · refine Or.inr ⟨e, ?_⟩
    rw [if_neg e]
    obtain ⟨w', K', V', f1, f2, f3, f4, f5, f6, f7, f8⟩ := resLoop_ok t w.pos (emptyTable (2 ^ b) w.used) 0 0 K V (by omega)
      (by simpa using T.emptyTable h3 _ K V) (by simp) h4
    rw [f1, ok_bind]
    exact ⟨w', rfl, f4, f5, f6⟩

/-- What `AutoResizeHash` does, by the three numbers a caller can ask for. -/
theorem autoResize_exact {w : W α} {xs : List Nat} {K : Nat → Key} {V : Nat → α} (t : Inv hf w xs K V) (hl : xs.length < Spec.limit) :
    ∃ b w', autoResize hf w = .ok (b, w') ∧ w'.used = w.used ∧
      (w.used < w.cap - w.cap / 10 → b = true ∧ w'.cap = w.cap ∧ w'.pos = w.used) ∧
      (w.cap - w.cap / 10 ≤ w.used → w.pos = w.cap → b = true ∧ w'.cap = 2 * w.cap ∧ w'.pos = w.used) ∧
      (w.cap - w.cap / 10 ≤ w.used → w.pos < w.cap → b = false ∧ w' = w) := by
  have hul := t.used_le
  have hpl := t.pos_le
  have hcap := t.cap_le
  have hc := t.c90
  have hr := t.r40
  have hu := t.used
  unfold autoResize
  by_cases e : w.used < w.c90
  · rw [if_pos e]
    obtain ⟨w', xs', K', V', g1, g2, g3, g4, g5⟩ := optimize_ok t
    have g6 : w'.used = w.used := by
      rw [g2.used, hu]
      simpa using congrArg List.length g3
    rw [g1, ok_bind]
    refine ⟨true, w', rfl, g6, fun _ => ⟨rfl, g5, g4⟩, fun h => ?_, fun h => ?_⟩ <;> omega
  · rw [if_neg e, if_neg (by omega)]
    by_cases ep : w.pos = w.cap
    · rw [if_pos ep]
      obtain ⟨k, hk, ek⟩ := t.pow
      have hk30 : k ≠ 30 := by
        rintro rfl
        unfold Spec.limit at hl
        omega
      have e2 : w.cap * 2 = 2 ^ (k + 1) := by rw [ek, Nat.pow_succ]
      obtain ⟨c, h1, h2, -, h3⟩ := internalResize_exact t (a := k + 1) (by omega)
      rw [← e2] at h1 h2 h3
      have hc2 : c = w.cap * 2 := by omega
      rcases h3 with ⟨h3, -⟩ | ⟨-, w', h4, h5, h6, h7⟩
      · omega
      · refine ⟨true, w', h4, h7, fun h => ?_, fun _ _ => ⟨rfl, by omega, h6⟩, fun _ h => ?_⟩ <;> omega
    · rw [if_neg ep]
      refine ⟨false, w, rfl, rfl, fun h => ?_, fun _ h => ?_, fun _ _ => ⟨rfl, rfl⟩⟩ <;> omega

/-- The bound a call has to respect, with `M` at least every number of keys and every size asked for. -/
def Small (w : W α) (M : Nat) : Prop := 9 * w.cap ≤ 20 * M

theorem autoResize_size {w w' : W α} {s : List (Key × α)} (h : Rel hf w s) (hl : s.length < Spec.limit) {b : Bool}
    (e : autoResize hf w = .ok (b, w')) : w.cap ≤ w'.cap ∧ ∀ M, s.length ≤ M → Small w M → Small w' M := by
  obtain ⟨xs, K, V, t, rfl⟩ := h
  have hu := t.used
  have hcap := t.cap_le
  have hp := t.pos_le
  obtain ⟨b', w2, g1, -, g2, g3, g4⟩ := autoResize_exact t (by simpa using hl)
  rw [g1] at e
  cases e
  unfold Small
  simp only [List.length_map]
  rcases Nat.lt_or_ge w.used (w.cap - w.cap / 10) with h1 | h1
  · obtain ⟨-, h2, -⟩ := g2 h1
    exact ⟨by omega, fun M _ _ => by omega⟩
  · rcases Nat.lt_or_ge w.pos w.cap with h2 | h2
    · obtain ⟨-, rfl⟩ := g4 h1 h2
      exact ⟨Nat.le_refl _, fun M _ h => h⟩
    · obtain ⟨-, h3, -⟩ := g3 h1 (by omega)
      exact ⟨by omega, fun M hM _ => by omega⟩

theorem set_size {dflt : α} {w w' : W α} {s : List (Key × α)} (h : Rel hf w s) {k : Key}
    (hl : (Spec.lookup s k).isSome ∨ s.length < Spec.limit) {x : Nat} (e : set hf dflt w k = .ok (x, w')) :
    w.cap ≤ w'.cap ∧ ∀ M, s.length ≤ M → Small w M → Small w' M := by
  obtain ⟨xs, K, V, t, rfl⟩ := h
  unfold set at e
  rw [find_ok t.toT, ok_bind] at e
  rw [lookup_map] at hl
  rcases find_cases (xs := xs) (K := K) k with ⟨h1, h2⟩ | ⟨x, h1, h2, h3⟩
  · rw [h1] at e hl
    simp only [Option.map_none, Option.isSome_none, Bool.false_eq_true, false_or] at hl
    simp only at e
    have hr : ∀ {w1 : W α}, makeRoom hf w = .ok w1 → w.cap ≤ w1.cap ∧ ∀ M, (xs.map (ent K V)).length ≤ M → Small w M → Small w1 M := by
      intro w1 e1
      unfold makeRoom at e1
      split at e1
      · cases ea : autoResize hf w with
        | error u => rw [ea] at e1; cases e1
        | ok r =>
          rw [ea] at e1
          cases e1
          exact autoResize_size ⟨xs, K, V, t, rfl⟩ hl ea
      · cases e1
        exact ⟨Nat.le_refl _, fun M _ h => h⟩
    cases em : makeRoom hf w with
    | error u => rw [em] at e; cases e
    | ok w1 =>
      rw [em, ok_bind] at e
      have ha := append_cap e
      unfold Small
      rw [ha]
      exact hr em
  · rw [h1] at e
    cases e
    exact ⟨Nat.le_refl _, fun M _ h => h⟩

/-- One call: only `ResizeHash` makes the table smaller, and the bound is kept. -/
theorem step_size {dflt : α} {w w' : W α} {s s' : List (Key × α)} {op : Op α} {r : Ret α} (h : Rel hf w s)
    (hs : Spec.step dflt s op = some (r, s')) (e : step hf dflt w op = .ok (r, w')) :
    (Spec.noResize [op] → w.cap ≤ w'.cap) ∧
      ∀ M, s.length ≤ M → Spec.asked [op] ≤ M → Small w M → Small w' M := by
  cases op with
  | set k v =>
    simp only [Spec.step] at hs
    split at hs
    · rename_i hl
      simp only [step, setV] at e
      cases e1 : set hf dflt w k with
      | error u => rw [e1] at e; cases e
      | ok p =>
        obtain ⟨x, w1⟩ := p
        rw [e1] at e
        obtain ⟨g1, g2⟩ := set_size h hl e1
        have : w'.cap = w1.cap := by
          cases e2 : getVal w1 x with
          | error u => simp [e2] at e
          | ok v2 =>
            simp [e2] at e
            rw [← e.2]
        unfold Small
        rw [this]
        exact ⟨fun _ => g1, fun M h1 _ h2 => g2 M h1 h2⟩
    · cases hs
  | touch k =>
    have hl : (Spec.lookup s k).isSome ∨ s.length < Spec.limit := by
      simp only [Spec.step] at hs
      split at hs
      · rename_i hk; exact Or.inl (by rw [hk]; rfl)
      · split at hs
        · rename_i hl; exact Or.inr hl
        · cases hs
    simp only [step] at e
    cases e1 : set hf dflt w k with
    | error u => rw [e1] at e; cases e
    | ok p =>
      obtain ⟨x, w1⟩ := p
      rw [e1] at e
      obtain ⟨g1, g2⟩ := set_size h hl e1
      have : w'.cap = w1.cap := by
        cases e2 : getVal w1 x with
        | error u => simp [e2] at e
        | ok v2 =>
          simp [e2] at e
          rw [← e.2]
      unfold Small
      rw [this]
      exact ⟨fun _ => g1, fun M h1 _ h2 => g2 M h1 h2⟩
  | unset k =>
    simp only [step, unsetKey] at e
    have : w'.cap = w.cap := by
      cases e1 : find hf w k with
      | error u => rw [e1] at e; cases e
      | ok x =>
        rw [e1, ok_bind] at e
        cases x with
        | none => cases e; rfl
        | some x =>
          cases e2 : unset w (some x) with
          | error u => rw [e2] at e; cases e
          | ok p =>
            obtain ⟨b, w1⟩ := p
            rw [e2] at e
            cases e
            exact unset_cap e2
    unfold Small
    rw [this]
    exact ⟨fun _ => Nat.le_refl _, fun M _ _ h2 => h2⟩
  | find k =>
    simp only [step] at e
    have : w' = w := by
      cases e1 : find hf w k with
      | error u => rw [e1] at e; cases e
      | ok x =>
        rw [e1, ok_bind] at e
        cases x with
        | none => cases e; rfl
        | some x =>
          simp only at e
          cases e2 : getVal w x with
          | error u => simp [e2] at e
          | ok v2 => simp [e2] at e; exact e.2.symm
    rw [this]
    exact ⟨fun _ => Nat.le_refl _, fun M _ _ h2 => h2⟩
  | resize n =>
    simp only [Spec.step] at hs
    split at hs
    · rename_i hn
      refine ⟨fun h => False.elim h, fun M h1 h2 h3 => ?_⟩
      have hnM : n ≤ M := by
        have : Nat.max n 0 ≤ M := h2
        exact Nat.le_trans (Nat.le_max_left _ _) this
      obtain ⟨xs, K, V, t, rfl⟩ := h
      have hu := t.used
      have hcap := t.cap_le
      obtain ⟨a, f1, -, f3, -⟩ := growTo_ok hn 64 0 (by omega) (by omega)
      have f1 : growTo 64 1 n = .ok (2 ^ a) := f1
      have f4 := growTo_lt _ _ f1
      simp only [step, resize] at e
      rw [f1, ok_bind] at e
      obtain ⟨c, d1, d2, -, d3⟩ := internalResize_exact t f3
      simp only [List.length_map] at h1
      unfold Small at h3 ⊢
      rcases d3 with ⟨-, d3⟩ | ⟨-, w2, d3, d4, -⟩
      · rw [d3] at e
        cases e
        exact h3
      · rw [d3] at e
        cases e
        have hp := t.used_le
        have := t.pos_le
        rw [d4]
        have hM : 1 ≤ M := by omega
        clear f1 f3 d3
        generalize 2 ^ a = q at *
        rcases d2 with rfl | d2
        · rcases f4.2 with f5 | f5 <;> omega
        · omega
    · cases hs
  | optimize =>
    obtain ⟨xs, K, V, t, rfl⟩ := h
    obtain ⟨w2, xs', K', V', g1, g2, g3, g4, g5⟩ := optimize_ok t
    simp only [step] at e
    rw [g1] at e
    cases e
    unfold Small
    rw [g5]
    exact ⟨fun _ => Nat.le_refl _, fun M _ _ h2 => h2⟩
  | autoResize =>
    simp only [Spec.step] at hs
    split at hs
    · rename_i hn
      simp only [step] at e
      cases e1 : autoResize hf w with
      | error u => rw [e1] at e; cases e
      | ok p =>
        obtain ⟨b, w1⟩ := p
        rw [e1] at e
        cases e
        obtain ⟨g1, g2⟩ := autoResize_size h hn e1
        exact ⟨fun _ => g1, fun M h1 _ h2 => g2 M h1 h2⟩
    · cases hs
  | size =>
    cases e
    exact ⟨fun _ => Nat.le_refl _, fun M _ _ h2 => h2⟩

theorem run_size {dflt : α} : ∀ {ops : List (Op α)} {w w' : W α} {s s' : List (Key × α)} {rs : List (Ret α)}, Rel hf w s →
    Spec.run dflt s ops = some (rs, s') → run hf dflt w ops = .ok (rs, w') →
    (Spec.noResize ops → w.cap ≤ w'.cap) ∧ ∀ M, Spec.peak dflt s ops ≤ M → Spec.asked ops ≤ M → Small w M → Small w' M
  | [], w, w', s, s', rs, h, hr, e => by
    cases e
    exact ⟨fun _ => Nat.le_refl _, fun M _ _ h => h⟩
  | op :: ops, w, w', s, s', rs, h, hr, e => by
    unfold Spec.run at hr
    obtain ⟨⟨r, s1⟩, h1, h2⟩ := Verif.DList.bind_some hr
    obtain ⟨⟨rs', s2⟩, h3, h4⟩ := Verif.DList.bind_some h2
    cases h4
    obtain ⟨w1, g1, g2⟩ := step_refines h h1
    obtain ⟨w2, g3, g4⟩ := run_refines g2 h3
    have e2 : w2 = w' := by
      simp [run, g1, g3] at e
      exact e
    subst e2
    obtain ⟨a1, a2⟩ := step_size h h1 g1
    obtain ⟨b1, b2⟩ := run_size g2 h3 g3
    refine ⟨fun hn => ?_, fun M m1 m2 m3 => ?_⟩
    · have : Spec.noResize [op] ∧ Spec.noResize ops := by
        cases op <;> simp_all [Spec.noResize]
      exact Nat.le_trans (a1 this.1) (b1 this.2)
    · unfold Spec.peak at m1
      rw [h1] at m1
      have m1 : Nat.max s.length (Spec.peak dflt s1 ops) ≤ M := m1
      have k1 := Nat.le_trans (Nat.le_max_left _ _) m1
      have k2 := Nat.le_trans (Nat.le_max_right _ _) m1
      have m4 : Spec.asked [op] ≤ M ∧ Spec.asked ops ≤ M := by
        cases op with
        | resize n =>
          have m2 : Nat.max n (Spec.asked ops) ≤ M := m2
          exact ⟨Nat.max_le.2 ⟨Nat.le_trans (Nat.le_max_left _ _) m2, Nat.zero_le _⟩, Nat.le_trans (Nat.le_max_right _ _) m2⟩
        | _ => exact ⟨Nat.zero_le _, m2⟩
      exact b2 M k2 m4.2 (a2 M k1 m4.1 m3)

theorem construct_size {n : Nat} (hn : n ≤ 2 ^ 30) {w : W α} (e : construct hf n = .ok w) :
    n ≤ w.cap ∧ (w.cap = 1 ∨ w.cap < 2 * n) := by
  obtain ⟨a, h1, -, h3, h4⟩ := growTo_ok hn 64 0 (by omega) (by omega)
  have h1 : growTo 64 1 n = .ok (2 ^ a) := h1
  have h5 := growTo_lt _ _ h1
  have h0 := Nat.two_pow_pos a
  unfold construct resize at e
  rw [h1, ok_bind] at e
  cases hi : internalResize hf ({ (emptyTable 0 0 : W α) with mask := 0, c90 := 0, r40 := 0 } : W α) (2 ^ a) with
  | error u => rw [hi] at e; cases e
  | ok p =>
    rw [hi] at e
    cases e
    unfold internalResize at hi
    have h2 : growTo 64 (2 ^ a) 0 = .ok (2 ^ a) := by simp [growTo]
    have hi : (do
        let n ← growTo 64 (2 ^ a) 0
        if n = 0 ∨ (n < 512 ∧ n < 0) then .ok (false, _) else _ : CRes (Bool × W α)) = .ok p := hi
    rw [h2, ok_bind, if_neg (by omega)] at hi
    cases hi
    have : ((emptyTable (2 ^ a) 0 : W α)).cap = 2 ^ a := rfl
    exact ⟨h4, h5.2⟩

/-! ## The properties -/

/-- C126, what holds of the rules: `AutoResizeHash()` after any history.  Below 90 % in use it packs the array, keeps the
size and returns true; from 90 % on it doubles the table if the array is full and otherwise does nothing and returns
false.  The entries are the same in all cases.  Missing: the rule "shrink when less than 40 % is in use", which the code
does not follow (`auto_never_shrinks`). -/
theorem auto_resize_rules_partial (hf : List UInt8 → UInt64) (dflt : α) (n : Nat) (hn : n ≤ 2 ^ 30) (ops : List (Op α)) (rs : List (Ret α))
    (s : List (Key × α)) (hr : Spec.run dflt [] ops = some (rs, s)) (hl : s.length < Spec.limit) :
    ∃ w w1 b w', construct hf n = .ok w ∧ run hf dflt w ops = .ok (rs, w1) ∧ w1.used = s.length ∧
      autoResize hf w1 = .ok (b, w') ∧ w'.used = s.length ∧ forward w' = .ok s ∧
      (s.length < w1.cap - w1.cap / 10 → b = true ∧ w'.cap = w1.cap ∧ w'.pos = s.length) ∧
      (w1.cap - w1.cap / 10 ≤ s.length → w1.pos = w1.cap → b = true ∧ w'.cap = 2 * w1.cap ∧ w'.pos = s.length) ∧
      (w1.cap - w1.cap / 10 ≤ s.length → w1.pos < w1.cap → b = false ∧ w' = w1) := by
  obtain ⟨w, h1, h2⟩ := construct_rel (hf := hf) dflt hn
  obtain ⟨w1, h3, xs, K, V, t, rfl⟩ := run_refines h2 hr
  obtain ⟨b, w2, xs', K', V', g1, g2, g3, -⟩ := autoResize_ok t (by simpa using hl)
  obtain ⟨b', w3, f1, f2, f3, f4, f5⟩ := autoResize_exact t (by simpa using hl)
  rw [g1] at f1
  cases f1
  have hu := t.used
  rw [hu] at f2 f3 f4 f5
  simp only [List.length_map]
  exact ⟨w, w1, b, w2, h1, h3, hu, g1, f2, forward_ok ⟨xs', K', V', g2, g3.symm⟩, f3, f4, f5⟩

/-- C126, the negation of the rule "shrink": no history without `ResizeHash` ever makes the table smaller, however few keys
are left and however often `AutoResizeHash` is called. -/
theorem auto_never_shrinks (hf : List UInt8 → UInt64) (dflt : α) (n : Nat) (hn : n ≤ 2 ^ 30) (ops more : List (Op α))
    (rs rs' : List (Ret α)) (s s' : List (Key × α)) (hr : Spec.run dflt [] ops = some (rs, s)) (hr' : Spec.run dflt s more = some (rs', s'))
    (hno : Spec.noResize more) :
    ∃ w w1 w2, construct hf n = .ok w ∧ run hf dflt w ops = .ok (rs, w1) ∧ run hf dflt w1 more = .ok (rs', w2) ∧ w1.cap ≤ w2.cap := by
  obtain ⟨w, h1, h2⟩ := construct_rel (hf := hf) dflt hn
  obtain ⟨w1, h3, h4⟩ := run_refines h2 hr
  obtain ⟨w2, h5, h6⟩ := run_refines h4 hr'
  exact ⟨w, w1, w2, h1, h3, h5, (run_size h4 hr' h5).1 hno⟩

/-- The rule would have to apply: a table of 1024 places with one key stays at 1024 places. -/
theorem shrink_rule_broken (hf : List UInt8 → UInt64) (dflt v : α) (k : Key) :
    ∃ w w1 w2, construct hf 1024 = .ok w ∧ run hf dflt w [.set k v] = .ok ([.void], w1) ∧ w1.cap = 1024 ∧ w1.used = 1 ∧
      autoResize hf w1 = .ok (true, w2) ∧ w2.cap = 1024 := by
  have hr : Spec.run dflt [] [.set k v] = some ([.void], [(k, v)]) := by
    simp [Spec.run, Spec.step, Spec.put, Spec.lookup, Spec.limit]
  obtain ⟨w, h1, h2⟩ := construct_rel (hf := hf) dflt (n := 1024) (by omega)
  obtain ⟨w1, h3, h4⟩ := run_refines h2 hr
  have c0 : w.cap = 1024 := by
    obtain ⟨_, _, _, t, _⟩ := h2
    obtain ⟨c1, c2⟩ := construct_size (by omega) h1
    obtain ⟨q, -, hq⟩ := t.pow
    have : q = 10 := by
      rcases Nat.lt_or_ge q 10 with h | h
      · have : 2 ^ q ≤ 2 ^ 9 := Nat.pow_le_pow_right (by omega) (by omega)
        omega
      · rcases Nat.lt_or_ge 10 q with h' | h'
        · have : 2 ^ 11 ≤ 2 ^ q := Nat.pow_le_pow_right (by omega) (by omega)
          omega
        · omega
    rw [hq, this]
  have c1 : w1.cap = 1024 := by
    have := (run_size h2 hr h3)
    have c2 := this.1 (by simp [Spec.noResize])
    have hM := this.2 461 (by simp [Spec.peak, Spec.step, Spec.put, Spec.lookup, Spec.limit]) (by simp [Spec.asked]) (by unfold Small; omega)
    unfold Small at hM
    omega
  obtain ⟨xs, K, V, t, e⟩ := h4
  have hx : xs.length = 1 := by simpa using congrArg List.length e.symm
  obtain ⟨b, w2, g1, g2, g3, -, -⟩ := autoResize_exact t (by rw [hx]; unfold Spec.limit; omega)
  have hu := t.used
  obtain ⟨rfl, g4, -⟩ := g3 (by omega)
  exact ⟨w, w1, w2, h1, h3, c1, by omega, g1, by omega⟩

/-- C126: the table stays proportional to what the caller asked for and stored: after any history, nine times
`GetHashSize()` is at most twenty times the largest of 1, the initial size, the sizes given to `ResizeHash` and the largest
number of keys present at one time. -/
theorem table_size_bound (hf : List UInt8 → UInt64) (dflt : α) (n : Nat) (hn : n ≤ 2 ^ 30) (ops : List (Op α)) (rs : List (Ret α))
    (s : List (Key × α)) (hr : Spec.run dflt [] ops = some (rs, s)) (M : Nat) (h1 : 1 ≤ M) (hM : n ≤ M) (ha : Spec.asked ops ≤ M)
    (hp : Spec.peak dflt [] ops ≤ M) :
    ∃ w w', construct hf n = .ok w ∧ run hf dflt w ops = .ok (rs, w') ∧ 9 * w'.cap ≤ 20 * M ∧ s.length ≤ w'.cap := by
  obtain ⟨w, h2, h3⟩ := construct_rel (hf := hf) dflt hn
  obtain ⟨w1, h4, h5⟩ := run_refines h3 hr
  have h6 := construct_size hn h2
  have h7 := (run_size h3 hr h4).2 M hp ha (by unfold Small; omega)
  exact ⟨w, w1, h2, h4, h7, Rel.length_le h5⟩

/-- C126: `ShouldOptimize()` for a table of at least 8 places: fewer than half of the places are in use and the next
position lies beyond seven eighths.  Packing settles it. -/
theorem should_optimize (hf : List UInt8 → UInt64) (dflt : α) (n : Nat) (hn : n ≤ 2 ^ 30) (ops : List (Op α)) (rs : List (Ret α))
    (s : List (Key × α)) (hr : Spec.run dflt [] ops = some (rs, s)) :
    ∃ w w1 w2, construct hf n = .ok w ∧ run hf dflt w ops = .ok (rs, w1) ∧
      (8 ≤ w1.cap → (shouldOptimize w1 = true ↔ 2 * s.length < w1.cap ∧ 7 * w1.cap < 8 * w1.pos)) ∧
      (w1.cap < 8 → shouldOptimize w1 = false) ∧
      optimize w1 = .ok w2 ∧ shouldOptimize w2 = false := by
  obtain ⟨w, h1, h2⟩ := construct_rel (hf := hf) dflt hn
  obtain ⟨w1, h3, xs, K, V, t, rfl⟩ := run_refines h2 hr
  obtain ⟨w2, xs', K', V', g1, g2, g3, g4, g5⟩ := optimize_ok t
  have hu := t.used
  have hp := t.pos_le
  have hx : xs'.length = xs.length := by simpa using congrArg List.length g3
  have hu2 := g2.used
  refine ⟨w, w1, w2, h1, h3, fun h8 => ?_, fun h8 => ?_, g1, ?_⟩
  · obtain ⟨q, -, hq⟩ := t.pow
    have hq3 : 3 ≤ q := by
      rcases Nat.lt_or_ge q 3 with h | h
      · have : 2 ^ q ≤ 2 ^ 2 := Nat.pow_le_pow_right (by omega) (by omega)
        omega
      · exact h
    obtain ⟨j, rfl⟩ := Nat.exists_eq_add_of_le hq3
    have : w1.cap = 8 * 2 ^ j := by rw [hq, Nat.pow_add]
    simp only [shouldOptimize, Bool.and_eq_true, decide_eq_true_eq, List.length_map]
    constructor <;> rintro ⟨a, b⟩ <;> constructor <;> omega
  · simp only [shouldOptimize, Bool.and_eq_false_iff, decide_eq_false_iff_not]
    omega
  · simp only [shouldOptimize, Bool.and_eq_false_iff, decide_eq_false_iff_not]
    omega

/-- C126, the negation for the threshold: the member is called `CompactNextNodePos75`, but with seven of eight places passed
and none in use `ShouldOptimize()` still returns false. -/
theorem should_optimize_not_75 :
    ((construct (fun _ => 6) 8).bind fun w =>
      (run (fun _ => 6) 0 w ((List.range 7).map (fun i => Op.set (.int i) i) ++ (List.range 7).map (fun i => Op.unset (.int i)))).bind fun r =>
        .ok (r.2.cap, r.2.pos, r.2.used, shouldOptimize r.2)) = .ok (8, 7, 0, false) := by decide

/-- Non-trivial cases: the rules at work on a table of two places (`autoResize` doubles it, then packs it). -/
example : ((construct (fun _ => 6) 2).bind fun w => (run (fun _ => 6) 0 w [.set (.int 1) 5, .set (.str [65]) 6]).bind fun r =>
    (autoResize (fun _ => 6) r.2).bind fun q => .ok (r.2.cap, r.2.pos, q.1, q.2.cap, q.2.pos)) = .ok (2, 2, true, 4, 2) := by decide

example : ((construct (fun _ => 6) 8).bind fun w =>
    (run (fun _ => 6) 0 w ((List.range 8).map (fun i => Op.set (.int i) i) ++ (List.range 7).map (fun i => Op.unset (.int i)))).bind fun r =>
      .ok (r.2.cap, r.2.pos, r.2.used, shouldOptimize r.2)) = .ok (8, 8, 1, true) := by decide

example : Spec.peak 0 [] demoOps = 4 ∧ Spec.noResize [Op.autoResize, Op.set (.int 1) 2, Op.unset (.int 1)] ∧
    Spec.asked [Op.resize 64, Op.set (.int 1) 2, Op.resize 7] = 64 := by
  refine ⟨by decide, trivial, by decide⟩

end Verif.PackedHash
