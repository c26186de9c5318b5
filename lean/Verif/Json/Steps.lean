import Verif.Json.Lemmas

/-! # Every call of the serializer, as a step on the open scopes and the text -/

namespace Verif.Json
open Spec

/-! ## Integers -/

open Verif.ConvertInt (digitChar) in
theorem intLoop_eq : ∀ (x : Nat) (m : List UInt8) (y num : Nat),
    ConvertInt.loop 0 10 x m y num = (intLoop x m num).map (fun r => .fall r.1 r.2.1 r.2.2)
  | 0, m, y, num => by simp [ConvertInt.loop, intLoop, Except.map]
  | 1, m, y, num => by
    have hd : digitChar (num % 10) = UInt8.ofNat (num % 10 + 48) := by
      unfold digitChar; rw [if_neg (by omega)]
    unfold ConvertInt.loop intLoop
    by_cases h : num = 0
    · simp [h, Except.map]
    · simp only [h, if_false, hd]
      cases hw : wr m 0 (UInt8.ofNat (num % 10 + 48)) with
      | error e => simp [Except.map]
      | ok m' => simp [intLoop, Except.map]
  | x + 2, m, y, num => by
    have hd : digitChar (num % 10) = UInt8.ofNat (num % 10 + 48) := by
      unfold digitChar; rw [if_neg (by omega)]
    conv => lhs; unfold ConvertInt.loop
    rw [intLoop.eq_def]
    by_cases h : num = 0
    · simp [h, Except.map]
    · simp only [h, if_false, hd, ne_eq, not_true_eq_false, false_and]
      cases hw : wr m (x + 1) (UInt8.ofNat (num % 10 + 48)) with
      | error e => simp [Except.map]
      | ok m' =>
        simp only [ok_bind]
        exact intLoop_eq (x + 1) m' (y + 1) (num / 10)

theorem intToStringU_eq (m : List UInt8) (num : Nat) :
    intToStringU m num = ConvertInt.toStringU m num 0 10 := by
  unfold intToStringU ConvertInt.toStringU
  by_cases h : m.length < 2
  · simp [h]
  · simp only [h, if_false, false_or]
    rw [if_neg (by omega)]
    cases hw : wr m (m.length - 1) 0 with
    | error e => simp
    | ok m' =>
      simp only [ok_bind]
      split
      · rfl
      · rw [intLoop_eq]
        cases hl : intLoop (m'.length - 1) m' num with
        | error e => simp [Except.map]
        | ok r => obtain ⟨a, b, c⟩ := r; simp [Except.map]

theorem foldl_ge (radix : Nat) : ∀ (ds : List Nat) (acc : Nat),
    acc * radix ^ ds.length ≤ ds.foldl (fun acc d => acc * radix + d) acc
  | [], acc => by simp
  | d :: ds, acc => by
    have := foldl_ge radix ds (acc * radix + d)
    simp only [List.foldl_cons, List.length_cons]
    refine Nat.le_trans ?_ this
    rw [Nat.pow_succ', ← Nat.mul_assoc]
    exact Nat.mul_le_mul_right _ (Nat.le_add_right _ _)

/-- Numerals of 64-bit numbers are short. -/
theorem rendering_length {n : Nat} {t : List UInt8} (h : ConvertInt.Spec.IsRendering 10 0 n t)
    (hn : n < 2 ^ 64) : t.length ≤ 20 := by
  obtain ⟨ds, ⟨h1, h2, h3, h4⟩, cs, hcs, rfl⟩ := h
  rw [ConvertInt.group_none]
  have hl : cs.length = ds.length := by
    have := congrArg List.length hcs
    simpa using this
  rw [hl]
  match ds, h3, h4, h2 with
  | d :: ds, _, h4, h2 =>
    by_cases hd : d = 0
    · have := h4 (by simp [hd])
      simp only [List.cons.injEq] at this
      simp [this.2]
    · have h := foldl_ge 10 ds (0 * 10 + d)
      simp only [ConvertInt.Spec.valueOf, List.foldl_cons] at h2
      rw [h2] at h
      have h5 : 10 ^ ds.length ≤ n := Nat.le_trans (Nat.le_mul_of_pos_left _ (by omega)) h
      by_cases hlen : ds.length ≤ 19
      · simp; omega
      · have : 10 ^ 20 ≤ 10 ^ ds.length := Nat.pow_le_pow_right (by omega) (by omega)
        have h6 : (10 : Nat) ^ 20 ≤ n := Nat.le_trans this h5
        omega

theorem cstr_append : ∀ (t rest : List UInt8), 0 ∉ t → cstr (t ++ 0 :: rest) = t
  | [], rest, _ => by simp [cstr]
  | c :: t, rest, h => by
    have hc : c ≠ 0 := fun e => h (by simp [e])
    have ht : 0 ∉ t := fun e => h (by simp [e])
    simp [cstr, hc, cstr_append t rest ht]

theorem digitChars_ne_zero : ∀ c ∈ ConvertInt.Spec.digitChars, c ≠ 0 := by decide

theorem rendering_no_zero {n : Nat} {t : List UInt8} (h : ConvertInt.Spec.IsRendering 10 0 n t) : 0 ∉ t := by
  obtain ⟨ds, h1, cs, hcs, rfl⟩ := h
  rw [ConvertInt.group_none]
  intro h0
  exact digitChars_ne_zero 0 (ConvertInt.digits_mem hcs 0 h0) rfl

theorem digits_eq : ∀ {ds : List Nat} {cs : List UInt8}, (∀ d ∈ ds, d < 10) →
    cs.map some = ds.map (fun d => ConvertInt.Spec.digitChars[d]?) → cs = digits ds
  | [], [], _, _ => rfl
  | [], _ :: _, _, h => by simp at h
  | _ :: _, [], _, h => by simp at h
  | d :: ds, c :: cs, hd, h => by
    simp only [List.map_cons, List.cons.injEq] at h
    have h1 := digits_eq (fun d hd' => hd d (by simp [hd'])) h.2
    have h2 := h.1
    rw [ConvertInt.digitChar_spec d (by have := hd d (by simp); omega)] at h2
    have h3 : ConvertInt.digitChar d = UInt8.ofNat (d + 48) := by
      unfold ConvertInt.digitChar; rw [if_neg (by have := hd d (by simp); omega)]
    rw [h3] at h2
    cases h2
    rw [h1]; rfl

theorem rendering_digits {n : Nat} {t : List UInt8} (h : ConvertInt.Spec.IsRendering 10 0 n t) :
    ∃ ds, ConvertInt.Spec.IsNumeral 10 n ds ∧ t = digits ds := by
  obtain ⟨ds, h1, cs, hcs, rfl⟩ := h
  rw [ConvertInt.group_none]
  exact ⟨ds, h1, digits_eq h1.1 hcs⟩

theorem intU_ok (L n : Nat) (hL : 21 ≤ L) (hn : n < 2 ^ 64) :
    ∃ t rest, intToStringU (List.replicate L 0) n = .ok (true, t ++ 0 :: rest) ∧
      ConvertInt.Spec.IsRendering 10 0 n t ∧ 0 ∉ t := by
  obtain ⟨t, ht, h1, -⟩ := ConvertInt.toStringU_spec (List.replicate L 0) n 0 10 (by omega) (by omega)
  have hl := rendering_length ht hn
  obtain ⟨rest, h2, -⟩ := h1 (by simp; omega)
  exact ⟨t, rest, by rw [intToStringU_eq]; exact h2, ht, rendering_no_zero ht⟩

theorem intI_ok (v : Int) (h1 : -(2 ^ 63) < v) (h2 : v < 2 ^ 63) :
    ∃ r, intToStringI (List.replicate 44 0) v = .ok (true, r) ∧ IntText v (cstr r) := by
  unfold intToStringI
  by_cases h : 0 ≤ v
  · rw [if_pos h]
    obtain ⟨t, rest, e, hr, h0⟩ := intU_ok 44 v.toNat (by omega) (by omega)
    refine ⟨_, e, ?_⟩
    rw [cstr_append _ _ h0]
    have : v.natAbs = v.toNat := by omega
    obtain ⟨ds, h3, h4⟩ := rendering_digits hr
    exact ⟨ds, by rw [this]; exact h3, by simp [Int.not_lt.2 h, h4]⟩
  · rw [if_neg h, if_neg (by simp)]
    obtain ⟨t, rest, e, hr, h0⟩ := intU_ok 43 (-v).toNat (by omega) (by omega)
    have e43 : List.replicate 44 (0 : UInt8) = 0 :: List.replicate 43 0 := rfl
    rw [e43]
    simp only
    rw [if_neg (by omega), e]
    refine ⟨_, rfl, ?_⟩
    have : cstr (45 :: (t ++ 0 :: rest)) = 45 :: t := by
      show (if (45 : UInt8) = 0 then [] else 45 :: cstr (t ++ 0 :: rest)) = _
      rw [if_neg (by decide), cstr_append _ _ h0]
    rw [this]
    have : v.natAbs = (-v).toNat := by omega
    obtain ⟨ds, h3, h4⟩ := rendering_digits hr
    exact ⟨ds, by rw [this]; exact h3, by simp [Int.not_le.1 h, h4]⟩

/-! ## One call -/

/-- `t` was appended and the settings are unchanged. -/
structure Ad (s s' : S) (t : List UInt8) : Prop where
  text : text s' = text s ++ t
  pos : s'.pos = s.pos + t.length
  size : s'.size = s.size
  esc : s'.esc = s.esc
  ks : s'.ks = s.ks
  vs : s'.vs = s.vs
  depthCap : s'.modes.length = s.modes.length

theorem W.ad {s s' : S} {t : List UInt8} (h : W s s' t) : Ad s s' t :=
  ⟨h.text, h.pos, h.size, h.esc, h.ks, h.vs, by rw [h.modes]⟩

theorem W.ad_marked {s s' : S} {m : Mode} {t : List UInt8} (h : W (marked s m) s' t) : Ad s s' t :=
  ⟨h.text, h.pos, h.size, h.esc, h.ks, h.vs, by rw [h.modes]; simp [marked]⟩

/-- A call either does nothing, or is allowed and appends exactly `t`; allowed calls with room succeed. -/
def Good (s : S) (t : List UInt8) (b' : Builder) (allowed : Prop) (need : Nat)
    (x : CRes (Bool × S)) : Prop :=
  ∃ r s', x = .ok (r, s') ∧ (r = false → s' = s) ∧
    (r = true → allowed ∧ Rel s' b' ∧ Ad s s' t ∧ Term s' ∧ s.pos + need ≤ s.size) ∧
    (allowed → s.pos + need ≤ s.size → r = true)

theorem Good.fail {s : S} {t : List UInt8} {b' : Builder} {allowed : Prop} {need : Nat}
    {x : CRes (Bool × S)} (h : x = .ok (false, s)) (hn : allowed → s.size < s.pos + need) :
    Good s t b' allowed need x :=
  ⟨false, s, h, fun _ => rfl, (fun h => nomatch h), fun h1 h2 => by have := hn h1; omega⟩

theorem appendText_good {s : S} {b : Builder} (R : Rel s b) (key : Option (List UInt8)) (space : Nat)
    (t : List UInt8) (ht : t.length ≤ space) (v : J) :
    Good s (sepText s (headMode b) ++ keyText s key ++ t) (b.add (keyOf key) v) (b.ValueAllowed key)
      (prefixNeed s (headMode b) key + space) (appendText s key space t) := by
  obtain ⟨n1, n2, n3⟩ := nextPrefix_spec R.wf R.mode key space
  unfold appendText
  by_cases hr : refused (headMode b) key = true
  · refine Good.fail (by rw [n1 hr]; rfl) (fun ha => ?_)
    rw [(refused_iff b key).2 ha] at hr; cases hr
  · have hr : refused (headMode b) key = false := by simpa using hr
    have ha := (refused_iff b key).1 hr
    by_cases hs : s.pos + prefixNeed s (headMode b) key + space ≤ s.size
    · obtain ⟨s1, e1, w1⟩ := n3 hr hs
      have hl := prefixText_length s (headMode b) key
      have hpos : (marked s (headMode b)).pos = s.pos := rfl
      have hsize : (marked s (headMode b)).size = s.size := rfl
      have wf1 := w1.wf (marked_wf R.wf _) (by rw [hpos, hsize]; omega)
      obtain ⟨s2, e2, w2, h2⟩ := strcpyAt_ok wf1 t (by rw [w1.pos, w1.size, hpos, hsize]; omega)
      have w12 := w1.trans w2
      refine ⟨true, s2, by rw [e1]; simp [e2], (fun h => nomatch h), fun _ => ⟨ha, ?_, w12.ad_marked, h2, by omega⟩,
        fun _ _ => rfl⟩
      refine rel_add R (keyOf key) v ((allowed_keyOf b key).2 ha) w12 ?_
      simp only [List.length_append] at hl ⊢
      omega
    · exact Good.fail (by rw [n2 hr (by omega)]; rfl) (fun _ => by omega)

/-- A scope without content. -/
def Empty : Scope → Prop
  | .arr xs => xs = []
  | .obj ms => ms = []
  | .str d => d = []

theorem start_good {s : S} {b : Builder} (R : Rel s b) (key : Option (List UInt8)) (c : UInt8) (sc : Scope) :
    Good s (sepText s (headMode b) ++ keyText s key ++ [c]) (b.push (keyOf key) sc)
      (b.ValueAllowed key ∧ b.opened.length + 1 < s.modes.length)
      (prefixNeed s (headMode b) key + 1) (start s key c (innerMode sc)) := by
  obtain ⟨n1, n2, n3⟩ := nextPrefix_spec R.wf R.mode key 1
  have hdep : s.depth = b.opened.length := by rw [R.depth, below_length]
  unfold start
  by_cases hd : s.depth + 1 ≥ s.modes.length
  · rw [if_pos hd]
    exact Good.fail rfl (fun h => by omega)
  rw [if_neg hd]
  by_cases hr : refused (headMode b) key = true
  · refine Good.fail (by rw [n1 hr]; rfl) (fun ha => ?_)
    rw [(refused_iff b key).2 ha.1] at hr; cases hr
  · have hr : refused (headMode b) key = false := by simpa using hr
    have ha := (refused_iff b key).1 hr
    by_cases hs : s.pos + prefixNeed s (headMode b) key + 1 ≤ s.size
    · obtain ⟨s1, e1, w1⟩ := n3 hr hs
      have hl := prefixText_length s (headMode b) key
      have hpos : (marked s (headMode b)).pos = s.pos := rfl
      have hsize : (marked s (headMode b)).size = s.size := rfl
      have wf1 := w1.wf (marked_wf R.wf _) (by rw [hpos, hsize]; omega)
      obtain ⟨s2, e2, w2⟩ := put_ok wf1 c (by rw [w1.pos, w1.size, hpos, hsize]; omega)
      have wf2 := w2.wf wf1 (by
        rw [w1.pos, w1.size, hpos, hsize]; simp only [List.length_cons, List.length_nil]; omega)
      obtain ⟨s3, e3, w3, h3⟩ := term_ok wf2
      have w13 : W (marked s (headMode b)) s3 _ := (w1.trans w2).trans w3
      have wf3 := w3.wf wf2 (by have := wf2.pos; simpa using this)
      rw [List.append_nil] at w13
      obtain ⟨rest, hm⟩ := R.modes
      have hm3 : s3.modes = (belowModes b).reverse ++ nextMode (headMode b) :: rest := by
        rw [w13.modes]
        simp only [marked]
        rw [hm, R.depth]
        exact set_at _ _ _ _ _ (by simp)
      have hd3 : s3.depth = s.depth := by rw [w13.depth]; rfl
      match rest, hm, hm3 with
      | [], hm, _ =>
        exfalso
        rw [hm, R.depth] at hd
        simp at hd
      | r :: rest, hm, hm3 =>
        have hwr : wr s3.modes (s3.depth + 1) (innerMode sc) =
            .ok ((belowModes b).reverse ++ nextMode (headMode b) :: innerMode sc :: rest) := by
          have e : ∀ x, (belowModes b).reverse ++ nextMode (headMode b) :: x :: rest =
              ((belowModes b).reverse ++ [nextMode (headMode b)]) ++ x :: rest := by intro x; simp
          rw [hm3, e, e]
          exact wr_append' _ _ _ _ _ (by rw [hd3, R.depth]; simp)
        refine ⟨true, ⟨(belowModes b).reverse ++ nextMode (headMode b) :: innerMode sc :: rest, s3.depth + 1,
            s3.buf, s3.pos, s3.size, s3.esc, s3.ks, s3.vs⟩, ?_,
          (fun h => nomatch h), fun _ => ⟨⟨ha, by omega⟩, ?_, ?_, ?_, by omega⟩, fun _ _ => rfl⟩
        · rw [e1]; simp [e2, e3, setMode, hwr]
        · have ho := outer_of_allowed ha
          have hbelow : belowModes (b.push (keyOf key) sc) = nextMode (headMode b) :: belowModes b := by
            rw [ho]; rfl
          refine ⟨⟨wf3.buf, wf3.pos, ?_⟩, ⟨?_, ?_⟩, ⟨rest, ?_⟩, ?_⟩
          · simp only [hd3, R.depth]
            simp
          · refine ⟨?_, R.bwf.nested⟩
            have hk := (allowed_keyOf b key).2 ha
            unfold Builder.ValueAllowed at hk ⊢
            simp only
            split at hk <;> first | exact ⟨trivial, hk.2⟩ | exact hk
          · intro _
            show b.done = none
            by_cases hop : b.opened = []
            · unfold Builder.ValueAllowed at ha
              rw [hop] at ha
              exact ha.1
            · exact R.bwf.done hop
          · show _ = (belowModes (b.push (keyOf key) sc)).reverse ++ innerMode sc :: rest
            rw [hbelow]; simp
          · show s3.depth + 1 = _
            rw [hbelow, hd3, R.depth]; simp
        · have a := w13.ad_marked
          refine ⟨a.text, a.pos, a.size, a.esc, a.ks, a.vs, ?_⟩
          rw [hm]; simp
        · obtain ⟨bb, hb1, hb2⟩ := h3
          exact ⟨bb, hb1, hb2⟩
    · exact Good.fail (by rw [n2 hr (by omega)]; rfl) (fun _ => by omega)

theorem close_modes {b : Builder} (w : BWF b) {k : Option (List UInt8)} {sc : Scope}
    {rest : List (Option (List UInt8) × Scope)} (ho : b.opened = (k, sc) :: rest) :
    belowModes b = headMode b.close :: belowModes b.close ∧ BWF b.close := by
  obtain ⟨dn, op⟩ := b
  simp only at ho
  subst ho
  have hd : dn = none := w.done (by simp)
  subst hd
  obtain ⟨hk, hn⟩ := w.nested
  have w' : BWF ({ done := none, opened := rest } : Builder) := ⟨hn, fun _ => rfl⟩
  obtain ⟨h1, h2, h3⟩ := add_modes w' k sc.value hk
  refine ⟨?_, h3⟩
  show rest.map (fun f => outerMode f.2) ++ [Mode.rootNext] = _
  rw [← outer_of_allowed hk, ← h1, ← h2]
  rfl

theorem close_good {s : S} {b : Builder} (R : Rel s b) {k : Option (List UInt8)} {sc : Scope}
    {rest : List (Option (List UInt8) × Scope)} (ho : b.opened = (k, sc) :: rest)
    (m1 m2 : Mode) (h12 : innerMode sc = m1 ∨ innerMode sc = m2) :
    Good s [closer sc] b.close True 1 (close s m1 m2 (closer sc)) := by
  have hmode : headMode b = innerMode sc := by unfold headMode; rw [ho]
  have hm := R.mode
  rw [hmode] at hm
  unfold close
  rw [curMode_ok hm]
  simp only [ok_bind]
  rw [if_neg (by rcases h12 with h | h <;> simp [h])]
  by_cases hs : s.pos + 1 ≤ s.size
  · rw [if_neg (by omega)]
    obtain ⟨s1, e1, w1⟩ := put_ok R.wf (closer sc) hs
    have wf1 := w1.wf R.wf (by simpa using hs)
    obtain ⟨s2, e2, w2, h2⟩ := term_ok wf1
    have wf2 := w2.wf wf1 (by have := wf1.pos; simpa using this)
    have w12 : W s s2 _ := w1.trans w2
    rw [List.append_nil] at w12
    obtain ⟨hb, hbw⟩ := close_modes R.bwf ho
    obtain ⟨mrest, hmr⟩ := R.modes
    refine ⟨true, { s2 with depth := s2.depth - 1 }, by simp [e1, e2], (fun h => nomatch h),
      fun _ => ⟨trivial, ?_, ?_, ?_, hs⟩, fun _ _ => rfl⟩
    · refine ⟨⟨wf2.buf, wf2.pos, ?_⟩, hbw, ⟨headMode b :: mrest, ?_⟩, ?_⟩
      · have := wf2.depth; show s2.depth - 1 < s2.modes.length; omega
      · show s2.modes = _
        rw [w12.modes, hmr, hb]; simp
      · show s2.depth - 1 = _
        rw [w12.depth, R.depth, hb]; simp
    · have a := w12.ad
      exact ⟨a.text, a.pos, a.size, a.esc, a.ks, a.vs, a.depthCap⟩
    · exact h2
  · rw [if_pos (by omega)]
    exact Good.fail rfl (fun _ => by omega)

theorem close_fail {s : S} {b : Builder} (R : Rel s b) (m1 m2 : Mode) (c : UInt8)
    (h : headMode b ≠ m1 ∧ headMode b ≠ m2) : close s m1 m2 c = .ok (false, s) := by
  unfold close
  rw [curMode_ok R.mode]
  simp [h]

/-- Text appended to an open string. -/
theorem rel_addStr {s s' : S} {b : Builder} (R : Rel s b) {k : Option (List UInt8)} {d0 : List UInt8}
    {rest : List (Option (List UInt8) × Scope)} (ho : b.opened = (k, .str d0) :: rest) (d : List UInt8)
    {t : List UInt8} (hw : W s s' t) (hp : s.pos + t.length ≤ s.size) :
    Rel s' { b with opened := (k, .str (d0 ++ d)) :: rest } := by
  obtain ⟨dn, op⟩ := b
  simp only at ho
  subst ho
  have hm := R.modes
  refine ⟨hw.wf R.wf hp, ⟨R.bwf.nested, fun _ => R.bwf.done (by simp)⟩, ?_, ?_⟩
  · rw [hw.modes]; exact hm
  · rw [hw.depth]; exact R.depth

theorem headMode_str (b : Builder) : headMode b = .str ↔ b.InStr := by
  obtain ⟨dn, op⟩ := b
  unfold headMode Builder.InStr
  match op with
  | [] => cases dn <;> simp
  | (k, .arr []) :: rest => simp [innerMode]
  | (k, .arr (x :: xs)) :: rest => simp [innerMode]
  | (k, .obj []) :: rest => simp [innerMode]
  | (k, .obj (x :: xs)) :: rest => simp [innerMode]
  | (k, .str d) :: rest => simp [innerMode]

/-- The common part of both `AppendStr` functions. -/
theorem str_good {s : S} {b : Builder} (R : Rel s b) (key : Option (List UInt8)) (need : Nat)
    (t d : List UInt8) (ht : t.length ≤ need) (f : S → CRes S)
    (hf : ∀ s1 m, WF s1 → s1.modes[s1.depth]? = some m → s1.esc = s.esc →
      s1.pos + (quoted m t).length ≤ s1.size → ∃ s', f s1 = .ok s' ∧ W s1 s' (quoted m t) ∧ Term s') :
    Good s (if headMode b = .str then t else sepText s (headMode b) ++ keyText s key ++ (34 :: t ++ [34]))
      (b.addStr (keyOf key) d) (b.InStr ∨ b.ValueAllowed key)
      (if headMode b = .str then need else prefixNeed s (headMode b) key + (2 + need))
      (if headMode b ≠ .str then do
        let (ok, s') ← nextPrefix s key (2 + need)
        if ok then do
          let s' ← f s'
          .ok (true, s')
        else .ok (false, s')
      else if s.pos + need > s.size then .ok (false, s)
      else do
        let s ← f s
        .ok (true, s)) := by
  by_cases hstr : headMode b = .str
  · rw [if_pos hstr, if_pos hstr, if_neg (by simp [hstr])]
    by_cases hs : s.pos + need ≤ s.size
    · rw [if_neg (by omega)]
      have hq : quoted .str t = t := by simp [quoted]
      have hm := R.mode
      rw [hstr] at hm
      obtain ⟨s1, e1, w1, h1⟩ := hf s .str R.wf hm rfl (by rw [hq]; omega)
      rw [hq] at w1
      refine ⟨true, s1, by simp [e1], (fun h => nomatch h), fun _ => ⟨Or.inl ((headMode_str b).1 hstr), ?_, w1.ad, h1, hs⟩,
        fun _ _ => rfl⟩
      obtain ⟨k, d0, rest, ho⟩ := (headMode_str b).1 hstr
      have : b.addStr (keyOf key) d = { b with opened := (k, .str (d0 ++ d)) :: rest } := by
        unfold Builder.addStr; rw [ho]
      rw [this]
      exact rel_addStr R ho d w1 (by omega)
    · rw [if_pos (by omega)]
      exact Good.fail rfl (fun _ => by omega)
  · rw [if_neg hstr, if_neg hstr, if_pos hstr]
    have hin : ¬ b.InStr := fun h => hstr ((headMode_str b).2 h)
    obtain ⟨n1, n2, n3⟩ := nextPrefix_spec R.wf R.mode key (2 + need)
    by_cases hr : refused (headMode b) key = true
    · refine Good.fail (by rw [n1 hr]; rfl) (fun ha => ?_)
      rw [(refused_iff b key).2 (ha.resolve_left hin)] at hr; cases hr
    · have hr : refused (headMode b) key = false := by simpa using hr
      have ha := (refused_iff b key).1 hr
      by_cases hs : s.pos + prefixNeed s (headMode b) key + (2 + need) ≤ s.size
      · obtain ⟨s1, e1, w1⟩ := n3 hr hs
        have hl := prefixText_length s (headMode b) key
        have hpos : (marked s (headMode b)).pos = s.pos := rfl
        have hsize : (marked s (headMode b)).size = s.size := rfl
        have wf1 := w1.wf (marked_wf R.wf _) (by rw [hpos, hsize]; omega)
        have hd := R.wf.depth
        have hm1 : s1.modes[s1.depth]? = some (nextMode (headMode b)) := by
          rw [w1.modes, w1.depth]; simp [marked, hd]
        have hq : quoted (nextMode (headMode b)) t = 34 :: t ++ [34] := by
          simp [quoted, nextMode_ne_str hstr]
        obtain ⟨s2, e2, w2, h2⟩ := hf s1 _ wf1 hm1 (by rw [w1.esc]; rfl)
          (by rw [hq, w1.pos, w1.size, hpos, hsize]; simp at hl ⊢; omega)
        rw [hq] at w2
        have w12 := w1.trans w2
        refine ⟨true, s2, by rw [e1]; simp [e2], (fun h => nomatch h), fun _ => ⟨Or.inr ha, ?_, w12.ad_marked, h2, by omega⟩,
          fun _ _ => rfl⟩
        have hadd : b.addStr (keyOf key) d = b.add (keyOf key) (.str d) := by
          unfold Builder.addStr
          split
          · rename_i k d0 rest ho
            exact absurd ⟨k, d0, rest, ho⟩ hin
          · rfl
        rw [hadd]
        refine rel_add R (keyOf key) _ ((allowed_keyOf b key).2 ha) w12 ?_
        simp at hl ⊢; omega
      · exact Good.fail (by rw [n2 hr (by omega)]; rfl) (fun _ => by omega)

theorem appendStr_good {s : S} {b : Builder} (R : Rel s b) (key : Option (List UInt8)) (v : List UInt8) :
    Good s (if headMode b = .str then escAll s.esc v
        else sepText s (headMode b) ++ keyText s key ++ (34 :: escAll s.esc v ++ [34]))
      (b.addStr (keyOf key) (cstr v)) (b.InStr ∨ b.ValueAllowed key)
      (if headMode b = .str then calcLoop s.esc v else prefixNeed s (headMode b) key + (2 + calcLoop s.esc v))
      (appendStr s key (some v)) := by
  have h := str_good R key (calcLoop s.esc v) (escAll s.esc v) (cstr v) (escAll_length _ _)
    (fun s => internalAppendStr s v)
    (fun s1 m wf hm he hp => by
      have := internalAppendStr_ok wf hm v (by rw [he]; exact hp)
      rw [he] at this
      exact this)
  unfold appendStr
  simp only [calcStrSize, curMode_ok R.mode, ok_bind, Bool.false_eq_true, if_false, Nat.add_zero]
  by_cases hstr : headMode b = .str
  · simp only [hstr, ne_eq, not_true_eq_false, if_false, if_true, Nat.zero_add] at h ⊢
    exact h
  · simp only [hstr, ne_eq, not_false_eq_true, if_true, if_false] at h ⊢
    exact h

theorem calcLoopN_eq (esc : Bool) (mem : List UInt8) (c : UInt8) (h : mem[0]? = some c) :
    ∀ n, calcLoopN esc mem n = .ok (n * (extra esc c + 1))
  | 0 => by simp [calcLoopN]
  | n + 1 => by
    simp [calcLoopN, calcLoopN_eq esc mem c h n, rd, h, Nat.succ_mul, Nat.add_comm]

/-- Sized strings the code handles: no character needs more room than the first one. -/
def SizedOk (v : List UInt8) (n : Nat) : Prop :=
  n ≤ v.length ∧ ∀ esc, ∀ c ∈ v.take n, ∀ c0, v[0]? = some c0 → extra esc c ≤ extra esc c0

theorem flatMap_length_le (esc : Bool) (e : Nat) : ∀ (l : List UInt8), (∀ c ∈ l, extra esc c ≤ e) →
    (l.flatMap (escOut esc)).length ≤ l.length * (e + 1)
  | [], _ => by simp
  | c :: l, h => by
    have h1 := escOut_length esc c
    have h2 := h c (by simp)
    have h3 := flatMap_length_le esc e l (fun c hc => h c (by simp [hc]))
    simp only [List.flatMap_cons, List.length_append, List.length_cons, Nat.succ_mul]
    omega

/-- The space the code reserves for a sized string. -/
def sizedNeed (esc : Bool) (v : List UInt8) (n : Nat) : Nat :=
  match v[0]? with
  | none => 0
  | some c => n * (extra esc c + 1)

theorem calcLoopN_need (esc : Bool) (v : List UInt8) (n : Nat) (h : SizedOk v n) :
    calcLoopN esc v n = .ok (sizedNeed esc v n) := by
  unfold sizedNeed
  cases hv : v[0]? with
  | none =>
    have : v = [] := by cases v <;> simp_all
    subst this
    have : n = 0 := by have := h.1; simpa using this
    subst this
    rfl
  | some c => exact calcLoopN_eq esc v c hv n

theorem sized_length (esc : Bool) (v : List UInt8) (n : Nat) (h : SizedOk v n) :
    ((v.take n).flatMap (escOut esc)).length ≤ sizedNeed esc v n := by
  unfold sizedNeed
  cases hv : v[0]? with
  | none =>
    have : v = [] := by cases v <;> simp_all
    subst this
    simp
  | some c =>
    have := flatMap_length_le esc (extra esc c) (v.take n) (fun c' hc' => h.2 esc c' hc' c hv)
    have hl : (v.take n).length = n := by have := h.1; simp; omega
    rw [hl] at this
    exact this

theorem appendStrN_good {s : S} {b : Builder} (R : Rel s b) (key : Option (List UInt8)) (v : List UInt8)
    (n : Nat) (hv : SizedOk v n) :
    Good s (if headMode b = .str then (v.take n).flatMap (escOut s.esc)
        else sepText s (headMode b) ++ keyText s key ++ (34 :: (v.take n).flatMap (escOut s.esc) ++ [34]))
      (b.addStr (keyOf key) (v.take n)) (b.InStr ∨ b.ValueAllowed key)
      (if headMode b = .str then sizedNeed s.esc v n else prefixNeed s (headMode b) key + (2 + sizedNeed s.esc v n))
      (appendStrN s key (some v) n) := by
  have h := str_good R key (sizedNeed s.esc v n) ((v.take n).flatMap (escOut s.esc)) (v.take n)
    (sized_length _ _ _ hv) (fun s => internalAppendStrN s v n)
    (fun s1 m wf hm he hp => by
      have := internalAppendStrN_ok wf hm v n hv.1 (by rw [he]; exact hp)
      rw [he] at this
      exact this)
  unfold appendStrN
  simp only [calcStrSizeN, calcLoopN_need _ _ _ hv, curMode_ok R.mode, ok_bind, Bool.false_eq_true, if_false,
    Nat.add_zero]
  by_cases hstr : headMode b = .str
  · simp only [hstr, ne_eq, not_true_eq_false, if_false, if_true, Nat.zero_add] at h ⊢
    exact h
  · simp only [hstr, ne_eq, not_false_eq_true, if_true, if_false] at h ⊢
    exact h

theorem append_good {s : S} {b : Builder} (R : Rel s b) (v : List UInt8) (n : Nat) (hn : n ≤ v.length) :
    Good s (v.take n) (b.addRaw (v.take n)) True n (append s (some v) n) := by
  by_cases hs : s.pos + n ≤ s.size
  · obtain ⟨s1, e1, w1, h1⟩ := append_ok R.wf v n hn hs
    refine ⟨true, s1, e1, (fun h => nomatch h), fun _ => ⟨trivial, ?_, w1.ad, h1, hs⟩, fun _ _ => rfl⟩
    have hp : s.pos + (v.take n).length ≤ s.size := by simp; omega
    by_cases hstr : b.InStr
    · obtain ⟨k, d0, rest, ho⟩ := hstr
      have : b.addRaw (v.take n) = { b with opened := (k, .str (d0 ++ v.take n)) :: rest } := by
        unfold Builder.addRaw; rw [ho]
      rw [this]
      exact rel_addStr R ho _ w1 hp
    · have : b.addRaw (v.take n) = b := by
        unfold Builder.addRaw
        split
        · rename_i k d0 rest ho
          exact absurd ⟨k, d0, rest, ho⟩ hstr
        · rfl
      rw [this]
      refine ⟨w1.wf R.wf hp, R.bwf, ?_, ?_⟩
      · rw [w1.modes]; exact R.modes
      · rw [w1.depth]; exact R.depth
  · refine Good.fail ?_ (fun _ => by omega)
    unfold append
    rw [if_pos (by omega)]

/-! ## `Finish` -/

theorem Ad.refl (s : S) : Ad s s [] := ⟨by simp, by simp, rfl, rfl, rfl, rfl, rfl⟩

theorem Ad.trans {s1 s2 s3 : S} {t u : List UInt8} (h : Ad s1 s2 t) (h' : Ad s2 s3 u) : Ad s1 s3 (t ++ u) :=
  ⟨by rw [h'.text, h.text, List.append_assoc], by rw [h'.pos, h.pos, List.length_append, Nat.add_assoc],
   h'.size.trans h.size, h'.esc.trans h.esc, h'.ks.trans h.ks, h'.vs.trans h.vs, h'.depthCap.trans h.depthCap⟩

theorem add_closers (b : Builder) (key : Option (List UInt8)) (v : J) :
    closers (b.add key v) = closers b := by
  obtain ⟨dn, op⟩ := b
  match op with
  | [] => rfl
  | (k, .arr xs) :: rest => rfl
  | (k, .obj ms) :: rest => cases key <;> rfl
  | (k, .str d) :: rest => rfl

theorem close_closers {b : Builder} {k : Option (List UInt8)} {sc : Scope}
    {rest : List (Option (List UInt8) × Scope)} (ho : b.opened = (k, sc) :: rest) :
    closers b = closer sc :: closers b.close := by
  unfold Builder.close
  rw [ho]
  simp only
  rw [add_closers]
  simp [closers, ho]

theorem closers_length (b : Builder) : (closers b).length = b.opened.length := by simp [closers]

/-- What `Finish` does: it closes scopes from the inside until all are closed or the buffer is full. -/
def FinishSpec (s : S) (b : Builder) (x : CRes (Bool × S)) : Prop :=
  ∃ r s' j, x = .ok (r, s') ∧ j ≤ b.opened.length ∧ Rel s' (Builder.closeAll j b) ∧
    Ad s s' ((closers b).take j) ∧ (0 < j → Term s') ∧ (j = 0 → s' = s) ∧ (r = true → j = b.opened.length) ∧
    (r = false → j < b.opened.length ∧ s.pos + j = s.size)

theorem FinishSpec.stop {s : S} {b : Builder} (R : Rel s b) {x : CRes (Bool × S)} (h : x = .ok (false, s))
    (ho : b.opened ≠ []) (hs : ¬ s.pos + 1 ≤ s.size) : FinishSpec s b x := by
  refine ⟨false, s, 0, h, Nat.zero_le _, R, by simpa using Ad.refl s, (fun h => by omega), fun _ => rfl,
    (fun h => nomatch h), fun _ => ⟨?_, ?_⟩⟩
  · exact List.length_pos_iff.2 ho
  · have := R.wf.pos; omega

theorem FinishSpec.next {s s1 : S} {b : Builder} {k : Option (List UInt8)} {sc : Scope}
    {rest : List (Option (List UInt8) × Scope)} (ho : b.opened = (k, sc) :: rest) (a : Ad s s1 [closer sc])
    (ht : Term s1) {x : CRes (Bool × S)} (h : FinishSpec s1 b.close x) : FinishSpec s b x := by
  obtain ⟨r, s', j, hx, hj, hR, hA, hT, h0, ht1, hf⟩ := h
  have hc := close_closers ho
  have hlen : b.opened.length = b.close.opened.length + 1 := by
    rw [← closers_length, ← closers_length, hc]; simp
  refine ⟨r, s', j + 1, hx, by omega, hR, ?_, ?_, (fun h => by omega), fun hr => by have := ht1 hr; omega,
    fun hr => ?_⟩
  · rw [hc]; exact a.trans hA
  · intro _
    by_cases hj0 : j = 0
    · rw [h0 hj0]; exact ht
    · exact hT (by omega)
  · obtain ⟨h1, h2⟩ := hf hr
    refine ⟨by omega, ?_⟩
    have h3 := a.pos
    simp only [List.length_cons, List.length_nil] at h3
    have h4 := a.size
    omega

theorem headMode_obj (b : Builder) : (headMode b = .objectFirst ∨ headMode b = .objectNext) ↔ b.InObject := by
  obtain ⟨dn, op⟩ := b
  unfold headMode Builder.InObject
  match op with
  | [] => cases dn <;> simp
  | (k, .arr []) :: rest => simp [innerMode]
  | (k, .arr (x :: xs)) :: rest => simp [innerMode]
  | (k, .obj []) :: rest => simp [innerMode]
  | (k, .obj (x :: xs)) :: rest => simp [innerMode]
  | (k, .str d) :: rest => simp [innerMode]

theorem headMode_arr (b : Builder) : (headMode b = .arrayFirst ∨ headMode b = .arrayNext) ↔ b.InArray := by
  obtain ⟨dn, op⟩ := b
  unfold headMode Builder.InArray
  match op with
  | [] => cases dn <;> simp
  | (k, .arr []) :: rest => simp [innerMode]
  | (k, .arr (x :: xs)) :: rest => simp [innerMode]
  | (k, .obj []) :: rest => simp [innerMode]
  | (k, .obj (x :: xs)) :: rest => simp [innerMode]
  | (k, .str d) :: rest => simp [innerMode]

theorem inner_obj (ms : List (List UInt8 × J)) :
    innerMode (.obj ms) = .objectFirst ∨ innerMode (.obj ms) = .objectNext := by cases ms <;> simp [innerMode]

theorem inner_arr (xs : List J) :
    innerMode (.arr xs) = .arrayFirst ∨ innerMode (.arr xs) = .arrayNext := by cases xs <;> simp [innerMode]

/-- The second part of the loop body. -/
theorem finishOther_spec {s : S} {b : Builder} (R : Rel s b) :
    ((b.InArray ∨ b.InStr) ∧ ∃ k sc rest, b.opened = (k, sc) :: rest ∧
      Good s [closer sc] b.close True 1 (finishOther s)) ∨
    (¬ (b.InArray ∨ b.InStr) ∧ finishOther s = .ok (true, s)) := by
  unfold finishOther
  rw [curMode_ok R.mode]
  simp only [ok_bind]
  by_cases ha : b.InArray
  · obtain ⟨k, xs, rest, ho⟩ := ha
    refine Or.inl ⟨Or.inl ⟨k, xs, rest, ho⟩, k, _, rest, ho, ?_⟩
    rw [if_pos ((headMode_arr b).2 ⟨k, xs, rest, ho⟩)]
    exact close_good R ho _ _ (inner_arr xs)
  · rw [if_neg (fun h => ha ((headMode_arr b).1 h))]
    by_cases hs : b.InStr
    · obtain ⟨k, d, rest, ho⟩ := hs
      refine Or.inl ⟨Or.inr ⟨k, d, rest, ho⟩, k, _, rest, ho, ?_⟩
      rw [if_pos ((headMode_str b).2 ⟨k, d, rest, ho⟩)]
      exact close_good R ho _ _ (Or.inl rfl)
    · rw [if_neg (fun h => hs ((headMode_str b).1 h))]
      exact Or.inr ⟨by simp [ha, hs], rfl⟩

theorem finishObject_spec {s : S} {b : Builder} (R : Rel s b) :
    (b.InObject ∧ ∃ k sc rest, b.opened = (k, sc) :: rest ∧
      Good s [closer sc] b.close True 1 (finishObject s)) ∨
    (¬ b.InObject ∧ finishObject s = .ok (true, s)) := by
  unfold finishObject
  rw [curMode_ok R.mode]
  simp only [ok_bind]
  by_cases ha : b.InObject
  · obtain ⟨k, xs, rest, ho⟩ := ha
    refine Or.inl ⟨⟨k, xs, rest, ho⟩, k, _, rest, ho, ?_⟩
    rw [if_pos ((headMode_obj b).2 ⟨k, xs, rest, ho⟩)]
    exact close_good R ho _ _ (inner_obj xs)
  · rw [if_neg (fun h => ha ((headMode_obj b).1 h))]
    exact Or.inr ⟨ha, rfl⟩

theorem opened_cases {b : Builder} (h : b.opened ≠ []) : b.InObject ∨ b.InArray ∨ b.InStr := by
  obtain ⟨dn, op⟩ := b
  match op, h with
  | [], h => exact absurd rfl h
  | (k, .obj ms) :: rest, _ => exact Or.inl ⟨k, ms, rest, rfl⟩
  | (k, .arr xs) :: rest, _ => exact Or.inr (Or.inl ⟨k, xs, rest, rfl⟩)
  | (k, .str d) :: rest, _ => exact Or.inr (Or.inr ⟨k, d, rest, rfl⟩)

theorem close_length {b : Builder} (h : b.opened ≠ []) : b.opened.length = b.close.opened.length + 1 := by
  match ho : b.opened, h with
  | [], h => exact absurd rfl h
  | (k, sc) :: rest, _ =>
    have := close_closers ho
    rw [← ho, ← closers_length, ← closers_length, this]; simp

/-- The rest of an iteration after the first part. -/
theorem finish_tail {s : S} {b : Builder} (R : Rel s b) (n : Nat)
    (hopen : b.InArray ∨ b.InStr ∨ b.opened.length ≤ n)
    (hlen : b.opened.length ≤ n + 1)
    (ih : ∀ s b, Rel s b → b.opened.length ≤ n → FinishSpec s b (finishLoop n s)) :
    FinishSpec s b (do
      let (ok, s) ← finishOther s
      if ok then finishLoop n s else .ok (false, s)) := by
  rcases finishOther_spec R with ⟨hin, k, sc, rest, ho, hg⟩ | ⟨hin, he⟩
  · obtain ⟨r, s1, e1, hf, ht, hroom⟩ := hg
    rw [e1]
    cases r with
    | false =>
      refine FinishSpec.stop R (by rw [← hf rfl]; rfl) (by simp [ho]) (fun h => ?_)
      have := hroom trivial h
      cases this
    | true =>
      obtain ⟨-, hR, hA, hT, -⟩ := ht rfl
      have hl := close_length (b := b) (by simp [ho])
      exact FinishSpec.next ho hA hT (ih s1 b.close hR (by omega))
  · rw [he]
    have : b.opened.length ≤ n := by
      rcases hopen with h | h | h
      · exact absurd (Or.inl h) hin
      · exact absurd (Or.inr h) hin
      · exact h
    exact ih s b R this

theorem finishLoop_spec : ∀ (n : Nat) (s : S) (b : Builder), Rel s b → b.opened.length ≤ n →
    FinishSpec s b (finishLoop n s)
  | n, s, b, R, hn => by
    have hdep : s.depth = b.opened.length := by rw [R.depth, below_length]
    by_cases h0 : b.opened = []
    · have hd0 : s.depth = 0 := by rw [hdep, h0]; rfl
      refine ⟨true, s, 0, by cases n <;> simp [finishLoop, hd0], Nat.zero_le _, R, by simpa using Ad.refl s,
        (fun h => by omega), fun _ => rfl, fun _ => by simp [h0], (fun h => nomatch h)⟩
    · match n, hn with
      | 0, hn => exact absurd (List.length_eq_zero_iff.1 (Nat.le_zero.1 hn)) h0
      | n + 1, hn =>
        have hd0 : s.depth ≠ 0 := by
          rw [hdep]; exact fun h => h0 (List.length_eq_zero_iff.1 h)
        unfold finishLoop
        rw [if_neg hd0]
        rcases finishObject_spec R with ⟨hin, k, sc, rest, ho, hg⟩ | ⟨hin, he⟩
        · obtain ⟨r, s1, e1, hf, ht, hroom⟩ := hg
          rw [e1]
          cases r with
          | false =>
            refine FinishSpec.stop R (by rw [← hf rfl]; rfl) h0 (fun h => ?_)
            have := hroom trivial h
            cases this
          | true =>
            obtain ⟨-, hR, hA, hT, -⟩ := ht rfl
            have hl := close_length (b := b) h0
            exact FinishSpec.next ho hA hT
              (finish_tail hR n (Or.inr (Or.inr (by omega))) (by omega) (fun s b => finishLoop_spec n s b))
        · rw [he]
          have hc := opened_cases h0
          refine finish_tail R n ?_ hn (fun s b => finishLoop_spec n s b)
          rcases hc with h | h | h
          · exact absurd h hin
          · exact Or.inl h
          · exact Or.inr (Or.inl h)

theorem finish_spec {s : S} {b : Builder} (R : Rel s b) : FinishSpec s b (finish s) := by
  have hdep : s.depth = b.opened.length := by rw [R.depth, below_length]
  exact finishLoop_spec _ s b R (by omega)

/-! ## Assembly -/

/-- The text a successful call appends, `m` being the mode of the innermost scope. -/
def callText (s : S) (m : Mode) : Call → List UInt8
  | .startObject k => sepText s m ++ keyText s k ++ [123]
  | .startArray k => sepText s m ++ keyText s k ++ [91]
  | .startStr k => sepText s m ++ keyText s k ++ [34]
  | .endObject => [125]
  | .endArray => [93]
  | .endStr => [34]
  | .appendNull k => sepText s m ++ keyText s k ++ [110, 117, 108, 108]
  | .appendBool k v => sepText s m ++ keyText s k ++ (if v then [116, 114, 117, 101] else [102, 97, 108, 115, 101])
  | .appendInt k v => sepText s m ++ keyText s k ++
      (match intToStringI (List.replicate 44 0) v with | .ok (_, t) => cstr t | .error _ => [])
  | .appendUInt k v => sepText s m ++ keyText s k ++
      (match intToStringU (List.replicate 44 0) v with | .ok (_, t) => cstr t | .error _ => [])
  | .appendDouble k t => sepText s m ++ keyText s k ++ (cstr t).take 99
  | .appendStr k (some v) => if m = .str then escAll s.esc v
      else sepText s m ++ keyText s k ++ (34 :: escAll s.esc v ++ [34])
  | .appendStrN k (some v) n => if m = .str then (v.take n).flatMap (escOut s.esc)
      else sepText s m ++ keyText s k ++ (34 :: (v.take n).flatMap (escOut s.esc) ++ [34])
  | .append (some v) n => v.take n
  | _ => []

/-- Space that is enough for any call. -/
def enough (s : S) (m : Mode) : Call → Nat
  | .startObject k | .startArray k | .startStr k => prefixNeed s m k + 1
  | .endObject | .endArray | .endStr => 1
  | .appendNull k => prefixNeed s m k + 4
  | .appendBool k _ => prefixNeed s m k + 5
  | .appendInt k _ => prefixNeed s m k + 21
  | .appendUInt k _ => prefixNeed s m k + 21
  | .appendDouble k _ => prefixNeed s m k + 99
  | .appendStr k (some v) => prefixNeed s m k + (2 + calcLoop s.esc v)
  | .appendStrN k (some v) n => prefixNeed s m k + (2 + sizedNeed s.esc v n)
  | .append (some _) n => n
  | _ => 0

theorem Good.mono {s : S} {t : List UInt8} {b' : Builder} {A A' : Prop} {n n' : Nat} {x : CRes (Bool × S)}
    (h : Good s t b' A n x) (hA : A ↔ A') (hn : n ≤ n') :
    ∃ r s', x = .ok (r, s') ∧ (r = false → s' = s) ∧
      (r = true → A' ∧ Rel s' b' ∧ Ad s s' t ∧ Term s') ∧ (A' → s.pos + n' ≤ s.size → r = true) := by
  obtain ⟨r, s', h1, h2, h3, h4⟩ := h
  refine ⟨r, s', h1, h2, fun hr => ?_, fun ha hs => h4 (hA.2 ha) (by omega)⟩
  obtain ⟨a, b, c, d, -⟩ := h3 hr
  exact ⟨hA.1 a, b, c, d⟩

theorem rendering_length_int {v : Int} {t : List UInt8} (h : IntText v t) (hv : v.natAbs < 2 ^ 64) :
    t.length ≤ 21 := by
  obtain ⟨ds, h1, rfl⟩ := h
  have : (digits ds).length ≤ 20 := by
    refine rendering_length (n := v.natAbs) ⟨ds, h1, digits ds, ?_, (ConvertInt.group_none _).symm⟩ hv
    unfold digits
    rw [List.map_map]
    apply List.map_congr_left
    intro d hd
    have hlt := h1.1 d hd
    rw [ConvertInt.digitChar_spec d (by omega)]
    simp only [Function.comp_apply]
    unfold ConvertInt.digitChar
    rw [if_neg (by omega)]
  simp only [List.length_append]
  split <;> simp <;> omega

theorem extra_le (esc : Bool) (c : UInt8) : extra esc c ≤ 1 := by
  unfold extra
  split
  · omega
  · split
    · cases esc <;> simp
    · omega

theorem sizedOk_of_legal {k : Option (List UInt8)} {v : List UInt8} {n : Nat}
    (h : Legal (.appendStrN k (some v) n)) : SizedOk v n := by
  obtain ⟨h1, h2⟩ := h
  refine ⟨h1, fun esc c hc c0 h0 => ?_⟩
  rcases h2 with h2 | ⟨c1, h3, h4⟩
  · obtain ⟨h5, h6⟩ := h2 c hc
    unfold Escaped at h5
    unfold extra
    rw [if_neg h5, if_neg h6]
    exact Nat.zero_le _
  · have : c0 = c1 := by
      rw [List.head?_eq_getElem?] at h3
      rw [h0] at h3
      exact Option.some.inj h3
    subst this
    have h6 : extra esc c0 = 1 := by
      unfold extra
      unfold Escaped at h4
      rw [if_pos h4]
    rw [h6]; exact extra_le esc c

theorem close_call {s : S} {b : Builder} (R : Rel s b) (c : UInt8) (m1 m2 : Mode) (A : Prop)
    (hA : A ↔ (headMode b = m1 ∨ headMode b = m2))
    (hcl : A → ∃ k sc rest, b.opened = (k, sc) :: rest ∧ closer sc = c) :
    ∃ r s', close s m1 m2 c = .ok (r, s') ∧ (r = false → s' = s) ∧
      (r = true → A ∧ Rel s' b.close ∧ Ad s s' [c] ∧ Term s') ∧ (A → s.pos + 1 ≤ s.size → r = true) := by
  by_cases h : A
  · obtain ⟨k, sc, rest, ho, hc⟩ := hcl h
    have hm : headMode b = innerMode sc := by unfold headMode; rw [ho]
    have hmm := hA.1 h
    rw [hm] at hmm
    have := close_good R ho m1 m2 hmm
    rw [hc] at this
    exact this.mono (by simp [h]) (Nat.le_refl _)
  · refine ⟨false, s, close_fail R m1 m2 c ?_, fun _ => rfl, (fun h => nomatch h), fun ha => absurd ha h⟩
    constructor
    · intro e; exact h (hA.2 (Or.inl e))
    · intro e; exact h (hA.2 (Or.inr e))

/-- Every text-adding call. -/
theorem step_good (real : List UInt8 → Rat) {s : S} {b : Builder} (R : Rel s b) (c : Call) (hl : Legal c)
    (hc : AddsText c) :
    ∃ r s', step s c = .ok (r, s') ∧ (r = false → s' = s) ∧
      (r = true → b.Allowed s.modes.length c ∧ Rel s' (b.call real c) ∧ Ad s s' (callText s (headMode b) c) ∧
        Term s') ∧
      (b.Allowed s.modes.length c → s.pos + enough s (headMode b) c ≤ s.size → r = true) := by
  cases c with
  | setBuffer _ => exact hc.elim
  | resetPos => exact hc.elim
  | reset => exact hc.elim
  | setEscapeSlashes _ => exact hc.elim
  | setKeySplitter _ => exact hc.elim
  | setValSplitter _ => exact hc.elim
  | finish => exact hc.elim
  | startObject k => exact (start_good R k 123 (.obj [])).mono Iff.rfl (Nat.le_refl _)
  | startArray k => exact (start_good R k 91 (.arr [])).mono Iff.rfl (Nat.le_refl _)
  | startStr k => exact (start_good R k 34 (.str [])).mono Iff.rfl (Nat.le_refl _)
  | endObject =>
    exact close_call R 125 _ _ b.InObject (headMode_obj b).symm
      (fun ⟨k, ms, rest, ho⟩ => ⟨k, _, rest, ho, rfl⟩)
  | endArray =>
    exact close_call R 93 _ _ b.InArray (headMode_arr b).symm
      (fun ⟨k, ms, rest, ho⟩ => ⟨k, _, rest, ho, rfl⟩)
  | endStr =>
    exact close_call R 34 _ _ b.InStr (by rw [or_self]; exact (headMode_str b).symm)
      (fun ⟨k, ms, rest, ho⟩ => ⟨k, _, rest, ho, rfl⟩)
  | appendNull k => exact (appendText_good R k 4 _ (by simp) .null).mono Iff.rfl (Nat.le_refl _)
  | appendBool k v =>
    exact (appendText_good R k 5 _ (by cases v <;> simp) (.bool v)).mono Iff.rfl (Nat.le_refl _)
  | appendInt k v =>
    obtain ⟨t, e, ht⟩ := intI_ok v hl.1 hl.2
    have h := appendText_good R k (cstr t).length (cstr t) (Nat.le_refl _) (.num v)
    have hlen := rendering_length_int ht (by have h1 := hl.1; have h2 := hl.2; omega)
    have h' := h.mono (A' := b.ValueAllowed k) (n' := prefixNeed s (headMode b) k + 21) Iff.rfl (by omega)
    simp only [step, appendInt, callText, e, ok_bind]
    exact h'
  | appendUInt k v =>
    obtain ⟨t, rest, e, hr, h0⟩ := intU_ok 44 v (by omega) hl
    have h := appendText_good R k t.length t (Nat.le_refl _) (.num v)
    have hlen := rendering_length hr hl
    have h' := h.mono (A' := b.ValueAllowed k) (n' := prefixNeed s (headMode b) k + 21) Iff.rfl (by omega)
    simp only [step, appendUInt, callText, e, ok_bind, cstr_append _ _ h0]
    exact h'
  | appendDouble k t =>
    exact (appendText_good R k _ _ (Nat.le_refl _) (.num (real t))).mono Iff.rfl (by simp [enough]; omega)
  | appendStr k v =>
    cases v with
    | none => exact ⟨false, s, rfl, fun _ => rfl, (fun h => nomatch h), fun h => absurd rfl h.1⟩
    | some v =>
      exact (appendStr_good R k v).mono (by simp [Builder.Allowed])
        (by simp only [enough]; split <;> omega)
  | appendStrN k v n =>
    cases v with
    | none => exact ⟨false, s, rfl, fun _ => rfl, (fun h => nomatch h), fun h => absurd rfl h.1⟩
    | some v =>
      exact (appendStrN_good R k v n (sizedOk_of_legal hl)).mono (by simp [Builder.Allowed])
        (by simp only [enough]; split <;> omega)
  | append v n =>
    cases v with
    | none =>
      refine ⟨false, s, ?_, fun _ => rfl, (fun h => nomatch h), fun h => absurd rfl h⟩
      show append s none n = _
      unfold append
      split <;> rfl
    | some v => exact (append_good R v n hl).mono (by simp [Builder.Allowed]) (Nat.le_refl _)

/-- Every other call but `Finish`. -/
theorem step_other (real : List UInt8 → Rat) {s : S} {b : Builder} (R : Rel s b) (c : Call) (hl : Legal c)
    (hc : ¬ AddsText c) (hf : c ≠ .finish) :
    ∃ s', step s c = .ok (true, s') ∧ Rel s' (b.call real c) ∧ s'.modes.length = s.modes.length := by
  have w := R.wf
  cases c with
  | setBuffer m =>
    obtain ⟨h1, h2⟩ := hl
    have hpos : 0 < m.length := List.length_pos_iff.2 h1
    have hs : (m.length + (2 ^ 64 - 1)) % 2 ^ 64 = m.length - 1 := by omega
    refine ⟨_, rfl, ⟨⟨⟨m, rfl, ?_⟩, Nat.zero_le _, w.depth⟩, R.bwf, R.modes, R.depth⟩, rfl⟩
    show m.length = (m.length + (2 ^ 64 - 1)) % 2 ^ 64 + 1
    omega
  | resetPos => exact ⟨_, rfl, ⟨⟨w.buf, Nat.zero_le _, w.depth⟩, R.bwf, R.modes, R.depth⟩, rfl⟩
  | reset =>
    have hd := w.depth
    match hm : s.modes, hd with
    | [], hd => simp at hd
    | m :: ms, _ =>
      refine ⟨{ s with modes := .rootFirst :: ms, depth := 0, pos := 0 }, ?_, ?_, ?_⟩
      · simp [step, reset, hm, wr]
      · exact ⟨⟨w.buf, Nat.zero_le _, by simp⟩, ⟨trivial, fun h => absurd rfl h⟩, ⟨ms, rfl⟩, rfl⟩
      · simp
  | setEscapeSlashes e => exact ⟨_, rfl, ⟨⟨w.buf, w.pos, w.depth⟩, R.bwf, R.modes, R.depth⟩, rfl⟩
  | setKeySplitter t => exact ⟨_, rfl, ⟨⟨w.buf, w.pos, w.depth⟩, R.bwf, R.modes, R.depth⟩, rfl⟩
  | setValSplitter t => exact ⟨_, rfl, ⟨⟨w.buf, w.pos, w.depth⟩, R.bwf, R.modes, R.depth⟩, rfl⟩
  | finish => exact absurd rfl hf
  | startObject _ => exact absurd trivial hc
  | startArray _ => exact absurd trivial hc
  | startStr _ => exact absurd trivial hc
  | endObject => exact absurd trivial hc
  | endArray => exact absurd trivial hc
  | endStr => exact absurd trivial hc
  | appendNull _ => exact absurd trivial hc
  | appendBool _ _ => exact absurd trivial hc
  | appendInt _ _ => exact absurd trivial hc
  | appendUInt _ _ => exact absurd trivial hc
  | appendDouble _ _ => exact absurd trivial hc
  | appendStr _ _ => exact absurd trivial hc
  | appendStrN _ _ _ => exact absurd trivial hc
  | append _ _ => exact absurd trivial hc

end Verif.Json
