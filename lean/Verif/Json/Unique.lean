import Verif.Json.Spec

/-! # The JSON grammar is unambiguous: a text denotes at most one value -/

namespace Verif.Json
open Spec
open Verif.ConvertInt.Spec (IsNumeral valueOf)

/-- A maximal run of characters of one class is determined by the text. -/
theorem split_class {p : UInt8 → Prop} : ∀ {a a' x x' : List UInt8}, (∀ c ∈ a, p c) → (∀ c ∈ a', p c) →
    (∀ c, x.head? = some c → ¬ p c) → (∀ c, x'.head? = some c → ¬ p c) → a ++ x = a' ++ x' → a = a' ∧ x = x'
  | [], [], _, _, _, _, _, _, e => ⟨rfl, e⟩
  | [], c :: a', x, x', _, h', hx, _, e => by
    simp only [List.nil_append, List.cons_append] at e
    subst e
    exact absurd (h' c (by simp)) (hx c rfl)
  | c :: a, [], x, x', h, _, _, hx', e => by
    simp only [List.nil_append, List.cons_append] at e
    subst e
    exact absurd (h c (by simp)) (hx' c rfl)
  | c :: a, d :: a', x, x', h, h', hx, hx', e => by
    simp only [List.cons_append, List.cons.injEq] at e
    obtain ⟨rfl, e⟩ := e
    obtain ⟨rfl, rfl⟩ := split_class (fun c hc => h c (by simp [hc])) (fun c hc => h' c (by simp [hc])) hx hx' e
    exact ⟨rfl, rfl⟩

/-! ## Numbers -/

def DigitC (c : UInt8) : Prop := 48 ≤ c ∧ c ≤ 57

instance (c : UInt8) : Decidable (DigitC c) := inferInstanceAs (Decidable (_ ∧ _))

theorem digit_char : ∀ d, d < 10 → DigitC (UInt8.ofNat (d + 48)) := by decide

theorem digit_inj : ∀ d, d < 10 → ∀ e, e < 10 → UInt8.ofNat (d + 48) = UInt8.ofNat (e + 48) → d = e := by decide

theorem digits_class {ds : List Nat} (h : ∀ d ∈ ds, d < 10) : ∀ c ∈ digits ds, DigitC c := by
  intro c hc
  obtain ⟨d, hd, rfl⟩ := List.mem_map.1 hc
  exact digit_char d (h d hd)

theorem digits_inj : ∀ {ds ds' : List Nat}, (∀ d ∈ ds, d < 10) → (∀ d ∈ ds', d < 10) → digits ds = digits ds' → ds = ds'
  | [], [], _, _, _ => rfl
  | [], _ :: _, _, _, e => by simp [digits] at e
  | _ :: _, [], _, _, e => by simp [digits] at e
  | d :: ds, d' :: ds', h, h', e => by
    simp only [digits, List.map_cons, List.cons.injEq] at e
    rw [digit_inj d (h d (by simp)) d' (h' d' (by simp)) e.1,
      digits_inj (fun x hx => h x (by simp [hx])) (fun x hx => h' x (by simp [hx])) e.2]

theorem digits_head {ds : List Nat} (hne : ds ≠ []) (h : ∀ d ∈ ds, d < 10) : ∃ c tl, digits ds = c :: tl ∧ DigitC c := by
  cases ds with
  | nil => exact absurd rfl hne
  | cons d ds => exact ⟨_, _, rfl, digit_char d (h d (by simp))⟩

theorem exp_head {t : List UInt8} {e : Int} (h : ExpPart t e) (c : UInt8) (hc : t.head? = some c) : c = 101 ∨ c = 69 := by
  rcases h with ⟨rfl, -⟩ | ⟨c', ds, h1, -, -, ⟨rfl, -⟩ | ⟨rfl, -⟩ | ⟨rfl, -⟩⟩
  · cases hc
  all_goals (cases hc; exact h1)

theorem exp_unique {t : List UInt8} {e e' : Int} (h : ExpPart t e) (h' : ExpPart t e') : e = e' := by
  have no : ∀ {ds : List Nat} {x : UInt8} {y : List UInt8}, (∀ d ∈ ds, d < 10) → ds ≠ [] → ¬ DigitC x → digits ds = x :: y → False := by
    intro ds x y h1 h2 h3 h4
    obtain ⟨c, tl, h5, h6⟩ := digits_head h2 h1
    rw [h5] at h4
    cases h4
    exact h3 h6
  have n43 : ¬ DigitC 43 := by decide
  have n45 : ¬ DigitC 45 := by decide
  rcases h with ⟨rfl, rfl⟩ | ⟨c, ds, h1, h2, h3, h4⟩
  · rcases h' with ⟨-, rfl⟩ | ⟨c', ds', -, -, -, ⟨h, -⟩ | ⟨h, -⟩ | ⟨h, -⟩⟩
    · rfl
    all_goals cases h
  · rcases h' with ⟨rfl, rfl⟩ | ⟨c', ds', k1, k2, k3, k4⟩
    · rcases h4 with ⟨h, -⟩ | ⟨h, -⟩ | ⟨h, -⟩ <;> cases h
    · rcases h4 with ⟨rfl, rfl⟩ | ⟨rfl, rfl⟩ | ⟨rfl, rfl⟩ <;>
        rcases k4 with ⟨h, rfl⟩ | ⟨h, rfl⟩ | ⟨h, rfl⟩ <;>
        simp only [List.cons.injEq] at h
      · rw [digits_inj h3 k3 h.2]
      · exact (no h3 h2 n43 h.2).elim
      · exact (no h3 h2 n45 h.2).elim
      · exact (no k3 k2 n43 h.2.symm).elim
      · rw [digits_inj h3 k3 h.2.2]
      · exact absurd h.2.1 (by decide)
      · exact (no k3 k2 n45 h.2.symm).elim
      · exact absurd h.2.1 (by decide)
      · rw [digits_inj h3 k3 h.2.2]

/-- Characters of numbers. -/
def NumC (c : UInt8) : Prop := DigitC c ∨ c = 43 ∨ c = 45 ∨ c = 46 ∨ c = 101 ∨ c = 69

theorem frac_lt {t : List UInt8} {ds : List Nat} (h : FracPart t ds) : ∀ d ∈ ds, d < 10 := by
  rcases h with ⟨-, rfl⟩ | ⟨-, -, h⟩
  · simp
  · exact h

theorem num_chars {t : List UInt8} {q : Rat} (h : NumLit t q) : ∀ c ∈ t, NumC c := by
  obtain ⟨neg, n, ip, fp, ft, et, e, rfl, ⟨h1, -⟩, h2, h3, -⟩ := h
  intro c hc
  rw [List.mem_append, List.mem_append, List.mem_append] at hc
  rcases hc with ((hc | hc) | hc) | hc
  · cases neg with
    | true => simp at hc; exact .inr (.inr (.inl hc))
    | false => simp at hc
  · exact .inl (digits_class h1 c hc)
  · rcases h2 with ⟨rfl, -⟩ | ⟨rfl, -, h⟩
    · cases hc
    · rcases List.mem_cons.1 hc with rfl | hc
      · exact .inr (.inr (.inr (.inl rfl)))
      · exact .inl (digits_class h c hc)
  · have ce : ∀ x : UInt8, (x = 101 ∨ x = 69) → NumC x := fun x h => .inr (.inr (.inr (.inr h)))
    rcases h3 with ⟨rfl, -⟩ | ⟨x, ds, g1, -, g3, ⟨rfl, -⟩ | ⟨rfl, -⟩ | ⟨rfl, -⟩⟩
    · cases hc
    · rcases List.mem_cons.1 hc with rfl | hc
      · exact ce _ g1
      · exact .inl (digits_class g3 c hc)
    · rcases List.mem_cons.1 hc with rfl | hc
      · exact ce _ g1
      · rcases List.mem_cons.1 hc with rfl | hc
        · exact .inr (.inl rfl)
        · exact .inl (digits_class g3 c hc)
    · rcases List.mem_cons.1 hc with rfl | hc
      · exact ce _ g1
      · rcases List.mem_cons.1 hc with rfl | hc
        · exact .inr (.inr (.inl rfl))
        · exact .inl (digits_class g3 c hc)

theorem num_head {t : List UInt8} {q : Rat} (h : NumLit t q) : ∃ c tl, t = c :: tl ∧ (c = 45 ∨ DigitC c) := by
  obtain ⟨neg, n, ip, fp, ft, et, e, rfl, ⟨h1, -, h4, -⟩, h2, h3, -⟩ := h
  obtain ⟨c, tl, h5, h6⟩ := digits_head h4 h1
  cases neg with
  | true => exact ⟨45, _, rfl, .inl rfl⟩
  | false => exact ⟨c, tl ++ ft ++ et, by simp [h5], .inr h6⟩

theorem rest_head {ft et : List UInt8} {fp : List Nat} {e : Int} (h2 : FracPart ft fp) (h3 : ExpPart et e) :
    ∀ c, (ft ++ et).head? = some c → ¬ DigitC c := by
  have x : ∀ c : UInt8, (c = 101 ∨ c = 69) → ¬ DigitC c := by rintro c (rfl | rfl) <;> decide
  intro c hc
  rcases h2 with ⟨rfl, -⟩ | ⟨rfl, -, -⟩
  · exact x c (exp_head h3 c hc)
  · cases hc; decide

theorem num_unique {t : List UInt8} {q q' : Rat} (h : NumLit t q) (h' : NumLit t q') : q = q' := by
  obtain ⟨neg, n, ip, fp, ft, et, e, rfl, ⟨h1, -, h4, -⟩, h2, h3, rfl⟩ := h
  obtain ⟨neg', n', ip', fp', ft', et', e', eq, ⟨k1, -, k4, -⟩, k2, k3, rfl⟩ := h'
  have n45 : ¬ DigitC 45 := by decide
  obtain ⟨c, tl, h5, h6⟩ := digits_head h4 h1
  obtain ⟨c', tl', k5, k6⟩ := digits_head k4 k1
  have hneg : neg = neg' := by
    cases neg <;> cases neg'
    · rfl
    · rw [h5] at eq
      simp at eq
      rw [eq.1] at h6
      exact absurd h6 n45
    · rw [k5] at eq
      simp at eq
      rw [← eq.1] at k6
      exact absurd k6 n45
    · rfl
  subst hneg
  rw [List.append_assoc, List.append_assoc, List.append_assoc, List.append_assoc] at eq
  have eq := List.append_cancel_left eq
  obtain ⟨e1, e2⟩ := split_class (digits_class h1) (digits_class k1) (rest_head h2 h3) (rest_head k2 k3) eq
  have hip := digits_inj h1 k1 e1
  subst hip
  have hx : ∀ c : UInt8, (c = 101 ∨ c = 69) → ¬ DigitC c := by rintro c (rfl | rfl) <;> decide
  have hf : fp = fp' ∧ et = et' := by
    rcases h2 with ⟨rfl, rfl⟩ | ⟨rfl, -, g⟩
    · rcases k2 with ⟨rfl, rfl⟩ | ⟨rfl, -, g'⟩
      · exact ⟨rfl, e2⟩
      · have := exp_head h3 46 (by rw [show et = 46 :: digits fp' ++ et' from e2]; rfl)
        exact absurd this (by decide)
    · rcases k2 with ⟨rfl, rfl⟩ | ⟨rfl, -, g'⟩
      · have := exp_head k3 46 (by rw [show et' = 46 :: digits fp ++ et from e2.symm]; rfl)
        exact absurd this (by decide)
      · simp only [List.cons_append, List.cons.injEq, true_and] at e2
        obtain ⟨e3, e4⟩ := split_class (digits_class g) (digits_class g') (fun c hc => hx c (exp_head h3 c hc))
          (fun c hc => hx c (exp_head k3 c hc)) e2
        exact ⟨digits_inj g g' e3, e4⟩
  obtain ⟨rfl, rfl⟩ := hf
  rw [exp_unique h3 k3]

/-! ## Strings -/

theorem str_unique : ∀ {B d : List UInt8}, StrBody B d → ∀ {B' d' r r' : List UInt8}, StrBody B' d' →
    B ++ 34 :: r = B' ++ 34 :: r' → B = B' ∧ d = d' := by
  intro B d h
  induction h with
  | nil =>
    intro B' d' r r' h' e
    cases h' with
    | nil => exact ⟨rfl, rfl⟩
    | plain c h1 h2 h3 h4 => simp only [List.nil_append, List.cons_append, List.cons.injEq] at e; exact absurd e.1.symm h2
    | _ => simp at e
  | plain c h1 h2 h3 h4 ih =>
    intro B' d' r r' h' e
    cases h' with
    | nil => simp only [List.nil_append, List.cons_append, List.cons.injEq] at e; exact absurd e.1 h2
    | plain c' g1 g2 g3 g4 =>
      simp only [List.cons_append, List.cons.injEq] at e
      obtain ⟨rfl, e⟩ := e
      obtain ⟨rfl, rfl⟩ := ih g4 e
      exact ⟨rfl, rfl⟩
    | _ => simp only [List.cons_append, List.cons.injEq] at e; exact absurd e.1 h3
  | quote h ih | backslash h ih | slash h ih | backspace h ih | formfeed h ih | newline h ih | «return» h ih | tab h ih =>
    intro B' d' r r' h' e
    cases h' with
    | nil => simp at e
    | plain c' g1 g2 g3 g4 =>
      simp only [List.cons_append, List.cons.injEq] at e
      exact absurd e.1.symm g3
    | _ =>
      rename_i h'
      simp at e
      try (obtain ⟨rfl, rfl⟩ := ih h' e; exact ⟨rfl, rfl⟩)

/-! ## Sequences -/

/-- Items separated by commas, from the front. -/
inductive Seq {α : Type} (R : List UInt8 → α → Prop) : List UInt8 → List α → Prop
  | one {X x} : R X x → Seq R X [x]
  | cons {X x E xs} : R X x → Seq R E xs → Seq R (X ++ 44 :: E) (x :: xs)

theorem Seq.snoc {α : Type} {R : List UInt8 → α → Prop} {E xs X x} (h : Seq R E xs) (hx : R X x) : Seq R (E ++ 44 :: X) (xs ++ [x]) := by
  induction h with
  | one h => exact .cons h (.one hx)
  | cons h _ ih =>
    rw [List.append_assoc, List.cons_append]
    exact .cons h ih

theorem Seq.mono {α : Type} {R R' : List UInt8 → α → Prop} {E xs} (h : Seq R E xs) (hh : ∀ X x, R X x → X.length ≤ E.length → R' X x) :
    Seq R' E xs := by
  induction h with
  | one h => exact .one (hh _ _ h (Nat.le_refl _))
  | cons h _ ih =>
    exact .cons (hh _ _ h (by simp)) (ih (fun X x hX hl => hh X x hX (by simp; omega)))

/-- What an item may be followed by. -/
def Det {α : Type} (z : UInt8) (R : List UInt8 → α → Prop) (X : List UInt8) (x : α) : Prop :=
  ∀ X' x' c r c' r', R X' x' → (c = 44 ∨ c = z) → (c' = 44 ∨ c' = z) → X ++ c :: r = X' ++ c' :: r' → X = X' ∧ x = x'

theorem Seq.unique {α : Type} {z : UInt8} {R : List UInt8 → α → Prop} (hz : z ≠ 44) {E xs} (h : Seq (fun X x => R X x ∧ Det z R X x) E xs) :
    ∀ {E' xs' r r'}, Seq R E' xs' → E ++ z :: r = E' ++ z :: r' → E = E' ∧ xs = xs' := by
  induction h with
  | one h =>
    intro E' xs' r r' h' e
    cases h' with
    | one h' =>
      obtain ⟨rfl, rfl⟩ := h.2 _ _ _ _ _ _ h' (.inr rfl) (.inr rfl) e
      exact ⟨rfl, rfl⟩
    | cons h' _ =>
      rw [List.append_assoc, List.cons_append] at e
      obtain ⟨rfl, rfl⟩ := h.2 _ _ _ _ _ _ h' (.inr rfl) (.inl rfl) e
      exact absurd (List.cons.inj (List.append_cancel_left e)).1 hz
  | cons h _ ih =>
    intro E' xs' r r' h' e
    rw [List.append_assoc, List.cons_append] at e
    cases h' with
    | one h' =>
      obtain ⟨rfl, rfl⟩ := h.2 _ _ _ _ _ _ h' (.inl rfl) (.inr rfl) e
      exact absurd (List.cons.inj (List.append_cancel_left e)).1.symm hz
    | cons h' h'' =>
      rw [List.append_assoc, List.cons_append] at e
      obtain ⟨rfl, rfl⟩ := h.2 _ _ _ _ _ _ h' (.inl rfl) (.inl rfl) e
      obtain ⟨rfl, rfl⟩ := ih h'' (List.cons.inj (List.append_cancel_left e)).2
      exact ⟨rfl, rfl⟩

/-! ## Values -/

/-- An element of an array. -/
def ElemR (X : List UInt8) (v : J) : Prop := ∃ a V b, X = a ++ V ++ b ∧ Ws a ∧ Val V v ∧ Ws b

/-- A member of an object. -/
def MemR (X : List UInt8) (m : List UInt8 × J) : Prop :=
  ∃ a K b c V d, X = a ++ (34 :: K ++ [34]) ++ b ++ 58 :: (c ++ V ++ d) ∧ Ws a ∧ StrBody K m.1 ∧ Ws b ∧ Ws c ∧ Val V m.2 ∧ Ws d

theorem elems_seq : ∀ {E xs}, Elems E xs → Seq ElemR E xs
  | _, _, .one h1 h2 h3 => .one ⟨_, _, _, rfl, h1, h2, h3⟩
  | _, _, .more h h1 h2 h3 => (elems_seq h).snoc ⟨_, _, _, rfl, h1, h2, h3⟩

theorem members_seq : ∀ {E ms}, Members E ms → Seq MemR E ms
  | _, _, .one h1 h2 h3 h4 h5 h6 => .one ⟨_, _, _, _, _, _, rfl, h1, h2, h3, h4, h5, h6⟩
  | _, _, .more h h1 h2 h3 h4 h5 h6 => (members_seq h).snoc ⟨_, _, _, _, _, _, rfl, h1, h2, h3, h4, h5, h6⟩

/-- The kind of a value. -/
def tag : J → Nat
  | .null => 0
  | .bool true => 1
  | .bool false => 2
  | .num _ => 3
  | .str _ => 4
  | .arr _ => 5
  | .obj _ => 6

/-- The kind of value a character begins. -/
def cls (c : UInt8) : Nat :=
  if c = 110 then 0 else if c = 116 then 1 else if c = 102 then 2 else if c = 45 ∨ DigitC c then 3 else if c = 34 then 4
  else if c = 91 then 5 else if c = 123 then 6 else 7

theorem val_head {V : List UInt8} {v : J} (h : Val V v) : ∃ c tl, V = c :: tl ∧ cls c = tag v := by
  cases h with
  | num h =>
    obtain ⟨c, tl, rfl, hc⟩ := num_head h
    refine ⟨c, tl, rfl, ?_⟩
    have : ∀ c : UInt8, (c = 45 ∨ DigitC c) → c ≠ 110 ∧ c ≠ 116 ∧ c ≠ 102 := by
      rintro c (rfl | h)
      · decide
      · refine ⟨?_, ?_, ?_⟩ <;> (rintro rfl; revert h; decide)
    obtain ⟨h1, h2, h3⟩ := this c hc
    simp [cls, h1, h2, h3, hc, tag]
  | _ => exact ⟨_, _, rfl, rfl⟩

theorem tag_lt (v : J) : tag v < 7 := by
  unfold tag
  split <;> omega

theorem cls_not_ws {c : UInt8} (h : cls c < 7) : ¬ (c = 32 ∨ c = 9 ∨ c = 10 ∨ c = 13) ∧ c ≠ 93 ∧ c ≠ 125 ∧ c ≠ 44 := by
  refine ⟨?_, ?_, ?_, ?_⟩
  · rintro (rfl | rfl | rfl | rfl) <;> revert h <;> decide
  all_goals (rintro rfl; revert h; decide)

/-- The text after a value does not continue a number. -/
def Stop (r : List UInt8) : Prop := ∀ c, r.head? = some c → ¬ NumC c

instance (c : UInt8) : Decidable (NumC c) := inferInstanceAs (Decidable (_ ∨ _))

theorem stop_ws {b r : List UInt8} (hb : Ws b) (hr : Stop r) : Stop (b ++ r) := by
  cases b with
  | nil => exact hr
  | cons c b =>
    intro x hx
    cases hx
    rcases hb c (by simp) with rfl | rfl | rfl | rfl <;> decide

theorem stop_char {c : UInt8} (h : ¬ NumC c) (r : List UInt8) : Stop (c :: r) := by
  intro x hx
  cases hx
  exact h

/-- White space in front of a value. -/
theorem ws_val {a a' V V' x x' : List UInt8} {v v' : J} (ha : Ws a) (ha' : Ws a') (h : Val V v) (h' : Val V' v')
    (e : a ++ (V ++ x) = a' ++ (V' ++ x')) : a = a' ∧ V ++ x = V' ++ x' := by
  obtain ⟨c, tl, rfl, hc⟩ := val_head h
  obtain ⟨c', tl', rfl, hc'⟩ := val_head h'
  refine split_class (p := fun c => c = 32 ∨ c = 9 ∨ c = 10 ∨ c = 13) ha ha' ?_ ?_ e
  · rintro d hd
    cases hd
    exact (cls_not_ws (by rw [hc]; exact tag_lt v)).1
  · rintro d hd
    cases hd
    exact (cls_not_ws (by rw [hc']; exact tag_lt v')).1

/-- White space in front of punctuation. -/
theorem ws_char {a a' x x' : List UInt8} {c c' : UInt8} (ha : Ws a) (ha' : Ws a') (hc : ¬ (c = 32 ∨ c = 9 ∨ c = 10 ∨ c = 13))
    (hc' : ¬ (c' = 32 ∨ c' = 9 ∨ c' = 10 ∨ c' = 13)) (e : a ++ c :: x = a' ++ c' :: x') : a = a' ∧ c :: x = c' :: x' := by
  refine split_class (p := fun c => c = 32 ∨ c = 9 ∨ c = 10 ∨ c = 13) ha ha' ?_ ?_ e
  · rintro d hd; cases hd; exact hc
  · rintro d hd; cases hd; exact hc'

/-- Texts of at most `n` characters are read in one way. -/
def ValU (n : Nat) : Prop := ∀ V v V' v' r r', V.length ≤ n → Val V v → Val V' v' → V ++ r = V' ++ r' → Stop r → Stop r' → V = V' ∧ v = v'

theorem close_facts {z c : UInt8} (hz : z = 93 ∨ z = 125) (hc : c = 44 ∨ c = z) :
    ¬ (c = 32 ∨ c = 9 ∨ c = 10 ∨ c = 13) ∧ ¬ NumC c := by
  rcases hz with rfl | rfl <;> rcases hc with rfl | rfl <;> decide

theorem elem_det {n : Nat} (ih : ValU n) {z : UInt8} (hz : z = 93 ∨ z = 125) {X : List UInt8} {x : J} (h : ElemR X x) (hl : X.length ≤ n) :
    Det z ElemR X x := by
  obtain ⟨a, V, b, rfl, h1, h2, h3⟩ := h
  rintro X' x' c r c' r' ⟨a', V', b', rfl, k1, k2, k3⟩ hc hc' e
  rw [List.append_assoc, List.append_assoc, List.append_assoc, List.append_assoc] at e
  obtain ⟨rfl, e1⟩ := ws_val h1 k1 h2 k2 e
  obtain ⟨rfl, rfl⟩ := ih V x V' x' _ _ (by simp at hl; omega) h2 k2 e1 (stop_ws h3 (stop_char (close_facts hz hc).2 _))
    (stop_ws k3 (stop_char (close_facts hz hc').2 _))
  have e2 := List.append_cancel_left e1
  obtain ⟨rfl, -⟩ := ws_char h3 k3 (close_facts hz hc).1 (close_facts hz hc').1 e2
  exact ⟨rfl, rfl⟩

theorem mem_det {n : Nat} (ih : ValU n) {z : UInt8} (hz : z = 93 ∨ z = 125) {X : List UInt8} {x : List UInt8 × J} (h : MemR X x)
    (hl : X.length ≤ n) : Det z MemR X x := by
  obtain ⟨k, v⟩ := x
  obtain ⟨a, K, b, c, V, d, rfl, h1, h2, h3, h4, h5, h6⟩ := h
  rintro X' ⟨k', v'⟩ y r y' r' ⟨a', K', b', c', V', d', rfl, k1, k2, k3, k4, k5, k6⟩ hy hy' e
  simp only [List.append_assoc, List.cons_append, List.nil_append] at e
  obtain ⟨rfl, e1⟩ := ws_char h1 k1 (by decide) (by decide) e
  obtain ⟨rfl, hk⟩ := str_unique h2 k2 (List.cons.inj e1).2
  simp only at hk
  subst hk
  have e2 := List.append_cancel_left (List.cons.inj e1).2
  obtain ⟨rfl, e3⟩ := ws_char h3 k3 (by decide) (by decide) (List.cons.inj e2).2
  obtain ⟨rfl, e4⟩ := ws_val h4 k4 h5 k5 (List.cons.inj e3).2
  obtain ⟨rfl, hv⟩ := ih V v V' v' _ _ (by simp at hl; omega) h5 k5 e4 (stop_ws h6 (stop_char (close_facts hz hy).2 _))
    (stop_ws k6 (stop_char (close_facts hz hy').2 _))
  subst hv
  have e5 := List.append_cancel_left e4
  obtain ⟨rfl, -⟩ := ws_char h6 k6 (close_facts hz hy).1 (close_facts hz hy').1 e5
  exact ⟨rfl, rfl⟩

/-- A sequence begins with something else than its end. -/
theorem elem_begin {E : List UInt8} {xs : List J} (h : Seq ElemR E xs) :
    ∃ a c tl, E = a ++ c :: tl ∧ Ws a ∧ ¬ (c = 32 ∨ c = 9 ∨ c = 10 ∨ c = 13) ∧ c ≠ 93 := by
  have : ∀ {X v}, ElemR X v → ∃ a c tl, X = a ++ c :: tl ∧ Ws a ∧ ¬ (c = 32 ∨ c = 9 ∨ c = 10 ∨ c = 13) ∧ c ≠ 93 := by
    rintro X v ⟨a, V, b, rfl, h1, h2, h3⟩
    obtain ⟨c, tl, rfl, hc⟩ := val_head h2
    have := cls_not_ws (c := c) (by rw [hc]; exact tag_lt v)
    exact ⟨a, c, tl ++ b, by simp, h1, this.1, this.2.1⟩
  cases h with
  | one h => exact this h
  | cons h _ =>
    obtain ⟨a, c, tl, rfl, h1⟩ := this h
    exact ⟨a, c, _, by rw [List.append_assoc, List.cons_append], h1⟩

theorem mem_begin {E : List UInt8} {ms : List (List UInt8 × J)} (h : Seq MemR E ms) : ∃ a tl, E = a ++ 34 :: tl ∧ Ws a := by
  have : ∀ {X v}, MemR X v → ∃ a tl, X = a ++ 34 :: tl ∧ Ws a := by
    rintro X v ⟨a, K, b, c, V, d, rfl, h1, -⟩
    exact ⟨a, _, by simp only [List.append_assoc, List.cons_append]; rfl, h1⟩
  cases h with
  | one h => exact this h
  | cons h _ =>
    obtain ⟨a, tl, rfl, h1⟩ := this h
    exact ⟨a, _, by rw [List.append_assoc, List.cons_append], h1⟩

theorem val_unique : ∀ n, ValU n := by
  intro n
  induction n with
  | zero =>
    intro V v V' v' r r' hl h
    obtain ⟨c, tl, rfl, -⟩ := val_head h
    simp at hl
  | succ n ih =>
    intro V v V' v' r r' hl h h' e hr hr'
    have htag : tag v = tag v' := by
      obtain ⟨c, tl, rfl, h1⟩ := val_head h
      obtain ⟨c', tl', rfl, h2⟩ := val_head h'
      simp only [List.cons_append, List.cons.injEq] at e
      rw [← h1, ← h2, e.1]
    cases h with
    | null =>
      cases h' with
      | null => exact ⟨rfl, rfl⟩
      | _ => simp [tag] at htag
    | true =>
      cases h' with
      | true => exact ⟨rfl, rfl⟩
      | _ => simp [tag] at htag
    | false =>
      cases h' with
      | false => exact ⟨rfl, rfl⟩
      | _ => simp [tag] at htag
    | num h =>
      cases h' with
      | num h' =>
        obtain ⟨rfl, -⟩ := split_class (num_chars h) (num_chars h') hr hr' e
        rw [num_unique h h']
        exact ⟨rfl, rfl⟩
      | _ => simp [tag] at htag
    | str h =>
      cases h' with
      | str h' =>
        simp only [List.append_assoc, List.cons_append, List.nil_append, List.cons.injEq, true_and] at e
        obtain ⟨rfl, rfl⟩ := str_unique h h' e
        exact ⟨rfl, rfl⟩
      | _ => simp [tag] at htag
    | emptyArr h =>
      cases h' with
      | emptyArr h' =>
        simp only [List.append_assoc, List.cons_append, List.nil_append, List.cons.injEq, true_and] at e
        obtain ⟨rfl, -⟩ := ws_char h h' (by decide) (by decide) e
        exact ⟨rfl, rfl⟩
      | arr h' =>
        simp only [List.append_assoc, List.cons_append, List.nil_append, List.cons.injEq, true_and] at e
        obtain ⟨a, c, tl, rfl, g1, g2, g3⟩ := elem_begin (elems_seq h')
        rw [List.append_assoc, List.cons_append] at e
        obtain ⟨-, e⟩ := ws_char h g1 (by decide) g2 e
        exact absurd (List.cons.inj e).1.symm g3
      | _ => simp [tag] at htag
    | arr h =>
      cases h' with
      | emptyArr h' =>
        simp only [List.append_assoc, List.cons_append, List.nil_append, List.cons.injEq, true_and] at e
        obtain ⟨a, c, tl, rfl, g1, g2, g3⟩ := elem_begin (elems_seq h)
        rw [List.append_assoc, List.cons_append] at e
        obtain ⟨-, e⟩ := ws_char g1 h' g2 (by decide) e
        exact absurd (List.cons.inj e).1 g3
      | arr h' =>
        simp only [List.append_assoc, List.cons_append, List.nil_append, List.cons.injEq, true_and] at e
        simp only [List.length_cons, List.length_append, List.length_nil] at hl
        have hs := (elems_seq h).mono (R' := fun X x => ElemR X x ∧ Det 93 ElemR X x)
          (fun X x hX hXl => ⟨hX, elem_det ih (.inl rfl) hX (by omega)⟩)
        obtain ⟨rfl, rfl⟩ := hs.unique (by decide) (elems_seq h') e
        exact ⟨rfl, rfl⟩
      | _ => simp [tag] at htag
    | emptyObj h =>
      cases h' with
      | emptyObj h' =>
        simp only [List.append_assoc, List.cons_append, List.nil_append, List.cons.injEq, true_and] at e
        obtain ⟨rfl, -⟩ := ws_char h h' (by decide) (by decide) e
        exact ⟨rfl, rfl⟩
      | obj h' =>
        simp only [List.append_assoc, List.cons_append, List.nil_append, List.cons.injEq, true_and] at e
        obtain ⟨a, tl, rfl, g1⟩ := mem_begin (members_seq h')
        rw [List.append_assoc, List.cons_append] at e
        obtain ⟨-, e⟩ := ws_char h g1 (by decide) (by decide) e
        exact absurd (List.cons.inj e).1 (by decide)
      | _ => simp [tag] at htag
    | obj h =>
      cases h' with
      | emptyObj h' =>
        simp only [List.append_assoc, List.cons_append, List.nil_append, List.cons.injEq, true_and] at e
        obtain ⟨a, tl, rfl, g1⟩ := mem_begin (members_seq h)
        rw [List.append_assoc, List.cons_append] at e
        obtain ⟨-, e⟩ := ws_char g1 h' (by decide) (by decide) e
        exact absurd (List.cons.inj e).1 (by decide)
      | obj h' =>
        simp only [List.append_assoc, List.cons_append, List.nil_append, List.cons.injEq, true_and] at e
        simp only [List.length_cons, List.length_append, List.length_nil] at hl
        have hs := (members_seq h).mono (R' := fun X x => MemR X x ∧ Det 125 MemR X x)
          (fun X x hX hXl => ⟨hX, mem_det ih (.inr rfl) hX (by omega)⟩)
        obtain ⟨rfl, rfl⟩ := hs.unique (by decide) (members_seq h') e
        exact ⟨rfl, rfl⟩
      | _ => simp [tag] at htag

/-- A text denotes at most one value. -/
theorem text_unique {t : List UInt8} {v v' : J} (h : Text t v) (h' : Text t v') : v = v' := by
  obtain ⟨a, V, b, rfl, h1, h2, h3⟩ := h
  obtain ⟨a', V', b', e, k1, k2, k3⟩ := h'
  rw [List.append_assoc, List.append_assoc] at e
  obtain ⟨-, e⟩ := ws_val h1 k1 h2 k2 e
  have st : ∀ {w : List UInt8}, Ws w → Stop w := by
    intro w hw
    have := stop_ws hw (r := []) (fun c hc => nomatch hc)
    rwa [List.append_nil] at this
  exact (val_unique V.length V v V' v' b b' (Nat.le_refl _) h2 k2 e (st h3) (st k3)).2

end Verif.Json
