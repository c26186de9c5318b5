import Verif.Json.Steps

/-! # The text written so far, read by the grammar -/

namespace Verif.Json
open Spec

theorem Ws.nil : Ws [] := by simp [Ws]

theorem Ws.append {a b : List UInt8} (ha : Ws a) (hb : Ws b) : Ws (a ++ b) := by
  intro c hc
  rcases List.mem_append.1 hc with h | h
  · exact ha c h
  · exact hb c h

theorem StrBody.append {B d B' d' : List UInt8} (h : StrBody B d) (h' : StrBody B' d') :
    StrBody (B ++ B') (d ++ d') := by
  induction h with
  | nil => exact h'
  | plain c h1 h2 h3 _ ih => exact .plain c h1 h2 h3 ih
  | quote _ ih => exact .quote ih
  | backslash _ ih => exact .backslash ih
  | slash _ ih => exact .slash ih
  | backspace _ ih => exact .backspace ih
  | formfeed _ ih => exact .formfeed ih
  | newline _ ih => exact .newline ih
  | «return» _ ih => exact .return ih
  | tab _ ih => exact .tab ih

theorem strBody_escOut {esc : Bool} {c : UInt8}
    (h : (32 ≤ c ∨ c = 8 ∨ c = 9 ∨ c = 10 ∨ c = 12 ∨ c = 13) ∧ (c = 47 → esc = true)) :
    StrBody (escOut esc c) [c] := by
  unfold escOut
  by_cases h1 : c = 34
  · subst h1; exact .quote .nil
  by_cases h2 : c = 92
  · subst h2; exact .backslash .nil
  by_cases h3 : c = 47
  · subst h3; rw [h.2 rfl]; exact .slash .nil
  by_cases h4 : c = 8
  · subst h4; exact .backspace .nil
  by_cases h5 : c = 12
  · subst h5; exact .formfeed .nil
  by_cases h6 : c = 10
  · subst h6; exact .newline .nil
  by_cases h7 : c = 13
  · subst h7; exact .return .nil
  by_cases h8 : c = 9
  · subst h8; exact .tab .nil
  rw [if_neg h1, if_neg h2, if_neg h3, if_neg h4, if_neg h5, if_neg h6, if_neg h7, if_neg h8]
  have : 32 ≤ c := by
    rcases h.1 with h | h | h | h | h | h
    · exact h
    · exact absurd h h4
    · exact absurd h h8
    · exact absurd h h6
    · exact absurd h h5
    · exact absurd h h7
  exact .plain c this h1 h2 .nil

/-- Escaping a clean string gives a string body that denotes it. -/
theorem strBody_flatMap {esc : Bool} : ∀ {l : List UInt8}, Clean esc l → StrBody (l.flatMap (escOut esc)) l
  | [], _ => .nil
  | c :: l, h => by
    have h1 := strBody_escOut (h c (by simp))
    have h2 := strBody_flatMap (esc := esc) (l := l) (fun c hc => h c (by simp [hc]))
    exact StrBody.append h1 h2

theorem strBody_plain : ∀ {l : List UInt8}, (∀ c ∈ l, 32 ≤ c ∧ c ≠ 34 ∧ c ≠ 92) → StrBody l l
  | [], _ => .nil
  | c :: l, h => by
    obtain ⟨h1, h2, h3⟩ := h c (by simp)
    exact .plain c h1 h2 h3 (strBody_plain (fun c hc => h c (by simp [hc])))

/-- The bytes a string body denotes are determined. -/
theorem strBody_unique {B d d' : List UInt8} (h : StrBody B d) (h' : StrBody B d') : d = d' := by
  induction h generalizing d' with
  | nil => cases h'; rfl
  | plain c h1 h2 h3 _ ih =>
    cases h' with
    | plain _ _ _ _ h => rw [ih h]
    | quote => exact absurd rfl h3
    | backslash => exact absurd rfl h3
    | slash => exact absurd rfl h3
    | backspace => exact absurd rfl h3
    | formfeed => exact absurd rfl h3
    | newline => exact absurd rfl h3
    | «return» => exact absurd rfl h3
    | tab => exact absurd rfl h3
  | quote _ ih =>
    cases h' with
    | plain _ _ _ h => exact absurd rfl h
    | quote h => rw [ih h]
  | backslash _ ih =>
    cases h' with
    | plain _ _ _ h => exact absurd rfl h
    | backslash h => rw [ih h]
  | slash _ ih =>
    cases h' with
    | plain _ _ _ h => exact absurd rfl h
    | slash h => rw [ih h]
  | backspace _ ih =>
    cases h' with
    | plain _ _ _ h => exact absurd rfl h
    | backspace h => rw [ih h]
  | formfeed _ ih =>
    cases h' with
    | plain _ _ _ h => exact absurd rfl h
    | formfeed h => rw [ih h]
  | newline _ ih =>
    cases h' with
    | plain _ _ _ h => exact absurd rfl h
    | newline h => rw [ih h]
  | «return» _ ih =>
    cases h' with
    | plain _ _ _ h => exact absurd rfl h
    | «return» h => rw [ih h]
  | tab _ ih =>
    cases h' with
    | plain _ _ _ h => exact absurd rfl h
    | tab h => rw [ih h]

theorem Elems.ws {E : List UInt8} {xs : List J} {w : List UInt8} (h : Elems E xs) (hw : Ws w) :
    Elems (E ++ w) xs := by
  cases h with
  | one ha hv hb =>
    rename_i a V v b
    have := Elems.one ha hv (Ws.append hb hw)
    simpa using this
  | more he ha hv hb =>
    have := Elems.more he ha hv (Ws.append hb hw)
    simpa using this

theorem Members.ws {E : List UInt8} {ms : List (List UInt8 × J)} {w : List UInt8} (h : Members E ms) (hw : Ws w) :
    Members (E ++ w) ms := by
  cases h with
  | one ha hk hb hc hv hd =>
    have := Members.one ha hk hb hc hv (Ws.append hd hw)
    simpa using this
  | more he ha hk hb hc hv hd =>
    have := Members.more he ha hk hb hc hv (Ws.append hd hw)
    simpa using this

theorem Text.ws {t : List UInt8} {v : J} {w : List UInt8} (h : Text t v) (hw : Ws w) : Text (t ++ w) v := by
  obtain ⟨a, V, b, rfl, ha, hv, hb⟩ := h
  exact ⟨a, V, b ++ w, by simp, ha, hv, Ws.append hb hw⟩

/-- What stands in an array before its next value. -/
def ArrGap (xs : List J) (I : List UInt8) : Prop :=
  (xs = [] ∧ Ws I) ∨ ∃ E a, Elems E xs ∧ Ws a ∧ I = E ++ 44 :: a

/-- What stands in an object before its next key. -/
def ObjGap (ms : List (List UInt8 × J)) (I : List UInt8) : Prop :=
  (ms = [] ∧ Ws I) ∨ ∃ E a, Members E ms ∧ Ws a ∧ I = E ++ 44 :: a

/-- The text up to where a value under `key` may start. -/
def Pre : List (Option (List UInt8) × Scope) → Option (List UInt8) → List UInt8 → Prop
  | [], _, P => Ws P
  | (k, .arr xs) :: rest, _, P => ∃ P0 I, Pre rest k P0 ∧ P = P0 ++ 91 :: I ∧ ArrGap xs I
  | (k, .obj ms) :: rest, key, P => ∃ P0 I K key' b c, key = some key' ∧ Pre rest k P0 ∧
      P = P0 ++ 123 :: (I ++ (34 :: K ++ [34]) ++ b ++ 58 :: c) ∧ StrBody K key' ∧ Ws b ∧ Ws c ∧ ObjGap ms I
  | (_, .str _) :: _, _, _ => False

/-- The text so far of a document under construction. -/
def Inv (b : Builder) (T : List UInt8) : Prop :=
  match b.opened with
  | [] => match b.done with
    | none => Ws T
    | some v => Text T v
  | (k, .arr xs) :: rest => ∃ P0 I, Pre rest k P0 ∧ T = P0 ++ 91 :: I ∧ ((xs = [] ∧ Ws I) ∨ Elems I xs)
  | (k, .obj ms) :: rest => ∃ P0 I, Pre rest k P0 ∧ T = P0 ++ 123 :: I ∧ ((ms = [] ∧ Ws I) ∨ Members I ms)
  | (k, .str d) :: rest => ∃ P0 B, Pre rest k P0 ∧ T = P0 ++ 34 :: B ∧ StrBody B d

/-- A value completes. -/
theorem attach {b : Builder} {key : Option (List UInt8)} {P V : List UInt8} {v : J}
    (hp : Pre b.opened key P) (hv : Val V v) : Inv (b.add key v) (P ++ V) := by
  obtain ⟨dn, op⟩ := b
  match op, hp with
  | [], hp => exact ⟨P, V, [], by simp, hp, hv, Ws.nil⟩
  | (k, .arr xs) :: rest, hp =>
    obtain ⟨P0, I, h0, rfl, hg⟩ := hp
    refine ⟨P0, I ++ V, h0, by simp, Or.inr ?_⟩
    rcases hg with ⟨rfl, hw⟩ | ⟨E, a, he, ha, rfl⟩
    · have := Elems.one hw hv Ws.nil
      simpa using this
    · have := Elems.more he ha hv Ws.nil
      simpa using this
  | (k, .obj ms) :: rest, hp =>
    obtain ⟨P0, I, K, key', b, c, rfl, h0, rfl, hK, hb, hc, hg⟩ := hp
    refine ⟨P0, I ++ (34 :: K ++ [34]) ++ b ++ 58 :: (c ++ V), h0, by simp, Or.inr ?_⟩
    rcases hg with ⟨rfl, hw⟩ | ⟨E, a, he, ha, rfl⟩
    · have := Members.one hw hK hb hc hv Ws.nil
      simpa using this
    · have := Members.more he ha hK hb hc hv Ws.nil
      simpa using this
  | (_, .str _) :: _, hp => exact hp.elim

/-- A scope closes. -/
theorem inv_close {b : Builder} {T : List UInt8} {k : Option (List UInt8)} {sc : Scope}
    {rest : List (Option (List UInt8) × Scope)} (ho : b.opened = (k, sc) :: rest) (h : Inv b T) :
    Inv b.close (T ++ [closer sc]) := by
  obtain ⟨dn, op⟩ := b
  simp only at ho
  subst ho
  cases sc with
  | arr xs =>
    obtain ⟨P0, I, h0, rfl, hI⟩ := h
    have hv : Val (91 :: I ++ [93]) (.arr xs) := by
      rcases hI with ⟨rfl, hw⟩ | he
      · exact .emptyArr hw
      · exact .arr he
    have := attach (b := { done := dn, opened := rest }) h0 hv
    simpa [closer, Builder.close, Scope.value] using this
  | obj ms =>
    obtain ⟨P0, I, h0, rfl, hI⟩ := h
    have hv : Val (123 :: I ++ [125]) (.obj ms) := by
      rcases hI with ⟨rfl, hw⟩ | he
      · exact .emptyObj hw
      · exact .obj he
    have := attach (b := { done := dn, opened := rest }) h0 hv
    simpa [closer, Builder.close, Scope.value] using this
  | str d =>
    obtain ⟨P0, B, h0, rfl, hB⟩ := h
    have := attach (b := { done := dn, opened := rest }) h0 (Val.str hB)
    simpa [closer, Builder.close, Scope.value] using this

/-- White space outside strings changes nothing. -/
theorem inv_ws {b : Builder} {T w : List UInt8} (hs : ¬ b.InStr) (h : Inv b T) (hw : Ws w) : Inv b (T ++ w) := by
  obtain ⟨dn, op⟩ := b
  match op, h with
  | [], h =>
    cases dn with
    | none => exact Ws.append h hw
    | some v => exact Text.ws h hw
  | (k, .arr xs) :: rest, h =>
    obtain ⟨P0, I, h0, rfl, hI⟩ := h
    refine ⟨P0, I ++ w, h0, by simp, ?_⟩
    rcases hI with ⟨rfl, h⟩ | h
    · exact Or.inl ⟨rfl, Ws.append h hw⟩
    · exact Or.inr (Elems.ws h hw)
  | (k, .obj ms) :: rest, h =>
    obtain ⟨P0, I, h0, rfl, hI⟩ := h
    refine ⟨P0, I ++ w, h0, by simp, ?_⟩
    rcases hI with ⟨rfl, h⟩ | h
    · exact Or.inl ⟨rfl, Ws.append h hw⟩
    · exact Or.inr (Members.ws h hw)
  | (k, .str d) :: rest, _ => exact absurd ⟨k, d, rest, rfl⟩ hs

/-- String data in an open string. -/
theorem inv_str {b : Builder} {T B d : List UInt8} {k : Option (List UInt8)} {d0 : List UInt8}
    {rest : List (Option (List UInt8) × Scope)} (ho : b.opened = (k, .str d0) :: rest) (h : Inv b T)
    (hB : StrBody B d) : Inv { b with opened := (k, .str (d0 ++ d)) :: rest } (T ++ B) := by
  obtain ⟨dn, op⟩ := b
  simp only at ho
  subst ho
  obtain ⟨P0, B0, h0, rfl, hB0⟩ := h
  exact ⟨P0, B0 ++ B, h0, by simp, StrBody.append hB0 hB⟩

/-- Splitter and key lead to a place for a value. -/
theorem inv_prefix {s : S} {b : Builder} {T : List UInt8} {key : Option (List UInt8)}
    (ha : b.ValueAllowed key) (hk : CleanKey s.esc key) (hks : Splitter 58 s.ks) (hvs : Splitter 44 s.vs)
    (h : Inv b T) : Pre b.opened (keyOf key) (T ++ sepText s (headMode b) ++ keyText s key) := by
  obtain ⟨w1, w2, hvs, hw1, hw2⟩ := hvs
  obtain ⟨u1, u2, hks, hu1, hu2⟩ := hks
  obtain ⟨dn, op⟩ := b
  match op, h, ha with
  | [], h, ha =>
    have ha' : dn = none ∧ key = none := ha
    obtain ⟨rfl, rfl⟩ := ha'
    have : sepText s (headMode { done := none, opened := [] }) = [] := rfl
    rw [this]
    simp only [keyText, List.append_nil]
    exact h
  | (k, .arr []) :: rest, ⟨P0, I, h0, hT, hI⟩, ha =>
    have ha' : key = none := ha
    subst ha'
    have : sepText s (headMode { done := dn, opened := (k, .arr []) :: rest }) = [] := rfl
    rw [this]
    simp only [keyText, List.append_nil]
    refine ⟨P0, I, h0, hT, Or.inl ⟨rfl, ?_⟩⟩
    rcases hI with ⟨_, h⟩ | h
    · exact h
    · exfalso
      generalize hz : ([] : List J) = z at h
      cases h <;> simp at hz
  | (k, .arr (x :: xs)) :: rest, ⟨P0, I, h0, hT, hI⟩, ha =>
    have ha' : key = none := ha
    subst ha'
    have : sepText s (headMode { done := dn, opened := (k, .arr (x :: xs)) :: rest }) = s.vs := rfl
    rw [this, hvs]
    simp only [keyText, List.append_nil]
    rcases hI with ⟨h, _⟩ | h
    · cases h
    · exact ⟨P0, (I ++ w1) ++ 44 :: w2, h0, by rw [hT]; simp, Or.inr ⟨I ++ w1, w2, Elems.ws h hw1, hw2, rfl⟩⟩
  | (k, .obj []) :: rest, ⟨P0, I, h0, hT, hI⟩, ha =>
    have ha' : key ≠ none := ha
    cases key with
    | none => exact absurd rfl ha'
    | some key =>
      have : sepText s (headMode { done := dn, opened := (k, .obj []) :: rest }) = [] := rfl
      rw [this]
      simp only [keyText, List.append_nil]
      refine ⟨P0, I, escAll s.esc key, cstr key, u1, u2, rfl, h0, ?_, strBody_flatMap hk, hu1, hu2, Or.inl ⟨rfl, ?_⟩⟩
      · rw [hT, hks]; simp
      · rcases hI with ⟨_, h⟩ | h
        · exact h
        · exfalso
          generalize hz : ([] : List (List UInt8 × J)) = z at h
          cases h <;> simp at hz
  | (k, .obj (x :: xs)) :: rest, ⟨P0, I, h0, hT, hI⟩, ha =>
    have ha' : key ≠ none := ha
    cases key with
    | none => exact absurd rfl ha'
    | some key =>
      have : sepText s (headMode { done := dn, opened := (k, .obj (x :: xs)) :: rest }) = s.vs := rfl
      rw [this]
      simp only [keyText]
      rcases hI with ⟨h, _⟩ | h
      · cases h
      · refine ⟨P0, (I ++ w1) ++ 44 :: w2, escAll s.esc key, cstr key, u1, u2, rfl, h0, ?_, strBody_flatMap hk, hu1,
          hu2, Or.inr ⟨I ++ w1, w2, Members.ws h hw1, hw2, rfl⟩⟩
        rw [hT, hks, hvs]; simp
  | (k, .str d) :: rest, _, ha => exact False.elim ha

/-- An integer literal denotes the integer. -/
theorem numLit_int {v : Int} {t : List UInt8} (h : IntText v t) : NumLit t v := by
  obtain ⟨ds, h1, rfl⟩ := h
  refine ⟨decide (v < 0), v.natAbs, ds, [], [], [], 0, by simp, h1, Or.inl ⟨rfl, rfl⟩, Or.inl ⟨rfl, rfl⟩, ?_⟩
  rw [List.append_nil, h1.2.1]
  have h0 : ((10 : Rat) ^ ((0 : Int) - (([] : List Nat).length : Int))) = 1 := by
    show (10 : Rat) ^ (0 : Int) = 1
    exact Rat.zpow_zero _
  rw [h0, Rat.mul_one]
  by_cases hv : v < 0
  · simp only [hv, decide_true, if_true]
    have : v = -(v.natAbs : Int) := by omega
    conv => lhs; rw [this]
    rw [Rat.intCast_neg, Rat.neg_mul, Rat.one_mul]
    rfl
  · simp only [hv, decide_false, Bool.false_eq_true, if_false]
    have : v = (v.natAbs : Int) := by omega
    conv => lhs; rw [this]
    rw [Rat.one_mul]
    rfl

end Verif.Json
