import Verif.ConvertInt.Model
import Verif.ConvertInt.Spec

namespace Verif.ConvertInt
open Spec

/-- `group` with `y` digits already placed to the right. -/
def groupOff (sep : UInt8) (y : Nat) : List UInt8 → List UInt8
  | [] => []
  | c :: cs =>
    if sep ≠ 0 ∧ cs.length + y ≠ 0 ∧ (cs.length + y) % 3 = 0 then c :: sep :: groupOff sep y cs
    else c :: groupOff sep y cs

theorem groupOff_zero (sep : UInt8) (cs : List UInt8) : groupOff sep 0 cs = group sep cs := by
  induction cs with
  | nil => rfl
  | cons c cs ih =>
    simp only [groupOff, group, ih, Nat.add_zero]
    have : cs.length ≠ 0 ↔ cs ≠ [] := by cases cs <;> simp
    simp [this]

theorem groupOff_snoc (sep : UInt8) (y : Nat) (cs : List UInt8) (d : UInt8) :
    groupOff sep y (cs ++ [d]) =
      groupOff sep (y + 1) cs ++ d :: (if sep ≠ 0 ∧ y ≠ 0 ∧ y % 3 = 0 then [sep] else []) := by
  induction cs with
  | nil => simp only [List.nil_append, groupOff, List.length_nil, Nat.zero_add]; split <;> simp
  | cons c cs ih =>
    simp only [List.cons_append, groupOff, ih, List.length_append, List.length_cons, List.length_nil]
    have e : cs.length + (0 + 1) + y = cs.length + (y + 1) := by omega
    rw [e]
    split <;> simp

/-- Numeral of a positive number. -/
def PosNumeral (radix n : Nat) (ds : List Nat) : Prop :=
  (∀ d ∈ ds, d < radix) ∧ valueOf radix ds = n ∧ ds ≠ [] ∧ ds.head? ≠ some 0

theorem valueOf_snoc (radix : Nat) (ds : List Nat) (d : Nat) :
    valueOf radix (ds ++ [d]) = valueOf radix ds * radix + d := by
  simp [valueOf, List.foldl_append]

theorem loop_zero (sep : UInt8) (radix x : Nat) (m : List UInt8) (y : Nat) :
    loop sep radix x m y 0 = .ok (.fall m x 0) := by
  unfold loop; split <;> simp

/-- One iteration without separator. -/
theorem loop_digit (sep : UInt8) (radix : Nat) (pre suf : List UInt8) (a : UInt8) (y num : Nat)
    (hn : num ≠ 0) (hs : ¬ (sep ≠ 0 ∧ y ≠ 0 ∧ y % 3 = 0)) :
    loop sep radix (pre.length + 1) (pre ++ a :: suf) y num =
      loop sep radix pre.length (pre ++ digitChar (num % radix) :: suf) (y + 1) (num / radix) := by
  cases pre with
  | nil =>
    simp only [List.length_nil, Nat.zero_add, List.nil_append]
    unfold loop; simp [hn, hs, wr]
  | cons p pre =>
    have : (p :: pre).length + 1 = pre.length + 2 := by simp
    rw [this]
    conv => lhs; unfold loop
    rw [if_neg hn, if_neg hs, wr_append' (p :: pre) suf a _ (pre.length + 1) (by simp)]
    simp

/-- One iteration with separator and room for it. -/
theorem loop_sep (sep : UInt8) (radix : Nat) (pre suf : List UInt8) (a b : UInt8) (y num : Nat)
    (hn : num ≠ 0) (hs : sep ≠ 0 ∧ y ≠ 0 ∧ y % 3 = 0) :
    loop sep radix (pre.length + 2) (pre ++ a :: b :: suf) y num =
      loop sep radix pre.length (pre ++ digitChar (num % radix) :: sep :: suf) (y + 1)
        (num / radix) := by
  conv => lhs; unfold loop
  rw [if_neg hn, if_pos hs]
  have e : pre ++ a :: b :: suf = (pre ++ [a]) ++ b :: suf := by simp
  rw [e, wr_append' (pre ++ [a]) suf b _ (pre.length + 1) (by simp)]
  simp only [ok_bind, List.append_assoc, List.singleton_append]
  rw [wr_append' pre (sep :: suf) a _ pre.length rfl]
  simp

theorem snoc_of_pos {α : Type} (l : List α) (h : 0 < l.length) : ∃ p a, l = p ++ [a] := by
  rcases List.eq_nil_or_concat l with h' | ⟨p, a, h'⟩
  · simp [h'] at h
  · exact ⟨p, a, by simpa using h'⟩

theorem loop_spec (sep : UInt8) (radix : Nat) (hr : 2 ≤ radix) : ∀ num, 0 < num →
    ∃ ds, PosNumeral radix num ds ∧ ∀ y pre suf,
      ((groupOff sep y (ds.map digitChar)).length ≤ pre.length →
        loop sep radix pre.length (pre ++ suf) y num = .ok (.fall
          (pre.take (pre.length - (groupOff sep y (ds.map digitChar)).length) ++
            groupOff sep y (ds.map digitChar) ++ suf)
          (pre.length - (groupOff sep y (ds.map digitChar)).length) 0)) ∧
      (pre.length < (groupOff sep y (ds.map digitChar)).length →
        ∃ m', m'.length = (pre ++ suf).length ∧
          (loop sep radix pre.length (pre ++ suf) y num = .ok (.ret m') ∨
           ∃ n', n' ≠ 0 ∧ loop sep radix pre.length (pre ++ suf) y num = .ok (.fall m' 0 n'))) := by
  intro num
  induction num using Nat.strongRecOn with
  | _ num ih =>
    intro hpos
    have hn : num ≠ 0 := by omega
    -- digits of the quotient
    have hq : ∃ ds, ((num / radix = 0 ∧ ds = []) ∨ PosNumeral radix (num / radix) ds) ∧
        ∀ y pre suf,
        ((groupOff sep y (ds.map digitChar)).length ≤ pre.length →
          loop sep radix pre.length (pre ++ suf) y (num / radix) = .ok (.fall
            (pre.take (pre.length - (groupOff sep y (ds.map digitChar)).length) ++
              groupOff sep y (ds.map digitChar) ++ suf)
            (pre.length - (groupOff sep y (ds.map digitChar)).length) 0)) ∧
        (pre.length < (groupOff sep y (ds.map digitChar)).length →
          ∃ m', m'.length = (pre ++ suf).length ∧
            (loop sep radix pre.length (pre ++ suf) y (num / radix) = .ok (.ret m') ∨
             ∃ n', n' ≠ 0 ∧ loop sep radix pre.length (pre ++ suf) y (num / radix)
              = .ok (.fall m' 0 n'))) := by
      by_cases h0 : num / radix = 0
      · refine ⟨[], Or.inl ⟨h0, rfl⟩, ?_⟩
        intro y pre suf
        simp [groupOff, h0, loop_zero]
      · obtain ⟨ds, h1, h2⟩ := ih (num / radix) (Nat.div_lt_self hpos (by omega)) (Nat.pos_of_ne_zero h0)
        exact ⟨ds, Or.inr h1, h2⟩
    obtain ⟨ds, hds, hloop⟩ := hq
    refine ⟨ds ++ [num % radix], ?_, ?_⟩
    · -- numeral
      have hm : num % radix < radix := Nat.mod_lt _ (by omega)
      have hval : radix * (num / radix) + num % radix = num := Nat.div_add_mod num radix
      rcases hds with ⟨h0, rfl⟩ | ⟨ha, hb, hc, hd⟩
      · rw [h0] at hval
        refine ⟨by simpa using hm, by simp [valueOf]; omega, by simp, by simp; omega⟩
      · refine ⟨?_, ?_, by simp, ?_⟩
        · intro d hd'
          rcases List.mem_append.1 hd' with h | h
          · exact ha d h
          · simp at h; omega
        · rw [valueOf_snoc, hb, Nat.mul_comm]; exact hval
        · cases ds with
          | nil => exact absurd rfl hc
          | cons a t => simpa using hd
    · intro y pre suf
      simp only [List.map_append, List.map_cons, List.map_nil, groupOff_snoc]
      by_cases hs : sep ≠ 0 ∧ y ≠ 0 ∧ y % 3 = 0
      · simp only [if_pos hs]
        obtain ⟨hl1, hl2⟩ := hloop (y + 1) (pre.take (pre.length - 2))
          (digitChar (num % radix) :: sep :: suf)
        generalize hT : groupOff sep (y + 1) (ds.map digitChar) = T at hl1 hl2 ⊢
        by_cases hp : 2 ≤ pre.length
        · obtain ⟨p1, b, rfl⟩ := snoc_of_pos pre (by omega)
          obtain ⟨p, a, rfl⟩ := snoc_of_pos p1 (by simp at hp; omega)
          have e1 : (p ++ [a] ++ [b]).length = p.length + 2 := by simp
          have e2 : (p ++ [a] ++ [b]) ++ suf = p ++ a :: b :: suf := by simp
          have e3 : (p ++ [a] ++ [b]).take ((p ++ [a] ++ [b]).length - 2) = p := by
            rw [e1]; simp
          rw [e3] at hl1 hl2
          rw [e2, e1, loop_sep sep radix p suf a b y num hn hs]
          constructor
          · intro hlen
            simp only [List.length_append, List.length_cons, List.length_nil] at hlen
            rw [hl1 (by omega)]
            have : p.length + 2 - (T.length + (0 + 1 + 1)) = p.length - T.length := by omega
            simp only [List.length_append, List.length_cons, List.length_nil, this]
            have ht : (p ++ [a] ++ [b]).take (p.length - T.length) = p.take (p.length - T.length) := by
              rw [List.append_assoc, List.take_append_of_le_length (by omega)]
            rw [ht]; simp
          · intro hlen
            simp only [List.length_append, List.length_cons, List.length_nil] at hlen
            obtain ⟨m', hm', h⟩ := hl2 (by omega)
            exact ⟨m', by simpa using hm', h⟩
        · -- not enough room for separator and digit
          have hlt : pre.length < (T ++ digitChar (num % radix) :: [sep]).length := by
            simp; omega
          refine ⟨fun h => by omega, fun _ => ?_⟩
          cases pre with
          | nil => exact ⟨suf, rfl, Or.inr ⟨num, hn, by simp [loop]⟩⟩
          | cons a t =>
            cases t with
            | nil => exact ⟨sep :: suf, rfl, Or.inl (by simp [loop, hn, hs, wr])⟩
            | cons _ _ => simp at hp
      · simp only [if_neg hs]
        obtain ⟨hl1, hl2⟩ := hloop (y + 1) (pre.take (pre.length - 1))
          (digitChar (num % radix) :: suf)
        generalize hT : groupOff sep (y + 1) (ds.map digitChar) = T at hl1 hl2 ⊢
        by_cases hp : 1 ≤ pre.length
        · obtain ⟨p, b, rfl⟩ := snoc_of_pos pre (by omega)
          have e1 : (p ++ [b]).length = p.length + 1 := by simp
          have e2 : (p ++ [b]) ++ suf = p ++ b :: suf := by simp
          have e3 : (p ++ [b]).take ((p ++ [b]).length - 1) = p := by
            rw [e1]; simp
          rw [e3] at hl1 hl2
          rw [e2, e1, loop_digit sep radix p suf b y num hn hs]
          constructor
          · intro hlen
            simp only [List.length_append, List.length_cons, List.length_nil] at hlen
            rw [hl1 (by omega)]
            have : p.length + 1 - (T.length + (0 + 1)) = p.length - T.length := by omega
            simp only [List.length_append, List.length_cons, List.length_nil, this]
            have ht : (p ++ [b]).take (p.length - T.length) = p.take (p.length - T.length) := by
              rw [List.take_append_of_le_length (by omega)]
            rw [ht]; simp
          · intro hlen
            simp only [List.length_append, List.length_cons, List.length_nil] at hlen
            obtain ⟨m', hm', h⟩ := hl2 (by omega)
            exact ⟨m', by simpa using hm', h⟩
        · have hlt : pre.length < (T ++ [digitChar (num % radix)]).length := by
            simp; omega
          refine ⟨fun h => by omega, fun _ => ?_⟩
          cases pre with
          | nil => exact ⟨suf, rfl, Or.inr ⟨num, hn, by simp [loop]⟩⟩
          | cons a t => simp at hp

/-- Numerals are unique. -/
theorem posNumeral_unique (radix : Nat) (hr : 2 ≤ radix) : ∀ n ds ds',
    PosNumeral radix n ds → PosNumeral radix n ds' → ds = ds' := by
  intro n
  induction n using Nat.strongRecOn with
  | _ n ih =>
    intro ds ds' h h'
    obtain ⟨h1, h2, h3, h4⟩ := h
    obtain ⟨h1', h2', h3', h4'⟩ := h'
    obtain ⟨p, d, rfl⟩ := snoc_of_pos ds (List.length_pos_iff.2 h3)
    obtain ⟨p', d', rfl⟩ := snoc_of_pos ds' (List.length_pos_iff.2 h3')
    rw [valueOf_snoc] at h2 h2'
    have hd : d < radix := h1 d (by simp)
    have hd' : d' < radix := h1' d' (by simp)
    have e1 : n % radix = d := by rw [← h2, Nat.mul_comm, Nat.mul_add_mod, Nat.mod_eq_of_lt hd]
    have e1' : n % radix = d' := by rw [← h2', Nat.mul_comm, Nat.mul_add_mod, Nat.mod_eq_of_lt hd']
    have e2 : n / radix = valueOf radix p := by
      rw [← h2, Nat.mul_comm, Nat.mul_add_div (by omega), Nat.div_eq_of_lt hd, Nat.add_zero]
    have e2' : n / radix = valueOf radix p' := by
      rw [← h2', Nat.mul_comm, Nat.mul_add_div (by omega), Nat.div_eq_of_lt hd', Nat.add_zero]
    have pos : ∀ (q : List Nat) e, (q ++ [e]).head? ≠ some 0 → q ≠ [] → 0 < valueOf radix q := by
      intro q e hq hne
      cases q with
      | nil => exact absurd rfl hne
      | cons a t =>
        have ha : a ≠ 0 := by simpa using hq
        have : ∀ (t : List Nat) (acc : Nat), 0 < acc →
            0 < t.foldl (fun acc d => acc * radix + d) acc := by
          intro t
          induction t with
          | nil => intro acc h; simpa using h
          | cons b t ih =>
            intro acc h
            exact ih _ (Nat.lt_of_lt_of_le (Nat.mul_pos h (show 0 < radix by omega)) (Nat.le_add_right _ _))
        simp only [valueOf, List.foldl_cons]
        exact this t _ (by omega)
    have hp : p = p' := by
      by_cases hz : valueOf radix p = 0
      · have hpn : p = [] := by
          by_cases hne : p = []
          · exact hne
          · have := pos p d h4 hne; omega
        have hpn' : p' = [] := by
          by_cases hne : p' = []
          · exact hne
          · have := pos p' d' h4' hne; omega
        rw [hpn, hpn']
      · have hne : p ≠ [] := by rintro rfl; simp [valueOf] at hz
        have hne' : p' ≠ [] := by
          rintro rfl; rw [← e2, e2'] at hz; simp [valueOf] at hz
        have hnpos : 0 < n := by
          have hle := Nat.div_le_self n radix
          omega
        refine ih (n / radix) (Nat.div_lt_self hnpos (by omega)) p p' ?_ ?_
        · exact ⟨fun x hx => h1 x (by simp [hx]), e2.symm, hne, by
            cases p with
            | nil => exact absurd rfl hne
            | cons a t => simpa using h4⟩
        · exact ⟨fun x hx => h1' x (by simp [hx]), e2'.symm, hne', by
            cases p' with
            | nil => exact absurd rfl hne'
            | cons a t => simpa using h4'⟩
    rw [hp, ← e1, ← e1']

theorem digitChar_spec (d : Nat) (h : d < 36) : digitChars[d]? = some (digitChar d) := by
  have : ∀ d : Fin 36, digitChars[d.val]? = some (digitChar d.val) := by decide
  exact this ⟨d, h⟩

theorem map_digitChar_spec (radix : Nat) (hr : radix ≤ 36) (ds : List Nat) (h : ∀ d ∈ ds, d < radix) :
    (ds.map digitChar).map some = ds.map (fun d => digitChars[d]?) := by
  rw [List.map_map]
  apply List.map_congr_left
  intro d hd
  rw [digitChar_spec d (by have := h d hd; omega)]; rfl

theorem numeral_zero (radix : Nat) (hr : 2 ≤ radix) (ds : List Nat) :
    IsNumeral radix 0 ds ↔ ds = [0] := by
  constructor
  · rintro ⟨h1, h2, h3, h4⟩
    by_cases hz : ds.head? = some 0
    · exact h4 hz
    · exfalso
      cases ds with
      | nil => exact h3 rfl
      | cons a t =>
        have ha : a ≠ 0 := by simpa using hz
        have : ∀ (t : List Nat) (acc : Nat), 0 < acc →
            0 < t.foldl (fun acc d => acc * radix + d) acc := by
          intro t
          induction t with
          | nil => intro acc h; simpa using h
          | cons b t ih =>
            intro acc h
            exact ih _ (Nat.lt_of_lt_of_le (Nat.mul_pos h (show 0 < radix by omega)) (Nat.le_add_right _ _))
        have h := this t (0 * radix + a) (by omega)
        simp only [valueOf, List.foldl_cons] at h2
        omega
  · rintro rfl
    exact ⟨by simp; omega, by simp [valueOf], by simp, by simp⟩

theorem numeral_pos (radix n : Nat) (hn : 0 < n) (ds : List Nat) :
    IsNumeral radix n ds ↔ PosNumeral radix n ds := by
  constructor
  · rintro ⟨h1, h2, h3, h4⟩
    refine ⟨h1, h2, h3, fun h => ?_⟩
    have := h4 h; subst this
    simp [valueOf] at h2; omega
  · rintro ⟨h1, h2, h3, h4⟩
    exact ⟨h1, h2, h3, fun h => absurd h h4⟩

/-- Renderings are unique. -/
theorem rendering_unique (radix : Nat) (hr : 2 ≤ radix) (sep : UInt8) (n : Nat) (t t' : List UInt8)
    (h : IsRendering radix sep n t) (h' : IsRendering radix sep n t') : t = t' := by
  obtain ⟨ds, h1, cs, h2, rfl⟩ := h
  obtain ⟨ds', h1', cs', h2', rfl⟩ := h'
  have : ds = ds' := by
    by_cases hn : n = 0
    · subst hn
      rw [(numeral_zero radix hr ds).1 h1, (numeral_zero radix hr ds').1 h1']
    · exact posNumeral_unique radix hr n ds ds' ((numeral_pos radix n (by omega) ds).1 h1)
        ((numeral_pos radix n (by omega) ds').1 h1')
  subst this
  have : cs = cs' := by
    have := h2.trans h2'.symm
    exact (List.map_inj_right (fun _ _ h => Option.some.inj h)).1 this
  rw [this]

/-- The complete behaviour of `toStringU` for a valid radix. -/
theorem toStringU_spec (m : List UInt8) (num : Nat) (sep : UInt8) (radix : Nat)
    (hr : 2 ≤ radix) (hr' : radix ≤ 36) :
    ∃ text, IsRendering radix sep num text ∧
      (text.length + 1 ≤ m.length →
        ∃ rest, toStringU m num sep radix = .ok (true, text ++ 0 :: rest) ∧
          text.length + 1 + rest.length = m.length) ∧
      (m.length < text.length + 1 →
        ∃ m', toStringU m num sep radix = .ok (false, m') ∧ m'.length = m.length) := by
  by_cases hn : num = 0
  · subst hn
    refine ⟨[48], ⟨[0], (numeral_zero radix hr _).2 rfl, [48], by decide, by simp [group]⟩, ?_, ?_⟩
    · intro hl
      simp only [List.length_cons, List.length_nil] at hl
      obtain ⟨p1, b, rfl⟩ := snoc_of_pos m (by omega)
      obtain ⟨p, a, rfl⟩ := snoc_of_pos p1 (by simp at hl; omega)
      refine ⟨(p ++ [48, 0]).drop 2, ?_, by simp; omega⟩
      unfold toStringU
      rw [if_neg (by omega)]
      have e : p ++ [a] ++ [b] = (p ++ [a]) ++ b :: [] := by simp
      rw [e, wr_append' (p ++ [a]) [] b 0 _ (by simp)]
      simp only [ok_bind, if_true]
      have e : p ++ [a] ++ [0] = p ++ a :: [0] := by simp
      rw [e, wr_append' p [0] a 48 _ (by simp)]
      simp [memmoveIn]
    · intro hl
      simp only [List.length_cons, List.length_nil] at hl
      exact ⟨m, by unfold toStringU; rw [if_pos (by omega)], rfl⟩
  · obtain ⟨ds, hds, hloop⟩ := loop_spec sep radix hr num (by omega)
    refine ⟨group sep (ds.map digitChar),
      ⟨ds, (numeral_pos radix num (by omega) ds).2 hds, ds.map digitChar,
        map_digitChar_spec radix hr' ds hds.1, rfl⟩, ?_⟩
    rw [← groupOff_zero]
    have htpos : 1 ≤ (groupOff sep 0 (ds.map digitChar)).length := by
      cases ds with
      | nil => exact absurd rfl hds.2.2.1
      | cons a t => simp only [List.map_cons, groupOff]; split <;> simp
    constructor
    · intro hl
      obtain ⟨p, b, rfl⟩ := snoc_of_pos m (by omega)
      obtain ⟨h1, -⟩ := hloop 0 p [0]
      generalize groupOff sep 0 (ds.map digitChar) = T at h1 hl htpos ⊢
      simp only [List.length_append, List.length_cons, List.length_nil] at hl
      have hfull : p.take (p.length - T.length) ++ T ++ [0] =
          p.take (p.length - T.length) ++ (T ++ [0]) := by simp
      refine ⟨(p.take (p.length - T.length) ++ T ++ [0]).drop (T.length + 1), ?_, ?_⟩
      · unfold toStringU
        have e : p ++ [b] = p ++ b :: [] := by simp
        rw [if_neg (by simp; omega), e, wr_append' p [] b 0 _ (by simp)]
        simp only [ok_bind, if_neg hn]
        have e2 : (p ++ [0]).length - 1 = p.length := by simp
        rw [e2, h1 (by omega)]
        simp only [ok_bind]
        have hlen : (p.take (p.length - T.length) ++ T ++ [0]).length = p.length + 1 := by
          simp; omega
        have e3 : p.length + 1 - (p.length - T.length) = T.length + 1 := by omega
        rw [hlen, e3]
        have hd : (p.take (p.length - T.length) ++ T ++ [0]).drop (p.length - T.length)
            = T ++ [0] := by
          rw [hfull, List.drop_append_of_le_length (by simp)]
          simp
        have htk : (T ++ [0]).take (T.length + 1) = T ++ [0] := by
          rw [List.take_of_length_le (by simp)]
        simp only [memmoveIn, hlen]
        rw [if_neg (by simp), if_pos (by omega), if_pos (by omega)]
        simp only [ok_bind, List.take_zero, List.nil_append, Nat.zero_add]
        rw [hd, htk]; simp
      · simp; omega
    · intro hl
      by_cases hm : m.length < 2
      · exact ⟨m, by unfold toStringU; rw [if_pos (by omega)], rfl⟩
      · obtain ⟨p, b, rfl⟩ := snoc_of_pos m (by omega)
        obtain ⟨-, h2⟩ := hloop 0 p [0]
        simp only [List.length_append, List.length_cons, List.length_nil] at hl
        obtain ⟨m', hm', h⟩ := h2 (by omega)
        refine ⟨m', ?_, by simpa using hm'⟩
        unfold toStringU
        have e : p ++ [b] = p ++ b :: [] := by simp
        rw [if_neg (by omega), e, wr_append' p [] b 0 _ (by simp)]
        simp only [ok_bind, if_neg hn]
        have e2 : (p ++ [0]).length - 1 = p.length := by simp
        rw [e2]
        rcases h with h | ⟨n', hn', h⟩
        · rw [h]; rfl
        · rw [h]; simp [hn']

theorem mem_group {sep : UInt8} {cs : List UInt8} {c : UInt8} (h : c ∈ group sep cs) :
    c ∈ cs ∨ (c = sep ∧ sep ≠ 0) := by
  induction cs with
  | nil => simp [group] at h
  | cons a t ih =>
    unfold group at h
    split at h
    · next hs =>
      simp only [List.mem_cons] at h
      rcases h with h | h | h
      · exact Or.inl (by simp [h])
      · exact Or.inr ⟨h, hs.1⟩
      · rcases ih h with h | h
        · exact Or.inl (by simp [h])
        · exact Or.inr h
    · simp only [List.mem_cons] at h
      rcases h with h | h
      · exact Or.inl (by simp [h])
      · rcases ih h with h | h
        · exact Or.inl (by simp [h])
        · exact Or.inr h

theorem filter_group {sep : UInt8} {cs : List UInt8} (h : sep ∉ cs) :
    (group sep cs).filter (· ≠ sep) = cs := by
  induction cs with
  | nil => simp [group]
  | cons a t ih =>
    have ha : a ≠ sep := by rintro rfl; simp at h
    have ht : sep ∉ t := fun h' => h (by simp [h'])
    unfold group
    split <;> simp_all

theorem digits_mem {ds : List Nat} {cs : List UInt8}
    (h : cs.map some = ds.map (fun d => digitChars[d]?)) : ∀ c ∈ cs, c ∈ digitChars := by
  intro c hc
  have : some c ∈ cs.map some := List.mem_map.2 ⟨c, hc, rfl⟩
  rw [h] at this
  obtain ⟨d, -, hd⟩ := List.mem_map.1 this
  exact List.mem_of_getElem? hd

theorem parse_digits (radix : Nat) (hr : radix ≤ 36) : ∀ (ds : List Nat) (cs : List UInt8) (acc : Nat),
    (∀ d ∈ ds, d < radix) → cs.map some = ds.map (fun d => digitChars[d]?) →
    cs.foldl (fun acc c => do
      let a ← acc
      let d ← digitChars.findIdx? (· == c)
      if d < radix then some (a * radix + d) else none) (some acc) =
    some (ds.foldl (fun acc d => acc * radix + d) acc) := by
  intro ds
  induction ds with
  | nil => intro cs acc _ h; simp at h; simp [h]
  | cons d ds ih =>
    intro cs acc hd h
    cases cs with
    | nil => simp at h
    | cons c cs =>
      simp only [List.map_cons, List.cons.injEq] at h
      have hdr : d < radix := hd d (by simp)
      have hfi : ∀ d : Fin 36, ∀ c : UInt8, digitChars[d.val]? = some c →
          digitChars.findIdx? (· == c) = some d.val := by
        intro d c hc
        have hall : ∀ d : Fin 36, digitChars.findIdx? (· == digitChar d.val) = some d.val := by decide
        rw [digitChar_spec d.val d.isLt] at hc
        cases hc; exact hall d
      have := hfi ⟨d, by omega⟩ c h.1.symm
      simp only [List.foldl_cons]
      rw [← ih cs (acc * radix + d) (fun x hx => hd x (by simp [hx])) h.2]
      congr 1
      simp [this, hdr]

theorem group_length (sep : UInt8) (hs : sep ≠ 0) (cs : List UInt8) :
    (group sep cs).length = cs.length + (cs.length - 1) / 3 := by
  induction cs with
  | nil => simp [group]
  | cons a t ih =>
    unfold group
    cases t with
    | nil => simp [group]
    | cons b u =>
      split
      · next h => simp only [List.length_cons, ih] at h ⊢; omega
      · next h =>
        simp only [hs, ne_eq, not_false_eq_true, List.cons_ne_nil, true_and] at h
        simp only [List.length_cons, ih] at h ⊢; omega

theorem group_none (cs : List UInt8) : group 0 cs = cs := by
  induction cs with
  | nil => rfl
  | cons a t ih => simp [group, ih]

end Verif.ConvertInt
