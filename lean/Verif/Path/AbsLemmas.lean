import Verif.Path.NameLemmas
import Verif.Path.PieceLemmas

/-!
# The loops of `GetAbsoluteFilename` compute the string functions of `PieceLemmas`
-/

namespace Verif.Path
open Spec

/-! ## Buffers -/

theorem rd_drop {b t : List Nat} {x c : Nat} (h : b.drop x = c :: t) : rd b x = .ok c := by
  unfold rd
  have : b[x]? = some c := by
    have := congrArg (fun l => l[0]?) h
    simpa using this
  rw [this]

theorem drop_tail {b t : List Nat} {x c : Nat} (h : b.drop x = c :: t) : b.drop (x + 1) = t := by
  rw [← List.drop_drop, h]; rfl

theorem drop_lt {b t : List Nat} {x c : Nat} (h : b.drop x = c :: t) : x < b.length := by
  apply Classical.byContradiction
  intro hn
  rw [List.drop_of_length_le (by omega)] at h
  cases h

theorem drop_add {b s t : List Nat} {x : Nat} (k : Nat) (h : b.drop x = s ++ t) (hk : k ≤ s.length) :
    b.drop (x + k) = s.drop k ++ t := by
  rw [← List.drop_drop, h, List.drop_append_of_le_length hk]

theorem at_ok (b : List Nat) : ∀ (pat : List Nat) (x : Nat) (rest tl : List Nat), b.drop x = rest ++ 0 :: tl →
    0 ∉ pat.dropLast → at_ b x pat = .ok (pat.isPrefixOf (rest ++ [0]))
  | [], x, rest, tl, _, _ => by simp [at_]
  | p :: ps, x, [], tl, h, h0 => by
    rw [at_, rd_drop h, ok_bind]
    by_cases hp : 0 = p
    · rw [if_pos hp]
      cases ps with
      | nil => subst hp; simp [at_, List.isPrefixOf]
      | cons q qs => exact absurd (by simp [hp]) h0
    · rw [if_neg hp]
      simp [List.isPrefixOf, Ne.symm hp]
  | p :: ps, x, c :: rest, tl, h, h0 => by
    rw [at_, rd_drop h, ok_bind]
    by_cases hp : c = p
    · rw [if_pos hp, List.cons_append, List.isPrefixOf_cons₂, hp]
      simp only [beq_self_eq_true, Bool.true_and]
      cases ps with
      | nil => simp [at_]
      | cons q qs =>
        refine at_ok b (q :: qs) (x + 1) rest tl (drop_tail h) ?_
        intro hm
        exact h0 (by rw [List.dropLast_cons_cons]; exact List.mem_cons_of_mem _ hm)
    · rw [if_neg hp]
      simp [List.isPrefixOf, Ne.symm hp]

/-- Comparing with a pattern where all characters exist. -/
theorem at_full (b : List Nat) : ∀ (pat l : List Nat) (x : Nat) (t : List Nat), b.drop x = l ++ t →
    l.length = pat.length → at_ b x pat = .ok (decide (l = pat))
  | [], l, x, t, _, hl => by
    have : l = [] := List.length_eq_zero_iff.1 hl
    simp [at_, this]
  | p :: ps, [], x, t, _, hl => by simp at hl
  | p :: ps, c :: l, x, t, h, hl => by
    rw [at_, rd_drop h, ok_bind]
    by_cases hp : c = p
    · rw [if_pos hp, at_full b ps l (x + 1) t (drop_tail h) (by simpa using hl)]
      simp [hp]
    · rw [if_neg hp]
      simp [hp]

theorem wr_at {b : List Nat} {x : Nat} (v : Nat) (h : x < b.length) :
    wr b x v = .ok (b.take x ++ v :: b.drop (x + 1)) := by
  rw [wr_ok v h, List.set_eq_take_append_cons_drop, if_pos h]

theorem take_wr {b : List Nat} {x : Nat} (v : Nat) (h : x < b.length) :
    (b.take x ++ v :: b.drop (x + 1)).take (x + 1) = b.take x ++ [v] := by
  have : (b.take x).length = x := by simp; omega
  rw [show x + 1 = (b.take x).length + 1 by omega, List.take_length_add_append]
  simp

theorem drop_wr {b : List Nat} {x y : Nat} (v : Nat) (h : x < b.length) (hy : x < y) :
    (b.take x ++ v :: b.drop (x + 1)).drop y = b.drop y := by
  have hl : (b.take x).length = x := by simp; omega
  rw [List.drop_append, List.drop_of_length_le (by omega), List.nil_append, hl,
    show y - x = (y - x - 1) + 1 by omega, List.drop_succ_cons, List.drop_drop]
  congr 1
  omega

theorem len_wr {b : List Nat} {x : Nat} (v : Nat) (h : x < b.length) :
    (b.take x ++ v :: b.drop (x + 1)).length = b.length := by
  simp; omega

/-! ## The first loop -/

theorem skipDot_ok (b tl : List Nat) : ∀ (k x : Nat) (rest : List Nat), b.drop x = rest ++ 0 :: tl → rest.length < k →
    ∃ x' rest', skipDot b k x = .ok x' ∧ b.drop x' = rest' ++ 0 :: tl ∧ x ≤ x' ∧ x' + rest'.length = x + rest.length ∧
      [47, 46, 47].isPrefixOf rest' = false ∧ undot rest = undot rest' ∧ (rest ≠ [] → rest' ≠ []) ∧ (∀ c ∈ rest', c ∈ rest)
  | 0, x, rest, _, h => absurd h (by omega)
  | k + 1, x, rest, h, hk => by
    rw [skipDot, at_ok b _ x rest tl h (by decide), ok_bind, prefix_zero _ _ (by decide)]
    cases hp : [47, 46, 47].isPrefixOf rest with
    | false => exact ⟨x, rest, rfl, h, Nat.le_refl _, rfl, hp, rfl, id, fun _ => id⟩
    | true =>
      rw [if_pos rfl]
      have hle := (List.isPrefixOf_iff_prefix.1 hp).length_le
      simp at hle
      obtain ⟨x', rest', h1, h2, h3, h4, h5, h6, h7, h8⟩ := skipDot_ok b tl k (x + 2) (rest.drop 2) (drop_add 2 h (by omega))
        (by simp; omega)
      simp only [List.length_drop] at h4
      refine ⟨x', rest', h1, h2, by omega, by omega, h5, by rw [undot_skip hp, h6], ?_, ?_⟩
      · intro _
        apply h7
        intro e
        have := congrArg List.length e
        simp at this
        omega
      · intro c hc; exact List.mem_of_mem_drop (h8 c hc)

theorem isEnd {rest : List Nat} (h0 : 0 ∉ rest) : [47, 46, 0].isPrefixOf (rest ++ [0]) = decide (rest = [47, 46]) := by
  rcases rest with _ | ⟨a, _ | ⟨b, _ | ⟨c, r⟩⟩⟩
  · simp [List.isPrefixOf]
  · by_cases ha : a = 47 <;> simp [List.isPrefixOf, ha]
  · by_cases ha : a = 47 <;> by_cases hb : b = 46 <;> simp [List.isPrefixOf, ha, hb] <;> omega
  · have : c ≠ 0 := fun e => h0 (by simp [e])
    simp [List.isPrefixOf, Ne.symm this]

theorem dotLoop_ok (y : Nat) (tl : List Nat) : ∀ (k x x2 : Nat) (b rest : List Nat), b.drop x = rest ++ 0 :: tl → 0 ∉ rest →
    x2 ≤ x → rest.length < k → y = x + rest.length →
    ∃ b' x2', dotLoop y k x x2 b = .ok (x2', b') ∧ b'.length = b.length ∧ b'.take x2' = b.take x2 ++ undot rest ∧
      x2' = x2 + (undot rest).length ∧ x2' ≤ y
  | 0, x, x2, b, rest, _, _, _, h, _ => absurd h (by omega)
  | k + 1, x, x2, b, rest, h, h0, hx, hk, hy => by
    rw [dotLoop]
    by_cases hr : rest = []
    · subst hr
      rw [if_neg (by simp at hy; omega)]
      exact ⟨b, x2, rfl, rfl, by rw [undot_nil, List.append_nil], by rw [undot_nil]; rfl, by omega⟩
    · have hpos : 0 < rest.length := List.length_pos_iff.2 hr
      rw [if_pos (by omega)]
      have hbl : rest.length < b.length + 1 := by
        have := congrArg List.length h
        simp at this
        omega
      obtain ⟨x', rest', h1, h2, h3, h4, h5, h6, h7, h8⟩ := skipDot_ok b tl (b.length + 1) x rest h hbl
      rw [h1, ok_bind]
      cases rest' with
      | nil => exact absurd rfl (h7 hr)
      | cons c r =>
        have h0' : 0 ∉ c :: r := fun hm => h0 (h8 0 hm)
        have hlt := drop_lt h2
        rw [rd_drop h2, ok_bind, wr_at c (show x2 < b.length by omega), ok_bind]
        have hd : (b.take x2 ++ c :: b.drop (x2 + 1)).drop x' = c :: r ++ 0 :: tl := by
          by_cases hxx : x2 = x'
          · subst hxx
            have hl : (b.take x2).length = x2 := by simp; omega
            rw [List.drop_append, List.drop_of_length_le (by omega), hl, Nat.sub_self, List.drop_zero, List.nil_append,
              drop_tail h2]
            rfl
          · rw [drop_wr _ (by omega) (by omega), h2]
        rw [at_ok _ _ x' (c :: r) tl hd (by decide), ok_bind, isEnd h0']
        simp only [List.length_cons] at h4
        rw [h6, undot_cons h5]
        by_cases he : c :: r = [47, 46]
        · rw [if_pos (by simp [he]), if_pos he]
          refine ⟨_, x2 + 1, rfl, len_wr _ (by omega), take_wr _ (by omega), rfl, by omega⟩
        · rw [if_neg (by simp [he]), if_neg he]
          obtain ⟨b', x2', g1, g2, g3, g4, g5⟩ := dotLoop_ok y tl k (x' + 1) (x2 + 1) (b.take x2 ++ c :: b.drop (x2 + 1)) r
            (drop_tail hd) (fun hm => h0' (List.mem_cons_of_mem _ hm)) (by omega) (by omega) (by omega)
          refine ⟨b', x2', g1, by rw [g2, len_wr _ (by omega)], ?_, ?_, g5⟩
          · rw [g3, take_wr _ (by omega), List.append_assoc]; rfl
          · rw [g4]; simp; omega

theorem endsDotDot_ok (b s : List Nat) (h : b.take s.length = s) :
    endsDotDot s.length b = .ok (decide ([47, 46, 46] <:+ s)) := by
  unfold endsDotDot
  split
  · next hs =>
    have hb : b = s ++ b.drop s.length := by conv => lhs; rw [← List.take_append_drop s.length b, h]
    have hd : b.drop (s.length - 3) = s.drop (s.length - 3) ++ b.drop s.length := by
      conv => lhs; rw [hb]
      rw [List.drop_append_of_le_length (by omega)]
    rw [at_full b _ _ _ _ hd (by simp; omega)]
    congr 1
    apply Bool.eq_iff_iff.2
    simp only [decide_eq_true_eq]
    constructor
    · intro e
      exact ⟨s.take (s.length - 3), by rw [← e, List.take_append_drop]⟩
    · rintro ⟨t, rfl⟩
      simp
  · next hs =>
    congr 1
    symm
    rw [decide_eq_false_iff_not]
    intro hsuf
    have := hsuf.length_le
    simp at this
    omega

/-- The name after normalisation: without "." components after a slash, and not ending in "/..". -/
def fix (s : List Nat) : List Nat := if [47, 46, 46] <:+ undot s then undot s ++ [47] else undot s

theorem undot_no_zero : ∀ (n : Nat) (s : List Nat), s.length ≤ n → 0 ∉ s → 0 ∉ undot s
  | 0, s, h, h0 => by
    have : s = [] := List.length_eq_zero_iff.1 (by omega)
    subst this
    rw [undot_nil]
    exact h0
  | n + 1, [], _, h0 => by rw [undot_nil]; exact h0
  | n + 1, c :: r, h, h0 => by
    cases hp : [47, 46, 47].isPrefixOf (c :: r) with
    | true =>
      rw [undot_skip hp]
      exact undot_no_zero n _ (by simp at h ⊢; omega) (fun hm => h0 (List.mem_of_mem_drop hm))
    | false =>
      rw [undot_cons hp]
      have hc : 0 ≠ c := fun e => h0 (by simp [e])
      split
      · simp [hc]
      · intro hm
        rcases List.mem_cons.1 hm with e | e
        · exact hc e
        · exact undot_no_zero n r (by simpa using h) (fun hm => h0 (List.mem_cons_of_mem _ hm)) e

theorem fix_no_zero {s : List Nat} (h0 : 0 ∉ s) : 0 ∉ fix s := by
  have := undot_no_zero s.length s (Nat.le_refl _) h0
  unfold fix
  split
  · simpa using this
  · exact this

theorem fix_len (s : List Nat) : (fix s).length ≤ s.length + 1 := by
  have := undot_len s.length s (Nat.le_refl _)
  unfold fix
  split <;> simp <;> omega

theorem dotName_ok (s tl : List Nat) (h0 : 0 ∉ s) (hl : (s ++ 0 :: tl).length = 8192) :
    ∃ ok b, dotName (s ++ 0 :: tl) = .ok (ok, b) ∧ b.length = 8192 ∧ (ok = true → ∃ tl', b = fix s ++ 0 :: tl') ∧
      (s.length ≤ 8190 → ok = true) := by
  unfold dotName
  rw [cstr_ok s tl h0, ok_bind]
  have hs : s.length + 1 ≤ 8192 := by simp at hl; omega
  obtain ⟨b, x2, h1, h2, h3, h4, h5⟩ := dotLoop_ok s.length tl ((s ++ 0 :: tl).length + 1) 0 0 (s ++ 0 :: tl) s rfl h0
    (Nat.le_refl _) (by omega) (by omega)
  rw [List.take_zero, List.nil_append] at h3
  rw [Nat.zero_add] at h4
  rw [h1, ok_bind]
  dsimp only
  rw [h4] at h3 h5 ⊢
  rw [endsDotDot_ok b _ h3, ok_bind]
  unfold fix
  by_cases he : [47, 46, 46] <:+ undot s
  · rw [if_pos (by simpa using he), if_pos he]
    by_cases hx : (undot s).length ≥ 8191
    · rw [if_pos hx]
      exact ⟨false, b, rfl, by omega, (fun h => nomatch h), fun h => by omega⟩
    · rw [if_neg hx, wr_at _ (by omega), ok_bind, wr_at _ (by rw [len_wr _ (by omega)]; omega), ok_bind]
      refine ⟨true, _, rfl, ?_, fun _ => ?_, fun _ => rfl⟩
      · rw [len_wr _ (by rw [len_wr _ (by omega)]; omega), len_wr _ (by omega)]; omega
      · rw [take_wr _ (by omega), h3]
        exact ⟨_, rfl⟩
  · rw [if_neg (by simpa using he), if_neg he, wr_at _ (by omega), ok_bind, h3]
    refine ⟨true, _, rfl, ?_, fun _ => ⟨_, rfl⟩, fun _ => rfl⟩
    have := len_wr 0 (show (undot s).length < b.length by omega)
    rw [h3] at this
    omega

/-! ## Appending the name -/

theorem take_succ_get {b : List Nat} {n : Nat} (h : n < b.length) : b.take (n + 1) = b.take n ++ [b[n]] := by
  rw [List.take_add_one, List.getElem?_eq_getElem h]; rfl

theorem popSlashes_ok (b : List Nat) : ∀ n, n ≤ b.length →
    popSlashes b n = .ok ((b.take n).rdropWhile (· == 47)).length
  | 0, _ => by simp [popSlashes]
  | n + 1, h => by
    rw [popSlashes, rd_ok (by omega), ok_bind, take_succ_get (by omega), List.rdropWhile_concat]
    by_cases hc : b[n] = 47
    · rw [if_pos hc, if_pos (by simpa using hc), popSlashes_ok b n (by omega)]
    · rw [if_neg hc, if_neg (by simpa using hc)]
      simp
      omega

theorem popName_ok (b : List Nat) : ∀ n, n ≤ b.length →
    popName b n = .ok ((b.take n).rdropWhile (· != 47)).length
  | 0, _ => by simp [popName]
  | n + 1, h => by
    rw [popName, rd_ok (by omega), ok_bind, take_succ_get (by omega), List.rdropWhile_concat]
    by_cases hc : b[n] = 47
    · rw [if_neg (by simpa using hc), if_neg (by simpa using hc)]
      simp
      omega
    · rw [if_pos hc, if_pos (by simpa using hc), popName_ok b n (by omega)]

theorem take_prefix {b p : List Nat} {n : Nat} (h : p <+: b.take n) : b.take p.length = p :=
  (List.prefix_iff_eq_take.1 (h.trans (List.take_prefix n b))).symm

theorem pop_ok (b : List Nat) (n : Nat) (h : n ≤ b.length) :
    ∃ m, popSlashes b n = .ok m ∧ m ≤ b.length ∧ popName b m = .ok (pop (b.take n)).length ∧
      b.take (pop (b.take n)).length = pop (b.take n) := by
  have hp : (b.take n).rdropWhile (· == 47) <+: b.take n := List.rdropWhile_prefix _ _
  have hle := hp.length_le
  simp at hle
  refine ⟨_, popSlashes_ok b n h, by omega, ?_, take_prefix (pop_prefix _)⟩
  rw [popName_ok b _ (by omega), take_prefix hp]
  rfl

theorem popLoop_ok (f3 b tl : List Nat) : ∀ (k x n : Nat) (rest : List Nat), f3.drop x = rest ++ 0 :: tl → n ≤ b.length →
    rest.length < k →
    ∃ x' n' rest', popLoop f3 b k x n = .ok (x', n') ∧ f3.drop x' = rest' ++ 0 :: tl ∧ n' ≤ n ∧
      x ≤ x' ∧ x' + rest'.length = x + rest.length ∧
      [47, 46, 46, 47].isPrefixOf rest' = false ∧ proc (b.take n) rest = proc (b.take n') rest' ∧ (rest ≠ [] → rest' ≠ [])
  | 0, x, n, rest, _, _, h => absurd h (by omega)
  | k + 1, x, n, rest, h, hn, hk => by
    rw [popLoop, at_ok f3 _ x rest tl h (by decide), ok_bind, prefix_zero _ _ (by decide)]
    cases hp : [47, 46, 46, 47].isPrefixOf rest with
    | false => exact ⟨x, n, rest, rfl, h, Nat.le_refl _, Nat.le_refl _, rfl, hp, rfl, id⟩
    | true =>
      rw [if_pos rfl]
      have hle := (List.isPrefixOf_iff_prefix.1 hp).length_le
      simp at hle
      obtain ⟨m, g1, g2, g3, g4⟩ := pop_ok b n hn
      rw [g1, ok_bind, g3, ok_bind]
      have hpl := (pop_prefix (b.take n)).length_le
      simp at hpl
      obtain ⟨x', n', rest', h1, h2, h3, h4, h5, h6, h7, h8⟩ := popLoop_ok f3 b tl k (x + 3) (pop (b.take n)).length (rest.drop 3)
        (drop_add 3 h (by omega)) (by omega) (by simp; omega)
      simp only [List.length_drop] at h5
      refine ⟨x', n', rest', h1, h2, by omega, by omega, by omega, h6, by rw [proc_up hp, ← h7, g4], ?_⟩
      intro _
      apply h8
      intro e
      have := congrArg List.length e
      simp at this
      omega

theorem nameLoop_ok (lim : Nat) (f3 tl : List Nat) (y : Nat) : ∀ (k x n : Nat) (b rest : List Nat), f3.drop x = rest ++ 0 :: tl →
    y = x + rest.length → rest.length < k → n ≤ lim → b.length = lim + 1 →
    ∃ q, nameLoop lim f3 y k x n b = .ok q ∧ (q = none → lim < n + rest.length) ∧
      ∀ n' b', q = some (n', b') → b'.length = lim + 1 ∧ n' ≤ lim ∧ b'.take n' = proc (b.take n) rest ∧ b'[lim]? = b[lim]? ∧
        ∀ i, n + rest.length ≤ i → b'[i]? = b[i]?
  | 0, x, n, b, rest, _, _, h, _, _ => absurd h (by omega)
  | k + 1, x, n, b, rest, h, hy, hk, hn, hb => by
    rw [nameLoop]
    by_cases hr : rest = []
    · subst hr
      rw [if_neg (by simp at hy; omega)]
      refine ⟨_, rfl, (fun e => nomatch e), ?_⟩
      intro n' b' e
      cases e
      exact ⟨hb, hn, by rw [proc_nil], rfl, fun _ _ => rfl⟩
    · have hpos : 0 < rest.length := List.length_pos_iff.2 hr
      rw [if_pos (by omega)]
      have hbl : rest.length < f3.length + 1 := by
        have := congrArg List.length h
        simp at this
        omega
      obtain ⟨x', n', rest', h1, h2, h3, h4, h5, h6, h7, h8⟩ := popLoop_ok f3 b tl (f3.length + 1) x n rest h (by omega) hbl
      rw [h1, ok_bind]
      dsimp only
      cases rest' with
      | nil => exact absurd rfl (h8 hr)
      | cons c r =>
        simp only [List.length_cons] at h5
        by_cases hbig : n' ≥ lim
        · rw [if_pos hbig]
          exact ⟨none, rfl, fun _ => by omega, (fun _ _ e => nomatch e)⟩
        · rw [if_neg hbig, rd_drop h2, ok_bind, wr_at _ (by omega), ok_bind]
          obtain ⟨q, g1, g2, g3⟩ := nameLoop_ok lim f3 tl y k (x' + 1) (n' + 1) (b.take n' ++ c :: b.drop (n' + 1)) r
            (drop_tail h2) (by omega) (by omega) (by omega) (by rw [len_wr _ (by omega)]; exact hb)
          refine ⟨q, g1, fun e => by have := g2 e; omega, ?_⟩
          intro n2 b2 e
          obtain ⟨k1, k2, k3, k4, k5⟩ := g3 n2 b2 e
          have old : ∀ i, n' < i → (b.take n' ++ c :: b.drop (n' + 1))[i]? = b[i]? := by
            intro i hi
            have := congrArg (fun l => l[0]?) (drop_wr (y := i) c (show n' < b.length by omega) hi)
            simpa using this
          refine ⟨k1, k2, ?_, ?_, fun i hi => by rw [k5 i (by omega), old i (by omega)]⟩
          · rw [k3, take_wr _ (by omega), h7, proc_cons h6]
          · rw [k4, old lim (by omega)]

/-- The result begins with a slash. -/
theorem proc_head : ∀ (k : Nat) (P s : List Nat), s.length < k → P.head? = some 47 ∨ (P = [] ∧ s.head? = some 47) →
    (proc P s).head? = some 47
  | 0, _, _, h, _ => absurd h (by omega)
  | k + 1, P, s, hk, h => by
    cases hp : [47, 46, 46, 47].isPrefixOf s with
    | true =>
      rw [proc_up hp]
      obtain ⟨t, ht⟩ := List.isPrefixOf_iff_prefix.1 hp
      subst ht
      apply proc_head k _ _ (by simp at hk ⊢; omega)
      have hpre := pop_prefix P
      cases hpop : pop P with
      | nil => exact .inr ⟨rfl, rfl⟩
      | cons a t' =>
        left
        rw [hpop] at hpre
        obtain ⟨u, hu⟩ := hpre
        rcases h with h | ⟨h, _⟩
        · rw [← hu] at h
          exact h
        · rw [h] at hu; cases hu
    | false =>
      cases s with
      | nil =>
        rw [proc_nil]
        rcases h with h | ⟨h1, h2⟩
        · exact h
        · cases h2
      | cons c r =>
        rw [proc_cons hp]
        apply proc_head k _ _ (by simpa using hk)
        left
        rcases h with h | ⟨h1, h2⟩
        · cases P with
          | nil => cases h
          | cons a t => exact h
        · subst h1; exact h2

/-! ## Copying to the result -/

/-- Beyond the string, the loop stops somewhere before the last cell of the buffer. -/
theorem skipSlash_tail (b : List Nat) (hb : b.length = 8192) (hlast : b[8191]? ≠ some 47) : ∀ (k x : Nat), 8192 < x + k →
    b[x]? = some 47 → ∃ x', skipSlash b k x = .ok x' ∧ x ≤ x' ∧ b[x']? = some 47
  | 0, x, h, hx => by
    have := (List.getElem?_eq_some_iff.1 hx).1
    omega
  | k + 1, x, h, hx => by
    have hlt := (List.getElem?_eq_some_iff.1 hx).1
    have hx1 : x + 1 < b.length := by
      apply Classical.byContradiction
      intro hn
      have : x = 8191 := by omega
      subst this
      exact hlast hx
    have hd : b.drop x = [b[x], b[x + 1]] ++ b.drop (x + 2) := by
      rw [List.drop_eq_getElem_cons hlt, List.drop_eq_getElem_cons hx1]; rfl
    rw [skipSlash, at_full b _ _ x _ hd (by simp), ok_bind]
    have hxv : b[x] = 47 := by rw [List.getElem?_eq_getElem hlt] at hx; exact Option.some.inj hx
    by_cases hc : b[x + 1] = 47
    · rw [if_pos (by simp [hc, hxv])]
      obtain ⟨x', h1, h2, h3⟩ := skipSlash_tail b hb hlast k (x + 1) (by omega) (by rw [List.getElem?_eq_getElem hx1, hc])
      exact ⟨x', h1, by omega, h3⟩
    · rw [if_neg (by simp [hc])]
      exact ⟨x, rfl, Nat.le_refl _, hx⟩

theorem skipSlash_ok (b : List Nat) (n : Nat) (hb : b.length = 8192) (hn : n ≤ 8191) (hlast : b[8191]? ≠ some 47) :
    ∀ (k x : Nat), 8192 < x + k → x < n →
    ∃ x' c, skipSlash b k x = .ok x' ∧ x ≤ x' ∧ rd b x' = .ok c ∧
      collapse ((b.take n).drop x) = c :: collapse ((b.take n).drop (x' + 1))
  | 0, x, h, hx => absurd h (by omega)
  | k + 1, x, h, hx => by
    have hlt : x < b.length := by omega
    have hx1 : x + 1 < b.length := by omega
    have hd : b.drop x = [b[x], b[x + 1]] ++ b.drop (x + 2) := by
      rw [List.drop_eq_getElem_cons hlt, List.drop_eq_getElem_cons hx1]; rfl
    have hP : (b.take n).drop x = b[x] :: (b.take n).drop (x + 1) := by
      rw [List.drop_eq_getElem_cons (by simp; omega), List.getElem_take]
    rw [skipSlash, at_full b _ _ x _ hd (by simp), ok_bind]
    by_cases hc : [b[x], b[x + 1]] = [47, 47]
    · rw [if_pos (by simpa using hc)]
      simp only [List.cons.injEq, and_true] at hc
      by_cases hxn : x + 1 < n
      · obtain ⟨x', c, h1, h2, h3, h4⟩ := skipSlash_ok b n hb hn hlast k (x + 1) (by omega) hxn
        refine ⟨x', c, h1, by omega, h3, ?_⟩
        rw [← h4, hP, collapse, if_pos]
        refine ⟨hc.1, ?_⟩
        rw [List.head?_drop, List.getElem?_take, if_pos hxn, List.getElem?_eq_getElem hx1, hc.2]
      · obtain ⟨x', h1, h2, h3⟩ := skipSlash_tail b hb hlast k (x + 1) (by omega) (by rw [List.getElem?_eq_getElem hx1, hc.2])
        refine ⟨x', 47, h1, by omega, by unfold rd; rw [h3], ?_⟩
        rw [hP, List.drop_of_length_le (by simp; omega), List.drop_of_length_le (by simp; omega), hc.1]
        simp [collapse]
    · rw [if_neg (by simpa using hc)]
      refine ⟨x, b[x], rfl, Nat.le_refl _, rd_ok hlt, ?_⟩
      rw [hP, collapse, if_neg]
      rintro ⟨h1, h2⟩
      rw [List.head?_drop] at h2
      have := (List.getElem?_eq_some_iff.1 h2).1
      rw [List.getElem?_take, if_pos (by simp at this; omega), List.getElem?_eq_getElem hx1] at h2
      exact hc (by rw [h1, Option.some.inj h2])

theorem outLoop_ok (b : List Nat) (n size : Nat) (hb : b.length = 8192) (hn : n ≤ 8191) (hlast : b[8191]? ≠ some 47) :
    ∀ (k x x2 : Nat) (r : List Nat), n < x + k → size ≤ r.length → x2 ≤ size → 0 < k →
    ∃ r', outLoop b n size k x x2 r = .ok (x2 + ((collapse ((b.take n).drop x)).take (size - x2)).length, r') ∧ r'.length = r.length ∧
      r'.take (x2 + ((collapse ((b.take n).drop x)).take (size - x2)).length) =
        r.take x2 ++ (collapse ((b.take n).drop x)).take (size - x2)
  | 0, x, x2, r, _, _, _, h => absurd h (by omega)
  | k + 1, x, x2, r, hk, hs, hx2, _ => by
    rw [outLoop]
    by_cases hc : x2 < size ∧ x < n
    · rw [if_pos hc]
      obtain ⟨x', c, h1, h2, h3, h4⟩ := skipSlash_ok b n hb hn hlast (b.length + 1) x (by omega) hc.2
      rw [h1, ok_bind, h3, ok_bind, wr_at _ (by omega), ok_bind, h4]
      obtain ⟨r', g1, g2, g3⟩ := outLoop_ok b n size hb hn hlast k (x' + 1) (x2 + 1) (r.take x2 ++ c :: r.drop (x2 + 1)) (by omega)
        (by rw [len_wr _ (by omega)]; exact hs) (by omega) (by omega)
      have e : (c :: collapse ((b.take n).drop (x' + 1))).take (size - x2) =
          c :: (collapse ((b.take n).drop (x' + 1))).take (size - (x2 + 1)) := by
        rw [show size - x2 = (size - (x2 + 1)) + 1 by omega, List.take_succ_cons]
      rw [e, List.length_cons]
      rw [show x2 + (((collapse ((b.take n).drop (x' + 1))).take (size - (x2 + 1))).length + 1) =
        x2 + 1 + ((collapse ((b.take n).drop (x' + 1))).take (size - (x2 + 1))).length by omega]
      refine ⟨r', g1, by rw [g2, len_wr _ (by omega)], ?_⟩
      rw [g3, take_wr _ (by omega), List.append_assoc]
      rfl
    · rw [if_neg hc]
      have e : (collapse ((b.take n).drop x)).take (size - x2) = [] := by
        by_cases h1 : x2 < size
        · rw [List.drop_of_length_le (by simp; omega)]; simp [collapse]
        · rw [show size - x2 = 0 by omega, List.take_zero]
      rw [e]
      exact ⟨r, rfl, rfl, by simp⟩

/-! ## The end -/

/-- The final string, or nothing if it does not fit. -/
def fin (trailing : Bool) (size : Nat) (W : List Nat) : Option (List Nat) :=
  let W1 := if trailing = true ∧ W ≠ [] ∧ W.getLast? ≠ some 47 ∧ W.length < size then W ++ [47] else W
  let W2 := if trailing = false ∧ W1.getLast? = some 47 then W1.dropLast else W1
  if W2.length ≥ size then none else some W2

theorem lastIs_ok (r W : List Nat) (h : r.take W.length = W) (hl : W.length ≤ r.length) :
    lastIs r W.length = .ok (decide (W.getLast? = some 47)) := by
  unfold lastIs
  by_cases h0 : W.length = 0
  · rw [if_pos h0]
    have : W = [] := List.length_eq_zero_iff.1 h0
    subst this
    rfl
  · rw [if_neg h0]
    have : r[W.length - 1]? = W.getLast? := by
      rw [List.getLast?_eq_getElem?, ← h, List.length_take, Nat.min_eq_left hl, List.getElem?_take, if_pos (by omega)]
    have hlt : W.length - 1 < r.length := by omega
    rw [rd_ok hlt, ok_bind]
    rw [List.getElem?_eq_getElem hlt] at this
    rw [← this]
    simp

theorem saneLoop_ok (r tl : List Nat) : ∀ (rest : List Nat) (x : Nat), r.drop x = rest ++ 0 :: tl →
    saneLoop r rest.length x = .ok (sane rest)
  | [], x, _ => rfl
  | c :: rest, x, h => by
    rw [List.length_cons, saneLoop, at_ok r _ x (c :: rest) tl h (by decide), ok_bind, prefix_zero _ _ (by decide), sane]
    cases [47, 46, 47].isPrefixOf (c :: rest) with
    | true => rfl
    | false =>
      rw [if_neg (by simp), at_ok r _ x (c :: rest) tl h (by decide), ok_bind, prefix_zero _ _ (by decide)]
      cases [47, 46, 46, 47].isPrefixOf (c :: rest) with
      | true => rfl
      | false =>
        rw [if_neg (by simp), saneLoop_ok r tl rest (x + 1) (drop_tail h)]
        rfl

/-- The last steps, when the string so far is `W`. -/
def Ends (trailing : Bool) (size : Nat) (W : List Nat) (ok : Bool) (r : List Nat) : Prop :=
  match fin trailing size W with
  | none => ok = false
  | some X => ok = sane X ∧ Holds r X

theorem absEnd_ok (trailing : Bool) (size : Nat) (r W : List Nat) (h : r.take W.length = W) (hs : size ≤ r.length)
    (hW : W.length ≤ size) :
    ∃ ok r', absEnd trailing size W.length r = .ok (ok, r') ∧ r'.length = r.length ∧ Ends trailing size W ok r' := by
  -- the last part, for the final string
  have last : ∀ (X r1 : List Nat), r1.length = r.length → X.length < size → r1.take X.length = X →
      ∃ ok r', (do
        let r ← wr r1 X.length 0
        let ok ← saneLoop r X.length 0
        .ok (ok, r) : CRes (Bool × List Nat)) = .ok (ok, r') ∧ r'.length = r.length ∧ ok = sane X ∧ Holds r' X := by
    intro X r1 h1 h2 h3
    rw [wr_at _ (by omega), ok_bind, h3, saneLoop_ok _ _ X 0 rfl, ok_bind]
    refine ⟨_, _, rfl, ?_, rfl, ⟨_, rfl⟩⟩
    have := len_wr 0 (show X.length < r1.length by omega)
    rw [h3] at this
    omega
  unfold absEnd Ends fin
  rw [lastIs_ok r W h (by omega), ok_bind]
  cases trailing with
  | true =>
    simp only [Bool.true_and, true_and, Bool.not_true, Bool.false_and, Bool.false_eq_true, if_false, Bool.true_eq_false, false_and]
    by_cases hc : W ≠ [] ∧ W.getLast? ≠ some 47 ∧ W.length < size
    · have hne : W.length ≠ 0 := fun e => hc.1 (List.length_eq_zero_iff.1 e)
      rw [if_pos (by simp only [Bool.and_eq_true]; exact ⟨⟨by simpa using hne, by simpa using hc.2.1⟩, by simpa using hc.2.2⟩),
        wr_at _ (by omega), ok_bind, ok_bind]
      dsimp only
      have ht := take_wr 47 (show W.length < r.length by omega)
      have hl := len_wr 47 (show W.length < r.length by omega)
      rw [h] at ht hl ⊢
      have := lastIs_ok (W ++ 47 :: r.drop (W.length + 1)) (W ++ [47]) (by simpa using ht) (by simp)
      rw [List.length_append] at this
      simp only [List.length_cons, List.length_nil, Nat.zero_add] at this
      rw [this, ok_bind]
      simp only [if_pos hc, List.length_append, List.length_cons, List.length_nil, Nat.zero_add]
      by_cases hbig : W.length + 1 ≥ size
      · rw [if_pos hbig, if_pos hbig]
        exact ⟨false, _, rfl, hl, rfl⟩
      · rw [if_neg hbig, if_neg hbig]
        have := last (W ++ [47]) (W ++ 47 :: r.drop (W.length + 1)) hl (by simp; omega) (by simpa using ht)
        rw [List.length_append] at this
        exact this
    · rw [if_neg]
      · rw [ok_bind]
        dsimp only
        rw [lastIs_ok r W h (by omega), ok_bind]
        simp only [if_neg hc]
        by_cases hbig : W.length ≥ size
        · rw [if_pos hbig, if_pos hbig]
          exact ⟨false, _, rfl, rfl, rfl⟩
        · rw [if_neg hbig, if_neg hbig]
          exact last W r rfl (by omega) h
      · intro e
        simp only [Bool.and_eq_true] at e
        obtain ⟨⟨e1, e2⟩, e3⟩ := e
        apply hc
        refine ⟨?_, by simpa using e2, by simpa using e3⟩
        intro e; subst e; simp at e1
  | false =>
    simp only [Bool.false_and, Bool.false_eq_true, if_false, false_and, Bool.not_false, Bool.true_and, true_and]
    rw [ok_bind]
    dsimp only
    rw [lastIs_ok r W h (by omega), ok_bind]
    by_cases hc : W.getLast? = some 47
    · obtain ⟨l, rfl⟩ := List.getLast?_eq_some_iff.1 hc
      simp only [hc, decide_true, if_true, List.length_append, List.length_cons, List.length_nil, Nat.zero_add,
        Nat.add_sub_cancel, List.dropLast_concat] at hW ⊢
      rw [if_neg (by omega), if_neg (by omega)]
      refine last l r rfl (by omega) (take_prefix (n := (l ++ [47]).length) ?_)
      rw [h]
      exact List.prefix_append _ _
    · simp only [hc, decide_false, Bool.false_eq_true, if_false]
      by_cases hbig : W.length ≥ size
      · rw [if_pos hbig, if_pos hbig]
        exact ⟨false, _, rfl, rfl, rfl⟩
      · rw [if_neg hbig, if_neg hbig]
        exact last W r rfl (by omega) h

end Verif.Path
