import Verif.File.Lemmas

namespace Verif.File
open Spec

theorem rd_at {β : Type} {b : List β} {i : Nat} {v : β} (h : b[i]? = some v) : rd b i = .ok v := by
  obtain ⟨h1, h2⟩ := List.getElem?_eq_some_iff.mp h
  rw [rd_ok h1, h2]

/-- `r` is the first index below `n` holding `c`. -/
def First (b : List Cell) (c : UInt8) (n : Nat) : Option Nat → Prop
  | none => ∀ j, j < n → b[j]? ≠ some (some c)
  | some p => p < n ∧ b[p]? = some (some c) ∧ ∀ j, j < p → b[j]? ≠ some (some c)

theorem memchr_ok (b : List Cell) (c : UInt8) : ∀ (k i : Nat), (∀ j, j < i + k → ∃ v, b[j]? = some (some v)) →
    (∀ j, j < i → b[j]? ≠ some (some c)) → ∃ r, memchr b c k i = .ok r ∧ First b c (i + k) r
  | 0, i, _, hp => ⟨none, rfl, hp⟩
  | k + 1, i, hb, hp => by
    obtain ⟨v, hv⟩ := hb i (by omega)
    unfold memchr
    rw [rd_at hv, ok_bind]
    dsimp only
    by_cases hvc : v = c
    · rw [if_pos hvc]
      subst hvc
      exact ⟨some i, rfl, by omega, hv, hp⟩
    · rw [if_neg hvc]
      obtain ⟨r, h1, h2⟩ := memchr_ok b c k (i + 1) (fun j hj => hb j (by omega)) (by
        intro j hj
        rcases Nat.lt_or_ge j i with h | h
        · exact hp j h
        · have : j = i := by omega
          subst this
          rw [hv]
          intro h
          cases h
          exact hvc rfl)
      refine ⟨r, h1, ?_⟩
      rw [show i + (k + 1) = i + 1 + k by omega]
      exact h2

theorem noNul_ok : ∀ (k i : Nat) (b : List Cell), (∀ j, i ≤ j → j < i + k → ∃ v, b[j]? = some (some v)) →
    ∃ b', noNul k i b = .ok b' ∧ b'.length = b.length ∧
      ∀ j : Nat, b'[j]? = if i ≤ j ∧ j < i + k then b[j]?.map (Option.map blank) else b[j]?
  | 0, i, b, _ => ⟨b, rfl, rfl, fun j => by rw [if_neg (by omega)]⟩
  | k + 1, i, b, hb => by
    obtain ⟨v, hv⟩ := hb i (by omega) (by omega)
    have hlt : i < b.length := (List.getElem?_eq_some_iff.mp hv).1
    unfold noNul
    rw [rd_at hv, ok_bind]
    dsimp only
    have key : ∀ b1 : List Cell, b1.length = b.length → b1[i]? = some (some (blank v)) →
        (∀ j, j ≠ i → b1[j]? = b[j]?) →
        ∃ b', noNul k (i + 1) b1 = .ok b' ∧ b'.length = b.length ∧
        ∀ j : Nat, b'[j]? = if i ≤ j ∧ j < i + (k + 1) then b[j]?.map (Option.map blank) else b[j]? := by
      intro b1 hl h1 h2
      obtain ⟨b', e, hl', hj⟩ := noNul_ok k (i + 1) b1 (by
        intro j h3 h4
        rw [h2 j (by omega)]
        exact hb j (by omega) (by omega))
      refine ⟨b', e, by omega, ?_⟩
      intro j
      rw [hj j]
      by_cases hji : j = i
      · subst hji
        rw [if_neg (by omega), if_pos (by omega), h1, hv]
        rfl
      · rw [h2 j hji]
        by_cases hc : i + 1 ≤ j ∧ j < i + 1 + k
        · rw [if_pos hc, if_pos (by omega)]
        · rw [if_neg hc, if_neg (by omega)]
    by_cases h0 : v = 0
    · rw [if_pos h0, wr_ok _ hlt, ok_bind]
      apply key
      · simp
      · rw [List.getElem?_set_self hlt, h0]; rfl
      · intro j hj
        rw [List.getElem?_set_ne (Ne.symm hj)]
    · rw [if_neg h0, ok_bind]
      apply key b rfl _ (fun _ _ => rfl)
      rw [hv]
      simp [blank, h0]

/-- The first `n` bytes hold a terminator that is known to be complete. -/
def StopAt (R : List UInt8) (n : Nat) : Prop :=
  (∃ j, j < n ∧ R[j]? = some 10) ∨ (∃ j, j + 1 < n ∧ R[j]? = some 13)

/-- The first `n` cells are the bytes of `R`. -/
def Holds (b : List Cell) (R : List UInt8) (n : Nat) : Prop := ∀ j, j < n → b[j]? = R[j]?.map some

theorem stop_ok (b : List Cell) (R : List UInt8) (n : Nat) (h : Holds b R n) (hn : n ≤ R.length) :
    ∃ s, stop b n = .ok s ∧ (s = true ↔ StopAt R n) := by
  have hb : ∀ j, j < 0 + n → ∃ v, b[j]? = some (some v) := by
    intro j hj
    rw [h j (by omega), List.getElem?_eq_getElem (by omega)]
    exact ⟨_, rfl⟩
  have hiff : ∀ j c, j < n → (b[j]? = some (some c) ↔ R[j]? = some c) := by
    intro j c hj
    rw [h j hj]
    simp
  obtain ⟨r1, e1, f1⟩ := memchr_ok b 10 n 0 hb (by omega)
  obtain ⟨r2, e2, f2⟩ := memchr_ok b 13 n 0 hb (by omega)
  rw [Nat.zero_add] at f1 f2
  unfold stop
  rw [e1, ok_bind]
  cases r1 with
  | some p =>
    obtain ⟨h1, h2, _⟩ := f1
    exact ⟨true, rfl, by simp only [true_iff]; exact .inl ⟨p, h1, (hiff p 10 h1).mp h2⟩⟩
  | none =>
    dsimp only
    rw [e2, ok_bind]
    have hno : ∀ j, j < n → R[j]? ≠ some 10 := fun j hj he => f1 j hj ((hiff j 10 hj).mpr he)
    cases r2 with
    | none =>
      refine ⟨false, rfl, ?_⟩
      simp only [Bool.false_eq_true, false_iff]
      rintro (⟨j, h1, h2⟩ | ⟨j, h1, h2⟩)
      · exact hno j h1 h2
      · exact f2 j (by omega) ((hiff j 13 (by omega)).mpr h2)
    | some p =>
      obtain ⟨h1, h2, h3⟩ := f2
      refine ⟨decide (p < n - 1), rfl, ?_⟩
      rw [decide_eq_true_iff]
      constructor
      · intro h4
        exact .inr ⟨p, by omega, (hiff p 13 h1).mp h2⟩
      · rintro (⟨j, h4, h5⟩ | ⟨j, h4, h5⟩)
        · exact absurd h5 (hno j h4)
        · rcases Nat.lt_or_ge j p with h6 | h6
          · exact absurd ((hiff j 13 (by omega)).mpr h5) (h3 j h6)
          · omega

theorem memcpyTo_ok {β : Type} (dst src : List β) (pos n : Nat) (h1 : n ≤ src.length)
    (h2 : pos + n ≤ dst.length) :
    memcpyTo dst pos src n = .ok (dst.take pos ++ src.take n ++ dst.drop (pos + n)) := by
  unfold memcpyTo
  rw [if_pos h1, if_pos h2]

theorem lineLoop_ok {a : A UInt8} (R : List UInt8) (hR : R = a.bytes.drop a.cur) (hint : Nat) (hh : 0 < hint) :
    ∀ (fuel m : Nat) (f : F UInt8) (blk : Option (List Cell)), Ok f { a with cur := a.cur + m } → f.rd = true →
    m ≤ R.length → R.length - m < fuel → ¬ StopAt R m →
    ((blk = none ∧ m = 0) ∨ ∃ b0, blk = some b0 ∧ b0.length = m + 1 ∧ Holds b0 R m) →
    ∃ b n f', lineLoop true hint fuel [] f blk (m + hint) = .ok (b, n, f') ∧ n < b.length ∧ Holds b R n ∧
      n ≤ R.length ∧ Ok f' { a with cur := a.cur + n } ∧ f'.rd = true ∧ f'.wr = f.wr ∧ (n = R.length ∨ StopAt R n)
  | 0, m, f, blk, _, _, _, hf, _, _ => by omega
  | fuel + 1, m, f, blk, hok, hrd, hm, hf, hns, hblk => by
    have hRl : R.length = a.bytes.length - a.cur := by rw [hR]; simp
    obtain ⟨b1, e1, hl1, hh1⟩ : ∃ b1, grow true blk (m + hint) hint = .ok b1 ∧ b1.length = m + hint + 1 ∧ Holds b1 R m := by
      rcases hblk with ⟨h1, h2⟩ | ⟨b0, h1, h2, h3⟩
      · subst h1; subst h2
        exact ⟨_, rfl, by simp, by intro j hj; omega⟩
      · subst h1
        refine ⟨_, rfl, by simp [h2]; omega, ?_⟩
        intro j hj
        rw [List.getElem?_append_left (by omega)]
        exact h3 j hj
    clear hblk
    obtain ⟨h1, h2, h3, h4⟩ := read_full hok hrd hint
    have hle := hok.le
    dsimp only at h1 h2 hle
    have hbs : (a.bytes.drop (a.cur + m)).take hint = (R.drop m).take hint := by rw [hR, List.drop_drop]
    rw [hbs] at h1
    have hbl : ((R.drop m).take hint).length = min hint (R.length - m) := by simp
    unfold lineLoop
    rw [e1, ok_bind]
    rw [show read f hint (([] : List (List Sys)).headD []) = read f hint [] from rfl]
    dsimp only
    rw [h1]
    simp only [ReadRes.bytes, hbl, Nat.add_sub_cancel, List.tail_nil]
    rw [memcpyTo_ok _ _ _ _ (by simp) (by omega), ok_bind]
    generalize hb2 : b1.take m ++ (((R.drop m).take hint).map some).take (min hint (R.length - m)) ++
      b1.drop (m + min hint (R.length - m)) = b2
    have hl2 : b2.length = m + hint + 1 := by rw [← hb2]; simp; omega
    have hh2 : Holds b2 R (m + min hint (R.length - m)) := by
      intro j hj
      rw [← hb2]
      rcases Nat.lt_or_ge j m with h | h
      · rw [List.append_assoc, List.getElem?_append_left (by simp; omega), List.getElem?_take, if_pos h]
        exact hh1 j h
      · rw [List.getElem?_append_left (by simp; omega), List.getElem?_append_right (by simp; omega)]
        rw [List.getElem?_take, if_pos (by simp; omega), List.getElem?_map, List.getElem?_take,
          if_pos (by simp; omega), List.getElem?_drop]
        congr 2
        simp; omega
    have hok2 : Ok (read f hint []).2 { a with cur := a.cur + (m + min hint (R.length - m)) } := by
      have e : a.cur + m + min hint (a.bytes.length - (a.cur + m)) = a.cur + (m + min hint (R.length - m)) := by omega
      rw [e] at h2
      exact h2
    by_cases hlt : min hint (R.length - m) < hint
    · rw [if_pos hlt]
      refine ⟨b2, _, _, rfl, by omega, ?_, by omega, ?_, by rw [h3, hrd], h4, .inl (by omega)⟩
      · rw [show m + hint - (hint - min hint (R.length - m)) = m + min hint (R.length - m) by omega]
        exact hh2
      · rw [show m + hint - (hint - min hint (R.length - m)) = m + min hint (R.length - m) by omega]
        exact hok2
    · rw [if_neg hlt]
      have hmin : min hint (R.length - m) = hint := by omega
      rw [hmin] at hh2 hok2
      obtain ⟨s, e3, hs⟩ := stop_ok b2 R (m + hint) hh2 (by omega)
      rw [e3, ok_bind]
      cases s with
      | true =>
        exact ⟨b2, _, _, rfl, by omega, hh2, by omega, hok2, by rw [h3, hrd], h4, .inr (hs.mp rfl)⟩
      | false =>
        simp only [Bool.false_eq_true, if_false]
        obtain ⟨b, n, f', g1, g2, g3, g4, g5, g6, g7, g8⟩ := lineLoop_ok R hR hint hh fuel (m + hint) _ (some b2) hok2 (by rw [h3, hrd])
          (by omega) (by omega) (fun h => by simpa using hs.mpr h) (.inr ⟨b2, rfl, hl2, hh2⟩)
        exact ⟨b, n, f', g1, g2, g3, g4, g5, g6, by rw [g7, h4], g8⟩

theorem splitLine_spec : ∀ R : List UInt8, ∃ term, R = (splitLine R).1 ++ term ++ (splitLine R).2 ∧
    (∀ c ∈ (splitLine R).1, c ≠ 10 ∧ c ≠ 13) ∧
    ((term = [] ∧ (splitLine R).2 = []) ∨ term = [10] ∨ term = [13, 10] ∨
      (term = [13] ∧ (splitLine R).2.head? ≠ some 10)) := by
  intro R
  fun_induction splitLine R with
  | case1 => exact ⟨[], by simp⟩
  | case2 r => exact ⟨[10], by simp⟩
  | case3 => exact ⟨[13], by simp⟩
  | case4 r => exact ⟨[13, 10], by simp⟩
  | case5 r h1 h2 =>
    refine ⟨[13], by simp, by simp, .inr (.inr (.inr ⟨rfl, ?_⟩))⟩
    cases r with
    | nil => simp
    | cons x r =>
      intro h
      simp at h
      exact h2 r (by rw [h])
  | case6 c r h1 h2 h3 h4 ih =>
    obtain ⟨term, e, h5, h6⟩ := ih
    refine ⟨term, by simp only [List.cons_append]; rw [← e], ?_, h6⟩
    intro x hx
    rcases List.mem_cons.mp hx with h7 | h7
    · subst h7
      exact ⟨h1, h4⟩
    · exact h5 x h7

theorem first_some {b : List Cell} {R : List UInt8} {c : UInt8} {n : Nat} {r : Option Nat} (h : First b c n r)
    (hb : ∀ j, j < n → (b[j]? = some (some c) ↔ R[j]? = some c)) (q : Nat) (hq : q < n) (hR : R[q]? = some c)
    (hn : ∀ j, j < q → R[j]? ≠ some c) : r = some q := by
  cases r with
  | none => exact absurd ((hb q hq).mpr hR) (h q hq)
  | some p =>
    obtain ⟨h1, h2, h3⟩ := h
    rcases Nat.lt_trichotomy p q with h4 | h4 | h4
    · exact absurd ((hb p h1).mp h2) (hn p h4)
    · rw [h4]
    · exact absurd ((hb q hq).mpr hR) (h3 q h4)

theorem first_none {b : List Cell} {R : List UInt8} {c : UInt8} {n : Nat} {r : Option Nat} (h : First b c n r)
    (hb : ∀ j, j < n → (b[j]? = some (some c) ↔ R[j]? = some c)) (hn : ∀ j, j < n → R[j]? ≠ some c) : r = none := by
  cases r with
  | none => rfl
  | some p =>
    obtain ⟨h1, h2, h3⟩ := h
    exact absurd ((hb p h1).mp h2) (hn p h1)

theorem first_from {b : List Cell} {R : List UInt8} {c : UInt8} {n : Nat} {r : Option Nat} (h : First b c n r)
    (hb : ∀ j, j < n → (b[j]? = some (some c) ↔ R[j]? = some c)) (k : Nat) (hn : ∀ j, j < k → R[j]? ≠ some c) :
    r = none ∨ ∃ q, r = some q ∧ k ≤ q := by
  cases r with
  | none => exact .inl rfl
  | some p =>
    right
    obtain ⟨h1, h2, h3⟩ := h
    refine ⟨p, rfl, ?_⟩
    rcases Nat.lt_or_ge p k with h4 | h4
    · exact absurd ((hb p h1).mp h2) (hn p h4)
    · exact h4

theorem back_ok {a : A UInt8} {f : F UInt8} {n : Nat} (h : Ok f { a with cur := a.cur + n }) (k : Nat) (hk : k ≤ n) :
    Ok (seek f .backward k).2 { a with cur := a.cur + (n - k) } ∧ (seek f .backward k).2.rd = f.rd ∧
      (seek f .backward k).2.wr = f.wr := by
  have hle := h.le
  dsimp only at hle
  refine ⟨?_, ?_, ?_⟩
  · have := (seek_ok h .backward k (by simp)).2
    dsimp only [clamp, target] at this
    rw [show min a.bytes.length (((a.cur + n : Nat) : Int) - k).toNat = a.cur + (n - k) by omega] at this
    exact this
  · unfold seek; repeat' split
    all_goals rfl
  · unfold seek; repeat' split
    all_goals rfl

theorem lineInput_ok {f : F UInt8} {a : A UInt8} (h : Ok f a) (hr : f.rd = true) (hint : Nat) (hh : 0 < hint)
    (fuel : Nat) (hf : a.bytes.length - a.cur < fuel) :
    ∃ b f', lineInput f hint true [] fuel = .ok (some b, f') ∧
      b.take ((splitLine (a.bytes.drop a.cur)).1.length + 1) =
        (splitLine (a.bytes.drop a.cur)).1.map (fun c => some (blank c)) ++ [some 0] ∧
      Ok f' { a with cur := a.bytes.length - (splitLine (a.bytes.drop a.cur)).2.length } ∧
      f'.rd = true ∧ f'.wr = f.wr := by
  generalize hR : a.bytes.drop a.cur = R
  have hRl : R.length = a.bytes.length - a.cur := by rw [← hR]; simp
  have hcl := h.le
  obtain ⟨b, n, f1, e1, hnb, hh1, hn, hok1, hrd1, hwr1, hend⟩ := lineLoop_ok R hR.symm hint hh fuel 0 f none h hr
    (by omega) (by omega) (by rintro (⟨j, h1, _⟩ | ⟨j, h1, _⟩) <;> omega) (.inl ⟨rfl, rfl⟩)
  rw [Nat.zero_add] at e1
  unfold lineInput
  rw [h.op, hr]
  simp only [Bool.not_true, Bool.or_false, Bool.false_eq_true, if_false]
  rw [e1, ok_bind]
  dsimp only
  obtain ⟨b', e2, hl', hg⟩ := noNul_ok n 0 b (by
    intro j _ hj
    rw [hh1 j (by omega), List.getElem?_eq_getElem (by omega)]
    exact ⟨_, rfl⟩)
  rw [e2, ok_bind]
  have hb' : ∀ j, j < n → b'[j]? = R[j]?.map (fun c => some (blank c)) := by
    intro j hj
    rw [hg j, if_pos (by omega), hh1 j hj, Option.map_map]
    rfl
  have hex : ∀ j, j < 0 + n → ∃ v, b'[j]? = some (some v) := by
    intro j hj
    rw [hb' j (by omega), List.getElem?_eq_getElem (by omega)]
    exact ⟨_, rfl⟩
  have hbl : ∀ c d : UInt8, d = 10 ∨ d = 13 → (blank c = d ↔ c = d) := by
    intro c d hd
    unfold blank
    split
    · next h0 => subst h0; rcases hd with rfl | rfl <;> decide
    · exact Iff.rfl
  have hiff : ∀ d, d = 10 ∨ d = 13 → ∀ j, j < n → (b'[j]? = some (some d) ↔ R[j]? = some d) := by
    intro d hd j hj
    rw [hb' j hj, List.getElem?_eq_getElem (by omega)]
    simp only [Option.map_some, Option.some.injEq]
    exact hbl _ d hd
  obtain ⟨r1, e3, f1'⟩ := memchr_ok b' 10 n 0 hex (by omega)
  obtain ⟨r2, e4, f2'⟩ := memchr_ok b' 13 n 0 hex (by omega)
  rw [Nat.zero_add] at f1' f2'
  rw [e3, ok_bind, e4, ok_bind]
  obtain ⟨term, hsp, hline, hterm⟩ := splitLine_spec R
  generalize (splitLine R).1 = line at hsp hline ⊢
  generalize (splitLine R).2 = rest at hsp hterm ⊢
  have hlinej : ∀ j, j < line.length → R[j]? ≠ some 10 ∧ R[j]? ≠ some 13 := by
    intro j hj
    rw [hsp, List.append_assoc, List.getElem?_append_left hj, List.getElem?_eq_getElem hj]
    have := hline line[j] (List.getElem_mem hj)
    simp only [ne_eq, Option.some.injEq]
    exact this
  have hlen : R.length = line.length + term.length + rest.length := by rw [hsp]; simp; omega
  have hat : ∀ i, R[line.length + i]? = (term ++ rest)[i]? := by
    intro i
    rw [hsp, List.append_assoc, List.getElem?_append_right (by omega)]
    congr 1
    omega
  -- the block gets its NUL behind the line
  have fin : ∀ p, p = line.length → p < b'.length → p ≤ n →
      (b'.set p (some 0)).take (line.length + 1) = line.map (fun c => some (blank c)) ++ [some 0] := by
    intro p hp hpl hpn
    subst hp
    apply List.ext_getElem?
    intro j
    rw [List.getElem?_take]
    rcases Nat.lt_trichotomy j line.length with h1 | h1 | h1
    · rw [if_pos (by omega), List.getElem?_set_ne (by omega), hb' j (by omega),
        List.getElem?_append_left (by simpa using h1), List.getElem?_map, hsp, List.append_assoc,
        List.getElem?_append_left h1]
    · rw [if_pos (by omega), h1, List.getElem?_set_self hpl, List.getElem?_append_right (by simp)]
      simp
    · rw [if_neg (by omega), List.getElem?_eq_none (by simp; omega)]
  have hnostop : n ≤ line.length → n = R.length := by
    intro hle
    rcases hend with h1 | ⟨j, h1, h2⟩ | ⟨j, h1, h2⟩
    · exact h1
    · exact absurd h2 (hlinej j (by omega)).1
    · exact absurd h2 (hlinej j (by omega)).2
  rcases hterm with ⟨ht, hrest⟩ | ht | ht | ⟨ht, hrest⟩
  · -- no terminator
    subst ht; subst hrest
    simp at hlen
    have hnR : n = R.length := hnostop (by omega)
    have g1 := first_none f1' (hiff 10 (.inl rfl)) (fun j hj => (hlinej j (by omega)).1)
    have g2 := first_none f2' (hiff 13 (.inr rfl)) (fun j hj => (hlinej j (by omega)).2)
    subst g1; subst g2
    simp only [choose, finish]
    rw [wr_ok _ (by omega), ok_bind, ok_bind]
    refine ⟨_, f1, rfl, fin n (by omega) (by omega) (by omega), ?_, hrd1, hwr1⟩
    rw [show a.bytes.length - ([] : List UInt8).length = a.cur + n by simp; omega]
    exact hok1
  · subst ht
    simp at hlen
    have h10 : R[line.length]? = some 10 := by have := hat 0; simpa using this
    have hpn : line.length < n := by
      rcases Nat.lt_or_ge line.length n with h1 | h1
      · exact h1
      · have := hnostop h1; omega
    have g1 := first_some f1' (hiff 10 (.inl rfl)) line.length hpn h10 (fun j hj => (hlinej j hj).1)
    have g2 := first_from f2' (hiff 13 (.inr rfl)) (line.length + 1) (by
      intro j hj
      rcases Nat.lt_or_ge j line.length with h1 | h1
      · exact (hlinej j h1).2
      · have : j = line.length := by omega
        rw [this, h10]; decide)
    subst g1
    have hch : choose (some line.length) r2 = (some line.length, none) := by
      rcases g2 with g2 | ⟨q, g2, g3⟩ <;> subst g2
      · rfl
      · simp only [choose]
        rw [if_pos (by omega)]
    rw [hch]
    simp only [finish]
    obtain ⟨k1, k2, k3⟩ := back_ok hok1 (n - line.length - 1) (by omega)
    rw [wr_ok _ (by omega), ok_bind, ok_bind]
    refine ⟨_, _, rfl, fin _ rfl (by omega) (by omega), ?_, by rw [k2, hrd1], by rw [k3, hwr1]⟩
    rw [show a.bytes.length - rest.length = a.cur + (n - (n - line.length - 1)) by omega]
    exact k1
  · subst ht
    simp at hlen
    have h13 : R[line.length]? = some 13 := by have := hat 0; simpa using this
    have h10 : R[line.length + 1]? = some 10 := by have := hat 1; simpa using this
    have hpn : line.length + 1 < n := by
      rcases Nat.lt_or_ge (line.length + 1) n with h1 | h1
      · exact h1
      · rcases hend with h2 | ⟨j, h2, h3⟩ | ⟨j, h2, h3⟩
        · omega
        · rcases Nat.lt_or_ge j line.length with h4 | h4
          · exact absurd h3 (hlinej j h4).1
          · have : j = line.length := by omega
            rw [this, h13] at h3
            exact absurd h3 (by decide)
        · exact absurd h3 (hlinej j (by omega)).2
    have g1 := first_some f1' (hiff 10 (.inl rfl)) (line.length + 1) hpn h10 (by
      intro j hj
      rcases Nat.lt_or_ge j line.length with h1 | h1
      · exact (hlinej j h1).1
      · have : j = line.length := by omega
        rw [this, h13]; decide)
    have g2 := first_some f2' (hiff 13 (.inr rfl)) line.length (by omega) h13 (fun j hj => (hlinej j hj).2)
    subst g1; subst g2
    have hch : choose (some (line.length + 1)) (some line.length) = (some (line.length + 1), some line.length) := by
      simp only [choose]
      rw [if_neg (by omega), if_neg (by omega)]
    rw [hch]
    simp only [finish]
    obtain ⟨k1, k2, k3⟩ := back_ok hok1 (n - (line.length + 1) - 1) (by omega)
    rw [wr_ok _ (by omega), ok_bind, ok_bind]
    refine ⟨_, _, rfl, fin _ rfl (by omega) (by omega), ?_, by rw [k2, hrd1], by rw [k3, hwr1]⟩
    rw [show a.bytes.length - rest.length = a.cur + (n - (n - (line.length + 1) - 1)) by omega]
    exact k1
  · subst ht
    simp at hlen
    have h13 : R[line.length]? = some 13 := by have := hat 0; simpa using this
    have hn10 : R[line.length + 1]? ≠ some 10 := by
      have := hat 1
      simp only [List.cons_append, List.nil_append, List.getElem?_cons_succ] at this
      rw [this, ← List.head?_eq_getElem?]
      exact hrest
    have hpn : line.length < n := by
      rcases Nat.lt_or_ge line.length n with h1 | h1
      · exact h1
      · have := hnostop h1; omega
    have g2 := first_some f2' (hiff 13 (.inr rfl)) line.length hpn h13 (fun j hj => (hlinej j hj).2)
    have g1 := first_from f1' (hiff 10 (.inl rfl)) (line.length + 2) (by
      intro j hj
      rcases Nat.lt_or_ge j line.length with h1 | h1
      · exact (hlinej j h1).1
      · by_cases h2 : j = line.length
        · rw [h2, h13]; decide
        · have : j = line.length + 1 := by omega
          rw [this]; exact hn10)
    subst g2
    have hch : choose r1 (some line.length) = (none, some line.length) := by
      rcases g1 with g1 | ⟨q, g1, g3⟩ <;> subst g1
      · rfl
      · simp only [choose]
        rw [if_neg (by omega), if_pos (by omega)]
    rw [hch]
    simp only [finish]
    obtain ⟨k1, k2, k3⟩ := back_ok hok1 (n - line.length - 1) (by omega)
    rw [wr_ok _ (by omega), ok_bind, ok_bind]
    refine ⟨_, _, rfl, fin _ rfl (by omega) (by omega), ?_, by rw [k2, hrd1], by rw [k3, hwr1]⟩
    rw [show a.bytes.length - rest.length = a.cur + (n - (n - line.length - 1)) by omega]
    exact k1

/-- The default allocator either over-reads or makes no difference. -/
theorem grow_alt {blk : Option (List Cell)} {m hint : Nat} (hh : 0 < hint)
    (hblk : ∀ b, blk = some b → b.length = m + 1) {b : List Cell}
    (h : grow false blk (m + hint) hint = .ok b) :
    grow true blk (m + hint) hint = .ok b ∧ b.length = m + hint + 1 := by
  cases blk with
  | none =>
    refine ⟨h, ?_⟩
    cases h
    simp
  | some b0 =>
    have hl := hblk b0 rfl
    simp only [grow, Bool.false_eq_true, if_false, if_true] at h ⊢
    unfold memcpyTo at h
    split at h
    · next h1 =>
      split at h
      · cases h
        have : hint = 1 := by omega
        subst this
        have hd : List.drop (0 + (m + 1)) (List.replicate (m + 1 + 1) (none : Cell)) = [none] := by
          rw [Nat.zero_add, List.drop_replicate, Nat.add_sub_cancel_left]; rfl
        rw [hd, List.take_zero, List.nil_append, List.take_of_length_le (by omega)]
        exact ⟨rfl, by simp [hl]⟩
      · cases h
    · cases h

theorem memcpyTo_length {β : Type} {dst src r : List β} {pos n : Nat} (h : memcpyTo dst pos src n = .ok r) :
    r.length = dst.length := by
  unfold memcpyTo at h
  split at h
  · split at h
    · cases h; simp; omega
    · cases h
  · cases h

theorem bind_ok {β γ : Type} {x : CRes β} {g : β → CRes γ} {y : γ} (h : (x >>= g) = .ok y) :
    ∃ v, x = .ok v ∧ g v = .ok y := by
  cases x with
  | error u => cases h
  | ok v => exact ⟨v, rfl, h⟩

theorem lineLoop_alt (hint : Nat) (hh : 0 < hint) : ∀ (fuel : Nat) (os : List (List Sys)) (f : F UInt8)
    (blk : Option (List Cell)) (m : Nat) (x : List Cell × Nat × F UInt8),
    (∀ b, blk = some b → b.length = m + 1) → lineLoop false hint fuel os f blk (m + hint) = .ok x →
    lineLoop true hint fuel os f blk (m + hint) = .ok x
  | 0, _, _, _, _, _, _, h => by cases h
  | fuel + 1, os, f, blk, m, x, hblk, h => by
    unfold lineLoop at h ⊢
    obtain ⟨b, h1, h⟩ := bind_ok h
    obtain ⟨h1, hl⟩ := grow_alt hh hblk h1
    rw [h1, ok_bind]
    dsimp only at h ⊢
    obtain ⟨b2, h2, h⟩ := bind_ok h
    have hl2 := memcpyTo_length h2
    rw [h2, ok_bind]
    split
    · next hc => rw [if_pos hc] at h; exact h
    · next hc =>
      rw [if_neg hc] at h
      obtain ⟨s, h3, h⟩ := bind_ok h
      rw [h3, ok_bind]
      cases s with
      | true => exact h
      | false =>
        simp only [Bool.false_eq_true, if_false] at h ⊢
        exact lineLoop_alt hint hh fuel os.tail _ _ (m + hint) x (by
          intro b' hb'
          cases hb'
          omega) h

theorem lineInput_alt {f : F UInt8} {hint : Nat} (hh : 0 < hint) {os : List (List Sys)} {fuel : Nat}
    {x : Option (List Cell) × F UInt8} (h : lineInput f hint false os fuel = .ok x) :
    lineInput f hint true os fuel = .ok x := by
  unfold lineInput at h ⊢
  split
  · next hc => rw [if_pos hc] at h; exact h
  · next hc =>
    rw [if_neg hc] at h
    obtain ⟨y, h1, h⟩ := bind_ok h
    have := lineLoop_alt hint hh fuel os f none 0 y (by intro b hb; cases hb) (by rw [Nat.zero_add]; exact h1)
    rw [Nat.zero_add] at this
    rw [this, ok_bind]
    exact h

end Verif.File
