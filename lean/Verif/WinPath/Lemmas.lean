import Verif.WinPath.Model
import Verif.WinPath.Spec
import Verif.Path.NameLemmas

/-!
# Lemmas on the Windows path functions
-/

namespace Verif.WinPath
open Spec Verif.Utf8 Verif.Utf8.Spec
open Verif.Path (cstr at_ cstr_ok)

theorem lower_fold : lower = fold := rfl

theorem fold_zero {c : Nat} : fold c = 0 ↔ c = 0 := by
  unfold fold; split <;> omega

theorem rd_in (s rest : List Nat) {i : Nat} (h : i < s.length) : rd (s ++ rest) i = .ok s[i] := by
  unfold rd
  rw [List.getElem?_append_left h, List.getElem?_eq_getElem h]

theorem rd_end (s rest : List Nat) : rd (s ++ 0 :: rest) s.length = .ok 0 := by
  unfold rd
  simp

theorem at_ok (s rest : List Nat) : ∀ (p : List Nat) (i : Nat), 0 ∉ p → i ≤ s.length →
    at_ (s ++ 0 :: rest) i p = .ok (decide (p <+: s.drop i))
  | [], i, _, _ => by simp [at_]
  | c :: p, i, h0, hi => by
    rw [at_]
    by_cases hl : i < s.length
    · rw [rd_in s _ hl, ok_bind, List.drop_eq_getElem_cons hl]
      by_cases hc : s[i] = c
      · rw [if_pos hc, at_ok s rest p (i + 1) (fun e => h0 (by simp [e])) hl]
        simp [List.cons_prefix_cons, hc]
      · rw [if_neg hc]
        exact congrArg _ (decide_eq_false (fun h => hc (List.cons_prefix_cons.1 h).1.symm)).symm
    · have : i = s.length := by omega
      subst this
      rw [rd_end, ok_bind, List.drop_eq_nil_of_le (by omega), if_neg (fun e => h0 (by simp [e]))]
      simp

theorem atI_ok (s rest : List Nat) : ∀ (p : List Nat) (i : Nat), 0 ∉ p → i ≤ s.length →
    atI (s ++ 0 :: rest) i p = .ok (decide (Begins p (s.drop i)))
  | [], i, _, _ => by simp [atI, Begins]
  | c :: p, i, h0, hi => by
    rw [atI]
    by_cases hl : i < s.length
    · rw [rd_in s _ hl, ok_bind, List.drop_eq_getElem_cons hl]
      by_cases hc : lower s[i] = lower c
      · rw [if_pos hc, atI_ok s rest p (i + 1) (fun e => h0 (by simp [e])) hl]
        have hc' : fold s[i] = fold c := hc
        unfold Begins
        simp only [List.map_cons, List.cons_prefix_cons, hc', true_and]
      · rw [if_neg hc]
        exact congrArg _ (decide_eq_false (fun h => hc (List.cons_prefix_cons.1 h).1.symm)).symm
    · have : i = s.length := by omega
      subst this
      have h1 : c ≠ 0 := fun e => h0 (by simp [e])
      rw [rd_end, ok_bind, List.drop_eq_nil_of_le (by omega),
        if_neg (fun e : lower 0 = lower c => h1 (fold_zero.1 (Eq.trans (Eq.symm e) rfl)))]
      simp [Begins]

theorem orElse_ok (a b : Bool) : orElse (.ok a) (.ok b) = .ok (a || b) := by
  cases a <;> rfl

/-! ## Reserved names -/

theorem begins_take (s p : List Nat) (n : Nat) (hp : p.length = n) (hn : n ≤ s.length) :
    Begins p s ↔ Same (s.take n) p := by
  unfold Begins Same
  rw [List.prefix_iff_eq_take, List.length_map, hp, ← List.map_take]
  exact eq_comm

theorem same_len {a b : List Nat} (h : Same a b) : a.length = b.length := by
  have := congrArg List.length h
  simpa using this

theorem fold_digit {c d : Nat} (hd : 48 ≤ d ∧ d ≤ 57) : fold c = fold d ↔ c = d := by
  unfold fold
  split <;> split <;> omega

theorem reserved_four (s : List Nat) (c : Nat) (p : List Nat) (hp : p.length = 3) (h3 : s.length = 3) :
    (∃ d, 48 ≤ d ∧ d ≤ 57 ∧ Same (s ++ [c]) (p ++ [d])) ↔ Same s p ∧ 48 ≤ c ∧ c ≤ 57 := by
  unfold Same
  constructor
  · rintro ⟨d, h1, h2, h⟩
    rw [List.map_append, List.map_append] at h
    obtain ⟨e1, e2⟩ := List.append_inj h (by simp [hp, h3])
    have : c = d := (fold_digit ⟨h1, h2⟩).1 (by simpa using e2)
    subst this
    exact ⟨e1, h1, h2⟩
  · rintro ⟨h, h1, h2⟩
    exact ⟨c, h1, h2, by rw [List.map_append, List.map_append, h]⟩

theorem reservedAt_ok (s rest : List Nat) (lp x : Nat) (h1 : lp ≤ x) (h2 : x ≤ s.length) :
    ∃ b, reservedAt (s ++ 0 :: rest) lp x = .ok b ∧ (b = true ↔ Reserved ((s.drop lp).take (x - lp))) := by
  have hlen : ((s.drop lp).take (x - lp)).length = x - lp := by simp; omega
  have hdl : x - lp ≤ (s.drop lp).length := by simp; omega
  have key : ∀ p : List Nat, 0 ∉ p → p.length = x - lp →
      atI (s ++ 0 :: rest) lp p = .ok (decide (Begins p (s.drop lp))) ∧
        (Begins p (s.drop lp) ↔ Same ((s.drop lp).take (x - lp)) p) :=
    fun p hp hl => ⟨atI_ok s rest p lp hp (by omega), begins_take _ p _ hl hdl⟩
  have no : ∀ p : List Nat, p.length ≠ x - lp → ¬ Same ((s.drop lp).take (x - lp)) p :=
    fun p hp h => hp (by rw [← hlen, same_len h])
  unfold reservedAt Reserved
  by_cases h3 : x - lp = 3
  · rw [if_pos h3]
    obtain ⟨a1, b1⟩ := key [78, 85, 76] (by decide) (by simp [h3])
    obtain ⟨a2, b2⟩ := key [67, 79, 78] (by decide) (by simp [h3])
    obtain ⟨a3, b3⟩ := key [65, 85, 88] (by decide) (by simp [h3])
    obtain ⟨a4, b4⟩ := key [80, 82, 78] (by decide) (by simp [h3])
    rw [a1, a2, a3, a4, orElse_ok, orElse_ok, orElse_ok]
    refine ⟨_, rfl, ?_⟩
    simp only [Bool.or_eq_true, decide_eq_true_eq]
    rw [b1, b2, b3, b4]
    have n5 := no [67, 76, 79, 67, 75, 36] (by simp [h3])
    constructor
    · rintro (h | h | h | h)
      · exact .inl h
      · exact .inr (.inl h)
      · exact .inr (.inr (.inl h))
      · exact .inr (.inr (.inr (.inl h)))
    · rintro (h | h | h | h | h | ⟨d, _, _, h | h⟩)
      · exact .inl h
      · exact .inr (.inl h)
      · exact .inr (.inr (.inl h))
      · exact .inr (.inr (.inr h))
      · exact absurd h n5
      · exact absurd h (no _ (by simp [h3]))
      · exact absurd h (no _ (by simp [h3]))
  · rw [if_neg h3]
    have n1 := no [78, 85, 76] (by simp; omega)
    have n2 := no [67, 79, 78] (by simp; omega)
    have n3 := no [65, 85, 88] (by simp; omega)
    have n4 := no [80, 82, 78] (by simp; omega)
    by_cases h6 : x - lp = 6
    · rw [if_pos h6]
      obtain ⟨a1, b1⟩ := key [67, 76, 79, 67, 75, 36] (by decide) (by simp [h6])
      rw [a1]
      refine ⟨_, rfl, ?_⟩
      rw [decide_eq_true_eq, b1]
      constructor
      · exact fun h => .inr (.inr (.inr (.inr (.inl h))))
      · rintro (h | h | h | h | h | ⟨d, _, _, h | h⟩)
        · exact absurd h n1
        · exact absurd h n2
        · exact absurd h n3
        · exact absurd h n4
        · exact h
        · exact absurd h (no _ (by simp [h6]))
        · exact absurd h (no _ (by simp [h6]))
    · rw [if_neg h6]
      have n5 := no [67, 76, 79, 67, 75, 36] (by simp; omega)
      by_cases h4 : x - lp = 4
      · rw [if_pos h4, atI_ok s rest _ lp (by decide) (by omega), atI_ok s rest _ lp (by decide) (by omega), orElse_ok, ok_bind]
        have hx : x - 1 < s.length := by omega
        have hw : (s.drop lp).take (x - lp) = (s.drop lp).take 3 ++ [s[x - 1]] := by
          rw [h4, List.take_add_one, List.getElem?_drop, show lp + 3 = x - 1 by omega, List.getElem?_eq_getElem hx]
          rfl
        have hl3 : ((s.drop lp).take 3).length = 3 := by simp; omega
        have e1 := begins_take (s.drop lp) [76, 80, 84] 3 rfl (by omega)
        have e2 := begins_take (s.drop lp) [67, 79, 77] 3 rfl (by omega)
        have f1 := reserved_four ((s.drop lp).take 3) s[x - 1] [76, 80, 84] rfl hl3
        have f2 := reserved_four ((s.drop lp).take 3) s[x - 1] [67, 79, 77] rfl hl3
        have main : (∃ d, 48 ≤ d ∧ d ≤ 57 ∧ (Same ((s.drop lp).take (x - lp)) [76, 80, 84, d] ∨
            Same ((s.drop lp).take (x - lp)) [67, 79, 77, d])) ↔
            (Begins [76, 80, 84] (s.drop lp) ∨ Begins [67, 79, 77] (s.drop lp)) ∧ 48 ≤ s[x - 1] ∧ s[x - 1] ≤ 57 := by
          rw [e1, e2, hw]
          constructor
          · rintro ⟨d, g1, g2, g | g⟩
            · have := f1.1 ⟨d, g1, g2, g⟩
              exact ⟨.inl this.1, this.2⟩
            · have := f2.1 ⟨d, g1, g2, g⟩
              exact ⟨.inr this.1, this.2⟩
          · rintro ⟨g | g, g'⟩
            · obtain ⟨d, g1, g2, g⟩ := f1.2 ⟨g, g'⟩
              exact ⟨d, g1, g2, .inl g⟩
            · obtain ⟨d, g1, g2, g⟩ := f2.2 ⟨g, g'⟩
              exact ⟨d, g1, g2, .inr g⟩
        have hrd : rd (s ++ 0 :: rest) (x - 1) = .ok s[x - 1] := rd_in s _ hx
        refine ⟨decide ((Begins [76, 80, 84] (s.drop lp) ∨ Begins [67, 79, 77] (s.drop lp)) ∧ 48 ≤ s[x - 1] ∧ s[x - 1] ≤ 57), ?_, ?_⟩
        · by_cases hb : Begins [76, 80, 84] (s.drop lp) ∨ Begins [67, 79, 77] (s.drop lp)
          · rw [if_pos (by simpa using hb), hrd, ok_bind]
            simp [hb]
          · rw [if_neg (by simpa using hb)]
            simp [hb]
        · rw [decide_eq_true_eq, ← main]
          constructor
          · exact fun h => .inr (.inr (.inr (.inr (.inr h))))
          · rintro (h | h | h | h | h | h)
            · exact absurd h n1
            · exact absurd h n2
            · exact absurd h n3
            · exact absurd h n4
            · exact absurd h n5
            · exact h
      · rw [if_neg h4]
        refine ⟨_, rfl, (fun h => nomatch h), ?_⟩
        rintro (h | h | h | h | h | ⟨d, _, _, h | h⟩)
        · exact absurd h n1
        · exact absurd h n2
        · exact absurd h n3
        · exact absurd h n4
        · exact absurd h n5
        · exact absurd h (no _ (by simp; omega))
        · exact absurd h (no _ (by simp; omega))

/-! ## The loop over the characters -/

theorem pieces_cons (s : List Nat) : ∃ g gs, pieces s = g :: gs := by
  cases s with
  | nil => exact ⟨_, _, rfl⟩
  | cons c s =>
    rw [pieces]
    split
    · exact ⟨_, _, rfl⟩
    · split <;> exact ⟨_, _, rfl⟩

theorem pieces_append : ∀ (cur t g : List Nat) (gs : List (List Nat)), 92 ∉ cur → pieces t = g :: gs →
    pieces (cur ++ t) = (cur ++ g) :: gs
  | [], t, g, gs, _, h => h
  | c :: cur, t, g, gs, h0, h => by
    rw [List.cons_append, pieces, if_neg (fun e => h0 (by simp [e])),
      pieces_append cur t g gs (fun e => h0 (by simp [e])) h]
    rfl

theorem stem_plain (w : List Nat) (h : 46 ∉ w) : stem w = w := by
  have := List.takeWhile_append_of_pos (p := fun c : Nat => decide (c ≠ 46)) (l₁ := w) (l₂ := [])
    (fun c hc => by simpa using fun e : c = 46 => h (e ▸ hc))
  simpa [stem] using this

theorem stem_dot (w r : List Nat) (h : 46 ∉ w) : stem (w ++ 46 :: r) = w := by
  unfold stem
  rw [List.takeWhile_append_of_pos]
  · simp
  · intro c hc
    simpa using fun e : c = 46 => h (e ▸ hc)

/-- No reserved name has a dot, a colon or a backslash. -/
theorem reserved_plain {w : List Nat} (h : Reserved w) (c : Nat) (hc : c ∈ w) : c ≠ 46 ∧ c ≠ 58 ∧ c ≠ 92 := by
  have key : ∀ n : List Nat, Same w n → (∀ e ∈ n.map fold, e ≠ 46 ∧ e ≠ 58 ∧ e ≠ 92) → c ≠ 46 ∧ c ≠ 58 ∧ c ≠ 92 := by
    intro n hs hn
    have h1 : fold c ∈ n.map fold := by
      rw [← hs]
      exact List.mem_map_of_mem hc
    have h2 := hn _ h1
    have e1 : c = 46 → fold c = 46 := by rintro rfl; rfl
    have e2 : c = 58 → fold c = 58 := by rintro rfl; rfl
    have e3 : c = 92 → fold c = 92 := by rintro rfl; rfl
    exact ⟨fun e => h2.1 (e1 e), fun e => h2.2.1 (e2 e), fun e => h2.2.2 (e3 e)⟩
  have dg : ∀ d, 48 ≤ d → d ≤ 57 → fold d = d := by
    intro d h1 h2
    unfold fold
    rw [if_neg (by omega)]
  rcases h with h | h | h | h | h | ⟨d, h1, h2, h | h⟩
  · exact key _ h (by decide)
  · exact key _ h (by decide)
  · exact key _ h (by decide)
  · exact key _ h (by decide)
  · exact key _ h (by decide)
  · refine key _ h ?_
    intro e he
    simp only [List.map_cons, List.map_nil, dg d h1 h2, List.mem_cons, List.not_mem_nil, or_false] at he
    rcases he with rfl | rfl | rfl | rfl
    · decide
    · decide
    · decide
    · omega
  · refine key _ h ?_
    intro e he
    simp only [List.map_cons, List.map_nil, dg d h1 h2, List.mem_cons, List.not_mem_nil, or_false] at he
    rcases he with rfl | rfl | rfl | rfl
    · decide
    · decide
    · decide
    · omega

/-- A beginning of a component that cannot be that of a reserved name. -/
def Marked (cur : List Nat) : Prop := ∃ c ∈ cur, c = 46 ∨ c = 58 ∨ c = 92

theorem Marked.not {cur : List Nat} (h : Marked cur) : ¬ Reserved cur := by
  obtain ⟨c, hc, h⟩ := h
  intro hr
  have := reserved_plain hr c hc
  omega

theorem nameLoop_ok (sgn : Bool) (rest : List Nat) : ∀ (t pre cur : List Nat),
    ∃ b, nameLoop sgn (pre ++ cur ++ t ++ 0 :: rest) t.length (pre ++ cur).length pre.length = .ok b ∧
      (46 ∉ cur → 92 ∉ cur → (b = true ↔ (∀ c ∈ t, rejected sgn c = false) ∧ ∀ g ∈ pieces (cur ++ t), ¬ Reserved (stem g))) ∧
      (Marked cur → (b = true ↔ (∀ c ∈ t, rejected sgn c = false) ∧ ∀ g ∈ (pieces t).tail, ¬ Reserved (stem g)))
  | [], pre, cur => by
    obtain ⟨m, h1, h2⟩ := reservedAt_ok (pre ++ cur) rest pre.length (pre ++ cur).length (by simp) (by simp)
    have h3 : ((pre ++ cur).drop pre.length).take ((pre ++ cur).length - pre.length) = cur := by simp
    rw [h3] at h2
    rw [List.append_nil, List.length_nil, nameLoop, h1, ok_bind]
    refine ⟨_, rfl, ?_, ?_⟩
    · intro h46 h92
      rw [List.append_nil, show pieces cur = [cur] from by
        have := pieces_append cur [] [] [] h92 rfl
        simpa using this]
      simp only [List.mem_singleton, forall_eq, stem_plain cur h46, List.not_mem_nil, false_imp_iff, implies_true, true_and]
      rw [← h2]
      cases m <;> simp
    · intro hm
      have : m = false := by
        cases m with
        | false => rfl
        | true => exact absurd (h2.1 rfl) hm.not
      simp [this, pieces]
  | c :: t, pre, cur => by
    have hrd : rd (pre ++ cur ++ c :: t ++ 0 :: rest) (pre ++ cur).length = .ok c := by
      unfold rd
      simp
    rw [List.length_cons, nameLoop, hrd, ok_bind]
    obtain ⟨g, gs, hg⟩ := pieces_cons t
    cases hrej : rejected sgn c with
    | true =>
      refine ⟨false, rfl, fun _ _ => ?_, fun _ => ?_⟩
      · simp [hrej]
      · simp [hrej]
    | false =>
      rw [if_neg (by simp)]
      obtain ⟨m, h1, h2⟩ := reservedAt_ok (pre ++ cur ++ c :: t) rest pre.length (pre ++ cur).length (by simp) (by simp)
      have h3 : ((pre ++ cur ++ c :: t).drop pre.length).take ((pre ++ cur).length - pre.length) = cur := by
        rw [List.append_assoc, List.drop_left]; simp
      rw [h3] at h2
      by_cases h46 : c = 46
      · subst h46
        rw [if_pos (.inl rfl), h1, ok_bind]
        obtain ⟨b, k1, _, k3⟩ := nameLoop_ok sgn rest t pre (cur ++ [46])
        have k3 := k3 ⟨46, by simp, .inl rfl⟩
        rw [hg, List.tail_cons] at k3
        have e1 : pre ++ (cur ++ [46]) ++ t = pre ++ cur ++ 46 :: t := by simp
        have e2 : (pre ++ (cur ++ [46])).length = (pre ++ cur).length + 1 := by simp; omega
        rw [e1, e2] at k1
        have p1 : pieces (46 :: t) = (46 :: g) :: gs := pieces_append [46] t g gs (by decide) hg
        cases m with
        | true =>
          have hr := h2.1 rfl
          refine ⟨false, rfl, fun a1 a2 => ?_, fun hm => absurd hr hm.not⟩
          rw [pieces_append cur _ _ _ a2 p1]
          simp only [Bool.false_eq_true, false_iff, not_and]
          intro _ h
          exact h _ List.mem_cons_self (by rw [stem_dot cur g a1]; exact hr)
        | false =>
          have hr : ¬ Reserved cur := fun h => by have := h2.2 h; cases this
          rw [if_neg (by simp), if_neg (by decide), k1]
          refine ⟨b, rfl, fun a1 a2 => ?_, fun _ => ?_⟩
          · rw [pieces_append cur _ _ _ a2 p1, k3]
            simp only [List.forall_mem_cons, hrej, true_and, stem_dot cur g a1, hr, not_false_iff]
          · rw [p1, k3]
            simp only [List.forall_mem_cons, hrej, true_and, List.tail_cons]
      · by_cases h92 : c = 92
        · subst h92
          rw [if_pos (.inr rfl), h1, ok_bind]
          obtain ⟨b, k1, k2, _⟩ := nameLoop_ok sgn rest t (pre ++ cur ++ [92]) []
          have k2 := k2 (by simp) (by simp)
          rw [List.nil_append] at k2
          have e1 : pre ++ cur ++ [92] ++ [] ++ t = pre ++ cur ++ 92 :: t := by simp
          have e2 : (pre ++ cur ++ [92] ++ []).length = (pre ++ cur).length + 1 := by simp; omega
          have e3 : (pre ++ cur ++ [92]).length = (pre ++ cur).length + 1 := by simp; omega
          rw [e1, e2, e3] at k1
          have p1 : pieces (92 :: t) = [] :: pieces t := by rw [pieces, if_pos rfl]
          cases m with
          | true =>
            have hr := h2.1 rfl
            refine ⟨false, rfl, fun a1 a2 => ?_, fun hm => absurd hr hm.not⟩
            rw [pieces_append cur _ _ _ a2 p1, List.append_nil]
            simp only [Bool.false_eq_true, false_iff, not_and]
            intro _ h
            exact h _ List.mem_cons_self (by rw [stem_plain cur a1]; exact hr)
          | false =>
            have hr : ¬ Reserved cur := fun h => by have := h2.2 h; cases this
            rw [if_neg (by simp), if_pos rfl, k1]
            refine ⟨b, rfl, fun a1 a2 => ?_, fun _ => ?_⟩
            · rw [pieces_append cur _ _ _ a2 p1, k2, List.append_nil]
              simp only [List.forall_mem_cons, hrej, true_and, stem_plain cur a1, hr, not_false_iff]
            · rw [p1, k2]
              simp only [List.forall_mem_cons, hrej, true_and, List.tail_cons]
        · rw [if_neg (by omega)]
          obtain ⟨b, k1, k2, k3⟩ := nameLoop_ok sgn rest t pre (cur ++ [c])
          have e1 : pre ++ (cur ++ [c]) ++ t = pre ++ cur ++ c :: t := by simp
          have e2 : (pre ++ (cur ++ [c])).length = (pre ++ cur).length + 1 := by simp; omega
          rw [e1, e2] at k1
          rw [k1]
          refine ⟨b, rfl, fun a1 a2 => ?_, fun hm => ?_⟩
          · have k2 := k2 (by simp; exact ⟨a1, fun e => h46 e.symm⟩) (by simp; exact ⟨a2, fun e => h92 e.symm⟩)
            rw [k2, List.append_assoc, List.singleton_append]
            simp only [List.forall_mem_cons, hrej, true_and]
          · have k3 := k3 (by obtain ⟨e, he, h⟩ := hm; exact ⟨e, by simp [he], h⟩)
            rw [k3, show pieces (c :: t) = (c :: g) :: gs from
              pieces_append [c] t g gs (by simp; exact fun e => h92 e.symm) hg, hg]
            simp only [List.forall_mem_cons, hrej, true_and, List.tail_cons]

/-! ## The other parts -/

theorem rejected_iff (sgn : Bool) (c : Nat) : rejected sgn c = true ↔ Forbidden c ∨ (sgn = true ∧ 0x80 ≤ c) := by
  unfold rejected Forbidden
  cases sgn <;> simp <;> omega

theorem slashLoop_ok : ∀ (s pre post : List Nat),
    slashLoop s.length pre.length (pre ++ s ++ post) = .ok (pre ++ s.map (fun c => if c = 47 then 92 else c) ++ post)
  | [], pre, post => by simp [slashLoop]
  | c :: s, pre, post => by
    have hrd : rd (pre ++ (c :: s) ++ post) pre.length = .ok c := by unfold rd; simp
    rw [List.length_cons, slashLoop, hrd, ok_bind]
    by_cases h : c = 47
    · rw [if_pos h, List.append_assoc, List.cons_append, wr_append, ok_bind]
      have := slashLoop_ok s (pre ++ [92]) post
      simp only [List.append_assoc, List.length_append, List.length_singleton, List.singleton_append, List.cons_append, List.nil_append] at this
      rw [this]
      simp [h]
    · rw [if_neg h]
      have := slashLoop_ok s (pre ++ [c]) post
      simp only [List.append_assoc, List.length_append, List.length_singleton, List.singleton_append, List.cons_append, List.nil_append] at this
      simp only [List.append_assoc, List.cons_append]
      rw [this]
      simp [h]

theorem strchr_ok (s rest : List Nat) : ∀ (k x : Nat), x ≤ s.length → s.length < x + k →
    ∃ p, strchr (s ++ 0 :: rest) k x = .ok p
  | 0, x, h1, h2 => by omega
  | k + 1, x, h1, h2 => by
    rw [strchr]
    by_cases hl : x < s.length
    · rw [rd_in s _ hl, ok_bind]
      split
      · exact ⟨_, rfl⟩
      · split
        · exact ⟨_, rfl⟩
        · exact strchr_ok s rest k (x + 1) hl (by omega)
    · have : x = s.length := by omega
      subst this
      rw [rd_end, ok_bind]
      exact ⟨none, rfl⟩

/-- Paths that do not name a volume are left alone. -/
theorem volume_none (reg : List Nat → Option Nat) (y : Nat) (s rest : List Nat) (h4 : 4 ≤ s.length)
    (hv : ¬ preUniVolume <+: s) : volume reg y (s ++ 0 :: rest) = .ok (s ++ 0 :: rest) := by
  unfold volume
  obtain ⟨p, hp⟩ := strchr_ok s rest ((s ++ 0 :: rest).length + 1) 4 h4 (by simp; omega)
  rw [hp, ok_bind, at_ok s rest _ 0 (by decide) (Nat.zero_le _), ok_bind]
  rw [List.drop_zero, decide_eq_false hv]

theorem upper_len (s : List Nat) : (upperDrive s).length = s.length := by
  unfold upperDrive
  split
  · cases s <;> rfl
  · rfl

theorem letterAt_ok (s rest : List Nat) (x : Nat) (hx : x ≤ s.length) :
    letterAt (s ++ 0 :: rest) x = .ok (decide (Drive (s.drop x)), s.take x ++ upperDrive (s.drop x) ++ 0 :: rest) := by
  have hs : s = s.take x ++ s.drop x := (List.take_append_drop x s).symm
  have hl : (s.take x).length = x := by simp; omega
  generalize s.take x = a at hs hl
  generalize s.drop x = t at hs
  subst hs
  subst hl
  unfold letterAt
  cases t with
  | nil =>
    rw [List.append_nil, rd_end, ok_bind, if_neg (by omega), decide_eq_false (show ¬ Drive [] from id)]
    simp [upperDrive, upperFirst]
  | cons c t =>
    have h1 : rd (a ++ c :: t ++ 0 :: rest) a.length = .ok c := by unfold rd; simp
    rw [h1, ok_bind]
    by_cases hc : (97 ≤ c ∧ c ≤ 122) ∨ (65 ≤ c ∧ c ≤ 90)
    · rw [if_pos hc]
      cases t with
      | nil =>
        have h2 : rd (a ++ [c] ++ 0 :: rest) (a.length + 1) = .ok 0 := by
          have := rd_end (a ++ [c]) rest
          simpa using this
        rw [h2, ok_bind, if_neg (by omega)]
        rfl
      | cons d t =>
        have h2 : rd (a ++ c :: d :: t ++ 0 :: rest) (a.length + 1) = .ok d := by unfold rd; simp
        rw [h2, ok_bind]
        by_cases hd : d = 58
        · have hdr : Drive (c :: d :: t) := ⟨hc.symm, hd⟩
          rw [if_pos hd, decide_eq_true hdr]
          unfold upperDrive
          rw [if_pos hdr]
          unfold upperFirst
          dsimp only
          by_cases h97 : 97 ≤ c
          · rw [if_pos h97, if_pos (by omega), List.append_assoc, List.cons_append, wr_append, ok_bind,
              show c - 97 + 65 = c - 32 by omega]
            simp
          · rw [if_neg h97, if_neg (by omega)]
        · have hdr : ¬ Drive (c :: d :: t) := fun h => hd h.2
          rw [if_neg hd, decide_eq_false hdr]
          unfold upperDrive
          rw [if_neg hdr]
    · have hdr : ¬ Drive (c :: t) := by
        cases t with
        | nil => exact id
        | cons d t => exact fun h => hc h.1.symm
      rw [if_neg hc, decide_eq_false hdr]
      unfold upperDrive
      rw [if_neg hdr]

end Verif.WinPath
