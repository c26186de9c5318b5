import Verif.FastFind.PropsReplace

/-!
# Property C29: what replacing does when there are more occurrences than the limit allows

The loop of `ReplaceAll` (templates/fast_find_replace_util.h 715-725 and 783-793) stops in front
of the occurrence it may no longer replace, and nothing copies the text from there on.  The theorems
here say so for all data: the block holds the right result only up to that occurrence.
-/

namespace Verif.FastFind

open Spec

set_option linter.unusedSectionVars false

variable {α : Type} [DecidableEq α]

/-- What is cut off is the end of the right result: replacing the first `n` occurrences and leaving
everything else alone gives `out ++ rest`. -/
theorem cut_replaced {eq : α → α → Bool} {p w : List α} {n : Nat} {l out rest : List α}
    (h : CutAt eq p w n l out rest) : Replaced eq p w n n l (out ++ rest) := by
  induction h with
  | @stop pre m post hm hl hf => rw [← List.append_assoc]; exact .limit _
  | step hm hl hf _ ih => simpa [List.append_assoc] using Replaced.step hm hl hf ih

/-- The part cut off is not empty. -/
theorem cut_rest {eq : α → α → Bool} {p w : List α} {n : Nat} {l out rest : List α}
    (h : CutAt eq p w n l out rest) : p.length ≤ rest.length ∧ rest <:+ l := by
  induction h with
  | @stop pre m post hm hl hf =>
    exact ⟨by simp only [List.length_append]; omega, ⟨pre, by simp [List.append_assoc]⟩⟩
  | @step n pre m post out rest hm hl hf _ ih =>
    exact ⟨ih.1, ih.2.trans ⟨pre ++ m, rfl⟩⟩

theorem cut_of_replaced {eq : α → α → Bool} {p w : List α} {n' k : Nat} {l out' : List α}
    (h : Replaced eq p w n' k l out') :
    ∀ n, n' = n + 1 → k = n + 1 → ∃ out rest, CutAt eq p w n l out rest := by
  induction h with
  | none => intro n _ h; omega
  | limit => intro n _ h; omega
  | @step n' k pre m post out' hm hl hf _ ih =>
    intro n hn hk
    cases n with
    | zero => exact ⟨_, _, .stop hm hl hf⟩
    | succ n =>
      obtain ⟨out, rest, h⟩ := ih n (by omega) (by omega)
      exact ⟨_, _, .step hm hl hf h⟩

/-- Data either has at most `limit` occurrences, and then `replace_all_partial` applies, or it is
cut. -/
theorem cut_or_replaced (eq : α → α → Bool) (p w : List α) (hp : p ≠ []) (limit : Nat)
    (d : List α) :
    (∃ k out, k ≤ limit ∧ Replaced eq p w (limit + 1) k d out) ∨
      ∃ out rest, CutAt eq p w limit d out rest := by
  obtain ⟨k, out, hk, h⟩ := replaced_exists eq p w hp d.length (limit + 1) d (Nat.le_refl _)
  by_cases hl : k ≤ limit
  · exact .inl ⟨k, out, hl, h⟩
  · exact .inr (cut_of_replaced h limit rfl (by omega))

theorem replLoop_cut {eq : α → α → Bool} {alloc um : Bool} {p w d : List α} {limit e : Nat}
    (hu : um = true → ∀ a b, eq a b = true ↔ a = b) (hp : p ≠ []) {n : Nat} {l out rest : List α}
    (hR : CutAt eq p w n l out rest) :
    ∀ (fuel num : Nat) (r : Repl α) (o : List α), Dyn eq r p d o e → l = d.drop r.srcCurr →
      num + n = limit → l.length < fuel → (alloc = true ∨ o.length + out.length ≤ r.dataSize) →
      ∃ r' R, replLoop eq alloc um w limit fuel num r = .ok (limit, r') ∧
        r'.buf = (o ++ out).map some ++ R ∧ r'.dataPos = (o ++ out).length := by
  induction hR with
  | @stop pre m post hm hml hf =>
    intro fuel num r o h hl hnum hfuel hs
    obtain ⟨fuel, rfl⟩ : ∃ k, fuel = k + 1 := ⟨fuel - 1, by omega⟩
    obtain ⟨hm', hf'⟩ := first_match h.curr hl.symm hm hf
    obtain ⟨r1, e1, s1, s2, s3, s4, ⟨R, s5⟩, s6, s7, s8, s9, f'', s10, s11⟩ :=
      replFindNext_some (alloc := alloc) hu hp h (Nat.le_add_right _ _) hm' hf' (by
        rcases hs with hs | hs
        · exact .inl hs
        · right; omega)
    rw [Nat.add_sub_cancel_left] at s5 s6 s8
    rw [← hl, List.append_assoc, List.take_left] at s5
    refine ⟨r1, R, ?_, s5, by rw [s6]; simp⟩
    rw [replLoop, e1]
    simp only [ok_bind, Option.isSome_some, true_and]
    rw [if_neg (by omega)]
    congr 2
  | @step n pre m post out rest hm hml hf hrest ih =>
    intro fuel num r o h hl hnum hfuel hs
    obtain ⟨fuel, rfl⟩ : ∃ k, fuel = k + 1 := ⟨fuel - 1, by omega⟩
    have hplen : 0 < p.length := List.length_pos_iff.2 hp
    obtain ⟨hm', hf'⟩ := first_match h.curr hl.symm hm hf
    obtain ⟨r1, e1, s1, s2, s3, s4, s5, s6, s7, s8, s9, f'', s10, s11⟩ :=
      replFindNext_some (alloc := alloc) hu hp h (Nat.le_add_right _ _) hm' hf' (by
        rcases hs with hs | hs
        · exact .inl hs
        · right
          simp only [List.length_append] at hs
          omega)
    rw [Nat.add_sub_cancel_left] at s5 s6 s8
    rw [← hl, List.append_assoc, List.take_left] at s5
    obtain ⟨r2, e2, t1, t2, t3, t4, t5, t6, t7, t8, t9, t10⟩ :=
      replPut_dyn (alloc := alloc) (w := w) s3 s4 s5 (by simpa using s6) s7
        (by simpa using s8)
    have hb := hm'.1
    have hrep : replace alloc r1 w = .ok
        { r2 with find := f'', srcCurr := r.srcCurr + pre.length + p.length } := by
      unfold replace
      rw [e2, ok_bind, t1, s10]
      simp only [ok_bind, ptr]
      rw [t3, s2, if_neg (by omega)]
    have hD : Dyn eq { r2 with find := f'', srcCurr := r.srcCurr + pre.length + p.length } p d
        (o ++ pre ++ w) e :=
      ⟨by simp only [t2, s1], by simp only [t3, s2], hb, t4, t5, t6, t7, t8, t9, s11⟩
    have hpost := drop_after hl.symm hml
    obtain ⟨r3, R, e3, u1, u3⟩ := ih fuel (num + 1) _ _ hD hpost.symm (by omega)
      (by simp only [List.length_append] at hfuel; omega) (by
        rcases hs with hs | hs
        · exact .inl hs
        · by_cases ha : alloc = true
          · exact .inl ha
          · right
            simp only [List.length_append] at hs ⊢ t10
            have := s9 (by simpa using ha)
            rw [t10 (by omega)]
            omega)
    refine ⟨r3, R, ?_, by rw [u1]; simp [List.append_assoc], by rw [u3]; simp [List.append_assoc]⟩
    rw [replLoop, e1]
    simp only [ok_bind, Option.isSome_some, true_and]
    rw [if_pos (by omega), hrep, ok_bind, e3]

/-- **C29, more occurrences than the limit.**  If `d` has more than `limit` non-overlapping
occurrences, `ReplaceAll` returns `limit` and the right result up to the next occurrence: of
`out ++ rest`, which is the answer asked for (`cut_replaced`), the block holds `out`, and the size
reported is that of `out`.  No undefined behaviour; for the plain classes if `out` fits the first
allocation. -/
theorem replace_all_limit_partial (eq : α → α → Bool) (alloc um : Bool)
    (hm : um = true → ∀ a b, eq a b = true ↔ a = b) (d p w : List α) (hp : p ≠ [])
    (hsz : p.length < 2 ^ 64) (limit g extra : Nat) (out rest : List α)
    (h : CutAt eq p w limit d out rest)
    (hfit : alloc = true ∨ out.length ≤ d.length + growthFor p w g) :
    ∃ tail, replaceAll eq alloc um none d p w limit g extra =
        .ok (limit, out.map some ++ tail, out.length) := by
  obtain ⟨f, e, hr⟩ := Rel.setPattern (f := Find.init) (s := S.init) eq p hsz
  unfold replaceAll
  rw [e, ok_bind]
  obtain ⟨r', R, e1, h1, h3⟩ := replLoop_cut (alloc := alloc) (limit := limit) (e := extra) hm hp h
    (d.length + 1) 0 (replSetData f (growthFor p w g) extra d none) [] (d := d)
    ⟨rfl, rfl, Nat.zero_le _, rfl, rfl, ⟨_, rfl⟩, rfl, by simp [replSetData], Nat.zero_le _,
      start_ready hp hr⟩
    (by simp [replSetData]) (by omega) (by omega) (by
      rcases hfit with h | h
      · exact .inl h
      · right; simpa [replSetData] using h)
  simp only at e1 ⊢
  rw [e1]
  simp only [ok_bind, h1, h3, List.nil_append]
  exact ⟨R, rfl⟩

/-- **C29 fails whenever the limit is smaller than the number of occurrences.**  With an allocator,
for all data with more occurrences than `limit`, the result reported is shorter than the right one by
at least the length of the pattern. -/
theorem limit_always_loses (eq : α → α → Bool) (um : Bool)
    (hm : um = true → ∀ a b, eq a b = true ↔ a = b) (d p w : List α) (hp : p ≠ [])
    (hsz : p.length < 2 ^ 64) (limit g extra : Nat) (out' : List α)
    (hmore : Replaced eq p w (limit + 1) (limit + 1) d out') (right : List α)
    (hright : Replaced eq p w limit limit d right) :
    ∃ blk size, replaceAll eq true um none d p w limit g extra = .ok (limit, blk, size) ∧
      size + p.length ≤ right.length ∧ blk.take size = (right.take size).map some := by
  obtain ⟨out, rest, h⟩ := cut_of_replaced hmore limit rfl rfl
  obtain ⟨tail, e⟩ := replace_all_limit_partial eq true um hm d p w hp hsz limit g extra out rest h
    (.inl rfl)
  obtain ⟨_, rfl⟩ := replaced_unique hright (cut_replaced h)
  refine ⟨_, _, e, ?_, ?_⟩
  · have := (cut_rest h).1
    simp only [List.length_append]; omega
  · have h1 : ∀ (x y : List (Option α)) (n : Nat), n = x.length → (x ++ y).take n = x := by
      rintro x y _ rfl; simp
    rw [h1 _ _ _ (by simp)]; simp

theorem clip_cut {o x y : List α} {b : List (Option α)} (hover : b.length ≤ o.length) :
    ((o ++ x).take b.length).map some ++ b.drop (o ++ x).length =
      ((o ++ y).take b.length).map some ++ b.drop (o ++ y).length := by
  rw [List.take_append_of_le_length hover, List.take_append_of_le_length hover,
    List.drop_of_length_le (by simp only [List.length_append]; omega),
    List.drop_of_length_le (by simp only [List.length_append]; omega)]

theorem replLoop_stat_cut {eq : α → α → Bool} {alloc um : Bool} {p w d : List α} {limit : Nat}
    {b : List (Option α)} (hu : um = true → ∀ a b, eq a b = true ↔ a = b) (hp : p ≠ []) {n : Nat}
    {l out rest : List α} (hR : CutAt eq p w n l out rest) :
    ∀ (fuel num : Nat) (r : Repl α) (o : List α), Stat eq r p d o b → l = d.drop r.srcCurr →
      num + n = limit → l.length < fuel →
      ∃ r' num', replLoop eq alloc um w limit fuel num r = .ok (num', r') ∧
        num' ≤ limit ∧ ((o ++ out).length ≤ b.length → num' = limit) ∧
        r'.buf = ((o ++ out).take b.length).map some ++ b.drop (o ++ out).length ∧
        r'.dataPos = min b.length (o ++ out).length := by
  induction hR with
  | @stop pre m post hm hml hf =>
    intro fuel num r o h hl hnum hfuel
    obtain ⟨fuel, rfl⟩ : ∃ k, fuel = k + 1 := ⟨fuel - 1, by omega⟩
    obtain ⟨hm', hf'⟩ := first_match h.curr hl.symm hm hf
    obtain ⟨f', e1, f'', e2, hr⟩ := h.ready.some um hu hp (Nat.le_add_right _ _) hm' hf'
    by_cases hg : b.length < min b.length o.length + pre.length
    · obtain ⟨r', e3, _, _, _, _, h5, h6, _⟩ := putSrc_stat h f' pre (m ++ post)
        (by rw [← hl, List.append_assoc]) (b.length - min b.length o.length) (by omega)
      refine ⟨r', num, ?_, by omega, fun _ => by omega, h5, h6⟩
      rw [replLoop]
      unfold replFindNext
      rw [e1]
      simp only [ok_bind, h.pos, h.alloc, Bool.false_eq_true, false_and, or_false, if_false,
        h.size, Nat.add_sub_cancel_left]
      simp only [h.pos, h.alloc, h.size] at e3
      rw [if_pos hg, e3]
      simp
    · obtain ⟨r', e3, _, _, _, _, h5, h6, _⟩ := putSrc_stat h f' pre (m ++ post)
        (by rw [← hl, List.append_assoc]) pre.length (by omega)
      refine ⟨r', num, ?_, by omega, fun _ => by omega, h5, h6⟩
      rw [replLoop]
      unfold replFindNext
      rw [e1]
      simp only [ok_bind, h.pos, h.alloc, Bool.false_eq_true, false_and, or_false, if_false,
        h.size, Nat.add_sub_cancel_left]
      simp only [h.pos, h.alloc, h.size] at e3
      rw [if_neg hg, e3]
      simp only [ok_bind, Option.isSome_some, true_and]
      rw [if_neg (by omega)]
  | @step n pre m post out rest hm hml hf hrest ih =>
    intro fuel num r o h hl hnum hfuel
    obtain ⟨fuel, rfl⟩ : ∃ k, fuel = k + 1 := ⟨fuel - 1, by omega⟩
    have hplen : 0 < p.length := List.length_pos_iff.2 hp
    obtain ⟨hm', hf'⟩ := first_match h.curr hl.symm hm hf
    obtain ⟨f', e1, f'', e2, hr⟩ := h.ready.some um hu hp (Nat.le_add_right _ _) hm' hf'
    by_cases hg : b.length < min b.length o.length + pre.length
    · obtain ⟨r', e3, _, _, _, _, h5, h6, _⟩ := putSrc_stat h f' pre (m ++ post)
        (by rw [← hl, List.append_assoc]) (b.length - min b.length o.length) (by omega)
      have hover : b.length ≤ (o ++ pre).length := by simp only [List.length_append]; omega
      refine ⟨r', num, ?_, by omega, ?_, ?_, ?_⟩
      · rw [replLoop]
        unfold replFindNext
        rw [e1]
        simp only [ok_bind, h.pos, h.alloc, Bool.false_eq_true, false_and, or_false, if_false,
          h.size, Nat.add_sub_cancel_left]
        simp only [h.pos, h.alloc, h.size] at e3
        rw [if_pos hg, e3]
        simp
      · intro hle
        simp only [List.length_append] at hle
        omega
      · rw [h5, show o ++ (pre ++ w ++ out) = (o ++ pre) ++ (w ++ out) by simp [List.append_assoc]]
        have := clip_cut (x := []) (y := w ++ out) hover
        rwa [List.append_nil] at this
      · rw [h6]; simp only [List.length_append] at hover ⊢; omega
    · obtain ⟨r1, e3, s1, s2, s3, s4, s5, s6, s7⟩ := putSrc_stat h f' pre (m ++ post)
        (by rw [← hl, List.append_assoc]) pre.length (by omega)
      obtain ⟨r2, e4, t1, t2, t3, t4, t5, t6, t7⟩ := replPut_stat (w := w) s3 s5 s6 s7 alloc
      have hb := hm'.1
      have hrep : replace alloc r1 w = .ok
          { r2 with find := f'', srcCurr := r.srcCurr + pre.length + p.length } := by
        unfold replace
        rw [e4, ok_bind, t3, s4, e2]
        simp only [ok_bind, ptr]
        rw [t2, s2, if_neg (by omega)]
      have hS : Stat eq { r2 with find := f'', srcCurr := r.srcCurr + pre.length + p.length } p d
          (o ++ pre ++ w) b :=
        ⟨by simp only [t1, s1], by simp only [t2, s2], hb, t4, t5, t6, t7, hr⟩
      have hpost := drop_after hl.symm hml
      obtain ⟨r3, num', e5, u1, u2, u3, u4⟩ := ih fuel (num + 1) _ _ hS hpost.symm
        (by omega) (by simp only [List.length_append] at hfuel; omega)
      refine ⟨r3, num', ?_, u1, ?_, ?_, ?_⟩
      · rw [replLoop]
        unfold replFindNext
        rw [e1]
        simp only [ok_bind, h.pos, h.alloc, Bool.false_eq_true, false_and, or_false, if_false,
          h.size, Nat.add_sub_cancel_left]
        simp only [h.pos, h.alloc, h.size] at e3
        rw [if_neg hg, e3]
        simp only [ok_bind, Option.isSome_some, true_and]
        rw [if_pos (by omega), hrep, ok_bind, e5]
      · intro hle
        exact u2 (by simp only [List.length_append] at hle ⊢; omega)
      · rw [u3]; simp only [List.append_assoc]
      · rw [u4]; simp only [List.append_assoc]

/-- The same into a caller's buffer: as much of `out` as fits is placed there, the rest of the buffer
is left alone. -/
theorem static_limit_partial (eq : α → α → Bool) (alloc um : Bool)
    (hm : um = true → ∀ a b, eq a b = true ↔ a = b) (b : List (Option α)) (d p w : List α)
    (hp : p ≠ []) (hsz : p.length < 2 ^ 64) (limit g extra : Nat) (out rest : List α)
    (h : CutAt eq p w limit d out rest) :
    ∃ num, replaceAll eq alloc um (some b) d p w limit g extra =
        .ok (num, (out.take b.length).map some ++ b.drop out.length, min b.length out.length) ∧
      num ≤ limit ∧ (out.length ≤ b.length → num = limit) := by
  obtain ⟨f, e, hr⟩ := Rel.setPattern (f := Find.init) (s := S.init) eq p hsz
  unfold replaceAll
  rw [e, ok_bind]
  obtain ⟨r', num, e1, h1, h2, h3, h4⟩ := replLoop_stat_cut (alloc := alloc) (limit := limit) hm hp h
    (d.length + 1) 0 (replSetData f (growthFor p w g) extra d (some b)) [] (d := d) (b := b)
    ⟨rfl, rfl, Nat.zero_le _, rfl, by simp [replSetData], by simp [replSetData], rfl,
      start_ready hp hr⟩
    (by simp [replSetData]) (by omega) (by omega)
  simp only at e1 ⊢
  rw [e1]
  simp only [List.nil_append] at h2 h3 h4
  simp only [ok_bind, h3, h4]
  exact ⟨num, rfl, h1, h2⟩

/-- The hypotheses are met: one of two occurrences may be replaced. -/
example : CutAt (· == ·) [1] [9, 9] 1 [1, 0, 1, 5, 6] [9, 9, 0] [1, 5, 6] := by
  have h (l : List Nat) (i : Nat) : MatchAt (· == ·) [1] l i ↔ l[i]? = some 1 := by
    constructor
    · rintro ⟨h1, h2⟩
      simp only [List.length_cons, List.length_nil] at h1
      have a1 := h2 0 1 _ rfl (List.getElem?_eq_getElem (by omega))
      simp only [beq_iff_eq] at a1
      rw [List.getElem?_eq_getElem (by omega)]
      simpa using a1.symm
    · intro h1
      obtain ⟨h3, _⟩ := List.getElem?_eq_some_iff.1 h1
      refine ⟨h3, fun k a b ha hb => ?_⟩
      match k with
      | 0 => cases ha; rw [Nat.add_zero, h1] at hb; cases hb; rfl
      | k + 1 => simp at ha
  refine .step (pre := []) (m := [1]) (post := [0, 1, 5, 6]) (out := [0])
    ((h _ _).2 (by decide)) rfl (fun j hj => by simp at hj) ?_
  refine .stop (pre := [0]) (m := [1]) (post := [5, 6]) ((h _ _).2 (by decide)) rfl (fun j hj => ?_)
  rw [h]; match j, hj with
    | 0, _ => decide

end Verif.FastFind
