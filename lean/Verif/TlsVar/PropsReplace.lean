import Verif.TlsVar.Props

/-! # C81: replacing text in a thread-local mixed variable -/

namespace Verif.TlsVar
open Spec
open Verif.Tls (St Ptr Cell Rel Live setAt)

/-- **C81** (partial).  In every state a legal program can reach, `ReplaceData` on a variable with the text `t` returns the number
of occurrences of `src`, found from left to right without overlapping, and leaves the text with each of them replaced by
`dest`, terminated; mode, integer and double stay.  By `tls_vars_partial` (C68) the other variables stay as they are too.
Missing: a replacement that is not longer needs a text that is not NULL (`replace_null`) and a `memcpy` that copes with
overlapping ranges (`replace_overlaps`); failing allocations; sizes at the limits of the allocator (C40); bytes never
written. -/
theorem replace_data_partial (m K : Nat) (hm : m ≤ 31 ∨ K ≤ 31) (hK : 3 ≤ K ∧ K ≤ 63) (w : World) (h : Reach m K w) (σ : Vars)
    (hs : Shows w σ) (i : Nat) (v : Var) (o : Obs) (hv : w.v i = some v) (ho : σ i = some o) (ov : Bool)
    (src dest t : List UInt8) (ha : AllowedReplace K ov o src dest t) :
    ∃ k out v' s', replaceData w.s v true ov src dest = .ok (k, v', s') ∧ ReplacedAll src dest t k out ∧
      Looks s' v' (o.with (known out)) := by
  obtain ⟨τ, le, hi⟩ := reach_inv hm hK h
  rw [shows_unique hs hi.shows] at ho
  obtain ⟨k, out, v', s', le', e, hR, hr, hh', _⟩ := replaceData_ok hm hi.rel (hi.has i v o hv ho) ha
  exact ⟨k, out, v', s', e, hR, looks_of hr hh'⟩

/-- Number and text are determined, so the theorem leaves no choice; and every text has them. -/
theorem replaced_all_exact (src dest t : List UInt8) : ∃ k out, ReplacedAll src dest t k out ∧
    ∀ k' out', ReplacedAll src dest t k' out' → k' = k ∧ out' = out := by
  obtain ⟨k, out, h⟩ := replacedAll_exists src dest t
  exact ⟨k, out, h, fun k' out' h' => replacedAll_unique h' h⟩

/-! ## Disagreements -/

/-- The counterexample to C81: a replacement that is not longer than what it replaces, on a variable whose text is NULL, writes
through NULL. -/
theorem replace_null (s : St) (v : Var) (hp : v.ptr = .null) (hn : v.pos = 0) (ok ov : Bool) (src dest : List UInt8)
    (h : dest.length ≤ src.length) : replaceData s v ok ov src dest = .error .nullDeref := by
  unfold replaceData readAll
  rw [if_pos hn, ok_bind]
  show (do let d ← bytes []; _ : CRes (Nat × Var × St)) = _
  rw [show bytes [] = .ok [] from rfl, ok_bind, if_neg (by omega), if_pos hp]

/-- Replacing in place is undefined in C++ on every text that is not empty and does not begin with `src`: the beginning of the
text is copied onto itself with `memcpy`. -/
theorem replace_overlaps (s : St) (v : Var) (ok : Bool) (src dest t : List UInt8) (hp : v.ptr ≠ .null)
    (ht : readAll s v.ptr v.pos = .ok (known t)) (h0 : t ≠ []) (hs : src.length < 2 ^ 64) (hb : src = [] ∨ ¬ src <+: t)
    (h : dest.length ≤ src.length) : replaceData s v ok false src dest = .error .badPtr := by
  have hl : 0 < t.length := List.length_pos_iff.2 h0
  unfold replaceData
  rw [ht, ok_bind, bytes_known, ok_bind, if_neg (by omega), if_neg hp]
  unfold shrinkAll
  obtain ⟨f, e, hr⟩ := FastFind.Rel.setPattern (f := FastFind.Find.init) (s := FastFind.Spec.S.init) beq8 src hs
  rw [show FastFind.setPattern (· == ·) FastFind.Find.init src = _ from e, ok_bind]
  have hfind : ∃ np f', FastFind.findNext beq8 true { FastFind.setData f t with obj := t } = .ok (np, f') ∧
      (np = none ∨ ∃ i, np = some i ∧ 0 < i ∧ i ≤ t.length) := by
    by_cases hne : src = []
    · subst hne
      exact ⟨none, _, empty_none (by dsimp only; rw [setData_pat, (hr.empty rfl).1]), .inl rfl⟩
    · have hready := ready_swap (FastFind.start_ready (eq := beq8) (d := t) hne hr) (Nat.zero_le _) rfl rfl
      rcases FastFind.least_or_none (FastFind.Spec.MatchAt beq8 src t) 0 with ⟨i, _, h1, h2⟩ | hex
      · obtain ⟨f', e', _⟩ := hready.some true beq8_ok hne (Nat.zero_le i) h1 h2
        have hb1 := h1.1
        refine ⟨some i, f', e', .inr ⟨i, rfl, ?_, by omega⟩⟩
        rcases Nat.eq_zero_or_pos i with hi | hi
        · exfalso
          subst hi
          refine hb.resolve_left hne ?_
          refine ⟨t.drop src.length, ?_⟩
          have : t.take src.length = src := by
            refine List.ext_getElem? fun n => ?_
            by_cases hn : n < src.length
            · rw [List.getElem?_take_of_lt hn]
              have hn' : n < t.length := by omega
              rw [List.getElem?_eq_getElem hn, List.getElem?_eq_getElem hn']
              have := h1.2 n _ _ (List.getElem?_eq_getElem hn) (by rw [Nat.zero_add]; exact List.getElem?_eq_getElem hn')
              rw [(beq8_ok rfl _ _).1 this]
            · rw [List.getElem?_eq_none (by simp; omega), List.getElem?_eq_none (by omega)]
          conv => lhs; lhs; rw [← this]
          exact List.take_append_drop ..
        · exact hi
      · obtain ⟨f', e'⟩ := hready.none true beq8_ok hex
        exact ⟨none, f', e', .inl rfl⟩
  obtain ⟨np, f', e', hnp⟩ := hfind
  rw [Shrink.loop]
  unfold Shrink.findNext
  dsimp only
  rw [show FastFind.findNext (· == ·) true { FastFind.setData f t with obj := t } = _ from e', ok_bind]
  dsimp only
  have hsh : ∀ n, 0 < n → shiftIn false t 0 0 n = .error .badPtr := by
    intro n hn
    unfold shiftIn
    rw [if_neg (by omega), if_pos ⟨rfl, by omega, by omega⟩]
  rcases hnp with rfl | ⟨i, rfl, h1, h2⟩
  · dsimp only
    rw [if_neg (by omega), hsh _ (by omega)]
    rfl
  · dsimp only
    rw [if_neg (by omega), hsh _ (by omega)]
    rfl

/-! ## Examples -/

/-- `"aXbX"`: `X` becomes `YY`, then `YY` becomes `X`, then `b` vanishes. -/
def replaceSample : List Op :=
  [.create 0, .call 0 true (.setStr [97, 88, 98, 88]), .replace 0 true false [88] [89, 89], .replace 0 true true [89, 89] [88],
   .replace 0 true true [98] []]

set_option maxRecDepth 20000 in
example : (runAll (.start 4) (replaceSample.take 3) >>= fun w => textOf w 0) =
    .ok [some 97, some 89, some 89, some 98, some 89, some 89] := by decide +kernel
set_option maxRecDepth 20000 in
example : (runAll (.start 4) (replaceSample.take 4) >>= fun w => textOf w 0) = .ok [some 97, some 88, some 98, some 88] := by
  decide +kernel
set_option maxRecDepth 20000 in
example : (runAll (.start 4) replaceSample >>= fun w => textOf w 0) = .ok [some 97, some 88, some 88] := by decide +kernel

/-- In strict C++ the second call is undefined. -/
example : ∃ s v, readAll s v.ptr v.pos = .ok (known [120, 97]) ∧ replaceData s v true false [97] [98] = .error .badPtr := by
  refine ⟨{ Tls.threadInit .empty 4 with heap := [some [some 4, some 120, some 97, some 0]] }, { construct with ptr := .blk 0, pos := 2 }, rfl, ?_⟩
  exact replace_overlaps _ _ _ _ _ [120, 97] nofun rfl nofun (by decide) (.inr (by decide)) (by decide)

/-- `"XX"` in `"XXXaXX"`: two occurrences that do not overlap. -/
example : ReplacedAll [88, 88] [89, 89, 89] [88, 88, 88, 97, 88, 88] 2 [89, 89, 89, 88, 97, 89, 89, 89] := by
  refine .inr ⟨nofun, 3, by decide, ?_⟩
  have m (p d : List UInt8) (i : Nat) (h : i + p.length ≤ d.length) (h2 : (d.drop i).take p.length = p) :
      FastFind.Spec.MatchAt (· == ·) p d i := by
    refine ⟨h, fun k a b ha hb => ?_⟩
    have hk : k < p.length := (List.getElem?_eq_some_iff.1 ha).1
    rw [← h2, List.getElem?_take_of_lt hk, List.getElem?_drop, hb] at ha
    cases ha; simp
  have n (p d : List UInt8) (i : Nat) (h : ¬ (i + p.length ≤ d.length ∧ (d.drop i).take p.length = p)) :
      ¬ FastFind.Spec.MatchAt (· == ·) p d i := by
    rintro ⟨h1, h2⟩
    refine h ⟨h1, ?_⟩
    refine List.ext_getElem? fun k => ?_
    by_cases hk : k < p.length
    · rw [List.getElem?_take_of_lt hk, List.getElem?_drop]
      have hk' : i + k < d.length := by omega
      rw [List.getElem?_eq_getElem hk, List.getElem?_eq_getElem hk']
      have := h2 k _ _ (List.getElem?_eq_getElem hk) (List.getElem?_eq_getElem hk')
      rw [eq_of_beq this]
    · rw [List.getElem?_eq_none (by simp; omega), List.getElem?_eq_none (by omega)]
  refine .step (pre := []) (m := [88, 88]) (post := [88, 97, 88, 88]) (m _ _ _ (by decide) rfl) rfl nofun ?_
  refine .step (pre := [88, 97]) (m := [88, 88]) (post := []) (m _ _ _ (by decide) rfl) rfl (fun j hj => n _ _ _ ?_) ?_
  · simp at hj
    rcases (show j = 0 ∨ j = 1 by omega) with rfl | rfl <;> decide
  · exact .none _ _ fun i h => absurd h.1 (by simp)

/-- The hypotheses of `replace_data_partial` can be met, by both ways of replacing. -/
example : AllowedReplace 12 true { mode := .str, int := 0, dbl := 0, str := some (known [97, 98]) } [97] [] [97, 98] :=
  ⟨rfl, by decide, by decide, fun h => absurd h (by decide), fun _ => ⟨rfl, nofun⟩⟩

example : AllowedReplace 12 false { mode := .str, int := 0, dbl := 0, str := some (known [97]) } [97] [98, 99] [97] := by
  refine ⟨rfl, by decide, by decide, fun _ k out h => ?_, fun h => absurd h (by decide)⟩
  have hg : growth [97] [98, 99] = 1024 := by decide
  rw [hg]
  refine ⟨by decide, ?_⟩
  rcases h with ⟨h, _⟩ | ⟨_, n, _, h⟩
  · cases h
  · have h1 := FastFind.replaced_length h
    have h2 := replaced_le h
    simp at h1 h2
    omega

end Verif.TlsVar
