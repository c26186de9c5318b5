import Verif.Path.Model
import Verif.Path.Spec
import Verif.Utf8.Props

/-!
# Lemmas on `GetPlatformFilename` and `GetPlatformFilenameInfo`
-/

namespace Verif.Path
open Spec Verif.Utf8 Verif.Utf8.Spec

/-! ## C strings -/

theorem cstr_ok : ∀ (s rest : List Nat), 0 ∉ s → cstr (s ++ 0 :: rest) = .ok s
  | [], rest, _ => by simp [cstr]
  | c :: s, rest, h => by
    rw [List.cons_append, cstr, if_neg (fun e => h (by simp [e])), cstr_ok s rest (fun e => h (List.mem_cons_of_mem _ e))]
    rfl

/-- The string of an object that contains a zero somewhere. -/
theorem cstr_upto : ∀ (s rest : List Nat), ∃ p, cstr (s ++ 0 :: rest) = .ok p ∧ p <+: s ∧ 0 ∉ p
  | [], rest => ⟨[], by simp [cstr]⟩
  | c :: s, rest => by
    rw [List.cons_append, cstr]
    by_cases h : c = 0
    · exact ⟨[], by simp [h]⟩
    · obtain ⟨p, h1, h2, h3⟩ := cstr_upto s rest
      refine ⟨c :: p, by rw [if_neg h, h1]; rfl, List.cons_prefix_cons.2 ⟨rfl, h2⟩, ?_⟩
      intro e
      rcases List.mem_cons.1 e with e | e
      · exact h e.symm
      · exact h3 e

/-! ## The conversion does not lengthen a byte string -/

theorem enc8_len_le (n : Nat) : (enc8 n).length ≤ 4 ∧ (n < 0x10000 → (enc8 n).length ≤ 3) ∧
    (n < 0x800 → (enc8 n).length ≤ 2) ∧ (n < 0x80 → (enc8 n).length = 1) := by
  unfold enc8
  (repeat' split) <;> simp <;> omega

theorem decodeAt_len (src : List Nat) (x cp len : Nat) (h : decodeAt src x = .ok (some (cp, len))) :
    (enc8 cp).length ≤ len := by
  obtain ⟨l4, l3, l2, l1⟩ := enc8_len_le cp
  unfold decodeAt at h
  cases er : rd src x with
  | error e => rw [er] at h; cases h
  | ok b =>
    rw [er] at h
    simp only [ok_bind] at h
    split at h
    · cases h
      exact Nat.le_of_eq (l1 (by omega))
    · cases e2 : andThen (x + 1 < src.length && (b &&& 0xE0) == 0xC0) (conts src (x + 1) 1) with
      | error e => rw [e2] at h; cases h
      | ok c2 =>
        rw [e2, ok_bind] at h
        cases c2 with
        | true =>
          simp only [if_true] at h
          cases e : rd src (x + 1) with
          | error e' => rw [e] at h; cases h
          | ok b1 =>
            rw [e, ok_bind] at h
            cases h
            apply l2
            rw [and_1f, and_3f, shift_or (by omega)]
            omega
        | false =>
          simp only [Bool.false_eq_true, if_false] at h
          cases e3 : andThen (x + 2 < src.length && (b &&& 0xF0) == 0xE0) (conts src (x + 1) 2) with
          | error e => rw [e3] at h; cases h
          | ok c3 =>
            rw [e3, ok_bind] at h
            cases c3 with
            | true =>
              simp only [if_true] at h
              cases e : rd src (x + 1) with
              | error e' => rw [e] at h; cases h
              | ok b1 =>
                rw [e, ok_bind] at h
                cases e' : rd src (x + 2) with
                | error e'' => rw [e'] at h; cases h
                | ok b2 =>
                  rw [e', ok_bind] at h
                  cases h
                  apply l3
                  rw [and_0f, and_3f, and_3f, Nat.or_assoc, shift_or (show b2 % 64 < 2 ^ 6 by omega),
                    shift_or (show b1 % 64 * 2 ^ 6 + b2 % 64 < 2 ^ 12 by omega)]
                  omega
            | false =>
              simp only [Bool.false_eq_true, if_false] at h
              cases e4 : andThen (x + 3 < src.length && (b &&& 0xF8) == 0xF0)
                (conts src (x + 1) 3) with
              | error e => rw [e4] at h; cases h
              | ok c4 =>
                rw [e4, ok_bind] at h
                cases c4 with
                | true =>
                  simp only [if_true] at h
                  cases e : rd src (x + 1) with
                  | error e' => rw [e] at h; cases h
                  | ok b1 =>
                    rw [e, ok_bind] at h
                    cases e' : rd src (x + 2) with
                    | error e'' => rw [e'] at h; cases h
                    | ok b2 =>
                      rw [e', ok_bind] at h
                      cases e'' : rd src (x + 3) with
                      | error e3 => rw [e''] at h; cases h
                      | ok b3 =>
                        rw [e'', ok_bind] at h
                        cases h
                        exact l4
                | false =>
                  simp only [Bool.false_eq_true, if_false] at h
                  cases h

theorem codes1_len (src : List Nat) : ∀ (k x : Nat), (text 1 (codes1 src k x)).length ≤ src.length - x
  | 0, x => by simp [codes1, text]
  | k + 1, x => by
    rw [codes1]
    split
    · next hx =>
      obtain ⟨r, er, hr⟩ := decodeAt_total src x hx
      rw [er]
      cases r with
      | none =>
        have := codes1_len src k (x + 1)
        dsimp only
        omega
      | some p =>
        obtain ⟨cp, len⟩ := p
        obtain ⟨h1, h2⟩ := hr cp len rfl
        have := codes1_len src k (x + len)
        have := decodeAt_len src x cp len er
        dsimp only
        rw [text1_cons, List.length_append]
        omega
    · simp [text]

theorem text_sublist : ∀ {a b : List Nat}, a.Sublist b → (text 1 a).length ≤ (text 1 b).length
  | _, _, .slnil => by simp
  | _, _, .cons c h => by
    have := text_sublist h
    rw [text1_cons, List.length_append]
    omega
  | _, _, .cons_cons c h => by
    have := text_sublist h
    rw [text1_cons, text1_cons, List.length_append, List.length_append]
    omega

theorem accepted_sublist (L : List Nat) : (accepted 0 L).Sublist L := by
  unfold accepted
  rw [if_pos rfl]
  exact (List.dropWhile_sublist _).trans List.filter_sublist

theorem text_append_zero (K : List Nat) : text 1 (K ++ [0]) = text 1 K ++ [0] := by
  rw [text_append, text_zero 1 (.inl rfl)]

/-- Converting a terminated string: a terminated string of acceptable text comes out, which is not
longer, and it is the same if it was acceptable text. -/
theorem convert_name (f buf : List Nat) (size : Nat) (hf : f.length + 1 ≤ size) (hs : size ≤ buf.length) :
    ∃ K lp, GoodText K ∧ (text 1 K).length ≤ f.length ∧
      convertTo (f ++ [0]) 1 (some buf) size none = .ok (⟨some (text 1 K ++ 0 :: buf.drop ((text 1 K).length + 1)), (text 1 K).length + 1⟩, lp) ∧
      ∀ cps, GoodText cps → f = text 1 cps → text 1 K = f := by
  obtain ⟨L, hL⟩ := codes1_nul f ((f ++ [0]).length + 1) 0 (by simp) (by simp)
  obtain ⟨K, hK⟩ := accepted_nul L
  have hcodes : codes 1 (f ++ [0]) = L ++ [0] := by
    unfold codes
    rw [if_pos rfl]
    exact hL
  have hgood : GoodText (K ++ [0]) := by rw [← hK]; exact accepted_goodText _
  have hlen : (text 1 (K ++ [0])).length ≤ f.length + 1 := by
    rw [← hK]
    have h1 := text_sublist (accepted_sublist (L ++ [0]))
    have h2 := codes1_len (f ++ [0]) ((f ++ [0]).length + 1) 0
    rw [hL] at h2
    simp only [List.length_append, List.length_cons, List.length_nil] at h2
    omega
  have hp := pushAll_fit size (L ++ [0]) buf 0 (by rw [hK]; omega) hs
  rw [hK, stored_zero, text_append_zero] at hp
  obtain ⟨lp, e⟩ := convertTo_push (f ++ [0]) 1 (some buf) size none _ (by rw [hcodes]; exact hp)
  rw [text_append_zero, List.length_append] at hlen
  simp only [List.length_cons, List.length_nil] at hlen
  refine ⟨K, lp, ⟨fun c hc => hgood.1 c (by simp [hc]), ?_⟩, by omega, ?_, ?_⟩
  · intro c hc
    cases K with
    | nil => simp at hc
    | cons a t => exact hgood.2 c (by simpa using hc)
  · rw [e]
    simp
  · intro cps hc hfc
    have hg2 : GoodText (cps ++ [0]) := by
      refine ⟨?_, ?_⟩
      · intro c h
        rcases List.mem_append.1 h with h | h
        · exact hc.1 c h
        · rw [List.mem_singleton.1 h]; decide
      · intro c h
        cases cps with
        | nil => simp at h; subst h; decide
        | cons a t => exact hc.2 c (by simpa using h)
    have h1 : codes 1 (f ++ [0]) = cps ++ [0] := by
      rw [hfc, ← text_append_zero]
      exact codes_text 1 (.inl rfl) _ hg2.1
    rw [hcodes] at h1
    rw [h1, accepted_good hg2] at hK
    rw [← List.append_cancel_right hK, hfc]

/-! ## The loop over the characters -/

theorem rejected_iff (sgn : Bool) (c : Nat) : rejected sgn c = true ↔ Forbidden c ∨ (sgn = true ∧ 0x80 ≤ c) := by
  unfold rejected Forbidden
  cases sgn <;> simp <;> omega

theorem platLoop_ok (sgn : Bool) : ∀ (s pre post : List Nat),
    ∃ ok r, platLoop sgn s.length pre.length (pre ++ s ++ post) = .ok (ok, r) ∧
      r.length = (pre ++ s ++ post).length ∧
      (ok = true ↔ ∀ c ∈ s, rejected sgn c = false) ∧ (ok = true → r = pre ++ slashed s ++ post)
  | [], pre, post => ⟨true, _, rfl, rfl, by simp, by simp [slashed]⟩
  | c :: s, pre, post => by
    have hrd : rd (pre ++ (c :: s) ++ post) pre.length = .ok c := by unfold rd; simp
    rw [List.length_cons, platLoop, hrd, ok_bind]
    cases hc : rejected sgn c with
    | true => exact ⟨false, _, rfl, rfl, by simp [hc], by simp⟩
    | false =>
      rw [if_neg (by simp)]
      by_cases h92 : c = 92
      · rw [if_pos h92, List.append_assoc, List.cons_append, wr_append, ok_bind]
        obtain ⟨ok, r, h1, h2, h3, h4⟩ := platLoop_ok sgn s (pre ++ [47]) post
        refine ⟨ok, r, ?_, by simpa using h2, ?_, ?_⟩
        · rw [← h1]; simp
        · rw [h3]; simp [hc]
        · intro h; rw [h4 h]; simp [slashed, h92]
      · rw [if_neg h92]
        obtain ⟨ok, r, h1, h2, h3, h4⟩ := platLoop_ok sgn s (pre ++ [c]) post
        refine ⟨ok, r, ?_, by simpa using h2, ?_, ?_⟩
        · rw [← h1]; simp
        · rw [h3]; simp [hc]
        · intro h; rw [h4 h]; simp [slashed, h92]

/-- The names `GetPlatformFilename` accepts. -/
def Accepted (sgn : Bool) (size : Nat) (f : List Nat) : Prop :=
  f ≠ [] ∧ f.length + 1 ≤ size ∧ (∃ cps, GoodText cps ∧ f = text 1 cps) ∧ (∀ c ∈ f, ¬ Forbidden c) ∧
    (sgn = true → ∀ c ∈ f, c < 0x80)

theorem getPlatform_ok (sgn : Bool) (f rest buf : List Nat) (size : Nat) (h0 : 0 ∉ f) (hs : size ≤ buf.length) :
    ∃ ok r, getPlatform sgn buf size (f ++ 0 :: rest) = .ok (ok, r) ∧ r.length = buf.length ∧
      (ok = true ↔ Accepted sgn size f) ∧ (ok = true → r = slashed f ++ 0 :: buf.drop (f.length + 1)) := by
  unfold getPlatform
  rw [cstr_ok f rest h0, ok_bind]
  dsimp only
  by_cases hf : f.length + 1 > size
  · rw [if_pos hf]
    exact ⟨false, buf, rfl, rfl, ⟨(fun h => nomatch h), fun h => absurd h.2.1 (by omega)⟩, (fun h => nomatch h)⟩
  · rw [if_neg hf, show (f ++ 0 :: rest).take (f.length + 1) = f ++ [0] by rw [List.take_length_add_append]; simp]
    obtain ⟨K, lp, hK, hl, e, hsame⟩ := convert_name f buf size (by omega) hs
    rw [e, ok_bind]
    dsimp only
    obtain ⟨p, h1, h2, h3⟩ := cstr_upto (text 1 K) (buf.drop ((text 1 K).length + 1))
    rw [h1, ok_bind]
    have hlen : (text 1 K ++ 0 :: buf.drop ((text 1 K).length + 1)).length = buf.length := by simp; omega
    by_cases hp : p.length = 0 ∨ p ≠ f
    · rw [if_pos hp]
      refine ⟨false, _, rfl, hlen, ⟨(fun h => nomatch h), ?_⟩, (fun h => nomatch h)⟩
      rintro ⟨a1, a2, ⟨cps, a3, a4⟩, a5, a6⟩
      exfalso
      have := hsame cps a3 a4
      rw [this, cstr_ok f _ h0] at h1
      cases h1
      rcases hp with hp | hp
      · exact a1 (List.length_eq_zero_iff.1 hp)
      · exact hp rfl
    · rw [if_neg hp]
      have hpf : p = f := Classical.byContradiction fun h => hp (.inr h)
      subst hpf
      have hKf : text 1 K = p := (h2.eq_of_length_le hl).symm
      rw [hKf] at hlen ⊢
      obtain ⟨ok, r, g1, g2, g3, g4⟩ := platLoop_ok sgn p [] (0 :: buf.drop (p.length + 1))
      refine ⟨ok, r, by simpa using g1, by rw [g2, ← hlen]; simp, ?_, ?_⟩
      · rw [g3]
        constructor
        · intro h
          refine ⟨fun e => hp (.inl (by simp [e])), by omega, ⟨K, hK, hKf.symm⟩, ?_, ?_⟩
          · intro c hc hfb
            have := (rejected_iff sgn c).2 (.inl hfb)
            rw [h c hc] at this
            cases this
          · intro hs c hc
            apply Classical.byContradiction
            intro hn
            have := (rejected_iff sgn c).2 (.inr ⟨hs, by omega⟩)
            rw [h c hc] at this
            cases this
        · rintro ⟨_, _, _, a5, a6⟩ c hc
          cases hr : rejected sgn c with
          | false => rfl
          | true =>
            rcases (rejected_iff sgn c).1 hr with h | ⟨h, h'⟩
            · exact absurd h (a5 c hc)
            · have := a6 h c hc
              omega
      · intro h
        rw [g4 h]
        simp

/-! ## `GetPlatformFilenameInfo` -/

theorem rd_name {f rest : List Nat} {x : Nat} (h : x < f.length) : rd (f ++ rest) x = .ok f[x] := by
  unfold rd
  rw [List.getElem?_append_left h, List.getElem?_eq_getElem h]

theorem backSlash_ok (f rest : List Nat) : ∀ n, n ≤ f.length →
    ∃ s, s ≤ n ∧ backSlash (f ++ rest) n = .ok s ∧ (s = 0 ∨ f[s - 1]? = some 47) ∧
      ∀ j, s ≤ j → j < n → f[j]? ≠ some 47
  | 0, _ => ⟨0, Nat.le_refl _, rfl, .inl rfl, by omega⟩
  | n + 1, h => by
    have hl : f[n]? = some f[n] := List.getElem?_eq_getElem h
    rw [backSlash, rd_name (by omega), ok_bind]
    by_cases hc : f[n] = 47
    · refine ⟨n + 1, Nat.le_refl _, by rw [if_neg (by simp [hc])], .inr (by rw [Nat.add_sub_cancel, hl, hc]), by omega⟩
    · obtain ⟨s, h1, h2, h3, h4⟩ := backSlash_ok f rest n (by omega)
      refine ⟨s, by omega, by rw [if_pos hc, h2], h3, ?_⟩
      intro j hj1 hj2
      by_cases hjn : j = n
      · subst hjn
        rw [hl]
        simpa using hc
      · exact h4 j hj1 (by omega)

theorem toDot_ok (f rest : List Nat) : ∀ k x, x + k ≤ f.length →
    ∃ e, x ≤ e ∧ e ≤ x + k ∧ toDot (f ++ rest) k x = .ok e ∧ (e = x + k ∨ f[e]? = some 46) ∧
      ∀ j, x ≤ j → j < e → f[j]? ≠ some 46
  | 0, x, _ => ⟨x, Nat.le_refl _, Nat.le_refl _, rfl, .inl rfl, by omega⟩
  | k + 1, x, h => by
    have hx : x < f.length := by omega
    have hl : f[x]? = some f[x] := List.getElem?_eq_getElem hx
    rw [toDot, rd_name hx, ok_bind]
    by_cases hc : f[x] = 46
    · exact ⟨x, Nat.le_refl _, by omega, by rw [if_neg (by simp [hc])], .inr (by rw [hl, hc]), by omega⟩
    · obtain ⟨e, h1, h2, h3, h4, h5⟩ := toDot_ok f rest k (x + 1) (by omega)
      refine ⟨e, by omega, by omega, by rw [if_pos hc, h3], by rw [show x + (k + 1) = x + 1 + k by omega]; exact h4, ?_⟩
      intro j hj1 hj2
      by_cases hjn : j = x
      · subst hjn
        rw [hl]
        simpa using hc
      · exact h5 j (by omega) hj2

theorem lastDot_ok (f rest : List Nat) : ∀ k x last, x + k ≤ f.length →
    ∃ l, lastDot (f ++ rest) k x last = .ok l ∧
      ((l = last ∧ ∀ j, x ≤ j → j < x + k → f[j]? ≠ some 46) ∨
       (x ≤ l ∧ l < x + k ∧ f[l]? = some 46 ∧ ∀ j, l < j → j < x + k → f[j]? ≠ some 46))
  | 0, x, last, _ => ⟨last, rfl, .inl ⟨rfl, by omega⟩⟩
  | k + 1, x, last, h => by
    have hx : x < f.length := by omega
    have hl : f[x]? = some f[x] := List.getElem?_eq_getElem hx
    rw [lastDot, rd_name hx, ok_bind]
    obtain ⟨l, h1, h2⟩ := lastDot_ok f rest k (x + 1) (if f[x] = 46 then x else last) (by omega)
    refine ⟨l, h1, ?_⟩
    rcases h2 with ⟨h2, h3⟩ | ⟨h2, h3, h4, h5⟩
    · by_cases hc : f[x] = 46
      · rw [if_pos hc] at h2
        subst h2
        exact .inr ⟨Nat.le_refl _, by omega, by rw [hl, hc], fun j hj1 hj2 => h3 j (by omega) (by omega)⟩
      · rw [if_neg hc] at h2
        refine .inl ⟨h2, ?_⟩
        intro j hj1 hj2
        by_cases hjn : j = x
        · subst hjn
          rw [hl]
          simpa using hc
        · exact h3 j (by omega) (by omega)
    · exact .inr ⟨by omega, by omega, h4, fun j hj1 hj2 => h5 j hj1 (by omega)⟩

/-- `GetPlatformFilenameInfo` of a terminated string only returns; its length is the string's. -/
theorem info_length (f rest : List Nat) (h0 : 0 ∉ f) : ∃ i, info (f ++ 0 :: rest) = .ok i ∧ i.length = f.length := by
  unfold info
  rw [cstr_ok f rest h0, ok_bind]
  obtain ⟨s, h1, h2, _⟩ := backSlash_ok f (0 :: rest) f.length (Nat.le_refl _)
  obtain ⟨e, k1, k2, k3, _⟩ := toDot_ok f (0 :: rest) (f.length - s) s (by omega)
  obtain ⟨l, g1, _⟩ := lastDot_ok f (0 :: rest) (f.length - e) e e (by omega)
  dsimp only
  rw [h2, ok_bind, k3, ok_bind, g1, ok_bind]
  exact ⟨_, rfl, rfl⟩

end Verif.Path
