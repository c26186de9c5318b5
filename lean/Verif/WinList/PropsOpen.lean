import Verif.WinList.Props
import Verif.WinDir.PropsMk

/-!
# C98: what is searched for on Windows
-/

namespace Verif.WinList
open Spec
open Verif.Path (cstr)
open Verif.WinPath.Spec (canon normal uni)
open Verif.WinAbs (Fit)
open Verif.WinAbs.Spec (resolve)
open Verif.WinDir
open Verif.WinDir.Spec

theorem pattern_ok (E : Env) (hE : E.Good) (f rest : List Nat) (hf : Fit f) (w d : Option (List Nat)) (hd : Cwd16 w d) :
    ∃ r, pattern E w (f ++ 0 :: rest) = .ok r ∧
      (∀ q, r = some q → ∃ V cs V' cs', Named d f V cs ∧ Same16 V V' ∧ List.Forall₂ Same16 cs cs' ∧ q = V' ++ path cs' ++ [92, 42]) ∧
      (∀ x, d = some x → Works E.sgn x f →
        ((resolve (normal (canon x)) (normal (canon f))).1 ++ path (resolve (normal (canon x)) (normal (canon f))).2).length ≤ 8189 → r ≠ none) := by
  obtain ⟨cr, hcr⟩ := cwdText_ok E hE hd
  have hd' : ∀ x, d = some x → Fit x := by
    intro x hx
    subst hx
    cases w with
    | none => cases hd
    | some w =>
      obtain ⟨cps, _, _, h, _, h2⟩ := hd
      cases h
      exact h2
  obtain ⟨ok, r, g1, g2, g3, g4⟩ := abs_tail true E hE f rest cr hf d hd'
  unfold pattern
  rw [hcr, ok_bind, g1, ok_bind]
  dsimp only
  cases ok with
  | false =>
    refine ⟨none, rfl, (fun x h => nomatch h), ?_⟩
    intro x hx h hl
    exact absurd (g4 x hx h.name h.dir h.rooted h.short h.simple (fun _ => by omega)) (by decide)
  | true =>
    obtain ⟨V, cs, us, tl, hr, hp⟩ := g3 rfl
    have htail : tail true = [92] := rfl
    rw [htail] at hr
    have hz : 0 ∉ V ++ path cs ++ [92] := by
      intro hm
      rcases List.mem_append.1 hm with hm | hm
      · rcases List.mem_append.1 hm with hm | hm
        · exact hp.zero.1 hm
        · exact path_zero hp.zero.2 hm
      · simp at hm
    rw [if_neg (by decide), hr, Path.cstr_ok _ _ hz, ok_bind]
    have hle : (V ++ path cs ++ [92]).length = (V ++ path cs).length + 1 := by rw [List.length_append]; rfl
    by_cases hlong : (V ++ path cs ++ [92]).length ≥ 8191
    · rw [if_pos hlong]
      refine ⟨none, rfl, (fun x h => nomatch h), ?_⟩
      intro x hx h hl
      have := hp.named.2.2.2 x (.inl hx) h.usual
      rw [← this] at hl
      dsimp only at hl
      omega
    · rw [if_neg hlong, wr_append, ok_bind]
      -- the rest of the buffer
      obtain ⟨c, tl', rfl⟩ : ∃ c tl', tl = c :: tl' := by
        cases tl with
        | nil => rw [hr] at g2; simp at g2 hlong; omega
        | cons c tl' => exact ⟨c, tl', rfl⟩
      have e1 : V ++ path cs ++ [92] ++ 42 :: c :: tl' = (V ++ path cs ++ [92, 42]) ++ c :: tl' := by simp
      have e2 : (V ++ path cs ++ [92]).length + 1 = (V ++ path cs ++ [92, 42]).length := by simp; omega
      have e3 : (V ++ path cs ++ [92]).length + 2 = (V ++ path cs ++ [92, 42]).length + 1 := by simp; omega
      rw [e1, e2, wr_append, ok_bind, e3]
      obtain ⟨V', hV'⟩ := txt_same hp.text.1
      obtain ⟨cs', hcs'⟩ := txt_list hp.text.2
      have hall : Same16 (V ++ path cs ++ [92, 42]) (V' ++ path cs' ++ [92, 42]) := (hV'.append (same_path hcs')).append (same_ascii (by decide))
      have hhead : (V ++ path cs ++ [92, 42]).head? = some 92 := by
        obtain ⟨t, ht⟩ := hp.named.1
        rw [← ht]
        rfl
      rw [convert_ok hall hhead tl' E.wjunk hE.lw (by omega), ok_bind]
      dsimp only
      have hz' : 0 ∉ V' ++ path cs' ++ [92, 42] := by
        intro hm
        rcases List.mem_append.1 hm with hm | hm
        · rcases List.mem_append.1 hm with hm | hm
          · exact hV'.no (by decide) hp.zero.1 hm
          · exact path_zero (forall_mem hcs' hp.zero.2 (fun g w h hg => h.no (by decide) hg)) hm
        · simp at hm
      rw [Path.cstr_ok _ _ hz', ok_bind]
      refine ⟨_, rfl, ?_, (fun _ _ _ _ h => nomatch h)⟩
      intro q hq
      cases hq
      exact ⟨V, cs, V', cs', hp.named, hV', hcs', rfl⟩

/-- C98: `Open` does nothing wrong with its memory; the system is asked for all entries of the directory (its path in UTF-16 followed by `\*`), or
not at all.  The path is what the name resolves to for the names of C88. -/
theorem win_open_pattern (E : Env) (hE : E.Good) (f rest : List Nat) (hf : Fit f) (w d : Option (List Nat)) (hd : Cwd16 w d) :
    ∃ r, pattern E w (f ++ 0 :: rest) = .ok r ∧
      ∀ q, r = some q → ∃ V cs V' cs', Named d f V cs ∧ Same16 V V' ∧ List.Forall₂ Same16 cs cs' ∧ q = V' ++ path cs' ++ [92, 42] := by
  obtain ⟨r, h1, h2, _⟩ := pattern_ok E hE f rest hf w d hd
  exact ⟨r, h1, h2⟩

/-- C98 (partial): for a name that the path functions handle as they should (see C88) and an absolute path of at most 8189 bytes the system is asked
for all entries of the directory meant. -/
theorem win_open_accepted_partial (E : Env) (hE : E.Good) (w d f rest : List Nat) (hd : Cwd16 (some w) (some d)) (hf : Works E.sgn d f)
    (hl : ((resolve (normal (canon d)) (normal (canon f))).1 ++ path (resolve (normal (canon d)) (normal (canon f))).2).length ≤ 8189)
    (V : List Nat) (cs : List (List Nat))
    (hV : Same16 (resolve (normal (canon d)) (normal (canon f))).1 V)
    (hcs : List.Forall₂ Same16 (resolve (normal (canon d)) (normal (canon f))).2 cs) :
    pattern E (some w) (f ++ 0 :: rest) = .ok (some (V ++ path cs ++ [92, 42])) := by
  obtain ⟨r, h1, h2, h3⟩ := pattern_ok E hE f rest hf.fit (some w) (some d) hd
  cases r with
  | none => exact absurd rfl (h3 d rfl hf hl)
  | some q =>
    obtain ⟨V0, cs0, V', cs', n1, n2, n3, rfl⟩ := h2 q rfl
    have := n1.2.2.2 d (.inl rfl) hf.usual
    rw [← this] at hV hcs
    rw [h1, same_unique n2 hV, same_list n3 hcs]

/-- `Open("d")` in `C:\` asks for `\\?\C:\d\*`. -/
example (E : Env) (hE : E.Good) : pattern E (some cee) [100, 0] = .ok (some [92, 92, 63, 92, 67, 58, 92, 100, 92, 42]) :=
  win_open_accepted_partial E hE cee cee [100] [] cee_cwd (cee_works E.sgn) (by rw [cee_resolve]; decide) ceeVol [[100]] cee_vol cee_comps

end Verif.WinList
