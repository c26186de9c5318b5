import Verif.WinPath.NameLemmas
import Verif.Path.NameLemmas

/-!
# `GetPlatformFilename` on Windows as a whole
-/

namespace Verif.WinPath
open Spec Verif.Utf8 Verif.Utf8.Spec
open Verif.Path (cstr at_ cstr_ok cstr_upto convert_name)

/-- Slashes replaced. -/
def backed (f : List Nat) : List Nat := f.map (fun c => if c = 47 then 92 else c)

/-- The code before the replacement of slashes. -/
theorem getPlatform_upto (sgn : Bool) (reg : List Nat → Option Nat) (f rest buf : List Nat) (size : Nat) (allow : Bool)
    (h0 : 0 ∉ f) (hs : size ≤ buf.length) :
    (¬ (f ≠ [] ∧ f.length + 1 ≤ size ∧ ∃ cps, GoodText cps ∧ f = text 1 cps) →
      ∃ r, getPlatform sgn reg buf size (f ++ 0 :: rest) allow = .ok (false, r) ∧ r.length = buf.length) ∧
    (f ≠ [] ∧ f.length + 1 ≤ size ∧ (∃ cps, GoodText cps ∧ f = text 1 cps) →
      getPlatform sgn reg buf size (f ++ 0 :: rest) allow =
        checkName sgn reg f.length size (backed f ++ 0 :: buf.drop (f.length + 1)) allow) := by
  unfold getPlatform
  rw [cstr_ok f rest h0, ok_bind]
  dsimp only
  by_cases hf : f.length + 1 > size
  · rw [if_pos hf]
    exact ⟨fun _ => ⟨_, rfl, rfl⟩, fun h => absurd h.2.1 (by omega)⟩
  · rw [if_neg hf, show (f ++ 0 :: rest).take (f.length + 1) = f ++ [0] by rw [List.take_length_add_append]; simp]
    obtain ⟨K, lp, hK, hl, e, hsame⟩ := convert_name f buf size (by omega) hs
    rw [e, ok_bind]
    dsimp only
    obtain ⟨p, h1, h2, h3⟩ := cstr_upto (text 1 K) (buf.drop ((text 1 K).length + 1))
    rw [h1, ok_bind]
    have hlen : (text 1 K ++ 0 :: buf.drop ((text 1 K).length + 1)).length = buf.length := by simp; omega
    by_cases hp : p.length = 0 ∨ p ≠ f
    · rw [if_pos hp]
      refine ⟨fun _ => ⟨_, rfl, hlen⟩, ?_⟩
      rintro ⟨a1, a2, ⟨cps, a3, a4⟩⟩
      exfalso
      have := hsame cps a3 a4
      rw [this, cstr_ok f _ h0] at h1
      cases h1
      rcases hp with hp | hp
      · exact a1 (List.length_eq_zero_iff.1 hp)
      · exact hp rfl
    · rw [if_neg hp]
      have hpf : p = f := Classical.byContradiction fun h => hp (.inr h)
      subst hpf
      have hKf : text 1 K = p := (h2.eq_of_length_le hl).symm
      rw [hKf] at hlen ⊢
      refine ⟨fun h => absurd ⟨fun e => hp (.inl (by simp [e])), by omega, K, hK, hKf.symm⟩ h, fun _ => ?_⟩
      have := slashLoop_ok p [] (0 :: buf.drop (p.length + 1))
      rw [List.nil_append, List.length_nil, List.nil_append] at this
      rw [this, ok_bind]
      rfl

theorem canon_backed (f : List Nat) : canon f = if preNt <+: backed f then uni ++ (backed f).drop 4 else backed f := rfl

theorem canon_len (f : List Nat) : (canon f).length = f.length := by
  rw [canon_backed]
  have : (backed f).length = f.length := by simp [backed]
  split
  · next h =>
    have := h.length_le
    simp [preNt, uni] at *
    omega
  · exact this

theorem getPlatform_keeps (sgn : Bool) (reg : List Nat → Option Nat) (f rest buf : List Nat) (size : Nat) (allow : Bool)
    (h0 : 0 ∉ f) (hs : size ≤ buf.length) (hv : ¬ vol <+: canon f) (h4 : size ≠ f.length + 4) (h6 : size ≠ f.length + 6) :
    ∃ ok r, getPlatform sgn reg buf size (f ++ 0 :: rest) allow = .ok (ok, r) ∧ r.length = buf.length ∧
      (ok = true ↔ f ≠ [] ∧ f.length + 1 ≤ size ∧ (∃ cps, GoodText cps ∧ f = text 1 cps) ∧
        if Device (canon f) then allow = true
        else CodeAccepts sgn (canon f) ∧ (codeNormal (canon f)).length + 1 ≤ size) ∧
      (ok = true → ∃ k, r = (if Device (canon f) then canon f else codeNormal (canon f)) ++ 0 :: buf.drop k) := by
  obtain ⟨hbad, hgood⟩ := getPlatform_upto sgn reg f rest buf size allow h0 hs
  by_cases ht : f ≠ [] ∧ f.length + 1 ≤ size ∧ ∃ cps, GoodText cps ∧ f = text 1 cps
  · rw [hgood ht]
    have hbl : (backed f).length = f.length := by simp [backed]
    have hcl := canon_len f
    obtain ⟨c1, c2, c3⟩ := checkName_upto sgn reg size (backed f) (buf.drop (f.length + 1)) allow (canon f) (canon_backed f)
    rw [hbl] at c1 c2 c3
    by_cases hd : Device (canon f)
    · rw [c1 hd, if_pos hd, if_pos hd]
      refine ⟨_, _, rfl, ?_, ⟨fun h => ⟨ht.1, ht.2.1, ht.2.2, h⟩, fun h => h.2.2.2⟩, fun _ => ⟨_, rfl⟩⟩
      simp; omega
    · rw [if_neg hd, if_neg hd]
      by_cases ha : CodeAccepts sgn (canon f)
      · rw [c3 hd ha]
        have hll := lifted_len (canon f)
        have hl2 : (lifted (canon f) ++ 0 :: buf.drop (f.length + 1)).length = buf.length := by simp; omega
        obtain ⟨ok, r, e1, e2, e3, e4⟩ := prefixes_ok reg (canon f) (buf.drop (f.length + 1)) size hv (by omega)
          (by omega) (by rw [hcl]; exact h4) (by rw [hcl]; exact h6)
        exact ⟨ok, r, e1, by omega, e3.trans ⟨fun h => ⟨ht.1, ht.2.1, ht.2.2, ha, h⟩, fun h => h.2.2.2.2⟩,
          fun hok => by obtain ⟨k, hk⟩ := e4 hok; exact ⟨_, by rw [hk, List.drop_drop]⟩⟩
      · rw [c2 hd ha]
        have hll := lifted_len (canon f)
        exact ⟨_, _, rfl, by simp; omega, ⟨(fun h => nomatch h), fun h => absurd h.2.2.2.1 ha⟩, (fun h => nomatch h)⟩
  · obtain ⟨r, e1, e2⟩ := hbad ht
    exact ⟨_, _, e1, e2, ⟨(fun h => nomatch h), fun h => absurd ⟨h.1, h.2.1, h.2.2.1⟩ ht⟩, (fun h => nomatch h)⟩

theorem getPlatform_ok (sgn : Bool) (reg : List Nat → Option Nat) (f rest buf : List Nat) (size : Nat) (allow : Bool)
    (h0 : 0 ∉ f) (hs : size ≤ buf.length) (hv : ¬ vol <+: canon f) (h4 : size ≠ f.length + 4) (h6 : size ≠ f.length + 6) :
    ∃ ok r, getPlatform sgn reg buf size (f ++ 0 :: rest) allow = .ok (ok, r) ∧ r.length = buf.length ∧
      (ok = true ↔ f ≠ [] ∧ f.length + 1 ≤ size ∧ (∃ cps, GoodText cps ∧ f = text 1 cps) ∧
        if Device (canon f) then allow = true
        else CodeAccepts sgn (canon f) ∧ (codeNormal (canon f)).length + 1 ≤ size) ∧
      (ok = true → Holds r (if Device (canon f) then canon f else codeNormal (canon f))) := by
  obtain ⟨ok, r, e1, e2, e3, e4⟩ := getPlatform_keeps sgn reg f rest buf size allow h0 hs hv h4 h6
  exact ⟨ok, r, e1, e2, e3, fun h => by obtain ⟨k, hk⟩ := e4 h; exact ⟨_, hk⟩⟩

theorem codeNormal_eq (s : List Nat) (hv : ¬ uni ++ vol <+: s) : codeNormal s = normal s := by
  unfold codeNormal normal
  split
  · rfl
  · split
    · next hu =>
      obtain ⟨t, rfl⟩ := hu
      split
      · rfl
      · rw [if_neg]
        intro h
        exact hv (List.prefix_append_right_inj _ |>.2 h)
    · rfl

theorem codeAccepts_iff (sgn : Bool) (s : List Nat) (hb : sgn = true → ∀ c ∈ s, c < 0x80)
    (hr : ∀ g, (pieces (body s)).head? = some g → Reserved (stem g) → body s = s) :
    CodeAccepts sgn s ↔ Acceptable s := by
  obtain ⟨cur, h1, h2, h3, h4⟩ := start_split s
  have hll := lifted_len s
  have hmem : ∀ c ∈ body s, c ∈ s := by
    intro c hc
    rw [body_root] at hc
    unfold afterDrive at hc
    split at hc
    · exact List.mem_of_mem_drop (List.mem_of_mem_drop hc)
    · exact List.mem_of_mem_drop hc
  have hchar : (∀ c ∈ body s, rejected sgn c = false) ↔ ∀ c ∈ body s, ¬ Forbidden c := by
    constructor
    · intro h c hc hf
      have := (rejected_iff sgn c).2 (.inl hf)
      rw [h c hc] at this
      cases this
    · intro h c hc
      cases hr : rejected sgn c with
      | false => rfl
      | true =>
        rcases (rejected_iff sgn c).1 hr with hf | ⟨hs, hf⟩
        · exact absurd hf (h c hc)
        · have := hb hs c (hmem c hc); omega
  unfold CodeAccepts Acceptable
  rw [hchar]
  refine and_congr_right fun _ => ?_
  by_cases h0 : start s = 0
  · rw [if_pos h0]
  · rw [if_neg h0]
    obtain ⟨g, gs, hg⟩ := pieces_cons (body s)
    rw [hg]
    constructor
    · intro h w hw
      rcases List.mem_cons.1 hw with rfl | hw
      · intro hres
        have hbs := hr w (by rw [hg]; rfl) hres
        rw [h1, List.length_append, hbs] at hll
        omega
      · exact h w hw
    · intro h w hw
      exact h w (List.mem_cons_of_mem _ hw)

end Verif.WinPath
