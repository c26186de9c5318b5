import Verif.WinDir.NameLemmas

/-!
# The absolute name in UTF-16
-/

namespace Verif.WinDir
open Spec
open Verif.Path (join join_nil join_cons join_append Plain cstr)
open Verif.Path.Spec (dot dotdot walk)
open Verif.WinPath (info)
open Verif.WinPath.Spec (canon normal uni unc Begins fold)
open Verif.WinAbs
open Verif.WinAbs.Spec (volume comps resolve prefixLen)
open Verif.Utf8.Spec (GoodText text enc enc8 enc16 Valid Combining)
open Verif.WinOps (Txt text_append enc8_ascii enc8_big enc8_ne ascii_valid text2_len text2_zero good_zero text_ascii fold_small begins_ascii)

/-! ## UTF-16 forms -/

theorem text2_ascii : ∀ {s : List Nat}, (∀ c ∈ s, c < 0x80) → text 2 s = s
  | [], _ => rfl
  | c :: s, h => by
    rw [Utf8.text_cons, text2_ascii (fun x hx => h x (List.mem_cons_of_mem _ hx))]
    have hc := h c List.mem_cons_self
    show enc16 c ++ s = c :: s
    unfold enc16
    rw [if_pos (by omega)]
    rfl

theorem same_nil : Same16 [] [] := ⟨[], (fun c h => nomatch h), rfl, rfl⟩

theorem same_ascii {s : List Nat} (h : ∀ c ∈ s, c < 0x80) : Same16 s s :=
  ⟨s, fun c hc => ascii_valid (h c hc), (text_ascii h).symm, (text2_ascii h).symm⟩

theorem Spec.Same16.append {a b a' b' : List Nat} (h : Same16 a a') (k : Same16 b b') : Same16 (a ++ b) (a' ++ b') := by
  obtain ⟨x, hx, rfl, rfl⟩ := h
  obtain ⟨y, hy, rfl, rfl⟩ := k
  refine ⟨x ++ y, ?_, (text_append 1 x y).symm, (text_append 2 x y).symm⟩
  intro c hc
  rcases List.mem_append.1 hc with hc | hc
  · exact hx c hc
  · exact hy c hc

theorem txt_same {s : List Nat} (h : Txt s) : ∃ w, Same16 s w := by
  obtain ⟨cps, h1, h2⟩ := h
  exact ⟨_, cps, h1, h2, rfl⟩

theorem Spec.Same16.len {s w : List Nat} (h : Same16 s w) : w.length ≤ s.length := by
  obtain ⟨cps, _, rfl, rfl⟩ := h
  exact text2_len cps

theorem text2_no {x : Nat} (hx : x < 0x80) : ∀ {cps : List Nat}, x ∉ text 1 cps → x ∉ text 2 cps
  | [], _ => by simp [text]
  | c :: cps, h => by
    rw [Utf8.text1_cons] at h
    rw [Utf8.text_cons]
    intro hm
    rcases List.mem_append.1 hm with hm | hm
    · apply h
      apply List.mem_append_left
      change x ∈ enc16 c at hm
      unfold enc16 at hm
      split at hm
      · simp only [List.mem_cons, List.not_mem_nil, or_false] at hm
        rw [← hm, enc8_ascii hx]
        simp
      · simp only [List.mem_cons, List.not_mem_nil, or_false] at hm
        omega
    · exact text2_no hx (fun hm' => h (List.mem_append_right _ hm')) hm

theorem Spec.Same16.no {s w : List Nat} (h : Same16 s w) {x : Nat} (hx : x < 0x80) (hs : x ∉ s) : x ∉ w := by
  obtain ⟨cps, _, rfl, rfl⟩ := h
  exact text2_no hx hs

theorem Spec.Same16.ne {s w : List Nat} (h : Same16 s w) (hs : s ≠ []) : w ≠ [] := by
  obtain ⟨cps, _, rfl, rfl⟩ := h
  cases cps with
  | nil => exact absurd rfl hs
  | cons c cps =>
    rw [Utf8.text_cons]
    intro e
    have : enc16 c = [] := (List.append_eq_nil_iff.1 e).1
    unfold enc16 at this
    split at this <;> cases this

theorem txt_list : ∀ {cs : List (List Nat)}, (∀ g ∈ cs, Txt g) → ∃ cs', List.Forall₂ Same16 cs cs'
  | [], _ => ⟨[], .nil⟩
  | g :: cs, h => by
    obtain ⟨w, hw⟩ := txt_same (h g List.mem_cons_self)
    obtain ⟨ws, hws⟩ := txt_list (fun x hx => h x (List.mem_cons_of_mem _ hx))
    exact ⟨w :: ws, .cons hw hws⟩

theorem path_nil : path [] = [] := rfl
theorem path_cons (g : List Nat) (gs : List (List Nat)) : path (g :: gs) = 92 :: (g ++ path gs) := rfl
theorem path_append (a b : List (List Nat)) : path (a ++ b) = path a ++ path b := by simp [path]

theorem same_path {cs cs' : List (List Nat)} (h : List.Forall₂ Same16 cs cs') : Same16 (path cs) (path cs') := by
  induction h with
  | nil => exact same_nil
  | @cons g g' l l' h1 _ ih =>
    rw [path_cons, path_cons]
    exact (same_ascii (s := [92]) (by decide)).append (h1.append ih)

theorem forall_mem {cs cs' : List (List Nat)} (h : List.Forall₂ Same16 cs cs') {P Q : List Nat → Prop}
    (hP : ∀ g ∈ cs, P g) (hPQ : ∀ g w, Same16 g w → P g → Q w) : ∀ g ∈ cs', Q g := by
  induction h with
  | nil => intro g hg; cases hg
  | cons h1 _ ih =>
    intro g hg
    rcases List.mem_cons.1 hg with rfl | hg
    · exact hPQ _ _ h1 (hP _ List.mem_cons_self)
    · exact ih (fun x hx => hP x (List.mem_cons_of_mem _ hx)) g hg

theorem path_zero {cs : List (List Nat)} (h : ∀ g ∈ cs, 0 ∉ g) : 0 ∉ path cs := by
  intro hm
  obtain ⟨g, hg, hm⟩ := List.mem_flatMap.1 hm
  rcases List.mem_cons.1 hm with hm | hm
  · cases hm
  · exact h g hg hm

/-- The conversion of a terminated name. -/
theorem convert_ok {s w : List Nat} (h : Same16 s w) (hb : s.head? = some 92) (tl wj : List Nat) (hw : wj.length = 8192) (hl : s.length + 1 ≤ 8192) :
    Utf8.convertFrom ((s ++ 0 :: tl).take (s.length + 1)) (some wj) 8192 2 =
      .ok ⟨some (w ++ 0 :: wj.drop (w.length + 1)), w.length + 1⟩ := by
  obtain ⟨cps, hv, rfl, rfl⟩ := h
  have hg : GoodText cps := by
    cases cps with
    | nil => cases hb
    | cons c cps =>
      obtain ⟨c2, h1, h2⟩ := Txt.good (c := 92) (s := (text 1 (c :: cps)).tail) (by
        refine ⟨c :: cps, hv, ?_⟩
        cases hx : text 1 (c :: cps) with
        | nil => rw [hx] at hb; cases hb
        | cons y ys => rw [hx] at hb; cases hb; rfl) (by decide)
      refine ⟨hv, ?_⟩
      intro x hx
      cases hx
      rw [Utf8.text1_cons] at hb
      have : c = 92 := by
        by_cases hc : c < 0x80
        · rw [enc8_ascii hc] at hb
          simpa using hb
        · have hbig := enc8_big hc
          cases he : enc8 c with
          | nil => exact absurd he (enc8_ne c)
          | cons y ys =>
            rw [he] at hb hbig
            have := hbig y List.mem_cons_self
            simp at hb
            omega
      subst this
      decide
  have ht : (text 1 cps ++ 0 :: tl).take ((text 1 cps).length + 1) = text 1 (cps ++ [0]) := by
    rw [text_append, List.take_length_add_append]
    rfl
  have hl2 := text2_len cps
  have h2 : text 2 (cps ++ [0]) = text 2 cps ++ [0] := by rw [text_append]; rfl
  have := (Utf8.round_trip 2 (.inl rfl) (cps ++ [0]) (good_zero hg) (List.replicate ((text 1 cps).length + 1) 0) wj
    ((text 1 cps).length + 1) 8192 none (by rw [text_append]; simp [text, enc, enc8])
    (by simp) (by rw [h2]; simp; omega) (by omega)).2
  rw [ht, this, h2]
  simp

/-! ## The current directory -/

/-- The current directory, in UTF-16 and in UTF-8: text that does not start with a combining mark, that fits in the buffer and is not a
volume name. -/
def Cwd16 : Option (List Nat) → Option (List Nat) → Prop
  | none, d => d = none
  | some w, d => ∃ cps, GoodText cps ∧ w = text 2 cps ∧ d = some (text 1 cps) ∧ (text 1 cps).length ≤ 8191 ∧ Fit (text 1 cps)

theorem cwdText_ok (E : Env) (hE : E.Good) {w d : Option (List Nat)} (h : Cwd16 w d) :
    ∃ cr, cwdText E w = .ok (d.map (· ++ 0 :: cr)) := by
  cases w with
  | none => cases h; exact ⟨[], rfl⟩
  | some w =>
    obtain ⟨cps, hg, rfl, rfl, hl, _⟩ := h
    have hl2 := text2_len cps
    have h2 : text 2 (cps ++ [0]) = text 2 cps ++ [0] := by rw [text_append]; rfl
    have h1 : text 1 (cps ++ [0]) = text 1 cps ++ [0] := by rw [text_append]; rfl
    obtain ⟨lp, hr⟩ := (Utf8.round_trip 2 (.inl rfl) (cps ++ [0]) (good_zero hg) E.cjunk (List.replicate 8192 0) 8192 8192 none
      (by rw [h1]; simp; omega) (by rw [hE.lc]) (by rw [h2, List.length_append, List.length_singleton]; omega) (by rw [List.length_replicate])).1
    refine ⟨E.cjunk.drop ((text 1 cps).length + 1), ?_⟩
    unfold cwdText
    dsimp only
    rw [if_neg (by omega), ← h2, hr, ok_bind, h1]
    simp

/-! ## The volume of an absolute name -/

theorem volume_parts {us : List (List Nat)} (h : Rooted us) : ∃ pre v, sw (join us) = pre ++ v ∧ 92 ∉ v ∧ (∀ c ∈ pre, c < 0x80) ∧
    pre.length ≠ 0 ∧ ∀ S, prefixLen (sw (join us) ++ path S) = pre.length := by
  cases h with
  | drive c w hc =>
    refine ⟨uni, sw (c :: 58 :: w), by simp [uni, swp], sw_noback hc, by decide, by decide, ?_⟩
    intro S
    have e : sw (join [[], [63], c :: 58 :: w]) ++ path S = uni ++ (sw (c :: 58 :: w) ++ path S) := by
      simp [uni, swp]
    rw [e]
    have hn : ¬ Begins unc (uni ++ (sw (c :: 58 :: w) ++ path S)) := by
      intro hb
      have : swp 58 = 58 := rfl
      unfold Begins at hb
      simp only [unc, uni, sw_cons, this, List.cons_append, List.map_cons, List.cons_prefix_cons, List.nil_append] at hb
      have := hb.2.2.2.2.2.1
      exact absurd this (by decide)
    unfold prefixLen
    rw [if_neg hn, if_pos (List.prefix_append _ _)]
    rfl
  | host u h hu hu47 hh =>
    have hl : u.length = 3 := WinPath.same_len hu
    have hswu : sw u = u := by
      have h92 : 92 ∉ u := by
        intro hm
        have : fold 92 ∈ u.map fold := List.mem_map_of_mem hm
        rw [show u.map fold = [85, 78, 67].map fold from hu] at this
        exact absurd this (by decide)
      unfold sw
      conv => rhs; rw [← List.map_id u]
      refine List.map_congr_left (fun c hc => ?_)
      unfold swp
      rw [if_neg (fun e : c = 47 => hu47 (e ▸ hc)), if_neg (fun e : c = 92 => h92 (e ▸ hc))]
      rfl
    have e : sw (join [[], [63], u, h]) = (uni ++ u ++ [92]) ++ sw h := by
      simp [uni, swp, hswu]
    have hmap : (uni ++ u ++ [92]).map fold = unc.map fold := by
      rw [List.map_append, List.map_append, show u.map fold = [85, 78, 67].map fold from hu]; decide
    have hl8 : (uni ++ u ++ [92]).length = 8 := by simp [uni, hl]
    refine ⟨uni ++ u ++ [92], sw h, e, sw_noback hh, ?_, by rw [hl8]; decide, ?_⟩
    · intro c hc
      apply fold_small
      have : fold c ∈ (uni ++ u ++ [92]).map fold := List.mem_map_of_mem hc
      rw [hmap] at this
      revert this
      generalize fold c = y
      revert y
      decide
    · intro S
      rw [e, List.append_assoc, hl8]
      unfold prefixLen
      rw [if_pos]
      unfold Begins
      rw [List.map_append, hmap]
      exact List.prefix_append _ _

theorem info_start (f rest : List Nat) (h0 : 0 ∉ f) : ∃ i, info (f ++ 0 :: rest) = .ok i ∧ i.startVolume = prefixLen f := by
  obtain ⟨pre, v, dir, stem, mid, last, h1, h2, h3, _⟩ := WinPath.win_name_parts f rest h0
  refine ⟨_, h2, ?_⟩
  show pre.length = _
  unfold prefixLen
  split
  · next hu =>
    rw [if_pos hu] at h3
    exact WinPath.same_len h3
  · next hu =>
    rw [if_neg hu] at h3
    split
    · next hu' => rw [if_pos hu'] at h3; rw [h3]; rfl
    · next hu' => rw [if_neg hu'] at h3; rw [h3]; rfl

/-! ## The name in both forms -/

/-- The absolute name `b` in UTF-8 and `w` in UTF-16, in their buffers. -/
structure Both (d : Option (List Nat)) (f : List Nat) (b w V' : List Nat) (cs' : List (List Nat)) : Prop where
  name : ∃ V cs, Named d f V cs ∧ Same16 V V' ∧ List.Forall₂ Same16 cs cs'
  wide : ∃ tl, w = V' ++ path cs' ++ 0 :: tl
  len : w.length = 8192
  zero : 0 ∉ V' ∧ ∀ g ∈ cs', 0 ∉ g
  good : ∀ g ∈ cs', g ≠ [] ∧ 92 ∉ g
  skip : ∃ i pre v, info b = .ok i ∧ V' = pre ++ v ∧ 92 ∉ v ∧ i.startVolume = pre.length
  vol : V' ≠ []

theorem absName_ok {σ : Type} (S : Sys σ) (E : Env) (hE : E.Good) (s : σ) (f rest : List Nat) (hf : Fit f) (d : Option (List Nat))
    (hd : Cwd16 (S.cwd s).2 d) :
    ∃ r, absName S E s (f ++ 0 :: rest) = .ok ((S.cwd s).1, r) ∧
      (∀ x, r = some x → ∃ b w V' cs', x = (b, w, (V' ++ path cs').length + 1) ∧ Both d f b w V' cs') ∧
      (∀ x, d = some x → Accepted E.sgn f → Accepted E.sgn x → uni <+: normal (canon x) →
        (normal (canon x)).length + (normal (canon f)).length ≤ 8188 → Simple (normal (canon x)) (normal (canon f)) → r ≠ none) := by
  obtain ⟨cr, hcr⟩ := cwdText_ok E hE hd
  have hd' : ∀ x, d = some x → Fit x := by
    intro x hx
    subst hx
    cases hw : (S.cwd s).2 with
    | none => rw [hw] at hd; cases hd
    | some w =>
      rw [hw] at hd
      obtain ⟨cps, _, _, h, _, h2⟩ := hd
      cases h
      exact h2
  obtain ⟨ok, r, g1, g2, g3, g4⟩ := abs_ok E hE f rest cr hf d hd'
  unfold absName
  rw [hcr, ok_bind, g1, ok_bind]
  dsimp only
  cases ok with
  | false =>
    refine ⟨none, rfl, (fun x h => nomatch h), ?_⟩
    intro x hx h1 h2 h3 h4 h5
    exact absurd (g4 x hx h1 h2 h3 h4 h5) (by decide)
  | true =>
    obtain ⟨V, cs, us, tl, hr, hp⟩ := g3 rfl
    obtain ⟨pre, v, hpv, hv92, hasc, hne, hpl⟩ := volume_parts hp.rooted
    rw [← hp.vol] at hpv hpl
    have hz : 0 ∉ V ++ path cs := by
      intro hm
      rcases List.mem_append.1 hm with hm | hm
      · exact hp.zero.1 hm
      · exact path_zero hp.zero.2 hm
    have hvT : Txt v := by
      have := Txt.drop (k := pre.length) (s := V) hp.text.1 (by rw [hpv, List.take_left]; exact hasc)
      rw [hpv, List.drop_left] at this
      exact this
    obtain ⟨v', hv'⟩ := txt_same hvT
    obtain ⟨cs', hcs'⟩ := txt_list hp.text.2
    have hVV : Same16 V (pre ++ v') := by rw [hpv]; exact (same_ascii hasc).append hv'
    have hall := hVV.append (same_path hcs')
    have hhead : (V ++ path cs).head? = some 92 := by
      obtain ⟨t, ht⟩ := hp.named.1
      rw [← ht]
      rfl
    have hlen : (V ++ path cs).length + 1 ≤ 8192 := by
      rw [hr] at g2
      simp at g2 ⊢
      omega
    rw [if_neg (by decide), hr, Path.cstr_ok _ _ hz, ok_bind, convert_ok hall hhead tl E.wjunk hE.lw hlen, ok_bind]
    dsimp only
    obtain ⟨i, hi1, hi2⟩ := info_start (V ++ path cs) tl hz
    refine ⟨_, rfl, ?_, (fun x _ _ _ _ _ _ h => nomatch h)⟩
    intro x hx
    cases hx
    have hl := hall.len
    refine ⟨_, _, pre ++ v', cs', rfl, ⟨V, cs, hp.named, hVV, hcs'⟩, ⟨_, rfl⟩, ?_, ⟨hVV.no (by decide) hp.zero.1, ?_⟩, ?_, ?_, ?_⟩
    · have := hE.lw
      simp at hl hlen ⊢
      omega
    · exact forall_mem hcs' hp.zero.2 (fun g w h hg => h.no (by decide) hg)
    · exact forall_mem hcs' hp.named.2.1 (fun g w h hg => ⟨h.ne hg.1, h.no (by decide) hg.2⟩)
    · exact ⟨i, pre, v', hi1, rfl, hv'.no (by decide) hv92, by rw [hi2, hpl]⟩
    · intro e
      have := congrArg List.length e
      simp at this
      exact hne (by rw [this.1]; rfl)

end Verif.WinDir
