import Verif.WinAbs.Whole
import Verif.WinPath.Props
import Verif.Path.PropsAbs

/-!
# C88: absolute paths on Windows
-/

namespace Verif.WinAbs

open Verif.Path (join join_nil join_cons join_append Clean full comps_join stack stack_mem stack_resolve join_last ends_true ends_false Plain
  resolve_plain walk_plain_mem)
open Verif.Path.Spec (dot dotdot walk)
open Verif.WinPath (codeNormal CodeAccepts codeNormal_eq codeAccepts_iff canon_ascii ascii_text)
open Verif.WinPath.Spec (Begins Same unc uni vol fold canon normal Device Drive Acceptable Reserved stem body pieces Holds)
open Spec

/-! ## The specification in terms of slashes -/

theorem pieces_sw : ∀ s : List Nat, pieces s = (Path.Spec.pieces (sw s)).map sw
  | [] => rfl
  | c :: s => by
    rw [sw_cons, pieces, Path.Spec.pieces, pieces_sw s]
    simp only [swp_slash]
    split
    · rfl
    · cases Path.Spec.pieces (sw s) with
      | nil => simp [swp_swp]
      | cons g gs => simp [swp_swp]

theorem comps_sw (s : List Nat) : comps s = (Path.Spec.comps (sw s)).map sw := by
  unfold comps Path.Spec.comps
  rw [pieces_sw, List.filter_map]
  congr 1
  apply List.filter_congr
  intro g _
  cases g <;> rfl

theorem sw_dot {g : List Nat} : sw g = dot ↔ g = dot := by
  rw [← sw_inj (s := g) (t := dot)]; rfl

theorem sw_dotdot {g : List Nat} : sw g = dotdot ↔ g = dotdot := by
  rw [← sw_inj (s := g) (t := dotdot)]; rfl

theorem sw_plain {g : List Nat} : Plain (sw g) ↔ Plain g := by
  unfold Plain
  rw [ne_eq, ne_eq, sw_dot, sw_dotdot]

theorem walk_sw : ∀ (cs st : List (List Nat)), walk (st.map sw) (cs.map sw) = (walk st cs).map sw
  | [], st => rfl
  | c :: cs, st => by
    rw [List.map_cons, walk, walk]
    simp only [sw_dot, sw_dotdot]
    split
    · exact walk_sw cs st
    · split
      · rw [← walk_sw cs st.dropLast, List.map_dropLast]
      · rw [← walk_sw cs (st ++ [c]), List.map_append]; rfl

theorem sw_join (S : List (List Nat)) : sw (join S) = (S.map sw).flatMap (92 :: ·) := by
  induction S with
  | nil => rfl
  | cons g S ih => rw [join_cons, sw_cons, sw_append, ih]; rfl

theorem absPath_sw_true (us S : List (List Nat)) : absPath true (sw (join us), S.map sw) = sw (join (us ++ S) ++ [47]) := by
  unfold absPath
  rw [sw_append, join_append, sw_append, sw_join S]
  cases S with
  | nil => simp [swp]
  | cons g S => simp [swp]

theorem absPath_sw_false (us S : List (List Nat)) (h : S ≠ []) : absPath false (sw (join us), S.map sw) = sw (join (us ++ S)) := by
  unfold absPath
  rw [join_append, sw_append, sw_join S, if_neg (by simpa using h)]
  simp

theorem comps_sw_join {rs : List (List Nat)} (h : Clean rs) : comps (sw (join rs)) = (full rs).map sw := by
  have := comps_join [] rs h
  rw [List.nil_append] at this
  rw [comps_sw, sw_sw, this]
  rfl

theorem head_sw (s : List Nat) : s.head? = some 92 ↔ (sw s).head? = some 47 := by
  cases s with
  | nil => simp
  | cons c s => simp [swp_slash]

theorem resolve_own {bs nm : List Nat} {vs rs : List (List Nat)} (h : Split nm vs rs) :
    resolve bs nm = (sw (join vs), (walk [] (full rs)).map sw) := by
  obtain ⟨h1, h2, h3⟩ := split_volume h
  unfold resolve
  have hne : volume nm ≠ [] := by
    rw [h2]
    cases h.1 <;> simp
  rw [if_pos hne, h2, h3, comps_sw_join h.2.1, ← walk_sw]
  rfl

theorem resolve_seen {bs nm : List Nat} {vs ps : List (List Nat)} (hn : ¬ uni <+: nm) (h : Split bs vs ps) :
    resolve bs nm = (sw (join vs), (Path.Spec.resolve (join ps) (sw nm)).map sw) := by
  obtain ⟨h1, h2, h3⟩ := split_volume h
  unfold resolve Path.Spec.resolve
  rw [if_neg (by rw [(no_prefix hn).2]; simp), h2, h3, comps_sw, comps_sw, sw_sw]
  by_cases hh : nm.head? = some 92
  · rw [if_pos hh, if_pos ((head_sw nm).1 hh), ← walk_sw]
    rfl
  · rw [if_neg hh, if_neg (fun e => hh ((head_sw nm).2 e)), ← walk_sw, List.map_append]
    rfl

/-! ## What is done -/

theorem done_last {us S : List (List Nat)} {tr : List Nat} (hS : ∀ g ∈ S, g ≠ [] ∧ 47 ∉ g) (h2 : S = [] → tr = [47]) (h : tr = []) :
    (join (us ++ S)).getLast? ≠ some 47 ∧ join (us ++ S) ≠ [] := by
  have hne : S ≠ [] := fun e => by have := h2 e; rw [h] at this; cases this
  obtain ⟨h3, h4⟩ := join_last hne hS
  rw [join_append]
  refine ⟨?_, by simp [h4]⟩
  rw [List.getLast?_append]
  cases hl : (join S).getLast? with
  | none => rw [List.getLast?_eq_none_iff] at hl; exact absurd hl h4
  | some c => rw [hl] at h3; simpa using h3

theorem rooted_clean {us S : List (List Nat)} (hu : Rooted us) (hS : ∀ g ∈ S, g ≠ [] ∧ 47 ∉ g) : Clean (us ++ S) :=
  clean_append hu.clean (fun g hg => (hS g hg).2)

theorem holds_sw {r X : List Nat} (h : Path.Spec.Holds (sw r) X) : Holds r (sw X) := by
  obtain ⟨t, ht⟩ := h
  refine ⟨sw t, ?_⟩
  rw [← sw_inj, ht]
  simp [swp]

theorem walk_nonempty {qs : List (List Nat)} (h : Clean qs) : ∀ g ∈ walk [] (full qs), g ≠ [] ∧ 47 ∉ g := by
  intro g hg
  rcases Path.walk_mem _ _ _ hg with hg | hg
  · cases hg
  · refine ⟨?_, Path.full_clean h g hg⟩
    have := (List.mem_filter.1 hg).2
    simpa using this

theorem done_true {us S : List (List Nat)} {size : Nat} {ok : Bool} {r : List Nat} (hu : Rooted us)
    (hS : ∀ g ∈ S, g ≠ [] ∧ 47 ∉ g) (h : Done (join us) true size S ok r) :
    (ok = true ↔ (absPath true (sw (join us), S.map sw)).length + 1 ≤ size ∧ dot ∉ us ++ S ∧ dotdot ∉ us ++ S) ∧
      (ok = true → Holds r (absPath true (sw (join us), S.map sw))) := by
  obtain ⟨tr, h1, h2, _, h3⟩ := h
  rw [← List.append_assoc, ← join_append] at h3
  obtain ⟨g1, g2⟩ := ends_true (rooted_clean hu hS) h1 (done_last hS h2) h3
  rw [absPath_sw_true, sw_len]
  exact ⟨g1, fun e => holds_sw (g2 e)⟩

theorem done_false {us S : List (List Nat)} {size : Nat} {ok : Bool} {r : List Nat} (hu : Rooted us)
    (hS : ∀ g ∈ S, g ≠ [] ∧ 47 ∉ g) (hroom : (sw (join (us ++ S))).length + 2 ≤ size) (h : Done (join us) false size S ok r) :
    (ok = true ↔ dot ∉ (us ++ S).dropLast ∧ dotdot ∉ (us ++ S).dropLast) ∧ (ok = true → Holds r (sw (join (us ++ S)))) := by
  obtain ⟨tr, h1, h2, _, h3⟩ := h
  rw [← List.append_assoc, ← join_append] at h3
  rw [sw_len] at hroom
  obtain ⟨g1, g2⟩ := ends_false (rooted_clean hu hS) h1 (fun e => (done_last hS h2 e).1) hroom h3
  exact ⟨g1, fun e => holds_sw (g2 e)⟩

theorem last_dot {vs : List (List Nat)} {g : List Nat} (h : vs.getLast? = some g) : 92 :: sw g <:+ sw (join vs) := by
  obtain ⟨l, rfl⟩ := List.getLast?_eq_some_iff.1 h
  rw [join_append, sw_append]
  exact ⟨sw (join l), by simp [swp]⟩

/-- Names for which `GetPlatformFilename` is defined and gives the form for the system (see C84). -/
def Fit (f : List Nat) : Prop :=
  0 ∉ f ∧ ¬ vol <+: canon f ∧ ¬ uni ++ vol <+: canon f ∧ 8192 ≠ f.length + 4 ∧ 8192 ≠ f.length + 6

instance (f : List Nat) : Decidable (Fit f) := by unfold Fit; infer_instance

theorem Fit.usable {f : List Nat} (h : Fit f) : Usable f := ⟨h.1, h.2.1, h.2.2.2.1, h.2.2.2.2⟩

theorem Fit.normal {f : List Nat} (h : Fit f) : codeNormal (canon f) = normal (canon f) := codeNormal_eq _ h.2.2.1

/-- C88 (partial), any base directory, name and buffer, result with a trailing backslash: the call is defined (when the
last byte of the uninitialised local buffer is not a backslash, see `win_absolute_slack`), and if it returns true
the buffer holds a path that fits, consisting of a volume and of components that are not empty, "." or "..".
The path is the name resolved against the base directory (or the current directory), if neither the
components of the base directory nor the first component of a relative name are "." or "..", and the host is not ".".
Missing: these exceptions (`win_absolute_parent`, `win_absolute_host`), paths without a trailing backslash
(`win_absolute_untrailed_partial`), and names that `GetPlatformFilename` does not handle (C84). -/
theorem win_absolute_partial (sgn : Bool) (reg : List Nat → Option Nat) (junk2 junk3 result f rest br cr : List Nat) (size : Nat)
    (bd cwd : Option (List Nat)) (h2 : junk2.length = 8192) (h3 : junk3.length = 8192) (hl : junk2[8191]? ≠ some 92)
    (hs : size ≤ result.length) (hf : Fit f) (hu : ∀ d, bd.or cwd = some d → Fit d) :
    ∃ ok r, absolute sgn reg junk2 junk3 result size (bd.map (· ++ 0 :: br)) (cwd.map (· ++ 0 :: cr)) (f ++ 0 :: rest) true =
        .ok (ok, r) ∧ r.length = result.length ∧
      (ok = true → ∃ V cs, Holds r (absPath true (V, cs)) ∧ (absPath true (V, cs)).length + 1 ≤ size ∧ uni <+: V ∧
        (∀ g ∈ cs, g ≠ [] ∧ 92 ∉ g ∧ g ≠ dot ∧ g ≠ dotdot) ∧
        (volume (normal (canon f)) ≠ [] → ¬ [92, 46] <:+ volume (normal (canon f)) →
          ∀ bs, (V, cs) = resolve bs (normal (canon f))) ∧
        (volume (normal (canon f)) = [] → ∃ d, bd.or cwd = some d ∧ uni <+: normal (canon d) ∧ V = volume (normal (canon d)) ∧
          (((normal (canon f)).head? ≠ some 92 →
              (∀ g ∈ comps (path (normal (canon d))), Plain g) ∧ ∀ g, (comps (normal (canon f))).head? = some g → Plain g) →
            (V, cs) = resolve (normal (canon d)) (normal (canon f))))) := by
  obtain ⟨ok, r, g1, g2, g3⟩ := absolute_does sgn reg junk2 junk3 result f rest br cr size bd cwd true h2 h3 hl hs hf.usable
    (fun d hd => (hu d hd).usable)
  refine ⟨ok, r, g1, g2, ?_⟩
  intro hok
  -- the shape of the result
  have shape : ∀ {us S : List (List Nat)}, Rooted us → (∀ g ∈ S, g ≠ [] ∧ 47 ∉ g) → Done (join us) true size S ok r →
      Holds r (absPath true (sw (join us), S.map sw)) ∧ (absPath true (sw (join us), S.map sw)).length + 1 ≤ size ∧
      uni <+: sw (join us) ∧ ∀ g ∈ S.map sw, g ≠ [] ∧ 92 ∉ g ∧ g ≠ dot ∧ g ≠ dotdot := by
    intro us S hus hS hd
    obtain ⟨d1, d2⟩ := done_true hus hS hd
    obtain ⟨d3, d4, d5⟩ := d1.1 hok
    refine ⟨d2 hok, d3, ?_, ?_⟩
    · have := split_uni (s := sw (join us)) (vs := us) (rs := []) ⟨hus, (fun g hg => nomatch hg), by rw [sw_sw, List.append_nil]⟩
      exact this
    · intro g hg
      obtain ⟨x, hx, rfl⟩ := List.mem_map.1 hg
      obtain ⟨a, b⟩ := hS x hx
      refine ⟨fun e => a (by rw [← sw_sw x, e]; rfl), sw_noback b, ?_, ?_⟩
      · exact fun e => d4 (List.mem_append_right _ (sw_dot.1 e ▸ hx))
      · exact fun e => d5 (List.mem_append_right _ (sw_dotdot.1 e ▸ hx))
  rcases g3 with ⟨g3, _⟩ | ⟨_, ⟨vs, rs, us, qs, k1, k2, k4, k5⟩ | ⟨d, hd, k1, vs, ps, k2, k3, k4, k5⟩⟩
  · rw [g3] at hok; cases hok
  · rw [hf.normal] at k1
    obtain ⟨s1, s2, s3, s4⟩ := shape k2.1 (walk_nonempty k2.2.1) k5
    obtain ⟨v1, v2, v3⟩ := split_volume k1
    refine ⟨_, _, s1, s2, s3, s4, ?_, ?_⟩
    · intro _ hdot bs
      rw [v2] at hdot
      obtain ⟨rfl, hw⟩ := k4 (fun e => hdot (last_dot e))
      rw [hw]
      exact (resolve_own k1).symm
    · intro hv
      rw [v2] at hv
      cases k1.1 <;> simp at hv
  · rw [(hu d hd).normal] at k2
    rw [hf.normal] at k3
    obtain ⟨s1, s2, s3, s4⟩ := shape k2.1 (fun g hg => stack_mem hg) k5
    obtain ⟨v1, v2, v3⟩ := split_volume k2
    rw [k3]
    refine ⟨_, _, s1, s2, s3, s4, ?_, ?_⟩
    · intro hv
      exact absurd (no_prefix k4).2 hv
    · intro _
      refine ⟨d, hd, split_uni k2, v2.symm, ?_⟩
      intro hp
      rw [resolve_seen k4 k2, stack_resolve]
      · intro hh g hg
        have := (hp (fun e => hh ((head_sw _).1 e))).1 (sw g) (by
          rw [v3, comps_sw, sw_sw]
          exact List.mem_map_of_mem hg)
        exact sw_plain.1 this
      · intro hh g hg
        have := (hp (fun e => hh ((head_sw _).1 e))).2 (sw g) (by
          rw [comps_sw, List.head?_map, hg]
          rfl)
        exact sw_plain.1 this

theorem reserved_iff (w : List Nat) : Reserved w ↔ Same w [78, 85, 76] ∨ Same w [67, 79, 78] ∨ Same w [65, 85, 88] ∨
    Same w [80, 82, 78] ∨ Same w [67, 76, 79, 67, 75, 36] ∨
    ∃ i ∈ List.range 10, Same w [76, 80, 84, 48 + i] ∨ Same w [67, 79, 77, 48 + i] := by
  unfold Reserved
  have : (∃ d, 48 ≤ d ∧ d ≤ 57 ∧ (Same w [76, 80, 84, d] ∨ Same w [67, 79, 77, d])) ↔
      ∃ i ∈ List.range 10, Same w [76, 80, 84, 48 + i] ∨ Same w [67, 79, 77, 48 + i] := by
    constructor
    · rintro ⟨d, h1, h2, h3⟩
      refine ⟨d - 48, List.mem_range.2 (by omega), ?_⟩
      rw [show 48 + (d - 48) = d by omega]
      exact h3
    · rintro ⟨i, h1, h2⟩
      have := List.mem_range.1 h1
      exact ⟨48 + i, by omega, by omega, h2⟩
  rw [this]

instance (a b : List Nat) : Decidable (Same a b) := by unfold Same; infer_instance
instance (w : List Nat) : Decidable (Reserved w) := decidable_of_iff _ (reserved_iff w).symm
instance (c : Nat) : Decidable (Verif.WinPath.Spec.Forbidden c) := by unfold Verif.WinPath.Spec.Forbidden; infer_instance
instance (s : List Nat) : Decidable (Acceptable s) := by unfold Acceptable; infer_instance

/-- Names of ASCII characters that `GetPlatformFilename` accepts as it should (see C84). -/
def Fine (f : List Nat) : Prop :=
  f ≠ [] ∧ f.length < 8186 ∧ (∀ c ∈ f, 0 < c ∧ c < 0x80) ∧ ¬ vol <+: canon f ∧ ¬ uni ++ vol <+: canon f ∧ ¬ Device (canon f) ∧
    Acceptable (canon f) ∧ (∀ g, (pieces (body (canon f))).head? = some g → Reserved (stem g) → body (canon f) = canon f)

instance (o : Option (List Nat)) (p : List Nat → Prop) [DecidablePred p] : Decidable (∀ g, o = some g → p g) :=
  match o with
  | none => .isTrue (fun _ h => nomatch h)
  | some x => decidable_of_iff (p x) ⟨fun h g e => by cases e; exact h, fun h => h x rfl⟩

instance (f : List Nat) : Decidable (Fine f) := by unfold Fine; infer_instance

theorem Fine.fit {f : List Nat} (h : Fine f) : Fit f := by
  obtain ⟨h1, h2, h3, h4, h5, _⟩ := h
  exact ⟨fun hm => by have := (h3 0 hm).1; omega, h4, h5, by omega, by omega⟩

theorem Fine.accepted {f : List Nat} (h : Fine f) (sgn : Bool) (hl : (normal (canon f)).length ≤ 8188) : Accepted sgn f := by
  obtain ⟨h1, h2, h3, h4, h5, h6, h7, h8⟩ := h
  have ha : ∀ c ∈ f, c < 0x80 := fun c hc => (h3 c hc).2
  refine ⟨h1, by omega, ascii_text f ha, h6, (codeAccepts_iff sgn _ (fun _ => canon_ascii ha) h8).2 h7, ?_⟩
  rw [codeNormal_eq _ h5]
  omega

/-- What a call does for such names. -/
theorem absolute_eval {sgn : Bool} {reg : List Nat → Option Nat} {junk2 junk3 result f rest br d : List Nat} {size : Nat}
    {trailing : Bool} (h2 : junk2.length = 8192) (h3 : junk3.length = 8192) (hl : junk2[8191]? ≠ some 92) (hs : size ≤ result.length)
    (hf : Fine f) (hd : Fine d) (hdu : uni <+: normal (canon d))
    (hlen : (normal (canon d)).length + (normal (canon f)).length ≤ 8188) :
    ∃ ok r, absolute sgn reg junk2 junk3 result size (some (d ++ 0 :: br)) none (f ++ 0 :: rest) trailing = .ok (ok, r) ∧
      r.length = result.length ∧
      ((∃ vs rs us qs, Split (normal (canon f)) vs rs ∧ Split (sw (Path.fix (sw (normal (canon f))))) us qs ∧
          (vs.getLast? ≠ some dot → us = vs ∧ walk [] (full qs) = walk [] (full rs)) ∧
          Done (join us) trailing size (walk [] (full qs)) ok r) ∨
       (∃ vs ps, Split (normal (canon d)) vs ps ∧ normal (canon f) = canon f ∧ ¬ uni <+: canon f ∧
          Done (join vs) trailing size (stack (join ps) (sw (canon f))) ok r)) := by
  obtain ⟨ok, r, g1, g2, g3⟩ := absolute_does sgn reg junk2 junk3 result f rest br [] size (some d) none trailing h2 h3 hl hs
    hf.fit.usable (fun d' e => by cases e; exact hd.fit.usable)
  refine ⟨ok, r, g1, g2, ?_⟩
  rw [← hf.fit.normal, ← hd.fit.normal]
  rw [← hf.fit.normal, ← hd.fit.normal] at hlen
  rw [← hd.fit.normal] at hdu
  rcases g3 with ⟨_, g3⟩ | ⟨_, k | ⟨d', hd', k1, k⟩⟩
  · exfalso
    apply g3
    refine ⟨hf.accepted sgn (by rw [← hf.fit.normal]; omega), by omega, .inr ?_⟩
    rcases normal_forms (canon d) with ⟨vs, ps, hsp⟩ | ⟨hn, hu, _⟩
    · exact ⟨d, vs, ps, rfl, hd.accepted sgn (by rw [← hd.fit.normal]; omega), hsp, hlen⟩
    · rw [hn] at hdu
      exact absurd hdu hu
  · exact .inl k
  · cases hd'
    exact .inr k

/-- The condition on names for the theorems below: neither the components of the base directory nor the first component of
a relative name are "." or "..", nor is the host. -/
def Simple (bs nm : List Nat) : Prop :=
  (volume nm = [] → nm.head? ≠ some 92 → (∀ g ∈ comps (path bs), Plain g) ∧ ∀ g, (comps nm).head? = some g → Plain g) ∧
    ¬ [92, 46] <:+ (resolve bs nm).1 ∧ ¬ [92, 46, 46] <:+ (resolve bs nm).1

instance (bs nm : List Nat) : Decidable (Simple bs nm) := by unfold Simple; infer_instance

/-- The pieces of a volume. -/
theorem rooted_plain {us : List (List Nat)} (hus : Rooted us) (n1 : ¬ [92, 46] <:+ sw (join us)) (n2 : ¬ [92, 46, 46] <:+ sw (join us)) :
    ∀ g ∈ us, Plain g := by
  intro g hg
  cases hus with
  | drive c w _ =>
    simp only [List.mem_cons, List.not_mem_nil, or_false] at hg
    rcases hg with rfl | rfl | rfl
    · decide
    · decide
    · exact ⟨by simp [dot], by simp [dotdot]⟩
  | host u h hu _ _ =>
    simp only [List.mem_cons, List.not_mem_nil, or_false] at hg
    rcases hg with rfl | rfl | rfl | rfl
    · decide
    · decide
    · have := WinPath.same_len hu
      exact ⟨(fun e => by rw [e] at this; cases this), (fun e => by rw [e] at this; cases this)⟩
    · exact ⟨fun e => n1 (by subst e; exact last_dot (g := dot) rfl), fun e => n2 (by subst e; exact last_dot (g := dotdot) rfl)⟩

/-- Everything in one form. -/
theorem absolute_simple {sgn : Bool} {reg : List Nat → Option Nat} {junk2 junk3 result f rest br d : List Nat} {size : Nat}
    {trailing : Bool} (h2 : junk2.length = 8192) (h3 : junk3.length = 8192) (hl : junk2[8191]? ≠ some 92) (hs : size ≤ result.length)
    (hf : Fine f) (hd : Fine d) (hdu : uni <+: normal (canon d))
    (hlen : (normal (canon d)).length + (normal (canon f)).length ≤ 8188) (hp : Simple (normal (canon d)) (normal (canon f))) :
    ∃ ok r us S, absolute sgn reg junk2 junk3 result size (some (d ++ 0 :: br)) none (f ++ 0 :: rest) trailing = .ok (ok, r) ∧
      r.length = result.length ∧ Rooted us ∧ (∀ g ∈ S, g ≠ [] ∧ 47 ∉ g ∧ Plain g) ∧ (∀ g ∈ us, Plain g) ∧
      resolve (normal (canon d)) (normal (canon f)) = (sw (join us), S.map sw) ∧ Done (join us) trailing size S ok r := by
  obtain ⟨ok, r, g1, g2, g3⟩ := absolute_eval (sgn := sgn) (reg := reg) (rest := rest) (br := br) (trailing := trailing) h2 h3 hl hs
    hf hd hdu hlen
  obtain ⟨p1, p2, p3⟩ := hp
  have hplain := @rooted_plain
  rcases g3 with ⟨vs, rs, us, qs, k1, k2, k4, k5⟩ | ⟨vs, ps, k2, k3, k4, k5⟩
  · have k3 := walk_nonempty k2.2.1
    have hr := resolve_own (bs := normal (canon d)) k1
    rw [hr] at p2 p3
    obtain ⟨rfl, hw⟩ := k4 (fun e => p2 (last_dot e))
    rw [← hw] at hr
    refine ⟨ok, r, us, _, g1, g2, k2.1, ?_, hplain k2.1 p2 p3, hr, k5⟩
    exact fun g hg => ⟨(k3 g hg).1, (k3 g hg).2, walk_plain_mem _ [] (fun g h => nomatch h) g hg⟩
  · rw [k3] at p1 p2 p3 ⊢
    have hr := resolve_seen k4 k2
    rw [hr] at p2 p3
    obtain ⟨v1, v2, v3⟩ := split_volume k2
    have hst : stack (join ps) (sw (canon f)) = Path.Spec.resolve (join ps) (sw (canon f)) := by
      apply stack_resolve
      · intro hh g hg
        have := (p1 (no_prefix k4).2 (fun e => hh ((head_sw _).1 e))).1 (sw g) (by
          rw [v3, comps_sw, sw_sw]
          exact List.mem_map_of_mem hg)
        exact sw_plain.1 this
      · intro hh g hg
        have := (p1 (no_prefix k4).2 (fun e => hh ((head_sw _).1 e))).2 (sw g) (by
          rw [comps_sw, List.head?_map, hg]
          rfl)
        exact sw_plain.1 this
    refine ⟨ok, r, vs, _, g1, g2, k2.1, ?_, hplain k2.1 p2 p3, hr, by rw [← hst]; exact k5⟩
    intro g hg
    have := resolve_plain (join ps) (sw (canon f)) g hg
    rw [← hst] at hg
    exact ⟨(stack_mem hg).1, (stack_mem hg).2, this⟩

/-- C88 (partial), the call succeeds: for names of ASCII characters with the conditions of `win_absolute_partial`, whose forms
for the system have at most 8188 characters together, `GetAbsoluteFilename` returns true exactly if the path with its
trailing backslash and terminator fits the buffer. -/
theorem win_absolute_accepts_partial (sgn : Bool) (reg : List Nat → Option Nat) (junk2 junk3 result f rest br d : List Nat) (size : Nat)
    (h2 : junk2.length = 8192) (h3 : junk3.length = 8192) (hl : junk2[8191]? ≠ some 92) (hs : size ≤ result.length)
    (hf : Fine f) (hd : Fine d) (hdu : uni <+: normal (canon d))
    (hlen : (normal (canon d)).length + (normal (canon f)).length ≤ 8188) (hp : Simple (normal (canon d)) (normal (canon f))) :
    ∃ ok r, absolute sgn reg junk2 junk3 result size (some (d ++ 0 :: br)) none (f ++ 0 :: rest) true = .ok (ok, r) ∧
      r.length = result.length ∧
      (ok = true ↔ (absPath true (resolve (normal (canon d)) (normal (canon f)))).length + 1 ≤ size) ∧
      (ok = true → Holds r (absPath true (resolve (normal (canon d)) (normal (canon f))))) := by
  obtain ⟨ok, r, us, S, g1, g2, g3, g4, g5, g6, g7⟩ := absolute_simple (sgn := sgn) (reg := reg) (rest := rest) (br := br)
    (trailing := true) h2 h3 hl hs hf hd hdu hlen hp
  refine ⟨ok, r, g1, g2, ?_⟩
  rw [g6]
  obtain ⟨d1, d2⟩ := done_true g3 (fun g hg => ⟨(g4 g hg).1, (g4 g hg).2.1⟩) g7
  refine ⟨d1.trans ⟨fun h => h.1, fun h => ⟨h, ?_, ?_⟩⟩, d2⟩
  · intro hm
    rcases List.mem_append.1 hm with hm | hm
    · exact (g5 _ hm).1 rfl
    · exact (g4 _ hm).2.2.1 rfl
  · intro hm
    rcases List.mem_append.1 hm with hm | hm
    · exact (g5 _ hm).2 rfl
    · exact (g4 _ hm).2.2.2 rfl

/-- C88 (partial), without trailing backslash: if the path is not the root and there is room for one more character than needed, the
call returns true and the buffer holds the resolved path.
Missing: a tight buffer (`win_absolute_cut`) and the root (`win_absolute_root`), besides the conditions of
`win_absolute_partial`. -/
theorem win_absolute_untrailed_partial (sgn : Bool) (reg : List Nat → Option Nat) (junk2 junk3 result f rest br d : List Nat) (size : Nat)
    (h2 : junk2.length = 8192) (h3 : junk3.length = 8192) (hl : junk2[8191]? ≠ some 92) (hs : size ≤ result.length)
    (hf : Fine f) (hd : Fine d) (hdu : uni <+: normal (canon d))
    (hlen : (normal (canon d)).length + (normal (canon f)).length ≤ 8188) (hp : Simple (normal (canon d)) (normal (canon f)))
    (hroot : (resolve (normal (canon d)) (normal (canon f))).2 ≠ [])
    (hroom : (absPath false (resolve (normal (canon d)) (normal (canon f)))).length + 2 ≤ size) :
    ∃ r, absolute sgn reg junk2 junk3 result size (some (d ++ 0 :: br)) none (f ++ 0 :: rest) false = .ok (true, r) ∧
      r.length = result.length ∧ Holds r (absPath false (resolve (normal (canon d)) (normal (canon f)))) := by
  obtain ⟨ok, r, us, S, g1, g2, g3, g4, g5, g6, g7⟩ := absolute_simple (sgn := sgn) (reg := reg) (rest := rest) (br := br)
    (trailing := false) h2 h3 hl hs hf hd hdu hlen hp
  rw [g6] at hroot hroom ⊢
  have hS : S ≠ [] := by simpa using hroot
  rw [absPath_sw_false us S hS] at hroom ⊢
  obtain ⟨d1, d2⟩ := done_false g3 (fun g hg => ⟨(g4 g hg).1, (g4 g hg).2.1⟩) hroom g7
  have hok : ok = true := by
    apply d1.2
    have hpl : ∀ g ∈ (us ++ S).dropLast, Plain g := by
      intro g hg
      rcases List.mem_append.1 (List.dropLast_subset _ hg) with hm | hm
      · exact g5 _ hm
      · exact (g4 _ hm).2.2
    exact ⟨fun h => (hpl _ h).1 rfl, fun h => (hpl _ h).2 rfl⟩
  subst hok
  exact ⟨r, g1, g2, d2 rfl⟩

/-- `b/../c` seen from `c:/x//y` is `\\?\C:\x\y\c`, and `//h/s/../t` is `\\?\UNC\h\t`: names with the
conditions of the theorems. -/
example : Fine (("b/../c".toList).map (·.toNat)) ∧ Fine (("c:/x//y".toList).map (·.toNat)) ∧
    uni <+: normal (canon (("c:/x//y".toList).map (·.toNat))) ∧
    Simple (normal (canon (("c:/x//y".toList).map (·.toNat)))) (normal (canon (("b/../c".toList).map (·.toNat)))) ∧
    absPath false (resolve (normal (canon (("c:/x//y".toList).map (·.toNat)))) (normal (canon (("b/../c".toList).map (·.toNat))))) =
      ("\\\\?\\C:\\x\\y\\c".toList).map (·.toNat) ∧
    Fine (("//h/s/../t".toList).map (·.toNat)) ∧
    absPath false (resolve [] (normal (canon (("//h/s/../t".toList).map (·.toNat))))) =
      ("\\\\?\\UNC\\h\\t".toList).map (·.toNat) := by decide

/-! ## Where C88 fails -/

theorem eval_seen {sgn : Bool} {reg : List Nat → Option Nat} {junk2 junk3 result f rest br d : List Nat} {size : Nat}
    {trailing : Bool} {X : List Nat} (h2 : junk2.length = 8192) (h3 : junk3.length = 8192) (hl : junk2[8191]? ≠ some 92)
    (hs : size ≤ result.length) (hf : Fine f) (hd : Fine d) (hdu : uni <+: normal (canon d))
    (hlen : (normal (canon d)).length + (normal (canon f)).length ≤ 8188) (hn : ¬ uni <+: normal (canon f))
    (e1 : stack (sw (path (normal (canon d)))) (sw (canon f)) ≠ [] →
      Path.fin trailing size ((sw (volume (normal (canon d))) ++ join (stack (sw (path (normal (canon d)))) (sw (canon f)))).take size) = some (sw X))
    (e2 : Path.fin trailing size
      ((sw (volume (normal (canon d))) ++ (join (stack (sw (path (normal (canon d)))) (sw (canon f))) ++ [47])).take size) = some (sw X))
    (hX : Path.sane (sw X) = true) :
    ∃ r, absolute sgn reg junk2 junk3 result size (some (d ++ 0 :: br)) none (f ++ 0 :: rest) trailing = .ok (true, r) ∧ Holds r X := by
  obtain ⟨ok, r, g1, g2, g3⟩ := absolute_eval (sgn := sgn) (reg := reg) (rest := rest) (br := br) (trailing := trailing) h2 h3 hl hs
    hf hd hdu hlen
  rcases g3 with ⟨vs, rs, us, qs, k1, _⟩ | ⟨vs, ps, k2, k3, k4, tr, t1, t2, _, t4⟩
  · exact absurd (split_uni k1) hn
  · obtain ⟨v1, v2, v3⟩ := split_volume k2
    rw [v2, v3, sw_sw, sw_sw] at e1 e2
    have key : Path.fin trailing size ((join vs ++ (join (stack (join ps) (sw (canon f))) ++ tr)).take size) = some (sw X) := by
      rcases t1 with rfl | rfl
      · rw [List.append_nil]
        exact e1 (fun e => by have := t2 e; cases this)
      · exact e2
    unfold Path.Ends at t4
    rw [key] at t4
    obtain ⟨t5, t6⟩ := t4
    rw [hX] at t5
    subst t5
    exact ⟨r, g1, by have := holds_sw t6; rwa [sw_sw] at this⟩

theorem eval_own {sgn : Bool} {reg : List Nat → Option Nat} {junk2 junk3 result f rest br d : List Nat} {size : Nat}
    {trailing : Bool} {X U : List Nat} (h2 : junk2.length = 8192) (h3 : junk3.length = 8192) (hl : junk2[8191]? ≠ some 92)
    (hs : size ≤ result.length) (hf : Fine f) (hd : Fine d) (hdu : uni <+: normal (canon d))
    (hlen : (normal (canon d)).length + (normal (canon f)).length ≤ 8188) (hn : uni <+: normal (canon f))
    (hU : Path.fix (sw (normal (canon f))) = sw U)
    (e1 : walk [] (Path.Spec.comps (sw (path U))) ≠ [] →
      Path.fin trailing size ((sw (volume U) ++ join (walk [] (Path.Spec.comps (sw (path U))))).take size) = some (sw X))
    (e2 : Path.fin trailing size ((sw (volume U) ++ (join (walk [] (Path.Spec.comps (sw (path U)))) ++ [47])).take size) = some (sw X))
    (hX : Path.sane (sw X) = true) :
    ∃ r, absolute sgn reg junk2 junk3 result size (some (d ++ 0 :: br)) none (f ++ 0 :: rest) trailing = .ok (true, r) ∧ Holds r X := by
  obtain ⟨ok, r, g1, g2, g3⟩ := absolute_eval (sgn := sgn) (reg := reg) (rest := rest) (br := br) (trailing := trailing) h2 h3 hl hs
    hf hd hdu hlen
  rcases g3 with ⟨vs, rs, us, qs, k1, k2, _, tr, t1, t2, _, t4⟩ | ⟨vs, ps, k2, k3, k4, _⟩
  · rw [hU, sw_sw] at k2
    obtain ⟨v1, v2, v3⟩ := split_volume k2
    have hc := comps_join [] qs k2.2.1
    rw [List.nil_append] at hc
    rw [v2, v3, sw_sw, sw_sw, hc, show Path.Spec.comps [] ++ full qs = full qs from rfl] at e1 e2
    have key : Path.fin trailing size ((join us ++ (join (walk [] (full qs)) ++ tr)).take size) = some (sw X) := by
      rcases t1 with rfl | rfl
      · rw [List.append_nil]
        exact e1 (fun e => by have := t2 e; cases this)
      · exact e2
    unfold Path.Ends at t4
    rw [key] at t4
    obtain ⟨t5, t6⟩ := t4
    rw [hX] at t5
    subst t5
    exact ⟨r, g1, by have := holds_sw t6; rwa [sw_sw] at this⟩
  · rw [k3] at hn
    exact absurd hn k4

theorem fix_of {s : List Nat} {gs : List (List Nat)} {U : List Nat} (hs : s = join gs) (hc : Clean gs)
    (hn : ¬ [47, 46, 46] <:+ join (Path.undotP gs)) (hU : join (Path.undotP gs) = U) : Path.fix s = U := by
  unfold Path.fix
  rw [hs, Path.undot_join gs hc, if_neg hn, hU]

/-- Negation of C88: `..\..` seen from `c:\x\y` gives `\\?\C:\x\y\` instead of `\\?\C:\`. -/
theorem win_absolute_parent (sgn : Bool) (reg : List Nat → Option Nat) (junk2 junk3 result : List Nat) (h2 : junk2.length = 8192)
    (h3 : junk3.length = 8192) (hl : junk2[8191]? ≠ some 92) (hs : 100 ≤ result.length) :
    (∃ r, absolute sgn reg junk2 junk3 result 100 (some [99, 58, 92, 120, 92, 121, 0]) none [46, 46, 92, 46, 46, 0] true = .ok (true, r) ∧
      Holds r [92, 92, 63, 92, 67, 58, 92, 120, 92, 121, 92]) ∧
    absPath true (resolve (normal (canon [99, 58, 92, 120, 92, 121])) (normal (canon [46, 46, 92, 46, 46]))) = [92, 92, 63, 92, 67, 58, 92] :=
  ⟨eval_seen (f := [46, 46, 92, 46, 46]) (d := [99, 58, 92, 120, 92, 121]) h2 h3 hl hs (by decide) (by decide) (by decide) (by decide)
    (by decide) (fun _ => by decide) (by decide) (by decide), by decide⟩

/-- Negation of C88: `\\?\UNC\.\h\x` gives `\\?\UNC\h\x\`: the host "." is skipped. -/
theorem win_absolute_host (sgn : Bool) (reg : List Nat → Option Nat) (junk2 junk3 result : List Nat) (h2 : junk2.length = 8192)
    (h3 : junk3.length = 8192) (hl : junk2[8191]? ≠ some 92) (hs : 100 ≤ result.length) :
    (∃ r, absolute sgn reg junk2 junk3 result 100 (some [99, 58, 92, 0]) none [92, 92, 63, 92, 85, 78, 67, 92, 46, 92, 104, 92, 120, 0] true =
        .ok (true, r) ∧ Holds r [92, 92, 63, 92, 85, 78, 67, 92, 104, 92, 120, 92]) ∧
    absPath true (resolve (normal (canon [99, 58, 92])) (normal (canon [92, 92, 63, 92, 85, 78, 67, 92, 46, 92, 104, 92, 120]))) =
      [92, 92, 63, 92, 85, 78, 67, 92, 46, 92, 104, 92, 120, 92] :=
  ⟨eval_own (f := [92, 92, 63, 92, 85, 78, 67, 92, 46, 92, 104, 92, 120]) (d := [99, 58, 92])
    (U := [92, 92, 63, 92, 85, 78, 67, 92, 104, 92, 120]) h2 h3 hl hs (by decide) (by decide) (by decide) (by decide)
    (by decide) (fix_of (gs := [[], [63], [85, 78, 67], [46], [104], [120]]) (by decide) (by unfold Clean; decide) (by decide) (by decide))
    (fun _ => by decide) (by decide) (by decide), by decide⟩

/-- Negation of C88: a path that does not fit can be cut off without notice: `c` seen from `c:\ab` with a buffer of 10 bytes
gives `\\?\C:\ab`. -/
theorem win_absolute_cut (sgn : Bool) (reg : List Nat → Option Nat) (junk2 junk3 result : List Nat) (h2 : junk2.length = 8192)
    (h3 : junk3.length = 8192) (hl : junk2[8191]? ≠ some 92) (hs : 10 ≤ result.length) :
    (∃ r, absolute sgn reg junk2 junk3 result 10 (some [99, 58, 92, 97, 98, 0]) none [99, 0] false = .ok (true, r) ∧
      Holds r [92, 92, 63, 92, 67, 58, 92, 97, 98]) ∧
    absPath false (resolve (normal (canon [99, 58, 92, 97, 98])) (normal (canon [99]))) =
      [92, 92, 63, 92, 67, 58, 92, 97, 98, 92, 99] :=
  ⟨eval_seen (f := [99]) (d := [99, 58, 92, 97, 98]) h2 h3 hl hs (by decide) (by decide) (by decide) (by decide)
    (by decide) (fun _ => by decide) (by decide) (by decide), by decide⟩

/-- Negation of C88: the root `c:\` without trailing backslash is `\\?\C:`, which is not the root directory. -/
theorem win_absolute_root (sgn : Bool) (reg : List Nat → Option Nat) (junk2 junk3 result : List Nat) (h2 : junk2.length = 8192)
    (h3 : junk3.length = 8192) (hl : junk2[8191]? ≠ some 92) (hs : 100 ≤ result.length) :
    (∃ r, absolute sgn reg junk2 junk3 result 100 (some [100, 58, 92, 0]) none [99, 58, 92, 0] false = .ok (true, r) ∧
      Holds r [92, 92, 63, 92, 67, 58]) ∧
    absPath false (resolve (normal (canon [100, 58, 92])) (normal (canon [99, 58, 92]))) = [92, 92, 63, 92, 67, 58, 92] :=
  ⟨eval_own (f := [99, 58, 92]) (d := [100, 58, 92])
    (U := [92, 92, 63, 92, 67, 58, 92]) h2 h3 hl hs (by decide) (by decide) (by decide) (by decide)
    (by decide) (fix_of (gs := [[], [63], [67, 58], []]) (by decide) (by unfold Clean; decide) (by decide) (by decide))
    (fun h => absurd (by decide) h) (by decide) (by decide), by decide⟩

/-- A relative name with a drive letter is not relative to anything: `c:a` becomes `\\?\C:a\`, whatever the base directory. -/
theorem win_absolute_drive (sgn : Bool) (reg : List Nat → Option Nat) (junk2 junk3 result : List Nat) (h2 : junk2.length = 8192)
    (h3 : junk3.length = 8192) (hl : junk2[8191]? ≠ some 92) (hs : 100 ≤ result.length) :
    ∃ r, absolute sgn reg junk2 junk3 result 100 (some [99, 58, 92, 120, 0]) none [99, 58, 97, 0] true = .ok (true, r) ∧
      Holds r [92, 92, 63, 92, 67, 58, 97, 92] :=
  eval_own (f := [99, 58, 97]) (d := [99, 58, 92, 120])
    (U := [92, 92, 63, 92, 67, 58, 97]) h2 h3 hl hs (by decide) (by decide) (by decide) (by decide)
    (by decide) (fix_of (gs := [[], [63], [67, 58, 97]]) (by decide) (by unfold Clean; decide) (by decide) (by decide))
    (fun h => absurd (by decide) h) (by decide) (by decide)

/-- Undefined behaviour: the loop removing double backslashes does not look for the end of the string.  If the
uninitialised rest of the local buffer consists of backslashes, `a\` seen from `c:\` reads past the buffer. -/
theorem win_absolute_slack (sgn : Bool) (reg : List Nat → Option Nat) (junk3 result : List Nat) (size : Nat) (h3 : junk3.length = 8192)
    (hs : size ≤ result.length) (hsize : 9 ≤ size) (trailing : Bool) :
    absolute sgn reg (List.replicate 8192 92) junk3 result size (some [99, 58, 92, 0]) none [97, 92, 0] trailing = .error .oobRead := by
  have hjl : (List.replicate 8192 92 : List Nat).length = 8192 := List.length_replicate
  have hj : ∀ i, i < 8192 → (List.replicate 8192 92 : List Nat)[i]? = some 92 := by
    intro i hi
    rw [List.getElem?_replicate, if_pos hi]
  generalize (List.replicate 8192 92 : List Nat) = junk2 at *
  have hN : Fine [97, 92] := by decide
  have hN2 : Fine [99, 58, 92] := by decide
  have nN : codeNormal (canon [97, 92]) = [97, 92] := by rw [hN.fit.normal]; decide
  have nN2 : codeNormal (canon [99, 58, 92]) = [92, 92, 63, 92, 67, 58, 92] := by rw [hN2.fit.normal]; decide
  have aN := hN.accepted sgn (by decide)
  have aN2 := hN2.accepted sgn (by decide)
  unfold absolute
  obtain ⟨ok1, f3, g1, g2, g3⟩ := get_ok sgn reg [97, 92] [] junk3 hN.fit.usable h3
  rw [show ([97, 92, 0] : List Nat) = [97, 92] ++ 0 :: [] from rfl, g1, ok_bind]
  dsimp only
  have hok := g2.2 aN
  subst hok
  rw [if_neg (by simp)]
  have g3 := g3 rfl
  rw [nN] at g3
  obtain ⟨ok2, f3', k1, k2, k3, k4⟩ := dotName_ok [97, 92] (junk3.drop 3) (by decide) (by simp [h3])
  have k4 := k4 (by decide)
  subst k4
  rw [g3, show ([97, 92] : List Nat).length + 1 = 3 from rfl, k1, ok_bind]
  dsimp only
  rw [if_neg (by simp)]
  obtain ⟨tl3, hf3⟩ := k3 rfl
  have hfx : sw (Path.fix (sw [97, 92])) = [97, 92] := by
    have : Path.undot [97, 47] = [97, 47] := by
      rw [Path.undot_cons (by decide), if_neg (by decide), Path.undot_cons (by decide), if_neg (by decide), Path.undot_nil]
    unfold Path.fix
    rw [show sw [97, 92] = [97, 47] by decide, this]
    decide
  rw [hfx] at hf3
  obtain ⟨i3, j1, j2, j3, j4⟩ := info_volume [97, 92] tl3 (by decide)
  rw [← hf3] at j1
  rw [j1, ok_bind]
  have j3 : i3.startPath = 0 := j3.trans (by decide)
  have j4 : i3.startVolume = 0 := j4.2 (by decide)
  have j2 : i3.length = 2 := j2
  rw [if_neg (by rw [j4]; simp)]
  have hb : baseDir sgn reg (some [99, 58, 92, 0]) none junk2 =
      .ok (true, [92, 92, 63, 92, 67, 58, 92] ++ 0 :: junk2.drop 8) := by
    unfold baseDir
    obtain ⟨ok3, b3, m1, m2, m3⟩ := get_ok sgn reg [99, 58, 92] [] junk2 hN2.fit.usable hjl
    have hok := m2.2 aN2
    subst hok
    have m3 := m3 rfl
    rw [nN2] at m3
    show (WinPath.getPlatform sgn reg junk2 8192 ([99, 58, 92] ++ 0 :: []) false >>= _) = _
    rw [m1, ok_bind, m3]
    rfl
  rw [hb, ok_bind]
  dsimp only
  rw [if_neg (by simp)]
  generalize hB : [92, 92, 63, 92, 67, 58, 92] ++ 0 :: junk2.drop 8 = B
  have hBl : B.length = 8192 := by rw [← hB]; simp; omega
  have hsb : slashBase B = .ok (true, B) := by
    unfold slashBase
    rw [← hB, Path.cstr_ok [92, 92, 63, 92, 67, 58, 92] _ (by decide), ok_bind]
    dsimp only
    have : lastIs ([92, 92, 63, 92, 67, 58, 92] ++ 0 :: junk2.drop 8) 7 = .ok true := rfl
    rw [show ([92, 92, 63, 92, 67, 58, 92] : List Nat).length = 7 from rfl, this, ok_bind]
    rfl
  rw [hsb, ok_bind]
  dsimp only
  rw [if_neg (by simp)]
  unfold combine
  obtain ⟨i2, p1, p2, p3, _⟩ := info_volume [92, 92, 63, 92, 67, 58, 92] (junk2.drop 8) (by decide)
  rw [hB] at p1
  have p3 : i2.startPath = 6 := p3.trans (by decide)
  have p2 : i2.length = 7 := p2
  have hc : rd f3' 0 = .ok 97 := by rw [hf3]; rfl
  rw [p1, ok_bind, j3, hc, ok_bind]
  dsimp only
  rw [if_neg (show ¬ (97 : Nat) = 92 by decide), p2, if_neg (by decide), p3, if_neg (by decide), ok_bind]
  dsimp only
  unfold finish
  have hV : B = [92, 92, 63, 92, 67, 58] ++ 92 :: 0 :: junk2.drop 8 := by rw [← hB]; rfl
  have hnl := nameLoop_sw f3' [92, 92, 63, 92, 67, 58] 2 (by decide) (f3'.length + 1) 0 1 (92 :: 0 :: junk2.drop 8)
  rw [← hV] at hnl
  obtain ⟨q, n1, n2, n3⟩ := Path.nameLoop_ok 8185 (sw f3') (sw tl3) 2 (f3'.length + 1) 0 1 (sw (92 :: 0 :: junk2.drop 8)) [97, 47]
    (by rw [hf3]; rfl) rfl (by rw [k2]; decide) (by omega) (by simp; omega)
  rw [j2, j3]
  have hnl' : nameLoop f3' 6 2 (f3'.length + 1) 0 7 B = _ := hnl
  rw [hnl', show 8191 - ([92, 92, 63, 92, 67, 58] : List Nat).length = 8185 from rfl, n1]
  cases q with
  | none => exact absurd (n2 rfl) (by decide)
  | some p =>
    obtain ⟨n', b'⟩ := p
    obtain ⟨e1, e2, e3, e4, e5⟩ := n3 n' b' rfl
    simp only [Except.map, Option.map_some, ok_bind]
    have hb1 : (sw (92 :: 0 :: junk2.drop 8)).take 1 = [47] := rfl
    rw [hb1, Path.proc_cons (by decide), Path.proc_cons (by decide), Path.proc_nil] at e3
    change _ = [47, 97, 47] at e3
    have hn' : n' = 3 := by
      have := congrArg List.length e3
      rw [List.length_take] at this
      simp at this
      omega
    subst hn'
    have c0 : b'[0]? = some 47 := by rw [← List.getElem?_take_of_lt (show 0 < 3 by decide), e3]; rfl
    have c1 : b'[1]? = some 97 := by rw [← List.getElem?_take_of_lt (show 1 < 3 by decide), e3]; rfl
    have c2 : b'[2]? = some 47 := by rw [← List.getElem?_take_of_lt (show 2 < 3 by decide), e3]; rfl
    generalize hW : [92, 92, 63, 92, 67, 58] ++ sw b' = W
    have hWs : sw W = [47, 47, 63, 47, 67, 58] ++ b' := by rw [← hW, sw_append, sw_sw]; rfl
    have hWl : W.length = 8192 := by rw [← hW]; simp; omega
    have w : ∀ i, (sw W)[6 + i]? = b'[i]? := by
      intro i
      rw [hWs, List.getElem?_append_right (by simp)]
      simp
    have call : ∀ i, 8 ≤ i → i < 8192 → (sw W)[i]? = some 47 := by
      intro i hi hi2
      rw [show i = 6 + (i - 6) by omega, w]
      by_cases h : i = 8
      · rw [h]; exact c2
      · rw [e5 (i - 6) (by simp; omega), sw_get, show i - 6 = (i - 8) + 1 + 1 by omega, List.getElem?_cons_succ, List.getElem?_cons_succ,
          List.getElem?_drop, show 8 + (i - 8) = i by omega, hj i hi2]
        rfl
    have hmin : min size 6 = 6 := by omega
    rw [hmin]
    obtain ⟨r', x1, x2, _⟩ := volLoop_ok W 6 0 result (by omega) (by omega) (by simp)
    show (volLoop W 6 0 result >>= _) = _
    rw [x1, ok_bind, outLoop_sw]
    have hout : Path.outLoop (sw W) 9 size (W.length + 1) 6 6 (sw r') = .error .oobRead := by
      have c0 : (sw W)[6]? = some 47 := (w 0).trans c0
      have c1 : (sw W)[7]? = some 97 := (w 1).trans c1
      have hl := sw_len W
      have hr : (sw r').length = result.length := by rw [sw_len, x2]
      rw [show W.length + 1 = 8190 + 1 + 1 + 1 by omega, Path.outLoop, if_pos ⟨by omega, by decide⟩]
      have s0 : Path.skipSlash (sw W) ((sw W).length + 1) 6 = .ok 6 := by
        rw [Path.skipSlash]
        have : Path.at_ (sw W) 6 [47, 47] = .ok false := by simp only [Path.at_, rd, c0, c1, ok_bind, if_true]; rfl
        rw [this, ok_bind]; rfl
      have s1 : Path.skipSlash (sw W) ((sw W).length + 1) 7 = .ok 7 := by
        rw [Path.skipSlash]
        have : Path.at_ (sw W) 7 [47, 47] = .ok false := by simp only [Path.at_, rd, c1, ok_bind]; rfl
        rw [this, ok_bind]; rfl
      have s2 := Path.skipSlash_over (sw W) (by rw [hl, hWl]) ((sw W).length + 1) 8 (by omega) (by omega) call
      have r0 : rd (sw W) 6 = .ok 47 := by unfold rd; rw [c0]
      have r1 : rd (sw W) 7 = .ok 97 := by unfold rd; rw [c1]
      rw [s0, ok_bind, r0, ok_bind, Path.wr_at _ (by omega), ok_bind, Path.outLoop, if_pos ⟨by omega, by decide⟩, s1, ok_bind, r1,
        ok_bind, Path.wr_at _ (by rw [Path.len_wr _ (by omega)]; omega), ok_bind, Path.outLoop, if_pos ⟨by omega, by decide⟩, s2, error_bind]
    show ((Path.outLoop (sw W) 9 size (W.length + 1) 6 6 (sw r')).map _ >>= _) = _
    rw [hout]
    rfl

end Verif.WinAbs
