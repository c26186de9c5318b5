import Verif.WinAbs.Tail
import Verif.WinPath.Whole
import Verif.File.LineLemmas

/-!
# What `GetAbsoluteFilename` does on Windows, for all inputs
-/

namespace Verif.WinAbs

open Verif.Path (cstr at_ Info cstr_ok join join_nil join_cons join_append Clean proc fix fix_len fix_no_zero undot undot_nil undot_skip
  undot_cons undot_join undotP undotP_clean undotP_nodot undotP_ne walk_undotP full full_clean withSlash stack proc_join comps_join proc_abs proc_rel
  fix_head)
open Verif.Path.Spec (dot dotdot walk)
open Verif.WinPath (info root getPlatform getPlatform_keeps codeNormal CodeAccepts preUni)
open Verif.WinPath.Spec (Begins Same unc uni vol fold canon Device Drive upperDrive body)
open Verif.Utf8.Spec
open Spec

/-! ## The forms of accepted names -/

theorem fold_back {c : Nat} : fold c = 92 ↔ c = 92 := by unfold fold; split <;> omega
theorem fold_quest {c : Nat} : fold c = 63 ↔ c = 63 := by unfold fold; split <;> omega

theorem same_unc {u : List Nat} (h : Same u [85, 78, 67]) : 47 ∉ u ∧ 92 ∉ u ∧ sw u = u := by
  have key : ∀ d, fold d ∉ [85, 78, 67].map fold → d ∉ u := by
    intro d hd hm
    have : fold d ∈ u.map fold := List.mem_map_of_mem hm
    rw [show u.map fold = [85, 78, 67].map fold from h] at this
    exact hd this
  have h1 := key 47 (by decide)
  have h2 := key 92 (by decide)
  refine ⟨h1, h2, ?_⟩
  unfold sw
  conv => rhs; rw [← List.map_id u]
  refine List.map_congr_left (fun c hc => ?_)
  unfold swp
  rw [if_neg (fun e : c = 47 => h1 (e ▸ hc)), if_neg (fun e : c = 92 => h2 (e ▸ hc))]
  rfl

/-- A string consisting of a volume and pieces. -/
def Split (s : List Nat) (vs rs : List (List Nat)) : Prop := Rooted vs ∧ Clean rs ∧ sw s = join (vs ++ rs)

theorem split_unc (u t : List Nat) (hu : Same u [85, 78, 67]) : ∃ vs rs, Split (uni ++ u ++ [92] ++ t) vs rs := by
  obtain ⟨h1, h2, h3⟩ := same_unc hu
  cases hp : Path.Spec.pieces (sw t) with
  | nil => exact absurd hp (Path.pieces_ne _)
  | cons h rs =>
    have hj := Path.pieces_join _ _ _ hp
    have hc := Path.pieces_clean (sw t)
    rw [hp] at hc
    refine ⟨[[], [63], u, h], rs, .host u h hu h1 (hc h (by simp)), fun g hg => hc g (by simp [hg]), ?_⟩
    simp [uni, swp, h3, hj]

theorem split_drive (c : Nat) (t : List Nat) (hc : c ≠ 92) : ∃ vs rs, Split (uni ++ c :: 58 :: t) vs rs := by
  cases hp : Path.Spec.pieces (sw t) with
  | nil => exact absurd hp (Path.pieces_ne _)
  | cons h rs =>
    have hj := Path.pieces_join _ _ _ hp
    have hcl := Path.pieces_clean (sw t)
    rw [hp] at hcl
    refine ⟨[[], [63], swp c :: 58 :: h], rs, .drive (swp c) h ?_, fun g hg => hcl g (by simp [hg]), ?_⟩
    · have := hcl h (by simp)
      simp only [List.mem_cons, not_or]
      exact ⟨fun e => hc (swp_slash.1 e.symm), by decide, this⟩
    · simp [uni, swp, hj]

theorem drive_first {s : List Nat} (h : Drive s) : ∃ c r, upperDrive s = c :: 58 :: r ∧ c ≠ 92 := by
  unfold upperDrive
  rw [if_pos h]
  match s, h with
  | c :: d :: r, h =>
    obtain ⟨h1, rfl⟩ := h
    refine ⟨_, r, rfl, ?_⟩
    split <;> omega

/-- The form for the system has a volume, or it is the name itself. -/
theorem normal_forms (s : List Nat) : (∃ vs rs, Split (codeNormal s) vs rs) ∨
    (codeNormal s = s ∧ ¬ uni <+: s ∧ body s = s) := by
  unfold codeNormal
  by_cases h1 : Begins unc s
  · rw [if_pos h1]
    left
    have hl : 8 ≤ s.length := WinPath.begins_len h1
    have hs := (WinPath.begins_take s unc 8 rfl hl).1 h1
    have e : s.take 8 = uni ++ (s.drop 4).take 3 ++ [92] ∧ Same ((s.drop 4).take 3) [85, 78, 67] := by
      match s, hl with
      | a :: b :: c :: d :: x :: y :: z :: w :: t, _ =>
        have hs' : [a, b, c, d, x, y, z, w].map fold = unc.map fold := hs
        have : unc.map fold = [92, 92, 63, 92] ++ [85, 78, 67].map fold ++ [92] := by decide
        rw [this] at hs'
        simp only [List.map_cons, List.map_nil, List.cons_append, List.nil_append, List.cons.injEq, and_true] at hs'
        obtain ⟨e1, e2, e3, e4, e5, e6, e7, e8⟩ := hs'
        have := fold_back.1 e1
        have := fold_back.1 e2
        have := fold_quest.1 e3
        have := fold_back.1 e4
        have := fold_back.1 e8
        subst_vars
        refine ⟨rfl, ?_⟩
        show [x, y, z].map fold = _
        simp only [List.map_cons, List.map_nil, e5, e6, e7]
    rw [e.1]
    exact split_unc _ _ e.2
  · rw [if_neg h1]
    by_cases h2 : uni <+: s
    · rw [if_pos h2]
      left
      by_cases h3 : Drive (s.drop 4)
      · rw [if_pos h3]
        obtain ⟨c, r, e, hc⟩ := drive_first h3
        rw [e]
        exact split_drive c r hc
      · rw [if_neg h3]
        exact split_unc [85, 78, 67] (s.drop 4) rfl
    · rw [if_neg h2]
      by_cases h3 : Drive s
      · rw [if_pos h3]
        left
        obtain ⟨c, r, e, hc⟩ := drive_first h3
        rw [e]
        exact split_drive c r hc
      · rw [if_neg h3]
        by_cases h4 : [92, 92] <+: s
        · rw [if_pos h4]
          left
          exact split_unc [85, 78, 67] (s.drop 2) rfl
        · rw [if_neg h4]
          right
          refine ⟨rfl, h2, ?_⟩
          unfold body
          rw [if_neg h1, if_neg h2]
          unfold Verif.WinPath.Spec.afterDrive
          rw [if_neg h3]

theorem split_text {s : List Nat} {vs rs : List (List Nat)} (h : Split s vs rs) : s = sw (join (vs ++ rs)) := by
  rw [← h.2.2, sw_sw]

theorem split_uni {s : List Nat} {vs rs : List (List Nat)} (h : Split s vs rs) : uni <+: s := by
  rw [split_text h]
  obtain ⟨h1, _, _⟩ := h
  cases h1 with
  | drive c w _ => exact ⟨sw ((c :: 58 :: w) ++ join rs), by simp [uni, swp]⟩
  | host u h _ _ _ => exact ⟨sw (u ++ join (h :: rs)), by simp [uni, swp]⟩

theorem split_volume {s : List Nat} {vs rs : List (List Nat)} (h : Split s vs rs) :
    prefixLen s ≠ 0 ∧ volume s = sw (join vs) ∧ path s = sw (join rs) := by
  obtain ⟨h1, h2⟩ := rooted_volume (rs := rs) h.1
  rw [← split_text h] at h1 h2
  refine ⟨h1, h2, ?_⟩
  unfold path
  rw [h2, split_text h, sw_len, join_append, sw_append, List.drop_left' (sw_len _)]

theorem no_prefix {s : List Nat} (h : ¬ uni <+: s) : prefixLen s = 0 ∧ volume s = [] := by
  have : prefixLen s = 0 := by
    unfold prefixLen
    rw [if_neg, if_neg h]
    intro hb
    apply h
    have h4 : 8 ≤ s.length := WinPath.begins_len hb
    have hs := (WinPath.begins_take s unc 8 rfl h4).1 hb
    match s, h4 with
    | a :: b :: c :: d :: x :: y :: z :: w :: t, _ =>
      have hs' : [a, b, c, d, x, y, z, w].map fold = unc.map fold := hs
      have e : unc.map fold = [92, 92, 63, 92] ++ [85, 78, 67].map fold ++ [92] := by decide
      rw [e] at hs'
      simp only [List.map_cons, List.map_nil, List.cons_append, List.nil_append, List.cons.injEq, and_true] at hs'
      obtain ⟨e1, e2, e3, e4, _⟩ := hs'
      have := fold_back.1 e1
      have := fold_back.1 e2
      have := fold_quest.1 e3
      have := fold_back.1 e4
      subst_vars
      exact ⟨_, rfl⟩
  exact ⟨this, by unfold volume; rw [if_pos this]⟩

/-! ## The normalised name -/

theorem undot_not (z : Nat) : ∀ (n : Nat) (s : List Nat), s.length ≤ n → z ∉ s → z ∉ undot s
  | 0, s, h, h0 => by
    have : s = [] := List.length_eq_zero_iff.1 (by omega)
    subst this
    rw [undot_nil]
    exact h0
  | n + 1, [], _, h0 => by rw [undot_nil]; exact h0
  | n + 1, c :: r, h, h0 => by
    cases hp : [47, 46, 47].isPrefixOf (c :: r) with
    | true =>
      rw [undot_skip hp]
      exact undot_not z n _ (by simp at h ⊢; omega) (fun hm => h0 (List.mem_of_mem_drop hm))
    | false =>
      rw [undot_cons hp]
      have hc : z ≠ c := fun e => h0 (by simp [e])
      split
      · simp [hc]
      · intro hm
        rcases List.mem_cons.1 hm with e | e
        · exact hc e
        · exact undot_not z n r (by simpa using h) (fun hm => h0 (List.mem_cons_of_mem _ hm)) e

theorem fix_not {z : Nat} (hz : z ≠ 47) {s : List Nat} (h : z ∉ s) : z ∉ fix s := by
  have := undot_not z s.length s (Nat.le_refl _) h
  unfold fix
  split
  · simpa [hz] using this
  · exact this

theorem full_nil_end (gs : List (List Nat)) : full (gs ++ [[]]) = full gs := by simp [full]

/-- Normalising pieces. -/
theorem fix_join (gs : List (List Nat)) (hc : Clean gs) : ∃ e, (e = [] ∨ e = [[]]) ∧ fix (join gs) = join (undotP gs ++ e) ∧
    (undotP gs ++ e).getLast? ≠ some dotdot := by
  unfold fix
  rw [undot_join gs hc]
  by_cases h : [47, 46, 46] <:+ join (undotP gs)
  · rw [if_pos h]
    exact ⟨[[]], .inr rfl, by rw [join_append]; rfl, by simp [dotdot]⟩
  · rw [if_neg h]
    refine ⟨[], .inl rfl, by rw [List.append_nil], ?_⟩
    rw [List.append_nil]
    intro hl
    obtain ⟨l, hl⟩ := List.getLast?_eq_some_iff.1 hl
    apply h
    rw [hl, join_append]
    exact ⟨join l, rfl⟩

theorem last_append {a b : List (List Nat)} (x : List Nat) (h : (a ++ b).getLast? ≠ some x) : b.getLast? ≠ some x := by
  intro e
  apply h
  rw [List.getLast?_append, e]
  rfl

theorem nil_clean {e : List (List Nat)} (h : e = [] ∨ e = [[]]) : Clean e ∧ dot ∉ e ∧ ∀ gs, full (gs ++ e) = full gs := by
  rcases h with rfl | rfl
  · exact ⟨(fun g hg => nomatch hg), by simp, fun gs => by rw [List.append_nil]⟩
  · exact ⟨fun g hg => by simp at hg; simp [hg], by decide, full_nil_end⟩

theorem clean_append {a b : List (List Nat)} (ha : Clean a) (hb : Clean b) : Clean (a ++ b) := by
  intro g hg
  rcases List.mem_append.1 hg with hg | hg
  · exact ha g hg
  · exact hb g hg

theorem fix_rooted {vs rs : List (List Nat)} (hv : Rooted vs) (hr : Clean rs) :
    ∃ us qs, fix (join (vs ++ rs)) = join (us ++ qs) ∧ Rooted us ∧ Clean qs ∧ dot ∉ qs ∧ qs.getLast? ≠ some dotdot ∧
      (vs.getLast? ≠ some dot → us = vs ∧ walk [] (full qs) = walk [] (full rs)) := by
  obtain ⟨e, he, h1, h2⟩ := fix_join (vs ++ rs) (clean_append hv.clean hr)
  obtain ⟨c1, c2, c3⟩ := nil_clean he
  -- the volume stays
  have keep : undotP (vs ++ rs) = vs ++ undotP rs → ∃ us qs, fix (join (vs ++ rs)) = join (us ++ qs) ∧ Rooted us ∧ Clean qs ∧
      dot ∉ qs ∧ qs.getLast? ≠ some dotdot ∧
      (vs.getLast? ≠ some dot → us = vs ∧ walk [] (full qs) = walk [] (full rs)) := by
    intro hu
    rw [hu, List.append_assoc] at h1 h2
    refine ⟨vs, undotP rs ++ e, h1, hv, clean_append (undotP_clean rs hr) c1, ?_, last_append _ h2, fun _ => ⟨rfl, ?_⟩⟩
    · rw [List.mem_append, not_or]
      exact ⟨undotP_nodot rs, c2⟩
    · rw [c3, walk_undotP]
  cases hv with
  | drive c w hc =>
    apply keep
    have hd : c :: 58 :: w ≠ dot := by simp [dot]
    simp only [List.cons_append, List.nil_append, undotP]
    rw [if_neg (by simp [dot]), if_neg (by simp [dot]), if_neg hd]
  | host u h hu h3 h4 =>
    have hud : u ≠ dot := by
      intro e
      rw [e] at hu
      exact absurd (WinPath.same_len hu) (by decide)
    have hu' : undotP ([[], [63], u, h] ++ rs) = [[], [63], u] ++ undotP (h :: rs) := by
      show undotP ([] :: [63] :: u :: h :: rs) = _
      rw [undotP, if_neg (by decide), undotP, if_neg (by decide), undotP, if_neg hud]
      rfl
    by_cases hd : h = dot
    · have hne := undotP_ne (gs := h :: rs) (by simp)
      have hcl : Clean (h :: rs) := by
        intro g hg
        rcases List.mem_cons.1 hg with rfl | hg
        · exact h4
        · exact hr g hg
      cases hp : undotP (h :: rs) with
      | nil => exact absurd hp hne
      | cons h' qs =>
        have hcl' := undotP_clean _ hcl
        have hnd := undotP_nodot (h :: rs)
        rw [hp] at hcl' hnd hu'
        rw [hu', show [[], [63], u] ++ (h' :: qs) = [[], [63], u, h'] ++ qs from rfl, List.append_assoc] at h1 h2
        refine ⟨[[], [63], u, h'], qs ++ e, h1, .host u h' hu h3 (hcl' h' (by simp)), clean_append (fun g hg => hcl' g (by simp [hg])) c1,
          ?_, last_append _ h2, ?_⟩
        · rw [List.mem_append, not_or]
          exact ⟨fun hm => hnd (List.mem_cons_of_mem _ hm), c2⟩
        · intro hl
          exact absurd (by rw [hd]; rfl) hl
    · apply keep
      rw [hu', undotP, if_neg hd]
      rfl

/-- What `dotName` leaves. -/
theorem dotName_ok (s tl : List Nat) (h0 : 0 ∉ s) (hl : (s ++ 0 :: tl).length = 8192) :
    ∃ ok b, dotName (s ++ 0 :: tl) = .ok (ok, b) ∧ b.length = 8192 ∧ (ok = true → ∃ tl', b = sw (fix (sw s)) ++ 0 :: tl') ∧
      (s.length ≤ 8190 → ok = true) := by
  obtain ⟨ok, b, h1, h2, h3, h4⟩ := Path.dotName_ok (sw s) (sw tl) (sw_zero.2 h0) (by rw [← hl]; simp)
  rw [dotName_sw, sw_append, show sw (0 :: tl) = 0 :: sw tl from rfl, h1]
  refine ⟨ok, sw b, rfl, by rw [sw_len]; exact h2, ?_, by rw [sw_len] at h4; exact h4⟩
  intro hok
  obtain ⟨tl', e⟩ := h3 hok
  exact ⟨sw tl', by rw [e, sw_append]; rfl⟩

/-! ## The base directory -/

/-- Names `GetPlatformFilename` accepts. -/
def Accepted (sgn : Bool) (f : List Nat) : Prop :=
  f ≠ [] ∧ f.length + 1 ≤ 8192 ∧ (∃ cps, GoodText cps ∧ f = text 1 cps) ∧ ¬ Device (canon f) ∧
    CodeAccepts sgn (canon f) ∧ (codeNormal (canon f)).length + 1 ≤ 8192

/-- Names for which `GetPlatformFilename` is defined. -/
def Usable (f : List Nat) : Prop := 0 ∉ f ∧ ¬ vol <+: canon f ∧ 8192 ≠ f.length + 4 ∧ 8192 ≠ f.length + 6

theorem get_ok (sgn : Bool) (reg : List Nat → Option Nat) (f rest buf : List Nat) (hu : Usable f) (hb : buf.length = 8192) :
    ∃ ok r, getPlatform sgn reg buf 8192 (f ++ 0 :: rest) false = .ok (ok, r) ∧ (ok = true ↔ Accepted sgn f) ∧
      (ok = true → r = codeNormal (canon f) ++ 0 :: buf.drop ((codeNormal (canon f)).length + 1)) := by
  obtain ⟨ok, r, e1, e2, e3, e4⟩ := getPlatform_keeps sgn reg f rest buf 8192 false hu.1 (by omega) hu.2.1 hu.2.2.1 hu.2.2.2
  have hiff : ok = true ↔ Accepted sgn f := by
    rw [e3]
    unfold Accepted
    by_cases hd : Device (canon f)
    · rw [if_pos hd]
      constructor
      · rintro ⟨_, _, _, h⟩; cases h
      · rintro ⟨_, _, _, h, _⟩; exact absurd hd h
    · rw [if_neg hd]
      exact ⟨fun h => ⟨h.1, h.2.1, h.2.2.1, hd, h.2.2.2.1, h.2.2.2.2⟩, fun h => ⟨h.1, h.2.1, h.2.2.1, h.2.2.2.2.1, h.2.2.2.2.2⟩⟩
  refine ⟨ok, r, e1, hiff, ?_⟩
  intro hok
  obtain ⟨k, hk⟩ := e4 hok
  have ha := hiff.1 hok
  rw [if_neg ha.2.2.2.1] at hk
  rw [hk] at e2 ⊢
  have hle := ha.2.2.2.2.2
  rw [List.length_append, List.length_cons, List.length_drop, hb] at e2
  by_cases hk8 : k ≤ 8192
  · rw [show k = (codeNormal (canon f)).length + 1 by omega]
  · rw [List.drop_eq_nil_of_le (by omega), List.drop_eq_nil_of_le (by omega)]

theorem upper_zero {s : List Nat} (h : 0 ∉ s) : 0 ∉ upperDrive s := by
  unfold upperDrive
  split
  · match s with
    | [] => exact h
    | c :: r =>
      intro hm
      unfold Verif.WinPath.Spec.upperFirst at hm
      rcases List.mem_cons.1 hm with e | e
      · split at e
        · omega
        · exact h (by simp [← e])
      · exact h (List.mem_cons_of_mem _ e)
  · exact h

theorem canon_zero {f : List Nat} (h : 0 ∉ f) : 0 ∉ canon f := by
  unfold canon
  have : 0 ∉ f.map (fun c => if c = 47 then 92 else c) := by
    intro hm
    obtain ⟨c, hc, e⟩ := List.mem_map.1 hm
    split at e
    · cases e
    · exact h (e ▸ hc)
  dsimp only
  split
  · intro hm
    rcases List.mem_append.1 hm with e | e
    · exact absurd e (by decide)
    · exact this (List.mem_of_mem_drop e)
  · exact this

theorem normal_zero {s : List Nat} (h : 0 ∉ s) : 0 ∉ codeNormal s := by
  have hd : ∀ n, 0 ∉ s.drop n := fun n hm => h (List.mem_of_mem_drop hm)
  have ht : ∀ n, 0 ∉ s.take n := fun n hm => h (List.mem_of_mem_take hm)
  have app : ∀ a b : List Nat, 0 ∉ a → 0 ∉ b → 0 ∉ a ++ b := by
    intro a b ha hb hm
    rcases List.mem_append.1 hm with e | e
    · exact ha e
    · exact hb e
  unfold codeNormal
  split
  · exact app _ _ (ht 8) (upper_zero (hd 8))
  · split
    · split
      · exact app _ _ (by decide) (upper_zero (hd 4))
      · exact app _ _ (by decide) (hd 4)
    · split
      · exact app _ _ (by decide) (upper_zero h)
      · split
        · exact app _ _ (by decide) (hd 2)
        · exact h

theorem baseDir_ok (sgn : Bool) (reg : List Nat → Option Nat) (bd cwd : Option (List Nat)) (br cr junk : List Nat)
    (hu : ∀ d, bd.or cwd = some d → Usable d) (hj : junk.length = 8192) :
    ∃ ok b, baseDir sgn reg (bd.map (· ++ 0 :: br)) (cwd.map (· ++ 0 :: cr)) junk = .ok (ok, b) ∧
      ((ok = false ∧ ¬ ∃ d vs ps, bd.or cwd = some d ∧ Accepted sgn d ∧ Split (codeNormal (canon d)) vs ps) ∨
       (ok = true ∧ ∃ d vs ps, bd.or cwd = some d ∧ Accepted sgn d ∧ Split (codeNormal (canon d)) vs ps ∧
          b = codeNormal (canon d) ++ 0 :: junk.drop ((codeNormal (canon d)).length + 1))) := by
  have key : ∀ (d rest : List Nat), bd.or cwd = some d → ∃ ok b, (do
      let (ok, b) ← getPlatform sgn reg junk 8192 (d ++ 0 :: rest) false
      if !ok then .ok (false, b)
      else do
        let m ← at_ b 0 preUni
        .ok (m, b) : CRes (Bool × List Nat)) = .ok (ok, b) ∧
      ((ok = false ∧ ¬ ∃ d vs ps, bd.or cwd = some d ∧ Accepted sgn d ∧ Split (codeNormal (canon d)) vs ps) ∨
       (ok = true ∧ ∃ d vs ps, bd.or cwd = some d ∧ Accepted sgn d ∧ Split (codeNormal (canon d)) vs ps ∧
          b = codeNormal (canon d) ++ 0 :: junk.drop ((codeNormal (canon d)).length + 1))) := by
    intro d rest hd
    obtain ⟨ok, r, g1, g2, g3⟩ := get_ok sgn reg d rest junk (hu d hd) hj
    rw [g1, ok_bind]
    dsimp only
    cases ok with
    | false =>
      refine ⟨false, r, rfl, .inl ⟨rfl, ?_⟩⟩
      rintro ⟨d', vs, ps, e, ha, _⟩
      rw [hd] at e
      cases e
      exact nomatch g2.2 ha
    | true =>
      have ha := g2.1 rfl
      rw [if_neg (by simp), g3 rfl, WinPath.at_ok _ _ _ 0 (by decide) (Nat.zero_le _), ok_bind, List.drop_zero]
      refine ⟨_, _, rfl, ?_⟩
      rcases normal_forms (canon d) with ⟨vs, ps, hs⟩ | ⟨h1, h2, h3⟩
      · exact .inr ⟨decide_eq_true (split_uni hs), d, vs, ps, hd, ha, hs, rfl⟩
      · refine .inl ⟨decide_eq_false (by rw [h1]; exact h2), ?_⟩
        rintro ⟨d', vs, ps, e, _, hs⟩
        rw [hd] at e
        cases e
        have := split_uni hs
        rw [h1] at this
        exact h2 this
  unfold baseDir
  cases bd with
  | some d => exact key d br rfl
  | none =>
    cases cwd with
    | some d => exact key d cr rfl
    | none =>
      refine ⟨false, junk, rfl, .inl ⟨rfl, ?_⟩⟩
      rintro ⟨d, vs, ps, e, _⟩
      cases e

/-- Giving the base directory a trailing backslash. -/
theorem slashBase_ok (vs ps : List (List Nat)) (hv : Rooted vs) (hp : Clean ps) (junk : List Nat) (h0 : 0 ∉ join (vs ++ ps))
    (hj : junk.length = 8192) (hl : junk[8191]? ≠ some 92) (hlen : (join (vs ++ ps)).length + 1 ≤ 8192) :
    ∃ ok b, slashBase (sw (join (vs ++ ps)) ++ 0 :: junk.drop ((join (vs ++ ps)).length + 1)) = .ok (ok, b) ∧
      (ok = false → (join (vs ++ ps)).length ≥ 8191) ∧
      (ok = true → b.length = 8192 ∧ b[8191]? ≠ some 92 ∧ ∃ qs tl, b = sw (join (vs ++ qs)) ++ 0 :: tl ∧ 0 ∉ join (vs ++ qs) ∧
        Clean qs ∧ full qs = full ps ∧ (ps = [] → qs = [] ∨ qs = [[]]) ∧ (join qs = [] ∨ (join qs).getLast? = some 47) ∧
        (join (vs ++ qs)).length ≤ (join (vs ++ ps)).length + 1) := by
  have hne : join (vs ++ ps) ≠ [] := by cases hv <;> simp
  have hc := Path.last_cell (s := join (vs ++ ps)) (sw_ne hl) (by omega)
  obtain ⟨ok, b, h1, h2, h3⟩ := Path.slashBase_ok (join (vs ++ ps)) ((sw junk).drop ((join (vs ++ ps)).length + 1)) h0 hne
    (by simp; omega) hc
  rw [slashBase_sw, sw_append, sw_sw, show ∀ t, sw (0 :: t) = 0 :: sw t from fun t => rfl, sw_drop, h1]
  refine ⟨ok, sw b, rfl, h2, ?_⟩
  intro hok
  obtain ⟨k1, k2, tl, k3⟩ := h3 hok
  refine ⟨by rw [sw_len]; exact k1, ?_, ?_⟩
  · intro e
    rw [sw_get] at e
    cases hb : b[8191]? with
    | none => rw [hb] at e; cases e
    | some c =>
      rw [hb] at e k2
      simp at e
      exact k2 (by rw [swp_back.1 e])
  · unfold withSlash at k3
    by_cases hlast : (join (vs ++ ps)).getLast? = some 47
    · rw [if_pos hlast] at k3
      refine ⟨ps, sw tl, by rw [k3, sw_append]; rfl, h0, hp, rfl, fun h => .inl h, ?_, by omega⟩
      cases hps : ps with
      | nil => exact .inl rfl
      | cons g t =>
        right
        rw [hps, join_append, List.getLast?_append] at hlast
        cases hj : (join (g :: t)).getLast? with
        | none => rw [List.getLast?_eq_none_iff] at hj; simp at hj
        | some c => rw [hj] at hlast; simpa using hlast
    · rw [if_neg hlast] at k3
      have e : join (vs ++ ps) ++ [47] = join (vs ++ (ps ++ [[]])) := by rw [← List.append_assoc, join_append (vs ++ ps)]; rfl
      rw [e] at k3
      refine ⟨ps ++ [[]], sw tl, by rw [k3, sw_append]; rfl, ?_, clean_append hp (fun g hg => by simp at hg; simp [hg]), full_nil_end ps,
        fun h => .inr (by rw [h]; rfl), .inr (by rw [join_append]; simp), ?_⟩
      · rw [← e]; simpa using h0
      · rw [← e]; simp

/-! ## Everything -/

theorem comps_seed (P : List Nat) (R : List Nat) (hR : R.head? ≠ some 47) (hP : P = [] ∨ P.getLast? = some 47) :
    Path.Spec.comps (seed P R) = Path.Spec.comps P ∧ (seed P R).getLast? = some 47 := by
  unfold seed
  by_cases h : P = []
  · rw [if_pos (.inr h), h]; exact ⟨rfl, rfl⟩
  · rw [if_neg (by rintro (h' | h'); exact hR h'; exact h h')]
    exact ⟨rfl, hP.resolve_left h⟩

/-- The outcome for a name with a volume. -/
def Own (f : List Nat) (trailing : Bool) (size : Nat) (ok : Bool) (r : List Nat) : Prop :=
  ∃ vs rs us qs, Split (codeNormal (canon f)) vs rs ∧ Split (sw (fix (sw (codeNormal (canon f))))) us qs ∧
    (vs.getLast? ≠ some dot → us = vs ∧ walk [] (full qs) = walk [] (full rs)) ∧
    Done (join us) trailing size (walk [] (full qs)) ok r

/-- The outcome for a name without a volume. -/
def Seen (sgn : Bool) (d f : List Nat) (trailing : Bool) (size : Nat) (ok : Bool) (r : List Nat) : Prop :=
  Accepted sgn d ∧ ∃ vs ps, Split (codeNormal (canon d)) vs ps ∧ codeNormal (canon f) = canon f ∧ ¬ uni <+: canon f ∧
    Done (join vs) trailing size (stack (join ps) (sw (canon f))) ok r

/-- `GetAbsoluteFilename` for every base directory, name, buffer and option. -/
theorem absolute_does (sgn : Bool) (reg : List Nat → Option Nat) (junk2 junk3 result f rest br cr : List Nat) (size : Nat)
    (bd cwd : Option (List Nat)) (trailing : Bool) (h2 : junk2.length = 8192) (h3 : junk3.length = 8192) (hl : junk2[8191]? ≠ some 92)
    (hs : size ≤ result.length) (hf : Usable f) (hu : ∀ d, bd.or cwd = some d → Usable d) :
    ∃ ok r, absolute sgn reg junk2 junk3 result size (bd.map (· ++ 0 :: br)) (cwd.map (· ++ 0 :: cr)) (f ++ 0 :: rest) trailing =
        .ok (ok, r) ∧ r.length = result.length ∧
      ((ok = false ∧ ¬ (Accepted sgn f ∧ (codeNormal (canon f)).length ≤ 8188 ∧
          ((∃ vs rs, Split (codeNormal (canon f)) vs rs) ∨
            ∃ d vs ps, bd.or cwd = some d ∧ Accepted sgn d ∧ Split (codeNormal (canon d)) vs ps ∧
              (codeNormal (canon d)).length + (codeNormal (canon f)).length ≤ 8188))) ∨
       (Accepted sgn f ∧ (Own f trailing size ok r ∨ ∃ d, bd.or cwd = some d ∧ Seen sgn d f trailing size ok r))) := by
  unfold absolute
  obtain ⟨ok1, f3, g1, g2, g3⟩ := get_ok sgn reg f rest junk3 hf h3
  rw [g1, ok_bind]
  dsimp only
  cases ok1 with
  | false => exact ⟨false, result, rfl, rfl, .inl ⟨rfl, fun h => nomatch g2.2 h.1⟩⟩
  | true =>
    have hacc := g2.1 rfl
    rw [if_neg (by simp)]
    have g3 := g3 rfl
    have hfl := hacc.2.2.2.2.2
    have hn0 := normal_zero (canon_zero hf.1)
    have hforms := normal_forms (canon f)
    have hca := hacc.2.2.2.2.1
    obtain ⟨ok2, f3', k1, k2, k3, k4⟩ := dotName_ok (codeNormal (canon f)) _ hn0 (by
      have : (codeNormal (canon f) ++ 0 :: junk3.drop ((codeNormal (canon f)).length + 1)).length = 8192 := by simp; omega
      exact this)
    rw [g3, k1, ok_bind]
    dsimp only
    cases ok2 with
    | false =>
      refine ⟨false, result, rfl, rfl, .inl ⟨rfl, ?_⟩⟩
      rintro ⟨_, hle, _⟩
      cases k4 (by omega)
    | true =>
      rw [if_neg (by simp)]
      obtain ⟨tl3, hf3⟩ := k3 rfl
      have hU0 : 0 ∉ sw (fix (sw (codeNormal (canon f)))) := sw_zero.2 (fix_no_zero (sw_zero.2 hn0))
      have hUl := fix_len (sw (codeNormal (canon f)))
      rw [sw_len] at hUl
      obtain ⟨i3, j1, j2, j3, j4⟩ := info_volume _ tl3 hU0
      rw [← hf3] at j1
      rw [j1, ok_bind]
      rcases hforms with ⟨vs, rs, hsp⟩ | ⟨hN, huni, hbody⟩
      · -- the name has a volume
        obtain ⟨us, qs, e1, e2, e3, e4, e5, e6⟩ := fix_rooted hsp.1 hsp.2.1
        rw [hsp.2.2, e1] at hf3 hU0 hUl j2 j3 j4
        obtain ⟨v1, v2⟩ := rooted_volume (rs := qs) e2
        rw [v2, sw_len] at j3
        have hsv : i3.startVolume ≠ 0 := fun e => v1 (j4.1 e)
        rw [if_pos hsv]
        have hjl : (join (us ++ qs)).length = (join us).length + (join qs).length := by rw [join_append, List.length_append]
        have hf3l : f3'.length = (join (us ++ qs)).length + 1 + tl3.length := by rw [hf3]; simp; omega
        unfold copyVolume
        rw [j3, File.memcpyTo_ok junk2 f3' 0 (join us).length (by omega) (by omega), ok_bind]
        have hft : f3'.take (join us).length = sw (join us) := by
          rw [hf3, join_append, sw_append, List.append_assoc, List.take_left' (sw_len _)]
        rw [hft, List.take_zero, List.nil_append, Nat.zero_add]
        have hbl : (sw (join us) ++ junk2.drop (join us).length).length = 8192 := by simp; omega
        rw [Path.wr_at _ (by omega), ok_bind, ok_bind]
        dsimp only
        have hb : (sw (join us) ++ junk2.drop (join us).length).take (join us).length ++
            0 :: (sw (join us) ++ junk2.drop (join us).length).drop ((join us).length + 1) =
            sw (join (us ++ [])) ++ 0 :: junk2.drop ((join (us ++ [])).length + 1) := by
          rw [List.append_nil, List.take_left' (sw_len _), ← List.drop_drop, List.drop_left' (sw_len _), List.drop_drop]
        rw [hb, if_neg (by simp)]
        have hus0 : 0 ∉ join us := by
          intro hm
          exact sw_zero.1 hU0 (by rw [join_append]; exact List.mem_append_left _ hm)
        obtain ⟨ok4, b2, p1, p2, p3⟩ := slashBase_ok us [] e2 (fun g hg => nomatch hg) junk2 (by rw [List.append_nil]; exact hus0)
          h2 hl (by rw [List.append_nil]; omega)
        rw [p1, ok_bind]
        dsimp only
        rw [List.append_nil] at p2 p3
        cases ok4 with
        | false =>
          refine ⟨false, result, rfl, rfl, .inl ⟨rfl, ?_⟩⟩
          rintro ⟨_, hle, _⟩
          have := p2 rfl
          omega
        | true =>
          rw [if_neg (by simp)]
          obtain ⟨m1, m2, ps, tl2, m3, m4, m5, m6, m7, m8, m9⟩ := p3 rfl
          have m7 := m7 rfl
          have hseed : ∀ R : List Nat, (R = [] ∨ R.head? = some 47) → seed (join ps) R = [47] := by
            intro R hR
            unfold seed
            rcases m7 with rfl | rfl
            · rw [if_pos (.inr rfl)]
            · split <;> rfl
          obtain ⟨ok, r, z1, z2, z3⟩ := combine_ok trailing size f3' _ tl3 b2 tl2 result i3 us ps hf3 j2 (by rw [j3, sw_len]; omega)
            m3 e2 m4 m1 m2 hs
          refine ⟨ok, r, z1, z2, ?_⟩
          have hR : sw ((sw (join (us ++ qs))).drop i3.startPath) = join qs := by
            rw [j3, join_append, sw_append, List.drop_left' (sw_len _), sw_sw]
          rw [hR, hseed _ (by cases qs <;> simp)] at z3
          rcases z3 with ⟨z3, z4⟩ | z3
          · left
            refine ⟨z3, ?_⟩
            rintro ⟨_, hle, _⟩
            rw [List.length_drop, sw_len, j3] at z4
            omega
          · right
            rw [proc_join qs [47] e3 e4 e5] at z3
            exact ⟨hacc, .inl ⟨vs, rs, us, qs, hsp, ⟨e2, e3, by rw [sw_sw, hsp.2.2, e1]⟩, e6, z3⟩⟩
      · -- the name has no volume
        have hnoq : 63 ∉ canon f := by
          intro hm
          rw [← hbody] at hm
          have := hca.1 63 hm
          exact absurd ((WinPath.rejected_iff sgn 63).2 (.inl (by unfold Verif.WinPath.Spec.Forbidden; simp))) (by rw [this]; simp)
        rw [hN] at hf3 hU0 hUl j2 j3 j4 hfl hn0
        have hUq : ¬ uni <+: sw (fix (sw (canon f))) := by
          rintro ⟨t, ht⟩
          have : 63 ∈ sw (fix (sw (canon f))) := by rw [← ht]; simp [uni]
          have h63 : 63 ∈ fix (sw (canon f)) := (sw_mem (c := 63)).1 this
          exact fix_not (by decide) (fun hm => hnoq ((sw_mem (c := 63)).1 hm)) h63
        obtain ⟨q1, q2⟩ := no_prefix hUq
        rw [q2, List.length_nil] at j3
        have hsv : i3.startVolume = 0 := j4.2 q1
        rw [if_neg (by rw [hsv]; simp)]
        have hnosplit : ¬ ∃ vs rs, Split (codeNormal (canon f)) vs rs := by
          rintro ⟨vs, rs, hx⟩
          have := split_uni hx
          rw [hN] at this
          exact huni this
        obtain ⟨ok3, b, m1, m2⟩ := baseDir_ok sgn reg bd cwd br cr junk2 hu h2
        rw [m1, ok_bind]
        dsimp only
        rcases m2 with ⟨rfl, m2⟩ | ⟨rfl, d, vs, ps, hd, m3, m4, m5⟩
        · refine ⟨false, result, rfl, rfl, .inl ⟨rfl, ?_⟩⟩
          rintro ⟨_, _, hx | ⟨d, vs, ps, x1, x2, x3, _⟩⟩
          · exact hnosplit hx
          · exact m2 ⟨d, vs, ps, x1, x2, x3⟩
        · rw [if_neg (by simp)]
          have hd0 := normal_zero (canon_zero (hu d hd).1)
          have hdl := m3.2.2.2.2.2
          have hnot : ∀ {n : Nat}, n < (codeNormal (canon d)).length + (codeNormal (canon f)).length → 8188 ≤ n →
              ¬ (Accepted sgn f ∧ (codeNormal (canon f)).length ≤ 8188 ∧
                ((∃ vs rs, Split (codeNormal (canon f)) vs rs) ∨
                  ∃ d vs ps, bd.or cwd = some d ∧ Accepted sgn d ∧ Split (codeNormal (canon d)) vs ps ∧
                    (codeNormal (canon d)).length + (codeNormal (canon f)).length ≤ 8188)) := by
            intro n h1 h2
            rintro ⟨_, _, hx | ⟨d', vs', ps', x1, x2, x3, x4⟩⟩
            · exact hnosplit hx
            · rw [hd] at x1
              cases x1
              omega
          rw [split_text m4] at m5
          have hjz : 0 ∉ join (vs ++ ps) := by rw [← m4.2.2]; exact sw_zero.2 hd0
          have hjl : (join (vs ++ ps)).length = (codeNormal (canon d)).length := by rw [← m4.2.2, sw_len]
          rw [sw_len] at m5
          obtain ⟨ok4, b2, p1, p2, p3⟩ := slashBase_ok vs ps m4.1 m4.2.1 junk2 hjz h2 hl (by omega)
          rw [m5, p1, ok_bind]
          dsimp only
          have hpos : 0 < (codeNormal (canon f)).length := by
            rw [hN, WinPath.canon_len]
            cases f with
            | nil => exact absurd rfl hacc.1
            | cons c t => simp
          cases ok4 with
          | false =>
            have := p2 rfl
            exact ⟨false, result, rfl, rfl, .inl ⟨rfl, hnot (n := 8190) (by omega) (by omega)⟩⟩
          | true =>
            rw [if_neg (by simp)]
            obtain ⟨n1, n2, qs, tl2, n3, n4, n5, n6, _, n8, n9⟩ := p3 rfl
            obtain ⟨ok, r, z1, z2, z3⟩ := combine_ok trailing size f3' _ tl3 b2 tl2 result i3 vs qs hf3 j2 (by omega) n3 m4.1 n4
              n1 n2 hs
            refine ⟨ok, r, z1, z2, ?_⟩
            rw [j3, List.drop_zero, sw_sw] at z3
            rcases z3 with ⟨z3, z4⟩ | z3
            · left
              rw [sw_len] at z4
              exact ⟨z3, hnot (n := 8188) (by rw [hN]; omega) (by omega)⟩
            · right
              refine ⟨hacc, .inr ⟨d, hd, m3, vs, ps, m4, hN, huni, ?_⟩⟩
              have hcq : Path.Spec.comps (join qs) = Path.Spec.comps (join ps) := by
                have a := comps_join [] qs n5
                have b := comps_join [] ps m4.2.1
                rw [List.nil_append] at a b
                rw [a, b, n6]
              have hst : Path.Spec.comps (proc (seed (join qs) (fix (sw (canon f)))) (fix (sw (canon f)))) =
                  stack (join ps) (sw (canon f)) := by
                unfold stack
                have hfh := fix_head (sw (canon f))
                by_cases hh : (sw (canon f)).head? = some 47
                · rw [if_pos hh, ← proc_abs _ hh]
                  unfold seed
                  rw [if_pos (.inl (hfh.2 hh))]
                · rw [if_neg hh]
                  obtain ⟨c1, c2⟩ := comps_seed (join qs) (fix (sw (canon f))) (fun e => hh (hfh.1 e)) n8
                  exact proc_rel _ (join ps) _ hh c2 (c1.trans hcq)
              rw [hst] at z3
              exact z3

end Verif.WinAbs
