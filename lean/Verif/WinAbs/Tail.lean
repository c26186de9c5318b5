import Verif.WinAbs.Lemmas
import Verif.WinAbs.Spec
import Verif.WinPath.PropsInfo

/-!
# The parts of `GetAbsoluteFilename` on Windows after the names are prepared
-/

namespace Verif.WinAbs

open Verif.Path (cstr at_ Info cstr_ok join join_nil join_cons join_append Clean proc collapse collapse_abs Ends fix wr_at len_wr drop_wr proc_head full)
open Verif.WinPath (info root win_name_parts)
open Verif.WinPath.Spec (Begins Same unc uni fold)
open Spec

/-! ## The volume in the sense of the code -/

theorem prefixLen_root (s : List Nat) : prefixLen s = root s := rfl

theorem takeWhile_stop {a b : List Nat} (ha : 92 ∉ a) (hb : b = [] ∨ b.head? = some 92) :
    (a ++ b).takeWhile (fun c => c ≠ 92) = a := by
  induction a with
  | nil =>
    cases b with
    | nil => rfl
    | cons c t =>
      rcases hb with hb | hb
      · cases hb
      · simp at hb; simp [hb]
  | cons c t ih =>
    have hc : c ≠ 92 := fun e => ha (by simp [e])
    rw [List.cons_append, List.takeWhile_cons, if_pos (by simpa using hc), ih (fun h => ha (List.mem_cons_of_mem _ h))]

theorem info_volume (f rest : List Nat) (h0 : 0 ∉ f) : ∃ i, info (f ++ 0 :: rest) = .ok i ∧ i.length = f.length ∧
    i.startPath = (volume f).length ∧ (i.startVolume = 0 ↔ prefixLen f = 0) := by
  obtain ⟨pre, v, dir, stem, mid, last, h1, h2, h3, h4, h5, _⟩ := win_name_parts f rest h0
  have hpre : pre.length = prefixLen f := by
    unfold prefixLen
    split
    · next hu =>
      rw [if_pos hu] at h3
      exact WinPath.same_len h3
    · next hu =>
      rw [if_neg hu] at h3
      split
      · next hu' => rw [if_pos hu'] at h3; rw [h3]; rfl
      · next hu' => rw [if_neg hu'] at h3; rw [h3]; rfl
  refine ⟨_, h2, rfl, ?_, by rw [← hpre]⟩
  show (pre ++ v).length = _
  unfold volume
  by_cases hp : prefixLen f = 0
  · rw [if_pos hp]
    have : pre = [] := List.length_eq_zero_iff.1 (by omega)
    rw [if_pos this] at h5
    simp [this, h5]
  · rw [if_neg hp]
    have hne : pre ≠ [] := fun e => hp (by rw [← hpre, e]; rfl)
    rw [if_neg hne] at h5
    have hf : f = pre ++ (v ++ (dir ++ stem ++ mid ++ last)) := by rw [h1]; simp
    rw [← hpre]
    conv => rhs; rw [hf]
    rw [List.take_left, List.drop_left, takeWhile_stop h4 h5]

/-- The pieces of a volume: a drive, or a host, behind the prefix. -/
inductive Rooted : List (List Nat) → Prop
  | drive (c : Nat) (w : List Nat) : 47 ∉ c :: 58 :: w → Rooted [[], [63], c :: 58 :: w]
  | host (u h : List Nat) : Same u [85, 78, 67] → 47 ∉ u → 47 ∉ h → Rooted [[], [63], u, h]

theorem Rooted.clean {vs : List (List Nat)} (h : Rooted vs) : Clean vs := by
  intro g hg
  cases h with
  | drive c w h =>
    simp only [List.mem_cons, List.not_mem_nil, or_false] at hg
    rcases hg with rfl | rfl | rfl
    · simp
    · decide
    · exact h
  | host u h _ h1 h2 =>
    simp only [List.mem_cons, List.not_mem_nil, or_false] at hg
    rcases hg with rfl | rfl | rfl | rfl
    · simp
    · decide
    · exact h1
    · exact h2

theorem join_or (gs : List (List Nat)) : sw (join gs) = [] ∨ (sw (join gs)).head? = some 92 := by
  cases gs with
  | nil => exact .inl rfl
  | cons g gs => exact .inr rfl

theorem sw_noback {s : List Nat} (h : 47 ∉ s) : 92 ∉ sw s := by
  intro hm
  have := (sw_mem (c := 47) (s := s)).1 hm
  exact h this

theorem rooted_volume {vs rs : List (List Nat)} (h : Rooted vs) :
    prefixLen (sw (join (vs ++ rs))) ≠ 0 ∧ volume (sw (join (vs ++ rs))) = sw (join vs) := by
  cases h with
  | drive c w hc =>
    have e : sw (join ([[], [63], c :: 58 :: w] ++ rs)) = uni ++ (sw (c :: 58 :: w) ++ sw (join rs)) := by
      simp [uni, swp]
    rw [e]
    have hn : ¬ Begins unc (uni ++ (sw (c :: 58 :: w) ++ sw (join rs))) := by
      intro hb
      have : swp 58 = 58 := rfl
      unfold Begins at hb
      simp only [unc, uni, sw_cons, this, List.cons_append, List.map_cons, List.cons_prefix_cons, List.nil_append] at hb
      have := hb.2.2.2.2.2.1
      exact absurd this (by decide)
    have hp : prefixLen (uni ++ (sw (c :: 58 :: w) ++ sw (join rs))) = 4 := by
      unfold prefixLen
      rw [if_neg hn, if_pos (List.prefix_append _ _)]
    refine ⟨by rw [hp]; decide, ?_⟩
    unfold volume
    rw [hp, if_neg (by decide), List.take_left' (by rfl), List.drop_left' (by rfl), takeWhile_stop (sw_noback hc) (join_or rs)]
    simp [uni, swp]
  | host u h hu h1 h2 =>
    have hl : u.length = 3 := WinPath.same_len hu
    have hswu : sw u = u := by
      have h92 : 92 ∉ u := by
        intro hm
        have : fold 92 ∈ u.map fold := List.mem_map_of_mem hm
        rw [show u.map fold = [85, 78, 67].map fold from hu] at this
        exact absurd this (by decide)
      unfold sw
      conv => rhs; rw [← List.map_id u]
      refine List.map_congr_left (fun c hc => ?_)
      unfold swp
      rw [if_neg (fun e : c = 47 => h1 (e ▸ hc)), if_neg (fun e : c = 92 => h92 (e ▸ hc))]
      rfl
    have e : sw (join ([[], [63], u, h] ++ rs)) = (uni ++ u ++ [92]) ++ (sw h ++ sw (join rs)) := by
      simp [uni, swp, hswu]
    rw [e]
    have hb : Begins unc ((uni ++ u ++ [92]) ++ (sw h ++ sw (join rs))) := by
      unfold Begins
      rw [List.map_append]
      have : (uni ++ u ++ [92]).map fold = unc.map fold := by
        rw [List.map_append, List.map_append, show u.map fold = [85, 78, 67].map fold from hu]; decide
      rw [this]
      exact List.prefix_append _ _
    have hp : prefixLen ((uni ++ u ++ [92]) ++ (sw h ++ sw (join rs))) = 8 := by
      unfold prefixLen
      rw [if_pos hb]
    have hl8 : (uni ++ u ++ [92]).length = 8 := by simp [uni, hl]
    refine ⟨by rw [hp]; decide, ?_⟩
    unfold volume
    rw [hp, if_neg (by decide), List.take_left' hl8, List.drop_left' hl8, takeWhile_stop (sw_noback h2) (join_or rs)]
    simp [uni, swp, hswu]

/-! ## The loops at the end -/

/-- What is left when the string, cut off at the size of the buffer, is complete. -/
def Done (V : List Nat) (trailing : Bool) (size : Nat) (S : List (List Nat)) (ok : Bool) (r : List Nat) : Prop :=
  ∃ tr, (tr = [] ∨ tr = [47]) ∧ (S = [] → tr = [47]) ∧ (V ++ (join S ++ tr)).length ≤ 8191 ∧
    Ends trailing size ((V ++ (join S ++ tr)).take size) ok (sw r)

theorem volLoop_ok (b : List Nat) : ∀ (k x : Nat) (r : List Nat), x + k ≤ b.length → x + k ≤ r.length → r.take x = b.take x →
    ∃ r', volLoop b k x r = .ok r' ∧ r'.length = r.length ∧ r'.take (x + k) = b.take (x + k)
  | 0, x, r, _, _, h => ⟨r, rfl, rfl, h⟩
  | k + 1, x, r, hb, hr, h => by
    rw [volLoop, rd_ok (by omega), ok_bind, wr_at _ (by omega), ok_bind]
    obtain ⟨r', h1, h2, h3⟩ := volLoop_ok b k (x + 1) (r.take x ++ b[x] :: r.drop (x + 1)) (by omega) (by rw [len_wr _ (by omega)]; omega)
      (by rw [Path.take_wr _ (by omega), Path.take_succ_get (b := b) (by omega), h])
    rw [len_wr _ (by omega)] at h2
    exact ⟨r', h1, h2, by rw [show x + (k + 1) = x + 1 + k by omega]; exact h3⟩

theorem sw_ne {b : List Nat} {i : Nat} (h : b[i]? ≠ some 92) : (sw b)[i]? ≠ some 47 := by
  rw [sw_get]
  intro e
  cases hb : b[i]? with
  | none => rw [hb] at e; cases e
  | some c =>
    rw [hb] at e
    simp at e
    rw [swp_slash] at e
    exact h (by rw [hb, e])

theorem finish_ok (trailing : Bool) (size : Nat) (f3 U tl3 V b2 r : List Nat) (i3 : Info) (n : Nat) (hf : f3 = U ++ 0 :: tl3)
    (hi : i3.length = U.length) (hsp : i3.startPath ≤ U.length) (hb : (V ++ b2).length = 8192) (hl : (V ++ b2)[8191]? ≠ some 92)
    (hn : V.length + n ≤ 8191) (hhead : (b2.take n).head? = some 92) (hs : size ≤ r.length) :
    ∃ ok r', finish trailing size f3 i3 V.length (V.length + n) (V ++ b2) r = .ok (ok, r') ∧ r'.length = r.length ∧
      ((ok = false ∧ 8191 < V.length + n + (U.drop i3.startPath).length) ∨
        Done (sw V) trailing size (Verif.Path.Spec.comps (proc (sw (b2.take n)) (sw (U.drop i3.startPath)))) ok r') := by
  have hb2 : b2.length = 8191 - V.length + 1 := by simp at hb; omega
  unfold finish
  rw [nameLoop_sw f3 V i3.length (by omega), hi]
  have hdrop : (sw f3).drop i3.startPath = sw (U.drop i3.startPath) ++ 0 :: sw tl3 := by
    rw [hf, ← sw_drop, List.drop_append_of_le_length hsp, sw_append]; rfl
  obtain ⟨q, h1, h2, h3⟩ := Path.nameLoop_ok (8191 - V.length) (sw f3) (sw tl3) U.length (f3.length + 1) i3.startPath n (sw b2)
    (sw (U.drop i3.startPath)) hdrop (by rw [sw_len, List.length_drop]; omega) (by rw [sw_len, List.length_drop, hf]; simp; omega)
    (by omega) (by rw [sw_len]; exact hb2)
  rw [sw_len] at h2 h3
  rw [h1]
  cases q with
  | none => exact ⟨false, r, rfl, rfl, .inl ⟨rfl, by have := h2 rfl; omega⟩⟩
  | some p =>
    obtain ⟨n', b'⟩ := p
    obtain ⟨g1, g2, g3, g4, _⟩ := h3 n' b' rfl
    simp only [Except.map, Option.map_some, ok_bind]
    have hbl : (V ++ sw b').length = 8192 := by simp; omega
    have hlast : (V ++ sw b')[8191]? ≠ some 92 := by
      rw [List.getElem?_append_right (by omega)] at hl ⊢
      rw [sw_get, g4, sw_get]
      intro e
      apply hl
      cases hc : b2[8191 - V.length]? with
      | none => rw [hc] at e; cases e
      | some c =>
        rw [hc] at e
        simp only [Option.map_some, swp_swp] at e
        exact e
    obtain ⟨r1, k1, k2, k3⟩ := volLoop_ok (V ++ sw b') (min size V.length) 0 r (by omega) (by omega) (by simp)
    rw [k1, ok_bind, Nat.zero_add] at *
    rw [outLoop_sw]
    obtain ⟨r2, m1, m2, m3⟩ := Path.outLoop_ok (sw (V ++ sw b')) (V.length + n') size (by rw [sw_len]; exact hbl) (by omega)
      (sw_ne hlast) ((V ++ sw b').length + 1) (min size V.length) (min size V.length) (sw r1) (by omega)
      (by rw [sw_len]; omega) (by omega) (by omega)
    rw [m1]
    simp only [Except.map, ok_bind]
    rw [absEnd_sw, sw_sw]
    -- the string in the result
    have hph := proc_head ((sw (U.drop i3.startPath)).length + 1) (sw (b2.take n)) (sw (U.drop i3.startPath)) (by omega)
      (.inl (by
        cases hh : b2.take n with
        | nil => rw [hh] at hhead; cases hhead
        | cons c t => rw [hh] at hhead; simp at hhead; subst hhead; rfl))
    obtain ⟨tr, t1, t2, t3⟩ := collapse_abs _ hph
    rw [sw_take, ← g3] at *
    have htake : (sw (V ++ sw b')).take (V.length + n') = sw V ++ b'.take n' := by
      rw [sw_append, sw_sw, ← sw_len V, List.take_length_add_append]
    have hW : (sw r1).take (min size V.length) ++
        (collapse (((sw (V ++ sw b')).take (V.length + n')).drop (min size V.length))).take (size - min size V.length) =
          (sw V ++ collapse (b'.take n')).take size := by
      rw [htake, ← sw_take, k3]
      rcases Nat.le_total size V.length with h | h
      · rw [Nat.min_eq_left h, Nat.sub_self, List.take_zero, List.append_nil, List.take_append_of_le_length h,
          List.take_append_of_le_length (by rw [sw_len]; exact h), sw_take]
      · rw [Nat.min_eq_right h, List.take_left' rfl, List.drop_left' (sw_len V), List.take_append, sw_len,
          List.take_of_length_le (l := sw V) (by rw [sw_len]; exact h)]
    have hlenW : min size V.length + ((collapse (((sw (V ++ sw b')).take (V.length + n')).drop (min size V.length))).take
        (size - min size V.length)).length = ((sw V ++ collapse (b'.take n')).take size).length := by
      rw [← hW, List.length_append, List.length_take (l := sw r1), Nat.min_eq_left (a := min size V.length) (b := (sw r1).length) (by rw [sw_len r1]; omega)]
    rw [hlenW, hW] at m3
    rw [hlenW]
    rw [sw_len] at m2
    obtain ⟨ok, r3, e1, e2, e3⟩ := Path.absEnd_ok trailing size r2 _ m3 (by omega) (by rw [List.length_take]; omega)
    rw [e1]
    refine ⟨ok, sw r3, rfl, by rw [sw_len]; omega, .inr ⟨tr, t1, t2, ?_, ?_⟩⟩
    · rw [← t3]
      have := Path.collapse_len (b'.take n')
      rw [List.length_take] at this
      simp; omega
    · rw [sw_sw, ← t3]
      exact e3

/-! ## The base directory and the name together -/

/-- The directory the name is appended to. -/
def seed (P R : List Nat) : List Nat := if R.head? = some 47 ∨ P = [] then [47] else P

theorem last_set (b : List Nat) (n c : Nat) (hn : n < 8191) (hb : b.length = 8192) :
    (b.take n ++ c :: b.drop (n + 1))[8191]? = b[8191]? := by
  have := congrArg (fun l => l[0]?) (drop_wr (y := 8191) c (show n < b.length by omega) (by omega))
  simpa only [List.getElem?_drop, Nat.add_zero] using this

theorem combine_ok (trailing : Bool) (size : Nat) (f3 U tl3 b tl2 r : List Nat) (i3 : Info) (vs ps : List (List Nat))
    (hf : f3 = U ++ 0 :: tl3) (hi : i3.length = U.length) (hsp : i3.startPath ≤ U.length)
    (hb2 : b = sw (join (vs ++ ps)) ++ 0 :: tl2) (hv : Rooted vs) (h0 : 0 ∉ join (vs ++ ps))
    (hb : b.length = 8192) (hl : b[8191]? ≠ some 92) (hs : size ≤ r.length) :
    ∃ ok r', combine trailing size f3 i3 b r = .ok (ok, r') ∧ r'.length = r.length ∧
      ((ok = false ∧ 8190 < (join (vs ++ ps)).length + (U.drop i3.startPath).length) ∨
        Done (join vs) trailing size (Verif.Path.Spec.comps (proc (seed (join ps) (sw (U.drop i3.startPath))) (sw (U.drop i3.startPath))))
          ok r') := by
  obtain ⟨i2, j1, j2, j3, _⟩ := info_volume (sw (join (vs ++ ps))) tl2 (sw_zero.2 h0)
  rw [(rooted_volume hv).2, sw_len] at j3
  rw [sw_len] at j2
  unfold combine
  rw [← hb2] at j1
  rw [j1, ok_bind]
  have hc : rd f3 i3.startPath = .ok ((U.drop i3.startPath).headD 0) := by
    have : f3.drop i3.startPath = U.drop i3.startPath ++ 0 :: tl3 := by rw [hf, List.drop_append_of_le_length hsp]
    cases hd : U.drop i3.startPath with
    | nil => rw [hd] at this; exact Path.rd_drop this
    | cons c t => rw [hd] at this; exact Path.rd_drop this
  rw [hc, ok_bind, j2, j3]
  have hjl : (join (vs ++ ps)).length = (join vs).length + (join ps).length := by rw [join_append, List.length_append]
  have hbs : b = sw (join vs) ++ (sw (join ps) ++ 0 :: tl2) := by rw [hb2, join_append, sw_append, List.append_assoc]
  have hVlt : (join vs).length < 8192 := by
    have := congrArg List.length hbs
    simp at this
    omega
  have hhd : (U.drop i3.startPath).headD 0 = 92 ↔ (sw (U.drop i3.startPath)).head? = some 47 := by
    cases U.drop i3.startPath with
    | nil => simp
    | cons c t => simp [swp_slash]
  -- the case in which the path starts at the root
  have atRoot : ∀ (hV : ¬ (join vs).length ≥ 8191) (hseed : seed (join ps) (sw (U.drop i3.startPath)) = [47]),
      ∃ ok r', (do
        let (n, b) ← (do
          let b ← wr b (join vs).length 92
          .ok ((join vs).length + 1, b) : CRes (Nat × List Nat))
        finish trailing size f3 i3 (join vs).length n b r : CRes (Bool × List Nat)) = .ok (ok, r') ∧ r'.length = r.length ∧
      ((ok = false ∧ 8190 < (join (vs ++ ps)).length + (U.drop i3.startPath).length) ∨
        Done (join vs) trailing size (Verif.Path.Spec.comps (proc (seed (join ps) (sw (U.drop i3.startPath))) (sw (U.drop i3.startPath))))
          ok r') := by
    intro hV hseed
    rw [wr_at _ (by omega), ok_bind, ok_bind]
    dsimp only
    have ht : b.take (join vs).length = sw (join vs) := by rw [hbs, List.take_left' (sw_len _)]
    have hlen := len_wr (b := b) (x := (join vs).length) 92 (by omega)
    have hls := last_set b (join vs).length 92 (by omega) hb
    rw [ht] at hlen hls ⊢
    have := finish_ok trailing size f3 U tl3 (sw (join vs)) (92 :: b.drop ((join vs).length + 1)) r i3 1 hf hi hsp (by omega)
      (by rw [hls]; exact hl) (by rw [sw_len]; omega) rfl hs
    rw [sw_len, sw_sw] at this
    obtain ⟨ok, r', g1, g2, g3⟩ := this
    refine ⟨ok, r', g1, g2, ?_⟩
    rw [hseed]
    rcases g3 with ⟨g3, g4⟩ | g3
    · exact .inl ⟨g3, by omega⟩
    · exact .inr g3
  by_cases hh : (U.drop i3.startPath).headD 0 = 92
  · rw [if_pos hh]
    dsimp only
    have hseed : seed (join ps) (sw (U.drop i3.startPath)) = [47] := by
      unfold seed
      rw [if_pos (.inl (hhd.1 hh))]
    by_cases hV : (join vs).length ≥ 8191
    · rw [if_pos hV]
      refine ⟨false, r, rfl, rfl, .inl ⟨rfl, ?_⟩⟩
      omega
    · rw [if_neg hV, if_pos rfl]
      exact atRoot hV hseed
  · rw [if_neg hh]
    dsimp only
    by_cases hbig : (join (vs ++ ps)).length ≥ 8191
    · rw [if_pos hbig]
      exact ⟨false, r, rfl, rfl, .inl ⟨rfl, by omega⟩⟩
    · rw [if_neg hbig]
      by_cases hps : ps = []
      · subst hps
        rw [List.append_nil, if_pos rfl]
        have := atRoot (by omega) (by unfold seed; rw [if_pos (.inr rfl)])
        rw [List.append_nil] at this
        exact this
      · have hpos : (join ps).length ≠ 0 := by
          cases ps with
          | nil => exact absurd rfl hps
          | cons g t => simp
        rw [if_neg (by omega), ok_bind]
        dsimp only
        have htp : (sw (join ps) ++ 0 :: tl2).take (join ps).length = sw (join ps) := List.take_left' (sw_len _)
        have := finish_ok trailing size f3 U tl3 (sw (join vs)) (sw (join ps) ++ 0 :: tl2) r i3 (join ps).length hf hi hsp
          (by rw [← hbs]; exact hb) (by rw [← hbs]; exact hl) (by rw [sw_len]; omega) (by
            rw [htp]
            cases ps with
            | nil => exact absurd rfl hps
            | cons g t => rfl) hs
        rw [sw_len, sw_sw, ← hbs, htp, sw_sw] at this
        obtain ⟨ok, r', g1, g2, g3⟩ := this
        have hseed : seed (join ps) (sw (U.drop i3.startPath)) = join ps := by
          unfold seed
          rw [if_neg]
          rintro (h | h)
          · exact hh (hhd.2 h)
          · rw [h] at hpos; exact hpos rfl
        rw [hseed, hjl]
        exact ⟨ok, r', g1, g2, g3.imp_left fun g => ⟨g.1, by omega⟩⟩

end Verif.WinAbs
