import Verif.WinOps.Lemmas

/-!
# `Stat`
-/

namespace Verif.WinOps
open Verif.WinPath Verif.WinPath.Spec
open Verif.WinAbs (Accepted Usable Fit get_ok canon_zero normal_zero info_volume)
open Verif.WinAbs.Spec (prefixLen volume)
open Verif.WinOps.Spec

theorem info_does (s rest : List Nat) (h0 : 0 ∉ s) : ∃ i, info (s ++ 0 :: rest) = .ok i ∧ i.length = s.length ∧
    i.startPath = (volume s).length ∧ i.startVolume = prefixLen s := by
  obtain ⟨i, h1, h2, h3, _⟩ := info_volume s rest h0
  refine ⟨i, h1, h2, h3, ?_⟩
  obtain ⟨pre, v, dir, stem, mid, last, _, h5, h6, _⟩ := win_name_parts s rest h0
  rw [h1] at h5
  injection h5 with h5
  rw [h5]
  show pre.length = prefixLen s
  unfold prefixLen
  split
  · next hu =>
    rw [if_pos hu] at h6
    exact same_len h6
  · next hu =>
    rw [if_neg hu] at h6
    split
    · next hu' => rw [if_pos hu'] at h6; rw [h6]; rfl
    · next hu' => rw [if_neg hu'] at h6; rw [h6]; rfl

theorem prefixLen_le (s : List Nat) : prefixLen s ≤ s.length := by
  unfold prefixLen
  split
  · next h => exact begins_len h
  · split
    · next h => exact h.length_le
    · exact Nat.zero_le _

/-- The volume is a part of the path. -/
theorem volume_take (s : List Nat) (hp : prefixLen s ≠ 0) : ∃ v, (volume s).drop (prefixLen s) = v ∧
    (volume s).length = prefixLen s + v.length ∧ v <+: s.drop (prefixLen s) := by
  have hl := prefixLen_le s
  refine ⟨_, rfl, ?_, ?_⟩
  · unfold WinAbs.Spec.volume
    rw [if_neg hp]
    simp
    omega
  · unfold WinAbs.Spec.volume
    rw [if_neg hp, List.drop_left' (by simp; omega)]
    exact List.takeWhile_prefix _

theorem device_ok (s rest : List Nat) (i : Path.Info) (hp : i.startPath = (volume s).length) (hv : i.startVolume = prefixLen s) :
    WinOps.device (s ++ 0 :: rest) i = .ok (Spec.driveNo s) := by
  unfold WinOps.device Spec.driveNo
  rw [hp, hv]
  by_cases h0 : prefixLen s = 0
  · rw [if_pos h0]
    have : volume s = [] := by unfold WinAbs.Spec.volume; rw [if_pos h0]
    rw [this, h0, if_neg (by simp), ok_bind]
    simp
  · rw [if_neg h0]
    obtain ⟨v, h1, h2, t, h3⟩ := volume_take s h0
    rw [h1, h2]
    by_cases hl : v.length = 2
    · rw [if_pos (by omega)]
      match v, hl with
      | [c, d], _ =>
        have hd : (s ++ 0 :: rest).drop (prefixLen s) = c :: d :: (t ++ 0 :: rest) := by
          rw [List.drop_append_of_le_length (prefixLen_le s), ← h3]
          simp
        have r1 : rd (s ++ 0 :: rest) (prefixLen s) = .ok c := Path.rd_drop hd
        have r2 : rd (s ++ 0 :: rest) (prefixLen s + 1) = .ok d := by
          refine Path.rd_drop (t := t ++ 0 :: rest) ?_
          rw [← List.drop_drop, hd]
          rfl
        rw [r1, ok_bind]
        dsimp only
        have hpos : prefixLen s > 0 := by omega
        by_cases hc : 65 ≤ c ∧ c ≤ 90
        · rw [if_pos hc, r2, ok_bind]
          by_cases hd : d = 58
          · rw [if_pos hd, ok_bind, if_pos (show 65 ≤ c ∧ c ≤ 90 ∧ d = 58 from ⟨hc.1, hc.2, hd⟩)]
          · rw [if_neg hd, ok_bind, if_neg (show ¬ (65 ≤ c ∧ c ≤ 90 ∧ d = 58) from fun h => hd h.2.2)]
            dsimp only
            rw [if_pos hpos]
        · rw [if_neg hc, ok_bind, if_neg (show ¬ (65 ≤ c ∧ c ≤ 90 ∧ d = 58) from fun h => hc ⟨h.1, h.2.1⟩)]
          dsimp only
          rw [if_pos hpos]
    · rw [if_neg (by omega), ok_bind]
      dsimp only
      rw [if_pos (by omega)]
      match v, hl with
      | [], _ => rfl
      | [_], _ => rfl
      | [_, _], hl => exact absurd rfl hl
      | _ :: _ :: _ :: _, _ => rfl

theorem orElse_ok (a b : Bool) : orElse (.ok a) (.ok b) = (.ok (a || b) : CRes Bool) := by cases a <;> rfl

theorem begins_same {p s : List Nat} (hl : s.length = p.length) : Begins p s ↔ Same s p := by
  unfold Begins Same
  constructor
  · intro h
    exact (h.eq_of_length (by simp [hl])).symm
  · intro h
    rw [h]
    exact List.prefix_refl _

theorem program_ok (s rest : List Nat) (i : Path.Info) (hl : i.length = s.length) :
    ∃ p, program (s ++ 0 :: rest) i = .ok p ∧ (p = true ↔ Program s) := by
  unfold program
  rw [hl]
  have hprog : ∀ a e, s = a ++ 46 :: e → (Same e [101, 120, 101] ∨ Same e [99, 111, 109] ∨ Same e [98, 97, 116] ∨ Same e [99, 109, 100]) →
      e.length = 3 := by
    intro a e _ h
    rcases h with h | h | h | h <;> exact same_len h
  by_cases h4 : s.length > 4
  · rw [if_pos h4, rd_in s _ (show s.length - 4 < s.length by omega), ok_bind]
    have hs : s = s.take (s.length - 4) ++ s[s.length - 4] :: s.drop (s.length - 3) := by
      conv => lhs; rw [← List.take_append_drop (s.length - 4) s]
      rw [List.drop_eq_getElem_cons (by omega)]
      congr 3
      omega
    by_cases hd : s[s.length - 4] = 46
    · rw [if_pos hd]
      rw [atI_ok s rest _ _ (by decide) (by omega), atI_ok s rest _ _ (by decide) (by omega),
        atI_ok s rest _ _ (by decide) (by omega), atI_ok s rest _ _ (by decide) (by omega),
        orElse_ok, orElse_ok, orElse_ok]
      refine ⟨_, rfl, ?_⟩
      have l3 : (s.drop (s.length - 3)).length = 3 := by rw [List.length_drop]; omega
      simp only [Bool.or_eq_true, decide_eq_true_eq]
      rw [begins_same l3, begins_same l3, begins_same l3, begins_same l3]
      constructor
      · intro h
        refine ⟨s.take (s.length - 4), s.drop (s.length - 3), ?_, ?_, h⟩
        · intro e
          have := congrArg List.length e
          rw [List.length_take] at this
          simp at this
          omega
        · rw [← hd]; exact hs
      · rintro ⟨a, e, _, hse, h⟩
        have he := hprog a e hse h
        have : s.drop (s.length - 3) = e := by
          have hl : s.length = a.length + 4 := by rw [hse]; simp [he]
          rw [hl, hse, show a.length + 4 - 3 = a.length + 1 by omega, ← List.drop_drop, List.drop_left]
          rfl
        rw [this]
        exact h
    · rw [if_neg hd]
      refine ⟨_, rfl, ?_⟩
      constructor
      · intro h; cases h
      · rintro ⟨a, e, _, hse, h⟩
        have he := hprog a e hse h
        exfalso
        apply hd
        have hl : s.length - 4 = a.length := by rw [hse]; simp [he]
        subst hse
        simp only [hl]
        simp
  · rw [if_neg h4]
    refine ⟨_, rfl, ?_⟩
    constructor
    · intro h; cases h
    · rintro ⟨a, e, hne, hse, h⟩
      have he := hprog a e hse h
      have := List.length_pos_iff.2 hne
      have hl : s.length = a.length + 4 := by rw [hse]; simp [he]
      omega

/-- The number of the drive that `Stat` reports: that of the name, or that of the current directory; `none` if there is
none of them. -/
theorem statDev_ok {E : Env} (s rest cr : List Nat) (i : Path.Info) (cwd : Option (List Nat))
    (hp : i.startPath = (volume s).length) (hv : i.startVolume = prefixLen s)
    (hj : E.junk.length = 8192) (hw : E.wjunk.length = 8192) (hc : ∀ d, cwd = some d → Fit d) :
    ∃ o, statDev E (s ++ 0 :: rest) i (cwd.map (· ++ 0 :: cr)) = .ok o ∧
      (∀ n, Spec.driveNo s = some n → o = some n) ∧
      (Spec.driveNo s = none → ∀ d, cwd = some d → Accepted E.sgn d → o = some ((Spec.driveNo (normal (canon d))).getD (2 ^ 32 - 1))) ∧
      (Spec.driveNo s = none → (cwd = none ∨ ∃ d, cwd = some d ∧ ¬ Accepted E.sgn d) → o = none) := by
  unfold statDev
  rw [device_ok s rest i hp hv, ok_bind]
  cases hd : Spec.driveNo s with
  | some n => exact ⟨_, rfl, fun m hm => by rw [← hm], (fun h => nomatch h), (fun h => nomatch h)⟩
  | none =>
    dsimp only
    cases cwd with
    | none => exact ⟨_, rfl, (fun _ h => nomatch h), (fun _ _ h => nomatch h), fun _ _ => rfl⟩
    | some d =>
      simp only [Option.map_some]
      by_cases ha : Accepted E.sgn d
      · obtain ⟨w, tl, _, hz, h1, _⟩ := platform_yes cr (hc d rfl) hj hw ha
        rw [h1, ok_bind]
        dsimp only [Bool.not_true]
        rw [if_neg (by decide)]
        obtain ⟨i2, j1, j2, j3, j4⟩ := info_does (normal (canon d)) tl hz
        rw [j1, ok_bind, device_ok _ _ _ j3 j4, ok_bind]
        refine ⟨some ((Spec.driveNo (normal (canon d))).getD (2 ^ 32 - 1)), ?_, (fun _ h => nomatch h), fun _ e he _ => ?_, ?_⟩
        · cases Spec.driveNo (normal (canon d)) <;> rfl
        · cases he; rfl
        · rintro _ (h | ⟨e, he, hn⟩)
          · cases h
          · cases he; exact absurd ha hn
      · obtain ⟨r, h1⟩ := platform_no cr (hc d rfl) hj ha
        rw [h1, ok_bind]
        refine ⟨none, rfl, (fun _ h => nomatch h), fun _ e he h => ?_, fun _ _ => rfl⟩
        cases he
        exact absurd h ha

/-- `Stat` for an accepted name. -/
theorem stat_does {E : Env} {f w : List Nat} (rest cr : List Nat) (hf : Fit f) (hj : E.junk.length = 8192)
    (hw : E.wjunk.length = 8192) (ha : Accepted E.sgn f) (h : Wide f w) (os : Os) (fs : Fs) (cwd : Option (List Nat))
    (hc : ∀ d, cwd = some d → Fit d) (link : Bool) :
    ((os.deny (.attrs w) fs = true ∨ fs.name w = none) ∧ stat E os fs (cwd.map (· ++ 0 :: cr)) (f ++ 0 :: rest) link = .ok none) ∨
    (os.deny (.attrs w) fs = false ∧ ∃ i o prog, fs.name w = some i ∧
      stat E os fs (cwd.map (· ++ 0 :: cr)) (f ++ 0 :: rest) link = .ok (o.map (fun dev =>
        { dev := dev, mode := statMode os fs w (fs.node i) link prog, size := (fs.node i).data.length,
          atime := toUnix (ofQuad (fs.node i).accessed), mtime := toUnix (ofQuad (fs.node i).written),
          ctime := toUnix (ofQuad (fs.node i).created) })) ∧
      (prog = true ↔ Program (normal (canon f))) ∧
      (∀ n, Spec.driveNo (normal (canon f)) = some n → o = some n) ∧
      (Spec.driveNo (normal (canon f)) = none → ∀ d, cwd = some d → Accepted E.sgn d →
        o = some ((Spec.driveNo (normal (canon d))).getD (2 ^ 32 - 1))) ∧
      (Spec.driveNo (normal (canon f)) = none → (cwd = none ∨ ∃ d, cwd = some d ∧ ¬ Accepted E.sgn d) → o = none)) := by
  obtain ⟨v, tl, hv, hz, h1, h2⟩ := platform_yes rest hf hj hw ha
  rw [wide_unique hv h] at h2
  unfold stat
  rw [h1, ok_bind]
  dsimp only [Bool.not_true]
  rw [if_neg (by decide), Path.cstr_ok _ _ hz, ok_bind, h2, ok_bind]
  cases hd : os.deny (.attrs w) fs with
  | true =>
    refine .inl ⟨.inl rfl, rfl⟩
  | false =>
    rw [if_neg (by decide)]
    unfold Fs.find
    cases hn : fs.name w with
    | none => exact .inl ⟨.inr rfl, rfl⟩
    | some i =>
      right
      simp only [Option.map_some]
      obtain ⟨j, j1, j2, j3, j4⟩ := info_does (normal (canon f)) tl hz
      obtain ⟨o, k1, k2, k3, k4⟩ := statDev_ok (E := E) (normal (canon f)) tl cr j cwd j3 j4 hj hw hc
      obtain ⟨p, p1, p2⟩ := program_ok (normal (canon f)) tl j j2
      rw [j1, ok_bind, k1, ok_bind]
      refine ⟨by trivial, i, o, p, rfl, ?_, p2, k2, k3, k4⟩
      cases o with
      | none => rfl
      | some dev =>
        dsimp only
        rw [p1, ok_bind]
        rfl

end Verif.WinOps
