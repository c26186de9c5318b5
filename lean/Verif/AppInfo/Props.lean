import Verif.AppInfo.Model
import Verif.AppInfo.Spec

/-!
# C53, C65: storage directories and the program's own name
-/

namespace Verif.AppInfo
open Spec

theorem wr_take {b : List Nat} {z : Nat} (v : Nat) (h : z < b.length) :
    wr b z v = .ok (b.set z v) ∧ (b.set z v).take (z + 1) = b.take z ++ [v] ∧ (b.set z v).length = b.length := by
  refine ⟨wr_ok v h, ?_, by simp⟩
  rw [List.take_add_one, List.getElem?_set_self h, List.take_set_of_le (Nat.le_refl z)]
  rfl

/-- A write at the end of the string written so far. -/
theorem append_ok (z2 : Nat) : ∀ (s : List Nat) (z : Nat) (b : List Nat), z ≤ z2 → z2 ≤ b.length →
    ∃ b', append z2 s z b = .ok (min z2 (z + s.length), b') ∧ b'.length = b.length ∧
      b'.take (min z2 (z + s.length)) = (b.take z ++ s).take z2
  | [], z, b, h, _ => by
    refine ⟨b, by simp [append, Nat.min_eq_right h], rfl, ?_⟩
    rw [List.length_nil, Nat.add_zero, Nat.min_eq_right h, List.append_nil, List.take_take, Nat.min_eq_right h]
  | c :: s, z, b, h, hb => by
    rw [append]
    by_cases hz : z < z2
    · obtain ⟨h1, h2, h3⟩ := wr_take c (show z < b.length by omega)
      rw [if_pos hz, h1, ok_bind]
      obtain ⟨b', g1, g2, g3⟩ := append_ok z2 s (z + 1) (b.set z c) (by omega) (by omega)
      rw [show z + (c :: s).length = z + 1 + s.length by simp; omega]
      refine ⟨b', g1, by omega, ?_⟩
      rw [g3, h2]
      simp
    · have : z = z2 := by omega
      subst this
      rw [if_neg hz]
      refine ⟨b, by rw [Nat.min_eq_left (by omega)], rfl, ?_⟩
      rw [Nat.min_eq_left (by omega), List.take_append_of_le_length (by rw [List.length_take]; omega), List.take_take, Nat.min_self]

theorem slash_ok (z2 z : Nat) (b s : List Nat) (hz : z ≤ z2) (hb : z2 ≤ b.length) (hs : b.take z = s.take z2)
    (hl : z = min z2 s.length) (hne : s ≠ []) :
    ∃ b', slash b z z2 = .ok (min z2 (dirName s).length, b') ∧ b'.length = b.length ∧
      b'.take (min z2 (dirName s).length) = (dirName s).take z2 := by
  have hpos : 0 < s.length := List.length_pos_iff.2 hne
  have hge : s.length ≤ (dirName s).length := by unfold dirName; split <;> simp
  unfold slash
  by_cases hlt : z < z2
  · rw [if_pos hlt]
    have hzs : z = s.length := by omega
    have hts : s.take z2 = s := List.take_of_length_le (by omega)
    rw [hts] at hs
    cases z with
    | zero => omega
    | succ k =>
      dsimp only
      have hk : k < b.length := by omega
      have hc : s.getLast? = some b[k] := by
        rw [List.getLast?_eq_getElem?, ← hzs, ← hs, List.getElem?_take, if_pos (by omega)]
        simp [hk]
      rw [rd_ok hk, ok_bind]
      unfold dirName
      rw [hc]
      by_cases h47 : b[k] = 47
      · rw [if_neg (by simpa using h47), if_pos (by rw [h47]), Nat.min_eq_right (by omega), ← hzs]
        exact ⟨b, rfl, rfl, by rw [hs, hts]⟩
      · obtain ⟨g1, g2, g3⟩ := wr_take 47 (show k + 1 < b.length by omega)
        rw [if_pos h47, if_neg (by simpa using h47), g1, ok_bind]
        have hlen : (s ++ [47]).length = k + 2 := by simp; omega
        rw [hlen, Nat.min_eq_right (by omega)]
        refine ⟨_, rfl, g3, ?_⟩
        rw [g2, hs, List.take_of_length_le (by omega)]
  · have : z = z2 := by omega
    subst this
    rw [if_neg hlt, Nat.min_eq_left (by omega)]
    refine ⟨b, rfl, rfl, ?_⟩
    rw [hs]
    unfold dirName
    split
    · rfl
    · rw [List.take_append_of_le_length (by omega)]

/-- The outcome required of the three functions for the directory `p`. -/
def Good (z2 : Nat) (b : List Nat) (p : List Nat) (res : CRes (Bool × Nat × List Nat)) : Prop :=
  ∃ ok z b', res = .ok (ok, z, b') ∧ b'.length = b.length ∧ (ok = true ↔ p.length + 1 < z2) ∧
    (ok = true → z = p.length + 1 ∧ Holds b' p) ∧ (ok = false → z = 0)

theorem dirName_ne (s : List Nat) : dirName s ≠ [] := by
  unfold dirName
  split
  · next h => intro e; subst e; cases h
  · simp

theorem nixDir_ok (b base : List Nat) (pre app : Option (List Nat)) (z2 : Nat) (hb : z2 ≤ b.length)
    (hs : b.take base.length = base) (hz : base.length ≤ z2) (hne : base ≠ []) :
    Good z2 b (appDir base (orNil pre) app) (nixDir b pre app base.length z2) := by
  -- the terminator
  have last : ∀ (p b1 : List Nat), b1.length = b.length → b1.take (min z2 p.length) = p.take z2 →
      Good z2 b p (do
        let (z, b) ← (if min z2 p.length < z2 then do
            let b ← wr b1 (min z2 p.length) 0
            .ok (min z2 p.length + 1, b)
          else .ok (min z2 p.length, b1) : CRes (Nat × List Nat))
        if z = z2 then .ok (false, 0, b) else .ok (true, z, b)) := by
    intro p b1 h1 h2
    by_cases hlt : p.length < z2
    · rw [Nat.min_eq_right (by omega)] at h2 ⊢
      obtain ⟨g1, g2, g3⟩ := wr_take 0 (show p.length < b1.length by omega)
      rw [if_pos hlt, g1, ok_bind, ok_bind]
      dsimp only
      by_cases he : p.length + 1 = z2
      · rw [if_pos he]
        exact ⟨_, _, _, rfl, by omega, ⟨(fun h => nomatch h), fun h => by omega⟩, (fun h => nomatch h), fun _ => rfl⟩
      · rw [if_neg he]
        refine ⟨_, _, _, rfl, by omega, ⟨fun _ => by omega, fun _ => rfl⟩, fun _ => ⟨rfl, ?_⟩, (fun h => nomatch h)⟩
        refine ⟨(b1.set p.length 0).drop (p.length + 1), ?_⟩
        have := List.take_append_drop (p.length + 1) (b1.set p.length 0)
        rw [g2, h2, List.take_of_length_le (by omega)] at this
        simpa using this.symm
    · rw [Nat.min_eq_left (by omega), if_neg (by omega), ok_bind]
      dsimp only
      rw [if_pos rfl]
      exact ⟨_, _, _, rfl, h1, ⟨(fun h => nomatch h), fun h => by omega⟩, (fun h => nomatch h), fun _ => rfl⟩
  unfold nixDir
  obtain ⟨b1, g1, g2, g3⟩ := slash_ok z2 base.length b base hz hb (by rw [hs, List.take_of_length_le hz])
    (Nat.min_eq_right hz).symm hne
  rw [g1, ok_bind]
  dsimp only
  cases app with
  | none =>
    simp only [addApp, ok_bind, appDir]
    exact last (dirName base) b1 g2 g3
  | some a =>
    unfold addApp appDir
    dsimp only
    generalize orNil pre = P
    obtain ⟨b2, k1, k2, k3⟩ := append_ok z2 P (min z2 (dirName base).length) b1 (Nat.min_le_left ..) (by omega)
    rw [k1, ok_bind]
    dsimp only
    have e2 : min z2 (min z2 (dirName base).length + P.length) = min z2 (dirName base ++ P).length := by
      rw [List.length_append]; omega
    rw [e2] at k3 ⊢
    rw [g3] at k3
    have k3 : b2.take (min z2 (dirName base ++ P).length) = (dirName base ++ P).take z2 := by
      rw [k3, List.take_append, List.take_take, Nat.min_self, List.take_append, List.length_take]
      by_cases h : z2 ≤ (dirName base).length
      · rw [Nat.min_eq_left h, show z2 - (dirName base).length = 0 by omega, Nat.sub_self]
      · rw [Nat.min_eq_right (by omega)]
    obtain ⟨b3, m1, m2, m3⟩ := append_ok z2 a (min z2 (dirName base ++ P).length) b2 (Nat.min_le_left ..) (by omega)
    rw [m1, ok_bind]
    dsimp only
    have e3 : min z2 (min z2 (dirName base ++ P).length + a.length) = min z2 (dirName base ++ P ++ a).length := by
      rw [List.length_append (as := dirName base ++ P)]; omega
    rw [e3] at m3 ⊢
    rw [k3] at m3
    have m3 : b3.take (min z2 (dirName base ++ P ++ a).length) = (dirName base ++ P ++ a).take z2 := by
      rw [m3, List.take_append, List.take_take, Nat.min_self, List.take_append (l₁ := dirName base ++ P), List.length_take]
      by_cases h : z2 ≤ (dirName base ++ P).length
      · rw [Nat.min_eq_left h, show z2 - (dirName base ++ P).length = 0 by omega, Nat.sub_self]
      · rw [Nat.min_eq_right (by omega)]
    have hne3 : dirName base ++ P ++ a ≠ [] := by
      have := dirName_ne base
      simp [this]
    obtain ⟨b4, n1, n2, n3⟩ := slash_ok z2 _ b3 (dirName base ++ P ++ a) (Nat.min_le_left ..) (by omega) m3 rfl hne3
    rw [n1, ok_bind]
    exact last _ b4 (by omega) n3

theorem strcpy_ok (b s : List Nat) (h : s.length + 1 ≤ b.length) :
    ∃ b', strcpy b s = .ok b' ∧ b'.length = b.length ∧ b'.take s.length = s := by
  unfold strcpy memcpyTo
  rw [if_pos (by simp), if_pos (by omega)]
  refine ⟨_, rfl, by simp; omega, ?_⟩
  rw [List.take_of_length_le (l := s ++ [0]) (by simp)]
  simp

theorem clear_ok (b : List Nat) (z2 : Nat) (h : z2 ≤ b.length) : ∃ b', clear b z2 = .ok b' ∧ b'.length = b.length := by
  unfold clear
  split
  · next h0 => exact ⟨_, (wr_take 0 (show 0 < b.length by omega)).1, by simp⟩
  · exact ⟨b, rfl, rfl⟩

/-- C53 for `GetSystemAppStorageDir`, complete: for every buffer of at least the stated size and every
application directory, the call stays inside the buffer; it succeeds exactly if the path, its
terminator and one more byte fit, then the buffer holds `/var/lib/` followed by the application
directory and a slash, and `BufferSize` counts it with the terminator; otherwise `BufferSize` is 0. -/
theorem system_dir (b : List Nat) (z2 : Nat) (app : Option (List Nat)) (hb : z2 ≤ b.length) :
    Good z2 b (appDir varLib [] app) (systemDir b z2 app) := by
  unfold systemDir
  obtain ⟨b1, h1, h2⟩ := clear_ok b z2 hb
  rw [h1, ok_bind]
  by_cases hz : z2 < 10
  · rw [if_pos hz]
    refine ⟨_, _, _, rfl, h2, ⟨(fun h => nomatch h), fun h => ?_⟩, (fun h => nomatch h), fun _ => rfl⟩
    have hv : dirName varLib = varLib := by decide
    have hge : ∀ s, s.length ≤ (dirName s).length := by intro s; unfold dirName; split <;> simp
    exfalso
    cases app with
    | none => simp only [appDir, hv] at h; exact absurd h (by simp [varLib]; omega)
    | some a =>
      simp only [appDir, hv] at h
      have := hge (varLib ++ [] ++ a)
      simp [varLib] at this h
      omega
  · rw [if_neg hz]
    obtain ⟨b2, g1, g2, g3⟩ := strcpy_ok b1 varLib (by simp [varLib]; omega)
    rw [g1, ok_bind]
    obtain ⟨ok, z, b', k1, k2, k3⟩ := nixDir_ok b2 varLib none app z2 (by omega) g3 (by simp [varLib]; omega) (by decide)
    rw [orNil] at k3
    exact ⟨ok, z, b', k1, by omega, k3⟩

/-- C53 for `GetTempStorageDir` (partial).  Missing: a buffer of exactly 5 bytes, see `temp_overflow`. -/
theorem temp_dir_partial (b : List Nat) (z2 : Nat) (hb : z2 ≤ b.length) (h5 : z2 = 5 → 6 ≤ b.length) :
    Good z2 b tmp (tempDir b z2) := by
  unfold tempDir
  obtain ⟨b1, h1, h2⟩ := clear_ok b z2 hb
  rw [h1, ok_bind]
  have ht : tmp.length = 5 := by decide
  by_cases hz : z2 < 5
  · rw [if_pos hz]
    exact ⟨_, _, _, rfl, h2, ⟨(fun h => nomatch h), fun h => by omega⟩, (fun h => nomatch h), fun _ => rfl⟩
  · rw [if_neg hz]
    obtain ⟨b2, g1, g2, g3⟩ := strcpy_ok b1 tmp (by
      by_cases h : z2 = 5
      · have := h5 h; omega
      · omega)
    rw [g1, ok_bind]
    obtain ⟨ok, z, b', k1, k2, k3⟩ := nixDir_ok b2 tmp none none z2 (by omega) g3 (by omega) (by decide)
    have : appDir tmp [] none = tmp := by decide
    rw [orNil, this] at k3
    exact ⟨ok, z, b', k1, by omega, k3⟩

/-- C53 for `GetCurrentUserAppStorageDir` (partial), if the home directory is known and not empty.
Missing: a home directory exactly as long as the buffer (`user_overflow`), the empty home directory
(`user_empty_home`), a user without password entry (`user_no_entry`). -/
theorem user_dir_partial (b : List Nat) (z2 : Nat) (home : Option (List Nat)) (pw : Option (Option (List Nat)))
    (app : Option (List Nat)) (h : List Nat) (hh : home = some h ∨ (home = none ∧ pw = some (some h)))
    (hne : h ≠ []) (hz : z2 ≠ h.length ∨ h.length < b.length) (hb : z2 ≤ b.length) :
    Good z2 b (appDir h [46] app) (userDir b z2 home pw app) := by
  unfold userDir
  obtain ⟨b1, h1, h2⟩ := clear_ok b z2 hb
  rw [h1, ok_bind]
  have hsel : homeDir home pw = .ok (some h) := by
    rcases hh with rfl | ⟨rfl, rfl⟩ <;> rfl
  rw [hsel, ok_bind]
  dsimp only
  by_cases hlt : z2 < h.length
  · rw [if_pos hlt]
    refine ⟨_, _, _, rfl, h2, ⟨(fun h => nomatch h), fun hl => ?_⟩, (fun h => nomatch h), fun _ => rfl⟩
    have hge : ∀ s, s.length ≤ (dirName s).length := by intro s; unfold dirName; split <;> simp
    exfalso
    have h3 := hge h
    cases app with
    | none => simp only [appDir] at hl; omega
    | some a =>
      simp only [appDir] at hl
      have := hge (dirName h ++ [46] ++ a)
      rw [List.length_append, List.length_append] at this
      omega
  · rw [if_neg hlt]
    obtain ⟨b2, g1, g2, g3⟩ := strcpy_ok b1 h (by omega)
    rw [g1, ok_bind]
    obtain ⟨ok, z, b', k1, k2, k3⟩ := nixDir_ok b2 h (some [46]) app z2 (by omega) g3 (by omega) hne
    rw [orNil] at k3
    exact ⟨ok, z, b', k1, by omega, k3⟩

/-- The directory of a user: it ends with a slash. -/
theorem appDir_slash (base pre : List Nat) (app : Option (List Nat)) : (appDir base pre app).getLast? = some 47 := by
  have : ∀ s, (dirName s).getLast? = some 47 := by
    intro s
    unfold dirName
    split
    · assumption
    · simp
  cases app <;> exact this _

/-- "/home/u", application "x": "/home/u/.x/" in a buffer of 20 bytes. -/
example : appDir [47, 104, 47, 117] [46] (some [120]) = [47, 104, 47, 117, 47, 46, 120, 47] ∧
    userDir (List.replicate 12 7) 12 (some [47, 104, 47, 117]) none (some [120]) =
      .ok (true, 9, [47, 104, 47, 117, 47, 46, 120, 47, 0, 7, 7, 7]) ∧
    userDir (List.replicate 9 7) 9 (some [47, 104, 47, 117]) none (some [120]) =
      .ok (false, 0, [47, 104, 47, 117, 47, 46, 120, 47, 0]) := by decide

/-- Negation of C53: with a buffer of 5 bytes `GetTempStorageDir` writes the terminator of "/tmp/" behind
the buffer. -/
theorem temp_overflow (b : List Nat) (hb : b.length = 5) : tempDir b 5 = .error .oobWrite := by
  unfold tempDir
  obtain ⟨b1, h1, h2⟩ := clear_ok b 5 (by omega)
  rw [h1, ok_bind, if_neg (by omega)]
  have : strcpy b1 tmp = .error .oobWrite := by
    unfold strcpy memcpyTo
    rw [if_pos (by simp), if_neg (by rw [h2, hb]; decide)]
  rw [this, error_bind]

/-- Negation of C53: a home directory as long as the buffer is copied with its terminator. -/
theorem user_overflow (b h : List Nat) (pw : Option (Option (List Nat))) (app : Option (List Nat)) (hb : b.length = h.length) :
    userDir b h.length (some h) pw app = .error .oobWrite := by
  unfold userDir
  obtain ⟨b1, h1, h2⟩ := clear_ok b h.length (by omega)
  rw [h1, ok_bind, homeDir, ok_bind]
  dsimp only
  rw [if_neg (by omega)]
  have : strcpy b1 h = .error .oobWrite := by
    unfold strcpy memcpyTo
    rw [if_pos (by simp), if_neg (by omega)]
  rw [this, error_bind]

/-- Negation of C53: with an empty `HOME` the byte before the buffer is read. -/
theorem user_empty_home (b : List Nat) (z2 : Nat) (pw : Option (Option (List Nat))) (app : Option (List Nat))
    (hz : 0 < z2) (hb : z2 ≤ b.length) : userDir b z2 (some []) pw app = .error .oobRead := by
  unfold userDir
  obtain ⟨b1, h1, h2⟩ := clear_ok b z2 (by omega)
  rw [h1, ok_bind, homeDir, ok_bind]
  dsimp only
  rw [if_neg (by simp)]
  obtain ⟨b2, g1, g2, g3⟩ := strcpy_ok b1 [] (by simp; omega)
  rw [g1, ok_bind]
  unfold nixDir slash
  rw [if_pos (by simpa using hz)]
  rfl

/-- Without `HOME`, a user without password entry makes the call dereference NULL. -/
theorem user_no_entry (b : List Nat) (z2 : Nat) (app : Option (List Nat)) (hb : z2 ≤ b.length) :
    userDir b z2 none none app = .error .nullDeref := by
  unfold userDir
  obtain ⟨b1, h1, h2⟩ := clear_ok b z2 (by omega)
  rw [h1, ok_bind]
  rfl

/-! ## C65 -/

theorem cstr_exists : ∀ (b : List Nat), 0 ∈ b → ∃ s, cstr b = .ok s
  | [], h => by cases h
  | c :: b, h => by
    rw [cstr]
    by_cases hc : c = 0
    · rw [if_pos hc]; exact ⟨[], rfl⟩
    · rw [if_neg hc]
      obtain ⟨s, hs⟩ := cstr_exists b (by
        rcases List.mem_cons.1 h with h | h
        · exact absurd h.symm hc
        · exact h)
      rw [hs]
      exact ⟨c :: s, rfl⟩

theorem cstr_text : ∀ (s rest : List Nat), 0 ∉ s → cstr (s ++ 0 :: rest) = .ok s
  | [], rest, _ => rfl
  | c :: s, rest, h => by
    rw [List.cons_append, cstr, if_neg (fun e => h (by simp [e])), cstr_text s rest (fun e => h (List.mem_cons_of_mem _ e))]
    rfl

theorem readlinks_ok (z2 : Nat) : ∀ (ls : List (Option (List Nat))) (b : List Nat), z2 ≤ b.length →
    ∃ z b', readlinks z2 ls b = .ok (z, b') ∧ b'.length = b.length ∧ (∀ n, z = some n → n ≤ z2) ∧
      ∀ t, (ls.filterMap id).head? = some t → t.length < z2 → z = some t.length ∧ b'.take t.length = t
  | [], b, _ => ⟨none, b, rfl, rfl, (fun _ h => nomatch h), (fun _ h => nomatch h)⟩
  | none :: ls, b, hb => by
    obtain ⟨z, b', h1, h2, h3, h4⟩ := readlinks_ok z2 ls b hb
    refine ⟨z, b', ?_, h2, h3, h4⟩
    rw [readlinks, readlink, ok_bind]
    exact h1
  | some t :: ls, b, hb => by
    rw [readlinks, readlink]
    by_cases hz : z2 = 0
    · subst hz
      obtain ⟨z, b', h1, h2, h3, h4⟩ := readlinks_ok 0 ls b hb
      rw [if_pos rfl, ok_bind]
      exact ⟨z, b', h1, h2, h3, fun t _ h => by omega⟩
    · rw [if_neg hz]
      unfold memcpyTo
      rw [if_pos (Nat.min_le_left ..), if_pos (by omega), ok_bind, ok_bind]
      refine ⟨_, _, rfl, by simp; omega, fun n h => by cases h; omega, ?_⟩
      intro t' ht hlt
      simp at ht
      subst ht
      rw [Nat.min_eq_left (by omega), List.take_zero, List.nil_append]
      refine ⟨rfl, ?_⟩
      rw [List.take_of_length_le (l := t) (Nat.le_refl _)]
      simp

/-- What a call returns for the file name `f` found by `realpath`. -/
def Found (z2 : Nat) (b : List Nat) (file : Option (List Nat)) (res : CRes (Bool × Nat × List Nat)) : Prop :=
  ∃ ok z b', res = .ok (ok, z, b') ∧ b'.length = b.length ∧
    (ok = true ↔ ∃ f, file = some f ∧ f.length < z2) ∧ (ok = false → z = 0) ∧
    (ok = true → ∃ f, file = some f ∧ z = f.length + 1 ∧ Holds b' f)

theorem exeEnd_ok (b : List Nat) (z2 : Nat) (hb : z2 ≤ b.length) (file : Option (List Nat)) :
    Found z2 b file (exeEnd b z2 file) := by
  unfold exeEnd
  cases file with
  | none => exact ⟨_, _, _, rfl, rfl, ⟨(fun h => nomatch h), (fun ⟨_, h, _⟩ => nomatch h)⟩, fun _ => rfl, (fun h => nomatch h)⟩
  | some f =>
    dsimp only
    by_cases hf : f.length ≥ z2
    · rw [if_pos hf]
      exact ⟨_, _, _, rfl, rfl, ⟨(fun h => nomatch h), fun ⟨_, h, h2⟩ => by cases h; omega⟩, fun _ => rfl, (fun h => nomatch h)⟩
    · rw [if_neg hf]
      have : strcpy b f = .ok (f ++ 0 :: b.drop (f.length + 1)) := by
        unfold strcpy memcpyTo
        rw [if_pos (by simp), if_pos (by omega), List.take_of_length_le (l := f ++ [0]) (by simp)]
        simp
      rw [this, ok_bind]
      refine ⟨_, _, _, rfl, by simp; omega, ⟨fun _ => ⟨f, rfl, by omega⟩, fun _ => rfl⟩, (fun h => nomatch h),
        fun _ => ⟨f, rfl, rfl, _, rfl⟩⟩

/-- C65, safety: whatever the links contain, `GetExecutableFilename` stays inside the buffer; on success
the buffer holds a name found by `realpath`, terminated, and `BufferSize` counts it with its
terminator; on failure `BufferSize` is 0. -/
theorem exe_name_safe (b : List Nat) (z2 : Nat) (links : List (Option (List Nat))) (real : List Nat → Option (List Nat))
    (argv0 : Option (List Nat)) (hb : z2 ≤ b.length) :
    ∃ ok z b', exeName b z2 links real argv0 = .ok (ok, z, b') ∧ b'.length = b.length ∧ (ok = false → z = 0) ∧
      (ok = true → ∃ s f, real s = some f ∧ z = f.length + 1 ∧ z ≤ z2 ∧ Holds b' f) := by
  have weak : ∀ (b1 : List Nat) (file : Option (List Nat)) (res : CRes (Bool × Nat × List Nat)) (s : List Nat), b1.length = b.length →
      file = real s → Found z2 b1 file res →
      ∃ ok z b', res = .ok (ok, z, b') ∧ b'.length = b.length ∧ (ok = false → z = 0) ∧
      (ok = true → ∃ s f, real s = some f ∧ z = f.length + 1 ∧ z ≤ z2 ∧ Holds b' f) := by
    rintro b1 file res s hl hs ⟨ok, z, b', h1, h2, h3, h4, h5⟩
    refine ⟨ok, z, b', h1, by omega, h4, fun h => ?_⟩
    obtain ⟨f, e1, e2⟩ := h3.1 h
    obtain ⟨f', e3, e4, e5⟩ := h5 h
    rw [e1] at e3
    cases e3
    exact ⟨s, f, by rw [← hs, e1], e4, by omega, e5⟩
  have arg : ∀ b1 : List Nat, b1.length = b.length → ∃ ok z b', viaArg b1 z2 real argv0 = .ok (ok, z, b') ∧ b'.length = b.length ∧
      (ok = false → z = 0) ∧ (ok = true → ∃ s f, real s = some f ∧ z = f.length + 1 ∧ z ≤ z2 ∧ Holds b' f) := by
    intro b1 hl
    unfold viaArg
    cases argv0 with
    | none => exact ⟨_, _, _, rfl, hl, fun _ => rfl, (fun h => nomatch h)⟩
    | some a => exact weak b1 _ _ a hl rfl (exeEnd_ok b1 z2 (by omega) (real a))
  unfold exeName
  obtain ⟨b1, h1, h2⟩ := clear_ok b z2 hb
  rw [h1, ok_bind]
  obtain ⟨z, b2, g1, g2, g3, g4⟩ := readlinks_ok z2 links b1 (by omega)
  rw [g1, ok_bind]
  dsimp only
  by_cases hz : z2 = 0
  · subst hz
    rw [if_neg (by simp), ok_bind]
    cases z with
    | none => exact arg b2 (by omega)
    | some n =>
      have := g3 n rfl
      have : n = 0 := by omega
      subst this
      exact arg b2 (by omega)
  · have hz1 : z2 - 1 < b2.length := by omega
    rw [if_pos hz, wr_ok 0 hz1, ok_bind]
    cases z with
    | none => exact arg _ (by simp; omega)
    | some n =>
      cases n with
      | zero => exact arg _ (by simp; omega)
      | succ k =>
        dsimp only
        have hk := g3 _ rfl
        by_cases hkz : k + 1 < z2
        · rw [if_pos hkz, wr_ok 0 (by simp; omega), ok_bind]
          obtain ⟨s, hs⟩ := cstr_exists ((b2.set (z2 - 1) 0).set (k + 1) 0) (List.mem_set (by simp; omega) _)
          rw [hs, ok_bind]
          exact weak _ _ _ s (by simp; omega) rfl (exeEnd_ok _ z2 (by simp; omega) (real s))
        · rw [if_neg hkz, ok_bind]
          obtain ⟨s, hs⟩ := cstr_exists (b2.set (z2 - 1) 0) (List.mem_set hz1 _)
          rw [hs, ok_bind]
          exact weak _ _ _ s (by simp; omega) rfl (exeEnd_ok _ z2 (by simp; omega) (real s))

/-- C65 (partial): if the first readable link is shorter than the buffer, `GetExecutableFilename` succeeds
exactly if the real path of the link's text is known and fits, and returns that path.
Missing: longer links, see `exe_name_cut`. -/
theorem exe_name_partial (b : List Nat) (z2 : Nat) (links : List (Option (List Nat))) (real : List Nat → Option (List Nat))
    (argv0 : Option (List Nat)) (t : List Nat) (hb : z2 ≤ b.length) (ht : (links.filterMap id).head? = some t)
    (hne : t ≠ []) (h0 : 0 ∉ t) (hlt : t.length < z2) :
    Found z2 b (real t) (exeName b z2 links real argv0) := by
  unfold exeName
  obtain ⟨b1, h1, h2⟩ := clear_ok b z2 hb
  rw [h1, ok_bind]
  obtain ⟨z, b2, g1, g2, g3, g4⟩ := readlinks_ok z2 links b1 (by omega)
  rw [g1, ok_bind]
  dsimp only
  obtain ⟨rfl, g5⟩ := g4 t ht hlt
  have hz1 : z2 - 1 < b2.length := by omega
  rw [if_pos (by omega), wr_ok 0 hz1, ok_bind]
  obtain ⟨c, r, rfl⟩ := List.exists_cons_of_ne_nil hne
  have hbl : ((b2.set (z2 - 1) 0).set (r.length + 1) 0).length = b.length := by simp; omega
  have hcs : cstr ((b2.set (z2 - 1) 0).set (r.length + 1) 0) = .ok (c :: r) := by
    have e : (b2.set (z2 - 1) 0).set (r.length + 1) 0 = (c :: r) ++ 0 :: ((b2.set (z2 - 1) 0).set (r.length + 1) 0).drop (r.length + 2) := by
      have := List.take_append_drop (r.length + 2) ((b2.set (z2 - 1) 0).set (r.length + 1) 0)
      rw [(wr_take 0 (show r.length + 1 < (b2.set (z2 - 1) 0).length by simp at hlt; simp; omega)).2.1] at this
      rw [List.take_set_of_le (by simp at hlt; omega)] at this
      rw [List.length_cons] at g5
      rw [g5] at this
      rw [List.append_assoc] at this
      exact this.symm
    rw [e]
    exact cstr_text _ _ h0
  simp only [List.length_cons] at *
  rw [if_pos hlt, wr_ok 0 (by simp; omega), ok_bind, hcs, ok_bind]
  obtain ⟨ok, z, b', k1, k2, k3⟩ := exeEnd_ok ((b2.set (z2 - 1) 0).set (r.length + 1) 0) z2 (by omega) (real (c :: r))
  exact ⟨ok, z, b', k1, by omega, k3⟩

/-- Negation of C65: a link as long as the buffer is cut off; if a file with the shorter name exists, its
name is returned as if it were the program's: here "/ab" for the program "/abc". -/
theorem exe_name_cut : exeName [9, 9, 9, 9] 4 [some [47, 97, 98, 99]] some none = .ok (true, 4, [47, 97, 98, 0]) := by decide

theorem backTo_ok (b f rest : List Nat) (hb : b = f ++ rest) : ∀ k, k ≤ f.length →
    ∃ d, backTo b k = .ok d ∧ d ≤ k ∧ (d = 0 ∨ f[d - 1]? = some 47 ∨ f[d - 1]? = some 92) ∧
      ∀ (i : Nat), d ≤ i → i < k → f[i]? ≠ some 47 ∧ f[i]? ≠ some 92
  | 0, _ => ⟨0, rfl, Nat.le_refl _, .inl rfl, fun i h1 h2 => by omega⟩
  | k + 1, hk => by
    have hr : rd b k = .ok f[k] := by
      unfold rd
      rw [hb, List.getElem?_append_left (by omega), List.getElem?_eq_getElem (by omega)]
    rw [backTo, hr, ok_bind]
    by_cases hc : f[k] ≠ 47 ∧ f[k] ≠ 92
    · rw [if_pos hc]
      obtain ⟨d, h1, h2, h3, h4⟩ := backTo_ok b f rest hb k (by omega)
      refine ⟨d, h1, by omega, h3, ?_⟩
      intro i hi1 hi2
      by_cases he : i = k
      · subst he
        rw [List.getElem?_eq_getElem (by omega)]
        exact ⟨fun e => hc.1 (Option.some.inj e), fun e => hc.2 (Option.some.inj e)⟩
      · exact h4 i hi1 (by omega)
    · rw [if_neg hc]
      refine ⟨k + 1, rfl, Nat.le_refl _, .inr ?_, fun i h1 h2 => by omega⟩
      rw [Nat.add_sub_cancel, List.getElem?_eq_getElem (by omega)]
      by_cases h47 : f[k] = 47
      · exact .inl (by rw [h47])
      · right
        apply Classical.byContradiction
        intro h92
        exact hc ⟨h47, fun e => h92 (by rw [e])⟩

/-- C65, `GetExecutablePath`: it fails with `GetExecutableFilename`; otherwise the buffer holds the part of
the file name up to its last slash or backslash, terminated and counted in `BufferSize`. -/
theorem exe_path (b : List Nat) (z2 : Nat) (links : List (Option (List Nat))) (real : List Nat → Option (List Nat))
    (argv0 : Option (List Nat)) (hb : z2 ≤ b.length) :
    ∃ ok z1 b1 z b', exeName b z2 links real argv0 = .ok (ok, z1, b1) ∧ exePath b z2 links real argv0 = .ok (ok, z, b') ∧
      b'.length = b.length ∧ (ok = false → z = 0) ∧
      (ok = true → ∃ dir file, Holds b1 (dir ++ file) ∧ z1 = (dir ++ file).length + 1 ∧ Holds b' dir ∧ z = dir.length + 1 ∧
        (dir = [] ∨ dir.getLast? = some 47 ∨ dir.getLast? = some 92) ∧ 47 ∉ file ∧ 92 ∉ file) := by
  obtain ⟨ok, z1, b1, h1, h2, h3, h4⟩ := exe_name_safe b z2 links real argv0 hb
  cases ok with
  | false =>
    refine ⟨false, z1, b1, z1, b1, h1, ?_, h2, h3, (fun h => nomatch h)⟩
    unfold exePath
    rw [h1, ok_bind]
    rfl
  | true =>
    obtain ⟨s, f, g1, g2, g3, rest, g4⟩ := h4 rfl
    obtain ⟨d, k1, k2, k3, k4⟩ := backTo_ok b1 f (0 :: rest) g4 f.length (Nat.le_refl _)
    have hstep : backTo b1 z1 = .ok d := by
      rw [g2, backTo]
      have : rd b1 f.length = .ok 0 := by
        unfold rd
        rw [g4, List.getElem?_append_right (Nat.le_refl _), Nat.sub_self]
        rfl
      rw [this, ok_bind, if_pos (by decide), k1]
    have hdl : d < b1.length := by rw [g4]; simp; omega
    refine ⟨true, z1, b1, d + 1, b1.set d 0, h1, ?_, by simp; omega, (fun h => nomatch h), fun _ => ?_⟩
    · unfold exePath
      rw [h1, ok_bind]
      dsimp only
      rw [if_neg (by simp), hstep, ok_bind, wr_ok 0 hdl, ok_bind]
    · refine ⟨f.take d, f.drop d, ⟨rest, by rw [List.take_append_drop]; exact g4⟩, by rw [List.take_append_drop]; exact g2,
        ?_, by rw [List.length_take]; omega, ?_, ?_, ?_⟩
      · refine ⟨(b1.set d 0).drop (d + 1), ?_⟩
        have := List.take_append_drop (d + 1) (b1.set d 0)
        rw [(wr_take 0 hdl).2.1] at this
        rw [show b1.take d = f.take d by rw [g4, List.take_append_of_le_length k2], List.append_assoc] at this
        exact this.symm
      · by_cases hd : d = 0
        · left; simp [hd]
        · right
          rw [List.getLast?_eq_getElem?, List.length_take, Nat.min_eq_left k2, List.getElem?_take, if_pos (by omega)]
          rcases k3 with k3 | k3
          · exact absurd k3 hd
          · exact k3
      · intro hm
        obtain ⟨j, hj⟩ := List.mem_iff_getElem?.1 hm
        rw [List.getElem?_drop] at hj
        exact (k4 (d + j) (by omega) (List.getElem?_eq_some_iff.1 hj).1).1 hj
      · intro hm
        obtain ⟨j, hj⟩ := List.mem_iff_getElem?.1 hm
        rw [List.getElem?_drop] at hj
        exact (k4 (d + j) (by omega) (List.getElem?_eq_some_iff.1 hj).1).2 hj

/-- A file name may contain a backslash on POSIX systems: the program "/b\\p" is said to be in "/b\\", which is
not a directory. -/
theorem exe_path_backslash :
    exePath (List.replicate 6 9) 6 [some [47, 98, 92, 112]] some none = .ok (true, 4, [47, 98, 92, 0, 0, 0]) := by decide

/-- "/b/p" in "/b/". -/
example : exeName (List.replicate 6 9) 6 [none, some [47, 98, 47, 112]] some none = .ok (true, 5, [47, 98, 47, 112, 0, 0]) ∧
    exePath (List.replicate 6 9) 6 [none, some [47, 98, 47, 112]] some none = .ok (true, 4, [47, 98, 47, 0, 0, 0]) := by decide

end Verif.AppInfo
