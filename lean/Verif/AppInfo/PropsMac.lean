import Verif.AppInfo.Mac
import Verif.AppInfo.Props

/-! # Property theorems: the program's own name on macOS (C145) -/

namespace Verif.AppInfo.Mac

open Verif.AppInfo.Spec

/-- The name that is looked up: the path the system knows, if the buffer has at least 1024 bytes and the path fits into it
and into 4096 bytes, otherwise the one the program was started with. -/
def asked (z2 : Nat) (path argv0 : Option (List Nat)) : Option (List Nat) :=
  match path with
  | some p => if 1024 ≤ z2 ∧ p.length < z2 ∧ p.length < 4096 ∧ p ≠ [] then some p else argv0
  | none => argv0

theorem none_links (z2 : Nat) : ∀ (links : List (Option (List Nat))) (b : List Nat), (∀ l ∈ links, l = none) →
    readlinks z2 links b = .ok (none, b)
  | [], _, _ => rfl
  | l :: ls, b, h => by
    rw [h l List.mem_cons_self, readlinks, readlink, ok_bind]
    exact none_links z2 ls b fun x hx => h x (List.mem_cons_of_mem _ hx)

theorem found_weaken {z2 : Nat} {b b1 : List Nat} {file : Option (List Nat)} {res : CRes (Bool × Nat × List Nat)}
    (hl : b1.length = b.length) (h : Found z2 b1 file res) : Found z2 b file res := by
  obtain ⟨ok, z, b', h1, h2, h3⟩ := h
  exact ⟨ok, z, b', h1, by omega, h3⟩

theorem viaArg_ok (b : List Nat) (z2 : Nat) (hb : z2 ≤ b.length) (real : List Nat → Option (List Nat))
    (argv0 : Option (List Nat)) : Found z2 b (argv0.bind real) (viaArg b z2 real argv0) := by
  cases argv0 with
  | none => exact ⟨_, _, _, rfl, rfl, ⟨(fun h => nomatch h), (fun ⟨_, h, _⟩ => nomatch h)⟩, fun _ => rfl, (fun h => nomatch h)⟩
  | some a => exact exeEnd_ok b z2 hb (real a)

theorem ask_ok (b0 : List Nat) (z2 : Nat) (links : List (Option (List Nat))) (path argv0 : Option (List Nat))
    (hb : z2 ≤ b0.length + 1) (hn : ∀ l ∈ links, l = none) (hp : ∀ p, path = some p → 0 ∉ p) :
    ∃ z b', ask (0 :: b0) z2 links path = .ok (z, b') ∧ b'.length = b0.length + 1 ∧
      ((z = 0 ∧ asked z2 path argv0 = argv0) ∨
        ∃ p rest, path = some p ∧ p ≠ [] ∧ z = p.length ∧ z < z2 ∧ b' = p ++ 0 :: rest ∧ asked z2 path argv0 = some p) := by
  have hc : cstr (0 :: b0) = .ok [] := by rw [cstr, if_pos rfl]
  unfold ask
  rw [none_links z2 links _ hn]
  simp only [ok_bind]
  unfold pidpath
  by_cases h1 : z2 < 1024
  · rw [if_pos (by rw [if_neg (by omega)]; exact .inl h1)]
    simp only [ok_bind, hc]
    refine ⟨0, _, rfl, by simp, .inl ⟨rfl, ?_⟩⟩
    unfold asked
    cases path with
    | none => rfl
    | some p => exact if_neg (by omega)
  · rw [if_neg (by split <;> omega)]
    cases path with
    | none =>
      simp only [ok_bind, hc]
      exact ⟨0, _, rfl, by simp, .inl ⟨rfl, rfl⟩⟩
    | some p =>
      dsimp only
      by_cases h2 : p.length < (if 4096 < z2 then 4096 else z2)
      · rw [if_pos h2]
        have h3 : p.length < z2 := by split at h2 <;> omega
        have h4 : p.length < 4096 ∨ z2 = 4096 := by split at h2 <;> omega
        have hs : strcpy (0 :: b0) p = .ok (p ++ 0 :: (0 :: b0).drop (p.length + 1)) := by
          unfold strcpy memcpyTo
          rw [if_pos (by simp), if_pos (by simp; omega), List.take_of_length_le (l := p ++ [0]) (by simp)]
          simp
        rw [hs]
        simp only [ok_bind]
        rw [cstr_text p _ (hp p rfl), ok_bind]
        refine ⟨_, _, rfl, by simp; omega, ?_⟩
        by_cases h5 : p = []
        · left
          refine ⟨by rw [h5]; rfl, ?_⟩
          unfold asked
          exact if_neg (fun h => h.2.2.2 h5)
        · right
          refine ⟨p, _, rfl, h5, rfl, h3, rfl, ?_⟩
          unfold asked
          exact if_pos ⟨by omega, h3, by split at h2 <;> omega, h5⟩
      · rw [if_neg h2]
        simp only [ok_bind, hc]
        refine ⟨0, _, rfl, by simp, .inl ⟨rfl, ?_⟩⟩
        unfold asked
        refine if_neg fun h => h2 ?_
        split <;> omega

/-- C145 (partial): without `/proc` links, as on macOS, and with a buffer that is not empty, `GetExecutableFilename` stays
inside the buffer and succeeds exactly if the real path of the name asked for is known and fits; then the buffer holds it.
Missing: empty buffers and systems with such links, see the negations. -/
theorem mac_exe_name_partial (b : List Nat) (z2 : Nat) (links : List (Option (List Nat))) (path : Option (List Nat))
    (real : List Nat → Option (List Nat)) (argv0 : Option (List Nat)) (hb : z2 ≤ b.length) (hz : 0 < z2)
    (hn : ∀ l ∈ links, l = none) (hp : ∀ p, path = some p → 0 ∉ p) :
    Found z2 b ((asked z2 path argv0).bind real) (exeName b z2 links path real argv0) := by
  obtain ⟨c0, b0, rfl⟩ : ∃ c r, b = c :: r := by
    cases b with
    | nil => simp at hb; omega
    | cons c r => exact ⟨c, r, rfl⟩
  have hclear : clear (c0 :: b0) z2 = .ok (0 :: b0) := by
    unfold clear
    rw [if_pos (by omega), wr_ok 0 (by simp)]
    rfl
  unfold exeName
  rw [hclear, ok_bind]
  obtain ⟨z, b', h1, h2, h3⟩ := ask_ok b0 z2 links path argv0 hb hn hp
  rw [h1]
  simp only [ok_bind]
  unfold finish
  rw [List.length_cons] at hb
  rw [if_pos (by omega), wr_ok 0 (by omega), ok_bind]
  rcases h3 with ⟨rfl, e⟩ | ⟨p, rest, rfl, hne, rfl, hlt, rfl, e⟩
  · rw [e]
    exact found_weaken (b1 := b'.set (z2 - 1) 0) (by simp [h2]) (viaArg_ok _ z2 (by simp [h2]; omega) real argv0)
  · rw [e]
    obtain ⟨c, r, rfl⟩ := List.exists_cons_of_ne_nil hne
    have hl : (((c :: r) ++ 0 :: rest).set (z2 - 1) 0).length = b0.length + 1 := by rw [List.length_set]; exact h2
    have hset : ∃ q, (((c :: r) ++ 0 :: rest).set (z2 - 1) 0).set (r.length + 1) 0 = (c :: r) ++ 0 :: q := by
      have hi : z2 - 1 = (c :: r).length + (z2 - 1 - (c :: r).length) := by omega
      rw [hi, List.set_append_right _ _ (by omega), Nat.add_sub_cancel_left]
      rw [List.set_append_right _ _ (by simp)]
      cases hk : z2 - 1 - (c :: r).length with
      | zero => exact ⟨rest, by simp⟩
      | succ k => exact ⟨rest.set k 0, by simp⟩
    obtain ⟨q, hq⟩ := hset
    simp only [List.length_cons]
    rw [List.length_cons] at hlt
    rw [if_pos hlt, wr_ok 0 (by omega), ok_bind, hq, cstr_text _ _ (hp _ rfl), ok_bind]
    have hql : ((c :: r) ++ 0 :: q).length = b0.length + 1 := by rw [← hq, List.length_set]; exact hl
    exact found_weaken (b1 := (c :: r) ++ 0 :: q) (by simpa using hql) (exeEnd_ok _ z2 (by omega) _)

/-- C145 (partial), `GetExecutablePath`, in the same cases: it fails with `GetExecutableFilename`; otherwise the buffer holds
the part of the file name up to its last slash or backslash, terminated and counted in `BufferSize`. -/
theorem mac_exe_path_partial (b : List Nat) (z2 : Nat) (links : List (Option (List Nat))) (path : Option (List Nat))
    (real : List Nat → Option (List Nat)) (argv0 : Option (List Nat)) (hb : z2 ≤ b.length) (hz : 0 < z2)
    (hn : ∀ l ∈ links, l = none) (hp : ∀ p, path = some p → 0 ∉ p) :
    ∃ ok z b', exePath b z2 links path real argv0 = .ok (ok, z, b') ∧ b'.length = b.length ∧ (ok = false → z = 0) ∧
      (ok = true ↔ ∃ f, (asked z2 path argv0).bind real = some f ∧ f.length < z2) ∧
      (ok = true → ∃ dir file, (asked z2 path argv0).bind real = some (dir ++ file) ∧ Holds b' dir ∧ z = dir.length + 1 ∧
        (dir = [] ∨ dir.getLast? = some 47 ∨ dir.getLast? = some 92) ∧ 47 ∉ file ∧ 92 ∉ file) := by
  obtain ⟨ok, z1, b1, h1, h2, h3, h4, h5⟩ := mac_exe_name_partial b z2 links path real argv0 hb hz hn hp
  cases ok with
  | false =>
    refine ⟨false, z1, b1, ?_, h2, h4, h3, (fun h => nomatch h)⟩
    unfold exePath
    rw [h1, ok_bind]
    rfl
  | true =>
    obtain ⟨f, g1, g2, rest, g4⟩ := h5 rfl
    obtain ⟨d, k1, k2, k3, k4⟩ := backTo_ok b1 f (0 :: rest) g4 f.length (Nat.le_refl _)
    have hstep : backTo b1 z1 = .ok d := by
      rw [g2, backTo]
      have : rd b1 f.length = .ok 0 := by
        unfold rd
        rw [g4, List.getElem?_append_right (Nat.le_refl _), Nat.sub_self]
        rfl
      rw [this, ok_bind, if_pos (by decide), k1]
    have hdl : d < b1.length := by rw [g4]; simp; omega
    refine ⟨true, d + 1, b1.set d 0, ?_, by simp; omega, (fun h => nomatch h), h3, fun _ => ?_⟩
    · unfold exePath
      rw [h1, ok_bind]
      dsimp only
      rw [if_neg (by simp), hstep, ok_bind, wr_ok 0 hdl, ok_bind]
    · refine ⟨f.take d, f.drop d, by rw [List.take_append_drop]; exact g1, ?_, by rw [List.length_take]; omega, ?_, ?_, ?_⟩
      · refine ⟨(b1.set d 0).drop (d + 1), ?_⟩
        have := List.take_append_drop (d + 1) (b1.set d 0)
        rw [(wr_take 0 hdl).2.1] at this
        rw [show b1.take d = f.take d by rw [g4, List.take_append_of_le_length k2], List.append_assoc] at this
        exact this.symm
      · by_cases hd : d = 0
        · left; simp [hd]
        · right
          rw [List.getLast?_eq_getElem?, List.length_take, Nat.min_eq_left k2, List.getElem?_take, if_pos (by omega)]
          rcases k3 with k3 | k3
          · exact absurd k3 hd
          · exact k3
      · intro hm
        obtain ⟨j, hj⟩ := List.mem_iff_getElem?.1 hm
        rw [List.getElem?_drop] at hj
        exact (k4 (d + j) (by omega) (List.getElem?_eq_some_iff.1 hj).1).1 hj
      · intro hm
        obtain ⟨j, hj⟩ := List.mem_iff_getElem?.1 hm
        rw [List.getElem?_drop] at hj
        exact (k4 (d + j) (by omega) (List.getElem?_eq_some_iff.1 hj).1).2 hj

/-- Negation of C145: `strlen` reads a buffer of size 0, whatever the system answers. -/
theorem mac_empty_buffer (links : List (Option (List Nat))) (path : Option (List Nat))
    (real : List Nat → Option (List Nat)) (argv0 : Option (List Nat)) :
    exeName [] 0 links path real argv0 = .error .oobRead := by
  have h : ∀ ls : List (Option (List Nat)), readlinks 0 ls [] = .ok (none, []) := by
    intro ls
    induction ls with
    | nil => rfl
    | cons l ls ih =>
      rw [readlinks]
      have : readlink [] 0 l = .ok (none, []) := by cases l <;> rfl
      rw [this, ok_bind]
      exact ih
  unfold exeName ask
  rw [show clear [] 0 = .ok [] from rfl, ok_bind, h]
  simp [ok_bind, pidpath, cstr, error_bind]

/-- Negation of C145: with a buffer of less than 1024 bytes the system is not asked, so without `argv[0]` the call fails
although the name would fit. -/
theorem mac_small_buffer (b : List Nat) (z2 : Nat) (path : Option (List Nat)) (real : List Nat → Option (List Nat))
    (hb : z2 ≤ b.length) (hz : 0 < z2) (hs : z2 < 1024) (hp : ∀ p, path = some p → 0 ∉ p) :
    ∃ b', exeName b z2 [none, none, none, none] path real none = .ok (false, 0, b') := by
  obtain ⟨ok, z, b', h1, h2, h3, h4, -⟩ := mac_exe_name_partial b z2 [none, none, none, none] path real none hb hz
    (by simp) hp
  have ha : asked z2 path none = none := by
    unfold asked
    cases path with
    | none => rfl
    | some p => exact if_neg (by omega)
  rw [ha] at h3
  cases ok with
  | true =>
    obtain ⟨f, e, -⟩ := h3.1 rfl
    cases e
  | false =>
    rw [h4 rfl] at h1
    exact ⟨b', h1⟩

/-- Negation of C145, for a system with a `/proc` link: `readlink` does not terminate, so what the caller had in the buffer
becomes part of the name, and a link that fills the buffer is read beyond its end. -/
theorem mac_link_unterminated :
    exeName [9, 9, 8, 7, 0, 9] 6 [some [47, 97]] none some none = .ok (true, 5, [47, 97, 8, 7, 0, 0]) ∧
    exeName [9, 9] 2 [some [47, 97]] none some none = .error .oobRead := by decide

/-- A buffer of 2000 bytes and a program "/b/p". -/
example : (0 < 2000) ∧ asked 2000 (some [47, 98, 47, 112]) none = some [47, 98, 47, 112] ∧
    asked 500 (some [47, 98, 47, 112]) (some [112]) = some [112] := by decide

set_option maxRecDepth 20000 in
example : (match exePath (List.replicate 1024 9) 1024 [none, none, none, none] (some [47, 98, 47, 112]) some none with
    | .ok (ok, z, b) => ok && decide (z = 4) && decide (b.take 5 = [47, 98, 47, 0, 0])
    | .error _ => false) = true := by decide

end Verif.AppInfo.Mac
