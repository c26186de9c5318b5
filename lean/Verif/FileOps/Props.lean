import Verif.FileOps.Model
import Verif.Path.PropsAbs
import Verif.File.PropsCopy

/-!
# Property theorems: operations on files by name (C72-C75)

A name argument is `f ++ 0 :: rest` with `0 ∉ f`.  `Accepted` (C44) are the names
`GetPlatformFilename` accepts, `slashed f` is the name with backslashes turned into slashes.
-/

namespace Verif.FileOps
open Verif.Path Verif.Path.Spec
open Verif.File (Cell)

variable {σ : Type}

theorem slashed_no_zero {f : List Nat} (h : 0 ∉ f) : 0 ∉ slashed f := by
  unfold slashed
  rw [List.mem_map]
  rintro ⟨c, hc, e⟩
  split at e
  · cases e
  · exact h (e ▸ hc)

theorem platform_yes {E : Env} {f : List Nat} (rest : List Nat) (h0 : 0 ∉ f) (hj : E.junk.length = 8192)
    (ha : Accepted E.sgn 8192 f) : ∃ tl, getPlatform E.sgn E.junk 8192 (f ++ 0 :: rest)
      = .ok (true, slashed f ++ 0 :: tl) := by
  obtain ⟨ok, r, h1, _, h3, h4⟩ := getPlatform_ok E.sgn f rest E.junk 8192 h0 (by omega)
  rw [h1, h3.mpr ha, h4 (h3.mpr ha)]
  exact ⟨_, rfl⟩

theorem platform_no {E : Env} {f : List Nat} (rest : List Nat) (h0 : 0 ∉ f) (hj : E.junk.length = 8192)
    (ha : ¬ Accepted E.sgn 8192 f) : ∃ r, getPlatform E.sgn E.junk 8192 (f ++ 0 :: rest) = .ok (false, r) := by
  obtain ⟨ok, r, h1, _, h3, _⟩ := getPlatform_ok E.sgn f rest E.junk 8192 h0 (by omega)
  cases ok with
  | true => exact absurd (h3.mp rfl) ha
  | false => exact ⟨r, h1⟩

theorem byName_yes {E : Env} {f : List Nat} (rest : List Nat) (s : σ) (act : List Nat → σ × Bool) (h0 : 0 ∉ f)
    (hj : E.junk.length = 8192) (ha : Accepted E.sgn 8192 f) :
    byName E s (f ++ 0 :: rest) act = .ok (act (slashed f)) := by
  obtain ⟨tl, h⟩ := platform_yes rest h0 hj ha
  unfold byName
  rw [h, ok_bind]
  dsimp only [Bool.not_true]
  rw [if_neg (by decide), cstr_ok _ _ (slashed_no_zero h0), ok_bind]

theorem byName_no {E : Env} {f : List Nat} (rest : List Nat) (s : σ) (act : List Nat → σ × Bool) (h0 : 0 ∉ f)
    (hj : E.junk.length = 8192) (ha : ¬ Accepted E.sgn 8192 f) :
    byName E s (f ++ 0 :: rest) act = .ok (s, false) := by
  obtain ⟨r, h⟩ := platform_no rest h0 hj ha
  unfold byName
  rw [h, ok_bind]
  rfl

/-! ## C72: the named file and only it -/

/-- C72: a name that is not accepted changes nothing and the answer is no, for every operation. -/
theorem refused_name (S : Sys σ) (E : Env) (s : σ) (f rest g gr : List Nat) (h0 : 0 ∉ f) (hg : 0 ∉ g)
    (hj : E.junk.length = 8192) (ha : ¬ Accepted E.sgn 8192 f) :
    delete S E s (f ++ 0 :: rest) = .ok (s, false) ∧
    (∀ mode, chmod S E s (f ++ 0 :: rest) mode = .ok (s, false)) ∧
    chown S E s (f ++ 0 :: rest) (g ++ 0 :: gr) = .ok (s, false) ∧
    chgrp S E s (f ++ 0 :: rest) (g ++ 0 :: gr) = .ok (s, false) ∧
    (∀ a u, setFileTimes S E s (f ++ 0 :: rest) a u = .ok (s, false)) ∧
    (∀ link, stat S E s (f ++ 0 :: rest) link = .ok none) ∧
    exists_ S E s (f ++ 0 :: rest) = .ok false := by
  have hst : ∀ link, stat S E s (f ++ 0 :: rest) link = .ok none := fun link => by
    obtain ⟨r, h⟩ := platform_no rest h0 hj ha
    unfold stat
    rw [h, ok_bind]
    rfl
  refine ⟨byName_no rest s _ h0 hj ha, fun mode => byName_no rest s _ h0 hj ha, ?_, ?_,
    fun a u => byName_no rest s _ h0 hj ha, hst, ?_⟩
  · unfold chown
    rw [cstr_ok g gr hg, ok_bind]
    exact byName_no rest s _ h0 hj ha
  · unfold chgrp
    rw [cstr_ok g gr hg, ok_bind]
    exact byName_no rest s _ h0 hj ha
  · unfold exists_
    rw [hst, ok_bind]
    rfl

/-- C72: an accepted name leads to exactly one request, for that name, and the answer is the system's. -/
theorem acts (S : Sys σ) (E : Env) (s : σ) (f rest : List Nat) (h0 : 0 ∉ f)
    (hj : E.junk.length = 8192) (ha : Accepted E.sgn 8192 f) :
    delete S E s (f ++ 0 :: rest) = .ok (S.unlink s (slashed f)) ∧
    (∀ mode, chmod S E s (f ++ 0 :: rest) mode = .ok (S.chmod s (slashed f) mode)) ∧
    stat S E s (f ++ 0 :: rest) false = .ok (S.stat s (slashed f)) ∧
    stat S E s (f ++ 0 :: rest) true = .ok (S.lstat s (slashed f)) ∧
    exists_ S E s (f ++ 0 :: rest) = .ok (S.stat s (slashed f)).isSome := by
  have hst : ∀ link, stat S E s (f ++ 0 :: rest) link
      = .ok (if link then S.lstat s (slashed f) else S.stat s (slashed f)) := fun link => by
    obtain ⟨tl, h⟩ := platform_yes rest h0 hj ha
    unfold stat
    rw [h, ok_bind]
    dsimp only [Bool.not_true]
    rw [if_neg (by decide), cstr_ok _ _ (slashed_no_zero h0), ok_bind]
  refine ⟨byName_yes rest s _ h0 hj ha, fun mode => byName_yes rest s _ h0 hj ha, hst false, hst true, ?_⟩
  unfold exists_
  rw [hst, ok_bind]
  rfl

/-- C72: `Chown` gives the file to the named account and leaves its group alone. -/
theorem chown_acts (S : Sys σ) (E : Env) (s : σ) (f rest g gr : List Nat) (h0 : 0 ∉ f) (hg : 0 ∉ g)
    (hj : E.junk.length = 8192) (ha : Accepted E.sgn 8192 f) :
    chown S E s (f ++ 0 :: rest) (g ++ 0 :: gr) = .ok
      (match S.user s g with
       | none => (s, false)
       | some (uid, _) => S.chown s (slashed f) (some uid) none) := by
  unfold chown
  rw [cstr_ok g gr hg, ok_bind]
  exact byName_yes rest s _ h0 hj ha

/-- C72 (partial): `Chgrp` sets the named group, if the account of that name exists and has just this
group (or neither exists).  `group` is the system's list of groups.  Missing: everything else, see
`chgrp_wrong`. -/
theorem chgrp_partial (S : Sys σ) (group : σ → List Nat → Option Nat) (E : Env) (s : σ)
    (f rest g gr : List Nat) (h0 : 0 ∉ f) (hg : 0 ∉ g)
    (hj : E.junk.length = 8192) (ha : Accepted E.sgn 8192 f)
    (hsame : group s g = (S.user s g).map (·.2)) :
    chgrp S E s (f ++ 0 :: rest) (g ++ 0 :: gr) = .ok
      (match group s g with
       | none => (s, false)
       | some gid => S.chown s (slashed f) none (some gid)) := by
  unfold chgrp
  rw [cstr_ok g gr hg, ok_bind]
  refine (byName_yes rest s _ h0 hj ha).trans ?_
  rw [hsame]
  cases S.user s g <;> rfl

/-- A system with one file, whose group is the state; the account "www" has number 33 and the group
"users" (100). -/
def oneFile : Sys Nat where
  unlink s _ := (s, false)
  chmod s _ _ := (s, true)
  chown s _ _ g := (g.getD s, true)
  stat _ _ := some ⟨0, 0⟩
  lstat _ _ := some ⟨0, 0⟩
  utimes s _ _ _ := (s, true)
  symlink s _ _ := (s, false)
  readlink _ _ := none
  realpath _ _ := none
  user _ n := if n = [119, 119, 119] then some (33, 100) else none

/-- The code looks the group up among the user accounts: with a group "www" of number 33, the file of
an account's group gets group 100, and a group "staff" without account of that name is refused. -/
theorem chgrp_wrong (E : Env) (hj : E.junk.length = 8192) (f : List Nat) (h0 : 0 ∉ f)
    (ha : Accepted E.sgn 8192 f) :
    chgrp oneFile E 0 (f ++ [0]) [119, 119, 119, 0] = .ok (100, true) ∧
    chgrp oneFile E 0 (f ++ [0]) [115, 116, 97, 102, 102, 0] = .ok (0, false) := by
  refine ⟨?_, ?_⟩
  · unfold chgrp
    rw [show cstr [119, 119, 119, 0] = .ok [119, 119, 119] from rfl, ok_bind]
    exact byName_yes [] 0 _ h0 hj ha
  · unfold chgrp
    rw [show cstr [115, 116, 97, 102, 102, 0] = .ok [115, 116, 97, 102, 102] from rfl, ok_bind]
    exact byName_yes [] 0 _ h0 hj ha

/-- The name "a\b" is accepted whether or not `char` is signed. -/
theorem accepted_example (sgn : Bool) : Accepted sgn 8192 [97, 92, 98] := by
  refine Name.accepted ⟨by decide, by decide, ?_⟩ sgn
  intro c hc
  simp only [List.mem_cons, List.not_mem_nil, or_false] at hc
  unfold Forbidden
  rcases hc with rfl | rfl | rfl <;> decide

example (E : Env) (hj : E.junk.length = 8192) :
    delete oneFile E 5 [97, 92, 98, 0] = .ok (oneFile.unlink 5 [97, 47, 98]) :=
  (acts oneFile E 5 [97, 92, 98] [] (by decide) hj (accepted_example _)).1

/-! ## C73: times -/

/-- C73: a given time, in microseconds, is set exactly; a time that is not given gets the whole
seconds of its old value. -/
theorem times_set (S : Sys σ) (E : Env) (s : σ) (f rest : List Nat) (access update : Option Nat) (st : St)
    (h0 : 0 ∉ f) (hj : E.junk.length = 8192) (ha : Accepted E.sgn 8192 f)
    (hs : S.stat s (slashed f) = some st) :
    ∃ A U : Stamp, setFileTimes S E s (f ++ 0 :: rest) access update = .ok (S.utimes s (slashed f) A U) ∧
      A.usec < 1000000 ∧ U.usec < 1000000 ∧
      (∀ t, access = some t → A.sec * 1000000 + A.usec = t) ∧
      (∀ t, update = some t → U.sec * 1000000 + U.usec = t) ∧
      (access = none → A = ⟨st.atime, 0⟩) ∧ (update = none → U = ⟨st.mtime, 0⟩) := by
  refine ⟨newTime access st.atime, newTime update st.mtime, ?_, ?_, ?_, ?_, ?_, ?_, ?_⟩
  · refine (byName_yes rest s _ h0 hj ha).trans ?_
    rw [hs]
  · cases access with
    | none => exact (by decide : 0 < 1000000)
    | some t => exact Nat.mod_lt _ (by decide)
  · cases update with
    | none => exact (by decide : 0 < 1000000)
    | some t => exact Nat.mod_lt _ (by decide)
  · rintro t rfl; unfold newTime; dsimp only; omega
  · rintro t rfl; unfold newTime; dsimp only; omega
  · rintro rfl; rfl
  · rintro rfl; rfl

example : newTime (some 1700000000123456) 5 = ⟨1700000000, 123456⟩ := rfl

/-- C73 (partial): a time that is not given stays as it is if it is a whole number of seconds.
Missing: `times_truncated`. -/
theorem times_kept_partial (ns : Nat) (h : ns % 1000000000 = 0) :
    (newTime none (ns / 1000000000)).sec * 1000000000 + (newTime none (ns / 1000000000)).usec * 1000 = ns := by
  unfold newTime
  dsimp only
  omega

/-- Negation of C73: every other time is set back to the beginning of its second. -/
theorem times_truncated (ns : Nat) (h : ns % 1000000000 ≠ 0) :
    (newTime none (ns / 1000000000)).sec * 1000000000 + (newTime none (ns / 1000000000)).usec * 1000 < ns := by
  unfold newTime
  dsimp only
  omega

example : (1700000000500000000 : Nat) % 1000000000 ≠ 0 := by decide

/-! ## C74: `Readlink` and `Realpath` -/

/-- C74: `Realpath` stays inside the buffer, says true exactly if the name resolves and the result fits
with its terminator, and then the buffer holds it. -/
theorem realpath_ok (S : Sys σ) (s : σ) (result f rest : List Nat) (size : Nat) (h0 : 0 ∉ f)
    (hs : size ≤ result.length) :
    ∃ ok r, realpath S s result size (f ++ 0 :: rest) = .ok (ok, r) ∧ r.length = result.length ∧
      (ok = true ↔ ∃ t, S.realpath s f = some t ∧ t.length < size) ∧
      (∀ t, S.realpath s f = some t → ok = true → Holds r t) ∧ (ok = false → r = result) := by
  unfold realpath
  rw [cstr_ok f rest h0, ok_bind]
  cases ht : S.realpath s f with
  | none =>
    exact ⟨false, result, rfl, rfl, ⟨(fun h => nomatch h), fun ⟨t, h, _⟩ => nomatch h⟩,
      (fun t h => nomatch h), fun _ => rfl⟩
  | some t =>
    dsimp only
    by_cases hl : t.length + 1 ≤ size
    · rw [if_pos hl, File.memcpyTo_ok _ _ _ _ (by simp) (by omega), ok_bind]
      refine ⟨true, _, rfl, ?_, ⟨fun _ => ⟨t, rfl, hl⟩, fun _ => rfl⟩, ?_, fun h => nomatch h⟩
      · simp; omega
      · intro t' h _
        cases h
        refine ⟨result.drop (t.length + 1), ?_⟩
        rw [show t.length + 1 = (t ++ [0]).length by simp, List.take_length]
        simp
    · rw [if_neg hl]
      refine ⟨false, result, rfl, rfl, ⟨(fun h => nomatch h), ?_⟩, (fun t' _ h => nomatch h), fun _ => rfl⟩
      rintro ⟨t', h, h'⟩
      cases h
      exact absurd h' (by omega)

/-- C74 (partial): `Readlink` stays inside the buffer, says true exactly if the link can be read and its
target is shorter than the buffer, and then the buffer begins with the target, all behind it as before.
Missing: the terminator, see `readlink_unterminated`. -/
theorem readlink_partial (S : Sys σ) (s : σ) (result f rest : List Nat) (size : Nat) (h0 : 0 ∉ f)
    (hs : size ≤ result.length) :
    ∃ ok r, readlink S s result size (f ++ 0 :: rest) = .ok (ok, r) ∧ r.length = result.length ∧
      (ok = true ↔ ∃ t, S.readlink s f = some t ∧ t.length < size) ∧
      (∀ t, S.readlink s f = some t → ok = true → r = t ++ result.drop t.length) := by
  unfold readlink
  rw [cstr_ok f rest h0, ok_bind]
  cases ht : S.readlink s f with
  | none =>
    exact ⟨false, result, rfl, rfl, ⟨(fun h => nomatch h), fun ⟨t, h, _⟩ => nomatch h⟩,
      fun t h => nomatch h⟩
  | some t =>
    dsimp only
    by_cases hz : size = 0
    · rw [if_pos hz]
      refine ⟨false, result, rfl, rfl, ⟨(fun h => nomatch h), ?_⟩, fun t' _ h => nomatch h⟩
      rintro ⟨t', h, h'⟩
      exact absurd h' (by omega)
    · rw [if_neg hz, File.memcpyTo_ok _ _ _ _ (by omega) (by omega), ok_bind]
      refine ⟨decide (min t.length size < size), _, rfl, ?_, ?_, ?_⟩
      · simp; omega
      · rw [decide_eq_true_iff]
        constructor
        · intro h; exact ⟨t, rfl, by omega⟩
        · rintro ⟨t', h, h'⟩
          cases h
          omega
      · intro t' h hd
        cases h
        rw [decide_eq_true_iff] at hd
        rw [Nat.min_eq_left (by omega)]
        simp

/-- In a buffer that was cleared before the call the result is terminated. -/
theorem readlink_cleared (S : Sys σ) (s : σ) (f rest t : List Nat) (size : Nat) (h0 : 0 ∉ f)
    (ht : S.readlink s f = some t) (hs : t.length < size) :
    ∃ r, readlink S s (List.replicate size 0) size (f ++ 0 :: rest) = .ok (true, r) ∧ Holds r t := by
  obtain ⟨ok, r, h1, -, h3, h4⟩ := readlink_partial S s (List.replicate size 0) f rest size h0 (by simp)
  have hok : ok = true := h3.mpr ⟨t, ht, hs⟩
  subst hok
  refine ⟨r, h1, List.replicate (size - t.length - 1) 0, ?_⟩
  rw [h4 t ht rfl, List.drop_replicate, show size - t.length = (size - t.length - 1) + 1 by omega,
    List.replicate_succ, Nat.add_sub_cancel]

/-- C74: `Symlink` asks for a link with the name given first that leads to the second. -/
theorem symlink_acts (S : Sys σ) (s : σ) (src dest r r' : List Nat) (h0 : 0 ∉ src) (h1 : 0 ∉ dest) :
    symlink S s (src ++ 0 :: r) (dest ++ 0 :: r') = .ok (S.symlink s dest src) := by
  unfold symlink
  rw [cstr_ok src r h0, ok_bind, cstr_ok dest r' h1, ok_bind]

theorem cstr_none : ∀ (r : List Nat), 0 ∉ r → cstr r = .error .oobRead
  | [], _ => rfl
  | u :: r, h => by
    rw [List.mem_cons, not_or] at h
    unfold cstr
    rw [if_neg (fun e => h.1 e.symm), cstr_none r h.2]
    rfl

/-- Negation of C74: in a buffer without zeros the result of a successful call has no terminator;
reading it as a string runs out of the buffer. -/
theorem readlink_unterminated (S : Sys σ) (s : σ) (result f rest t : List Nat) (h0 : 0 ∉ f)
    (ht : S.readlink s f = some t) (hl : t.length < result.length) (hz : 0 ∉ t) (hr : 0 ∉ result) :
    ∃ r, readlink S s result result.length (f ++ 0 :: rest) = .ok (true, r) ∧ cstr r = .error .oobRead := by
  obtain ⟨ok, r, h1, -, h3, h4⟩ := readlink_partial S s result f rest result.length h0 (Nat.le_refl _)
  have hok : ok = true := h3.mpr ⟨t, ht, hl⟩
  subst hok
  refine ⟨r, h1, cstr_none r ?_⟩
  rw [h4 t ht rfl, List.mem_append, not_or]
  exact ⟨hz, fun h => hr (List.mem_of_mem_drop h)⟩

example : ∃ S : Sys Nat, S.readlink 0 [108] = some [47, 116] ∧ 0 ∉ ([47, 116] : List Nat) :=
  ⟨{ oneFile with readlink := fun _ _ => some [47, 116] }, rfl, by decide⟩

end Verif.FileOps
