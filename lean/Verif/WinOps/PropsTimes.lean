import Verif.WinOps.StatLemmas

/-!
# Property theorems: times on Windows (C89)

`unixEpoch` is computed from the calendar; a name argument is `f ++ 0 :: rest`, where `Fit f` and `Accepted` describe the
names `GetPlatformFilename` handles and accepts (C84), and `Wide f w` the UTF-16 form of the name for the system.
-/

namespace Verif.WinOps
open Verif.WinPath.Spec (canon normal)
open Verif.WinAbs (Accepted Fit Fine)
open Verif.WinOps.Spec

/-- Any name with ASCII characters only. -/
theorem wide_ascii {f : List Nat} (h : ∀ c ∈ normal (canon f), c < 0x80) : Wide f (normal (canon f)) := by
  obtain ⟨_, hg, _⟩ := WinPath.ascii_text (normal (canon f)) h
  refine ⟨normal (canon f), ⟨fun c hc => ascii_valid (h c hc), fun c hc => ?_⟩, (text_ascii h).symm, ?_⟩
  · have := h c (List.mem_of_mem_head? hc)
    unfold Utf8.Spec.Combining
    omega
  · have : ∀ s : List Nat, (∀ c ∈ s, c < 0x80) → s = Utf8.Spec.text 2 s := by
      intro s hs
      induction s with
      | nil => rfl
      | cons c s ih =>
        have hc := hs c List.mem_cons_self
        rw [Utf8.text_cons, ← ih (fun d hd => hs d (List.mem_cons_of_mem _ hd))]
        show _ = Utf8.Spec.enc16 c ++ s
        unfold Utf8.Spec.enc16
        rw [if_pos (by omega)]
        rfl
    exact this _ h

/-- C89 (partial): times of files from 1970 on come out as the seconds since 1 January 1970, rounded down.  Missing:
earlier times, see `win_time_early`. -/
theorem win_time_seconds_partial (t : FileTime) (h : unixEpoch ≤ t.hi * 2 ^ 32 + t.lo) (hl : t.hi * 2 ^ 32 + t.lo < 2 ^ 64) :
    toUnix t = (t.hi * 2 ^ 32 + t.lo - unixEpoch) / 10000000 := by
  unfold toUnix quad
  rw [epoch] at *
  omega

example : toUnix ⟨30000000, 5⟩ = 1240428288 := by decide

/-- C89: the code is wrong for times before 1970: they come out as more than 1.8·10^12 seconds, which is after the
year 57000. -/
theorem win_time_early (t : FileTime) (h : t.hi * 2 ^ 32 + t.lo < unixEpoch) :
    1833029933770 ≤ toUnix t := by
  unfold toUnix quad
  rw [epoch] at *
  omega

example : unixEpoch ≥ 1 ∧ toUnix ⟨0, 0⟩ = 1833029933770 := by decide +kernel

/-- C89 (partial): microseconds since 1970 become the time in units of 100 nanoseconds since 1601.  Missing: times that do
not fit (after the year 60055), see `win_micro_wraps`. -/
theorem win_micro_partial (t : Nat) (h : t * 10 + unixEpoch < 2 ^ 64) :
    (ofMicro t).hi * 2 ^ 32 + (ofMicro t).lo = unixEpoch + 10 * t ∧ (ofMicro t).hi < 2 ^ 32 ∧ (ofMicro t).lo < 2 ^ 32 := by
  have := micro_of t
  unfold quad at this
  refine ⟨by omega, ?_, ?_⟩ <;> unfold ofMicro ofQuad <;> dsimp only <;> omega

example : 1700000000000000 * 10 + unixEpoch < 2 ^ 64 := by decide +kernel

/-- C89: the time 1844674407370955162 microseconds, which is after the year 58000, is taken for 400 nanoseconds after the
beginning of 1970. -/
theorem win_micro_wraps : (ofMicro 1844674407370955162).hi * 2 ^ 32 + (ofMicro 1844674407370955162).lo = unixEpoch + 4 := by
  decide +kernel

/-- C89: the clock gives microseconds since 1 January 1970, from then on. -/
theorem win_clock (t : FileTime) (h : unixEpoch ≤ t.hi * 2 ^ 32 + t.lo) (hl : t.hi * 2 ^ 32 + t.lo < 2 ^ 64) :
    clockMicro t = (t.hi * 2 ^ 32 + t.lo - unixEpoch) / 10 := by
  unfold clockMicro quad
  rw [epoch] at *
  omega

/-- C89: the same on POSIX, for a clock that works and shows a time that fits. -/
theorem posix_clock (sec usec : Nat) (h : sec * 1000000 + usec < 2 ^ 64) :
    clockMicroPosix (some (sec, usec)) = sec * 1000000 + usec := by
  unfold clockMicroPosix
  dsimp only
  omega

/-- C89 (partial): `SetFileTimes` on an accepted name.  It succeeds exactly if the file is there, is neither read-only nor a directory,
and the system allows it; then the times given are set, exactly, and nothing else changes.  If it fails nothing changes.
Missing: times from the year 30828 on (`win_micro_wraps`, `win_set_times_wraps`). -/
theorem win_set_times_partial (E : Env) (os : Os) (fs : Fs) (f rest w : List Nat) (c a u : Option Nat) (hf : Fit f)
    (hj : E.junk.length = 8192) (hw : E.wjunk.length = 8192) (ha : Accepted E.sgn f) (h : Wide f w)
    (hne : ¬ (c = none ∧ a = none ∧ u = none))
    (hr : ∀ t, c = some t ∨ a = some t ∨ u = some t → t * 10 + unixEpoch < 2 ^ 63) :
    ∃ fs' ok, setFileTimes E os fs (f ++ 0 :: rest) c a u = .ok (fs', ok) ∧
      (ok = true ↔ ∃ i, fs.name w = some i ∧ (fs.node i).attrs &&& (READONLY ||| DIRECTORY) = 0#32 ∧
        os.deny (.openWrite w) fs = false ∧ os.deny (.setTimes w) fs = false) ∧
      (ok = false → fs' = fs) ∧
      (ok = true → ∃ i, fs.name w = some i ∧ fs'.name = fs.name ∧ (∀ j, j ≠ i → fs'.node j = fs.node j) ∧
        fs'.node i = { fs.node i with
          created := match c with | some t => unixEpoch + 10 * t | none => (fs.node i).created
          accessed := match a with | some t => unixEpoch + 10 * t | none => (fs.node i).accessed
          written := match u with | some t => unixEpoch + 10 * t | none => (fs.node i).written }) := by
  unfold setFileTimes
  rw [if_neg hne, byName_yes rest hf hj hw ha h]
  have has_iff : ∀ n m, has n m = false ↔ n.attrs &&& m = 0#32 := by intro n m; simp [has]
  have val : ∀ (old : Nat) (o : Option Nat), (∀ t, o = some t → t * 10 + unixEpoch < 2 ^ 63) →
      newTime old (o.map ofMicro) = some (match o with | some t => unixEpoch + 10 * t | none => old) := by
    intro old o ho
    cases o with
    | none => rfl
    | some t => exact newTime_small (ho t rfl)
  have v1 := fun old => val old c (fun t e => hr t (.inl e))
  have v2 := fun old => val old a (fun t e => hr t (.inr (.inl e)))
  have v3 := fun old => val old u (fun t e => hr t (.inr (.inr e)))
  refine ⟨(setFileTimesWide os fs c a u w).1, (setFileTimesWide os fs c a u w).2, rfl, ?_⟩
  rcases setFileTimesWide_does os fs c a u w with ⟨h1, h2, h3⟩ | ⟨h1, i, c', a', u', n1, n2, n3, n4, n5, n6, n7, n8⟩
  · rw [h1]
    refine ⟨⟨(fun e => nomatch e), fun ⟨i, e1, e2, e3, e4⟩ => ?_⟩, fun _ => h2, (fun e => nomatch e)⟩
    obtain ⟨k, _, hk⟩ := h3 ⟨i, e1, (has_iff _ _).2 e2, e3, e4⟩
    rw [v1, v2, v3] at hk
    rcases hk with hk | hk | hk <;> cases hk
  · rw [h1]
    refine ⟨⟨fun _ => ⟨i, n1, (has_iff _ _).1 n2, n3, n4⟩, fun _ => rfl⟩, (fun e => nomatch e), fun _ => ⟨i, n1, ?_⟩⟩
    rw [n8]
    refine ⟨rfl, fun j hj => if_neg hj, ?_⟩
    rw [put_same]
    rw [v1] at n5
    rw [v2] at n6
    rw [v3] at n7
    rw [← Option.some.inj n5, ← Option.some.inj n6, ← Option.some.inj n7]

/-- C89: `SetFileTimes` without any time is refused. -/
theorem win_set_times_none (E : Env) (os : Os) (fs : Fs) (name : List Nat) :
    setFileTimes E os fs name none none none = .ok (fs, false) := by
  unfold setFileTimes
  rw [if_pos ⟨rfl, rfl, rfl⟩]

/-- C89 (partial): what `SetFileTimes` set in microseconds is what `Stat` reports in seconds.  Missing: as for
`win_set_times_partial`. -/
theorem win_times_stat_partial (E : Env) (os : Os) (fs fs' : Fs) (f rest w cr : List Nat) (c a u : Option Nat) (cwd : Option (List Nat))
    (link : Bool) (st : St) (hf : Fit f)
    (hj : E.junk.length = 8192) (hw : E.wjunk.length = 8192) (ha : Accepted E.sgn f) (h : Wide f w)
    (hr : ∀ t, c = some t ∨ a = some t ∨ u = some t → t * 10 + unixEpoch < 2 ^ 63) (hc : ∀ d, cwd = some d → Fit d)
    (hset : setFileTimes E os fs (f ++ 0 :: rest) c a u = .ok (fs', true))
    (hstat : stat E os fs' (cwd.map (· ++ 0 :: cr)) (f ++ 0 :: rest) link = .ok (some st)) :
    (∀ t, c = some t → st.ctime = t / 1000000) ∧ (∀ t, a = some t → st.atime = t / 1000000) ∧
      (∀ t, u = some t → st.mtime = t / 1000000) := by
  have hne : ¬ (c = none ∧ a = none ∧ u = none) := by
    rintro ⟨rfl, rfl, rfl⟩
    rw [win_set_times_none] at hset
    cases hset
  obtain ⟨fs2, ok, e1, _, _, e2⟩ := win_set_times_partial E os fs f rest w c a u hf hj hw ha h hne hr
  rw [hset] at e1
  injection e1 with e1
  injection e1 with e1 e3
  subst e1
  obtain ⟨i, n1, n2, _, n3⟩ := e2 e3.symm
  have sec : ∀ t, t * 10 + unixEpoch < 2 ^ 63 → toUnix (ofQuad (unixEpoch + 10 * t)) = t / 1000000 := by
    intro t ht
    unfold toUnix
    rw [quad_of (by omega), epoch]
    rw [epoch] at ht
    omega
  rcases stat_does rest cr hf hj hw ha h os fs' cwd hc link with ⟨_, s1⟩ | ⟨_, i', o, p, s0, s1, _⟩
  · rw [hstat] at s1; cases s1
  · rw [n2, n1] at s0
    cases s0
    rw [hstat] at s1
    cases o with
    | none => cases s1
    | some dev =>
      injection s1 with s1
      have s1 := Option.some.inj s1
      rw [s1]
      dsimp only
      rw [n3]
      refine ⟨fun t e => ?_, fun t e => ?_, fun t e => ?_⟩
      · subst e; exact sec t (hr t (.inl rfl))
      · subst e; exact sec t (hr t (.inr (.inl rfl)))
      · subst e; exact sec t (hr t (.inr (.inr rfl)))

/-! ## A small file system -/

/-- The file `C:\a`. -/
def aName : List Nat := [67, 58, 92, 97]

/-- A system that allows everything. -/
def kind : Os := { deny := fun _ _ => false, torn := fun _ => none, now := fun _ => 133000000000000000 }

/-- A file with some contents. -/
def someFile : Node :=
  { attrs := 0x20#32, data := [1, 2, 3], created := 133000000000000000, accessed := 133000000000000000,
    written := 133000000000000000, link := false }

/-- One file, `C:\a`. -/
def oneFs : Fs := { name := fun w => if w = WinPath.Spec.uni ++ aName then some 0 else none, node := fun _ => someFile, next := 1 }

/-- An environment. -/
def someEnv : Env := { sgn := true, reg := fun _ => none, junk := List.replicate 8192 7, wjunk := List.replicate 8192 7 }

theorem aName_fine : Fine aName := by unfold Fine; decide
theorem aName_accepted (sgn : Bool) : Accepted sgn aName := aName_fine.accepted sgn (by decide)
theorem aName_wide : Wide aName (WinPath.Spec.uni ++ aName) := wide_ascii (f := aName) (by decide)

example : ∃ fs', setFileTimes someEnv kind oneFs (aName ++ 0 :: []) (some 5) none (some 1700000000000000) = .ok (fs', true) ∧
    (fs'.node 0).written = unixEpoch + 17000000000000000 := by
  obtain ⟨fs', ok, h1, h2, _, h4⟩ := win_set_times_partial someEnv kind oneFs aName [] _ (some 5) none (some 1700000000000000)
    aName_fine.fit List.length_replicate List.length_replicate (aName_accepted _) aName_wide (by simp) (by
      rw [epoch]
      rintro t (h | h | h)
      · cases h; decide
      · cases h
      · cases h; decide)
  have hok : ok = true := h2.2 ⟨0, by decide, by decide, rfl, rfl⟩
  subst hok
  obtain ⟨i, n1, _, _, n4⟩ := h4 rfl
  have : i = 0 := by
    have : oneFs.name (WinPath.Spec.uni ++ aName) = some 0 := by decide
    rw [this] at n1
    exact (Option.some.inj n1).symm
  subst this
  exact ⟨fs', h1, by rw [n4]⟩

/-- C89: `SetFileTimes` reports success for a time after the year 58000 and sets the beginning of 1970. -/
theorem win_set_times_wraps (E : Env) (hj : E.junk.length = 8192) (hw : E.wjunk.length = 8192) :
    ∃ fs', setFileTimes E kind oneFs (aName ++ 0 :: []) none none (some 1844674407370955162) = .ok (fs', true) ∧
      (fs'.node 0).written = unixEpoch + 4 := by
  unfold setFileTimes
  rw [if_neg (by simp), byName_yes [] aName_fine.fit hj hw (aName_accepted _) aName_wide]
  have e : newTime someFile.written (some (ofMicro 1844674407370955162)) = some (unixEpoch + 4) := by decide +kernel
  have hn : oneFs.name (WinPath.Spec.uni ++ aName) = some 0 := by decide
  rcases setFileTimesWide_does kind oneFs none none (some 1844674407370955162) (WinPath.Spec.uni ++ aName) with
    ⟨_, _, h3⟩ | ⟨h1, i, c', a', u', n1, _, _, _, _, _, n7, n8⟩
  · obtain ⟨k, _, hk⟩ := h3 ⟨0, hn, by decide, rfl, rfl⟩
    rcases hk with hk | hk | hk
    · cases hk
    · cases hk
    · change newTime someFile.written (some (ofMicro 1844674407370955162)) = none at hk
      rw [e] at hk
      cases hk
  · rw [hn] at n1
    cases n1
    refine ⟨(setFileTimesWide kind oneFs none none (some 1844674407370955162) (WinPath.Spec.uni ++ aName)).1, ?_, ?_⟩
    · rw [← h1]
    · rw [n8, put_same]
      change newTime someFile.written (some (ofMicro 1844674407370955162)) = _ at n7
      rw [e] at n7
      exact (Option.some.inj n7).symm

end Verif.WinOps
