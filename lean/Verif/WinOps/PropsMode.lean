import Verif.WinOps.PropsTimes
import Mathlib.Tactic.IntervalCases

/-!
# Property theorems: permissions on Windows, `Stat`, and refused names (C90, C94)
-/

namespace Verif.WinOps
open Verif.WinPath.Spec (canon normal)
open Verif.WinAbs (Accepted Fit Fine)
open Verif.WinOps.Spec

theorem mask333 (m : DWord) : m &&& 0o333#32 = 0#32 ↔ m.getLsbD 0 = false ∧ m.getLsbD 1 = false ∧ m.getLsbD 3 = false ∧
    m.getLsbD 4 = false ∧ m.getLsbD 6 = false ∧ m.getLsbD 7 = false := by
  constructor
  · intro h
    have key : ∀ k, (0o333#32).getLsbD k = true → m.getLsbD k = false := by
      intro k hk
      have := bit_zero h k
      rw [hk, Bool.and_true] at this
      exact this
    exact ⟨key 0 (by decide), key 1 (by decide), key 3 (by decide), key 4 (by decide), key 6 (by decide), key 7 (by decide)⟩
  · rintro ⟨h0, h1, h3, h4, h6, h7⟩
    apply BitVec.eq_of_getLsbD_eq
    intro k hk
    rw [BitVec.getLsbD_and, BitVec.getLsbD_zero]
    interval_cases k <;> first | (rw [h0]; rfl) | (rw [h1]; rfl) | (rw [h3]; rfl) | (rw [h4]; rfl) | (rw [h6]; rfl) | (rw [h7]; rfl) |
      (exact Bool.and_false _)

theorem mask444 (m : DWord) : m &&& 0o444#32 = 0#32 ↔ m.getLsbD 2 = false ∧ m.getLsbD 5 = false ∧ m.getLsbD 8 = false := by
  constructor
  · intro h
    have key : ∀ k, (0o444#32).getLsbD k = true → m.getLsbD k = false := by
      intro k hk
      have := bit_zero h k
      rw [hk, Bool.and_true] at this
      exact this
    exact ⟨key 2 (by decide), key 5 (by decide), key 8 (by decide)⟩
  · rintro ⟨h2, h5, h8⟩
    apply BitVec.eq_of_getLsbD_eq
    intro k hk
    rw [BitVec.getLsbD_and, BitVec.getLsbD_zero]
    interval_cases k <;> first | (rw [h2]; rfl) | (rw [h5]; rfl) | (rw [h8]; rfl) | (exact Bool.and_false _)

theorem bit_nat (m : DWord) (k : Nat) : m.getLsbD k = true ↔ m.toNat / 2 ^ k % 2 = 1 := by
  show m.toNat.testBit k = true ↔ _
  rw [Nat.testBit_eq_decide_div_mod_eq, decide_eq_true_eq]

/-- The attributes after `Chmod`: read-only or not, the rest as before. -/
theorem chmod_attrs {old mode : DWord} (hn : old &&& NORMAL = 0#32) :
    changed old (chmodAttrs (told old) mode) =
      if mode &&& 0o333#32 = 0#32 ∧ mode &&& 0o444#32 ≠ 0#32 then old ||| READONLY else old &&& ~~~READONLY := by
  have strip : ∀ a : DWord, changed old (if a = 0#32 then a ||| NORMAL else a) = changed old a := by
    intro a
    split
    · next e =>
      rw [e]
      unfold changed
      congr 1
    · rfl
  have ht : ∀ k, ((told old).getLsbD k && !(NORMAL.getLsbD k)) = (old.getLsbD k && !(NORMAL.getLsbD k)) := by
    intro k
    unfold told
    split
    · next e => rw [e]; simp
    · rfl
  have hrk := fun k => bit_zero (show READONLY &&& (DIRECTORY ||| REPARSE) = 0#32 by decide) k
  have hrn := fun k => bit_zero (show READONLY &&& NORMAL = 0#32 by decide) k
  have hnk := fun k => bit_zero hn k
  unfold chmodAttrs
  dsimp only
  rw [strip]
  unfold changed
  split <;>
  · apply BitVec.eq_of_getLsbD_eq
    intro k hk
    have a1 := ht k
    have a2 := hrk k
    have a3 := hrn k
    have a4 := hnk k
    simp only [BitVec.getLsbD_or, BitVec.getLsbD_and, BitVec.getLsbD_not, hk, decide_true, Bool.true_and] at a1 a2 a3 a4 ⊢
    generalize (told old).getLsbD k = t at a1 ⊢
    generalize old.getLsbD k = x at a1 a4 ⊢
    generalize DIRECTORY.getLsbD k = d at a2 ⊢
    generalize REPARSE.getLsbD k = r at a2 ⊢
    generalize NORMAL.getLsbD k = n at a1 a3 a4 ⊢
    generalize READONLY.getLsbD k = o at a2 a3 ⊢
    revert a1 a2 a3 a4
    revert t x d r n o
    decide

/-- C90: what `Chmod` does, exactly.  It succeeds exactly if the file is there, is not a directory, and the system allows it; then the
file is read-only if the mode lets somebody read, and nobody write or execute, and writable otherwise; no other attribute, no
contents, time or other file changes.  If it fails nothing changes. -/
theorem win_chmod (E : Env) (os : Os) (fs : Fs) (f rest w : List Nat) (mode : DWord) (hf : Fit f) (hok : fs.Ok)
    (hj : E.junk.length = 8192) (hw : E.wjunk.length = 8192) (ha : Accepted E.sgn f) (h : Wide f w) :
    ∃ fs' ok, chmod E os fs (f ++ 0 :: rest) mode = .ok (fs', ok) ∧
      (ok = true ↔ ∃ i, fs.name w = some i ∧ (fs.node i).attrs &&& DIRECTORY = 0#32 ∧ os.deny (.attrs w) fs = false ∧
        os.deny (.setAttrs w (chmodAttrs (told (fs.node i).attrs) mode)) fs = false) ∧
      (ok = false → fs' = fs) ∧
      (ok = true → ∃ i, fs.name w = some i ∧ fs'.name = fs.name ∧ (∀ j, j ≠ i → fs'.node j = fs.node j) ∧
        fs'.node i = { fs.node i with attrs :=
          if mode &&& 0o333#32 = 0#32 ∧ mode &&& 0o444#32 ≠ 0#32 then (fs.node i).attrs ||| READONLY
          else (fs.node i).attrs &&& ~~~READONLY }) := by
  unfold chmod
  rw [byName_yes rest hf hj hw ha h]
  refine ⟨(chmodWide os fs mode w).1, (chmodWide os fs mode w).2, rfl, ?_⟩
  unfold chmodWide getAttrs Fs.find
  cases hd : os.deny (.attrs w) fs with
  | true => exact ⟨⟨(fun e => nomatch e), fun ⟨i, _, _, e, _⟩ => nomatch e⟩, fun _ => rfl, (fun e => nomatch e)⟩
  | false =>
    rw [if_neg (by decide)]
    cases hn : fs.name w with
    | none => exact ⟨⟨(fun e => nomatch e), fun ⟨i, e, _⟩ => nomatch e⟩, fun _ => rfl, (fun e => nomatch e)⟩
    | some i =>
      simp only [Option.map_some]
      have hdir : told (fs.node i).attrs &&& DIRECTORY = (fs.node i).attrs &&& DIRECTORY := by
        unfold told
        split
        · next e => rw [e]; decide
        · rfl
      rw [hdir]
      by_cases hk : (fs.node i).attrs &&& DIRECTORY = 0#32
      · rw [if_neg (fun e => e hk)]
        obtain ⟨o, s1, _⟩ := setAttrs_does os fs w (chmodAttrs (told (fs.node i).attrs) mode)
        rcases s1 i hn with ⟨d1, d2, d3⟩ | ⟨d1, d2⟩
        · rw [d2]
          refine ⟨⟨fun _ => ⟨i, rfl, hk, by trivial, d1⟩, fun _ => rfl⟩, (fun e => nomatch e), fun _ => ⟨i, rfl, o.name, fun j hji => ?_, ?_⟩⟩
          · refine o.node j ?_
            rw [hn]
            exact fun e => hji (Option.some.inj e).symm
          · rw [d3, chmod_attrs (hok.normal i)]
        · rw [d2]
          refine ⟨⟨(fun e => nomatch e), fun ⟨j, e1, _, _, e2⟩ => ?_⟩, fun _ => rfl, (fun e => nomatch e)⟩
          cases e1
          rw [d1] at e2
          cases e2
      · rw [if_pos hk]
        refine ⟨⟨(fun e => nomatch e), fun ⟨j, e1, e2, _⟩ => ?_⟩, fun _ => rfl, (fun e => nomatch e)⟩
        cases e1
        exact absurd e2 hk

/-! ## Stat -/

/-- C90: what `Stat` reports, for every accepted name (a name without a volume needs a current directory with an
accepted name): the kind of the file (4 a directory, 8 a file, and 10 a link, if asked for), reading permission for all,
writing permission for all exactly if the file is not read-only, execution permission for all exactly for directories
and for programs, the size, the times (see C89) and the number of the drive. -/
theorem win_stat (E : Env) (os : Os) (fs : Fs) (f rest w cr : List Nat) (cwd : Option (List Nat)) (link : Bool) (hf : Fit f)
    (hj : E.junk.length = 8192) (hw : E.wjunk.length = 8192) (ha : Accepted E.sgn f) (h : Wide f w)
    (hc : ∀ d, cwd = some d → Fit d) :
    ∃ o, stat E os fs (cwd.map (· ++ 0 :: cr)) (f ++ 0 :: rest) link = .ok o ∧
      (o.isSome = true ↔ os.deny (.attrs w) fs = false ∧ fs.name w ≠ none ∧
        (driveNo (normal (canon f)) ≠ none ∨ ∃ d, cwd = some d ∧ Accepted E.sgn d)) ∧
      ∀ st, o = some st → ∃ i, fs.name w = some i ∧
        st.mode / 0o10000 = (if link = true ∧ (fs.node i).attrs &&& REPARSE ≠ 0#32 ∧ (fs.node i).link = true ∧ os.deny (.reparse w) fs = false
          then 10 else if (fs.node i).attrs &&& DIRECTORY ≠ 0#32 then 4 else 8) ∧
        st.mode / 0o400 % 2 = 1 ∧ st.mode / 0o40 % 2 = 1 ∧ st.mode / 0o4 % 2 = 1 ∧
        (∀ p ∈ [0o200, 0o20, 0o2], st.mode / p % 2 = 1 ↔ (fs.node i).attrs &&& READONLY = 0#32) ∧
        (∀ p ∈ [0o100, 0o10, 0o1], st.mode / p % 2 = 1 ↔ st.mode / 0o10000 = 4 ∨
          ((fs.node i).attrs &&& DIRECTORY = 0#32 ∧ Program (normal (canon f)))) ∧
        st.size = (fs.node i).data.length ∧
        st.mtime = toUnix (ofQuad (fs.node i).written) ∧ st.atime = toUnix (ofQuad (fs.node i).accessed) ∧
        st.ctime = toUnix (ofQuad (fs.node i).created) ∧
        (∀ n, driveNo (normal (canon f)) = some n → st.dev = n) ∧
        (driveNo (normal (canon f)) = none → ∀ d, cwd = some d → st.dev = (driveNo (normal (canon d))).getD (2 ^ 32 - 1)) := by
  rcases stat_does rest cr hf hj hw ha h os fs cwd hc link with ⟨h1, h2⟩ | ⟨h1, i, o, p, h2, h3, h4, h5, h6, h7⟩
  · refine ⟨none, h2, ⟨(fun e => nomatch e), ?_⟩, (fun _ e => nomatch e)⟩
    rintro ⟨e1, e2, _⟩
    rcases h1 with h1 | h1
    · rw [e1] at h1; cases h1
    · exact absurd h1 e2
  · refine ⟨_, h3, ?_, ?_⟩
    · cases hdv : driveNo (normal (canon f)) with
      | some n =>
        rw [h5 n hdv]
        exact ⟨fun _ => ⟨h1, by rw [h2]; simp, .inl (by simp)⟩, fun _ => rfl⟩
      | none =>
        constructor
        · intro hs
          refine ⟨h1, by rw [h2]; simp, .inr ?_⟩
          by_contra hno
          have : o = none := by
            refine h7 hdv ?_
            cases hcw : cwd with
            | none => exact .inl rfl
            | some d => exact .inr ⟨d, rfl, fun hd => hno ⟨d, hcw, hd⟩⟩
          rw [this] at hs
          cases hs
        · rintro ⟨_, _, e | ⟨d, e1, e2⟩⟩
          · exact absurd rfl e
          · rw [h6 hdv d e1 e2]
            rfl
    · intro st hst
      cases o with
      | none => cases hst
      | some dev =>
        obtain rfl := (Option.some.inj hst).symm
        refine ⟨i, h2, ?_⟩
        dsimp only
        unfold statMode has
        dsimp only
        have hlink : (link && decide ((fs.node i).attrs &&& REPARSE ≠ 0#32) && !os.deny (.reparse w) fs && (fs.node i).link) =
            decide (link = true ∧ (fs.node i).attrs &&& REPARSE ≠ 0#32 ∧ (fs.node i).link = true ∧ os.deny (.reparse w) fs = false) := by
          cases link <;> cases os.deny (.reparse w) fs <;> cases (fs.node i).link <;> simp
        rw [hlink]
        have hprog := h4
        refine ⟨?_, ?_, ?_, ?_, ?_, ?_, rfl, rfl, rfl, rfl, fun n hn => (Option.some.inj (h5 n hn)), fun hn d hd => ?_⟩
        case refine_7 =>
          by_cases had : Accepted E.sgn d
          · exact Option.some.inj (h6 hn d hd had)
          · exact absurd (h7 hn (.inr ⟨d, hd, had⟩)) (by simp)
        all_goals
          by_cases hl : link = true ∧ (fs.node i).attrs &&& REPARSE ≠ 0#32 ∧ (fs.node i).link = true ∧ os.deny (.reparse w) fs = false <;>
          by_cases hd : (fs.node i).attrs &&& DIRECTORY = 0#32 <;>
          by_cases hr : (fs.node i).attrs &&& READONLY = 0#32 <;>
          cases p <;>
          simp only [hl, hd, hr, ← h4, decide_true, decide_false, if_true, if_false, Bool.not_true, Bool.not_false, Bool.true_and,
            Bool.false_and, Bool.and_true, Bool.and_false, Bool.false_eq_true, ne_eq, not_true_eq_false, not_false_eq_true] <;> decide

/-- C90 (partial): after a `Chmod` that succeeded, `Stat` reports that the file may be written exactly if the mode says that
somebody may write, for modes in which whoever may execute comes with somebody who may write, and which let somebody read or write.
Missing: the other modes, see `win_chmod_writable`. -/
theorem win_chmod_stat_partial (E : Env) (os : Os) (fs fs' : Fs) (f rest w cr : List Nat) (mode : DWord) (cwd : Option (List Nat))
    (link : Bool) (st : St) (hf : Fit f) (hok : fs.Ok)
    (hj : E.junk.length = 8192) (hw : E.wjunk.length = 8192) (ha : Accepted E.sgn f) (h : Wide f w) (hc : ∀ d, cwd = some d → Fit d)
    (hset : chmod E os fs (f ++ 0 :: rest) mode = .ok (fs', true))
    (hstat : stat E os fs' (cwd.map (· ++ 0 :: cr)) (f ++ 0 :: rest) link = .ok (some st))
    (hx : (mode.toNat / 0o100 % 2 = 1 ∨ mode.toNat / 0o10 % 2 = 1 ∨ mode.toNat / 0o1 % 2 = 1) → Writable mode.toNat)
    (hz : Writable mode.toNat ∨ mode.toNat / 0o400 % 2 = 1 ∨ mode.toNat / 0o40 % 2 = 1 ∨ mode.toNat / 0o4 % 2 = 1) :
    Writable st.mode ↔ Writable mode.toNat := by
  obtain ⟨fs2, ok, e1, _, _, e2⟩ := win_chmod E os fs f rest w mode hf hok hj hw ha h
  rw [hset] at e1
  injection e1 with e1
  injection e1 with e1 e3
  subst e1
  obtain ⟨i, n1, n2, _, n3⟩ := e2 e3.symm
  obtain ⟨o, s1, _, s2⟩ := win_stat E os fs' f rest w cr cwd link hf hj hw ha h hc
  rw [hstat] at s1
  injection s1 with s1
  obtain ⟨i', k1, _, _, _, _, k2, _⟩ := s2 st s1.symm
  rw [n2, n1] at k1
  cases k1
  have hst : Writable st.mode ↔ (fs'.node i).attrs &&& READONLY = 0#32 := by
    unfold Writable
    rw [k2 0o200 (by simp), k2 0o20 (by simp), k2 0o2 (by simp)]
    simp
  have hro : (mode &&& 0o333#32 = 0#32 ∧ mode &&& 0o444#32 ≠ 0#32) ↔ ¬ Writable mode.toNat := by
    rw [ne_eq, mask333, mask444]
    have b := fun k => bit_nat mode k
    have c : ∀ k, mode.getLsbD k = false ↔ ¬ mode.toNat / 2 ^ k % 2 = 1 := by
      intro k
      rw [← b k]
      simp
    rw [c 0, c 1, c 3, c 4, c 6, c 7, c 2, c 5, c 8]
    unfold Writable at hx hz ⊢
    norm_num at hx hz ⊢
    omega
  rw [hst, n3]
  dsimp only
  by_cases hm : Writable mode.toNat
  · rw [if_neg (fun e => hro.1 e hm)]
    refine iff_of_true ?_ hm
    rw [BitVec.and_assoc, show ~~~READONLY &&& READONLY = 0#32 by decide, BitVec.and_zero]
  · rw [if_pos (hro.2 hm)]
    refine iff_of_false ?_ hm
    intro e
    have := bit_zero e 0
    rw [BitVec.getLsbD_or, show READONLY.getLsbD 0 = true by decide] at this
    simp at this

theorem oneFs_ok : oneFs.Ok := by
  refine ⟨fun w i h => ?_, fun _ => show someFile.attrs &&& NORMAL = 0#32 by decide, fun _ => show someFile.created < 2 ^ 63 ∧ someFile.accessed < 2 ^ 63 ∧ someFile.written < 2 ^ 63 by decide⟩
  unfold oneFs at h ⊢
  dsimp only at h ⊢
  split at h
  · cases h; decide
  · cases h

example : ∃ fs', chmod someEnv kind oneFs (aName ++ 0 :: []) 0o444#32 = .ok (fs', true) ∧ (fs'.node 0).attrs = 0x21#32 := by
  obtain ⟨fs', ok, h1, h2, _, h4⟩ := win_chmod someEnv kind oneFs aName [] _ 0o444#32 aName_fine.fit oneFs_ok List.length_replicate
    List.length_replicate (aName_accepted _) aName_wide
  have hn : oneFs.name (WinPath.Spec.uni ++ aName) = some 0 := by decide
  have hok : ok = true := h2.2 ⟨0, hn, by decide, rfl, rfl⟩
  subst hok
  obtain ⟨i, n1, _, _, n4⟩ := h4 rfl
  rw [hn] at n1
  cases n1
  exact ⟨fs', h1, by rw [n4]; decide⟩

/-- C90: with the mode 0555, which lets nobody write, and with the mode 0, every file stays or becomes writable. -/
theorem win_chmod_writable (E : Env) (os : Os) (fs : Fs) (f rest w : List Nat) (mode : DWord) (hm : mode = 0o555#32 ∨ mode = 0#32)
    (hf : Fit f) (hok : fs.Ok) (hj : E.junk.length = 8192) (hw : E.wjunk.length = 8192) (ha : Accepted E.sgn f) (h : Wide f w) :
    ¬ Writable mode.toNat ∧ ∃ fs' ok, chmod E os fs (f ++ 0 :: rest) mode = .ok (fs', ok) ∧
      (ok = true → ∃ i, fs.name w = some i ∧ (fs'.node i).attrs &&& READONLY = 0#32) := by
  refine ⟨by rcases hm with rfl | rfl <;> decide, ?_⟩
  obtain ⟨fs', ok, h1, _, _, h4⟩ := win_chmod E os fs f rest w mode hf hok hj hw ha h
  refine ⟨fs', ok, h1, fun e => ?_⟩
  obtain ⟨i, n1, _, _, n4⟩ := h4 e
  refine ⟨i, n1, ?_⟩
  rw [n4]
  dsimp only
  rw [if_neg (by rcases hm with rfl | rfl <;> decide)]
  rw [BitVec.and_assoc, show ~~~READONLY &&& READONLY = 0#32 by decide, BitVec.and_zero]

/-! ## Names -/

/-- C94: with a name that is not accepted every operation answers no and changes nothing, and no system call gets
a name. -/
theorem win_refused (E : Env) (os : Os) (fs : Fs) (f rest g gr : List Nat) (hf : Fit f) (hj : E.junk.length = 8192)
    (hw : E.wjunk.length = 8192) (ha : ¬ Accepted E.sgn f) (hg : Fit g) :
    exists_ E os fs (f ++ 0 :: rest) = .ok (fs, false) ∧
    (∀ mode, chmod E os fs (f ++ 0 :: rest) mode = .ok (fs, false)) ∧
    delete E os fs (f ++ 0 :: rest) = .ok (fs, false) ∧
    (∀ c a u, setFileTimes E os fs (f ++ 0 :: rest) c a u = .ok (fs, false)) ∧
    (∀ cwd link, stat E os fs cwd (f ++ 0 :: rest) link = .ok none) ∧
    copy E os fs (f ++ 0 :: rest) (g ++ 0 :: gr) = .ok (fs, false) ∧
    copy E os fs (g ++ 0 :: gr) (f ++ 0 :: rest) = .ok (fs, false) ∧
    move E os fs (f ++ 0 :: rest) (g ++ 0 :: gr) = .ok (fs, false) ∧
    move E os fs (g ++ 0 :: gr) (f ++ 0 :: rest) = .ok (fs, false) := by
  have hd : (∃ w, wideName E (g ++ 0 :: gr) = .ok (some w)) ∨ wideName E (g ++ 0 :: gr) = .ok none := by
    by_cases hga : Accepted E.sgn g
    · obtain ⟨w, _, hwd, _⟩ := platform_yes gr hg hj hw hga
      exact .inl ⟨w, wideName_yes gr hg hj hw hga hwd⟩
    · exact .inr (wideName_no gr hg hj hga)
  refine ⟨byName_no rest hf hj ha _ _, fun _ => byName_no rest hf hj ha _ _, byName_no rest hf hj ha _ _, fun c a u => ?_, fun cwd link => ?_,
    ?_, ?_, ?_, ?_⟩
  · unfold setFileTimes
    split
    · rfl
    · exact byName_no rest hf hj ha _ _
  · obtain ⟨r, h1⟩ := platform_no rest hf hj ha
    unfold stat
    rw [h1, ok_bind]
    rfl
  · unfold copy
    rw [wideName_no rest hf hj ha, ok_bind]
  · unfold copy
    rcases hd with ⟨w, e⟩ | e
    · rw [e, ok_bind]
      exact byName_no rest hf hj ha _ _
    · rw [e, ok_bind]
  · unfold move
    rw [wideName_no rest hf hj ha, ok_bind]
  · unfold move
    rcases hd with ⟨w, e⟩ | e
    · rw [e, ok_bind]
      exact byName_no rest hf hj ha _ _
    · rw [e, ok_bind]

example : ¬ Accepted true [67, 58, 92, 42] := by
  rintro ⟨_, _, _, _, h, _⟩
  exact absurd h.1 (by decide)

/-- C94: `Exists` is true exactly if the name is accepted and the system finds the file; the UTF-16 form of an accepted
name exists and is unique. -/
theorem win_exists (E : Env) (os : Os) (fs : Fs) (f rest : List Nat) (hf : Fit f) (hj : E.junk.length = 8192)
    (hw : E.wjunk.length = 8192) :
    (Accepted E.sgn f → ∃ w, Wide f w ∧ ∀ v, Wide f v → v = w) ∧
    ∃ ok, exists_ E os fs (f ++ 0 :: rest) = .ok (fs, ok) ∧
      (ok = true ↔ Accepted E.sgn f ∧ ∃ w, Wide f w ∧ fs.name w ≠ none ∧ os.deny (.attrs w) fs = false) := by
  refine ⟨fun ha => ?_, ?_⟩
  · obtain ⟨w, _, hwd, _⟩ := platform_yes rest hf hj hw ha
    exact ⟨w, hwd, fun v hv => wide_unique hv hwd⟩
  · by_cases ha : Accepted E.sgn f
    · obtain ⟨w, _, hwd, _⟩ := platform_yes rest hf hj hw ha
      unfold exists_
      rw [byName_yes rest hf hj hw ha hwd]
      refine ⟨_, rfl, ?_⟩
      have : (getAttrs os fs w).isSome = true ↔ fs.name w ≠ none ∧ os.deny (.attrs w) fs = false := by
        unfold getAttrs Fs.find
        cases os.deny (.attrs w) fs <;> cases fs.name w <;> simp
      rw [this]
      constructor
      · intro e
        exact ⟨ha, w, hwd, e⟩
      · rintro ⟨_, v, hv, e⟩
        rw [wide_unique hv hwd] at e
        exact e
    · refine ⟨false, byName_no rest hf hj ha _ _, ⟨(fun e => nomatch e), fun e => absurd e.1 ha⟩⟩

end Verif.WinOps
