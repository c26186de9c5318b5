import Verif.WinOps.Copy
import Verif.WinOps.PropsMode

/-!
# Property theorems: `Copy`, `Move` and `Delete` on Windows (C91-C93)
-/

namespace Verif.WinOps
open Verif.WinPath.Spec (canon normal uni)
open Verif.WinAbs (Accepted Fit Fine)
open Verif.WinOps.Spec

theorem copy_eq {E : Env} {f g a b : List Nat} (os : Os) (fs : Fs) (fr gr : List Nat) (hf : Fit f) (hg : Fit g)
    (hj : E.junk.length = 8192) (hw : E.wjunk.length = 8192) (hfa : Accepted E.sgn f) (hga : Accepted E.sgn g) (ha : Wide f a) (hb : Wide g b) :
    copy E os fs (f ++ 0 :: fr) (g ++ 0 :: gr) = .ok (copyWide os fs a b) ∧
    move E os fs (f ++ 0 :: fr) (g ++ 0 :: gr) = .ok (moveWide os fs a b) := by
  unfold copy move
  rw [wideName_yes fr hf hj hw hfa ha, ok_bind]
  exact ⟨byName_yes gr hg hj hw hga hb fs _, byName_yes gr hg hj hw hga hb fs _⟩

/-- The file `j` is a copy of the file `n`: the contents, the attributes (but not the mark of a link), and the time of the
last change, rounded down to whole microseconds at most. -/
def CopyOf (n m : Node) : Prop :=
  m.data = n.data ∧ m.attrs = n.attrs &&& ~~~REPARSE ∧ m.written ≤ n.written ∧ n.written < m.written + 10

/-- C91: `Copy` that answers yes made a copy: the destination leads to a file (the one it led to before, or a new one) that
is a copy of the source, and is not the source itself; no other name and no other file, among them the source, has
changed. -/
theorem win_copy_done (E : Env) (os : Os) (fs fs' : Fs) (f fr g gr a b : List Nat) (hf : Fit f) (hg : Fit g) (hok : fs.Ok)
    (hj : E.junk.length = 8192) (hw : E.wjunk.length = 8192) (hfa : Accepted E.sgn f) (hga : Accepted E.sgn g) (ha : Wide f a) (hb : Wide g b)
    (h : copy E os fs (f ++ 0 :: fr) (g ++ 0 :: gr) = .ok (fs', true)) :
    ∃ i j, fs.name a = some i ∧ i ≠ j ∧ fs'.name b = some j ∧ (fs.name b = some j ∨ (fs.name b = none ∧ j = fs.next)) ∧
      CopyOf (fs.node i) (fs'.node j) ∧ (fs.node i).attrs &&& DIRECTORY = 0#32 ∧
      (∀ v, v ≠ b → fs'.name v = fs.name v) ∧ (∀ k, k ≠ j → fs'.node k = fs.node k) := by
  rw [(copy_eq os fs fr gr hf hg hj hw hfa hga ha hb).1] at h
  injection h with h
  have h1 : (copyWide os fs a b).1 = fs' := by rw [h]
  have h2 : (copyWide os fs a b).2 = true := by rw [h]
  obtain ⟨i, j, k1, k2, k3, k4, k5, k6, k7, k8⟩ := copyWide_yes os fs a b hok h2
  rw [h1] at k3 k5 k6 k7 k8
  exact ⟨i, j, k1, k2, k3.here, k3.old, ⟨k5, k6, k7, k8⟩, by simpa [has] using k4, k3.names, k3.nodes⟩

/-- C91 (partial): `Copy` that answers no has changed neither the source nor any other name or file but the destination, the destination name
leads to the same file if it led to one, and this file has its attributes back if the system allows to
read and to set them.  If `CopyFileW` was not refused half-way nothing but the attributes can have changed.  Missing: the
attributes otherwise, see `win_copy_loses_attributes`. -/
theorem win_copy_failed_partial (E : Env) (os : Os) (fs fs' : Fs) (f fr g gr a b : List Nat) (hf : Fit f) (hg : Fit g) (hok : fs.Ok)
    (hj : E.junk.length = 8192) (hw : E.wjunk.length = 8192) (hfa : Accepted E.sgn f) (hga : Accepted E.sgn g) (ha : Wide f a) (hb : Wide g b)
    (h : copy E os fs (f ++ 0 :: fr) (g ++ 0 :: gr) = .ok (fs', false)) :
    (∀ v, v ≠ b → fs'.name v = fs.name v) ∧
    (∀ k, fs.name b = some k → fs'.name b = some k) ∧
    (∀ k, k < fs.next → fs.name b ≠ some k → fs'.node k = fs.node k) ∧
    (∀ k, fs.name a = some k → (fs'.node k).data = (fs.node k).data ∧ (fs'.node k).written = (fs.node k).written) ∧
    (∀ k, fs.name b = some k → (∀ s, os.deny (.copy a b) s = false) → (fs'.node k).data = (fs.node k).data) ∧
    (∀ k, fs.name b = some k → (∀ s, os.deny (.attrs b) s = false) → (∀ s x, os.deny (.setAttrs b x) s = false) →
      (fs'.node k).attrs = (fs.node k).attrs) := by
  rw [(copy_eq os fs fr gr hf hg hj hw hfa hga ha hb).1] at h
  injection h with h
  have h1 : (copyWide os fs a b).1 = fs' := by rw [h]
  have h2 : (copyWide os fs a b).2 = false := by rw [h]
  obtain ⟨k1, k2, k3, k4, k5⟩ := copyWide_no os fs a b hok h2
  rw [h1] at k1 k2 k3 k4 k5
  refine ⟨k1, k2, k3, fun k hk => ?_, fun k hk hd => ?_, k5⟩
  · by_cases hbk : fs.name b = some k
    · obtain ⟨at', e⟩ := k4 k hbk (.inr hk)
      rw [e]
      exact ⟨rfl, rfl⟩
    · rw [k3 k (hok.used a k hk) hbk]
      exact ⟨rfl, rfl⟩
  · obtain ⟨at', e⟩ := k4 k hk (.inl (hd _))
    rw [e]

theorem and_dir (a m : DWord) (hd : a &&& DIRECTORY = 0#32) (hm : (DIRECTORY ||| REPARSE) &&& m = DIRECTORY) :
    (a &&& (DIRECTORY ||| REPARSE)) &&& m = 0#32 := by rw [BitVec.and_assoc, hm, hd]

/-- C91: where the system allows everything `Copy` works: the source must be a file, the destination not a directory and not
the source, and it does not matter whether the destination is missing, read-only or hidden. -/
theorem win_copy_works (E : Env) (os : Os) (fs : Fs) (f fr g gr a b : List Nat) (i : Nat) (hf : Fit f) (hg : Fit g) (hok : fs.Ok)
    (hj : E.junk.length = 8192) (hw : E.wjunk.length = 8192) (hfa : Accepted E.sgn f) (hga : Accepted E.sgn g) (ha : Wide f a) (hb : Wide g b)
    (hos : ∀ c s, os.deny c s = false) (hi : fs.name a = some i) (hd : (fs.node i).attrs &&& DIRECTORY = 0#32)
    (hdest : ∀ j, fs.name b = some j → j ≠ i ∧ (fs.node j).attrs &&& DIRECTORY = 0#32) :
    ∃ fs', copy E os fs (f ++ 0 :: fr) (g ++ 0 :: gr) = .ok (fs', true) := by
  rw [(copy_eq os fs fr gr hf hg hj hw hfa hga ha hb).1]
  suffices h : (copyWide os fs a b).2 = true from ⟨(copyWide os fs a b).1, by rw [← h]⟩
  unfold copyWide
  have hinf : ∀ w, fileInfo os fs w = (fs.name w).map (fun i => (i, fs.node i)) := by
    intro w
    unfold fileInfo
    rw [hos, if_neg (by decide)]
  rw [hinf a, hi]
  simp only [Option.map_some]
  have hsame : sameFile os fs i (fs.node i) b = false := by
    unfold sameFile
    rw [hinf b]
    cases hbn : fs.name b with
    | none => rfl
    | some j =>
      simp only [Option.map_some]
      rw [decide_eq_false (fun e => (hdest j hbn).1 e.symm)]
      rfl
  rw [hsame]
  simp only [Bool.false_eq_true, if_false]
  have hcopy : (copyFile os (setAttrs os fs b NORMAL).1 a b).2 = true := by
    obtain ⟨o1, s1, s2⟩ := setAttrs_does os fs b NORMAL
    generalize hfs1 : (setAttrs os fs b NORMAL).1 = fs1 at *
    unfold copyFile
    rw [o1.name, hi]
    dsimp only
    have hin : fs1.node i = fs.node i := by
      refine o1.node i ?_
      intro e
      exact (hdest i e).1 rfl
    rw [hin, if_neg (by simpa [has] using hd)]
    cases hbn : fs.name b with
    | none =>
      dsimp only
      rw [hos, if_neg (by decide)]
    | some j =>
      dsimp only
      have hno : has (fs1.node j) (READONLY ||| HIDDEN ||| DIRECTORY) = false := by
        rcases s1 j hbn with ⟨_, _, e⟩ | ⟨e, _⟩
        · unfold has
          rw [e]
          dsimp only
          rw [changed_clear, and_dir _ _ (hdest j hbn).2 (by decide)]
          decide
        · rw [hos] at e; cases e
      rw [hno, decide_eq_false (fun e => (hdest j hbn).1 e.symm), hos]
      simp
  rw [hcopy, if_pos rfl]

/-- C91: copying a file onto itself, under the same name or another name of the file, is refused. -/
theorem win_copy_self (E : Env) (os : Os) (fs : Fs) (f fr g gr a b : List Nat) (i : Nat) (hf : Fit f) (hg : Fit g) (hok : fs.Ok)
    (hj : E.junk.length = 8192) (hw : E.wjunk.length = 8192) (hfa : Accepted E.sgn f) (hga : Accepted E.sgn g) (ha : Wide f a) (hb : Wide g b)
    (h1 : fs.name a = some i) (h2 : fs.name b = some i) :
    ∃ fs', copy E os fs (f ++ 0 :: fr) (g ++ 0 :: gr) = .ok (fs', false) ∧
      ((∀ s w, os.deny (.info w) s = false) → fs' = fs) := by
  have hc := (copy_eq os fs fr gr hf hg hj hw hfa hga ha hb).1
  cases hr : (copyWide os fs a b).2 with
  | true =>
    obtain ⟨i', j, k1, k2, k3, _⟩ := copyWide_yes os fs a b hok hr
    rw [h1] at k1
    cases k1
    rcases k3.old with e | ⟨e, _⟩
    · rw [h2] at e
      exact absurd (Option.some.inj e) k2
    · rw [h2] at e; cases e
  | false =>
    refine ⟨(copyWide os fs a b).1, by rw [hc, ← hr], fun hos => ?_⟩
    unfold copyWide sameFile fileInfo
    rw [hos, if_neg (by decide), h1]
    simp only [Option.map_some]
    rw [hos, if_neg (show ¬ false = true by decide), h2]
    simp

/-! ## Examples -/

/-- The file `C:\b`. -/
def bName : List Nat := [67, 58, 92, 98]

theorem bName_fine : Fine bName := by unfold Fine; decide
theorem bName_accepted (sgn : Bool) : Accepted sgn bName := bName_fine.accepted sgn (by decide)
theorem bName_wide : Wide bName (uni ++ bName) := wide_ascii (f := bName) (by decide)

/-- Two files, `C:\a` and `C:\b`, with these attributes. -/
def twoFs (x y : DWord) : Fs :=
  { name := fun w => if w = uni ++ aName then some 0 else if w = uni ++ bName then some 1 else none
    node := fun i => if i = 0 then { someFile with attrs := x } else { someFile with attrs := y, data := [9] }
    next := 2 }

theorem twoFs_ok (x y : DWord) (hx : x &&& NORMAL = 0#32) (hy : y &&& NORMAL = 0#32) : (twoFs x y).Ok := by
  refine ⟨fun w i h => ?_, fun i => ?_, fun i => ?_⟩
  · unfold twoFs at h ⊢
    dsimp only at h ⊢
    split at h
    · cases h; decide
    · split at h
      · cases h; decide
      · cases h
  · show (if i = 0 then { someFile with attrs := x } else { someFile with attrs := y, data := [9] } : Node).attrs &&& NORMAL = 0#32
    split
    · exact hx
    · exact hy
  · show _ ∧ _
    unfold twoFs
    dsimp only
    split <;> simp [someFile]

example : ∃ fs', copy someEnv kind (twoFs 0x20#32 0x1#32) (aName ++ 0 :: []) (bName ++ 0 :: []) = .ok (fs', true) ∧ (fs'.node 1).data = [1, 2, 3] := by
  obtain ⟨fs', h⟩ := win_copy_works someEnv kind (twoFs 0x20#32 0x1#32) aName [] bName [] _ _ 0 aName_fine.fit bName_fine.fit
    (twoFs_ok _ _ (by decide) (by decide)) List.length_replicate List.length_replicate (aName_accepted _) (bName_accepted _) aName_wide bName_wide
    (fun _ _ => rfl) (by decide) (by decide) (by
      intro j hj
      rw [show (twoFs 0x20#32 0x1#32).name (uni ++ bName) = some 1 by decide] at hj
      cases hj
      decide)
  refine ⟨fs', h, ?_⟩
  obtain ⟨i, j, k1, _, _, k2, ⟨k3, _⟩, _⟩ := win_copy_done someEnv kind (twoFs 0x20#32 0x1#32) fs' aName [] bName [] _ _ aName_fine.fit bName_fine.fit
    (twoFs_ok _ _ (by decide) (by decide)) List.length_replicate List.length_replicate (aName_accepted _) (bName_accepted _) aName_wide bName_wide h
  rw [show (twoFs 0x20#32 0x1#32).name (uni ++ aName) = some 0 by decide] at k1
  rw [show (twoFs 0x20#32 0x1#32).name (uni ++ bName) = some 1 by decide] at k2
  cases k1
  rcases k2 with k2 | ⟨k2, _⟩
  · cases k2
    exact k3
  · cases k2

/-- A system that refuses to tell attributes and to copy, but allows to set attributes. -/
def grim : Os :=
  { deny := fun c _ => match c with | .attrs _ => true | .copy _ _ => true | _ => false, torn := fun _ => none, now := fun _ => 0 }

/-- C91: a failed `Copy` can change the destination: where its attributes cannot be read they are replaced.  Here
a file that was read-only and hidden is neither afterwards. -/
theorem win_copy_loses_attributes (E : Env) (hj : E.junk.length = 8192) (hw : E.wjunk.length = 8192) :
    ∃ fs', copy E grim (twoFs 0#32 0x3#32) (aName ++ 0 :: []) (bName ++ 0 :: []) = .ok (fs', false) ∧
      ((twoFs 0#32 0x3#32).node 1).attrs = 0x3#32 ∧ (fs'.node 1).attrs = 0#32 := by
  rw [(copy_eq grim (twoFs 0#32 0x3#32) [] [] aName_fine.fit bName_fine.fit hj hw (aName_accepted _) (bName_accepted _) aName_wide
    bName_wide).1]
  exact ⟨_, rfl, by decide, by decide⟩

/-! ## Move -/

theorem moveFile_does (os : Os) (fs : Fs) (a b : List Nat) :
    ((moveFile os fs a b).2 = true ∧ ∃ i, fs.name a = some i ∧ fs.name b = none ∧ os.deny (.move a b) fs = false ∧
      (moveFile os fs a b).1 = (fs.bind a none).bind b (some i)) ∨
    (moveFile os fs a b = (fs, false) ∧ (fs.name a = none ∨ fs.name b ≠ none ∨ os.deny (.move a b) fs = true)) := by
  unfold moveFile
  cases ha : fs.name a with
  | none => exact .inr ⟨rfl, .inl rfl⟩
  | some i =>
    cases hb : fs.name b with
    | some j => exact .inr ⟨rfl, .inr (.inl (by simp))⟩
    | none =>
      dsimp only
      cases hd : os.deny (.move a b) fs with
      | true => exact .inr ⟨rfl, .inr (.inr rfl)⟩
      | false => exact .inl ⟨rfl, i, rfl, rfl, rfl, rfl⟩

theorem deleteFile_does (os : Os) (fs : Fs) (w : List Nat) :
    ((deleteFile os fs w).2 = true ∧ (deleteFile os fs w).1 = fs.bind w none ∧ ∃ i, fs.name w = some i ∧
      (fs.node i).attrs &&& (READONLY ||| DIRECTORY) = 0#32 ∧ os.deny (.delete w) fs = false) ∨
    (deleteFile os fs w = (fs, false) ∧ (fs.name w = none ∨ ∃ i, fs.name w = some i ∧
      ((fs.node i).attrs &&& (READONLY ||| DIRECTORY) ≠ 0#32 ∨ os.deny (.delete w) fs = true))) := by
  unfold deleteFile
  cases hw : fs.name w with
  | none => exact .inr ⟨rfl, .inl rfl⟩
  | some i =>
    dsimp only
    by_cases hr : (fs.node i).attrs &&& (READONLY ||| DIRECTORY) = 0#32
    · have : has (fs.node i) (READONLY ||| DIRECTORY) = false := by simp [has, hr]
      rw [this]
      cases hd : os.deny (.delete w) fs with
      | true => exact .inr ⟨rfl, .inr ⟨i, rfl, .inr rfl⟩⟩
      | false => exact .inl ⟨rfl, rfl, i, rfl, hr, rfl⟩
    · have : has (fs.node i) (READONLY ||| DIRECTORY) = true := by simp [has, hr]
      rw [this]
      exact .inr ⟨rfl, .inr ⟨i, rfl, .inl hr⟩⟩

/-- C92 (partial): `Move` that answers yes: the destination leads to the source file itself, or to a copy of it; no
other name and no other file has changed; and the source name is gone, provided that the file was moved, or that the source
is not read-only and the system allows to delete it.  Missing: moving a read-only file onto an existing
one, see `win_move_readonly`. -/
theorem win_move_done_partial (E : Env) (os : Os) (fs fs' : Fs) (f fr g gr a b : List Nat) (hf : Fit f) (hg : Fit g) (hok : fs.Ok)
    (hj : E.junk.length = 8192) (hw : E.wjunk.length = 8192) (hfa : Accepted E.sgn f) (hga : Accepted E.sgn g) (ha : Wide f a) (hb : Wide g b)
    (h : move E os fs (f ++ 0 :: fr) (g ++ 0 :: gr) = .ok (fs', true)) :
    ∃ i j, fs.name a = some i ∧ fs'.name b = some j ∧ a ≠ b ∧
      (j = i ∧ fs'.node = fs.node ∨ i ≠ j ∧ (fs.name b = some j ∨ (fs.name b = none ∧ j = fs.next)) ∧ CopyOf (fs.node i) (fs'.node j)) ∧
      (∀ v, v ≠ a → v ≠ b → fs'.name v = fs.name v) ∧ (∀ k, k ≠ j → fs'.node k = fs.node k) ∧
      ((fs.name b = none ∧ os.deny (.move a b) fs = false) ∨
        ((fs.node i).attrs &&& READONLY = 0#32 ∧ ∀ s, os.deny (.delete a) s = false) → fs'.name a = none) ∧
      (fs'.name a = none ∨ fs'.name a = some i) := by
  rw [(copy_eq os fs fr gr hf hg hj hw hfa hga ha hb).2] at h
  injection h with h
  unfold moveWide at h
  dsimp only at h
  rcases moveFile_does os fs a b with ⟨m1, i, m2, m3, m4, m5⟩ | ⟨m1, m2⟩
  · rw [m1, if_pos rfl] at h
    have e : (fs.bind a none).bind b (some i) = fs' := by rw [← m5, h]
    have hab : a ≠ b := by rintro rfl; rw [m2] at m3; cases m3
    subst e
    have hgone : ((fs.bind a none).bind b (some i)).name a = none := by
      show (if a = b then some i else if a = a then none else fs.name a) = none
      rw [if_neg hab, if_pos rfl]
    refine ⟨i, i, m2, if_pos rfl, hab, .inl ⟨rfl, rfl⟩, fun v h1 h2 => ?_, fun _ _ => rfl, fun _ => hgone, .inl hgone⟩
    show (if v = b then some i else if v = a then none else fs.name v) = _
    rw [if_neg h2, if_neg h1]
  · rw [m1] at h
    dsimp only at h
    rw [if_neg (by decide)] at h
    cases hc : (copyWide os fs a b).2 with
    | false =>
      rw [hc, if_neg (by decide)] at h
      rw [h] at hc
      cases hc
    | true =>
      rw [hc, if_pos rfl] at h
      have e : (deleteFile os (copyWide os fs a b).1 a).1 = fs' := by rw [Prod.mk.injEq] at h; exact h.1
      obtain ⟨i, j, k1, k2, k3, k4, k5, k6, k7, k8⟩ := copyWide_yes os fs a b hok hc
      generalize hfs1 : (copyWide os fs a b).1 = fs1 at *
      have hab : a ≠ b := by
        rintro rfl
        rcases k3.old with e | ⟨e, _⟩
        · rw [k1] at e; exact k2 (Option.some.inj e)
        · rw [k1] at e; cases e
      have ha1 : fs1.name a = some i := by rw [k3.names a hab]; exact k1
      have hn1 : fs1.node i = fs.node i := k3.nodes i k2
      rcases deleteFile_does os fs1 a with ⟨_, d2, _⟩ | ⟨d1, d2⟩
      · rw [d2] at e
        subst e
        refine ⟨i, j, k1, ?_, hab, .inr ⟨k2, k3.old, k5, k6, k7, k8⟩, fun v h1 h2 => ?_, k3.nodes, fun _ => if_pos rfl, .inl (if_pos rfl)⟩
        · show (if b = a then none else fs1.name b) = _
          rw [if_neg (Ne.symm hab)]
          exact k3.here
        · show (if v = a then none else fs1.name v) = _
          rw [if_neg h1]
          exact k3.names v h2
      · rw [d1] at e
        subst e
        refine ⟨i, j, k1, k3.here, hab, .inr ⟨k2, k3.old, k5, k6, k7, k8⟩, fun v h1 h2 => k3.names v h2, k3.nodes, fun hdel => ?_, .inr ha1⟩
        exfalso
        rcases hdel with ⟨e1, e2⟩ | ⟨e1, e2⟩
        · rcases m2 with m | m | m
          · rw [k1] at m; cases m
          · exact m e1
          · rw [e2] at m; cases m
        · rcases d2 with d | ⟨i', d, d3⟩
          · rw [ha1] at d; cases d
          · rw [ha1] at d
            cases d
            rcases d3 with d3 | d3
            · apply d3
              rw [hn1]
              have hdz : (fs.node i).attrs &&& DIRECTORY = 0#32 := by simpa [has] using k4
              apply BitVec.eq_of_getLsbD_eq
              intro k hk
              have b1 := bit_zero e1 k
              have b2 := bit_zero hdz k
              rw [BitVec.getLsbD_and, BitVec.getLsbD_or, BitVec.getLsbD_zero, Bool.and_or_distrib_left, b1, b2]
              rfl
            · rw [e2] at d3; cases d3

/-- C92 (partial): `Move` that answers no: the source and all names but the destination are as before.  Missing:
the attributes of the destination, as for `Copy` (`win_copy_failed_partial`). -/
theorem win_move_failed_partial (E : Env) (os : Os) (fs fs' : Fs) (f fr g gr a b : List Nat) (hf : Fit f) (hg : Fit g) (hok : fs.Ok)
    (hj : E.junk.length = 8192) (hw : E.wjunk.length = 8192) (hfa : Accepted E.sgn f) (hga : Accepted E.sgn g) (ha : Wide f a) (hb : Wide g b)
    (h : move E os fs (f ++ 0 :: fr) (g ++ 0 :: gr) = .ok (fs', false)) :
    (∀ v, v ≠ b → fs'.name v = fs.name v) ∧ (∀ k, fs.name b = some k → fs'.name b = some k) ∧
    (∀ k, k < fs.next → fs.name b ≠ some k → fs'.node k = fs.node k) ∧
    (∀ k, fs.name a = some k → (fs'.node k).data = (fs.node k).data ∧ (fs'.node k).written = (fs.node k).written) ∧
    (∀ k, fs.name b = some k → (∀ s, os.deny (.attrs b) s = false) → (∀ s x, os.deny (.setAttrs b x) s = false) →
      (fs'.node k).attrs = (fs.node k).attrs) := by
  have hcm := copy_eq os fs fr gr hf hg hj hw hfa hga ha hb
  rw [hcm.2] at h
  injection h with h
  unfold moveWide at h
  dsimp only at h
  rcases moveFile_does os fs a b with ⟨m1, _⟩ | ⟨m1, _⟩
  · rw [m1, if_pos rfl] at h
    rw [h] at m1
    cases m1
  · rw [m1] at h
    dsimp only at h
    rw [if_neg (by decide)] at h
    cases hc : (copyWide os fs a b).2 with
    | true => rw [hc, if_pos rfl] at h; cases h
    | false =>
      rw [hc, if_neg (by decide)] at h
      have hcopy : copy E os fs (f ++ 0 :: fr) (g ++ 0 :: gr) = .ok (fs', false) := by rw [hcm.1, h]
      obtain ⟨k1, k2, k3, k4, _, k6⟩ := win_copy_failed_partial E os fs fs' f fr g gr a b hf hg hok hj hw hfa hga ha hb hcopy
      exact ⟨k1, k2, k3, k4, k6⟩

/-- C92: `Move` of a read-only file onto another file answers yes, although the source is still there. -/
theorem win_move_readonly (E : Env) (hj : E.junk.length = 8192) (hw : E.wjunk.length = 8192) :
    ∃ fs', move E kind (twoFs 0x1#32 0#32) (aName ++ 0 :: []) (bName ++ 0 :: []) = .ok (fs', true) ∧
      fs'.name (uni ++ aName) = some 0 ∧ (fs'.node 0).data = [1, 2, 3] ∧ (fs'.node 1).data = [1, 2, 3] := by
  rw [(copy_eq kind (twoFs 0x1#32 0#32) [] [] aName_fine.fit bName_fine.fit hj hw (aName_accepted _) (bName_accepted _) aName_wide
    bName_wide).2]
  refine ⟨(moveWide kind (twoFs 0x1#32 0#32) (uni ++ aName) (uni ++ bName)).1, ?_, by decide, by decide, by decide⟩
  rw [← show (moveWide kind (twoFs 0x1#32 0#32) (uni ++ aName) (uni ++ bName)).2 = true by decide]

example : ∃ fs', move someEnv kind (twoFs 0x20#32 0x1#32) (aName ++ 0 :: []) (bName ++ 0 :: []) = .ok (fs', true) ∧
    fs'.name (uni ++ aName) = none := by
  have hm : move someEnv kind (twoFs 0x20#32 0x1#32) (aName ++ 0 :: []) (bName ++ 0 :: []) =
      .ok ((moveWide kind (twoFs 0x20#32 0x1#32) (uni ++ aName) (uni ++ bName)).1, true) := by
    rw [(copy_eq kind (twoFs 0x20#32 0x1#32) [] [] aName_fine.fit bName_fine.fit List.length_replicate List.length_replicate (aName_accepted _)
      (bName_accepted _) aName_wide bName_wide).2, ← show (moveWide kind (twoFs 0x20#32 0x1#32) (uni ++ aName) (uni ++ bName)).2 = true by decide]
  refine ⟨_, hm, ?_⟩
  obtain ⟨i, j, k1, _, _, _, _, _, k2, _⟩ := win_move_done_partial someEnv kind _ _ aName [] bName [] _ _ aName_fine.fit bName_fine.fit
    (twoFs_ok _ _ (by decide) (by decide)) List.length_replicate List.length_replicate (aName_accepted _) (bName_accepted _) aName_wide bName_wide hm
  rw [show (twoFs 0x20#32 0x1#32).name (uni ++ aName) = some 0 by decide] at k1
  cases k1
  exact k2 (.inr ⟨by decide, fun _ => rfl⟩)

/-! ## Delete -/

/-- C93: `Delete` that answers yes has removed the name, and no other name; the contents and times of all files are as
before (other names of the same file still have them), and the attributes of all other files. -/
theorem win_delete_done (E : Env) (os : Os) (fs fs' : Fs) (f rest w : List Nat) (hf : Fit f) (hj : E.junk.length = 8192)
    (hw : E.wjunk.length = 8192) (ha : Accepted E.sgn f) (h : Wide f w) (hd : delete E os fs (f ++ 0 :: rest) = .ok (fs', true)) :
    fs'.name w = none ∧ (∀ v, v ≠ w → fs'.name v = fs.name v) ∧ ∃ i, fs.name w = some i ∧ (fs.node i).attrs &&& DIRECTORY = 0#32 ∧
      (∀ j, j ≠ i → fs'.node j = fs.node j) ∧
      fs'.node i = { fs.node i with attrs := (fs'.node i).attrs } := by
  unfold delete at hd
  rw [byName_yes rest hf hj hw ha h] at hd
  injection hd with hd
  obtain ⟨o, s1, s2⟩ := setAttrs_does os fs w NORMAL
  generalize hfs1 : (setAttrs os fs w NORMAL).1 = fs1 at *
  rcases deleteFile_does os fs1 w with ⟨_, d2, i, d3, d4, _⟩ | ⟨d1, _⟩
  · have e : fs1.bind w none = fs' := by rw [← d2, hd]
    subst e
    rw [o.name] at d3
    have hdir : ∀ x : DWord, x &&& (READONLY ||| DIRECTORY) = 0#32 → x &&& DIRECTORY = 0#32 := by
      intro x hx
      have : x &&& DIRECTORY = (x &&& (READONLY ||| DIRECTORY)) &&& DIRECTORY := by rw [BitVec.and_assoc]; rfl
      rw [this, hx]
      decide
    refine ⟨if_pos rfl, fun v hv => ?_, i, d3, ?_, fun j hji => ?_, ?_⟩
    · show (if v = w then none else fs1.name v) = _
      rw [if_neg hv, o.name]
    · have hd1 := hdir _ d4
      rcases s1 i d3 with ⟨_, _, e⟩ | ⟨_, e⟩
      · rw [e] at hd1
        dsimp only at hd1
        rw [changed_clear, BitVec.and_assoc, show (DIRECTORY ||| REPARSE) &&& DIRECTORY = DIRECTORY by decide] at hd1
        exact hd1
      · rw [e] at hfs1
        rw [← hfs1] at hd1
        exact hd1
    · refine o.node j ?_
      rw [d3]
      exact fun e => hji (Option.some.inj e).symm
    · show fs1.node i = { fs.node i with attrs := (fs1.node i).attrs }
      rcases s1 i d3 with ⟨_, _, e⟩ | ⟨_, e⟩
      · rw [e]
      · rw [e] at hfs1
        rw [← hfs1]
  · rw [d1] at hd
    cases hd

/-- C93: where the system allows everything `Delete` removes every file that is not a directory, read-only or not. -/
theorem win_delete_works (E : Env) (os : Os) (fs : Fs) (f rest w : List Nat) (i : Nat) (hf : Fit f) (hj : E.junk.length = 8192)
    (hw : E.wjunk.length = 8192) (ha : Accepted E.sgn f) (h : Wide f w) (hos : ∀ c s, os.deny c s = false)
    (hi : fs.name w = some i) (hd : (fs.node i).attrs &&& DIRECTORY = 0#32) :
    ∃ fs', delete E os fs (f ++ 0 :: rest) = .ok (fs', true) := by
  unfold delete
  rw [byName_yes rest hf hj hw ha h]
  obtain ⟨o, s1, _⟩ := setAttrs_does os fs w NORMAL
  generalize hfs1 : (setAttrs os fs w NORMAL).1 = fs1 at *
  rcases deleteFile_does os fs1 w with ⟨d1, _⟩ | ⟨_, d2⟩
  · exact ⟨(deleteFile os fs1 w).1, by rw [← d1]⟩
  · exfalso
    rw [o.name] at d2
    rcases d2 with d2 | ⟨i', d2, d3⟩
    · rw [hi] at d2; cases d2
    · rw [hi] at d2
      cases d2
      rcases d3 with d3 | d3
      · apply d3
        rcases s1 i hi with ⟨_, _, e⟩ | ⟨e, _⟩
        · rw [e]
          dsimp only
          rw [changed_clear, and_dir _ _ hd (by decide)]
        · rw [hos] at e; cases e
      · rw [hos] at d3; cases d3

/-- C93 (partial): `Delete` that answers no has changed no name, no contents and no time, and attributes of the named file
only.  Missing: these attributes, see `win_delete_resets`. -/
theorem win_delete_failed_partial (E : Env) (os : Os) (fs fs' : Fs) (f rest w : List Nat) (hf : Fit f) (hj : E.junk.length = 8192)
    (hw : E.wjunk.length = 8192) (ha : Accepted E.sgn f) (h : Wide f w) (hd : delete E os fs (f ++ 0 :: rest) = .ok (fs', false)) :
    fs'.name = fs.name ∧ (∀ j, fs.name w ≠ some j → fs'.node j = fs.node j) ∧
      ∀ i, fs'.node i = { fs.node i with attrs := (fs'.node i).attrs } := by
  unfold delete at hd
  rw [byName_yes rest hf hj hw ha h] at hd
  injection hd with hd
  obtain ⟨o, s1, s2⟩ := setAttrs_does os fs w NORMAL
  generalize hfs1 : (setAttrs os fs w NORMAL).1 = fs1 at *
  rcases deleteFile_does os fs1 w with ⟨d1, _⟩ | ⟨d1, _⟩
  · rw [hd] at d1
    cases d1
  · rw [d1] at hd
    have e : fs1 = fs' := by rw [Prod.mk.injEq] at hd; exact hd.1
    subst e
    refine ⟨o.name, o.node, fun i => ?_⟩
    by_cases hi : fs.name w = some i
    · rcases s1 i hi with ⟨_, _, e⟩ | ⟨_, e⟩
      · rw [e]
      · rw [e] at hfs1
        rw [← hfs1]
    · rw [o.node i hi]

/-- C93: `Delete` of a directory answers no, but the directory, which was hidden, is not hidden any more. -/
theorem win_delete_resets (E : Env) (hj : E.junk.length = 8192) (hw : E.wjunk.length = 8192) :
    ∃ fs', delete E kind (twoFs 0x12#32 0#32) (aName ++ 0 :: []) = .ok (fs', false) ∧
      ((twoFs 0x12#32 0#32).node 0).attrs = 0x12#32 ∧ (fs'.node 0).attrs = 0x10#32 := by
  unfold delete
  rw [byName_yes [] aName_fine.fit hj hw (aName_accepted _) aName_wide]
  exact ⟨_, rfl, by decide, by decide⟩

/-- One file that was read-only with the two names `C:\a` and `C:\b`. -/
def linkedFs : Fs :=
  { name := fun w => if w = uni ++ aName ∨ w = uni ++ bName then some 0 else none, node := fun _ => { someFile with attrs := 0x1#32 }, next := 1 }

/-- C93: deleting one name of a file that is read-only makes the file writable under its other name. -/
theorem win_delete_other_name (E : Env) (hj : E.junk.length = 8192) (hw : E.wjunk.length = 8192) :
    ∃ fs', delete E kind linkedFs (aName ++ 0 :: []) = .ok (fs', true) ∧
      fs'.name (uni ++ bName) = some 0 ∧ (linkedFs.node 0).attrs = READONLY ∧ (fs'.node 0).attrs = 0#32 := by
  unfold delete
  rw [byName_yes [] aName_fine.fit hj hw (aName_accepted _) aName_wide]
  refine ⟨_, rfl, by decide, by decide, by decide⟩

example : ∃ fs', delete someEnv kind (twoFs 0x1#32 0#32) (aName ++ 0 :: []) = .ok (fs', true) :=
  win_delete_works someEnv kind (twoFs 0x1#32 0#32) aName [] _ 0 aName_fine.fit List.length_replicate List.length_replicate (aName_accepted _) aName_wide
    (fun _ _ => rfl) (by decide) (by decide)

end Verif.WinOps
