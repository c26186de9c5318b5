import Verif.WinOps.NameLemmas

/-!
# The system calls, one by one
-/

namespace Verif.WinOps
open Verif.WinOps.Spec

/-- File systems as they are: every name leads to a numbered file, `FILE_ATTRIBUTE_NORMAL` is not stored, and times are
positive as signed numbers. -/
structure Fs.Ok (fs : Fs) : Prop where
  used : ∀ w i, fs.name w = some i → i < fs.next
  normal : ∀ i, (fs.node i).attrs &&& NORMAL = 0#32
  time : ∀ i, (fs.node i).created < 2 ^ 63 ∧ (fs.node i).accessed < 2 ^ 63 ∧ (fs.node i).written < 2 ^ 63

/-- Nothing differs but the file `o`. -/
structure Only (o : Option Nat) (fs fs' : Fs) : Prop where
  name : fs'.name = fs.name
  next : fs'.next = fs.next
  node : ∀ j, o ≠ some j → fs'.node j = fs.node j

theorem Only.refl (o : Option Nat) (fs : Fs) : Only o fs fs := ⟨rfl, rfl, fun _ _ => rfl⟩

theorem Only.trans {o : Option Nat} {a b c : Fs} (h : Only o a b) (h' : Only o b c) : Only o a c :=
  ⟨h'.name.trans h.name, h'.next.trans h.next, fun j hj => (h'.node j hj).trans (h.node j hj)⟩

theorem only_put (fs : Fs) (i : Nat) (n : Node) : Only (some i) fs (fs.put i n) :=
  ⟨rfl, rfl, fun j hj => if_neg (fun e => hj (by rw [e]))⟩

theorem put_same (fs : Fs) (i : Nat) (n : Node) : (fs.put i n).node i = n := if_pos rfl

theorem fs_ext {a b : Fs} (h1 : a.name = b.name) (h2 : a.node = b.node) (h3 : a.next = b.next) : a = b := by
  cases a; cases b; cases h1; cases h2; cases h3; rfl

theorem put_self (fs : Fs) (i : Nat) : fs.put i (fs.node i) = fs := by
  refine fs_ext rfl ?_ rfl
  funext j
  show (if j = i then fs.node i else fs.node j) = fs.node j
  split
  · next h => rw [h]
  · rfl

/-! ## Attributes -/

theorem bit_zero {a m : DWord} (h : a &&& m = 0#32) (k : Nat) : (a.getLsbD k && m.getLsbD k) = false := by
  rw [← BitVec.getLsbD_and, h]
  simp

/-- Setting the attributes that were told gives them back. -/
theorem changed_told {old a : DWord} (h : a &&& NORMAL = 0#32)
    (hs : old &&& (DIRECTORY ||| REPARSE) = a &&& (DIRECTORY ||| REPARSE)) : changed old (told a) = a := by
  have h2 : told a &&& ~~~(DIRECTORY ||| REPARSE ||| NORMAL) = a &&& ~~~(DIRECTORY ||| REPARSE ||| NORMAL) := by
    unfold told
    split
    · next e => rw [e]; decide
    · rfl
  unfold changed
  rw [h2, hs]
  apply BitVec.eq_of_getLsbD_eq
  intro k hk
  have := bit_zero h k
  simp only [BitVec.getLsbD_or, BitVec.getLsbD_and, BitVec.getLsbD_not, hk, decide_true, Bool.true_and] at this ⊢
  generalize a.getLsbD k = x at this ⊢
  generalize DIRECTORY.getLsbD k = d
  generalize REPARSE.getLsbD k = r
  generalize NORMAL.getLsbD k = n at this ⊢
  revert this
  revert x d r n
  decide

/-- What a file is does not change. -/
theorem changed_kind (old a : DWord) : changed old a &&& (DIRECTORY ||| REPARSE) = old &&& (DIRECTORY ||| REPARSE) := by
  unfold changed
  apply BitVec.eq_of_getLsbD_eq
  intro k hk
  simp only [BitVec.getLsbD_or, BitVec.getLsbD_and, BitVec.getLsbD_not, hk, decide_true, Bool.true_and]
  generalize a.getLsbD k = x
  generalize old.getLsbD k = y
  generalize DIRECTORY.getLsbD k = d
  generalize REPARSE.getLsbD k = r
  generalize NORMAL.getLsbD k = n
  revert x y d r n
  decide

theorem changed_normal (old a : DWord) : changed old a &&& NORMAL = 0#32 := by
  have hd : (DIRECTORY ||| REPARSE) &&& NORMAL = 0#32 := by decide
  unfold changed
  apply BitVec.eq_of_getLsbD_eq
  intro k hk
  have := bit_zero hd k
  simp only [BitVec.getLsbD_or, BitVec.getLsbD_and, BitVec.getLsbD_not, hk, decide_true, Bool.true_and] at this ⊢
  rw [BitVec.getLsbD_zero]
  generalize a.getLsbD k = x
  generalize old.getLsbD k = y
  generalize DIRECTORY.getLsbD k = d at this ⊢
  generalize REPARSE.getLsbD k = r at this ⊢
  generalize NORMAL.getLsbD k = n at this ⊢
  revert this
  revert x y d r n
  decide

/-- The attributes that remain after setting `FILE_ATTRIBUTE_NORMAL`. -/
theorem changed_clear (old : DWord) : changed old NORMAL = old &&& (DIRECTORY ||| REPARSE) := by
  unfold changed
  rw [show NORMAL &&& ~~~(DIRECTORY ||| REPARSE ||| NORMAL) = 0#32 by decide, BitVec.or_zero]

theorem has_dir {n m : Node} (h : n.attrs &&& (DIRECTORY ||| REPARSE) = m.attrs &&& (DIRECTORY ||| REPARSE)) :
    has n DIRECTORY = has m DIRECTORY := by
  unfold has
  have : ∀ a : DWord, a &&& DIRECTORY = (a &&& (DIRECTORY ||| REPARSE)) &&& DIRECTORY := by
    intro a
    rw [BitVec.and_assoc]
    rfl
  rw [this n.attrs, this m.attrs, h]

theorem has_mask {n : Node} {a : DWord} (h : n.attrs = a &&& (DIRECTORY ||| REPARSE)) (hd : a &&& DIRECTORY = 0#32)
    {m : DWord} (hm : (DIRECTORY ||| REPARSE) &&& m = DIRECTORY) : has n m = false := by
  unfold has
  rw [h, BitVec.and_assoc, hm, hd]
  decide

/-- `SetFileAttributesW`. -/
theorem setAttrs_does (os : Os) (fs : Fs) (w : List Nat) (a : DWord) :
    Only (fs.name w) fs (setAttrs os fs w a).1 ∧
    (∀ i, fs.name w = some i → (os.deny (.setAttrs w a) fs = false ∧ (setAttrs os fs w a).2 = true ∧
        (setAttrs os fs w a).1.node i = { fs.node i with attrs := changed (fs.node i).attrs a }) ∨
      (os.deny (.setAttrs w a) fs = true ∧ setAttrs os fs w a = (fs, false))) ∧
    (fs.name w = none → setAttrs os fs w a = (fs, false)) := by
  unfold setAttrs
  cases h : fs.name w with
  | none => exact ⟨Only.refl _ _, (fun i hi => nomatch hi), fun _ => rfl⟩
  | some j =>
    dsimp only
    cases hd : os.deny (.setAttrs w a) fs with
    | true => exact ⟨Only.refl _ _, (fun i hi => .inr ⟨rfl, rfl⟩), (fun hn => nomatch hn)⟩
    | false =>
      refine ⟨only_put _ _ _, fun i hi => .inl ⟨rfl, rfl, ?_⟩, (fun hn => nomatch hn)⟩
      cases hi
      exact put_same _ _ _

/-! ## Times -/

theorem quad_of {q : Nat} (h : q < 2 ^ 64) : quad (ofQuad q) = q := by
  unfold quad ofQuad
  dsimp only
  omega

theorem epoch : unixEpoch = 116444736000000000 := by decide +kernel

theorem micro_of (t : Nat) : quad (ofMicro t) = (t * 10 + unixEpoch) % 2 ^ 64 := by
  unfold ofMicro
  rw [quad_of (by omega), epoch]
  omega

theorem newTime_none (old : Nat) : newTime old none = some old := rfl

theorem newTime_minus (old : Nat) : newTime old (some ⟨0xFFFFFFFF, 0xFFFFFFFF⟩) = some old := by
  unfold newTime quad
  dsimp only
  rw [if_pos (by omega)]

/-- `SetFileTimes` with the name converted. -/
theorem setFileTimesWide_does (os : Os) (fs : Fs) (c a u : Option Nat) (w : List Nat) :
    ((setFileTimesWide os fs c a u w).2 = false ∧ (setFileTimesWide os fs c a u w).1 = fs ∧
      ((∃ i, fs.name w = some i ∧ has (fs.node i) (READONLY ||| DIRECTORY) = false ∧ os.deny (.openWrite w) fs = false ∧
          os.deny (.setTimes w) fs = false) →
        ∃ i, fs.name w = some i ∧ (newTime (fs.node i).created (c.map ofMicro) = none ∨
          newTime (fs.node i).accessed (a.map ofMicro) = none ∨ newTime (fs.node i).written (u.map ofMicro) = none))) ∨
    ((setFileTimesWide os fs c a u w).2 = true ∧ ∃ i c' a' u', fs.name w = some i ∧
      has (fs.node i) (READONLY ||| DIRECTORY) = false ∧ os.deny (.openWrite w) fs = false ∧ os.deny (.setTimes w) fs = false ∧
      newTime (fs.node i).created (c.map ofMicro) = some c' ∧
      newTime (fs.node i).accessed (a.map ofMicro) = some a' ∧
      newTime (fs.node i).written (u.map ofMicro) = some u' ∧
      (setFileTimesWide os fs c a u w).1 = fs.put i { fs.node i with created := c', accessed := a', written := u' }) := by
  have first : (setTimes os fs w none (some ⟨0xFFFFFFFF, 0xFFFFFFFF⟩) (some ⟨0xFFFFFFFF, 0xFFFFFFFF⟩)).1 = fs := by
    unfold setTimes
    cases h : fs.name w with
    | none => rfl
    | some i =>
      dsimp only
      rw [newTime_none, newTime_minus, newTime_minus]
      dsimp only
      split
      · rfl
      · exact put_self fs i
  unfold setFileTimesWide
  dsimp only
  rw [first]
  unfold openWrite Fs.find setTimes
  cases h : fs.name w with
  | none => exact .inl ⟨rfl, rfl, fun ⟨i, hi, _⟩ => nomatch hi⟩
  | some i =>
    simp only [Option.map_some]
    cases hr : has (fs.node i) (READONLY ||| DIRECTORY) with
    | true =>
      refine .inl ⟨rfl, rfl, fun ⟨j, hj, hh, _⟩ => ?_⟩
      cases hj
      rw [hr] at hh
      cases hh
    | false =>
      cases ho : os.deny (.openWrite w) fs with
      | true =>
        refine .inl ⟨rfl, rfl, fun ⟨j, hj, _, hh, _⟩ => by cases hh⟩
      | false =>
        simp only [Bool.not_false, Bool.and_self, Bool.not_true, Bool.false_eq_true, if_false]
        cases h1 : newTime (fs.node i).created (c.map ofMicro) with
        | none => exact .inl ⟨rfl, rfl, fun _ => ⟨i, rfl, .inl h1⟩⟩
        | some c' =>
          cases h2 : newTime (fs.node i).accessed (a.map ofMicro) with
          | none => exact .inl ⟨rfl, rfl, fun _ => ⟨i, rfl, .inr (.inl h2)⟩⟩
          | some a' =>
            cases h3 : newTime (fs.node i).written (u.map ofMicro) with
            | none => exact .inl ⟨rfl, rfl, fun _ => ⟨i, rfl, .inr (.inr h3)⟩⟩
            | some u' =>
              dsimp only
              cases hd : os.deny (.setTimes w) fs with
              | true => exact .inl ⟨rfl, rfl, fun ⟨_, _, _, _, hh⟩ => nomatch hh⟩
              | false => exact .inr ⟨rfl, i, c', a', u', rfl, hr, by trivial, by trivial, h1, h2, h3, rfl⟩

theorem newTime_small {old t : Nat} (h : t * 10 + unixEpoch < 2 ^ 63) :
    newTime old (some (ofMicro t)) = some (unixEpoch + 10 * t) := by
  have hq : quad (ofMicro t) = unixEpoch + 10 * t := by rw [micro_of]; omega
  unfold newTime
  dsimp only
  rw [hq, if_neg (by rw [epoch] at *; omega), if_neg (by omega)]

/-- The time `Copy` passes on is the time of the source, up to units of a microsecond. -/
theorem newTime_copy {old q v : Nat} (hq : q < 2 ^ 63) (ho : old = q) (h : newTime old (some (ofMicro (copyMicro (ofQuad q)))) = some v) :
    v ≤ q ∧ q < v + 10 := by
  subst ho
  have hc : copyMicro (ofQuad old) = ((old + 2 ^ 64 - 116444736000000000) % 2 ^ 64) / 10 := by
    have := quad_of (q := old) (by omega)
    unfold quad at this
    unfold copyMicro
    rw [this]
  have hm := micro_of (copyMicro (ofQuad old))
  rw [hc, epoch] at hm
  unfold newTime at h
  dsimp only at h
  rw [hc] at h
  split at h
  · have := Option.some.inj h; omega
  · split at h
    · cases h
    · have := Option.some.inj h; omega

end Verif.WinOps
