import Verif.WinOps.Lemmas

/-!
# `Copy`, `Move` and `Delete` with the names converted
-/

namespace Verif.WinOps
open Verif.WinOps.Spec

theorem fileInfo_some {os : Os} {fs : Fs} {w : List Nat} {i : Nat} {n : Node} (h : fileInfo os fs w = some (i, n)) :
    fs.name w = some i ∧ n = fs.node i ∧ os.deny (.info w) fs = false := by
  unfold fileInfo at h
  split at h
  · cases h
  · next hd =>
    cases hn : fs.name w with
    | none => rw [hn] at h; cases h
    | some j =>
      rw [hn] at h
      cases h
      exact ⟨rfl, rfl, Bool.eq_false_iff.2 hd⟩

/-- The files and names before and after a copy to `b` that leads to `j`: nothing else has changed. -/
structure Copied (fs fs' : Fs) (b : List Nat) (j : Nat) : Prop where
  here : fs'.name b = some j
  old : fs.name b = some j ∨ (fs.name b = none ∧ j = fs.next)
  names : ∀ v, v ≠ b → fs'.name v = fs.name v
  nodes : ∀ k, k ≠ j → fs'.node k = fs.node k

theorem Copied.only {fs fs' fs'' : Fs} {b : List Nat} {j : Nat} (h : Copied fs fs' b j) (h' : Only (some j) fs' fs'') :
    Copied fs fs'' b j :=
  ⟨by rw [h'.name]; exact h.here, h.old, fun v hv => by rw [h'.name]; exact h.names v hv,
    fun k hk => by rw [h'.node k (fun e => hk (Option.some.inj e).symm)]; exact h.nodes k hk⟩

/-- What `CopyFileW` does. -/
theorem copyFile_does (os : Os) (fs : Fs) (a b : List Nat) (hok : fs.Ok) :
    ((copyFile os fs a b).2 = true ∧ ∃ i j, fs.name a = some i ∧ i ≠ j ∧ Copied fs (copyFile os fs a b).1 b j ∧
        has (fs.node i) DIRECTORY = false ∧ (copyFile os fs a b).1.node j = copied os fs (fs.node i)) ∨
    ((copyFile os fs a b).2 = false ∧ ((copyFile os fs a b).1 = fs ∨ (os.deny (.copy a b) fs = true ∧ ∃ j d, Copied fs (copyFile os fs a b).1 b j ∧ fs.name a ≠ some j ∧
        (copyFile os fs a b).1.node j = unfinished os fs d (if fs.name b = none then 0#32 else (fs.node j).attrs)))) := by
  unfold copyFile
  cases ha : fs.name a with
  | none => exact .inr ⟨rfl, .inl rfl⟩
  | some i =>
    dsimp only
    cases hd : has (fs.node i) DIRECTORY with
    | true => exact .inr ⟨rfl, .inl rfl⟩
    | false =>
      rw [if_neg (by decide)]
      cases hb : fs.name b with
      | some j =>
        dsimp only
        split
        · exact .inr ⟨rfl, .inl rfl⟩
        · next hc =>
          have hij : i ≠ j := fun e => hc (by simp [e])
          cases hdy : os.deny (.copy a b) fs with
          | true =>
            rw [if_pos rfl]
            cases ht : os.torn fs with
            | none => exact .inr ⟨rfl, .inl rfl⟩
            | some d =>
              refine .inr ⟨rfl, .inr ⟨rfl, j, d, ⟨hb, .inl hb, fun _ _ => rfl, fun k hk => if_neg hk⟩, (fun e => hij (Option.some.inj e)), ?_⟩⟩
              rw [if_neg (by simp)]
              exact put_same _ _ _
          | false =>
            rw [if_neg (by decide)]
            exact .inl ⟨rfl, i, j, rfl, hij, ⟨hb, .inl hb, fun _ _ => rfl, fun k hk => if_neg hk⟩, hd, put_same _ _ _⟩
      | none =>
        dsimp only
        have hlt := hok.used a i ha
        have cop : ∀ n, Copied fs { (fs.bind b (some fs.next)).put fs.next n with next := fs.next + 1 } b fs.next := fun n =>
          ⟨if_pos rfl, .inr ⟨hb, rfl⟩, fun v hv => if_neg hv, fun k hk => if_neg hk⟩
        cases hdy : os.deny (.copy a b) fs with
        | true =>
          rw [if_pos rfl]
          cases ht : os.torn fs with
          | none => exact .inr ⟨rfl, .inl rfl⟩
          | some d =>
            refine .inr ⟨rfl, .inr ⟨rfl, fs.next, d, cop _, (fun e => by have := Option.some.inj e; omega), ?_⟩⟩
            rw [if_pos rfl]
            exact if_pos rfl
        | false =>
          rw [if_neg (by decide)]
          exact .inl ⟨rfl, i, fs.next, rfl, by omega, cop _, hd, if_pos rfl⟩

theorem Only.copied {fs fs' fs'' : Fs} {b : List Nat} {j : Nat} (h : Only (fs.name b) fs fs') (h' : Copied fs' fs'' b j) :
    Copied fs fs'' b j := by
  refine ⟨h'.here, ?_, fun v hv => (h'.names v hv).trans (by rw [h.name]), fun k hk => ?_⟩
  · have := h'.old
    rw [h.name, h.next] at this
    exact this
  · rw [h'.nodes k hk]
    refine h.node k ?_
    intro e
    rcases h'.old with ho | ⟨ho, _⟩
    · rw [h.name, e] at ho
      exact hk (Option.some.inj ho)
    · rw [h.name, e] at ho
      cases ho

theorem setAttrs_ok {os : Os} {fs : Fs} (hok : fs.Ok) (w : List Nat) (a : DWord) : (setAttrs os fs w a).1.Ok := by
  obtain ⟨h1, h2, h3⟩ := setAttrs_does os fs w a
  cases hn : fs.name w with
  | none => rw [h3 hn]; exact hok
  | some i =>
    rcases h2 i hn with ⟨_, _, h⟩ | ⟨_, h⟩
    · refine ⟨fun v k hv => ?_, fun k => ?_, fun k => ?_⟩
      · rw [h1.name] at hv
        rw [h1.next]
        exact hok.used v k hv
      · by_cases hk : k = i
        · subst hk
          rw [h]
          exact changed_normal _ _
        · rw [h1.node k (by rw [hn]; exact fun e => hk (Option.some.inj e).symm)]
          exact hok.normal k
      · by_cases hk : k = i
        · subst hk
          rw [h]
          exact hok.time k
        · rw [h1.node k (by rw [hn]; exact fun e => hk (Option.some.inj e).symm)]
          exact hok.time k
    · rw [h]; exact hok

theorem clear_reparse (a : DWord) : a &&& ~~~REPARSE &&& (DIRECTORY ||| REPARSE) = a &&& DIRECTORY := by
  rw [BitVec.and_assoc]
  rfl

/-- `Copy` that succeeds. -/
theorem copyWide_yes (os : Os) (fs : Fs) (a b : List Nat) (hok : fs.Ok) (h : (copyWide os fs a b).2 = true) :
    ∃ i j, fs.name a = some i ∧ i ≠ j ∧ Copied fs (copyWide os fs a b).1 b j ∧ has (fs.node i) DIRECTORY = false ∧
      ((copyWide os fs a b).1.node j).data = (fs.node i).data ∧
      ((copyWide os fs a b).1.node j).attrs = (fs.node i).attrs &&& ~~~REPARSE ∧
      ((copyWide os fs a b).1.node j).written ≤ (fs.node i).written ∧
      (fs.node i).written < ((copyWide os fs a b).1.node j).written + 10 := by
  unfold copyWide at h ⊢
  cases hf : fileInfo os fs a with
  | none => rw [hf] at h; cases h
  | some p =>
    obtain ⟨i, n⟩ := p
    rw [hf] at h
    obtain ⟨hi, rfl, _⟩ := fileInfo_some hf
    dsimp only at h ⊢
    cases hs : sameFile os fs i (fs.node i) b with
    | true => rw [hs] at h; cases h
    | false =>
      rw [hs] at h
      simp only [Bool.false_eq_true, if_false] at h ⊢
      generalize hb : afterCopy _ _ _ = att at h ⊢
      obtain ⟨o1, _, _⟩ := setAttrs_does os fs b NORMAL
      have ok1 := setAttrs_ok (os := os) hok b NORMAL
      generalize hfs1 : (setAttrs os fs b NORMAL).1 = fs1 at *
      cases hr : (copyFile os fs1 a b).2 with
      | false => rw [hr] at h; cases h
      | true =>
        rw [if_pos rfl]
        rw [hr] at hb
        have hb : att = told (fs.node i).attrs := hb.symm
        rcases copyFile_does os fs1 a b ok1 with ⟨_, i', j, hi', hij, hc, hdir, hnode⟩ | ⟨hf', _⟩
        · rw [o1.name, hi] at hi'
          cases hi'
          have hc0 := o1.copied hc
          -- the source was not touched
          have hsrc : fs1.node i = fs.node i := by
            refine o1.node i ?_
            intro e
            rcases hc0.old with ho | ⟨ho, _⟩
            · rw [e] at ho; exact hij (Option.some.inj ho)
            · rw [e] at ho; cases ho
          rw [hsrc] at hnode hdir
          generalize hfs2 : (copyFile os fs1 a b).1 = fs2 at *
          obtain ⟨o3, h3, _⟩ := setAttrs_does os fs2 b att
          rw [hc.here] at o3
          have hnode3 : (setAttrs os fs2 b att).1.node j = copied os fs1 (fs.node i) := by
            rcases h3 j hc.here with ⟨_, _, h3⟩ | ⟨_, h3⟩
            · rw [h3, hnode, hb]
              have hz : (fs.node i).attrs &&& DIRECTORY = 0#32 := by simpa [has] using hdir
              have : changed ((fs.node i).attrs &&& ~~~REPARSE) (told (fs.node i).attrs) = (fs.node i).attrs &&& ~~~REPARSE := by
                have hn := hok.normal i
                have h2 : told (fs.node i).attrs &&& ~~~(DIRECTORY ||| REPARSE ||| NORMAL) =
                    (fs.node i).attrs &&& ~~~(DIRECTORY ||| REPARSE ||| NORMAL) := by
                  unfold told
                  split
                  · next e => rw [e]; decide
                  · rfl
                unfold changed
                rw [h2, clear_reparse, hz]
                apply BitVec.eq_of_getLsbD_eq
                intro k hk
                have h1 := bit_zero hn k
                have h2 := bit_zero hz k
                simp only [BitVec.getLsbD_or, BitVec.getLsbD_and, BitVec.getLsbD_not, BitVec.getLsbD_zero, hk, decide_true, Bool.true_and] at h1 h2 ⊢
                generalize (fs.node i).attrs.getLsbD k = x at h1 h2 ⊢
                generalize DIRECTORY.getLsbD k = d at h1 h2 ⊢
                generalize REPARSE.getLsbD k = r at h1 h2 ⊢
                generalize NORMAL.getLsbD k = n at h1 h2 ⊢
                revert h1 h2
                revert x d r n
                decide
              unfold copied
              dsimp only
              rw [this]
            · rw [h3]; exact hnode
          generalize hfs3 : (setAttrs os fs2 b att).1 = fs3 at *
          have hname3 : fs3.name b = some j := by rw [o3.name]; exact hc.here
          rcases setFileTimesWide_does os fs3 none none (some (copyMicro (ofQuad (fs.node i).written))) b with
            ⟨_, h4, _⟩ | ⟨_, i4, c', a', u', n1, _, _, _, n2, n3, n4, n5⟩
          · rw [h4]
            refine ⟨i, j, hi, hij, hc0.only o3, hdir, ?_, ?_, ?_, ?_⟩ <;> rw [hnode3] <;> simp [copied]
          · rw [hname3] at n1
            cases n1
            rw [n5]
            have ht := hok.time i
            rw [hnode3] at n4
            obtain ⟨t1, t2⟩ := newTime_copy ht.2.2 rfl n4
            refine ⟨i, j, hi, hij, (hc0.only o3).only (only_put _ _ _), hdir, ?_, ?_, ?_, ?_⟩ <;>
              rw [put_same] <;> dsimp only
            · rw [hnode3]; rfl
            · rw [hnode3]; rfl
            · exact t1
            · exact t2
        · rw [hr] at hf'; cases hf'

/-- `Copy` that fails: the source, other files and other names are as before. -/
theorem copyWide_no (os : Os) (fs : Fs) (a b : List Nat) (hok : fs.Ok) (h : (copyWide os fs a b).2 = false) :
    (∀ v, v ≠ b → (copyWide os fs a b).1.name v = fs.name v) ∧
    (∀ k, fs.name b = some k → (copyWide os fs a b).1.name b = some k) ∧
    (∀ k, k < fs.next → fs.name b ≠ some k → (copyWide os fs a b).1.node k = fs.node k) ∧
    (∀ k, fs.name b = some k → (os.deny (.copy a b) (setAttrs os fs b NORMAL).1 = false ∨ fs.name a = some k) →
      ∃ at', (copyWide os fs a b).1.node k = { fs.node k with attrs := at' }) ∧
    (∀ k, fs.name b = some k → (∀ s, os.deny (.attrs b) s = false) → (∀ s x, os.deny (.setAttrs b x) s = false) →
      ((copyWide os fs a b).1.node k).attrs = (fs.node k).attrs) := by
  unfold copyWide at h ⊢
  cases hf : fileInfo os fs a with
  | none => exact ⟨fun _ _ => rfl, fun _ h => h, fun _ _ _ => rfl, fun k _ _ => ⟨_, rfl⟩, fun _ _ _ _ => rfl⟩
  | some p =>
    obtain ⟨i, n⟩ := p
    rw [hf] at h
    obtain ⟨hi, rfl, _⟩ := fileInfo_some hf
    dsimp only at h ⊢
    cases hs : sameFile os fs i (fs.node i) b with
    | true => exact ⟨fun _ _ => rfl, fun _ h => h, fun _ _ _ => rfl, fun k _ _ => ⟨_, rfl⟩, fun _ _ _ _ => rfl⟩
    | false =>
      rw [hs] at h
      simp only [Bool.false_eq_true, if_false] at h ⊢
      generalize hb : afterCopy _ _ _ = att at h ⊢
      obtain ⟨o1, h1, h1'⟩ := setAttrs_does os fs b NORMAL
      have ok1 := setAttrs_ok (os := os) hok b NORMAL
      generalize hfs1 : (setAttrs os fs b NORMAL).1 = fs1 at *
      cases hr : (copyFile os fs1 a b).2 with
      | true => rw [hr] at h; cases h
      | false =>
        rw [if_neg (by decide)]
        rw [hr] at hb
        have hb : att = (match getAttrs os fs b with | some a => a | none => NORMAL) := hb.symm
        -- all cases together: the file system after the copy
        have key : ∃ fs2, (copyFile os fs1 a b).1 = fs2 ∧ (∀ v, v ≠ b → fs2.name v = fs.name v) ∧
            (∀ k, fs.name b = some k → fs2.name b = some k) ∧
            (∀ k, k < fs.next → fs.name b ≠ some k → fs2.node k = fs.node k ∧ fs2.name b ≠ some k) ∧
            (∀ k, fs.name b = some k → (os.deny (.copy a b) fs1 = false ∨ fs.name a = some k) → ∃ at', fs2.node k = { fs.node k with attrs := at' }) ∧
            (∀ k, fs.name b = some k → (fs2.node k).attrs = (fs1.node k).attrs) := by
          refine ⟨_, rfl, ?_⟩
          have base : ∀ k, fs.name b = some k → ∃ at', fs1.node k = { fs.node k with attrs := at' } := by
            intro k hk
            rcases h1 k hk with ⟨_, _, e⟩ | ⟨_, e⟩
            · exact ⟨_, e⟩
            · rw [e] at hfs1
              rw [← hfs1]
              exact ⟨_, rfl⟩
          rcases copyFile_does os fs1 a b ok1 with ⟨ht, _⟩ | ⟨_, e | ⟨hdeny, j, d, hc, hne, hnode⟩⟩
          · rw [hr] at ht; cases ht
          · rw [e]
            exact ⟨fun v _ => by rw [o1.name], fun k hk => by rw [o1.name]; exact hk,
              fun k _ hk => ⟨o1.node k hk, by rw [o1.name]; exact hk⟩, fun k hk _ => base k hk, fun _ _ => rfl⟩
          · have hc0 := o1.copied hc
            rw [o1.name] at hne hnode
            have hj : ∀ k, fs.name b = some k → k = j := by
              intro k hk
              rcases hc0.old with ho | ⟨ho, _⟩
              · rw [hk] at ho; exact Option.some.inj ho
              · rw [hk] at ho; cases ho
            refine ⟨hc0.names, fun k hk => by rw [hj k hk]; exact hc0.here, fun k hk hb' => ?_, fun k hk hd => ?_, fun k hk => ?_⟩
            · have hkj : k ≠ j := by
                rintro rfl
                rcases hc0.old with ho | ⟨_, ho⟩
                · exact hb' ho
                · omega
              exact ⟨hc0.nodes k hkj, by rw [hc0.here]; exact fun e => hkj (Option.some.inj e).symm⟩
            · rcases hd with hd | hd
              · rw [hdeny] at hd; cases hd
              · rw [hj k hk] at hd; exact absurd hd hne
            · rw [hj k hk, hnode, if_neg (by rw [hk]; simp)]
              rfl
        obtain ⟨fs2, e2, k1, k2, k3, k4, k5⟩ := key
        rw [e2]
        obtain ⟨o3, h3, _⟩ := setAttrs_does os fs2 b att
        refine ⟨fun v hv => by rw [o3.name]; exact k1 v hv, fun k hk => by rw [o3.name]; exact k2 k hk,
          fun k hk hb' => ?_, fun k hk hd => ?_, fun k hk hd1 hd2 => ?_⟩
        · obtain ⟨e, hne⟩ := k3 k hk hb'
          rw [o3.node k hne]
          exact e
        · obtain ⟨at', e⟩ := k4 k hk hd
          rcases h3 k (k2 k hk) with ⟨_, _, e3⟩ | ⟨_, e3⟩
          · rw [e3, e]
            exact ⟨_, rfl⟩
          · rw [e3]
            exact ⟨_, e⟩
        · rcases h3 k (k2 k hk) with ⟨_, _, e3⟩ | ⟨e3, _⟩
          · rw [e3]
            dsimp only
            have hat : att = told (fs.node k).attrs := by
              rw [hb]
              unfold getAttrs Fs.find
              rw [hd1 fs, hk]
              rfl
            have h1k : (fs1.node k).attrs = changed (fs.node k).attrs NORMAL := by
              rcases h1 k hk with ⟨_, _, e⟩ | ⟨e, _⟩
              · rw [e]
              · rw [hd2] at e; cases e
            rw [hat, k5 k hk, h1k]
            exact changed_told (hok.normal k) (changed_kind _ _)
          · rw [hd2] at e3; cases e3

end Verif.WinOps
