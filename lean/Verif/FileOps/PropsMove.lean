import Verif.FileOps.Props

/-!
# Property theorems: copying and moving whole files (C75)
-/

namespace Verif.FileOps
open Verif.Path Verif.Path.Spec
open Verif.Utf8.Spec
open Verif.File (Cell)

/-- Names lead to files that exist, and new files get new numbers. -/
def Fs.Ok (fs : Fs) : Prop := ∀ p i, fs.names p = some i → i < fs.fresh ∧ (fs.nodes i).isSome

theorem set_same {α β : Type} [DecidableEq α] (f : α → β) (a : α) (b : β) : set f a b a = b := if_pos rfl

theorem set_other {α β : Type} [DecidableEq α] (f : α → β) {a x : α} (b : β) (h : x ≠ a) : set f a b x = f x :=
  if_neg h

theorem copy_yes {E E' : Env} {f g : List Nat} (rest rest' : List Nat) (o : Outcome) (fs : Fs) (hf : 0 ∉ f)
    (hg : 0 ∉ g) (hj : E.junk.length = 8192) (hj' : E'.junk.length = 8192) (ha : Accepted E.sgn 8192 f)
    (ha' : Accepted E'.sgn 8192 g) :
    copy E E' o fs (f ++ 0 :: rest) (g ++ 0 :: rest') = copyFs o fs (slashed f) (slashed g) := by
  obtain ⟨tl, h⟩ := platform_yes rest hf hj ha
  obtain ⟨tl', h'⟩ := platform_yes rest' hg hj' ha'
  unfold copy
  rw [h, ok_bind]
  dsimp only [Bool.not_true]
  rw [if_neg (by decide), h', ok_bind]
  dsimp only [Bool.not_true]
  rw [if_neg (by decide), cstr_ok _ _ (slashed_no_zero hf), ok_bind, cstr_ok _ _ (slashed_no_zero hg), ok_bind]

/-- Copying a file onto itself, also under another of its names, is refused and changes nothing. -/
theorem copy_self (E E' : Env) (o : Outcome) (fs : Fs) (f g rest rest' : List Nat) (hf : 0 ∉ f) (hg : 0 ∉ g)
    (hj : E.junk.length = 8192) (hj' : E'.junk.length = 8192) (ha : Accepted E.sgn 8192 f)
    (ha' : Accepted E'.sgn 8192 g) (h : fs.names (slashed g) = fs.names (slashed f)) :
    copy E E' o fs (f ++ 0 :: rest) (g ++ 0 :: rest') = .ok (fs, false) := by
  rw [copy_yes rest rest' o fs hf hg hj hj' ha ha']
  unfold copyFs Fs.lookup
  cases hi : fs.names (slashed f) with
  | none => rfl
  | some i =>
    dsimp only
    cases hn : fs.nodes i with
    | none => rfl
    | some n =>
      dsimp only
      split
      · rfl
      · rw [h, hi, if_pos rfl]

/-- The file a copy writes to is not the source. -/
theorem create_ok {fs : Fs} {p q : List Nat} {i : Nat} {src : Node} (mode : Nat) (ho : fs.Ok)
    (hp : fs.lookup p = some (i, src)) (hq : fs.names q ≠ some i) :
    (fs.create q mode).2.1 ≠ i ∧ (fs.create q mode).1.names q = some (fs.create q mode).2.1 ∧
    (fs.create q mode).1.nodes (fs.create q mode).2.1 = some (fs.create q mode).2.2 ∧
    (∀ r, r ≠ q → (fs.create q mode).1.names r = fs.names r) ∧
    (∀ k, k ≠ (fs.create q mode).2.1 → (fs.create q mode).1.nodes k = fs.nodes k) ∧ p ≠ q ∧
    (fs.names q = none → (fs.create q mode).2.2.data = []) ∧
    (∀ n, fs.lookup q = some n → (fs.create q mode).2 = n) := by
  have hpi : fs.names p = some i ∧ fs.nodes i = some src := by
    unfold Fs.lookup at hp
    cases h1 : fs.names p with
    | none => rw [h1] at hp; cases hp
    | some j =>
      rw [h1] at hp
      dsimp only at hp
      cases h2 : fs.nodes j with
      | none => rw [h2] at hp; cases hp
      | some n => rw [h2] at hp; cases hp; exact ⟨rfl, h2⟩
  have hpq : p ≠ q := by rintro rfl; exact hq hpi.1
  unfold Fs.create
  cases hl : fs.lookup q with
  | none =>
    dsimp only
    refine ⟨?_, set_same _ _ _, set_same _ _ _, fun r hr => set_other _ _ hr, fun k hk => set_other _ _ hk, hpq,
      fun _ => rfl, fun n h => nomatch h⟩
    have := (ho p i hpi.1).1
    omega
  | some x =>
    obtain ⟨j, n⟩ := x
    dsimp only
    unfold Fs.lookup at hl
    cases h1 : fs.names q with
    | none => rw [h1] at hl; cases hl
    | some k =>
      rw [h1] at hl
      dsimp only at hl
      cases h2 : fs.nodes k with
      | none => rw [h2] at hl; cases hl
      | some m =>
        rw [h2] at hl
        cases hl
        exact ⟨fun e => hq (by rw [h1, e]), rfl, h2, fun _ _ => rfl, fun _ _ => rfl, hpq,
          (fun e => nomatch e), fun n h => by cases h; rfl⟩

/-- What a copy changes, whatever the system does: nothing, or the file of the destination name only. -/
theorem copyFs_frame {o : Outcome} {fs fs' : Fs} {p q : List Nat} {b : Bool} (ho : fs.Ok)
    (h : copyFs o fs p q = .ok (fs', b)) :
    (∀ r, r ≠ q → fs'.lookup r = fs.lookup r ∨ fs.names r = fs.names q) ∧ fs'.lookup p = fs.lookup p ∧
    (∀ r, r ≠ q → fs'.names r = fs.names r) := by
  unfold copyFs at h
  cases hp : fs.lookup p with
  | none => rw [hp] at h; cases h; exact ⟨fun _ _ => Or.inl rfl, hp, fun _ _ => rfl⟩
  | some x =>
    obtain ⟨i, src⟩ := x
    rw [hp] at h
    dsimp only at h
    split at h
    · cases h; exact ⟨fun _ _ => Or.inl rfl, hp, fun _ _ => rfl⟩
    split at h
    · cases h; exact ⟨fun _ _ => Or.inl rfl, hp, fun _ _ => rfl⟩
    next hq =>
    split at h
    · cases h; exact ⟨fun _ _ => Or.inl rfl, hp, fun _ _ => rfl⟩
    obtain ⟨c1, c2, c3, c4, c5, c6, c7, c8⟩ := create_ok src.mode ho hp hq
    have look : ∀ (r : List Nat) (g : Fs), (∀ r, r ≠ q → g.names r = fs.names r) →
        (∀ k, k ≠ (fs.create q src.mode).2.1 → g.nodes k = fs.nodes k) → r ≠ q →
        fs.names r ≠ some (fs.create q src.mode).2.1 → g.lookup r = fs.lookup r := by
      intro r g g1 g2 hr hn
      unfold Fs.lookup
      rw [g1 r hr]
      cases hx : fs.names r with
      | none => rfl
      | some k => dsimp only; rw [g2 k (fun e => hn (by rw [hx, e]))]
    have hpi : fs.names p = some i := by
      unfold Fs.lookup at hp
      cases h1 : fs.names p with
      | none => rw [h1] at hp; cases hp
      | some j =>
        rw [h1] at hp
        dsimp only at hp
        cases h2 : fs.nodes j with
        | none => rw [h2] at hp; cases hp
        | some n => rw [h2] at hp; cases hp; rfl
    have all : ∀ g : Fs, (∀ r, r ≠ q → g.names r = fs.names r) →
        (∀ k, k ≠ (fs.create q src.mode).2.1 → g.nodes k = fs.nodes k) →
        (∀ r, r ≠ q → g.lookup r = fs.lookup r ∨ fs.names r = fs.names q) ∧ g.lookup p = some (i, src) ∧
          ∀ r, r ≠ q → g.names r = fs.names r := by
      intro g g1 g2
      refine ⟨fun r hr => ?_, ?_, g1⟩
      · by_cases hn : fs.names r = some (fs.create q src.mode).2.1
        · refine Or.inr ?_
          cases hl : fs.lookup q with
          | none =>
            exfalso
            have hcr : (fs.create q src.mode).2.1 = fs.fresh := by unfold Fs.create; rw [hl]
            rw [hcr] at hn
            exact absurd (ho r _ hn).1 (Nat.lt_irrefl _)
          | some x =>
            rw [hn, c8 x hl]
            unfold Fs.lookup at hl
            cases h1 : fs.names q with
            | none => rw [h1] at hl; cases hl
            | some j =>
              rw [h1] at hl
              dsimp only at hl
              cases h2 : fs.nodes j with
              | none => rw [h2] at hl; cases hl
              | some n => rw [h2] at hl; cases hl; rfl
        · exact Or.inl (look r g g1 g2 hr hn)
      · rw [look p g g1 g2 c6 (fun e => c1 (by rw [hpi] at e; cases e; rfl)), hp]
    split at h
    · cases h; exact ⟨fun _ _ => Or.inl rfl, hp, fun _ _ => rfl⟩
    · cases h; exact all _ c4 c5
    · cases hc : File.copy src.data (fs.create q src.mode).2.2.data o.reads o.writes (src.data.length + 1) with
      | error e => rw [hc] at h; cases h
      | ok data =>
        rw [hc, ok_bind] at h
        cases h
        refine all _ c4 (fun k hk => ?_)
        dsimp only
        rw [set_other _ _ hk]
        exact c5 k hk

/-- C75: a copy leaves its source and every file but the destination's as they were, whatever the system
does and whatever the result. -/
theorem copy_frame (E E' : Env) (o : Outcome) (fs fs' : Fs) (f g rest rest' : List Nat) (b : Bool) (hf : 0 ∉ f)
    (hg : 0 ∉ g) (hj : E.junk.length = 8192) (hj' : E'.junk.length = 8192) (ha : Accepted E.sgn 8192 f)
    (ha' : Accepted E'.sgn 8192 g) (ho : fs.Ok)
    (h : copy E E' o fs (f ++ 0 :: rest) (g ++ 0 :: rest') = .ok (fs', b)) :
    fs'.lookup (slashed f) = fs.lookup (slashed f) ∧
    ∀ r, r ≠ slashed g → fs.names r ≠ fs.names (slashed g) → fs'.lookup r = fs.lookup r := by
  rw [copy_yes rest rest' o fs hf hg hj hj' ha ha'] at h
  obtain ⟨h1, h2, -⟩ := copyFs_frame ho h
  exact ⟨h2, fun r hr hn => (h1 r hr).resolve_right hn⟩

/-- What a copy needs to begin: a regular source, another destination, and both opened. -/
def CanCopy (o : Outcome) (fs : Fs) (p q : List Nat) : Prop :=
  ∃ i src, fs.lookup p = some (i, src) ∧ src.regular = true ∧ fs.names q ≠ some i ∧ o.openSrc = true ∧ o.openDst = .ok

theorem copyFs_answer {o : Outcome} {fs fs' : Fs} {p q : List Nat} {b : Bool} (h : copyFs o fs p q = .ok (fs', b)) :
    b = true ↔ CanCopy o fs p q := by
  unfold CanCopy
  unfold copyFs at h
  cases hp : fs.lookup p with
  | none =>
    rw [hp] at h
    cases h
    exact ⟨(fun h => nomatch h), fun ⟨i, src, h, _⟩ => nomatch h⟩
  | some x =>
    obtain ⟨i, src⟩ := x
    rw [hp] at h
    dsimp only at h
    have no : ∀ {X : Prop}, (∀ i' src', some (i, src) = some (i', src') → src'.regular = true → fs.names q ≠ some i' →
        o.openSrc = true → o.openDst = .ok → False) → b = false → (b = true ↔ ∃ i' src', some (i, src) = some (i', src') ∧
        src'.regular = true ∧ fs.names q ≠ some i' ∧ o.openSrc = true ∧ o.openDst = .ok) := by
      intro _ hn hb
      rw [hb]
      exact ⟨(fun h => nomatch h), fun ⟨i', src', h1, h2, h3, h4, h5⟩ => absurd (hn i' src' h1 h2 h3 h4 h5) id⟩
    split at h
    · next hr =>
      cases h
      exact no (X := True) (fun i' src' e h2 => by cases e; rw [h2] at hr; cases hr) rfl
    split at h
    · next hq =>
      cases h
      exact no (X := True) (fun i' src' e _ h3 => by cases e; exact absurd hq h3) rfl
    split at h
    · next ho =>
      cases h
      exact no (X := True) (fun i' src' e _ _ h4 => by rw [h4] at ho; cases ho) rfl
    next hr hq ho =>
    split at h
    · next hd =>
      cases h
      exact no (X := True) (fun i' src' e _ _ _ h5 => by rw [hd] at h5; cases h5) rfl
    · next hd =>
      cases h
      exact no (X := True) (fun i' src' e _ _ _ h5 => by rw [hd] at h5; cases h5) rfl
    · next hd =>
      cases hc : File.copy src.data (fs.create q src.mode).2.2.data o.reads o.writes (src.data.length + 1) with
      | error e => rw [hc] at h; cases h
      | ok data =>
        rw [hc, ok_bind] at h
        cases h
        exact ⟨fun _ => ⟨i, src, rfl, by simpa using hr, hq, by simpa using ho, hd⟩, fun _ => rfl⟩

/-- C75: a copy says yes exactly if the source is a regular file other than the destination and both can
be opened. -/
theorem copy_answer (E E' : Env) (o : Outcome) (fs fs' : Fs) (f g rest rest' : List Nat) (b : Bool) (hf : 0 ∉ f)
    (hg : 0 ∉ g) (hj : E.junk.length = 8192) (hj' : E'.junk.length = 8192) (ha : Accepted E.sgn 8192 f)
    (ha' : Accepted E'.sgn 8192 g)
    (h : copy E E' o fs (f ++ 0 :: rest) (g ++ 0 :: rest') = .ok (fs', b)) :
    b = true ↔ CanCopy o fs (slashed f) (slashed g) := by
  rw [copy_yes rest rest' o fs hf hg hj hj' ha ha'] at h
  exact copyFs_answer h

/-- The system grants everything. -/
def good : Outcome := ⟨true, .ok, [], [], true, true, true⟩

theorem lookup_iff {fs : Fs} {p : List Nat} {i : Nat} {n : Node} :
    fs.lookup p = some (i, n) ↔ fs.names p = some i ∧ fs.nodes i = some n := by
  unfold Fs.lookup
  cases h1 : fs.names p with
  | none => exact ⟨(fun h => nomatch h), fun h => nomatch h.1⟩
  | some j =>
    dsimp only
    cases h2 : fs.nodes j with
    | none =>
      refine ⟨(fun h => nomatch h), fun h => ?_⟩
      cases h.1
      rw [h2] at h
      exact nomatch h.2
    | some m =>
      constructor
      · intro h; cases h; exact ⟨rfl, h2⟩
      · rintro ⟨h3, h4⟩
        cases h3
        rw [h2] at h4
        cases h4
        rfl

theorem copyFs_runs {fs : Fs} {p q : List Nat} {i : Nat} {src : Node} {o : Outcome} (ho : fs.Ok)
    (hp : fs.lookup p = some (i, src)) (hr : src.regular = true) (hq : fs.names q ≠ some i) (h1 : o.openSrc = true)
    (h2 : o.openDst = .ok) (data : List Cell)
    (hc : File.copy src.data (fs.create q src.mode).2.2.data o.reads o.writes (src.data.length + 1) = .ok data) :
    ∃ fs' j n, copyFs o fs p q = .ok (fs', true) ∧ fs'.lookup q = some (j, clone o src n) ∧ n.data = data := by
  obtain ⟨c1, c2, c3, -⟩ := create_ok src.mode ho hp hq
  refine ⟨{ (fs.create q src.mode).1 with nodes := (set (fs.create q src.mode).1.nodes (fs.create q src.mode).2.1
        (some (clone o src { (fs.create q src.mode).2.2 with data := data, mtime := (fs.create q src.mode).1.now }))) },
    (fs.create q src.mode).2.1, { (fs.create q src.mode).2.2 with data := data, mtime := (fs.create q src.mode).1.now },
    ?_, ?_, rfl⟩
  · unfold copyFs
    rw [hp]
    dsimp only
    rw [hr, h1, h2]
    dsimp only [Bool.not_true]
    rw [if_neg (by decide), if_neg hq, if_neg (by decide), hc, ok_bind]
  · rw [lookup_iff]
    exact ⟨c2, set_same _ _ _⟩

theorem clone_data (o : Outcome) (src n : Node) : (clone o src n).data = n.data := by
  unfold clone
  dsimp only
  cases o.chown <;> cases o.chmod <;> cases o.utime <;> rfl

/-- C75 (partial): if the system grants everything and the length is a multiple of 8192, the copy has the
contents, owner and permissions of the source, and its modification time up to the second.  Missing:
other lengths (`copy_pads`). -/
theorem copy_true_partial (E E' : Env) (fs : Fs) (f g rest rest' : List Nat) (i : Nat) (src : Node) (bs : List UInt8)
    (hf : 0 ∉ f) (hg : 0 ∉ g) (hj : E.junk.length = 8192) (hj' : E'.junk.length = 8192)
    (ha : Accepted E.sgn 8192 f) (ha' : Accepted E'.sgn 8192 g) (ho : fs.Ok)
    (hp : fs.lookup (slashed f) = some (i, src)) (hr : src.regular = true) (hq : fs.names (slashed g) ≠ some i)
    (hd : src.data = bs.map some) (hl : bs.length + 8192 < 2 ^ 63) (h8 : 8192 ∣ bs.length)
    (hold : ∀ j n, fs.lookup (slashed g) = some (j, n) → n.data.length < 2 ^ 63) :
    ∃ fs' j n, copy E E' good fs (f ++ 0 :: rest) (g ++ 0 :: rest') = .ok (fs', true) ∧
      fs'.lookup (slashed g) = some (j, n) ∧ n.data = src.data ∧ n.uid = src.uid ∧ n.gid = src.gid ∧
      n.mode = src.mode ∧ n.mtime = src.mtime / 1000000000 * 1000000000 := by
  have hc : File.copy src.data (fs.create (slashed g) src.mode).2.2.data [] [] (src.data.length + 1)
      = .ok (bs.map some) := by
    rw [hd, List.length_map]
    refine File.copy_exact_partial bs _ hl ?_ _ (by omega) h8
    unfold Fs.create
    cases hx : fs.lookup (slashed g) with
    | none => exact (by decide : (0 : Nat) < 2 ^ 63)
    | some x => obtain ⟨j, n⟩ := x; exact hold j n hx
  obtain ⟨fs', j, n, e1, e2, e3⟩ := copyFs_runs (o := good) ho hp hr hq rfl rfl _ hc
  refine ⟨fs', j, clone good src n, ?_, e2, ?_, rfl, rfl, rfl, rfl⟩
  · rw [copy_yes rest rest' good fs hf hg hj hj' ha ha', e1]
  · rw [clone_data, e3, hd]

theorem copyFs_pads {fs : Fs} {p q : List Nat} {i : Nat} {src : Node} {bs : List UInt8} (ho : fs.Ok)
    (hp : fs.lookup p = some (i, src)) (hr : src.regular = true) (hq : fs.names q ≠ some i)
    (hd : src.data = bs.map some) (hl : bs.length + 8192 < 2 ^ 63) (h8 : ¬ 8192 ∣ bs.length)
    (hold : ∀ j n, fs.lookup q = some (j, n) → n.data.length < 2 ^ 63) :
    ∃ fs' j n, copyFs good fs p q = .ok (fs', true) ∧ fs'.lookup q = some (j, n) ∧ n.data ≠ src.data := by
  have hold' : (fs.create q src.mode).2.2.data.length < 2 ^ 63 := by
    unfold Fs.create
    cases hx : fs.lookup q with
    | none => exact (by decide : (0 : Nat) < 2 ^ 63)
    | some x => obtain ⟨j, n⟩ := x; exact hold j n hx
  obtain ⟨r, g1, -⟩ := File.copy_does bs (fs.create q src.mode).2.2.data hl hold' (bs.length + 1) (by omega)
  have hw := File.copy_wrong bs (fs.create q src.mode).2.2.data hl hold' (bs.length + 1) (by omega) h8
  obtain ⟨fs', j, n, e1, e2, e3⟩ := copyFs_runs (o := good) ho hp hr hq rfl rfl r (by
    rw [hd, List.length_map]; exact g1)
  refine ⟨fs', j, clone good src n, e1, e2, ?_⟩
  rw [clone_data, e3, hd]
  intro e
  exact hw (by rw [g1, e])

/-- C75, negation: whatever else is granted, a file whose length is not a multiple of 8192 is not copied
exactly, and the answer is yes. -/
theorem copy_pads (E E' : Env) (fs : Fs) (f g rest rest' : List Nat) (i : Nat) (src : Node) (bs : List UInt8)
    (hf : 0 ∉ f) (hg : 0 ∉ g) (hj : E.junk.length = 8192) (hj' : E'.junk.length = 8192)
    (ha : Accepted E.sgn 8192 f) (ha' : Accepted E'.sgn 8192 g) (ho : fs.Ok)
    (hp : fs.lookup (slashed f) = some (i, src)) (hr : src.regular = true) (hq : fs.names (slashed g) ≠ some i)
    (hd : src.data = bs.map some) (hl : bs.length + 8192 < 2 ^ 63) (h8 : ¬ 8192 ∣ bs.length)
    (hold : ∀ j n, fs.lookup (slashed g) = some (j, n) → n.data.length < 2 ^ 63) :
    ∃ fs' j n, copy E E' good fs (f ++ 0 :: rest) (g ++ 0 :: rest') = .ok (fs', true) ∧
      fs'.lookup (slashed g) = some (j, n) ∧ n.data ≠ src.data := by
  rw [copy_yes rest rest' good fs hf hg hj hj' ha ha']
  exact copyFs_pads ho hp hr hq hd hl h8 hold

/-! ## The disk is full -/

/-- The loop of `Copy` when no write succeeds. -/
theorem copyLoop_full (src : List Cell) (hs : src.length + 8192 < 2 ^ 63) :
    ∀ (fuel n m : Nat) (f d : File.F Cell) (buf : List Cell), File.Ok f ⟨src, m⟩ → f.rd = true → buf.length = 8192 →
    d.opened = true → d.wr = true → src.length - m < fuel → fuel ≤ n →
    ∃ f', File.copyLoop fuel [] (List.replicate n [.fail]) f d buf = .ok (f', d)
  | 0, n, m, f, d, buf, _, _, _, _, _, hf, _ => by omega
  | fuel + 1, n, m, f, d, buf, hok, hr, hb, hop, hw, hf, hn => by
    obtain ⟨h1, h2, h3, h4⟩ := File.read_full hok hr 8192
    dsimp only at h1 h2
    have hm : m ≤ src.length := hok.le
    obtain ⟨k, rfl⟩ : ∃ k, n = k + 1 := ⟨n - 1, by omega⟩
    unfold File.copyLoop
    rw [show ([] : List (List File.Sys)).headD [] = [] from rfl, List.replicate_succ]
    dsimp only
    rw [h1]
    have hbl : ((src.drop m).take 8192).length = min 8192 (src.length - m) := by simp
    cases hbs : (src.drop m).take 8192 with
    | nil => exact ⟨_, rfl⟩
    | cons x bs =>
      have hbl2 := hbl
      rw [hbs] at hbl2
      simp only [List.length_cons] at hbl2
      dsimp only
      rw [File.memcpyTo_ok _ _ _ _ (by simp) (by omega), ok_bind]
      have hwr : ∀ b : List Cell, File.write d b 0 8192 [.fail] = .ok (.failed 0, d) := by
        intro b
        unfold File.write
        rw [hop, hw]
        rfl
      rw [show (([File.Sys.fail] :: List.replicate k [File.Sys.fail]).headD []) = [File.Sys.fail] from rfl, hwr, ok_bind]
      exact copyLoop_full src hs fuel k (m + min 8192 (src.length - m)) _ d _ h2 (by rw [h3, hr])
        (by simp; omega) hop hw (by omega) (by omega)

theorem file_copy_full (bs : List UInt8) (old : List Cell) (hl : bs.length + 8192 < 2 ^ 63) (ho : old.length < 2 ^ 63)
    (fuel : Nat) (hf : bs.length < fuel) :
    File.copy (bs.map some) old [] (List.replicate fuel [.fail]) fuel = .ok [] := by
  have hb : (List.replicate 8192 (none : Cell)).length = 8192 := List.length_replicate
  have ho1 : File.openFile (File.F.fresh : File.F Cell) 0 .both true (some (bs.map some)) true =
    (true, (File.openFile (File.F.fresh : File.F Cell) 0 .both true (some (bs.map some)) true).2) := rfl
  have ho2 : File.openFile (File.F.fresh : File.F Cell) 1 .none true (some old) true =
    (true, (File.openFile (File.F.fresh : File.F Cell) 1 .none true (some old) true).2) := rfl
  have hopen : (File.openFile (File.F.fresh : File.F Cell) 1 .none true (some old) true).2.opened = true := rfl
  unfold File.copy
  generalize (File.openFile (File.F.fresh : File.F Cell) 0 .both true (some (bs.map some)) true).2 = f0 at ho1 ⊢
  generalize (File.openFile (File.F.fresh : File.F Cell) 1 .none true (some old) true).2 = d0 at ho2 hopen ⊢
  generalize List.replicate 8192 (none : Cell) = buf at hb ⊢
  obtain ⟨h1, h2, h3, h4, h5⟩ := File.open_ready (File.F.fresh : File.F Cell) 0 .both true true (bs.map some)
    (by simp; omega) _ ho1
  obtain ⟨k1, k2, k3, k4, k5⟩ := File.open_ready (File.F.fresh : File.F Cell) 1 .none true true old ho _ ho2
  have hok := File.ok_of_ready h1
  rw [h2, h3] at hok
  have hd := File.ok_of_ready k1
  rw [k2, k3] at hd
  obtain ⟨f', e⟩ := copyLoop_full (bs.map some) (by simpa using hl) fuel fuel 0 f0 d0 buf hok (by rw [h4]; rfl) hb
    hopen (by rw [k5]; rfl) (by simpa using hf) (Nat.le_refl _)
  rw [e, ok_bind]
  dsimp only
  rw [hd.curr]
  unfold File.truncate
  rw [List.take_zero, Nat.zero_sub]
  rfl

/-- The system grants everything except writing. -/
def full (n : Nat) : Outcome := ⟨true, .ok, [], List.replicate n [.fail], true, true, true⟩

/-! ## `Move` -/

theorem slashed_text : ∀ cps : List Nat, slashed (text 1 cps) = text 1 (slashed cps)
  | [] => rfl
  | c :: cs => by
    have ih := slashed_text cs
    have e : ∀ a b : List Nat, slashed (a ++ b) = slashed a ++ slashed b := fun a b => List.map_append
    rw [Utf8.text1_cons, e, ih, show slashed (c :: cs) = (if c = 92 then 47 else c) :: slashed cs from rfl,
      Utf8.text1_cons]
    congr 1
    by_cases h : c = 92
    · subst h; rfl
    · rw [if_neg h]
      unfold slashed enc8
      have g : ∀ x, x ≠ 92 → (if x = 92 then 47 else x) = x := fun x hx => if_neg hx
      split
      · simp only [List.map_cons, List.map_nil]; rw [g _ h]
      split
      · simp only [List.map_cons, List.map_nil]; rw [g _ (by omega), g _ (by omega)]
      split
      · simp only [List.map_cons, List.map_nil]; rw [g _ (by omega), g _ (by omega), g _ (by omega)]
      · simp only [List.map_cons, List.map_nil]
        rw [g _ (by omega), g _ (by omega), g _ (by omega), g _ (by omega)]

theorem slashed_mem {P : Nat → Prop} {f : List Nat} (h : ∀ c ∈ f, P c) (h47 : P 47) : ∀ c ∈ slashed f, P c := by
  intro c hc
  unfold slashed at hc
  rw [List.mem_map] at hc
  obtain ⟨x, hx, rfl⟩ := hc
  split
  · exact h47
  · exact h x hx

/-- The converted name is accepted again. -/
theorem accepted_slashed {sgn : Bool} {size : Nat} {f : List Nat} (h : Accepted sgn size f) :
    Accepted sgn size (slashed f) := by
  obtain ⟨h1, h2, ⟨cps, ⟨g1, g2⟩, e⟩, h4, h5⟩ := h
  refine ⟨?_, ?_, ⟨slashed cps, ⟨slashed_mem g1 (by decide), ?_⟩, by rw [e, slashed_text]⟩,
    slashed_mem h4 (by unfold Forbidden; decide), fun hs => slashed_mem (h5 hs) (by decide)⟩
  · intro e
    exact h1 (List.map_eq_nil_iff.mp e)
  · unfold slashed
    rw [List.length_map]
    exact h2
  · intro c hc
    cases cps with
    | nil => exact nomatch hc
    | cons x xs =>
      rw [show slashed (x :: xs) = (if x = 92 then 47 else x) :: slashed xs from rfl, List.head?_cons,
        Option.some.injEq] at hc
      subst hc
      split
      · decide
      · exact g2 x rfl

theorem slashed_slashed (f : List Nat) : slashed (slashed f) = slashed f := by
  unfold slashed
  rw [List.map_map]
  refine List.map_congr_left fun c _ => ?_
  dsimp only [Function.comp]
  by_cases h : c = 92
  · subst h; rfl
  · simp [h]

/-- The second half of `Move`: after the copy. -/
def moved (unlinked : Bool) (p : List Nat) : CRes (Fs × Bool) → CRes (Fs × Bool)
  | .error e => .error e
  | .ok (fs', r) => if r && unlinked then .ok (fs'.unlink p, true) else .ok (fs', r)

theorem move_yes {E E' : Env} {f g : List Nat} (rest rest' : List Nat) (renamed unlinked : Bool) (o : Outcome)
    (fs : Fs) (hf : 0 ∉ f) (hg : 0 ∉ g) (hj : E.junk.length = 8192) (hj' : E'.junk.length = 8192)
    (ha : Accepted E.sgn 8192 f) (ha' : Accepted E'.sgn 8192 g) :
    move E E' renamed unlinked o fs (f ++ 0 :: rest) (g ++ 0 :: rest') =
      if renamed && (fs.lookup (slashed f)).isSome then .ok (fs.rename (slashed f) (slashed g), true)
      else moved unlinked (slashed f) (copyFs o fs (slashed f) (slashed g)) := by
  obtain ⟨tl, h⟩ := platform_yes rest hf hj ha
  obtain ⟨tl', h'⟩ := platform_yes rest' hg hj' ha'
  unfold move
  rw [h, ok_bind]
  dsimp only [Bool.not_true]
  rw [if_neg (by decide), h', ok_bind]
  dsimp only [Bool.not_true]
  rw [if_neg (by decide), cstr_ok _ _ (slashed_no_zero hf), ok_bind, cstr_ok _ _ (slashed_no_zero hg), ok_bind,
    copy_yes tl tl' o fs (slashed_no_zero hf) (slashed_no_zero hg) hj hj' (accepted_slashed ha) (accepted_slashed ha'),
    slashed_slashed, slashed_slashed]
  congr 1
  cases copyFs o fs (slashed f) (slashed g) <;> rfl

/-- C75: a move that answers no leaves the source as it was, and every file but the destination's. -/
theorem move_false (E E' : Env) (renamed unlinked : Bool) (o : Outcome) (fs fs' : Fs) (f g rest rest' : List Nat)
    (hf : 0 ∉ f) (hg : 0 ∉ g) (hj : E.junk.length = 8192) (hj' : E'.junk.length = 8192)
    (ha : Accepted E.sgn 8192 f) (ha' : Accepted E'.sgn 8192 g) (ho : fs.Ok)
    (h : move E E' renamed unlinked o fs (f ++ 0 :: rest) (g ++ 0 :: rest') = .ok (fs', false)) :
    fs'.lookup (slashed f) = fs.lookup (slashed f) ∧
    ∀ r, r ≠ slashed g → fs.names r ≠ fs.names (slashed g) → fs'.lookup r = fs.lookup r := by
  rw [move_yes rest rest' renamed unlinked o fs hf hg hj hj' ha ha'] at h
  split at h
  · cases h
  · cases hc : copyFs o fs (slashed f) (slashed g) with
    | error e => rw [hc] at h; cases h
    | ok x =>
      obtain ⟨fs1, r⟩ := x
      rw [hc] at h
      unfold moved at h
      dsimp only at h
      split at h
      · cases h
      · cases h
        obtain ⟨h1, h2, -⟩ := copyFs_frame ho hc
        exact ⟨h2, fun r hr hn => (h1 r hr).resolve_right hn⟩

/-- C75: a move by renaming takes the file as it is from the old name to the new name. -/
theorem move_renamed (E E' : Env) (unlinked : Bool) (o : Outcome) (fs : Fs) (f g rest rest' : List Nat)
    (i : Nat) (src : Node) (hf : 0 ∉ f) (hg : 0 ∉ g) (hj : E.junk.length = 8192) (hj' : E'.junk.length = 8192)
    (ha : Accepted E.sgn 8192 f) (ha' : Accepted E'.sgn 8192 g)
    (hp : fs.lookup (slashed f) = some (i, src)) :
    ∃ fs', move E E' true unlinked o fs (f ++ 0 :: rest) (g ++ 0 :: rest') = .ok (fs', true) ∧
      fs'.lookup (slashed g) = some (i, src) ∧
      (fs.names (slashed g) ≠ some i → fs'.lookup (slashed f) = none) ∧
      ∀ r, r ≠ slashed f → r ≠ slashed g → fs'.lookup r = fs.lookup r := by
  refine ⟨fs.rename (slashed f) (slashed g), ?_, ?_, ?_, ?_⟩
  · rw [move_yes rest rest' true unlinked o fs hf hg hj hj' ha ha', hp]
    rfl
  · obtain ⟨h1, h2⟩ := lookup_iff.mp hp
    rw [lookup_iff]
    unfold Fs.rename
    split
    · next h => exact ⟨by rw [← h, h1], h2⟩
    · next h =>
      refine ⟨?_, h2⟩
      dsimp only
      rw [set_other _ _ (fun e => h (by rw [e])), set_same, h1]
  · intro hq
    have h1 := (lookup_iff.mp hp).1
    unfold Fs.rename
    rw [if_neg (fun e => hq (by rw [← e, h1]))]
    unfold Fs.lookup
    dsimp only
    rw [set_same]
  · intro r h1 h2
    unfold Fs.rename
    split
    · rfl
    · unfold Fs.lookup
      dsimp only
      rw [set_other _ _ h1, set_other _ _ h2]

/-- C75: a move says yes exactly if the file could be renamed or copied. -/
theorem move_answer (E E' : Env) (renamed unlinked : Bool) (o : Outcome) (fs fs' : Fs) (f g rest rest' : List Nat)
    (b : Bool) (hf : 0 ∉ f) (hg : 0 ∉ g) (hj : E.junk.length = 8192) (hj' : E'.junk.length = 8192)
    (ha : Accepted E.sgn 8192 f) (ha' : Accepted E'.sgn 8192 g)
    (h : move E E' renamed unlinked o fs (f ++ 0 :: rest) (g ++ 0 :: rest') = .ok (fs', b)) :
    b = true ↔ (renamed = true ∧ (fs.lookup (slashed f)).isSome) ∨ CanCopy o fs (slashed f) (slashed g) := by
  rw [move_yes rest rest' renamed unlinked o fs hf hg hj hj' ha ha'] at h
  split at h
  · next hr =>
    cases h
    exact ⟨fun _ => Or.inl (by simpa using hr), fun _ => rfl⟩
  · next hr =>
    have hr' : ¬ (renamed = true ∧ (fs.lookup (slashed f)).isSome) := by simpa using hr
    cases hc : copyFs o fs (slashed f) (slashed g) with
    | error e => rw [hc] at h; cases h
    | ok x =>
      obtain ⟨fs1, r⟩ := x
      rw [hc] at h
      unfold moved at h
      dsimp only at h
      have hb : b = r := by
        split at h
        · next hru =>
          cases h
          rw [Bool.and_eq_true] at hru
          exact hru.1.symm
        · cases h; rfl
      rw [hb, copyFs_answer hc]
      exact ⟨Or.inr, fun h => h.resolve_left hr'⟩

theorem moved_lookup {fs' : Fs} {p q : List Nat} {j : Nat} {n : Node} (hpq : q ≠ p) (h : fs'.lookup q = some (j, n)) :
    (fs'.unlink p).lookup q = some (j, n) ∧ (fs'.unlink p).lookup p = none := by
  constructor
  · rw [lookup_iff] at h ⊢
    exact ⟨(set_other _ _ hpq).trans h.1, h.2⟩
  · unfold Fs.lookup Fs.unlink
    dsimp only
    rw [set_same]

/-- C75 (partial): a move by copying keeps the contents if the length is a multiple of 8192 and the
system grants everything; then the old name is gone.  Missing: other lengths (`move_pads`), failing
writes (`move_loses`). -/
theorem move_copied_partial (E E' : Env) (fs : Fs) (f g rest rest' : List Nat) (i : Nat) (src : Node) (bs : List UInt8)
    (hf : 0 ∉ f) (hg : 0 ∉ g) (hj : E.junk.length = 8192) (hj' : E'.junk.length = 8192)
    (ha : Accepted E.sgn 8192 f) (ha' : Accepted E'.sgn 8192 g) (ho : fs.Ok)
    (hp : fs.lookup (slashed f) = some (i, src)) (hr : src.regular = true) (hq : fs.names (slashed g) ≠ some i)
    (hd : src.data = bs.map some) (hl : bs.length + 8192 < 2 ^ 63) (h8 : 8192 ∣ bs.length)
    (hold : ∀ j n, fs.lookup (slashed g) = some (j, n) → n.data.length < 2 ^ 63) :
    ∃ fs' j n, move E E' false true good fs (f ++ 0 :: rest) (g ++ 0 :: rest') = .ok (fs', true) ∧
      fs'.lookup (slashed g) = some (j, n) ∧ n.data = src.data ∧ n.uid = src.uid ∧ n.gid = src.gid ∧
      n.mode = src.mode ∧ fs'.lookup (slashed f) = none := by
  obtain ⟨fs', j, n, e1, e2, e3, e4, e5, e6, -⟩ := copy_true_partial E E' fs f g rest rest' i src bs hf hg hj hj' ha ha'
    ho hp hr hq hd hl h8 hold
  rw [copy_yes rest rest' good fs hf hg hj hj' ha ha'] at e1
  have hpq : slashed g ≠ slashed f := fun e => hq (by rw [e]; exact (lookup_iff.mp hp).1)
  obtain ⟨m1, m2⟩ := moved_lookup hpq e2
  refine ⟨_, j, n, ?_, m1, e3, e4, e5, e6, m2⟩
  rw [move_yes rest rest' false true good fs hf hg hj hj' ha ha', e1]
  rfl

/-- C75, negation: moving a file of any other length to another file system changes its contents, and
the original is gone. -/
theorem move_pads (E E' : Env) (fs : Fs) (f g rest rest' : List Nat) (i : Nat) (src : Node) (bs : List UInt8)
    (hf : 0 ∉ f) (hg : 0 ∉ g) (hj : E.junk.length = 8192) (hj' : E'.junk.length = 8192)
    (ha : Accepted E.sgn 8192 f) (ha' : Accepted E'.sgn 8192 g) (ho : fs.Ok)
    (hp : fs.lookup (slashed f) = some (i, src)) (hr : src.regular = true) (hq : fs.names (slashed g) ≠ some i)
    (hd : src.data = bs.map some) (hl : bs.length + 8192 < 2 ^ 63) (h8 : ¬ 8192 ∣ bs.length)
    (hold : ∀ j n, fs.lookup (slashed g) = some (j, n) → n.data.length < 2 ^ 63) :
    ∃ fs' j n, move E E' false true good fs (f ++ 0 :: rest) (g ++ 0 :: rest') = .ok (fs', true) ∧
      fs'.lookup (slashed g) = some (j, n) ∧ n.data ≠ src.data ∧ fs'.lookup (slashed f) = none := by
  obtain ⟨fs', j, n, e1, e2, e3⟩ := copyFs_pads ho hp hr hq hd hl h8 hold
  have hpq : slashed g ≠ slashed f := fun e => hq (by rw [e]; exact (lookup_iff.mp hp).1)
  obtain ⟨m1, m2⟩ := moved_lookup hpq e2
  refine ⟨_, j, n, ?_, m1, e3, m2⟩
  rw [move_yes rest rest' false true good fs hf hg hj hj' ha ha', e1]
  rfl

/-- C75, negation: if no write succeeds (the disk is full), a move to another file system says yes; the
new file is empty and the original is gone. -/
theorem move_loses (E E' : Env) (fs : Fs) (f g rest rest' : List Nat) (i : Nat) (src : Node) (bs : List UInt8)
    (hf : 0 ∉ f) (hg : 0 ∉ g) (hj : E.junk.length = 8192) (hj' : E'.junk.length = 8192)
    (ha : Accepted E.sgn 8192 f) (ha' : Accepted E'.sgn 8192 g) (ho : fs.Ok)
    (hp : fs.lookup (slashed f) = some (i, src)) (hr : src.regular = true) (hq : fs.names (slashed g) ≠ some i)
    (hd : src.data = bs.map some) (hl : bs.length + 8192 < 2 ^ 63)
    (hold : ∀ j n, fs.lookup (slashed g) = some (j, n) → n.data.length < 2 ^ 63) :
    ∃ fs' j n, move E E' false true (full (bs.length + 1)) fs (f ++ 0 :: rest) (g ++ 0 :: rest') = .ok (fs', true) ∧
      fs'.lookup (slashed g) = some (j, n) ∧ n.data = [] ∧ fs'.lookup (slashed f) = none := by
  have hc : File.copy src.data (fs.create (slashed g) src.mode).2.2.data [] (List.replicate (bs.length + 1) [.fail])
      (src.data.length + 1) = .ok [] := by
    rw [hd, List.length_map]
    refine file_copy_full bs _ hl ?_ _ (by omega)
    unfold Fs.create
    cases hx : fs.lookup (slashed g) with
    | none => exact (by decide : (0 : Nat) < 2 ^ 63)
    | some x => obtain ⟨j, n⟩ := x; exact hold j n hx
  obtain ⟨fs', j, n, e1, e2, e3⟩ := copyFs_runs (o := full (bs.length + 1)) ho hp hr hq rfl rfl _ hc
  have hpq : slashed g ≠ slashed f := fun e => hq (by rw [e]; exact (lookup_iff.mp hp).1)
  obtain ⟨m1, m2⟩ := moved_lookup hpq e2
  refine ⟨_, j, _, ?_, m1, ?_, m2⟩
  · rw [move_yes rest rest' false true _ fs hf hg hj hj' ha ha', e1]
    rfl
  · rw [clone_data, e3]

/-- A file system with one file, "a/b". -/
def one (bs : List UInt8) : Fs :=
  ⟨fun p => if p = [97, 47, 98] then some 0 else none,
   fun i => if i = 0 then some ⟨bs.map some, true, 420, 1000, 100, 5, 1500000000⟩ else none, 1, 7⟩

theorem one_ok (bs : List UInt8) : (one bs).Ok := by
  intro p i h
  dsimp only [one] at h
  split at h
  · cases h; exact ⟨Nat.zero_lt_one, rfl⟩
  · cases h

/-- The name "c" is accepted. -/
theorem accepted_c (sgn : Bool) : Accepted sgn 8192 [99] := by
  refine Name.accepted ⟨by decide, by decide, ?_⟩ sgn
  intro c hc
  simp only [List.mem_cons, List.not_mem_nil, or_false] at hc
  unfold Forbidden
  subst hc
  decide

example (E E' : Env) (o : Outcome) (hj : E.junk.length = 8192) (hj' : E'.junk.length = 8192) :
    copy E E' o (one [1, 2, 3]) [97, 92, 98, 0] [97, 92, 98, 0] = .ok (one [1, 2, 3], false) :=
  copy_self E E' o (one [1, 2, 3]) [97, 92, 98] [97, 92, 98] [] [] (by decide) (by decide) hj hj'
    (accepted_example _) (accepted_example _) rfl

example (E E' : Env) (o : Outcome) (hj : E.junk.length = 8192) (hj' : E'.junk.length = 8192) :
    ∃ fs', move E E' true true o (one [1, 2, 3]) [97, 92, 98, 0] [99, 0] = .ok (fs', true) ∧
      (fs'.lookup [99]).map (·.2.data) = some [some 1, some 2, some 3] ∧ fs'.lookup [97, 47, 98] = none := by
  obtain ⟨fs', h1, h2, h3, -⟩ := move_renamed E E' true o (one [1, 2, 3]) [97, 92, 98] [99] [] [] 0 _ (by decide)
    (by decide) hj hj' (accepted_example _) (accepted_c _) rfl
  exact ⟨fs', h1, by rw [show [99] = slashed [99] from rfl, h2]; rfl, h3 (by decide)⟩

/-- A move that fails after the destination was made. -/
example (E E' : Env) (hj : E.junk.length = 8192) (hj' : E'.junk.length = 8192) :
    ∃ fs', move E E' false true { good with openDst := .locked } (one [1, 2, 3]) [97, 92, 98, 0] [99, 0]
        = .ok (fs', false) ∧ fs'.lookup [97, 47, 98] = (one [1, 2, 3]).lookup [97, 47, 98] := by
  have h : move E E' false true { good with openDst := .locked } (one [1, 2, 3]) [97, 92, 98, 0] [99, 0] =
      .ok (((one [1, 2, 3]).create [99] 420).1, false) :=
    move_yes (f := [97, 92, 98]) (g := [99]) [] [] _ _ _ _ (by decide) (by decide) hj hj' (accepted_example _) (accepted_c _)
  exact ⟨_, h, (move_false E E' false true { good with openDst := .locked } _ _ [97, 92, 98] [99] [] [] (by decide)
    (by decide) hj hj' (accepted_example _) (accepted_c _) (one_ok _) h).1⟩

example (E E' : Env) (hj : E.junk.length = 8192) (hj' : E'.junk.length = 8192) :
    ∃ fs' j n, move E E' false true (full 4) (one [1, 2, 3]) [97, 92, 98, 0] [99, 0] = .ok (fs', true) ∧
      fs'.lookup [99] = some (j, n) ∧ n.data = [] ∧ fs'.lookup [97, 47, 98] = none :=
  move_loses E E' (one [1, 2, 3]) [97, 92, 98] [99] [] [] 0 _ [1, 2, 3] (by decide) (by decide) hj hj'
    (accepted_example _) (accepted_c _) (one_ok _) rfl rfl (by decide) rfl (by decide) (fun j n h => nomatch h)

example (E E' : Env) (hj : E.junk.length = 8192) (hj' : E'.junk.length = 8192) :
    ∃ fs' j n, move E E' false true good (one (List.replicate 8192 65)) [97, 92, 98, 0] [99, 0] = .ok (fs', true) ∧
      fs'.lookup [99] = some (j, n) ∧ n.data = (List.replicate 8192 65).map some ∧ n.uid = 1000 ∧ n.gid = 100 ∧
      n.mode = 420 ∧ fs'.lookup [97, 47, 98] = none :=
  move_copied_partial E E' (one (List.replicate 8192 65)) [97, 92, 98] [99] [] [] 0 _ (List.replicate 8192 65)
    (by decide) (by decide) hj hj' (accepted_example _) (accepted_c _) (one_ok _) rfl rfl (by decide) rfl
    (by rw [List.length_replicate]; decide) ⟨1, List.length_replicate⟩ (fun j n h => nomatch h)

end Verif.FileOps
