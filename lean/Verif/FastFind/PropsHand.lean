import Verif.FastFind.Hand
import Verif.FastFind.PropsReplace

/-!
# Property C119: replacing by hand
-/

namespace Verif.FastFind

open Spec

set_option linter.unusedSectionVars false

variable {α : Type} [DecidableEq α]

namespace Spec

/-- `i` is the first position from `c` on at which the pattern occurs. -/
def First (eq : α → α → Bool) (p d : List α) (c i : Nat) : Prop :=
  c ≤ i ∧ MatchAt eq p d i ∧ ∀ j, c ≤ j → j < i → ¬ MatchAt eq p d j

/-- The elements from position `a` up to position `b`. -/
def slice (d : List α) (a b : Nat) : List α := (d.drop a).take (b - a)

/-- Full statement of C119 for the result: `Edited choose c out` says that the data from position `c` on, edited as
the caller decides, is `out`.  A match that is left alone stays as it is, and the search goes on one element later; a match
that is replaced gives way to its replacement, the elements to be passed over disappear with it. -/
inductive Edited (eq : α → α → Bool) (p d : List α) (choose : Nat → Option (List α × Nat)) : Nat → List α → Prop
  | none (c) (h : ∀ j, c ≤ j → ¬ MatchAt eq p d j) : Edited eq p d choose c (d.drop c)
  | leave {c i out} (hf : First eq p d c i) (hc : choose i = .none) (h : Edited eq p d choose (i + 1) out) :
      Edited eq p d choose c (slice d c (i + 1) ++ out)
  | replace {c i w n out} (hf : First eq p d c i) (hc : choose i = .some (w, n)) (hb : i + p.length + n ≤ d.length)
      (h : Edited eq p d choose (i + p.length + n) out) :
      Edited eq p d choose c (slice d c i ++ w ++ out)

/-- What the code makes instead: the data from `c0` on has not been written yet, the search goes on at `c`.  At every
match everything from `c0` up to the match is written; `c0` moves only when a match is replaced. -/
inductive Written (eq : α → α → Bool) (p d : List α) (choose : Nat → Option (List α × Nat)) : Nat → Nat → List α → Prop
  | none (c0 c) (h : ∀ j, c ≤ j → ¬ MatchAt eq p d j) : Written eq p d choose c0 c (d.drop c0)
  | leave {c0 c i out} (hf : First eq p d c i) (hc : choose i = .none) (h : Written eq p d choose c0 (i + 1) out) :
      Written eq p d choose c0 c (slice d c0 i ++ out)
  | replace {c0 c i w n out} (hf : First eq p d c i) (hc : choose i = .some (w, n)) (hb : i + p.length + n ≤ d.length)
      (h : Written eq p d choose (i + p.length + n) (i + p.length + n) out) :
      Written eq p d choose c0 c (slice d c0 i ++ w ++ out)

end Spec

/-! ### The loop -/

theorem ready_found {eq : α → α → Bool} {f : Find α} {p d : List α} {c i : Nat} (um : Bool)
    (hu : um = true → ∀ a b, eq a b = true ↔ a = b) (hp : p ≠ []) (h : Ready eq f p d c) (hf : First eq p d c i) :
    ∃ f', findNext eq um f = .ok (some i, f') ∧ Ready eq f' p d (i + 1) ∧
      ∀ n, i + p.length + n ≤ d.length →
        ∃ f'', skipMatch f' n = .ok (some (i + p.length + n), f'') ∧ Ready eq f'' p d (i + p.length + n) := by
  obtain ⟨hc, hm, hf⟩ := hf
  obtain ⟨s, hr, rfl, ⟨h1, rfl, rfl⟩ | ⟨h1, h2⟩⟩ := h
  · obtain ⟨f', e, hr'⟩ := hr.findNext eq um hu (.found s i h1 hc hm hf)
    have hb := hm.1
    have hl : 0 < s.p.length := List.length_pos_iff.2 hp
    refine ⟨f', e, ⟨_, hr', rfl, .inl ⟨h1, rfl, rfl⟩⟩, fun n hn => ?_⟩
    obtain ⟨f'', e2, hr2⟩ := hr'.skip eq n (.skip _ n h1 (by simp only; omega))
    refine ⟨f'', ?_, _, hr2, rfl, ?_⟩
    · rw [e2]; congr 3; simp only; omega
    · by_cases hlive : i + s.p.length + n + s.p.length ≤ s.d.length
      · left
        refine ⟨?_, rfl, ?_⟩
        · simp only [decide_eq_true_eq]; omega
        · simp only; omega
      · right
        refine ⟨?_, fun j hj hmj => ?_⟩
        · simp only [decide_eq_false_iff_not]; omega
        · have := hmj.1; omega
  · exact absurd hm (h2 i hc)

/-- The loop invariant: `o` is the output so far, the search is at `c`. -/
structure Hand (eq : α → α → Bool) (r : Repl α) (p d o : List α) (e c : Nat) : Prop where
  src : r.src = d
  srcEnd : r.srcEnd = d.length
  curr : r.srcCurr ≤ c
  inside : c ≤ d.length
  alloc : r.allocated = true
  extra : r.extra = e
  buf : ∃ R, r.buf = o.map some ++ R
  pos : r.dataPos = o.length
  len : r.buf.length = r.dataSize + e
  fits : o.length ≤ r.dataSize
  ready : Ready eq r.find p d c

theorem hand_none {eq : α → α → Bool} {alloc um : Bool} {r : Repl α} {p d o : List α}
    {e c : Nat} (hu : um = true → ∀ a b, eq a b = true ↔ a = b) (h : Hand eq r p d o e c)
    (hn : ∀ j, c ≤ j → ¬ MatchAt eq p d j)
    (hs : alloc = true ∨ o.length + (d.length - r.srcCurr) ≤ r.dataSize) :
    ∃ r' R, replFindNext eq alloc um r = .ok (none, r') ∧
      r'.buf = (o ++ d.drop r.srcCurr).map some ++ R ∧ R.length = e ∧
      r'.dataPos = (o ++ d.drop r.srcCurr).length := by
  obtain ⟨f', e1⟩ := h.ready.none um hu hn
  obtain ⟨R, hR⟩ := h.buf
  have hcd := h.curr
  have hin := h.inside
  unfold replFindNext
  rw [e1]
  simp only [ok_bind, h.srcEnd, h.pos, h.alloc, if_true, and_self, or_true, Nat.add_zero]
  obtain ⟨R', e2, hl2⟩ := regrow_ok alloc (o.map some) R (o.length + (d.length - r.srcCurr) + r.extra)
    (o.length + (d.length - r.srcCurr)) (by simp; omega) (by
      intro ha
      have hs := hs.resolve_left (by rw [ha]; simp)
      refine ⟨by simp, by omega, ?_⟩
      have := h.len
      rw [hR] at this
      rw [this]; omega)
  rw [hR, e2, ok_bind]
  simp only [List.length_append, List.length_map] at hl2
  rw [putSrc_ok _ (o.map some) R' (d.length - r.srcCurr) rfl (by simp)
    (by omega) (by simp only [h.src]; omega), ok_bind]
  refine ⟨_, R'.drop (d.length - r.srcCurr), rfl, ?_, ?_, ?_⟩
  · simp only [h.src, List.map_append]
    rw [List.take_of_length_le (by simp)]
  · have := h.extra; simp; omega
  · simp

theorem hand_some {eq : α → α → Bool} {alloc um : Bool} {r : Repl α} {p d o : List α}
    {e c i : Nat} (hu : um = true → ∀ a b, eq a b = true ↔ a = b) (hp : p ≠ []) (h : Hand eq r p d o e c)
    (hf : First eq p d c i)
    (hs : alloc = true ∨ o.length + (i - r.srcCurr) ≤ r.dataSize) :
    ∃ r', replFindNext eq alloc um r = .ok (some i, r') ∧ r'.srcCurr = r.srcCurr ∧
      Hand eq r' p d (o ++ slice d r.srcCurr i) e (i + 1) ∧ (alloc = false → r'.dataSize = r.dataSize) ∧
      ∀ n, i + p.length + n ≤ d.length →
        ∃ f'', skipMatch r'.find n = .ok (some (i + p.length + n), f'') ∧ Ready eq f'' p d (i + p.length + n) := by
  obtain ⟨f', e1, hr1, hr⟩ := ready_found um hu hp h.ready hf
  obtain ⟨R, hR⟩ := h.buf
  have hb := hf.2.1.1
  have hci := hf.1
  have hcd := h.curr
  have hpl : 0 < p.length := List.length_pos_iff.2 hp
  have hlen := h.len
  rw [hR] at hlen
  simp only [List.length_append, List.length_map] at hlen
  have hsl : (slice d r.srcCurr i).length = i - r.srcCurr := by
    unfold slice; simp; omega
  unfold replFindNext
  rw [e1]
  simp only [ok_bind, h.pos, h.alloc, if_true, reduceCtorEq, and_false, or_false, if_false]
  by_cases hg : r.dataSize < o.length + (i - r.srcCurr)
  · rw [if_pos hg]
    have ha : alloc = true := by
      rcases hs with h | h
      · exact h
      · omega
    obtain ⟨R', e3, hl3⟩ := regrow_ok alloc (o.map some) R
      (o.length + (i - r.srcCurr) + r.growth + r.extra)
      (o.length + (i - r.srcCurr) + r.growth) (by simp; omega) (by rw [ha]; exact (fun h => nomatch h))
    rw [hR, e3, ok_bind]
    simp only [List.length_append, List.length_map] at hl3
    rw [putSrc_ok _ (o.map some) R' (i - r.srcCurr) rfl (by simp)
      (by omega) (by simp only [h.src]; omega), ok_bind]
    refine ⟨_, rfl, rfl, ⟨h.src, h.srcEnd, by simp only; omega, by omega, rfl, h.extra, ⟨R'.drop (i - r.srcCurr), ?_⟩,
      ?_, ?_, ?_, hr1⟩, ?_, hr⟩
    · simp only [h.src, List.map_append, slice]
    · simp only [List.length_append, hsl]
    · have := h.extra
      simp only [h.src, List.length_append, List.length_map, List.length_take, List.length_drop]
      omega
    · simp only [List.length_append, hsl]; omega
    · rw [ha]; exact (fun h => nomatch h)
  · rw [if_neg hg]
    rw [putSrc_ok { r with find := f', allocated := true, dataPos := o.length } (o.map some) R
      (i - r.srcCurr) hR (by simp)
      (by omega) (by simp only [h.src]; omega), ok_bind]
    refine ⟨_, rfl, rfl, ⟨h.src, h.srcEnd, by simp only; omega, by omega, rfl, h.extra, ⟨R.drop (i - r.srcCurr), ?_⟩,
      ?_, ?_, ?_, hr1⟩, ?_, hr⟩
    · simp only [h.src, List.map_append, slice]
    · simp only [List.length_append, hsl]
    · simp only [h.src, List.length_append, List.length_map, List.length_take, List.length_drop]
      omega
    · simp only [List.length_append, hsl]; omega
    · intro _; rfl

theorem editLoop_ok {eq : α → α → Bool} {alloc um : Bool} {p d : List α} {choose : Nat → Option (List α × Nat)} {e : Nat}
    (hu : um = true → ∀ a b, eq a b = true ↔ a = b) (hp : p ≠ []) {c0 c : Nat} {out : List α}
    (hW : Written eq p d choose c0 c out) :
    ∀ (fuel : Nat) (r : Repl α) (o : List α), Hand eq r p d o e c → r.srcCurr = c0 → d.length < c + fuel →
      (alloc = true ∨ o.length + out.length ≤ r.dataSize) →
      ∃ r' R, editLoop eq alloc um choose fuel r = .ok r' ∧
        r'.buf = (o ++ out).map some ++ R ∧ R.length = e ∧ r'.dataPos = (o ++ out).length := by
  induction hW with
  | none c0 c hno =>
    intro fuel r o h hc hfuel hs
    subst hc
    have := h.inside
    obtain ⟨fuel, rfl⟩ : ∃ k, fuel = k + 1 := ⟨fuel - 1, by omega⟩
    obtain ⟨r', R, e1, h1, h2, h3⟩ := hand_none (alloc := alloc) hu h hno (by
      rw [List.length_drop] at hs; exact hs)
    refine ⟨r', R, ?_, h1, h2, h3⟩
    rw [editLoop, e1, ok_bind]
  | @leave c0 c i out hf hch _ ih =>
    intro fuel r o h hc hfuel hs
    subst hc
    have hci := hf.1
    have := h.inside
    have hb := hf.2.1.1
    have hpl : 0 < p.length := List.length_pos_iff.2 hp
    have hcd := h.curr
    obtain ⟨fuel, rfl⟩ : ∃ k, fuel = k + 1 := ⟨fuel - 1, by omega⟩
    have hsl : (slice d r.srcCurr i).length = i - r.srcCurr := by
      unfold slice; simp; omega
    rw [List.length_append, hsl] at hs
    obtain ⟨r1, e1, s1, s2, s3, _⟩ := hand_some (alloc := alloc) hu hp h hf (by
      rcases hs with hs | hs
      · exact .inl hs
      · right; omega)
    obtain ⟨r', R, e2, h1, h2, h3⟩ := ih fuel r1 _ s2 s1 (by omega) (by
      by_cases ha : alloc = true
      · exact .inl ha
      · right
        rw [s3 (by simpa using ha), List.length_append, hsl]
        rcases hs with hs | hs
        · exact absurd hs ha
        · omega)
    refine ⟨r', R, ?_, by rw [h1, List.append_assoc], h2, by rw [h3, List.append_assoc]⟩
    rw [editLoop, e1, ok_bind]
    simp only [hch]
    exact e2
  | @replace c0 c i w n out hf hch hbn _ ih =>
    intro fuel r o h hc hfuel hs
    subst hc
    have hci := hf.1
    have := h.inside
    have hb := hf.2.1.1
    have hpl : 0 < p.length := List.length_pos_iff.2 hp
    have hcd := h.curr
    obtain ⟨fuel, rfl⟩ : ∃ k, fuel = k + 1 := ⟨fuel - 1, by omega⟩
    have hsl : (slice d r.srcCurr i).length = i - r.srcCurr := by
      unfold slice; simp; omega
    rw [List.length_append, List.length_append, hsl] at hs
    obtain ⟨r1, e1, s1, s2, s3, s4⟩ := hand_some (alloc := alloc) hu hp h hf (by
      rcases hs with hs | hs
      · exact .inl hs
      · right; omega)
    obtain ⟨f'', s10, s11⟩ := s4 n hbn
    obtain ⟨r2, e2, t1, t2, t3, t4, t5, t6, t7, t8, t9, t10⟩ :=
      replPut_dyn (alloc := alloc) (w := w) s2.alloc s2.extra s2.buf s2.pos s2.len s2.fits
    have hrep : replaceAt alloc r1 w n = .ok { r2 with find := f'', srcCurr := i + p.length + n } := by
      unfold replaceAt
      rw [e2, ok_bind, t1, s10]
      simp only [ok_bind, ptr]
      rw [t3, s2.srcEnd, if_neg (by omega)]
    have hD : Hand eq { r2 with find := f'', srcCurr := i + p.length + n } p d
        (o ++ slice d r.srcCurr i ++ w) e (i + p.length + n) :=
      ⟨by simp only [t2, s2.src], by simp only [t3, s2.srcEnd], Nat.le_refl _, hbn, t4, t5, t6, t7, t8, t9, s11⟩
    obtain ⟨r', R, e3, h1, h2, h3⟩ := ih fuel _ _ hD rfl (by omega) (by
      by_cases ha : alloc = true
      · exact .inl ha
      · right
        rcases hs with hs | hs
        · exact absurd hs ha
        · simp only [List.length_append, hsl] at t10 ⊢
          have := s3 (by simpa using ha)
          rw [t10 (by omega)]
          omega)
    refine ⟨r', R, ?_, by rw [h1]; simp only [List.append_assoc], h2, by rw [h3]; simp only [List.append_assoc]⟩
    rw [editLoop, e1, ok_bind]
    simp only [hch]
    rw [hrep, ok_bind]
    exact e3

/-- Whatever the caller decides, what the code writes is determined. -/
theorem written_exists (eq : α → α → Bool) (p d : List α) (hp : p ≠ []) (choose : Nat → Option (List α × Nat))
    (hin : ∀ i w n, MatchAt eq p d i → choose i = some (w, n) → i + p.length + n ≤ d.length) :
    ∀ (m c0 c : Nat), d.length < c + m → ∃ out, Written eq p d choose c0 c out := by
  have hpl : 0 < p.length := List.length_pos_iff.2 hp
  intro m
  induction m with
  | zero => intro c0 c h; exact ⟨_, .none c0 c (fun j hj hm => by have := hm.1; omega)⟩
  | succ m ih =>
    intro c0 c h
    rcases least_or_none (MatchAt eq p d) c with ⟨i, h1, h2, h3⟩ | hno
    · match hch : choose i with
      | none =>
        obtain ⟨out, ho⟩ := ih c0 (i + 1) (by omega)
        exact ⟨_, .leave ⟨h1, h2, h3⟩ hch ho⟩
      | some (w, n) =>
        obtain ⟨out, ho⟩ := ih (i + p.length + n) (i + p.length + n) (by omega)
        exact ⟨_, .replace ⟨h1, h2, h3⟩ hch (hin i w n h2 hch) ho⟩
    · exact ⟨_, .none c0 c hno⟩

theorem edited_exists (eq : α → α → Bool) (p d : List α) (hp : p ≠ []) (choose : Nat → Option (List α × Nat))
    (hin : ∀ i w n, MatchAt eq p d i → choose i = some (w, n) → i + p.length + n ≤ d.length) :
    ∀ (m c : Nat), d.length < c + m → ∃ out, Edited eq p d choose c out := by
  have hpl : 0 < p.length := List.length_pos_iff.2 hp
  intro m
  induction m with
  | zero => intro c h; exact ⟨_, .none c (fun j hj hm => by have := hm.1; omega)⟩
  | succ m ih =>
    intro c h
    rcases least_or_none (MatchAt eq p d) c with ⟨i, h1, h2, h3⟩ | hno
    · match hch : choose i with
      | none =>
        obtain ⟨out, ho⟩ := ih (i + 1) (by omega)
        exact ⟨_, .leave ⟨h1, h2, h3⟩ hch ho⟩
      | some (w, n) =>
        obtain ⟨out, ho⟩ := ih (i + p.length + n) (by omega)
        exact ⟨_, .replace ⟨h1, h2, h3⟩ hch (hin i w n h2 hch) ho⟩
    · exact ⟨_, .none c hno⟩

theorem first_unique {eq : α → α → Bool} {p d : List α} {c i j : Nat} (h : First eq p d c i) (h' : First eq p d c j) :
    i = j := by
  rcases Nat.lt_trichotomy i j with hl | hl | hl
  · exact absurd h.2.1 (h'.2.2 i h.1 hl)
  · exact hl
  · exact absurd h'.2.1 (h.2.2 j h'.1 hl)

/-- There is only one right result. -/
theorem edited_unique {eq : α → α → Bool} {p d : List α} {choose : Nat → Option (List α × Nat)} {c : Nat} {out : List α}
    (h : Edited eq p d choose c out) : ∀ {out'}, Edited eq p d choose c out' → out = out' := by
  induction h with
  | none c hno =>
    intro out' h'
    cases h' with
    | none => rfl
    | leave hf => exact absurd hf.2.1 (hno _ hf.1)
    | replace hf => exact absurd hf.2.1 (hno _ hf.1)
  | leave hf hc _ ih =>
    intro out' h'
    cases h' with
    | none _ hno => exact absurd hf.2.1 (hno _ hf.1)
    | leave hf2 hc2 h2 => have := first_unique hf hf2; subst this; rw [ih h2]
    | replace hf2 hc2 => have := first_unique hf hf2; subst this; rw [hc] at hc2; cases hc2
  | replace hf hc hb _ ih =>
    intro out' h'
    cases h' with
    | none _ hno => exact absurd hf.2.1 (hno _ hf.1)
    | leave hf2 hc2 h2 => have := first_unique hf hf2; subst this; rw [hc] at hc2; cases hc2
    | replace hf2 hc2 _ h2 => have := first_unique hf hf2; subst this; rw [hc] at hc2; cases hc2; rw [ih h2]

/-- **C119, what the loop makes.**  For every choice of the caller the loop ends without undefined behaviour and the block
holds exactly what `Written` says, followed by the extra cells.  The plain classes need that the result fits the first
allocation. -/
theorem edit_is_partial (eq : α → α → Bool) (alloc um : Bool) (hm : um = true → ∀ a b, eq a b = true ↔ a = b)
    (d p : List α) (hp : p ≠ []) (hsz : p.length < 2 ^ 64) (choose : Nat → Option (List α × Nat)) (g extra : Nat)
    (out : List α) (h : Written eq p d choose 0 0 out) (hfit : alloc = true ∨ out.length ≤ d.length + g) :
    ∃ tail, edit eq alloc um choose d p g extra = .ok (out.map some ++ tail, out.length) ∧ tail.length = extra := by
  obtain ⟨f, e, hr⟩ := Rel.setPattern (f := Find.init) (s := S.init) eq p hsz
  unfold edit
  rw [e, ok_bind]
  obtain ⟨r', R, e1, h1, h2, h3⟩ := editLoop_ok (alloc := alloc) (e := extra) hm hp h (d.length + 1)
    (replSetData f g extra d none) []
    ⟨rfl, rfl, Nat.le_refl _, Nat.zero_le _, rfl, rfl, ⟨_, rfl⟩, rfl, by simp [replSetData], Nat.zero_le _,
      start_ready hp hr⟩ rfl (by omega) (by
      rcases hfit with h | h
      · exact .inl h
      · right; simpa [replSetData] using h)
  rw [e1, ok_bind, h1, h3, List.nil_append]
  exact ⟨R, rfl, h2⟩

theorem written_edited {eq : α → α → Bool} {p d : List α} {choose : Nat → Option (List α × Nat)} {c : Nat} {out : List α}
    (hall : ∀ i, MatchAt eq p d i → choose i ≠ none)
    (h : Edited eq p d choose c out) : Written eq p d choose c c out := by
  induction h with
  | none c hno => exact .none c c hno
  | leave hf hc => exact absurd hc (hall _ hf.2.1)
  | replace hf hc hb _ ih => exact .replace hf hc hb ih

/-- **C119 (partial).**  If the caller replaces every match, each by a text of its own and passing over some elements if they like, the
result is the edited data.  Missing: matches left alone (`leaving_repeats`), the plain classes beyond the first
allocation. -/
theorem edit_all_partial (eq : α → α → Bool) (alloc um : Bool) (hm : um = true → ∀ a b, eq a b = true ↔ a = b)
    (d p : List α) (hp : p ≠ []) (hsz : p.length < 2 ^ 64) (choose : Nat → Option (List α × Nat)) (g extra : Nat)
    (hall : ∀ i, MatchAt eq p d i → choose i ≠ none)
    (out : List α) (h : Edited eq p d choose 0 out) (hfit : alloc = true ∨ out.length ≤ d.length + g) :
    ∃ tail, edit eq alloc um choose d p g extra = .ok (out.map some ++ tail, out.length) ∧ tail.length = extra :=
  edit_is_partial eq alloc um hm d p hp hsz choose g extra out (written_edited hall h) hfit

/-- Two matches, replaced by different texts, the second with the element behind it. -/
example : edit (· == ·) true true (fun i => if i = 1 then some ([8, 8, 8], 0) else some ([], 1)) [5, 1, 2, 6, 1, 2, 7, 9] [1, 2] 0 1
    = .ok ([some 5, some 8, some 8, some 8, some 6, some 9, none], 6) := by decide

theorem written_longer {eq : α → α → Bool} {p d : List α} {choose : Nat → Option (List α × Nat)} (hp : p ≠ []) {c0 c : Nat} {out : List α}
    (h : Written eq p d choose c0 c out) : ∀ {out'}, Edited eq p d choose c out' → c0 ≤ c → c ≤ d.length →
    out'.length + (c - c0) ≤ out.length := by
  have hpl : 0 < p.length := List.length_pos_iff.2 hp
  have hsl : ∀ a b, a ≤ b → b ≤ d.length → (slice d a b).length = b - a := by
    intro a b h1 h2; unfold slice; simp; omega
  induction h with
  | none c0 c hno =>
    intro out' h' h1 h2
    cases h' with
    | none => simp; omega
    | leave hf => exact absurd hf.2.1 (hno _ hf.1)
    | replace hf => exact absurd hf.2.1 (hno _ hf.1)
  | @leave c0 c i out hf hc _ ih =>
    intro out' h' h1 h2
    have hci := hf.1
    have hb := hf.2.1.1
    cases h' with
    | none _ hno => exact absurd hf.2.1 (hno _ hf.1)
    | leave hf2 hc2 h3 =>
      have := first_unique hf hf2; subst this
      have := ih h3 (by omega) (by omega)
      rw [List.length_append, List.length_append, hsl _ _ (by omega) (by omega), hsl _ _ (by omega) (by omega)]
      omega
    | replace hf2 hc2 => have := first_unique hf hf2; subst this; rw [hc] at hc2; cases hc2
  | @replace c0 c i w n out hf hc hbn _ ih =>
    intro out' h' h1 h2
    have hci := hf.1
    have hb := hf.2.1.1
    cases h' with
    | none _ hno => exact absurd hf.2.1 (hno _ hf.1)
    | leave hf2 hc2 h2 => have := first_unique hf hf2; subst this; rw [hc] at hc2; cases hc2
    | replace hf2 hc2 _ h3 =>
      have := first_unique hf hf2; subst this
      rw [hc] at hc2; cases hc2
      have := ih h3 (Nat.le_refl _) hbn
      simp only [List.length_append]
      rw [hsl _ _ (by omega) (by omega), hsl _ _ (by omega) (by omega)]
      omega

/-- **C119, negation.**  Whenever the caller leaves the first match alone and it is not at the very beginning, the result is
too long: what stands in front of the match is written twice. -/
theorem leaving_repeats (eq : α → α → Bool) (um : Bool) (hm : um = true → ∀ a b, eq a b = true ↔ a = b)
    (d p : List α) (hp : p ≠ []) (hsz : p.length < 2 ^ 64) (choose : Nat → Option (List α × Nat)) (g extra i : Nat)
    (hin : ∀ i w n, MatchAt eq p d i → choose i = some (w, n) → i + p.length + n ≤ d.length)
    (hf : First eq p d 0 i) (h0 : 0 < i) (hc : choose i = none) :
    ∃ b n out, edit eq true um choose d p g extra = .ok (b, n) ∧ Edited eq p d choose 0 out ∧ out.length < n ∧
      d.take i <+: (b.filterMap id) ∧ d.take i <+: (b.filterMap id).drop i := by
  have hpl : 0 < p.length := List.length_pos_iff.2 hp
  have hb := hf.2.1.1
  obtain ⟨outW, hW⟩ := written_exists eq p d hp choose hin (d.length + 1) 0 (i + 1) (by omega)
  obtain ⟨outE, hE⟩ := edited_exists eq p d hp choose hin (d.length + 1) (i + 1) (by omega)
  obtain ⟨tail, e, _⟩ := edit_is_partial eq true um hm d p hp hsz choose g extra _ (.leave hf hc hW) (.inl rfl)
  have hl := written_longer hp hW hE (Nat.zero_le _) (by omega)
  have hsl : slice d 0 i = d.take i := by simp [slice]
  have hpre : d.take i <+: outW := by
    cases hW with
    | none => rw [List.drop_zero]; exact List.take_prefix _ _
    | @leave _ _ j out hf' =>
      have := hf'.1
      refine List.IsPrefix.trans ?_ (List.prefix_append _ _)
      unfold slice
      rw [List.drop_zero, show i = min i (j - 0) by omega, ← List.take_take]
      exact List.take_prefix _ _
    | @replace _ _ j w n out hf' =>
      have := hf'.1
      rw [List.append_assoc]
      refine List.IsPrefix.trans ?_ (List.prefix_append _ _)
      unfold slice
      rw [List.drop_zero, show i = min i (j - 0) by omega, ← List.take_take]
      exact List.take_prefix _ _
  have hfm : ((slice d 0 i ++ outW).map some ++ tail).filterMap id = d.take i ++ (outW ++ tail.filterMap id) := by
    rw [List.filterMap_append, List.filterMap_map, hsl, ← List.append_assoc]
    congr 1
    simp
  refine ⟨_, _, _, e, .leave hf hc hE, ?_, ?_, ?_⟩
  · rw [List.length_append, List.length_append]
    have h1 : (slice d 0 i).length = i := by unfold slice; simp; omega
    have h2 : (slice d 0 (i + 1)).length = i + 1 := by unfold slice; simp; omega
    omega
  · rw [hfm]; exact List.prefix_append _ _
  · rw [hfm, List.drop_append, List.drop_of_length_le (by simp; omega), List.nil_append]
    have : i - (d.take i).length = 0 := by simp; omega
    rw [this, List.drop_zero]
    exact hpre.trans (List.prefix_append _ _)

/-- "5 1 2" with the match left alone: the 5 is there twice. -/
example : edit (· == ·) true true (fun _ => none) [5, 1, 2] [1, 2] 8 0 = .ok ([some 5, some 5, some 1, some 2], 4) := by decide

end Verif.FastFind
