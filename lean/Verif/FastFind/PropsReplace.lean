import Verif.FastFind.Props

/-!
# Property C29: replacing
-/

namespace Verif.FastFind

open Spec

set_option linter.unusedSectionVars false

variable {α : Type} [DecidableEq α]

theorem MatchAt.drop {eq : α → α → Bool} {p d : List α} {c i : Nat} (hc : c ≤ d.length) :
    MatchAt eq p (d.drop c) i ↔ MatchAt eq p d (c + i) := by
  unfold MatchAt
  simp only [List.length_drop, List.getElem?_drop, Nat.add_assoc]
  constructor
  · rintro ⟨h1, h2⟩; exact ⟨by omega, h2⟩
  · rintro ⟨h1, h2⟩; exact ⟨by omega, h2⟩

/-! ### Buffers -/

theorem memcpy_ok {β : Type} (A R src : List β) (n pos : Nat) (hp : pos = A.length) (h1 : n ≤ src.length)
    (h2 : n ≤ R.length) :
    memcpyTo (A ++ R) pos src n = .ok (A ++ src.take n ++ R.drop n) := by
  subst hp
  unfold memcpyTo
  rw [if_pos h1, if_pos (by simp; omega)]
  simp [List.drop_append, Nat.add_sub_cancel_left]

theorem regrow_ok {β : Type} (alloc : Bool) (A R : List (Option β)) (n c : Nat) (hn : A.length ≤ n)
    (hc : alloc = false → A.length ≤ c ∧ c ≤ n ∧ c ≤ (A ++ R).length) :
    ∃ R', regrow alloc (A ++ R) n c = .ok (A ++ R') ∧ (A ++ R').length = n := by
  unfold regrow
  cases alloc with
  | true =>
    simp only [if_true]
    refine ⟨R.take (n - A.length) ++ List.replicate (n - (A ++ R).length) none, ?_, ?_⟩
    · rw [List.take_append, List.take_of_length_le hn, List.append_assoc]
    · simp; omega
  | false =>
    obtain ⟨h1, h2, h3⟩ := hc rfl
    simp only [Bool.false_eq_true, if_false]
    unfold memcpyTo
    rw [if_pos h3, if_pos (by simp; omega)]
    refine ⟨R.take (c - A.length) ++ List.replicate (n - c) none, ?_, ?_⟩
    · rw [List.take_append, List.take_of_length_le h1]
      simp
    · simp at *; omega

theorem putSrc_ok (r : Repl α) (A R : List (Option α)) (n : Nat) (hb : r.buf = A ++ R)
    (hp : r.dataPos = A.length) (h1 : n ≤ R.length) (h2 : r.srcCurr + n ≤ r.src.length) :
    putSrc r n = .ok { r with
      buf := A ++ ((r.src.drop r.srcCurr).take n).map some ++ R.drop n,
      dataPos := r.dataPos + n } := by
  unfold putSrc
  split
  · rename_i h0
    subst h0
    simp [← hb]
  · rw [hb, hp, memcpy_ok A R _ n _ rfl (by simp; omega) h1, ok_bind, ← List.map_take]

/-! ### The search inside the replacement -/

/-- The finder will report the matches from `c` on. -/
def Ready (eq : α → α → Bool) (f : Find α) (p d : List α) (c : Nat) : Prop :=
  ∃ s : S α, Rel f s ∧ s.p = p ∧
    ((s.live = true ∧ s.d = d ∧ s.cursor = c) ∨
      (s.live = false ∧ ∀ j, c ≤ j → ¬ MatchAt eq p d j))

theorem Ready.none {eq : α → α → Bool} {f : Find α} {p d : List α} {c : Nat} (um : Bool)
    (hu : um = true → ∀ a b, eq a b = true ↔ a = b) (h : Ready eq f p d c)
    (hn : ∀ j, c ≤ j → ¬ MatchAt eq p d j) :
    ∃ f', findNext eq um f = .ok (none, f') := by
  obtain ⟨s, hr, rfl, ⟨h1, rfl, rfl⟩ | ⟨h1, _⟩⟩ := h
  · obtain ⟨f', e, _⟩ := hr.findNext eq um hu (.notFound s h1 hn)
    exact ⟨f', e⟩
  · obtain ⟨f', e, _⟩ := hr.findNext eq um hu (.ended s h1)
    exact ⟨f', e⟩

theorem Ready.some {eq : α → α → Bool} {f : Find α} {p d : List α} {c i : Nat} (um : Bool)
    (hu : um = true → ∀ a b, eq a b = true ↔ a = b) (hp : p ≠ []) (h : Ready eq f p d c) (hc : c ≤ i)
    (hm : MatchAt eq p d i) (hf : ∀ j, c ≤ j → j < i → ¬ MatchAt eq p d j) :
    ∃ f', findNext eq um f = .ok (some i, f') ∧
      ∃ f'', skipMatch f' 0 = .ok (some (i + p.length), f'') ∧ Ready eq f'' p d (i + p.length) := by
  obtain ⟨s, hr, rfl, ⟨h1, rfl, rfl⟩ | ⟨h1, h2⟩⟩ := h
  · obtain ⟨f', e, hr'⟩ := hr.findNext eq um hu (.found s i h1 hc hm hf)
    have hb := hm.1
    have hl : 0 < s.p.length := List.length_pos_iff.2 hp
    obtain ⟨f'', e2, hr2⟩ := hr'.skip eq 0 (.skip _ 0 h1 (by simp only; omega))
    refine ⟨f', e, f'', ?_, _, hr2, rfl, ?_⟩
    · rw [e2]; congr 3; simp only; omega
    · by_cases hlive : i + s.p.length + s.p.length ≤ s.d.length
      · left
        refine ⟨?_, rfl, ?_⟩
        · simp only [decide_eq_true_eq]; omega
        · simp only; omega
      · right
        refine ⟨?_, fun j hj hmj => ?_⟩
        · simp only [decide_eq_false_iff_not]; omega
        · have := hmj.1; omega
  · exact absurd hm (h2 i hc)

/-! ### Result in memory of the object's own -/

/-- The loop invariant of `ReplaceAll`: `o` is the output so far. -/
structure Dyn (eq : α → α → Bool) (r : Repl α) (p d o : List α) (e : Nat) : Prop where
  src : r.src = d
  srcEnd : r.srcEnd = d.length
  curr : r.srcCurr ≤ d.length
  alloc : r.allocated = true
  extra : r.extra = e
  buf : ∃ R, r.buf = o.map some ++ R
  pos : r.dataPos = o.length
  len : r.buf.length = r.dataSize + e
  fits : o.length ≤ r.dataSize
  ready : Ready eq r.find p d r.srcCurr

theorem replFindNext_none {eq : α → α → Bool} {alloc um : Bool} {r : Repl α} {p d o : List α}
    {e : Nat} (hu : um = true → ∀ a b, eq a b = true ↔ a = b) (h : Dyn eq r p d o e)
    (hn : ∀ j, r.srcCurr ≤ j → ¬ MatchAt eq p d j)
    (hs : alloc = true ∨ o.length + (d.length - r.srcCurr) ≤ r.dataSize) :
    ∃ r' R, replFindNext eq alloc um r = .ok (none, r') ∧
      r'.buf = (o ++ d.drop r.srcCurr).map some ++ R ∧ R.length = e ∧
      r'.dataPos = (o ++ d.drop r.srcCurr).length := by
  obtain ⟨f', e1⟩ := h.ready.none um hu hn
  obtain ⟨R, hR⟩ := h.buf
  unfold replFindNext
  rw [e1]
  simp only [ok_bind, h.srcEnd, h.pos, h.alloc, if_true, and_self, or_true, Nat.add_zero]
  obtain ⟨R', e2, hl2⟩ := regrow_ok alloc (o.map some) R (o.length + (d.length - r.srcCurr) + r.extra)
    (o.length + (d.length - r.srcCurr)) (by simp; omega) (by
      intro ha
      have hs := hs.resolve_left (by rw [ha]; simp)
      refine ⟨by simp, by omega, ?_⟩
      have := h.len
      rw [hR] at this
      rw [this]; omega)
  rw [hR, e2, ok_bind]
  simp only [List.length_append, List.length_map] at hl2
  rw [putSrc_ok _ (o.map some) R' (d.length - r.srcCurr) rfl (by simp)
    (by omega) (by simp only [h.src]; have := h.curr; omega), ok_bind]
  refine ⟨_, R'.drop (d.length - r.srcCurr), rfl, ?_, ?_, ?_⟩
  · simp only [h.src, List.map_append]
    rw [List.take_of_length_le (by simp)]
  · have := h.extra; simp; omega
  · simp

theorem replFindNext_some {eq : α → α → Bool} {alloc um : Bool} {r : Repl α} {p d o : List α}
    {e i : Nat} (hu : um = true → ∀ a b, eq a b = true ↔ a = b) (hp : p ≠ []) (h : Dyn eq r p d o e)
    (hc : r.srcCurr ≤ i) (hm : MatchAt eq p d i)
    (hf : ∀ j, r.srcCurr ≤ j → j < i → ¬ MatchAt eq p d j)
    (hs : alloc = true ∨ o.length + (i - r.srcCurr) ≤ r.dataSize) :
    ∃ r', replFindNext eq alloc um r = .ok (some i, r') ∧
      r'.src = d ∧ r'.srcEnd = d.length ∧ r'.allocated = true ∧ r'.extra = e ∧
      (∃ R, r'.buf = (o ++ (d.drop r.srcCurr).take (i - r.srcCurr)).map some ++ R) ∧
      r'.dataPos = o.length + (i - r.srcCurr) ∧ r'.buf.length = r'.dataSize + e ∧
      o.length + (i - r.srcCurr) ≤ r'.dataSize ∧ (alloc = false → r'.dataSize = r.dataSize) ∧
      ∃ f'', skipMatch r'.find 0 = .ok (some (i + p.length), f'') ∧
        Ready eq f'' p d (i + p.length) := by
  obtain ⟨f', e1, f'', e2, hr⟩ := h.ready.some um hu hp hc hm hf
  obtain ⟨R, hR⟩ := h.buf
  have hb := hm.1
  have hlen := h.len
  rw [hR] at hlen
  simp only [List.length_append, List.length_map] at hlen
  unfold replFindNext
  rw [e1]
  simp only [ok_bind, h.pos, h.alloc, if_true, reduceCtorEq, and_false, or_false, if_false]
  by_cases hg : r.dataSize < o.length + (i - r.srcCurr)
  · rw [if_pos hg]
    have ha : alloc = true := by
      rcases hs with h | h
      · exact h
      · omega
    obtain ⟨R', e3, hl3⟩ := regrow_ok alloc (o.map some) R
      (o.length + (i - r.srcCurr) + r.growth + r.extra)
      (o.length + (i - r.srcCurr) + r.growth) (by simp; omega) (by rw [ha]; exact (fun h => nomatch h))
    rw [hR, e3, ok_bind]
    simp only [List.length_append, List.length_map] at hl3
    rw [putSrc_ok _ (o.map some) R' (i - r.srcCurr) rfl (by simp)
      (by omega) (by simp only [h.src]; omega), ok_bind]
    refine ⟨_, rfl, h.src, h.srcEnd, rfl, h.extra, ⟨R'.drop (i - r.srcCurr), ?_⟩, rfl, ?_, ?_, ?_,
      f'', e2, hr⟩
    · simp only [h.src, List.map_append]
    · have := h.extra
      have := h.curr
      simp only [h.src, List.length_append, List.length_map, List.length_take, List.length_drop]
      omega
    · simp only; omega
    · rw [ha]; exact (fun h => nomatch h)
  · rw [if_neg hg]
    rw [putSrc_ok { r with find := f', allocated := true, dataPos := o.length } (o.map some) R
      (i - r.srcCurr) hR (by simp)
      (by omega) (by simp only [h.src]; omega), ok_bind]
    refine ⟨_, rfl, h.src, h.srcEnd, rfl, h.extra, ⟨R.drop (i - r.srcCurr), ?_⟩, rfl, ?_, ?_, ?_,
      f'', e2, hr⟩
    · simp only [h.src, List.map_append]
    · have := h.curr
      simp only [h.src, List.length_append, List.length_map, List.length_take, List.length_drop]
      omega
    · simp only; omega
    · intro _; rfl

theorem replPut_dyn {alloc : Bool} {r : Repl α} {o w : List α} {e : Nat}
    (ha : r.allocated = true) (hx : r.extra = e) (hb : ∃ R, r.buf = o.map some ++ R)
    (hp : r.dataPos = o.length) (hl : r.buf.length = r.dataSize + e) (hf : o.length ≤ r.dataSize) :
    ∃ r', replPut alloc r w = .ok r' ∧ r'.find = r.find ∧ r'.src = r.src ∧ r'.srcEnd = r.srcEnd ∧
      r'.allocated = true ∧ r'.extra = e ∧ (∃ R, r'.buf = (o ++ w).map some ++ R) ∧
      r'.dataPos = (o ++ w).length ∧ r'.buf.length = r'.dataSize + e ∧
      (o ++ w).length ≤ r'.dataSize ∧
      ((o ++ w).length ≤ r.dataSize → r'.dataSize = r.dataSize) := by
  obtain ⟨R, hR⟩ := hb
  rw [hR] at hl
  simp only [List.length_append, List.length_map] at hl
  unfold replPut
  by_cases h0 : w.length = 0
  · rw [if_pos h0]
    have : w = [] := List.eq_nil_of_length_eq_zero h0
    subst this
    refine ⟨r, rfl, rfl, rfl, rfl, ha, hx, ⟨R, by simpa using hR⟩, by simpa using hp, ?_, ?_, fun _ => rfl⟩
    · rw [hR]; simp; omega
    · simpa using hf
  · rw [if_neg h0, ha, hp]
    simp only [if_true]
    by_cases hg : r.dataSize < o.length + w.length
    · rw [if_pos hg]
      obtain ⟨R', e3, hl3⟩ := regrow_ok alloc (o.map some) R (o.length + w.length + r.growth + r.extra)
        (r.dataSize + r.extra) (by simp; omega) (by
          intro _
          refine ⟨by simp; omega, by omega, by simp; omega⟩)
      rw [hR, e3, ok_bind]
      simp only [List.length_append, List.length_map] at hl3
      rw [memcpy_ok (o.map some) R' _ w.length _ (by simp) (by simp) (by omega), ok_bind]
      refine ⟨_, rfl, rfl, rfl, rfl, rfl, hx, ⟨R'.drop w.length, ?_⟩, by simp, ?_, ?_, ?_⟩
      · simp only [List.map_append]; rw [List.take_of_length_le (by simp)]
      · simp only [List.length_append, List.length_map, List.length_take, List.length_drop]; omega
      · simp only [List.length_append]; omega
      · simp only [List.length_append]; intro h; omega
    · rw [if_neg hg]
      rw [hR, memcpy_ok (o.map some) R _ w.length _ (by simp) (by simp) (by omega), ok_bind]
      refine ⟨_, rfl, rfl, rfl, rfl, rfl, hx, ⟨R.drop w.length, ?_⟩, by simp, ?_, ?_, ?_⟩
      · simp only [List.map_append]; rw [List.take_of_length_le (by simp)]
      · simp only [List.length_append, List.length_map, List.length_take, List.length_drop]; omega
      · simp only [List.length_append]; omega
      · intro _; rfl

/-- The positions of the first match of a `Replaced` step, seen in the whole data. -/
theorem first_match {eq : α → α → Bool} {p d pre m post : List α} {c : Nat} (hc : c ≤ d.length)
    (hl : d.drop c = pre ++ m ++ post)
    (hm : MatchAt eq p (pre ++ m ++ post) pre.length)
    (hf : ∀ j, j < pre.length → ¬ MatchAt eq p (pre ++ m ++ post) j) :
    MatchAt eq p d (c + pre.length) ∧
      ∀ j, c ≤ j → j < c + pre.length → ¬ MatchAt eq p d j := by
  rw [← hl] at hm hf
  refine ⟨(MatchAt.drop hc).1 hm, fun j h1 h2 h3 => hf (j - c) (by omega) ((MatchAt.drop hc).2 ?_)⟩
  rwa [show c + (j - c) = j by omega]

theorem drop_after {d pre m post : List α} {c n : Nat} (hl : d.drop c = pre ++ m ++ post)
    (hm : m.length = n) : d.drop (c + pre.length + n) = post := by
  rw [Nat.add_assoc, ← List.drop_drop, hl, List.append_assoc, List.drop_append]
  rw [List.drop_of_length_le (by omega), List.nil_append, Nat.add_sub_cancel_left, ← hm]
  simp

theorem replLoop_dyn {eq : α → α → Bool} {alloc um : Bool} {p w d : List α} {limit e : Nat}
    (hu : um = true → ∀ a b, eq a b = true ↔ a = b) (hp : p ≠ []) {n k : Nat} {l out : List α}
    (hR : Replaced eq p w n k l out) :
    ∀ (fuel num : Nat) (r : Repl α) (o : List α), Dyn eq r p d o e → l = d.drop r.srcCurr → k < n →
      num + k ≤ limit → l.length < fuel → (alloc = true ∨ o.length + out.length ≤ r.dataSize) →
      ∃ r' R, replLoop eq alloc um w limit fuel num r = .ok (num + k, r') ∧
        r'.buf = (o ++ out).map some ++ R ∧ R.length = e ∧ r'.dataPos = (o ++ out).length := by
  induction hR with
  | limit l => intro _ _ _ _ _ _ h; omega
  | none n l hno =>
    intro fuel num r o h hl hk hnum hfuel hs
    obtain ⟨fuel, rfl⟩ : ∃ k, fuel = k + 1 := ⟨fuel - 1, by omega⟩
    have hno' : ∀ j, r.srcCurr ≤ j → ¬ MatchAt eq p d j := by
      intro j hj hmj
      apply hno (j - r.srcCurr)
      rw [hl, MatchAt.drop h.curr, show r.srcCurr + (j - r.srcCurr) = j by omega]
      exact hmj
    obtain ⟨r', R, e1, h1, h2, h3⟩ := replFindNext_none (alloc := alloc) hu h hno' (by
      rcases hs with hs | hs
      · exact .inl hs
      · right; rw [hl, List.length_drop] at hs; exact hs)
    refine ⟨r', R, ?_, by rw [hl]; exact h1, h2, by rw [hl]; exact h3⟩
    rw [replLoop, e1]
    simp
  | @step n k pre m post out hm hml hf hrest ih =>
    intro fuel num r o h hl hk hnum hfuel hs
    obtain ⟨fuel, rfl⟩ : ∃ k, fuel = k + 1 := ⟨fuel - 1, by omega⟩
    have hplen : 0 < p.length := List.length_pos_iff.2 hp
    obtain ⟨hm', hf'⟩ := first_match h.curr hl.symm hm hf
    obtain ⟨r1, e1, s1, s2, s3, s4, s5, s6, s7, s8, s9, f'', s10, s11⟩ :=
      replFindNext_some (alloc := alloc) hu hp h (Nat.le_add_right _ _) hm' hf' (by
        rcases hs with hs | hs
        · exact .inl hs
        · right
          simp only [List.length_append] at hs
          omega)
    rw [Nat.add_sub_cancel_left] at s5 s6 s8
    rw [← hl, List.append_assoc, List.take_left] at s5
    obtain ⟨r2, e2, t1, t2, t3, t4, t5, t6, t7, t8, t9, t10⟩ :=
      replPut_dyn (alloc := alloc) (w := w) s3 s4 s5 (by simpa using s6) s7
        (by simpa using s8)
    have hb := hm'.1
    have hrep : replace alloc r1 w = .ok
        { r2 with find := f'', srcCurr := r.srcCurr + pre.length + p.length } := by
      unfold replace
      rw [e2, ok_bind, t1, s10]
      simp only [ok_bind, ptr]
      rw [t3, s2, if_neg (by omega)]
    have hD : Dyn eq { r2 with find := f'', srcCurr := r.srcCurr + pre.length + p.length } p d
        (o ++ pre ++ w) e :=
      ⟨by simp only [t2, s1], by simp only [t3, s2], hb, t4, t5, t6, t7, t8, t9, s11⟩
    have hpost := drop_after hl.symm hml
    obtain ⟨r3, R, e3, u1, u2, u3⟩ := ih fuel (num + 1) _ _ hD hpost.symm (by omega) (by omega)
      (by simp only [List.length_append] at hfuel; omega) (by
        rcases hs with hs | hs
        · exact .inl hs
        · by_cases ha : alloc = true
          · exact .inl ha
          · right
            simp only [List.length_append] at hs ⊢ t10
            have := s9 (by simpa using ha)
            rw [t10 (by omega)]
            omega)
    refine ⟨r3, R, ?_, by rw [u1]; simp [List.append_assoc], u2, by rw [u3]; simp [List.append_assoc]⟩
    rw [replLoop, e1]
    simp only [ok_bind, Option.isSome_some, true_and]
    rw [if_pos (by omega), hrep, ok_bind, e3]
    congr 2
    omega

/-- What replacing does to the length. -/
theorem replaced_length {eq : α → α → Bool} {p w : List α} {n k : Nat} {l out : List α}
    (h : Replaced eq p w n k l out) : out.length + k * p.length = l.length + k * w.length := by
  induction h with
  | none => simp
  | limit => simp
  | step _ hl _ _ ih =>
    simp only [List.length_append, Nat.add_mul, Nat.one_mul]
    omega

theorem start_ready {eq : α → α → Bool} {p d : List α} {f : Find α} (hp : p ≠ [])
    (h : Rel f ⟨p, [], 0, false⟩) : Ready eq (setData f d) p d 0 := by
  refine ⟨_, h.setData d, rfl, ?_⟩
  by_cases hfit : p.length ≤ d.length
  · exact .inl ⟨by simp only [decide_eq_true_eq]; exact ⟨hp, hfit⟩, rfl, rfl⟩
  · exact .inr ⟨by simp [hfit], fun j _ hj => by have := hj.1; omega⟩

/-- **C29, main part.**  If left-to-right replacement with room for one more than `limit` makes
`k ≤ limit` replacements in `d` (that is, `d` has at most `limit` non-overlapping occurrences) and
gives `out`, then `ReplaceAll` returns `k` and a block holding exactly `out` followed by the `extra`
cells asked for, without undefined behaviour.  This holds for the classes with an allocator; for the
plain classes it needs that the result fits the first allocation. -/
theorem replace_all_partial (eq : α → α → Bool) (alloc um : Bool)
    (hm : um = true → ∀ a b, eq a b = true ↔ a = b) (d p w : List α) (hp : p ≠ [])
    (hsz : p.length < 2 ^ 64) (limit g extra k : Nat) (out : List α) (hk : k ≤ limit)
    (h : Replaced eq p w (limit + 1) k d out)
    (hfit : alloc = true ∨ out.length ≤ d.length + growthFor p w g) :
    ∃ tail, replaceAll eq alloc um none d p w limit g extra =
        .ok (k, out.map some ++ tail, out.length) ∧ tail.length = extra := by
  obtain ⟨f, e, hr⟩ := Rel.setPattern (f := Find.init) (s := S.init) eq p hsz
  unfold replaceAll
  rw [e, ok_bind]
  obtain ⟨r', R, e1, h1, h2, h3⟩ := replLoop_dyn (alloc := alloc) (limit := limit) (e := extra) hm hp h (d.length + 1) 0
    (replSetData f (growthFor p w g) extra d none) [] (d := d)
    ⟨rfl, rfl, Nat.zero_le _, rfl, rfl, ⟨_, rfl⟩, rfl, by simp [replSetData], Nat.zero_le _,
      start_ready hp hr⟩
    (by simp [replSetData]) (by omega) (by omega) (by omega) (by
      rcases hfit with h | h
      · exact .inl h
      · right; simpa [replSetData] using h)
  simp only at e1 ⊢
  rw [e1]
  simp only [ok_bind, h1, h3, List.nil_append, Nat.zero_add]
  exact ⟨R, rfl, h2⟩

/-- With the plain classes the result is right whenever the replacement is not longer than the
pattern, or there are at most fifty occurrences. -/
theorem replace_all_plain_partial (eq : α → α → Bool) (um : Bool)
    (hm : um = true → ∀ a b, eq a b = true ↔ a = b) (d p w : List α) (hp : p ≠ [])
    (hsz : p.length < 2 ^ 64) (limit g extra k : Nat) (out : List α) (hk : k ≤ limit)
    (h : Replaced eq p w (limit + 1) k d out) (hs : w.length ≤ p.length ∨ k ≤ 50) :
    ∃ tail, replaceAll eq false um none d p w limit g extra =
        .ok (k, out.map some ++ tail, out.length) ∧ tail.length = extra := by
  refine replace_all_partial eq false um hm d p w hp hsz limit g extra k out hk h (.inr ?_)
  have hl := replaced_length h
  rcases Nat.lt_or_ge p.length w.length with hlt | hge
  · have hk : k ≤ 50 := by
      rcases hs with h | h
      · omega
      · exact h
    have h1 : (w.length - p.length) * 50 ≤ growthFor p w g := by
      unfold growthFor; split <;> omega
    have h2 : k * w.length = k * p.length + k * (w.length - p.length) := by
      rw [← Nat.mul_add]; congr 1; omega
    have h3 : k * (w.length - p.length) ≤ 50 * (w.length - p.length) := Nat.mul_le_mul_right _ hk
    omega
  · have : k * w.length ≤ k * p.length := Nat.mul_le_mul_left _ hge
    omega

/-- Every list has a left-to-right replacement, for every limit. -/
theorem replaced_exists (eq : α → α → Bool) (p w : List α) (hp : p ≠ []) :
    ∀ (m n : Nat) (l : List α), l.length ≤ m → ∃ k out, k ≤ n ∧ Replaced eq p w n k l out := by
  have hpl : 0 < p.length := List.length_pos_iff.2 hp
  intro m
  induction m with
  | zero =>
    intro n l hl
    exact ⟨0, l, Nat.zero_le _, .none n l (fun i hi => by have := hi.1; omega)⟩
  | succ m ih =>
    intro n l hl
    cases n with
    | zero => exact ⟨0, l, Nat.le_refl _, .limit l⟩
    | succ n =>
      rcases least_or_none (MatchAt eq p l) 0 with ⟨i, _, h2, h3⟩ | h
      · have hb := h2.1
        obtain ⟨k, out, hk, hr⟩ := ih n ((l.drop i).drop p.length) (by simp; omega)
        have hsplit : l.take i ++ (l.drop i).take p.length ++ (l.drop i).drop p.length = l := by
          rw [List.append_assoc, List.take_append_drop, List.take_append_drop]
        have hlen : (l.take i).length = i := by simp; omega
        refine ⟨k + 1, l.take i ++ w ++ out, by omega, ?_⟩
        have := Replaced.step (eq := eq) (p := p) (w := w) (n := n) (k := k) (pre := l.take i)
          (m := (l.drop i).take p.length) (post := (l.drop i).drop p.length) (out := out)
          (by rw [hsplit, hlen]; exact h2) (by simp; omega)
          (by rw [hsplit, hlen]; exact fun j hj => h3 j (Nat.zero_le _) hj) hr
        rwa [hsplit] at this
      · exact ⟨0, l, Nat.zero_le _, .none _ l (fun i => h i (Nat.zero_le _))⟩

/-- The replacement is determined by the data: number and result are unique. -/
theorem replaced_unique {eq : α → α → Bool} {p w : List α} {n k : Nat}
    {l out : List α} (h : Replaced eq p w n k l out) :
    ∀ {k' : Nat} {out' : List α}, Replaced eq p w n k' l out' → k = k' ∧ out = out' := by
  induction h with
  | none n l hno =>
    intro k' out' h'
    cases h' with
    | none => exact ⟨rfl, rfl⟩
    | limit => exact ⟨rfl, rfl⟩
    | step hm => exact absurd hm (hno _)
  | limit l =>
    intro k' out' h'
    cases h' with
    | none => exact ⟨rfl, rfl⟩
    | limit => exact ⟨rfl, rfl⟩
  | @step n k pre m post out hm hml hf _ ih =>
    intro k' out' h'
    generalize hL : pre ++ m ++ post = L at h' hm hf
    cases h' with
    | none _ _ hno => exact absurd hm (hno _)
    | @step _ k2 pre2 m2 post2 out2 hm2 hml2 hf2 h2 =>
      have hlen : pre.length = pre2.length := by
        rcases Nat.lt_trichotomy pre.length pre2.length with h | h | h
        · exact absurd hm (hf2 _ h)
        · exact h
        · exact absurd hm2 (hf _ h)
      rw [List.append_assoc, List.append_assoc] at hL
      obtain ⟨rfl, h3⟩ := List.append_inj hL hlen
      obtain ⟨rfl, rfl⟩ := List.append_inj h3 (by omega)
      obtain ⟨rfl, rfl⟩ := ih h2
      exact ⟨rfl, rfl⟩

/-! ### Result in the caller's buffer -/

/-- The loop invariant of `StaticReplaceAll`: of the output `o` so far, the caller's buffer `b` has
received as much as fits; the rest of the buffer is untouched. -/
structure Stat (eq : α → α → Bool) (r : Repl α) (p d o : List α) (b : List (Option α)) : Prop where
  src : r.src = d
  srcEnd : r.srcEnd = d.length
  curr : r.srcCurr ≤ d.length
  alloc : r.allocated = false
  buf : r.buf = (o.take b.length).map some ++ b.drop o.length
  pos : r.dataPos = min b.length o.length
  size : r.dataSize = b.length
  ready : Ready eq r.find p d r.srcCurr

/-- Appending a piece to a buffer that may be too small. -/
theorem clip_append (o x : List α) (b : List (Option α)) (n : Nat)
    (hn : n = min x.length (b.length - o.length)) :
    (o.take b.length).map some ++ (x.take n).map some ++ (b.drop o.length).drop n =
      ((o ++ x).take b.length).map some ++ b.drop (o ++ x).length := by
  subst hn
  rw [List.take_append, List.map_append, List.drop_drop, List.length_append]
  congr 1
  · congr 2
    rcases Nat.le_total x.length (b.length - o.length) with h | h
    · rw [Nat.min_eq_left h, List.take_of_length_le (Nat.le_refl _), List.take_of_length_le h]
    · rw [Nat.min_eq_right h]
  · rcases Nat.le_total x.length (b.length - o.length) with h | h
    · rw [Nat.min_eq_left h]
    · rw [Nat.min_eq_right h, List.drop_of_length_le (by omega), List.drop_of_length_le (by omega)]

theorem putSrc_stat {eq : α → α → Bool} {r : Repl α} {p d o : List α} {b : List (Option α)}
    (h : Stat eq r p d o b) (f : Find α) (x y : List α) (hx : d.drop r.srcCurr = x ++ y) (n : Nat)
    (hn : n = min x.length (b.length - o.length)) :
    ∃ r', putSrc { r with find := f } n = .ok r' ∧ r'.src = d ∧ r'.srcEnd = d.length ∧
      r'.allocated = false ∧ r'.find = f ∧
      r'.buf = ((o ++ x).take b.length).map some ++ b.drop (o ++ x).length ∧
      r'.dataPos = min b.length (o ++ x).length ∧ r'.dataSize = b.length := by
  have hlx : x.length ≤ d.length - r.srcCurr := by
    have := congrArg List.length hx
    simp at this; omega
  have hcurr := h.curr
  rw [putSrc_ok { r with find := f } ((o.take b.length).map some) (b.drop o.length) n h.buf
    (by simp only [h.pos, List.length_map, List.length_take]) (by simp; omega)
    (by simp only [h.src]; omega)]
  refine ⟨_, rfl, h.src, h.srcEnd, h.alloc, rfl, ?_, ?_, h.size⟩
  · simp only [h.src, hx]
    rw [List.take_append_of_le_length (by omega)]
    exact clip_append o x b n hn
  · simp only [h.pos, List.length_append]; omega

theorem replPut_stat {r : Repl α} {o w : List α} {b : List (Option α)} (ha : r.allocated = false)
    (hb : r.buf = (o.take b.length).map some ++ b.drop o.length)
    (hp : r.dataPos = min b.length o.length) (hs : r.dataSize = b.length) (alloc : Bool) :
    ∃ r', replPut alloc r w = .ok r' ∧ r'.src = r.src ∧ r'.srcEnd = r.srcEnd ∧ r'.find = r.find ∧
      r'.allocated = false ∧
      r'.buf = ((o ++ w).take b.length).map some ++ b.drop (o ++ w).length ∧
      r'.dataPos = min b.length (o ++ w).length ∧ r'.dataSize = b.length := by
  unfold replPut
  by_cases h0 : w.length = 0
  · have : w = [] := List.eq_nil_of_length_eq_zero h0
    subst this
    rw [if_pos h0]
    exact ⟨r, rfl, rfl, rfl, rfl, ha, by simpa using hb, by simpa using hp, hs⟩
  · rw [if_neg h0, ha, hs, hp]
    simp only [Bool.false_eq_true, if_false]
    have hc : ∀ n, n = min w.length (b.length - o.length) →
        memcpyTo r.buf (min b.length o.length) (w.map some) n =
          .ok (((o ++ w).take b.length).map some ++ b.drop (o ++ w).length) := by
      intro n hn
      rw [hb, memcpy_ok _ _ _ _ _ (by simp) (by simp; omega) (by simp; omega), ← List.map_take,
        clip_append o w b n hn]
    split
    · rw [hc _ (by omega), ok_bind]
      exact ⟨_, rfl, rfl, rfl, rfl, rfl, rfl, by simp only [List.length_append]; omega, rfl⟩
    · rw [hc _ (by omega), ok_bind]
      exact ⟨_, rfl, rfl, rfl, rfl, rfl, rfl, by simp only [List.length_append]; omega, rfl⟩

theorem replLoop_stat {eq : α → α → Bool} {alloc um : Bool} {p w d : List α} {limit : Nat}
    {b : List (Option α)} (hu : um = true → ∀ a b, eq a b = true ↔ a = b) (hp : p ≠ []) {n k : Nat}
    {l out : List α} (hR : Replaced eq p w n k l out) :
    ∀ (fuel num : Nat) (r : Repl α) (o : List α), Stat eq r p d o b → l = d.drop r.srcCurr → k < n →
      num + k ≤ limit → l.length < fuel →
      ∃ r' num', replLoop eq alloc um w limit fuel num r = .ok (num', r') ∧ num ≤ num' ∧
        num' ≤ num + k ∧ ((o ++ out).length ≤ b.length → num' = num + k) ∧
        r'.buf = ((o ++ out).take b.length).map some ++ b.drop (o ++ out).length ∧
        r'.dataPos = min b.length (o ++ out).length := by
  induction hR with
  | limit l => intro _ _ _ _ _ _ h; omega
  | none n l hno =>
    intro fuel num r o h hl hk hnum hfuel
    obtain ⟨fuel, rfl⟩ : ∃ k, fuel = k + 1 := ⟨fuel - 1, by omega⟩
    have hno' : ∀ j, r.srcCurr ≤ j → ¬ MatchAt eq p d j := by
      intro j hj hmj
      apply hno (j - r.srcCurr)
      rw [hl, MatchAt.drop h.curr, show r.srcCurr + (j - r.srcCurr) = j by omega]
      exact hmj
    obtain ⟨f', e1⟩ := h.ready.none um hu hno'
    have hll : l.length = d.length - r.srcCurr := by rw [hl]; simp
    have hfin : ∃ r', replFindNext eq alloc um r = .ok (none, r') ∧
        r'.buf = ((o ++ l).take b.length).map some ++ b.drop (o ++ l).length ∧
        r'.dataPos = min b.length (o ++ l).length := by
      unfold replFindNext
      rw [e1]
      simp only [ok_bind, h.srcEnd, h.pos, h.alloc, Bool.false_eq_true, false_and, or_false, if_false,
        h.size]
      split
      · obtain ⟨r', e2, _, _, _, _, h5, h6, _⟩ := putSrc_stat h f' l [] (by simp [hl])
          (b.length - min b.length o.length) (by omega)
        simp only [h.srcEnd, h.pos, h.alloc, h.size] at e2
        rw [e2]
        exact ⟨r', rfl, h5, h6⟩
      · obtain ⟨r', e2, _, _, _, _, h5, h6, _⟩ := putSrc_stat h f' l [] (by simp [hl])
          (d.length - r.srcCurr) (by omega)
        simp only [h.srcEnd, h.pos, h.alloc, h.size] at e2
        rw [e2]
        exact ⟨r', rfl, h5, h6⟩
    obtain ⟨r', e2, h5, h6⟩ := hfin
    refine ⟨r', num, ?_, by omega, by omega, fun _ => rfl, h5, h6⟩
    rw [replLoop, e2]
    simp
  | @step n k pre m post out hm hml hf hrest ih =>
    intro fuel num r o h hl hk hnum hfuel
    obtain ⟨fuel, rfl⟩ : ∃ k, fuel = k + 1 := ⟨fuel - 1, by omega⟩
    have hplen : 0 < p.length := List.length_pos_iff.2 hp
    obtain ⟨hm', hf'⟩ := first_match h.curr hl.symm hm hf
    obtain ⟨f', e1, f'', e2, hr⟩ := h.ready.some um hu hp (Nat.le_add_right _ _) hm' hf'
    by_cases hg : b.length < min b.length o.length + pre.length
    · obtain ⟨r', e3, _, _, _, _, h5, h6, _⟩ := putSrc_stat h f' pre (m ++ post)
        (by rw [← hl, List.append_assoc]) (b.length - min b.length o.length) (by omega)
      have hover : b.length ≤ (o ++ pre).length := by simp only [List.length_append]; omega
      refine ⟨r', num, ?_, by omega, by omega, ?_, ?_, ?_⟩
      · rw [replLoop]
        unfold replFindNext
        rw [e1]
        simp only [ok_bind, h.pos, h.alloc, Bool.false_eq_true, false_and, or_false, if_false,
          h.size, Nat.add_sub_cancel_left]
        simp only [h.pos, h.alloc, h.size] at e3
        rw [if_pos hg, e3]
        simp
      · intro hle
        simp only [List.length_append] at hle
        omega
      · rw [h5]
        rw [show o ++ (pre ++ w ++ out) = (o ++ pre) ++ (w ++ out) by simp [List.append_assoc],
          List.take_append_of_le_length hover]
        rw [List.drop_of_length_le hover, List.drop_of_length_le (by
          simp only [List.length_append] at hover ⊢; omega)]
      · rw [h6]; simp only [List.length_append] at hover ⊢; omega
    · obtain ⟨r1, e3, s1, s2, s3, s4, s5, s6, s7⟩ := putSrc_stat h f' pre (m ++ post)
        (by rw [← hl, List.append_assoc]) pre.length (by omega)
      obtain ⟨r2, e4, t1, t2, t3, t4, t5, t6, t7⟩ := replPut_stat (w := w) s3 s5 s6 s7 alloc
      have hb := hm'.1
      have hrep : replace alloc r1 w = .ok
          { r2 with find := f'', srcCurr := r.srcCurr + pre.length + p.length } := by
        unfold replace
        rw [e4, ok_bind, t3, s4, e2]
        simp only [ok_bind, ptr]
        rw [t2, s2, if_neg (by omega)]
      have hS : Stat eq { r2 with find := f'', srcCurr := r.srcCurr + pre.length + p.length } p d
          (o ++ pre ++ w) b :=
        ⟨by simp only [t1, s1], by simp only [t2, s2], hb, t4, t5, t6, t7, hr⟩
      have hpost := drop_after hl.symm hml
      obtain ⟨r3, num', e5, u0, u1, u2, u3, u4⟩ := ih fuel (num + 1) _ _ hS hpost.symm (by omega)
        (by omega) (by simp only [List.length_append] at hfuel; omega)
      refine ⟨r3, num', ?_, by omega, by omega, ?_, ?_, ?_⟩
      · rw [replLoop]
        unfold replFindNext
        rw [e1]
        simp only [ok_bind, h.pos, h.alloc, Bool.false_eq_true, false_and, or_false, if_false,
          h.size, Nat.add_sub_cancel_left]
        simp only [h.pos, h.alloc, h.size] at e3
        rw [if_neg hg, e3]
        simp only [ok_bind, Option.isSome_some, true_and]
        rw [if_pos (by omega), hrep, ok_bind, e5]
      · intro hle
        have := u2 (by simp only [List.length_append] at hle ⊢; omega)
        omega
      · rw [u3]; simp only [List.append_assoc]
      · rw [u4]; simp only [List.append_assoc]

/-- **C29, caller's buffer.**  `StaticReplaceAll` puts as much of the replaced data as fits into the
caller's buffer, leaves the rest of the buffer alone and reports the number of elements placed; if
everything fits, the number of replacements is returned. -/
theorem static_replace_all_partial (eq : α → α → Bool) (alloc um : Bool)
    (hm : um = true → ∀ a b, eq a b = true ↔ a = b) (b : List (Option α)) (d p w : List α)
    (hp : p ≠ []) (hsz : p.length < 2 ^ 64) (limit g extra k : Nat) (out : List α) (hk : k ≤ limit)
    (h : Replaced eq p w (limit + 1) k d out) :
    ∃ num, replaceAll eq alloc um (some b) d p w limit g extra =
        .ok (num, (out.take b.length).map some ++ b.drop out.length, min b.length out.length) ∧
      num ≤ k ∧ (out.length ≤ b.length → num = k) := by
  obtain ⟨f, e, hr⟩ := Rel.setPattern (f := Find.init) (s := S.init) eq p hsz
  unfold replaceAll
  rw [e, ok_bind]
  obtain ⟨r', num, e1, h0, h1, h2, h3, h4⟩ := replLoop_stat (alloc := alloc) (limit := limit) hm hp h
    (d.length + 1) 0 (replSetData f (growthFor p w g) extra d (some b)) [] (d := d) (b := b)
    ⟨rfl, rfl, Nat.zero_le _, rfl, by simp [replSetData], by simp [replSetData], rfl,
      start_ready hp hr⟩
    (by simp [replSetData]) (by omega) (by omega) (by omega)
  simp only at e1 ⊢
  rw [e1]
  simp only [List.nil_append, Nat.zero_add] at h1 h2 h3 h4
  simp only [ok_bind, h3, h4]
  exact ⟨num, rfl, h1, h2⟩

/-! ### Size conventions and the empty pattern -/

theorem sized_none (nz : α → Bool) : ∀ (a : List α) (z : α) (rest : List α),
    (∀ x ∈ a, nz x = true) → nz z = false → sized nz (a ++ z :: rest) none = .ok a
  | [], z, rest, _, hz => by simp [sized, objectSize, hz, Except.map]
  | x :: a, z, rest, ha, hz => by
    have ih := sized_none nz a z rest (fun y hy => ha y (List.mem_cons_of_mem _ hy)) hz
    simp only [sized] at ih ⊢
    rw [List.cons_append, objectSize, if_pos (ha x List.mem_cons_self)]
    cases ho : objectSize nz (a ++ z :: rest) with
    | error e => rw [ho] at ih; cases ih
    | ok k =>
      rw [ho] at ih
      have := Except.ok.inj ih
      show Except.ok ((x :: (a ++ z :: rest)).take (k + 1)) = _
      simp only at this
      rw [List.take_succ_cons, this]

/-- A size of `(size_t)-1` for pattern and replacement means the elements before the first zero. -/
theorem sizes_up_to_zero (eq : α → α → Bool) (nz : α → Bool) (alloc um : Bool)
    (res : Option (List (Option α))) (d p w : List α) (z z' : α) (r r' : List α)
    (limit g extra : Nat) (hp : ∀ x ∈ p, nz x = true) (hw : ∀ x ∈ w, nz x = true)
    (hz : nz z = false) (hz' : nz z' = false) :
    replaceAllSized eq nz alloc um res d (p ++ z :: r) none (w ++ z' :: r') none limit g extra =
      replaceAll eq alloc um res d p w limit g extra := by
  unfold replaceAllSized
  rw [sized_none nz p z r hp hz, ok_bind, sized_none nz w z' r' hw hz', ok_bind]

/-- Explicit sizes take exactly that many elements of pattern and replacement. -/
theorem sizes_explicit (eq : α → α → Bool) (nz : α → Bool) (alloc um : Bool)
    (res : Option (List (Option α))) (d p w r r' : List α) (limit g extra : Nat) :
    replaceAllSized eq nz alloc um res d (p ++ r) (some p.length) (w ++ r') (some w.length)
      limit g extra = replaceAll eq alloc um res d p w limit g extra := by
  have e : ∀ a b : List α, sized nz (a ++ b) (some a.length) = .ok a := by
    intro a b
    simp [sized]
  unfold replaceAllSized
  rw [e, ok_bind, e, ok_bind]

/-- With an empty pattern `ReplaceAll` returns a copy of the data. -/
theorem empty_pattern_copies (eq : α → α → Bool) (alloc um : Bool) (d w : List α)
    (limit g extra : Nat) :
    ∃ tail, replaceAll eq alloc um none d [] w limit g extra =
        .ok (0, d.map some ++ tail, d.length) ∧ tail.length = extra := by
  unfold replaceAll
  rw [setPattern, if_pos List.length_nil, ok_bind]
  simp only
  have hoff : ∀ r : Repl α, r.find.pat = none → findNext eq um r.find = .ok (none, r.find) :=
    fun r h => findNext_off eq um r.find (.inl h)
  have hpat : (replSetData { (Find.init : Find α) with pat := none, lastPos := 0 }
      (growthFor [] w g) extra d none).find.pat = none := by
    simp only [replSetData, setData]; repeat' split
    all_goals rfl
  obtain ⟨R', e3, hl3⟩ := regrow_ok alloc ([] : List (Option α))
    (List.replicate (d.length + growthFor [] w g + extra) none) (d.length + extra) d.length
    (Nat.zero_le _) (fun _ => ⟨Nat.zero_le _, by omega, by simp; omega⟩)
  simp only [List.nil_append] at e3 hl3
  have hfn : ∃ r', replFindNext eq alloc um (replSetData
      { (Find.init : Find α) with pat := none, lastPos := 0 } (growthFor [] w g) extra d none) =
      .ok (none, r') ∧ r'.buf = d.map some ++ R'.drop d.length ∧ r'.dataPos = d.length := by
    unfold replFindNext
    rw [hoff _ hpat]
    simp only [ok_bind]
    have h1 : (replSetData { (Find.init : Find α) with pat := none, lastPos := 0 }
      (growthFor [] w g) extra d none).buf =
        List.replicate (d.length + growthFor [] w g + extra) none := rfl
    simp only [replSetData, and_self, or_true, if_true, Nat.zero_add, Nat.sub_zero, Nat.add_zero]
    rw [e3, ok_bind]
    rw [putSrc_ok _ [] R' d.length rfl rfl (by omega) (by simp), ok_bind]
    refine ⟨_, rfl, ?_, ?_⟩
    · simp
    · simp
  obtain ⟨r', e4, h1, h2⟩ := hfn
  rw [replLoop, e4]
  simp only [ok_bind, Option.isSome_none, Bool.false_eq_true, false_and, if_false, h1, h2]
  exact ⟨_, rfl, by simp; omega⟩

/-! ### Where the code departs from C29 -/

/-- The hypotheses are met: two replacements in a longer text. -/
example : Replaced (· == ·) [1, 2] [7, 7, 7] 3 2 [0, 1, 2, 5, 1, 2, 1] [0, 7, 7, 7, 5, 7, 7, 7, 1] := by
  have h (l : List Nat) (i : Nat) : MatchAt (· == ·) [1, 2] l i ↔ l[i]? = some 1 ∧ l[i + 1]? = some 2 := by
    constructor
    · rintro ⟨h1, h2⟩
      simp only [List.length_cons, List.length_nil] at h1
      have a1 := h2 0 1 _ rfl (List.getElem?_eq_getElem (by omega))
      have a2 := h2 1 2 _ rfl (List.getElem?_eq_getElem (by omega))
      simp only [beq_iff_eq] at a1 a2
      rw [List.getElem?_eq_getElem (by omega), List.getElem?_eq_getElem (by omega), ← a2]
      exact ⟨by simpa using a1.symm, rfl⟩
    · rintro ⟨h1, h2⟩
      obtain ⟨h3, _⟩ := List.getElem?_eq_some_iff.1 h2
      refine ⟨h3, fun k a b ha hb => ?_⟩
      match k with
      | 0 => cases ha; rw [Nat.add_zero, h1] at hb; cases hb; rfl
      | 1 => cases ha; rw [h2] at hb; cases hb; rfl
      | k + 2 => simp at ha
  refine .step (pre := [0]) (m := [1, 2]) (post := [5, 1, 2, 1]) (out := [5, 7, 7, 7, 1])
    ((h _ _).2 (by decide)) rfl (fun j hj => ?_) ?_
  · rw [h]; match j, hj with
    | 0, _ => decide
  · refine .step (pre := [5]) (m := [1, 2]) (post := [1]) (out := [1])
      ((h _ _).2 (by decide)) rfl (fun j hj => ?_) (.none _ _ fun i => ?_)
    · rw [h]; match j, hj with
      | 0, _ => decide
    · rw [h]; match i with
      | 0 => decide
      | i + 1 => simp

/-- **C29 fails at the limit.**  Asked to replace one of two occurrences, the code stops in front of
the second and loses the rest of the data. -/
theorem limit_loses_tail :
    replaceAll (· == ·) true true none [1, 0, 1, 5, 6] [1] [9] 1 4 0 =
      .ok (1, [some 9, some 0, none, none, none, none, none, none, none], 2) := by decide

/-- **C29 fails in the plain classes.**  With 52 occurrences and a replacement one longer than the
pattern, the last `FindNext` copies the old block with the size of the new one and reads past it;
the classes with an allocator give the right result. -/
theorem plain_growth_overreads :
    replaceAll (· == ·) false true none (List.replicate 52 1 ++ [0, 0]) [1] [2, 2] 100 0 1 =
      .error .oobRead := by decide +kernel

example : (replaceAll (· == ·) true true none (List.replicate 52 1 ++ [0, 0]) [1] [2, 2] 100 0 1).map
      (fun r => (r.1, r.2.2)) = .ok (52, 106) := by decide +kernel

end Verif.FastFind
