import Verif.FastFind.Lemmas

/-!
# Properties C28 and C29: finding and replacing
-/

namespace Verif.FastFind

open Spec

set_option linter.unusedSectionVars false

variable {α : Type} [DecidableEq α]

/-! ## C28 -/

/-- The object and the abstract search agree. -/
structure Rel (f : Find α) (s : S α) : Prop where
  empty : s.p = [] → f.pat = none ∧ f.lastPos = 0 ∧ s.live = false
  pat : s.p ≠ [] → PatOK f s.p ∧ f.hasData = s.live
  run : s.live = true → f.obj = s.d ∧ f.cur = s.cursor ∧ f.dataEnd = s.d.length - (s.p.length - 1) ∧
    s.p.length ≤ s.d.length ∧ s.cursor ≤ f.dataEnd

theorem Rel.init : Rel (Find.init : Find α) S.init :=
  ⟨fun _ => ⟨rfl, rfl, rfl⟩, fun h => absurd rfl h, (fun h => nomatch h)⟩

/-- The call an operation stands for. -/
def Op.call : Op α → Call α
  | .setPattern p => .setPattern p
  | .setData d => .setData d
  | .findNext _ => .findNext
  | .skipMatch e => .skipMatch e

/-- `memcmp` is used only where equality of elements is equality of bytes. -/
def Op.legal (eq : α → α → Bool) (o : Op α) : Prop :=
  o = .findNext true → ∀ a b, eq a b = true ↔ a = b

theorem ne_of_len {p : List α} (h : 0 < p.length) : p ≠ [] := by
  intro e; subst e; exact absurd h (Nat.lt_irrefl _)

theorem MatchAt.bound {eq : α → α → Bool} {p d : List α} {i : Nat} (h : MatchAt eq p d i) :
    i + p.length ≤ d.length := h.1

theorem findNext_off (eq : α → α → Bool) (u : Bool) (f : Find α)
    (h : f.pat = none ∨ f.hasData = false) : FastFind.findNext eq u f = .ok (none, f) := by
  unfold FastFind.findNext
  split
  · rename_i h1 h2
    rcases h with h | h
    · rw [h] at h2; cases h2
    · rw [h] at h1; cases h1
  · rfl

theorem skipMatch_off (f : Find α) (e : Nat)
    (h : f.pat = none ∨ f.hasData = false) : skipMatch f e = .ok (none, f) := by
  unfold skipMatch
  split
  · rename_i h1 h2
    rcases h with h | h
    · rw [h] at h2; cases h2
    · rw [h] at h1; cases h1
  · rfl

theorem skipMatch_on (f : Find α) (e : Nat) (p : List α) (hp : f.pat = some p)
    (hd : f.hasData = true) (hb : f.cur + (f.lastPos + e) ≤ f.obj.length) :
    skipMatch f e = .ok (some (f.cur + (f.lastPos + e)),
      { f with
        cur := f.cur + (f.lastPos + e),
        hasData := if f.cur + (f.lastPos + e) ≥ f.dataEnd then false else true }) := by
  unfold skipMatch
  split
  · simp only; rw [if_pos hb]
  · rename_i h; exact absurd hp (h p hd)

theorem Rel.findNext {f : Find α} {s : S α} (h : Rel f s) (eq : α → α → Bool) (u : Bool)
    (hu : u = true → ∀ a b, eq a b = true ↔ a = b) {r : Option Nat} {s' : S α}
    (hs : Step eq s .findNext r s') :
    ∃ f', findNext eq u f = .ok (r, f') ∧ Rel f' s' := by
  by_cases hl : s.live = true
  · have hp : s.p ≠ [] := fun e => by have := (h.empty e).2.2; rw [hl] at this; cases this
    obtain ⟨hok, hd⟩ := h.pat hp
    obtain ⟨r1, r2, r3, r4, r5⟩ := h.run hl
    have hn := hok.ne
    obtain ⟨c, e, c1, c2, c3, c4⟩ := scan_ok eq s.p s.d _ _ (strategy_ok eq f s.p u hok hu) hn
      (f.dataEnd - f.cur) f.cur (by omega)
    unfold FastFind.findNext
    rw [hd, hl, hok.pat]
    simp only [r1, hok.lastPos, e, ok_bind]
    by_cases hc : c < f.dataEnd
    · rw [if_pos hc]
      have hm := c4 (by omega)
      cases hs with
      | found i _ h1 h2 h3 =>
        have hic : i = c := by
          rcases Nat.lt_trichotomy i c with h' | h' | h'
          · exact absurd h2 (c3 i (by omega) h')
          · exact h'
          · exact absurd hm (h3 c (by omega) h')
        subst hic
        refine ⟨_, rfl, fun e => absurd e hp, fun _ => ⟨?_, hl.symm⟩, fun _ => ⟨rfl, rfl, r3, r4, ?_⟩⟩
        · exact ⟨hok.1, rfl, rfl, hok.4, hok.5, hok.6, hok.7, hok.8, hok.9, hok.10⟩
        · have := hm.1; simp only; omega
      | notFound _ h1 => exact absurd hm (h1 c (by omega))
      | ended h1 => rw [hl] at h1; cases h1
    · rw [if_neg hc]
      have hno : ∀ j, s.cursor ≤ j → ¬ MatchAt eq s.p s.d j := by
        intro j hj hm
        have := hm.1
        exact c3 j (by omega) (by omega) hm
      cases hs with
      | found i _ h1 h2 h3 => exact absurd h2 (hno i h1)
      | notFound _ h1 =>
        refine ⟨_, rfl, fun e => absurd e hp, fun _ => ⟨?_, rfl⟩, (fun h => nomatch h)⟩
        exact ⟨hok.1, rfl, rfl, hok.4, hok.5, hok.6, hok.7, hok.8, hok.9, hok.10⟩
      | ended h1 => rw [hl] at h1; cases h1
  · have hl : s.live = false := by simpa using hl
    cases hs with
    | found i h1 => rw [hl] at h1; cases h1
    | notFound h1 => rw [hl] at h1; cases h1
    | ended h1 =>
      refine ⟨f, ?_, h⟩
      apply findNext_off
      by_cases hp : s.p = []
      · exact .inl (h.empty hp).1
      · exact .inr (by rw [(h.pat hp).2, hl])

theorem Rel.skip {f : Find α} {s : S α} (h : Rel f s) (eq : α → α → Bool) (e : Nat)
    {r : Option Nat} {s' : S α} (hs : Step eq s (.skipMatch e) r s') :
    ∃ f', skipMatch f e = .ok (r, f') ∧ Rel f' s' := by
  cases hs with
  | skip _ hl hb =>
    have hp : s.p ≠ [] := fun e => by have := (h.empty e).2.2; rw [hl] at this; cases this
    obtain ⟨hok, hd⟩ := h.pat hp
    obtain ⟨r1, r2, r3, r4, r5⟩ := h.run hl
    have hn := hok.ne
    have e1 := skipMatch_on f e s.p hok.pat (by rw [hd, hl]) (by rw [r1, r2, hok.lastPos]; omega)
    have e2 : f.cur + (f.lastPos + e) = s.cursor + (s.p.length - 1) + e := by
      rw [r2, hok.lastPos]; omega
    rw [e2] at e1
    refine ⟨_, e1, fun e => absurd e hp, fun _ => ⟨?_, ?_⟩, fun hl' => ⟨r1, rfl, r3, r4, ?_⟩⟩
    · exact ⟨hok.1, hok.2, hok.3, hok.4, hok.5, hok.6, hok.7, hok.8, hok.9, hok.10⟩
    · simp only
      split
      · symm; rw [decide_eq_false_iff_not]; omega
      · symm; rw [decide_eq_true_iff]; omega
    · simp only [decide_eq_true_eq] at hl' ⊢
      omega
  | skipEnded _ hl =>
    refine ⟨f, ?_, h⟩
    apply skipMatch_off
    by_cases hp : s.p = []
    · exact .inl (h.empty hp).1
    · exact .inr (by rw [(h.pat hp).2, hl])

theorem Rel.setData {f : Find α} {s : S α} (h : Rel f s) (d : List α) :
    Rel (FastFind.setData f d)
      { s with d := d, cursor := 0, live := decide (s.p ≠ [] ∧ s.p.length ≤ d.length) } := by
  by_cases hp : s.p = []
  · obtain ⟨h1, h2, h3⟩ := h.empty hp
    refine ⟨fun _ => ⟨?_, ?_, ?_⟩, fun hh => absurd hp hh, fun hl => ?_⟩
    · unfold FastFind.setData; simp only; repeat' split
      all_goals exact h1
    · unfold FastFind.setData; simp only; repeat' split
      all_goals exact h2
    · simp [hp]
    · simp [hp] at hl
  · obtain ⟨hok, hd⟩ := h.pat hp
    have hn := hok.ne
    have hk := hok.lastPos
    unfold FastFind.setData
    by_cases hfit : s.p.length ≤ d.length
    · simp only
      rw [if_pos (show d.length > f.lastPos by omega), if_neg (by omega)]
      refine ⟨fun e => absurd e hp, fun _ => ⟨?_, ?_⟩, fun hl' => ⟨rfl, rfl, ?_, hfit, Nat.zero_le _⟩⟩
      · exact ⟨hok.1, hok.2, hok.3, hok.4, hok.5, hok.6, hok.7, hok.8, hok.9, hok.10⟩
      · symm; simp only [decide_eq_true_eq]; exact ⟨hp, hfit⟩
      · simp only [hk]
    · simp only
      rw [if_neg (show ¬ d.length > f.lastPos by omega), if_pos rfl]
      refine ⟨fun e => absurd e hp, fun _ => ⟨?_, ?_⟩, fun hl' => ?_⟩
      · exact ⟨hok.1, hok.2, hok.3, hok.4, hok.5, hok.6, hok.7, hok.8, hok.9, hok.10⟩
      · simp [hfit]
      · simp [hfit] at hl'

theorem Rel.setPattern {f : Find α} {s : S α} (eq : α → α → Bool) (p : List α)
    (hp : p.length < 2 ^ 64) :
    ∃ f', FastFind.setPattern eq f p = .ok f' ∧ Rel f' { s with p := p, live := false } := by
  by_cases h0 : p.length = 0
  · refine ⟨_, by rw [FastFind.setPattern, if_pos h0], ?_⟩
    refine ⟨fun _ => ⟨rfl, rfl, rfl⟩, fun hne => absurd (List.eq_nil_of_length_eq_zero h0) hne,
      (fun h => nomatch h)⟩
  · obtain ⟨f', e, hok, hd⟩ := setPattern_ok eq f p (by omega) hp
    exact ⟨f', e, fun e => absurd (by simp [show p = [] from e]) h0, fun _ => ⟨hok, hd⟩,
      (fun h => nomatch h)⟩

theorem step_refines {f : Find α} {s : S α} (h : Rel f s) (eq : α → α → Bool) (o : Op α)
    (ho : o.legal eq) {r : Option Nat} {s' : S α} (hs : Step eq s o.call r s') :
    ∃ f', step eq f o = .ok (r, f') ∧ Rel f' s' := by
  cases o with
  | setPattern p =>
    cases hs with
    | setPattern _ hp =>
      obtain ⟨f', e, hr⟩ := Rel.setPattern (f := f) (s := s) eq p hp
      exact ⟨f', by rw [step, e]; rfl, hr⟩
  | setData d =>
    cases hs with
    | setData => exact ⟨_, rfl, h.setData d⟩
  | findNext u => exact h.findNext eq u (fun hu => ho (by rw [hu])) hs
  | skipMatch e => exact h.skip eq e hs

theorem run_refines (eq : α → α → Bool) : ∀ (ops : List (Op α)) {f : Find α} {s s' : S α}
    {rs : List (Option Nat)}, Rel f s → (∀ o ∈ ops, o.legal eq) →
    Runs eq s (ops.map Op.call) rs s' → ∃ f', run eq f ops = .ok (rs, f') ∧ Rel f' s'
  | [], f, s, s', rs, h, _, hr => by
    cases hr; exact ⟨f, rfl, h⟩
  | o :: os, f, s, s', rs, h, hl, hr => by
    cases hr with
    | cons h1 h2 =>
      obtain ⟨f1, e1, r1⟩ := step_refines h eq o (hl o List.mem_cons_self) h1
      obtain ⟨f2, e2, r2⟩ := run_refines eq os r1 (fun o ho => hl o (List.mem_cons_of_mem _ ho)) h2
      exact ⟨f2, by rw [run, e1]; simp only [ok_bind, e2], r2⟩

/-- **C28, histories.**  For every history of calls on a new `FastFind` object that the
specification allows, the code has no undefined behaviour and returns what the specification says.
`memcmp` may be asked for only if elements compare equal exactly when they are identical. -/
theorem finder_refines (eq : α → α → Bool) (ops : List (Op α)) (rs : List (Option Nat)) (s : S α)
    (hl : ∀ o ∈ ops, o.legal eq) (h : Runs eq S.init (ops.map Op.call) rs s) :
    ∃ f, run eq Find.init ops = .ok (rs, f) := by
  obtain ⟨f, e, _⟩ := run_refines eq ops Rel.init hl h
  exact ⟨f, e⟩

theorem least_or_none (P : Nat → Prop) (a : Nat) :
    (∃ i, a ≤ i ∧ P i ∧ ∀ j, a ≤ j → j < i → ¬ P j) ∨ (∀ j, a ≤ j → ¬ P j) := by
  by_cases h : ∃ j, a ≤ j ∧ P j
  · left
    obtain ⟨j, hj⟩ := h
    induction j using Nat.strongRecOn with
    | _ j ih =>
      by_cases h' : ∃ i, i < j ∧ a ≤ i ∧ P i
      · obtain ⟨i, hi, hh⟩ := h'; exact ih i hi hh
      · exact ⟨j, hj.1, hj.2, fun i h1 h2 h3 => h' ⟨i, h2, h1, h3⟩⟩
  · right
    exact fun j h1 h2 => h ⟨j, h1, h2⟩

/-- The specification says what happens for every call whose pattern is an object of the address
space and whose skip stays inside the data. -/
theorem spec_total (eq : α → α → Bool) (s : S α) (o : Call α)
    (hp : ∀ p, o = .setPattern p → p.length < 2 ^ 64)
    (hs : ∀ e, o = .skipMatch e → s.live = true → s.cursor + (s.p.length - 1) + e ≤ s.d.length) :
    ∃ r s', Step eq s o r s' := by
  cases o with
  | setPattern p => exact ⟨_, _, .setPattern s p (hp p rfl)⟩
  | setData d => exact ⟨_, _, .setData s d⟩
  | findNext =>
    by_cases hl : s.live = true
    · rcases least_or_none (MatchAt eq s.p s.d) s.cursor with ⟨i, h1, h2, h3⟩ | h
      · exact ⟨_, _, .found s i hl h1 h2 h3⟩
      · exact ⟨_, _, .notFound s hl h⟩
    · exact ⟨_, _, .ended s (by simpa using hl)⟩
  | skipMatch e =>
    by_cases hl : s.live = true
    · exact ⟨_, _, .skip s e hl (hs e rfl hl)⟩
    · exact ⟨_, _, .skipEnded s e (by simpa using hl)⟩

/-- The positions from `a` on satisfying `P`, in order, up to `a + n`. -/
theorem positions (P : Nat → Prop) : ∀ (n a : Nat), (∀ j, P j → j < a + n) →
    ∃ L : List Nat, L.Pairwise (· < ·) ∧ ∀ i, i ∈ L ↔ a ≤ i ∧ P i
  | 0, a, hb => ⟨[], .nil, fun i => ⟨fun h => (nomatch h), fun h => by have := hb i h.2; omega⟩⟩
  | n + 1, a, hb => by
    obtain ⟨L, h1, h2⟩ := positions P n (a + 1) (fun j hj => by have := hb j hj; omega)
    by_cases ha : P a
    · refine ⟨a :: L, List.pairwise_cons.2 ⟨fun i hi => by have := (h2 i).1 hi; omega, h1⟩, fun i => ?_⟩
      rw [List.mem_cons, h2]
      constructor
      · rintro (rfl | h)
        · exact ⟨Nat.le_refl _, ha⟩
        · exact ⟨by omega, h.2⟩
      · rintro ⟨h, hp⟩
        by_cases hi : i = a
        · exact .inl hi
        · exact .inr ⟨by omega, hp⟩
    · refine ⟨L, h1, fun i => ?_⟩
      rw [h2]
      constructor
      · rintro ⟨h, hp⟩; exact ⟨by omega, hp⟩
      · rintro ⟨h, hp⟩
        refine ⟨?_, hp⟩
        rcases Nat.lt_or_ge a i with h' | h'
        · exact h'
        · exact absurd (by rwa [show i = a by omega] at hp) ha

/-- Repeated searching, on the specification side. -/
theorem runs_all (eq : α → α → Bool) : ∀ (n : Nat) (s : S α) (L : List Nat),
    L.Pairwise (· < ·) → (∀ i, i ∈ L ↔ s.live = true ∧ s.cursor ≤ i ∧ MatchAt eq s.p s.d i) →
    ∃ s', Runs eq s (List.replicate n .findNext)
      ((L.map some ++ List.replicate n none).take n) s'
  | 0, s, L, _, _ => ⟨s, by simpa using Runs.nil s⟩
  | n + 1, s, [], _, hm => by
    have : ∃ s1, Step eq s .findNext none s1 ∧ s1.live = false := by
      by_cases hl : s.live = true
      · exact ⟨_, .notFound s hl (fun j hj h => by
          have := (hm j).2 ⟨hl, hj, h⟩; cases this), rfl⟩
      · exact ⟨s, .ended s (by simpa using hl), by simpa using hl⟩
    obtain ⟨s1, h1, hl1⟩ := this
    obtain ⟨s', h'⟩ := runs_all eq n s1 [] .nil (fun i => by simp [hl1])
    refine ⟨s', ?_⟩
    rw [List.replicate_succ, List.map_nil, List.nil_append, List.replicate_succ, List.take_succ_cons]
    exact .cons h1 (by simpa using h')
  | n + 1, s, i :: L, hp, hm => by
    have hi := (hm i).1 List.mem_cons_self
    have hlt := List.pairwise_cons.1 hp
    have h1 : Step eq s .findNext (some i) { s with cursor := i + 1 } :=
      .found s i hi.1 hi.2.1 hi.2.2 (fun j h1 h2 h3 => by
        rcases List.mem_cons.1 ((hm j).2 ⟨hi.1, h1, h3⟩) with h | h
        · omega
        · have := hlt.1 j h; omega)
    obtain ⟨s', h'⟩ := runs_all eq n { s with cursor := i + 1 } L hlt.2 (fun j => by
      constructor
      · intro hj
        have := (hm j).1 (List.mem_cons_of_mem _ hj)
        have h2 := hlt.1 j hj
        exact ⟨this.1, h2, this.2.2⟩
      · rintro ⟨h1, h2, h3⟩
        simp only at h1 h2 h3
        rcases List.mem_cons.1 ((hm j).2 ⟨h1, by omega, h3⟩) with h | h
        · omega
        · exact h)
    refine ⟨s', ?_⟩
    rw [List.replicate_succ, List.map_cons, List.cons_append, List.take_succ_cons]
    refine .cons h1 ?_
    have : (L.map some ++ List.replicate (n + 1) none).take n =
        (L.map some ++ List.replicate n (none : Option Nat)).take n := by
      rw [List.take_append, List.take_append]
      simp only [List.take_replicate]
      congr 2
      omega
    rw [this]
    exact h'

/-- **C28.**  For every non-empty pattern and all data there is a list `L` holding exactly the
positions at which the pattern occurs, in increasing order, such that any number of `FindNext`
calls return the elements of `L` one after the other and then NULL for ever, without undefined
behaviour (in particular without reading outside pattern and data). -/
theorem finds_exactly (eq : α → α → Bool) (um : Bool) (hm : um = true → ∀ a b, eq a b = true ↔ a = b)
    (p d : List α) (hp : p ≠ []) (hsz : p.length < 2 ^ 64) :
    ∃ L : List Nat, L.Pairwise (· < ·) ∧ (∀ i, i ∈ L ↔ MatchAt eq p d i) ∧
      ∀ n, ∃ f, run eq Find.init
        (.setPattern p :: .setData d :: List.replicate n (.findNext um)) =
        .ok (none :: none :: (L.map some ++ List.replicate n none).take n, f) := by
  obtain ⟨L, h1, h2⟩ := positions (MatchAt eq p d) (d.length + 1) 0
    (fun j hj => by have := hj.1; omega)
  refine ⟨L, h1, fun i => (h2 i).trans ⟨fun h => h.2, fun h => ⟨Nat.zero_le _, h⟩⟩, fun n => ?_⟩
  obtain ⟨s', hr⟩ := runs_all eq n ⟨p, d, 0, decide (p ≠ [] ∧ p.length ≤ d.length)⟩ L h1 (fun i => by
    rw [h2]
    constructor
    · rintro ⟨_, h⟩
      exact ⟨decide_eq_true ⟨hp, by have := h.1; omega⟩, Nat.zero_le _, h⟩
    · rintro ⟨_, _, h⟩; exact ⟨Nat.zero_le _, h⟩)
  refine finder_refines eq _ _ s' ?_ ?_
  · intro o ho ha
    rw [ha] at ho
    simp only [List.mem_cons, List.mem_replicate] at ho
    rcases ho with h | h | ⟨_, h⟩
    · cases h
    · cases h
    · exact hm (by cases h; rfl)
  · simp only [List.map_cons, List.map_replicate, Op.call]
    exact .cons (.setPattern _ p hsz) (.cons (.setData _ d) hr)

/-- Overlapping occurrences, with every kind of comparison. -/
example : (run (· == ·) Find.init [.setPattern [1, 2, 1], .setData [1, 2, 1, 2, 1, 3, 1, 2, 1],
      .findNext true, .findNext true, .findNext false, .findNext true, .findNext true]).map (·.1) =
    .ok [none, none, some 0, some 2, some 6, none, none] := by decide

/-- Skipping past a match, with a pattern long enough for all five probes. -/
example : (run (· == ·) Find.init
      [.setPattern [0, 1, 1, 1, 2, 2, 2, 3, 3, 3, 4, 4, 4, 5, 5, 5, 0],
       .setData ([9] ++ [0, 1, 1, 1, 2, 2, 2, 3, 3, 3, 4, 4, 4, 5, 5, 5, 0] ++
         [1, 1, 1, 2, 2, 2, 3, 3, 3, 4, 4, 4, 5, 5, 5, 0]),
       .findNext true, .findNext true, .setData [], .findNext true]).map (·.1) =
    .ok [none, none, some 1, some 17, none, none] := by decide

end Verif.FastFind
