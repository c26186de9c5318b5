import Verif.RwLock.Lemmas

/-! # Who owns the write mutex while a writer waits for the readers to leave -/

namespace Verif.RwLock

/-- One thread at most owns the write mutex.  Unlike `Inv` this does not speak of the counter. -/
structure OwnW (s : S) (tw : Option Nat) : Prop where
  ws : s.wsem = true → tw = none
  hw : ∀ t, ownW (s.pc t) = true ∨ s.wr t = true → tw = some t
  nw : ∀ t, ownW (s.pc t) = true → s.wr t = false

theorem init_ownW : OwnW init none := by
  constructor <;> simp [init, ownW]

theorem OwnW.one {s : S} {tw} (h : OwnW s tw) {t u : Nat} (ht : ownW (s.pc t) = true)
    (hu : ownW (s.pc u) = true) : u = t := by
  have h1 := h.hw t (.inl ht)
  have h2 := h.hw u (.inl hu)
  rw [h1] at h2
  cases h2
  rfl

/-- The position of `WriteLock` after its first wait succeeded, as long as it did not give up. -/
def pressing : Pc → Bool
  | .wE | .wRet true => true
  | _ => false

/-- The position of `WriteLock` after it gave up. -/
def givenUp : Pc → Bool
  | .wRel | .wRet false => true
  | _ => false

/-- Positions from which a call cannot return true to a reader without the write mutex. -/
def early : Pc → Bool
  | .rC | .rReset | .rLoad | .rStore _ | .rRelC _ | .rRelW _ | .rRet true => false
  | _ => true

theorem pressing_own {p : Pc} (h : pressing p = true) : ownW p = true := by
  unfold pressing at h
  split at h <;> first | rfl | cases h

/-- What a step does, as far as the write mutex is concerned. -/
def StepW (s : S) (r : Option (S × List Label)) : Prop :=
  ∀ s' ls, r = some (s', ls) →
    (∃ tw', OwnW s' tw') ∧
    (∀ t, pressing (s.pc t) = true → .retWrite t true ∉ ls → .retWrite t false ∉ ls →
      pressing (s'.pc t) = true ∨ givenUp (s'.pc t) = true) ∧
    (∀ t, givenUp (s.pc t) = true → .retWrite t true ∉ ls → .retWrite t false ∉ ls → givenUp (s'.pc t) = true) ∧
    (∀ u, .enterR u ∈ ls → ownW (s.pc u) = true) ∧
    (∀ u, .enterW u ∈ ls → ownW (s.pc u) = true) ∧
    (∀ u, .retRead u true ∈ ls → early (s.pc u) = false) ∧
    (∀ u, .callRead u ∈ ls → early (s.pc u) = true) ∧
    (∀ t u, pressing (s.pc t) = true → early (s.pc u) = true → early (s'.pc u) = true)

theorem closed {s : S} {tw} (h : OwnW s tw) (t : Nat) (ht : pressing (s.pc t) = true) :
    s.wsem = false := by
  have := h.hw t (.inl (pressing_own ht))
  cases hw : s.wsem with
  | false => rfl
  | true => rw [h.ws hw] at this; cases this

set_option hygiene false in
macro "own" tw:term : tactic => `(tactic|
  (refine ⟨$tw, ?_⟩; constructor <;> simp only [S.goto, setAt] <;> grind [ownW, setAt]))

set_option hygiene false in
macro "rest" : tactic => `(tactic|
  (simp only [S.goto, setAt, List.mem_cons, List.not_mem_nil, or_false, false_imp_iff,
     implies_true, true_and, reduceCtorEq]
   clear h1 h2 h3
   try refine ⟨?_, ?_, ?_⟩
   all_goals grind [ownW, pressing, givenUp, early]))

theorem run_w {s : S} {tw} (h : OwnW s tw) (t : Nat) : StepW s (run s t) := by
  intro s' ls hs
  have h4 := closed h
  obtain ⟨h1, h2, h3⟩ := h
  unfold run at hs
  split at hs
  all_goals try split at hs
  all_goals first | (cases hs; done) | skip
  all_goals simp only [Option.some.injEq, retRead, retWrite, Prod.mk.injEq] at hs
  all_goals obtain ⟨rfl, rfl⟩ := hs
  all_goals
    refine ⟨?_, ?_⟩
    · first
      | own tw
      | own none
      | own (some t)
    · rest

theorem fail_w {s : S} {tw} (h : OwnW s tw) (t : Nat) : StepW s (fail s t) := by
  intro s' ls hs
  have h4 := closed h
  obtain ⟨h1, h2, h3⟩ := h
  unfold fail at hs
  split at hs
  all_goals first | (cases hs; done) | skip
  all_goals simp only [Option.some.injEq, Prod.mk.injEq] at hs
  all_goals obtain ⟨rfl, rfl⟩ := hs
  all_goals
    refine ⟨?_, ?_⟩
    · own tw
    · rest

theorem step_w {s : S} {tw} (h : OwnW s tw) (a : Act) : StepW s (step false s a) := by
  cases a with
  | run t => exact run_w h t
  | fail t => exact fail_w h t
  | _ =>
    intro s' ls hs
    have h4 := closed h
    obtain ⟨h1, h2, h3⟩ := h
    simp only [step] at hs
    split at hs
    · cases hs
      refine ⟨?_, ?_⟩
      · own tw
      · rest
    · cases hs

theorem exec_cons {free : Bool} {s : S} {a : Act} {as : List Act} :
    (step free s a = none ∧ exec free s (a :: as) = exec free s as) ∨
    ∃ s' l, step free s a = some (s', l) ∧
      exec free s (a :: as) = ((exec free s' as).1, l ++ (exec free s' as).2) := by
  cases h : step free s a with
  | none => left; exact ⟨rfl, by simp only [exec, h]⟩
  | some r => right; exact ⟨r.1, r.2, rfl, by simp only [exec, h]⟩

theorem exec_ownW (as : List Act) {s : S} {tw} (h : OwnW s tw) :
    ∃ tw', OwnW (exec false s as).1 tw' := by
  induction as generalizing s tw with
  | nil => exact ⟨tw, h⟩
  | cons a as ih =>
    rcases exec_cons (free := false) (s := s) (a := a) (as := as) with ⟨-, e⟩ | ⟨s', l, hs, e⟩
    · rw [e]; exact ih h
    · rw [e]
      obtain ⟨⟨tw', h'⟩, -⟩ := step_w h a s' l hs
      exact ih h'

theorem exec_givenUp (as : List Act) {s : S} {tw} (h : OwnW s tw) {t : Nat}
    (hg : givenUp (s.pc t) = true) (hr : ∀ b, .retWrite t b ∉ (exec false s as).2) :
    givenUp ((exec false s as).1.pc t) = true := by
  induction as generalizing s tw with
  | nil => exact hg
  | cons a as ih =>
    rcases exec_cons (free := false) (s := s) (a := a) (as := as) with ⟨-, e⟩ | ⟨s', l, hs, e⟩
    · rw [e] at hr ⊢; exact ih h hg hr
    · rw [e] at hr ⊢
      obtain ⟨⟨tw', h'⟩, -, h2, -⟩ := step_w h a s' l hs
      exact ih h' (h2 t hg (fun hb => hr _ (List.mem_append_left _ hb))
        fun hb => hr _ (List.mem_append_left _ hb))
        fun b hb => hr b (List.mem_append_right _ hb)

theorem not_both {p : Pc} (h1 : pressing p = true) (h2 : givenUp p = true) : False := by
  unfold pressing at h1
  split at h1 <;> cases h1 <;> cases h2

/-- While a writer presses, nobody else enters. -/
theorem exec_alone (as : List Act) {s : S} {tw} (h : OwnW s tw) {t : Nat}
    (hp : pressing (s.pc t) = true) (hr : ∀ b, .retWrite t b ∉ (exec false s as).2)
    (he : pressing ((exec false s as).1.pc t) = true) (u : Nat) :
    .enterR u ∉ (exec false s as).2 ∧ (.enterW u ∈ (exec false s as).2 → u = t) := by
  induction as generalizing s tw with
  | nil => exact ⟨(fun h => nomatch h), (fun h => nomatch h)⟩
  | cons a as ih =>
    rcases exec_cons (free := false) (s := s) (a := a) (as := as) with ⟨-, e⟩ | ⟨s', l, hs, e⟩
    · rw [e] at hr he ⊢; exact ih h hp hr he
    · rw [e] at hr he ⊢
      obtain ⟨⟨tw', h'⟩, h1, -, h3, h4, -⟩ := step_w h a s' l hs
      have hr1 : ∀ b, .retWrite t b ∉ l := fun b hb => hr b (List.mem_append_left _ hb)
      have hr2 : ∀ b, .retWrite t b ∉ (exec false s' as).2 :=
        fun b hb => hr b (List.mem_append_right _ hb)
      rcases h1 t hp (hr1 true) (hr1 false) with hp' | hg
      · obtain ⟨i1, i2⟩ := ih h' hp' hr2 he
        refine ⟨fun hm => ?_, fun hm => ?_⟩
        · rcases List.mem_append.1 hm with hm | hm
          · have := h.one (pressing_own hp) (h3 u hm)
            subst this
            have hl : s.pc u = .wE ∨ s.pc u = .wRet true := by
              unfold pressing at hp
              split at hp <;> simp_all
            have : l = [] ∨ l = [.enterW u] ∨ (∃ b, l = [.retWrite u b]) ∨ ∀ x, .enterR x ∈ l → x ≠ u := by
              right; right; right
              intro x hx e
              subst e
              cases a <;> simp only [step, run, fail] at hs <;> grind [S.goto, setAt, retRead, retWrite]
            rcases this with rfl | rfl | ⟨b, rfl⟩ | hx
            · cases hm
            · simp at hm
            · simp at hm
            · exact hx u hm rfl
          · exact i1 hm
        · rcases List.mem_append.1 hm with hm | hm
          · exact h.one (pressing_own hp) (h4 u hm)
          · exact i2 hm
      · exact absurd (exec_givenUp as h' hg hr2) fun hg' => not_both he hg'

/-- While a writer presses, a thread that is not past the write mutex does not become a reader. -/
theorem exec_early (as : List Act) {s : S} {tw} (h : OwnW s tw) {t : Nat}
    (hp : pressing (s.pc t) = true) (hr : ∀ b, .retWrite t b ∉ (exec false s as).2)
    (he : pressing ((exec false s as).1.pc t) = true) (u : Nat) :
    (early (s.pc u) = true → .retRead u true ∉ (exec false s as).2) ∧
    ∀ p q, (exec false s as).2 = p ++ .callRead u :: q → .retRead u true ∉ q := by
  induction as generalizing s tw with
  | nil => exact ⟨(fun _ h => nomatch h), fun p q e => by cases p <;> cases e⟩
  | cons a as ih =>
    rcases exec_cons (free := false) (s := s) (a := a) (as := as) with ⟨-, e⟩ | ⟨s', l, hs, e⟩
    · rw [e] at hr he ⊢; exact ih h hp hr he
    · rw [e] at hr he ⊢
      obtain ⟨⟨tw', h'⟩, h1, -, -, -, h5, h6, h7⟩ := step_w h a s' l hs
      have hr1 : ∀ b, .retWrite t b ∉ l := fun b hb => hr b (List.mem_append_left _ hb)
      have hr2 : ∀ b, .retWrite t b ∉ (exec false s' as).2 :=
        fun b hb => hr b (List.mem_append_right _ hb)
      rcases h1 t hp (hr1 true) (hr1 false) with hp' | hg
      · obtain ⟨i1, i2⟩ := ih h' hp' hr2 he
        have hA : early (s.pc u) = true → .retRead u true ∉ l ++ (exec false s' as).2 := by
          intro hu hm
          rcases List.mem_append.1 hm with hm | hm
          · rw [h5 u hm] at hu; cases hu
          · exact i1 (h7 t u hp hu) hm
        refine ⟨hA, fun p q e hm => ?_⟩
        dsimp only at e
        rcases List.append_eq_append_iff.1 e with ⟨x, e1, e2⟩ | ⟨x, e1, e2⟩
        · exact i2 x q e2 hm
        · cases x with
          | nil => exact i2 [] q (by simpa using e2.symm) hm
          | cons y ys =>
            simp only [List.cons_append, List.cons.injEq] at e2
            obtain ⟨rfl, rfl⟩ := e2
            have hcall : .callRead u ∈ l := by rw [e1]; simp
            refine hA (h6 u hcall) ?_
            rw [e1]
            simp only [List.append_assoc, List.mem_append, List.mem_cons] at hm ⊢
            grind
      · exact absurd (exec_givenUp as h' hg hr2) fun hg' => not_both he hg'

end Verif.RwLock
