import Verif.Client.MutexShort

/-! # The invariant of the program -/

namespace Verif.Client

open Verif.Mutex (Label)
open Verif.Mutex.Spec

variable {S A σ : Type}

theorem phase_none (t : Nat) (ls : List Label) : phase t none ls = none := by
  induction ls with
  | nil => rfl
  | cons l ls ih =>
    rw [phase]
    split
    · exact ih
    · exact ih

theorem phase_before {t : Nat} {p : Option Phase} {a b : List Label} (h : (phase t p (a ++ b)).isSome = true) :
    (phase t p a).isSome = true := by
  rw [Verif.Mutex.phase_append] at h
  cases e : phase t p a with
  | none => rw [e, phase_none] at h; cases h
  | some q => rfl

theorem J_follow {ls : List Label} : ∀ {cl cl' : Nat → Cl σ} {tr : List Label}, J cl tr → follow cl ls = some cl' →
    (∀ t, (phase t (some .out) (tr ++ ls)).isSome = true) → J cl' (tr ++ ls) := by
  induction ls with
  | nil => intro cl cl' tr h hf _; cases hf; rw [List.append_nil]; exact h
  | cons l ls ih =>
    intro cl cl' tr h hf hp
    rw [follow] at hf
    cases hs : see cl l with
    | none => rw [hs] at hf; cases hf
    | some cl1 =>
      rw [hs] at hf
      have e : tr ++ l :: ls = (tr ++ [l]) ++ ls := by simp
      rw [e] at hp ⊢
      exact ih (J_one h hs (fun t => phase_before (hp t))) hf hp

theorem shallow_more {cl : Nat → Cl σ} {tr ls : List Label} (h : J cl tr) (hs : Shallow tr) (hl : ls.length ≤ 2) :
    Shallow (tr ++ ls) := by
  intro q hq t o
  obtain ⟨r, e⟩ := hq
  rcases List.append_eq_append_iff.1 e with ⟨x, rfl, rfl⟩ | ⟨x, rfl, rfl⟩
  · exact hs q (List.prefix_append _ _) t o
  · rw [Verif.Mutex.depth_append]
    have h1 := (h t).le o
    have h2 := depth_le t o x (depth t o 0 tr)
    rw [List.length_append] at hl
    have h1 : depth t o 0 tr ≤ 1 := h1
    omega

theorem see_loaded {cl cl' : Nat → Cl σ} {l : Label} (h : see cl l = some cl') {t o : Nat} {v : σ}
    (hc : cl' t = .loaded o v) : cl t = .loaded o v := by
  by_cases hw : who l = t
  · subst hw
    cases l with
    | callLock u o' w =>
      unfold see at h
      dsimp only at h
      split at h <;> cases h
      simp only [who, put_self] at hc
      cases hc
    | callUnlock u o' b =>
      unfold see at h
      dsimp only at h
      split at h
      · split at h <;> cases h
        simp only [who, put_self] at hc
        cases hc
      · cases h
    | retLock u o' r => cases r <;> cases h <;> simp only [who, put_self] at hc <;> cases hc
    | retUnlock u o' b r => cases r <;> cases h <;> simp only [who, put_self] at hc <;> cases hc
    | _ => cases h; exact hc
  · rw [← see_other h hw]; exact hc

theorem follow_loaded {ls : List Label} : ∀ {cl cl' : Nat → Cl σ}, follow cl ls = some cl' → ∀ {t o : Nat} {v : σ},
    cl' t = .loaded o v → cl t = .loaded o v := by
  induction ls with
  | nil => intro cl cl' h t o v hc; cases h; exact hc
  | cons l ls ih =>
    intro cl cl' hf t o v hc
    rw [follow] at hf
    cases hs : see cl l with
    | none => rw [hs] at hf; cases hf
    | some cl1 => rw [hs] at hf; exact see_loaded hs (ih hf hc)

theorem J_put {cl : Nat → Cl σ} {tr : List Label} {t : Nat} {x : Cl σ} (h : J cl tr)
    (hx : ∀ d p, Rel (cl t) d p → Rel x d p) : J (put cl t x) tr := by
  intro u
  by_cases e : u = t
  · subst e; rw [put_self]; exact hx _ _ (h u)
  · rw [put_ne _ _ e]; exact h u

/-- Inside: the lock is held. -/
theorem holds_of {cl : Nat → Cl σ} {tr : List Label} {t o : Nat} (h : J cl tr)
    (hc : cl t = .inside o ∨ ∃ v, cl t = .loaded o v) : Holds t o tr := by
  have ht := h t
  rcases hc with e | ⟨v, e⟩ <;> rw [e] at ht <;> refine ⟨?_, ht.2⟩ <;> have := ht.1 o <;>
    simp only [↓reduceIte] at this <;> omega

structure Inv (step : S → A → CRes (Option (S × List Label))) (init : S) (quits : A → Option Nat)
    (f : Nat → σ → σ) (d : σ) (s : St S σ) : Prop where
  trace : Trace step init quits s.lib s.tr
  j : J s.cl s.tr
  sh : Shallow s.tr
  data : s.data = s.stores.foldl (fun d t => f t d) d
  seen : ∀ t o v, s.cl t = .loaded o v → v = s.data

theorem inv {step : S → A → CRes (Option (S × List Label))} {init : S} {quits : A → Option Nat}
    (g : Good step init quits) {f : Nat → σ → σ} {d : σ} {s : St S σ} (h : Run step init quits f d s) :
    Inv step init quits f d s := by
  induction h with
  | start =>
    refine ⟨.nil, fun t => ⟨fun o => rfl, rfl⟩, fun q hq t o => ?_, rfl, fun t o v e => nomatch e⟩
    have hq : q <+: [] := hq
    rw [List.prefix_nil.1 hq]
    exact (by decide : (0 : Nat) < 4294967295)
  | @lib s a c ls cl hr hs hf hq ih =>
    have hsh := shallow_more ih.j ih.sh (g.short _ _ _ _ hs)
    have htr : Trace step init quits c (s.tr ++ ls) := .snoc ih.trace hs fun t ht o => by
      have hj := ih.j t
      have hq := hq t ht
      cases hc : s.cl t with
      | idle => rw [hc] at hj; exact hj.1 o
      | _ => rw [hc] at hq; cases hq
    exact ⟨htr, J_follow ih.j hf (g.phase _ _ htr hsh), hsh, ih.data,
      fun t o v e => ih.seen t o v (follow_loaded hf e)⟩
  | @load s t o hr hc ih =>
    refine ⟨ih.trace, J_put ih.j fun d p h => by rw [hc] at h; exact h, ih.sh, ih.data, fun u o' v e => ?_⟩
    dsimp only at e
    by_cases hu : u = t
    · subst hu; rw [put_self] at e; cases e; rfl
    · rw [put_ne _ _ hu] at e; exact ih.seen u o' v e
  | @store s t o v hr hc ih =>
    refine ⟨ih.trace, J_put ih.j fun d p h => by rw [hc] at h; exact h, ih.sh, ?_, fun u o' v' e => ?_⟩
    · dsimp only
      rw [List.foldl_append, ← ih.data, ih.seen t o v hc]
      rfl
    · dsimp only at e
      by_cases hu : u = t
      · subst hu; rw [put_self] at e; cases e
      · rw [put_ne _ _ hu] at e
        exact absurd (g.one _ _ ih.trace ih.sh u o' t o (holds_of ih.j (.inr ⟨_, e⟩)) (holds_of ih.j (.inr ⟨_, hc⟩))) hu

/-! ## POSIX -/

theorem posix_trace {c : Mutex.Full.S} {ls : List Label} {q : Mutex.Full.Act → Option Nat}
    (h : Trace Mutex.Full.step Mutex.Full.init q c ls) :
    ∃ as, Mutex.Full.exec Mutex.Full.init as = .ok (c, ls) := by
  have app : ∀ (as : List Mutex.Full.Act) (a : Mutex.Full.Act) (s s1 c : Mutex.Full.S) (l1 l2 : List Label),
      Mutex.Full.exec s as = .ok (s1, l1) → Mutex.Full.step s1 a = .ok (some (c, l2)) →
      Mutex.Full.exec s (as ++ [a]) = .ok (c, l1 ++ l2) := by
    intro as
    induction as with
    | nil =>
      intro a s s1 c l1 l2 h1 h2
      cases h1
      simp [Mutex.Full.exec, h2]
    | cons b as ih =>
      intro a s s1 c l1 l2 h1 h2
      rw [List.cons_append, Mutex.Full.exec]
      rw [Mutex.Full.exec] at h1
      cases hb : Mutex.Full.step s b with
      | error e => rw [hb] at h1; cases h1
      | ok r =>
        rw [hb, ok_bind] at h1
        rw [ok_bind]
        match r with
        | none => exact ih a s s1 c l1 l2 h1 h2
        | some (s', l) =>
          dsimp only at h1 ⊢
          cases he : Mutex.Full.exec s' as with
          | error e => rw [he] at h1; cases h1
          | ok p =>
            obtain ⟨s'', ls⟩ := p
            rw [he, ok_bind] at h1
            cases h1
            rw [ih a s' _ c _ l2 he h2, ok_bind, List.append_assoc]
  induction h with
  | nil => exact ⟨[], rfl⟩
  | snoc _ hs _ ih =>
    obtain ⟨as, h⟩ := ih
    exact ⟨as ++ [_], app _ _ _ _ _ _ _ h hs⟩

theorem posix_good : Good Mutex.Full.step Mutex.Full.init (fun _ => none) where
  short := fun _ _ _ _ h => posix_short h
  phase := fun s ls h hs => by
    obtain ⟨as, h⟩ := posix_trace h
    exact (Mutex.Full.full_linearizable_partial as s ls h hs).2
  one := fun s ls h hs t o t' o' h1 h2 => by
    obtain ⟨as, h⟩ := posix_trace h
    exact (Mutex.Full.full_exclusive_partial as s ls h hs t o t' o' h1 h2).1

/-! ## Windows -/

theorem win_trace {c : WinMutex.S} {ls : List Label} (h : Trace WinMutex.step WinMutex.init winQuits c ls) :
    ∃ as, WinMutex.exec WinMutex.init as = .ok (c, ls) ∧ WinMutex.Spec.Orderly as := by
  induction h with
  | nil => exact ⟨[], rfl, fun p t q e => by simp at e⟩
  | @snoc s c a tr ls _ hs hq ih =>
    obtain ⟨as, h, ho⟩ := ih
    refine ⟨as ++ [a], WinMutex.exec_append h (by simp [WinMutex.exec, hs]), fun p t q e => ?_⟩
    intro s' ls' he
    rcases List.append_eq_append_iff.1 e with ⟨x, hp, hx⟩ | ⟨x, hp, hx⟩
    · cases x with
      | nil =>
        rw [List.append_nil] at hp
        subst hp
        simp only [List.nil_append, List.cons.injEq] at hx
        obtain ⟨rfl, -⟩ := hx
        rw [h] at he
        cases he
        exact hq t rfl
      | cons y x =>
        have := congrArg List.length hx
        simp at this
    · cases x with
      | nil =>
        rw [List.append_nil] at hp
        subst hp
        simp only [List.nil_append, List.cons.injEq] at hx
        obtain ⟨rfl, -⟩ := hx
        rw [h] at he
        cases he
        exact hq t rfl
      | cons y x =>
        simp only [List.cons_append, List.cons.injEq] at hx
        obtain ⟨rfl, -⟩ := hx
        exact ho p t x hp s' ls' he

theorem win_good : Good WinMutex.step WinMutex.init winQuits where
  short := fun _ _ _ _ h => win_short h
  phase := fun s ls h hs => by
    obtain ⟨as, h, ho⟩ := win_trace h
    exact (WinMutex.win_mutex_linearizable as ho s ls h hs).2
  one := fun s ls h hs t o t' o' h1 h2 => by
    obtain ⟨as, h, ho⟩ := win_trace h
    exact WinMutex.win_mutex_exclusive as ho s ls h hs t o t' o' h1 h2

end Verif.Client
