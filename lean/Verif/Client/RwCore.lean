import Verif.Client.RwModel
import Verif.Client.MutexSpec
import Verif.Client.MutexLemmas
import Verif.RwLock.PropsFull
import Verif.WinRwLock.Props

/-! # The invariant of the program with a reader-writer lock -/

namespace Verif.Client.Rw

open Verif.RwLock (Label)
open Verif.RwLock.Spec (reading writing who Few readers)

variable {S A σ : Type}

/-- Histories of the library. -/
inductive Trace (step : S → A → CRes (Option (S × List Label))) (init : S) : S → List Label → Prop
  | nil : Trace step init init []
  | snoc {s c : S} {a : A} {tr ls : List Label} : Trace step init s tr → step s a = .ok (some (c, ls)) →
      Trace step init c (tr ++ ls)

/-- What is used of the library, for histories of a kind. -/
structure Good (step : S → A → CRes (Option (S × List Label))) (init : S) (P : List Label → Prop) : Prop where
  cut : ∀ a b, P (a ++ b) → P a
  one : ∀ s ls, Trace step init s ls → P ls → ∀ t u, writing t false ls = true → writing u false ls = true → t = u
  no : ∀ s ls, Trace step init s ls → P ls → ∀ t u, writing t false ls = true → reading u 0 ls = 0

theorem reading_append (t : Nat) (a b : List Label) (n : Nat) :
    reading t n (a ++ b) = reading t (reading t n a) b := by
  induction a generalizing n with
  | nil => rfl
  | cons l a ih =>
    cases l with
    | retRead u r => cases r <;> exact ih _
    | _ => exact ih _

theorem writing_append (t : Nat) (a b : List Label) (w : Bool) :
    writing t w (a ++ b) = writing t (writing t w a) b := by
  induction a generalizing w with
  | nil => rfl
  | cons l a ih =>
    cases l with
    | retWrite u r => cases r <;> exact ih _
    | _ => exact ih _

/-- The locks a thread has, and where it is. -/
def Rel (c : Cl σ) (r : Nat) (w : Bool) : Prop :=
  (∀ x, c = .reading x → 0 < r) ∧ ∀ v, c = .writing v → w = true

def J (cl : Nat → Cl σ) (tr : List Label) : Prop := ∀ t, Rel (cl t) (reading t 0 tr) (writing t false tr)

theorem J_one {cl cl' : Nat → Cl σ} {tr : List Label} {l : Label} (h : J cl tr) (hs : see cl l = some cl') :
    J cl' (tr ++ [l]) := by
  intro t
  have ht := h t
  rw [reading_append, writing_append]
  generalize reading t 0 tr = r at ht ⊢
  generalize writing t false tr = w at ht ⊢
  cases l with
  | callRead u => simp only [see] at hs; (split at hs <;> cases hs <;> unfold Rel at ht ⊢ <;> simp only [reading, writing, put] <;> grind)
  | callWrite u => simp only [see] at hs; (split at hs <;> cases hs <;> unfold Rel at ht ⊢ <;> simp only [reading, writing, put] <;> grind)
  | callReadUnlock u => simp only [see] at hs; (split at hs <;> cases hs <;> unfold Rel at ht ⊢ <;> simp only [reading, writing, put] <;> grind)
  | callWriteUnlock u => simp only [see] at hs; (split at hs <;> cases hs <;> unfold Rel at ht ⊢ <;> simp only [reading, writing, put] <;> grind)
  | retRead u r => cases r <;> simp only [see] at hs <;> (split at hs <;> cases hs <;> unfold Rel at ht ⊢ <;> simp only [reading, writing, put] <;> grind)
  | retWrite u r => cases r <;> simp only [see] at hs <;> (split at hs <;> cases hs <;> unfold Rel at ht ⊢ <;> simp only [reading, writing, put] <;> grind)
  | retReadUnlock u r => cases r <;> simp only [see] at hs <;> (split at hs <;> cases hs <;> unfold Rel at ht ⊢ <;> simp only [reading, writing, put] <;> grind)
  | retWriteUnlock u r => cases r <;> simp only [see] at hs <;> (split at hs <;> cases hs <;> unfold Rel at ht ⊢ <;> simp only [reading, writing, put] <;> grind)
  | _ => cases hs; exact ht

/-- What a step of the library changes for a thread that reads or writes: nothing, unless it unlocks; and what
comes new knows nothing yet. -/
theorem see_old {cl cl' : Nat → Cl σ} {l : Label} (hs : see cl l = some cl') (t : Nat) :
    (∀ seen, cl' t = .reading seen → cl t = .reading seen ∨ seen = []) ∧
    (∀ v, cl' t = .writing v → cl t = .writing v ∨ v = none) ∧
    (ready l = false → ∀ v, cl t = .writing v → cl' t = .writing v) := by
  cases l with
  | callRead u => simp only [see] at hs; (split at hs <;> cases hs <;> simp only [put, ready] <;> grind)
  | callWrite u => simp only [see] at hs; (split at hs <;> cases hs <;> simp only [put, ready] <;> grind)
  | callReadUnlock u => simp only [see] at hs; (split at hs <;> cases hs <;> simp only [put, ready] <;> grind)
  | callWriteUnlock u => simp only [see] at hs; (split at hs <;> cases hs <;> simp only [put, ready] <;> grind)
  | retRead u r => cases r <;> simp only [see] at hs <;> (split at hs <;> cases hs <;> simp only [put, ready] <;> grind)
  | retWrite u r => cases r <;> simp only [see] at hs <;> (split at hs <;> cases hs <;> simp only [put, ready] <;> grind)
  | retReadUnlock u r => cases r <;> simp only [see] at hs <;> (split at hs <;> cases hs <;> simp only [put, ready] <;> grind)
  | retWriteUnlock u r => cases r <;> simp only [see] at hs <;> (split at hs <;> cases hs <;> simp only [put, ready] <;> grind)
  | _ => cases hs; exact ⟨fun _ h => .inl h, fun _ h => .inl h, fun _ _ h => h⟩

theorem follow_ok {ls : List Label} : ∀ {cl cl' : Nat → Cl σ} {tr : List Label}, J cl tr → follow cl ls = some cl' →
    J cl' (tr ++ ls) ∧ ∀ t, (∀ seen, cl' t = .reading seen → cl t = .reading seen ∨ seen = []) ∧
      (∀ v, cl' t = .writing v → cl t = .writing v ∨ v = none) ∧
      (ls.any ready = false → ∀ v, cl t = .writing v → cl' t = .writing v) := by
  induction ls with
  | nil =>
    intro cl cl' tr h hf
    cases hf
    rw [List.append_nil]
    exact ⟨h, fun t => ⟨fun _ h => .inl h, fun _ h => .inl h, fun _ _ h => h⟩⟩
  | cons l ls ih =>
    intro cl cl' tr h hf
    rw [follow] at hf
    cases hs : see cl l with
    | none => rw [hs] at hf; cases hf
    | some cl1 =>
      rw [hs] at hf
      obtain ⟨h1, h2⟩ := ih (J_one h hs) hf
      refine ⟨by rw [show tr ++ l :: ls = (tr ++ [l]) ++ ls by simp]; exact h1, fun t => ?_⟩
      obtain ⟨a1, a2, a3⟩ := h2 t
      obtain ⟨b1, b2, b3⟩ := see_old hs t
      refine ⟨fun x e => ?_, fun x e => ?_, fun hr v e => ?_⟩
      · exact (a1 x e).elim (fun e => b1 x e) .inr
      · exact (a2 x e).elim (fun e => b2 x e) .inr
      · rw [List.any_cons, Bool.or_eq_false_iff] at hr
        exact a3 hr.2 v (b3 hr.1 v e)

structure Inv (step : S → A → CRes (Option (S × List Label))) (init : S) (f : Nat → σ → σ) (d : σ)
    (s : St S σ) : Prop where
  trace : Trace step init s.lib s.tr
  j : J s.cl s.tr
  data : s.data = s.stores.foldl (fun d t => f t d) d
  loaded : ∀ t v, s.cl t = .writing (some v) → v = s.data
  seen : ∀ t seen, s.cl t = .reading seen → ∀ x ∈ seen, x = s.data
  done : s.done = s.stores ∨ ∃ t v, s.cl t = .writing v
  pre : s.done <+: s.stores

theorem writes {cl : Nat → Cl σ} {tr : List Label} (h : J cl tr) {t : Nat} {v : Option σ} (hc : cl t = .writing v) :
    writing t false tr = true := by
  exact (h t).2 v hc

theorem reads {cl : Nat → Cl σ} {tr : List Label} (h : J cl tr) {t : Nat} {v : List σ} (hc : cl t = .reading v) :
    0 < reading t 0 tr := by
  exact (h t).1 v hc

theorem J_put {cl : Nat → Cl σ} {tr : List Label} {t : Nat} {x : Cl σ} (h : J cl tr)
    (hx : ∀ r w, Rel (cl t) r w → Rel x r w) : J (put cl t x) tr := by
  intro u
  by_cases e : u = t
  · subst e; rw [put_self]; exact hx _ _ (h u)
  · rw [put_ne _ _ e]; exact h u

theorem inv {step : S → A → CRes (Option (S × List Label))} {init : S} {P : List Label → Prop}
    (g : Good step init P) {f : Nat → σ → σ} {d : σ} {s : St S σ} (h : Run step init f d s) (hP : P s.tr) :
    Inv step init f d s := by
  induction h with
  | start =>
    exact ⟨.nil, fun t => ⟨(fun _ e => nomatch e), (fun _ e => nomatch e)⟩, rfl, (fun _ _ e => nomatch e),
      (fun _ _ e => nomatch e), .inl rfl, List.prefix_refl _⟩
  | @lib s a c ls cl hr hs hf ih =>
    have ih := ih (g.cut _ _ hP)
    obtain ⟨h1, h2⟩ := follow_ok ih.j hf
    refine ⟨.snoc ih.trace hs, h1, ih.data, fun t v e => ?_, fun t x e => ?_, ?_, ?_⟩
    · rcases (h2 t).2.1 _ e with e | e
      · exact ih.loaded t v e
      · cases e
    · rcases (h2 t).1 _ e with e | e
      · exact ih.seen t x e
      · rw [e]; exact fun _ h => nomatch h
    · dsimp only
      by_cases hr : ls.any ready = true
      · rw [if_pos hr]; exact .inl rfl
      · rw [if_neg hr]
        rcases ih.done with e | ⟨t, v, e⟩
        · exact .inl e
        · exact .inr ⟨t, v, (h2 t).2.2 (Bool.eq_false_iff.2 hr) v e⟩
    · dsimp only
      split
      · exact List.prefix_refl _
      · exact ih.pre
  | @read s t seen hr hc ih =>
    have ih := ih hP
    refine ⟨ih.trace, J_put ih.j fun r w h => by rw [hc] at h; exact ⟨by grind [Rel], by grind [Rel]⟩, ih.data, fun u v e => ?_, fun u x e => ?_, ?_,
      ih.pre⟩
    · dsimp only at e
      by_cases hu : u = t
      · subst hu; rw [put_self] at e; cases e
      · rw [put_ne _ _ hu] at e; exact ih.loaded u v e
    · dsimp only at e
      by_cases hu : u = t
      · subst hu
        rw [put_self] at e
        cases e
        intro y hy
        rcases List.mem_append.1 hy with hy | hy
        · exact ih.seen u seen hc y hy
        · exact List.mem_singleton.1 hy
      · rw [put_ne _ _ hu] at e; exact ih.seen u x e
    · rcases ih.done with e | ⟨u, v, e⟩
      · exact .inl e
      · refine .inr ⟨u, v, ?_⟩
        have hu : u ≠ t := fun hu => by rw [hu, hc] at e; cases e
        dsimp only
        rw [put_ne _ _ hu]; exact e
  | @load s t v0 hr hc ih =>
    have ih := ih hP
    refine ⟨ih.trace, J_put ih.j fun r w h => by rw [hc] at h; exact ⟨by grind [Rel], by grind [Rel]⟩, ih.data, fun u v e => ?_, fun u x e => ?_,
      .inr ⟨t, _, put_self _ _ _⟩, ih.pre⟩
    · dsimp only at e
      by_cases hu : u = t
      · subst hu; rw [put_self] at e; cases e; rfl
      · rw [put_ne _ _ hu] at e; exact ih.loaded u v e
    · dsimp only at e
      by_cases hu : u = t
      · subst hu; rw [put_self] at e; cases e
      · rw [put_ne _ _ hu] at e; exact ih.seen u x e
  | @store s t v0 hr hc ih =>
    have ih := ih hP
    have hw := writes ih.j hc
    refine ⟨ih.trace, J_put ih.j fun r w h => by rw [hc] at h; exact ⟨by grind [Rel], by grind [Rel]⟩, ?_, fun u v e => ?_, fun u x e => ?_,
      .inr ⟨t, _, put_self _ _ _⟩, ih.pre.trans (List.prefix_append _ _)⟩
    · dsimp only
      rw [List.foldl_append, ← ih.data, ih.loaded t v0 hc]
      rfl
    · dsimp only at e
      by_cases hu : u = t
      · subst hu; rw [put_self] at e; cases e
      · rw [put_ne _ _ hu] at e
        exact absurd (g.one _ _ ih.trace hP u t (writes ih.j e) hw) hu
    · dsimp only at e
      by_cases hu : u = t
      · subst hu; rw [put_self] at e; cases e
      · rw [put_ne _ _ hu] at e
        have h1 := g.no _ _ ih.trace hP t u hw
        have h2 := reads ih.j e
        omega

/-- A reader inside: no writer, and nothing stored that is not ready. -/
theorem calm {step : S → A → CRes (Option (S × List Label))} {init : S} {P : List Label → Prop}
    (g : Good step init P) {f : Nat → σ → σ} {d : σ} {s : St S σ} (h : Run step init f d s) (hP : P s.tr)
    {t : Nat} {seen : List σ} (hc : s.cl t = .reading seen) : s.done = s.stores := by
  have hi := inv g h hP
  refine hi.done.resolve_right ?_
  intro ⟨u, v, e⟩
  have h1 := g.no _ _ hi.trace hP u t (writes hi.j e)
  have h2 := reads hi.j hc
  omega

/-! ## POSIX -/

theorem posix_trace {c : RwLock.Full.S} {ls : List Label}
    (h : Trace (RwLock.Full.step false) RwLock.Full.init c ls) :
    ∃ as, RwLock.Full.exec false RwLock.Full.init as = .ok (c, ls) := by
  have app : ∀ (as : List RwLock.Full.Act) (a : RwLock.Full.Act) (s s1 c : RwLock.Full.S) (l1 l2 : List Label),
      RwLock.Full.exec false s as = .ok (s1, l1) → RwLock.Full.step false s1 a = .ok (some (c, l2)) →
      RwLock.Full.exec false s (as ++ [a]) = .ok (c, l1 ++ l2) := by
    intro as
    induction as with
    | nil =>
      intro a s s1 c l1 l2 h1 h2
      cases h1
      simp [RwLock.Full.exec, h2]
    | cons b as ih =>
      intro a s s1 c l1 l2 h1 h2
      rw [List.cons_append, RwLock.Full.exec]
      rw [RwLock.Full.exec] at h1
      cases hb : RwLock.Full.step false s b with
      | error e => rw [hb] at h1; cases h1
      | ok r =>
        rw [hb, ok_bind] at h1
        rw [ok_bind]
        match r with
        | none => exact ih a s s1 c l1 l2 h1 h2
        | some (s', l) =>
          dsimp only at h1 ⊢
          cases he : RwLock.Full.exec false s' as with
          | error e => rw [he] at h1; cases h1
          | ok p =>
            obtain ⟨s'', ls⟩ := p
            rw [he, ok_bind] at h1
            cases h1
            rw [ih a s' _ c _ l2 he h2, ok_bind, List.append_assoc]
  induction h with
  | nil => exact ⟨[], rfl⟩
  | snoc _ hs ih =>
    obtain ⟨as, h⟩ := ih
    exact ⟨as ++ [_], app _ _ _ _ _ _ _ h hs⟩

theorem posix_good : Good (RwLock.Full.step false) RwLock.Full.init Few where
  cut := fun _ _ h q hq => h q (hq.trans (List.prefix_append _ _))
  one := fun s ls h hs t u => by
    obtain ⟨as, h⟩ := posix_trace h
    exact RwLock.Full.full_one_writer_partial as s ls h hs t u
  no := fun s ls h hs t u => by
    obtain ⟨as, h⟩ := posix_trace h
    exact RwLock.Full.full_no_reader_partial as s ls h hs t u

/-! ## Windows -/

theorem win_trace {c : WinRwLock.S} {ls : List Label}
    (h : Trace (fun s a => .ok (WinRwLock.step false s a)) WinRwLock.init c ls) :
    ∃ as, WinRwLock.exec false WinRwLock.init as = (c, ls) := by
  have app : ∀ (as : List RwLock.Act) (a : RwLock.Act) (s c : WinRwLock.S) (l2 : List Label),
      WinRwLock.step false (WinRwLock.exec false s as).1 a = some (c, l2) →
      WinRwLock.exec false s (as ++ [a]) = (c, (WinRwLock.exec false s as).2 ++ l2) := by
    intro as
    induction as with
    | nil =>
      intro a s c l2 h2
      have h2 : WinRwLock.step false s a = some (c, l2) := h2
      simp [WinRwLock.exec, h2]
    | cons b as ih =>
      intro a s c l2 h2
      rw [List.cons_append]
      rw [WinRwLock.exec] at h2 ⊢
      rw [WinRwLock.exec]
      cases hb : WinRwLock.step false s b with
      | none => rw [hb] at h2; exact ih a s c l2 h2
      | some p =>
        obtain ⟨s', l⟩ := p
        rw [hb] at h2
        dsimp only at h2 ⊢
        rw [ih a s' c l2 h2, List.append_assoc]
  induction h with
  | nil => exact ⟨[], rfl⟩
  | @snoc s c a tr ls _ hs ih =>
    obtain ⟨as, h⟩ := ih
    refine ⟨as ++ [a], ?_⟩
    rw [app as a _ c ls (by rw [h]; exact Except.ok.inj hs), h]

theorem win_good : Good (fun s a => .ok (WinRwLock.step false s a)) WinRwLock.init (fun _ => True) where
  cut := fun _ _ _ => trivial
  one := fun s ls h _ t u h1 h2 => by
    obtain ⟨as, h⟩ := win_trace h
    exact WinRwLock.win_one_writer as t u (by rw [h]; exact h1) (by rw [h]; exact h2)
  no := fun s ls h _ t u h1 => by
    obtain ⟨as, h⟩ := win_trace h
    have := WinRwLock.win_no_reader as t u (by rw [h]; exact h1)
    rw [h] at this
    exact this

end Verif.Client.Rw
