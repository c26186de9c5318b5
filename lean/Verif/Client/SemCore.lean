import Verif.Client.SemModel
import Verif.Client.MutexLemmas
import Verif.Sem.Props

/-! # Units taken and given back -/

namespace Verif.Client.Sem

open Verif.Sem (Label Act S step init exec isRet isTake isGive isCall)
open Verif.Sem.Spec

/-- A `Release` that has failed. -/
def isFail : Label → Bool
  | .retRelease _ false _ => true
  | _ => false

def isEnd (l : Label) : Bool := isGive l || isFail l

theorem end_counts (ls : List Label) : ls.countP isEnd = ls.countP isGive + ls.countP isFail := by
  induction ls with
  | nil => rfl
  | cons l ls ih =>
    rw [List.countP_cons, List.countP_cons, List.countP_cons, ih]
    have : ¬ (isGive l = true ∧ isFail l = true) := by cases l <;> simp [isGive, isFail]
    unfold isEnd
    cases h1 : isGive l <;> cases h2 : isFail l <;> simp [h1, h2] at this ⊢ <;> omega

def busy : Phase → Nat
  | .releasing => 1
  | _ => 0

theorem move_end {p q : Phase} {l : Label} (h : move p l = some q) :
    (if isEnd l = true then 1 else 0) + busy q ≤ (if isCall l = true then 1 else 0) + busy p := by
  unfold move at h
  split at h
  case h_7 => split at h <;> cases h; simp [isEnd, isGive, isFail, busy]
  all_goals cases h <;> simp [isEnd, isGive, isFail, busy, isCall]

theorem phase_end {t : Nat} {p : Phase} {ls : List Label} (h : (phase t (some p) ls).isSome = true) :
    (ls.countP fun l => decide (who l = t) && isEnd l)
      ≤ (ls.countP fun l => decide (who l = t) && isCall l) + busy p := by
  induction ls generalizing p with
  | nil => exact Nat.zero_le _
  | cons l ls ih =>
    rw [phase] at h
    by_cases hw : who l = t
    · rw [if_pos hw] at h
      cases hm : move p l with
      | none =>
        rw [show (some p).bind (move · l) = none from hm, Verif.Sem.phase_none] at h
        cases h
      | some q =>
        rw [show (some p).bind (move · l) = some q from hm] at h
        have h1 := ih h
        have h2 := move_end hm
        simp only [List.countP_cons, hw, decide_true, Bool.true_and] at h1 ⊢
        omega
    · rw [if_neg hw] at h
      have := ih h
      simp only [List.countP_cons, hw, decide_false, Bool.false_and, Bool.false_eq_true, if_false] at this ⊢
      exact this

/-- Successful waits and failed releases against the start and the calls of `Release`. -/
theorem credit {start max : Nat} {as : List Act} {s : S} {ls : List Label}
    (h : exec (init start max) as = .ok (s, ls)) :
    ls.countP isRet + ls.countP isFail ≤ min start max + ls.countP isCall := by
  obtain ⟨⟨n, ha, _⟩, hp⟩ := Verif.Sem.linearizable start max as s ls h
  have h1 := Verif.Sem.atomic_counts ha
  have h2 := Counts.counts_le who (P := isRet) (Q := isTake) (ls := ls) fun t => (Verif.Sem.phase_counts (hp t)).1
  have h3 := Counts.counts_le who (P := isEnd) (Q := isCall) (ls := ls) fun t => phase_end (hp t)
  rw [end_counts] at h3
  omega

/-- Histories of a library. -/
inductive Trace {L A B : Type} (step : L → A → CRes (Option (L × List B))) (e : L) : L → List B → Prop
  | nil : Trace step e e []
  | snoc {s c : L} {a : A} {tr ls : List B} : Trace step e s tr → step s a = .ok (some (c, ls)) →
      Trace step e c (tr ++ ls)

/-- Successful waits and failed releases are at most `k` and the calls of release. -/
def Credit {L A : Type} (step : L → A → CRes (Option (L × List Label))) (e : L) (k : Nat) : Prop :=
  ∀ c ls, Trace step e c ls → ls.countP isRet + ls.countP isFail ≤ k + ls.countP isCall

theorem Trace.exec {start max : Nat} {c : S} {ls : List Label} (h : Trace step (init start max) c ls) :
    ∃ as, Verif.Sem.exec (init start max) as = .ok (c, ls) := by
  have app : ∀ (as : List Act) (a : Act) (s s1 c : S) (l1 l2 : List Label),
      Verif.Sem.exec s as = .ok (s1, l1) → step s1 a = .ok (some (c, l2)) →
      Verif.Sem.exec s (as ++ [a]) = .ok (c, l1 ++ l2) := by
    intro as
    induction as with
    | nil =>
      intro a s s1 c l1 l2 h1 h2
      cases h1
      simp [Verif.Sem.exec, h2]
    | cons b as ih =>
      intro a s s1 c l1 l2 h1 h2
      rw [List.cons_append, Verif.Sem.exec]
      rw [Verif.Sem.exec] at h1
      cases hb : step s b with
      | error e => rw [hb] at h1; cases h1
      | ok r =>
        rw [hb, ok_bind] at h1
        rw [ok_bind]
        match r with
        | none => exact ih a s s1 c l1 l2 h1 h2
        | some (s', l) =>
          dsimp only at h1 ⊢
          cases he : Verif.Sem.exec s' as with
          | error e => rw [he] at h1; cases h1
          | ok p =>
            obtain ⟨s'', ls⟩ := p
            rw [he, ok_bind] at h1
            cases h1
            rw [ih a s' _ c _ l2 he h2, ok_bind, List.append_assoc]
  induction h with
  | nil => exact ⟨[], rfl⟩
  | snoc _ hs ih =>
    obtain ⟨as, h⟩ := ih
    exact ⟨as ++ [_], app _ _ _ _ _ _ _ h hs⟩

theorem sem_credit (start max : Nat) : Credit step (init start max) (min start max) := fun _ _ h => by
  obtain ⟨as, h⟩ := h.exec
  exact credit h

/-! ## The pool -/

/-- Threads inside are paid for. -/
def J (cl : Nat → Cl) (tr : List Label) : Prop :=
  ∀ ts : List Nat, ts.Nodup → (∀ t ∈ ts, cl t = .inside) →
    tr.countP isCall + ts.length ≤ tr.countP isRet + tr.countP isFail

theorem J_in {cl : Nat → Cl} {tr : List Label} (h : J cl tr) (t : Nat) (ts : List Nat) (hn : ts.Nodup)
    (hi : ∀ u ∈ ts, u = t ∨ cl u = .inside) :
    tr.countP isCall + ts.length ≤ tr.countP isRet + tr.countP isFail + 1 := by
  have h1 := h (ts.erase t) (hn.erase t) fun u hu => by
    have := (List.Nodup.mem_erase_iff hn).1 hu
    exact (hi u this.2).resolve_left this.1
  have h2 : ts.length ≤ (ts.erase t).length + 1 := by
    rw [List.length_erase]
    split <;> omega
  omega

theorem J_same {cl cl' : Nat → Cl} {tr : List Label} {l : Label} (h : J cl tr)
    (hi : ∀ u, cl' u = .inside → cl u = .inside) (hc : isCall l = false) : J cl' (tr ++ [l]) := by
  intro ts hn hts
  have := h ts hn fun u hu => hi u (hts u hu)
  simp only [List.countP_append, List.countP_singleton, hc, Bool.false_eq_true, if_false]
  omega

theorem J_one {cl cl' : Nat → Cl} {tr : List Label} {l : Label} (h : J cl tr) (hs : see cl l = some cl') :
    J cl' (tr ++ [l]) := by
  have put_in : ∀ (t : Nat) (x : Cl) (u : Nat), put cl t x u = .inside → (u = t ∧ x = .inside) ∨ cl u = .inside := by
    intro t x u hu
    by_cases e : u = t
    · subst e; rw [put_self] at hu; exact .inl ⟨rfl, hu⟩
    · rw [put_ne _ _ e] at hu; exact .inr hu
  cases l with
  | callWait t w =>
    simp only [see] at hs
    split at hs <;> cases hs
    exact J_same h (fun u hu => (put_in _ _ u hu).resolve_left (fun e => nomatch e.2)) rfl
  | retWait t r =>
    simp only [see] at hs
    split at hs
    · cases hs
      cases r with
      | false => exact J_same h (fun u hu => (put_in _ _ u hu).resolve_left (fun e => nomatch e.2)) rfl
      | true =>
        intro ts hn hts
        have := J_in h t ts hn fun u hu => (put_in _ _ u (hts u hu)).imp (·.1) id
        simp [isRet, isFail, isCall] at this ⊢
        omega
    · cases hs; exact J_same h (fun u hu => hu) rfl
  | callRelease t =>
    simp only [see] at hs
    split at hs <;> cases hs
    rename_i hc
    intro ts hn hts
    have ht : t ∉ ts := fun ht => by have := hts t ht; rw [put_self] at this; cases this
    have := h (t :: ts) (List.nodup_cons.2 ⟨ht, hn⟩) fun u hu => by
      rcases List.mem_cons.1 hu with e | e
      · rw [e]; exact hc
      · exact (put_in _ _ u (hts u e)).resolve_left (fun e => nomatch e.2)
    simp [isRet, isFail, isCall] at this ⊢
    omega
  | retRelease t r v =>
    simp only [see] at hs
    split at hs
    · cases hs; exact J_same h (fun u hu => (put_in _ _ u hu).resolve_left (fun e => nomatch e.2)) rfl
    · cases hs; exact J_same h (fun u hu => hu) rfl
  | take t => cases hs; exact J_same h (fun u hu => hu) rfl
  | give t v => cases hs; exact J_same h (fun u hu => hu) rfl

theorem J_follow {ls : List Label} : ∀ {cl cl' : Nat → Cl} {tr : List Label}, J cl tr → follow cl ls = some cl' →
    J cl' (tr ++ ls) := by
  induction ls with
  | nil => intro cl cl' tr h hf; cases hf; rw [List.append_nil]; exact h
  | cons l ls ih =>
    intro cl cl' tr h hf
    rw [follow] at hf
    cases hs : see cl l with
    | none => rw [hs] at hf; cases hf
    | some cl1 =>
      rw [hs] at hf
      rw [show tr ++ l :: ls = (tr ++ [l]) ++ ls by simp]
      exact ih (J_one h hs) hf

theorem run_ok {L A : Type} {step : L → A → CRes (Option (L × List Label))} {e s : L} {tr : List Label}
    {cl : Nat → Cl} (h : Run step e s tr cl) : Trace step e s tr ∧ J cl tr := by
  induction h with
  | start => exact ⟨.nil, fun ts _ h => by
      cases ts with
      | nil => exact Nat.le_refl _
      | cons t ts => exact nomatch h t (List.mem_cons_self ..)⟩
  | lib _ hs hf ih => exact ⟨.snoc ih.1 hs, J_follow ih.2 hf⟩

theorem pool {L A : Type} {step : L → A → CRes (Option (L × List Label))} {e s : L} {n : Nat} {tr : List Label}
    {cl : Nat → Cl} (he : Credit step e n) (h : Run step e s tr cl) {ts : List Nat} (hn : ts.Nodup)
    (hi : ∀ t ∈ ts, cl t = .inside) : ts.length ≤ n := by
  obtain ⟨h1, h2⟩ := run_ok h
  have h3 := he _ _ h1
  have h4 := h2 ts hn hi
  omega

theorem run_play {L A : Type} {step : L → A → CRes (Option (L × List Label))} {e : L} (as : List A) :
    ∀ {s s' : L} {tr tr' : List Label} {cl cl' : Nat → Cl}, Run step e s tr cl →
    play step s tr cl as = some (s', tr', cl') → Run step e s' tr' cl' := by
  induction as with
  | nil => intro s s' tr tr' cl cl' h e; cases e; exact h
  | cons a as ih =>
    intro s s' tr tr' cl cl' h e
    rw [play] at e
    split at e
    · rename_i c ls hs
      cases hf : follow cl ls with
      | none => rw [hf] at e; cases e
      | some cl1 => rw [hf] at e; exact ih (.lib h hs hf) e
    · cases e

end Verif.Client.Sem
