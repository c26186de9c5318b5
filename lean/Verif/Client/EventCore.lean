import Verif.Client.EventModel
import Verif.Client.RingCore
import Verif.Event.Props

/-! # Waits that have passed and fires -/

namespace Verif.Client.Event

open Verif.Event (Label Act S step init exec isRet isPass isFire isCall)
open Verif.Event.Spec

/-- A `Fire` that has failed. -/
def isFail : Label → Bool
  | .retFire _ false => true
  | _ => false

def isEnd (l : Label) : Bool := isFire l || isFail l

theorem end_counts (ls : List Label) : ls.countP isEnd = ls.countP isFire + ls.countP isFail := by
  induction ls with
  | nil => rfl
  | cons l ls ih =>
    rw [List.countP_cons, List.countP_cons, List.countP_cons, ih]
    have : ¬ (isFire l = true ∧ isFail l = true) := by cases l <;> simp [isFire, isFail]
    unfold isEnd
    cases h1 : isFire l <;> cases h2 : isFail l <;> simp [h1, h2] at this ⊢ <;> omega

def busy : Phase → Nat
  | .firing => 1
  | _ => 0

theorem move_end {p q : Phase} {l : Label} (h : move p l = some q) :
    (if isEnd l = true then 1 else 0) + busy q ≤ (if isCall l = true then 1 else 0) + busy p := by
  unfold move at h
  split at h
  all_goals cases h <;> simp [isEnd, isFire, isFail, busy, isCall]

theorem phase_end {t : Nat} {p : Phase} {ls : List Label} (h : (phase t (some p) ls).isSome = true) :
    (ls.countP fun l => decide (who l = t) && isEnd l)
      ≤ (ls.countP fun l => decide (who l = t) && isCall l) + busy p := by
  induction ls generalizing p with
  | nil => exact Nat.zero_le _
  | cons l ls ih =>
    rw [phase] at h
    by_cases hw : who l = t
    · rw [if_pos hw] at h
      cases hm : move p l with
      | none =>
        rw [show (some p).bind (move · l) = none from hm, Verif.Event.phase_none] at h
        cases h
      | some q =>
        rw [show (some p).bind (move · l) = some q from hm] at h
        have h1 := ih h
        have h2 := move_end hm
        simp only [List.countP_cons, hw, decide_true, Bool.true_and] at h1 ⊢
        omega
    · rw [if_neg hw] at h
      have := ih h
      simp only [List.countP_cons, hw, decide_false, Bool.false_and, Bool.false_eq_true, if_false] at this ⊢
      exact this

/-- An automatic event: successful waits and failed fires against the start and the calls of `Fire`. -/
theorem credit {signaled : Bool} {as : List Act} {s : S} {ls : List Label}
    (h : exec (init false signaled) as = .ok (s, ls)) :
    ls.countP isRet + ls.countP isFail ≤ signaled.toNat + ls.countP isCall := by
  obtain ⟨ha, hp⟩ := Verif.Event.linearizable false signaled as s ls h
  have h1 := Verif.Event.atomic_counts ha
  have h2 := Counts.counts_le who (P := isRet) (Q := isPass) (ls := ls) fun t => (Verif.Event.phase_counts (hp t)).1
  have h3 := Counts.counts_le who (P := isEnd) (Q := isCall) (ls := ls) fun t => phase_end (hp t)
  rw [end_counts] at h3
  omega

theorem no_pass {m : Bool} {ls : List Label} : ∀ {c : Bool}, atomic m false ls = some c → ls.countP isFire = 0 →
    ls.countP isPass = 0 := by
  induction ls with
  | nil => intro c _ _; rfl
  | cons l ls ih =>
    intro c h hf
    rw [List.countP_cons] at hf ⊢
    cases l with
    | pass t => simp [atomic] at h
    | fire t => simp [isFire] at hf
    | reset t =>
      simp only [atomic] at h
      split at h
      · simp only [isFire, isPass, Bool.false_eq_true, if_false, Nat.add_zero] at hf ⊢; exact ih h hf
      · cases h
    | _ =>
      simp only [isFire, isPass, Bool.false_eq_true, if_false, Nat.add_zero] at hf ⊢
      exact ih h hf

/-- Nobody passes an event that begins unsignalled before `Fire` is called. -/
theorem not_before {m : Bool} {as : List Act} {s : S} {ls : List Label}
    (h : exec (init m false) as = .ok (s, ls)) (hc : ls.countP isCall = 0) : ls.countP isRet = 0 := by
  obtain ⟨ha, hp⟩ := Verif.Event.linearizable m false as s ls h
  have h2 := Counts.counts_le who (P := isRet) (Q := isPass) (ls := ls) fun t => (Verif.Event.phase_counts (hp t)).1
  have h3 := Counts.counts_le who (P := isFire) (Q := isCall) (ls := ls) fun t => (Verif.Event.phase_counts (hp t)).2
  have h4 := no_pass ha (by omega)
  omega

theorem exec_snoc : ∀ (as : List Act) (a : Act) (s s1 c : S) (l1 l2 : List Label),
    exec s as = .ok (s1, l1) → step s1 a = .ok (some (c, l2)) → exec s (as ++ [a]) = .ok (c, l1 ++ l2) := by
  intro as
  induction as with
  | nil =>
    intro a s s1 c l1 l2 h1 h2
    cases h1
    simp [exec, h2]
  | cons b as ih =>
    intro a s s1 c l1 l2 h1 h2
    rw [List.cons_append, exec]
    rw [exec] at h1
    cases hb : step s b with
    | error e => rw [hb] at h1; cases h1
    | ok r =>
      rw [hb, ok_bind] at h1
      rw [ok_bind]
      match r with
      | none => exact ih a s s1 c l1 l2 h1 h2
      | some (s', l) =>
        dsimp only at h1 ⊢
        cases he : exec s' as with
        | error e => rw [he] at h1; cases h1
        | ok p =>
          obtain ⟨s'', ls⟩ := p
          rw [he, ok_bind] at h1
          cases h1
          rw [ih a s' _ c _ l2 he h2, ok_bind, List.append_assoc]

theorem trace_exec {e c : S} {ls : List Label} (h : Sem.Trace step e c ls) : ∃ as, exec e as = .ok (c, ls) := by
  induction h with
  | nil => exact ⟨[], rfl⟩
  | snoc _ hs ih =>
    obtain ⟨as, h⟩ := ih
    exact ⟨as ++ [_], exec_snoc _ _ _ _ _ _ _ h hs⟩

theorem box_trace {L A : Type} {step : L → A → CRes (Option (L × List Label))} {e c : L} {ls : List Verif.Sem.Label}
    (h : Sem.Trace (boxStep step) e c ls) : ∃ l0, Sem.Trace step e c l0 ∧ ls = l0.filterMap asSem := by
  induction h with
  | nil => exact ⟨[], .nil, rfl⟩
  | @snoc s c a tr ls _ hs ih =>
    obtain ⟨l0, h, e⟩ := ih
    unfold boxStep at hs
    split at hs
    · cases hs
    · cases hs
    · rename_i c' l1 hs'
      cases hs
      exact ⟨l0 ++ l1, .snoc h hs', by rw [List.filterMap_append, e]⟩

/-- Successful waits and failed fires are at most `k` and the calls of fire. -/
def Credit {L A : Type} (step : L → A → CRes (Option (L × List Label))) (e : L) (k : Nat) : Prop :=
  ∀ c ls, Sem.Trace step e c ls → ls.countP isRet + ls.countP isFail ≤ k + ls.countP isCall

/-- No wait succeeds before a call of fire. -/
def NotBefore {L A : Type} (step : L → A → CRes (Option (L × List Label))) (e : L) : Prop :=
  ∀ c ls, Sem.Trace step e c ls → ls.countP isCall = 0 → ls.countP isRet = 0

theorem box_credit {L A : Type} {step : L → A → CRes (Option (L × List Label))} {e : L} {k : Nat} (he : Credit step e k) :
    Sem.Credit (boxStep step) e k := fun c ls h => by
  obtain ⟨l0, h, e⟩ := box_trace h
  have hc := he _ _ h
  have key : ∀ (P : Label → Bool) (Q : Verif.Sem.Label → Bool), (∀ l, P l = ((asSem l).map Q).getD false) →
      (l0.filterMap asSem).countP Q = l0.countP P := by
    intro P Q hPQ
    clear hc h e
    induction l0 with
    | nil => rfl
    | cons l l0 ih =>
      rw [List.countP_cons, hPQ l]
      cases hl : asSem l with
      | none => rw [List.filterMap_cons_none hl]; simp [ih]
      | some x => rw [List.filterMap_cons_some hl, List.countP_cons, ih]; simp
  rw [e, key isRet Verif.Sem.isRet (fun l => by cases l <;> (try rfl); rename_i r; cases r <;> rfl),
    key isCall Verif.Sem.isCall (fun l => by cases l <;> rfl),
    key isFail Sem.isFail (fun l => by cases l <;> (try rfl); rename_i r; cases r <;> rfl)]
  exact hc

theorem posix_credit (signaled : Bool) : Credit step (init false signaled) signaled.toNat := fun _ _ h => by
  obtain ⟨as, h⟩ := trace_exec h
  exact credit h

theorem posix_notBefore (manual : Bool) : NotBefore step (init manual false) := fun _ _ h hc => by
  obtain ⟨as, h⟩ := trace_exec h
  exact not_before h hc

/-! ## Publication -/

variable {σ : Type}

/-- Who is inside has passed, and who has fired is the publisher. -/
def J (pub : Bool) (cl : Nat → Cl σ) (tr : List Label) : Prop :=
  (∀ t seen, cl t = .inside seen → 0 < tr.countP isRet) ∧ (0 < tr.countP isCall → pub = true)

theorem J_one {pub pub' : Bool} {cl cl' : Nat → Cl σ} {tr : List Label} {l : Label} (h : J pub cl tr)
    (hs : see pub cl l = some (pub', cl')) :
    J pub' cl' (tr ++ [l]) ∧ (pub = true → pub' = true) ∧
      ∀ t seen, cl' t = .inside seen → cl t = .inside seen ∨ seen = [] := by
  obtain ⟨h1, h2⟩ := h
  unfold J
  simp only [List.countP_append, List.countP_singleton]
  cases l with
  | callFire u =>
    simp only [see] at hs
    split at hs <;> cases hs
    exact ⟨⟨fun t x e => by have := h1 t x e; omega, fun _ => rfl⟩, fun _ => rfl, fun _ _ e => .inl e⟩
  | callWait u w =>
    simp only [see] at hs
    split at hs <;> cases hs
    refine ⟨⟨fun t x e => ?_, fun e => h2 (by simpa [isCall] using e)⟩, id, fun t x e => ?_⟩
    · by_cases hu : t = u
      · subst hu; rw [put_self] at e; cases e
      · rw [put_ne _ _ hu] at e; have := h1 t x e; omega
    · by_cases hu : t = u
      · subst hu; rw [put_self] at e; cases e
      · rw [put_ne _ _ hu] at e; exact .inl e
  | retWait u r =>
    simp only [see] at hs
    split at hs
    · cases hs
      refine ⟨⟨fun t x e => ?_, fun e => h2 (by simpa [isCall] using e)⟩, id, fun t x e => ?_⟩
      · by_cases hu : t = u
        · subst hu; rw [put_self] at e
          cases r with
          | true => simp [isRet]
          | false => cases e
        · rw [put_ne _ _ hu] at e; have := h1 t x e; omega
      · by_cases hu : t = u
        · subst hu; rw [put_self] at e
          cases r with
          | true => cases e; exact .inr rfl
          | false => cases e
        · rw [put_ne _ _ hu] at e; exact .inl e
    · cases hs
      exact ⟨⟨fun t x e => by have := h1 t x e; omega, fun e => h2 (by simpa [isCall] using e)⟩, id,
        fun _ _ e => .inl e⟩
  | _ =>
    cases hs
    exact ⟨⟨fun t x e => by have := h1 t x e; omega, fun e => h2 (by simpa [isCall] using e)⟩, id,
      fun _ _ e => .inl e⟩

theorem J_follow {ls : List Label} : ∀ {pub pub' : Bool} {cl cl' : Nat → Cl σ} {tr : List Label}, J pub cl tr →
    follow pub cl ls = some (pub', cl') → J pub' cl' (tr ++ ls) ∧ (pub = true → pub' = true) ∧
      ∀ t seen, cl' t = .inside seen → cl t = .inside seen ∨ seen = [] := by
  induction ls with
  | nil => intro pub pub' cl cl' tr h hf; cases hf; rw [List.append_nil]; exact ⟨h, id, fun _ _ e => .inl e⟩
  | cons l ls ih =>
    intro pub pub' cl cl' tr h hf
    rw [follow] at hf
    cases hs : see pub cl l with
    | none => rw [hs] at hf; cases hf
    | some r =>
      obtain ⟨p1, c1⟩ := r
      rw [hs] at hf
      obtain ⟨a1, a2, a3⟩ := J_one h hs
      obtain ⟨b1, b2, b3⟩ := ih a1 hf
      refine ⟨by rw [show tr ++ l :: ls = (tr ++ [l]) ++ ls by simp]; exact b1, fun e => b2 (a2 e), fun t x e => ?_⟩
      exact (b3 t x e).elim (fun e => a3 t x e) .inr

structure Inv {L A : Type} (step : L → A → CRes (Option (L × List Label))) (e : L) (s : St L σ) : Prop where
  trace : Sem.Trace step e s.lib s.tr
  j : J s.pub s.cl s.tr
  seen : ∀ t seen, s.cl t = .inside seen → ∀ x ∈ seen, x = s.data

theorem Inv.pub {L A : Type} {step : L → A → CRes (Option (L × List Label))} {e : L} {s : St L σ} (h : Inv step e s)
    (he : NotBefore step e) {t : Nat} {seen : List σ} (hc : s.cl t = .inside seen) : s.pub = true := by
  have h1 := h.j.1 t seen hc
  refine h.j.2 (Nat.pos_of_ne_zero fun e => ?_)
  rw [he _ _ h.trace e] at h1
  cases h1

theorem run_inv {L A : Type} {step : L → A → CRes (Option (L × List Label))} {e : L} (he : NotBefore step e) {d : σ}
    {s : St L σ} (h : Run step e d s) : Inv step e s := by
  induction h with
  | start => exact ⟨.nil, ⟨(fun _ _ e => nomatch e), (fun e => absurd e (Nat.lt_irrefl 0))⟩, (fun _ _ e => nomatch e)⟩
  | @lib s a c ls pub cl _ hs hf ih =>
    obtain ⟨h1, h2, h3⟩ := J_follow ih.j hf
    refine ⟨.snoc ih.trace hs, h1, fun t x e => ?_⟩
    rcases h3 t x e with e | e
    · exact ih.seen t x e
    · rw [e]; exact fun _ h => nomatch h
  | @build s x _ hp ih =>
    refine ⟨ih.trace, ih.j, fun t seen e => ?_⟩
    have := ih.pub he e
    rw [hp] at this
    cases this
  | @read s t seen _ hc ih =>
    refine ⟨ih.trace, ⟨fun u x e => ?_, ih.j.2⟩, fun u x e => ?_⟩
    · exact ih.j.1 t seen hc
    · dsimp only at e
      by_cases hu : u = t
      · subst hu
        rw [put_self] at e
        cases e
        intro y hy
        rcases List.mem_append.1 hy with hy | hy
        · exact ih.seen u seen hc y hy
        · exact List.mem_singleton.1 hy
      · rw [put_ne _ _ hu] at e; exact ih.seen u x e
  | @leave s t seen _ hc ih =>
    refine ⟨ih.trace, ⟨fun u x e => ih.j.1 t seen hc, ih.j.2⟩, fun u x e => ?_⟩
    dsimp only at e
    by_cases hu : u = t
    · subst hu; rw [put_self] at e; cases e
    · rw [put_ne _ _ hu] at e; exact ih.seen u x e

theorem run_play {L A : Type} {step : L → A → CRes (Option (L × List Label))} {e : L} {d : σ} (as : List (Move A σ)) :
    ∀ {s s' : St L σ}, Run step e d s → play step s as = some s' → Run step e d s' := by
  induction as with
  | nil => intro s s' h e; cases e; exact h
  | cons a as ih =>
    intro s s' h e
    rw [play] at e
    cases hp : play1 step s a with
    | none => rw [hp] at e; cases e
    | some s1 =>
      rw [hp] at e
      refine ih ?_ e
      cases a with
      | lib a =>
        simp only [play1] at hp
        split at hp
        · rename_i c ls hs
          cases hf : follow s.pub s.cl ls with
          | none => rw [hf] at hp; cases hp
          | some r => rw [hf] at hp; cases hp; exact .lib h hs hf
        · cases hp
      | build x =>
        simp only [play1] at hp
        split at hp
        · rename_i hf; cases hp; exact .build x h hf
        · cases hp
      | read t =>
        simp only [play1] at hp
        split at hp
        · rename_i seen hc; cases hp; exact .read h hc
        · cases hp


end Verif.Client.Event
