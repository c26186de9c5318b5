import Verif.Race.Model
import Verif.Mutex.FullLemmas
import Verif.RwLock.FullLemmas
import Verif.WinMutex.Exec

/-! # Lemmas about data races -/

namespace Verif.Race

theorem Conflict.nil_left {L : Type} {bs : List (Access L)} : ¬ Conflict [] bs := by
  rintro ⟨a, ha, -⟩; cases ha

theorem Conflict.nil_right {L : Type} {as : List (Access L)} : ¬ Conflict as [] := by
  rintro ⟨a, -, b, hb, -⟩; cases hb

/-- Accesses that all belong to a critical section that one thread at a time can be in. -/
theorem noRace_of_owner {L : Type} {acc : Nat → List (Access L)} {own : Option Nat}
    (h : ∀ t, acc t ≠ [] → own = some t) : NoRace acc := by
  intro t u htu hc
  obtain ⟨a, ha, b, hb, -⟩ := hc
  have h1 := h t (fun e => by rw [e] at ha; cases ha)
  have h2 := h u (fun e => by rw [e] at hb; cases hb)
  rw [h1] at h2
  exact htu (Option.some.inj h2)

theorem mem_part {L M : Type} {f : L → M} {as : List (Access L)} {a : Access M} :
    a ∈ part f as ↔ ∃ x ∈ as, (⟨f x.loc, x.write⟩ : Access M) = a := List.mem_map

/-- Parts with different variables do not race if none of them does. -/
theorem Conflict.split {L M : Type} {f : L → M} (hf : ∀ x y, f x = f y → x = y) {as bs : List (Access L)}
    (h : Conflict (part f as) (part f bs)) : Conflict as bs := by
  obtain ⟨a, ha, b, hb, he, hw⟩ := h
  obtain ⟨x, hx, rfl⟩ := mem_part.mp ha
  obtain ⟨y, hy, rfl⟩ := mem_part.mp hb
  exact ⟨x, hx, y, hy, hf _ _ he, hw⟩

theorem Conflict.apart {L L' M : Type} {f : L → M} {g : L' → M} (hf : ∀ x y, f x ≠ g y) {as : List (Access L)}
    {bs : List (Access L')} : ¬ Conflict (part f as) (part g bs) := by
  rintro ⟨a, ha, b, hb, he, -⟩
  obtain ⟨x, -, rfl⟩ := mem_part.mp ha
  obtain ⟨y, -, rfl⟩ := mem_part.mp hb
  exact hf _ _ he

theorem Conflict.append_left {L : Type} {as as' bs : List (Access L)} :
    Conflict (as ++ as') bs ↔ Conflict as bs ∨ Conflict as' bs := by
  constructor
  · rintro ⟨a, ha, b, hb, h⟩
    rcases List.mem_append.mp ha with ha | ha
    · exact Or.inl ⟨a, ha, b, hb, h⟩
    · exact Or.inr ⟨a, ha, b, hb, h⟩
  · rintro (⟨a, ha, h⟩ | ⟨a, ha, h⟩)
    · exact ⟨a, List.mem_append_left _ ha, h⟩
    · exact ⟨a, List.mem_append_right _ ha, h⟩

theorem Conflict.append_right {L : Type} {as bs bs' : List (Access L)} :
    Conflict as (bs ++ bs') ↔ Conflict as bs ∨ Conflict as bs' := by
  constructor
  · rintro ⟨a, ha, b, hb, h⟩
    rcases List.mem_append.mp hb with hb | hb
    · exact Or.inl ⟨a, ha, b, hb, h⟩
    · exact Or.inr ⟨a, ha, b, hb, h⟩
  · rintro (⟨a, ha, b, hb, h⟩ | ⟨a, ha, b, hb, h⟩)
    · exact ⟨a, ha, b, List.mem_append_left _ hb, h⟩
    · exact ⟨a, ha, b, List.mem_append_right _ hb, h⟩

theorem after_ite {S L : Type} {f : S → S} {c : Prop} [Decidable c] {a b : CRes (Option (S × L))} :
    after f (if c then a else b) = if c then after f a else after f b := by split <;> rfl

theorem setAt_comm {α : Type} (f : Nat → α) {o p : Nat} (x y : α) (h : p ≠ o) :
    Mutex.setAt (Mutex.setAt f o x) p y = Mutex.setAt (Mutex.setAt f p y) o x := by
  funext i
  simp only [Mutex.setAt]
  grind

theorem setAt_other {α : Type} (f : Nat → α) {o p : Nat} (x : α) (h : p ≠ o) : Mutex.setAt f o x p = f p := if_neg h

/-! ## The objects -/

theorem sem_crit {p : Sem.Pc} (h : semAcc p ≠ []) : Sem.crit p = true := by
  cases p <;> first | rfl | exact absurd rfl h

theorem sem_inv {s : Sem.S} {n : Nat} (h : Sem.Inv s n) : NoRace fun t => semAcc (s.pc t) :=
  noRace_of_owner fun t ht => h.crit t (sem_crit ht)

theorem ev_crit {p : Event.Pc} (h : evAcc p ≠ []) : Event.crit p = true ∨ evAcc p = [rd .manual] := by
  cases p <;> first | exact Or.inl rfl | exact Or.inr rfl | exact absurd rfl h

theorem ev_manual {p : Event.Pc} {a : Access EvLoc} (ha : a ∈ evAcc p) (he : a.loc = .manual) : a.write = false := by
  cases p <;> simp [evAcc, rd, wt] at ha <;> grind

theorem ev_inv {s : Event.S} (h : Event.Inv s) : NoRace fun t => evAcc (s.pc t) := by
  intro t u htu hc
  obtain ⟨a, ha, b, hb, he, hw⟩ := hc
  by_cases hm : a.loc = .manual
  · rw [ev_manual ha hm, ev_manual hb (he ▸ hm)] at hw
    rcases hw with hw | hw <;> cases hw
  · have own : ∀ (v : Nat) (c : Access EvLoc), c ∈ evAcc (s.pc v) → c.loc ≠ .manual → s.owner = some v := by
      intro v c hc hn
      rcases ev_crit (p := s.pc v) (fun e => by rw [e] at hc; cases hc) with h1 | h1
      · exact h.crit v h1
      · rw [h1] at hc
        rcases List.mem_singleton.mp hc with rfl
        exact absurd rfl hn
    have h1 := own t a ha hm
    have h2 := own u b hb (he ▸ hm)
    rw [h1] at h2
    exact htu (Option.some.inj h2)

/-- The object a variable belongs to. -/
def MxLoc.ob : MxLoc → Nat
  | .oid o => o
  | .cnt o => o

theorem mx_crit {p : Mutex.Pc} {a : Access MxLoc} (h : a ∈ mxAcc p) : Mutex.critAt p = some a.loc.ob := by
  cases p <;> simp [mxAcc, rd, wt] at h <;> grind [Mutex.critAt, MxLoc.ob]

theorem mx_inv {pc : Nat → Mutex.Pc} {cs : Nat → Option Nat}
    (h : ∀ t o, Mutex.critAt (pc t) = some o → cs o = some t) : NoRace fun t => mxAcc (pc t) := by
  intro t u htu hc
  obtain ⟨a, ha, b, hb, he, -⟩ := hc
  have h1 := h t _ (mx_crit ha)
  have h2 := h u _ (mx_crit hb)
  rw [← he, h1] at h2
  exact htu (Option.some.inj h2)

/-! ## The counter of the read-write lock -/

/-- The counter mutex has an owner while a thread is at one of the positions where it needs it. -/
def RwOwn (s : RwLock.S) : Prop :=
  ∃ tc : Option Nat, (s.csem = true → tc = none) ∧ ∀ t, RwLock.ownC (s.pc t) = true → tc = some t

theorem RwOwn.same {s s' : RwLock.S} {t : Nat} {p : RwLock.Pc} (h : RwOwn s) (hc : s'.csem = s.csem)
    (hp : ∀ u, s'.pc u = if u = t then p else s.pc u)
    (ho : RwLock.ownC p = true → RwLock.ownC (s.pc t) = true) : RwOwn s' := by
  obtain ⟨tc, h1, h2⟩ := h
  refine ⟨tc, by rw [hc]; exact h1, fun u hu => ?_⟩
  rw [hp] at hu
  by_cases hut : u = t
  · rw [if_pos hut] at hu; rw [hut]; exact h2 t (ho hu)
  · rw [if_neg hut] at hu; exact h2 u hu

theorem RwOwn.take {s s' : RwLock.S} {t : Nat} {p : RwLock.Pc} (h : RwOwn s) (h0 : s.csem = true)
    (hc : s'.csem = false) (hp : ∀ u, s'.pc u = if u = t then p else s.pc u) : RwOwn s' := by
  obtain ⟨tc, h1, h2⟩ := h
  refine ⟨some t, (fun e => by rw [hc] at e; cases e), fun u hu => ?_⟩
  rw [hp] at hu
  by_cases hut : u = t
  · rw [hut]
  · rw [if_neg hut] at hu
    have := h2 u hu
    rw [h1 h0] at this
    cases this

theorem RwOwn.give {s s' : RwLock.S} {t : Nat} {p : RwLock.Pc} (h : RwOwn s)
    (h0 : RwLock.ownC (s.pc t) = true) (ho : RwLock.ownC p = false)
    (hp : ∀ u, s'.pc u = if u = t then p else s.pc u) : RwOwn s' := by
  obtain ⟨tc, h1, h2⟩ := h
  refine ⟨none, fun _ => rfl, fun u hu => ?_⟩
  rw [hp] at hu
  by_cases hut : u = t
  · rw [if_pos hut, ho] at hu; cases hu
  · rw [if_neg hut] at hu
    have e1 := h2 u hu
    rw [h2 t h0] at e1
    exact absurd (Option.some.inj e1).symm hut

theorem rw_run {s s' : RwLock.S} {t : Nat} {ls : List RwLock.Label} (h : RwOwn s)
    (he : RwLock.run s t = some (s', ls)) : RwOwn s' := by
  unfold RwLock.run at he
  cases hp : s.pc t <;> rw [hp] at he <;> dsimp only at he
  case rC => split at he <;> cases he; exact h.take (by assumption) rfl (fun _ => rfl)
  case uC => split at he <;> cases he; exact h.take (by assumption) rfl (fun _ => rfl)
  case rRelC r => cases he; exact h.give (t := t) (by rw [hp]; rfl) rfl (fun _ => rfl)
  case uBad => cases he; exact h.give (t := t) (by rw [hp]; rfl) rfl (fun _ => rfl)
  case uRel r => cases he; exact h.give (t := t) (by rw [hp]; rfl) rfl (fun _ => rfl)
  case idle => cases he
  case rW => split at he <;> cases he; exact h.same (t := t) rfl (fun _ => rfl) (by rw [hp]; exact id)
  case wW => split at he <;> cases he; exact h.same (t := t) rfl (fun _ => rfl) (by rw [hp]; exact id)
  case wE => split at he <;> cases he; exact h.same (t := t) rfl (fun _ => rfl) (by rw [hp]; exact id)
  all_goals
    cases he
    exact h.same (t := t) rfl (fun _ => rfl) (by rw [hp]; first | exact id | exact fun _ => rfl)

theorem rw_fail {s s' : RwLock.S} {t : Nat} {ls : List RwLock.Label} (h : RwOwn s)
    (he : RwLock.fail s t = some (s', ls)) : RwOwn s' := by
  unfold RwLock.fail at he
  cases hp : s.pc t <;> rw [hp] at he <;> dsimp only at he <;> cases he <;>
    exact h.same (t := t) rfl (fun _ => rfl)
      (by rw [hp]; first | exact id | exact fun _ => rfl | exact fun e => nomatch e)

theorem rw_step {free : Bool} {s s' : RwLock.S} {a : RwLock.Act} {ls : List RwLock.Label} (h : RwOwn s)
    (he : RwLock.step free s a = some (s', ls)) : RwOwn s' := by
  cases a with
  | run t => exact rw_run h he
  | fail t => exact rw_fail h he
  | callRead t | callWrite t | callReadUnlock t | callWriteUnlock t =>
    unfold RwLock.step at he
    dsimp only at he
    split at he <;> cases he
    exact h.same (t := t) rfl (fun _ => rfl) (fun e => nomatch e)

theorem rw_exec {free : Bool} (as : List RwLock.Act) : ∀ {s : RwLock.S}, RwOwn s → RwOwn (RwLock.exec free s as).1 := by
  induction as with
  | nil => exact fun h => h
  | cons a as ih =>
    intro s h
    unfold RwLock.exec
    cases hs : RwLock.step free s a with
    | none => exact ih h
    | some r =>
      obtain ⟨s', l⟩ := r
      exact ih (rw_step h hs)

theorem rw_init : RwOwn RwLock.init := ⟨none, fun _ => rfl, fun _ e => nomatch e⟩

theorem rw_crit {p : RwLock.Pc} (h : rwAcc p ≠ []) : RwLock.ownC p = true ∧ RwLock.Full.op p = none := by
  cases p <;> first | exact ⟨rfl, rfl⟩ | exact absurd rfl h

/-! ## Executions -/

theorem winmutex_owned (as : List WinMutex.Act) : ∀ {s s' : WinMutex.S} {ls : List Mutex.Label}, WinMutex.Owned s →
    WinMutex.exec s as = .ok (s', ls) → WinMutex.Owned s' := by
  induction as with
  | nil => intro s s' ls h he; cases he; exact h
  | cons a as ih =>
    intro s s' ls h he
    obtain ⟨r, hr, hok⟩ := WinMutex.own_step (a := a) h
    rw [WinMutex.exec, hr, ok_bind] at he
    cases r with
    | none => exact ih h he
    | some x =>
      obtain ⟨s1, l1⟩ := x
      dsimp only at he
      cases h2 : WinMutex.exec s1 as with
      | error e => rw [h2] at he; cases he
      | ok y =>
        obtain ⟨s2, l2⟩ := y
        rw [h2, ok_bind] at he
        cases he
        exact ih (hok s1 l1 rfl) h2

end Verif.Race
