import Verif.WinMutex.Steps

/-! # Executions of the mutex on Windows -/

namespace Verif.WinMutex

open Verif.Mutex (Label Pc setAt dec32 critAt unstable window phOf obs depth_cons obs_other phase_none phase_append)
open Verif.Mutex.Spec (Phase phase move who depth Holds Shallow)
open Spec

/-! ## Critical sections -/

/-- Who is in a critical section owns it. -/
def Owned (s : S) : Prop := ∀ t o, critAt (s.pc t) = some o → s.cs o = some t

/-- The step is defined and keeps `Owned`. -/
def OwnOk (r : CRes (Option (S × List Label))) : Prop :=
  ∃ x, r = .ok x ∧ ∀ s' ls, x = some (s', ls) → Owned s'

theorem own_goto {s : S} {t : Nat} {p : Pc} {ls : List Label} (h : Owned s)
    (hp : ∀ o, critAt p = some o → s.cs o = some t) : OwnOk (.ok (some (s.goto t p, ls))) := by
  refine ⟨_, rfl, ?_⟩
  rintro s' ls' e
  cases e
  intro u o hu
  by_cases hut : u = t
  · subst hut
    rw [show (s.goto u p).pc u = p from if_pos rfl] at hu
    exact hp o hu
  · rw [show (s.goto t p).pc u = s.pc u from if_neg hut] at hu
    exact h u o hu

theorem own_enter {s : S} {t o : Nat} {p : Pc} (h : Owned s) (hp : critAt p = some o) : OwnOk (enter s t o p) := by
  unfold enter
  cases ho : s.cs o with
  | some u => exact ⟨_, rfl, fun _ _ e => nomatch e⟩
  | none =>
    have h' : ∀ u q, s.cs q = some u → setAt s.cs o (some t) q = some u := fun u q e => by
      unfold setAt
      split
      · rename_i e'; rw [e', ho] at e; cases e
      · exact e
    refine own_goto (fun u q e => h' u q (h u q e)) (fun q e => ?_)
    rw [hp] at e
    cases e
    exact setAt_self ..

theorem own_leave {s : S} {t o : Nat} {p : Pc} {ls : List Label} (h : Owned s) (hc : critAt (s.pc t) = some o)
    (hp : critAt p = none) : OwnOk (leave s t o p ls) := by
  unfold leave
  rw [if_pos (h t o hc)]
  refine ⟨_, rfl, ?_⟩
  rintro s' ls' e
  cases e
  intro u q hu
  by_cases hut : u = t
  · subst hut
    have : critAt p = some q := by
      rw [← hu]
      show _ = critAt (if u = u then p else _)
      rw [if_pos rfl]
    rw [hp] at this
    cases this
  · have hu : critAt (s.pc u) = some q := by
      rw [← hu]
      show _ = critAt (if u = t then p else _)
      rw [if_neg hut]
    have := h u q hu
    show setAt s.cs o none q = some u
    unfold setAt
    split
    · rename_i e
      rw [e, h t o hc] at this
      exact absurd (Option.some.inj this).symm hut
    · exact this

theorem own_run {s : S} {t : Nat} (h : Owned s) : OwnOk (run s t) := by
  have hnone : OwnOk (.ok none) := ⟨_, rfl, fun _ _ e => nomatch e⟩
  have hot := h t
  have ht : ∀ (s1 : S) (p : Pc) (ls : List Label), s1.cs = s.cs → s1.pc = s.pc →
      (∀ o, critAt p = some o → s.cs o = some t) → OwnOk (.ok (some (s1.goto t p, ls))) := by
    intro s1 p ls e1 e2 hp
    exact own_goto (fun u o e => by rw [e1]; rw [e2] at e; exact h u o e) (fun o e => by rw [e1]; exact hp o e)
  unfold run
  cases hpc : s.pc t with
  | idle => exact hnone
  | lCs o wait => exact own_enter h rfl
  | lTest o wait =>
    rw [hpc] at hot
    dsimp only
    split <;> exact ht _ _ _ rfl rfl (fun q e => hot q e)
  | lLoad o => rw [hpc] at hot; exact ht _ _ _ rfl rfl (fun q e => hot q e)
  | lStore o v => rw [hpc] at hot; exact ht _ _ _ rfl rfl (fun q e => hot q e)
  | lUnl o => exact own_leave h (by rw [hpc]; rfl) rfl
  | lOut o wait => exact own_leave h (by rw [hpc]; rfl) rfl
  | lWait o wait =>
    dsimp only
    split
    · split <;> exact ht _ _ _ rfl rfl (fun q e => nomatch e)
    · split
      · exact ht _ _ _ rfl rfl (fun q e => nomatch e)
      · exact hnone
  | lCs2 o => exact own_enter h rfl
  | lOwn o => rw [hpc] at hot; exact ht _ _ _ rfl rfl (fun q e => hot q e)
  | lCnt o => rw [hpc] at hot; exact ht _ _ _ rfl rfl (fun q e => hot q e)
  | uCs o all => exact own_enter h rfl
  | uTest o all =>
    rw [hpc] at hot
    dsimp only
    split <;> exact ht _ _ _ rfl rfl (fun q e => hot q e)
  | uBad o all => exact own_leave h (by rw [hpc]; rfl) rfl
  | uAll o all => rw [hpc] at hot; exact ht _ _ _ rfl rfl (fun q e => hot q e)
  | uLoad o all => rw [hpc] at hot; exact ht _ _ _ rfl rfl (fun q e => hot q e)
  | uStore o all v => rw [hpc] at hot; exact ht _ _ _ rfl rfl (fun q e => hot q e)
  | uZero o all =>
    rw [hpc] at hot
    dsimp only
    split <;> exact ht _ _ _ rfl rfl (fun q e => hot q e)
  | uOwn o all => rw [hpc] at hot; exact ht _ _ _ rfl rfl (fun q e => hot q e)
  | uRel o all =>
    rw [hpc] at hot
    dsimp only
    refine ht _ _ _ ?_ ?_ (fun q e => hot q e) <;> unfold released <;> split <;> rfl
  | uUnl o all => exact own_leave h (by rw [hpc]; rfl) rfl

theorem own_step {s : S} {a : Act} (h : Owned s) : OwnOk (step s a) := by
  have hnone : OwnOk (.ok none) := ⟨_, rfl, fun _ _ e => nomatch e⟩
  cases a with
  | callLock t o wait =>
    unfold step
    dsimp only
    split
    · exact own_goto h (fun _ e => nomatch e)
    · exact hnone
  | callUnlock t o all =>
    unfold step
    dsimp only
    split
    · exact own_goto h (fun _ e => nomatch e)
    · exact hnone
  | run t => exact own_run h
  | fail t =>
    have hot := h t
    unfold step fail
    dsimp only
    cases hpc : s.pc t with
    | lWait o wait => exact own_goto h (fun _ e => nomatch e)
    | uRel o all => rw [hpc] at hot; exact own_goto h (fun q e => hot q e)
    | _ => exact hnone
  | die t =>
    unfold step
    dsimp only
    split
    · refine ⟨_, rfl, fun s' ls e => ?_⟩
      cases e
      unfold ended
      split
      · exact h
      · exact h
    · exact hnone

theorem exec_owned (as : List Act) : ∀ {s : S}, Owned s → ∃ s' ls, exec s as = .ok (s', ls) := by
  induction as with
  | nil => intro s _; exact ⟨_, _, rfl⟩
  | cons a as ih =>
    intro s h
    obtain ⟨x, hx, h'⟩ := own_step (a := a) h
    rw [exec, hx, ok_bind]
    cases x with
    | none => exact ih h
    | some y =>
      obtain ⟨s1, l1⟩ := y
      obtain ⟨s2, l2, e⟩ := ih (h' s1 l1 rfl)
      dsimp only
      rw [e, ok_bind]
      exact ⟨_, _, rfl⟩

theorem owned_init : Owned init := fun _ _ e => nomatch e

/-! ## Observed depth -/

theorem atomic_append (h : Held) (as bs : List Label) :
    atomic h (as ++ bs) = (atomic h as).bind (atomic · bs) := by
  induction as generalizing h with
  | nil => rfl
  | cons l as ih =>
    rw [List.cons_append, atomic, atomic, Option.bind_assoc]
    congr 1
    funext x
    exact ih x

/-- Observed depth against the depth of the atomic mutex. -/
def Agree (t o : Nat) (p : Phase) (d : Nat) (h : Held) : Prop :=
  match p with
  | .locked o' => dep h t o = if o' = o then d + 1 else d
  | .left o' all => dep h t o = if o' = o then (if all then 0 else d - 1) else d
  | _ => dep h t o = d

/-- The change of a depth `d`. -/
def chg (t o d : Nat) : Label → Nat
  | .acquire u p | .again u p => if t = u ∧ o = p then d + 1 else d
  | .leave u p all => if t = u ∧ o = p then (if all then 0 else d - 1) else d
  | _ => d

/-- How an effect changes the depths. -/
theorem effect_dep {h h' : Held} {l : Label} (he : effect h l = some h') (t o : Nat) :
    dep h' t o = chg t o (dep h t o) l := by
  cases l with
  | acquire u p =>
    rw [effect] at he
    split at he <;> cases he
    exact dep_cons h u p t o
  | again u p =>
    rw [effect] at he
    split at he <;> cases he
    exact dep_cons h u p t o
  | leave u p all =>
    rw [effect] at he
    split at he <;> cases he
    cases all
    · exact dep_erase h u p t o
    · exact dep_filter h u p t o
  | refuse u p =>
    rw [effect] at he
    split at he <;> cases he
    rfl
  | giveUp u p =>
    rw [effect] at he
    split at he <;> cases he
    rfl
  | _ => cases he; rfl

theorem agree_own {t o d : Nat} {p p' : Phase} {h h' : Held} {l : Label} (hw : who l = t)
    (hm : move p l = some p') (he : effect h l = some h') (ha : Agree t o p d h) :
    Agree t o p' (obs t o d l) h' := by
  have hd := effect_dep he t o
  clear he
  subst hw
  cases l with
  | retLock t' o' r =>
    cases r <;> cases p <;> simp only [move, reduceCtorEq] at hm <;> grind [Agree, obs, who, move, chg]
  | retUnlock t' o' all r =>
    cases r <;> cases p <;> simp only [move, reduceCtorEq] at hm <;> grind [Agree, obs, who, move, chg]
  | _ => cases p <;> simp only [move, reduceCtorEq] at hm <;> grind [Agree, obs, who, move, chg]

theorem agree_other {t o d : Nat} {p : Phase} {h h' : Held} {l : Label} (hw : who l ≠ t)
    (he : effect h l = some h') (ha : Agree t o p d h) : Agree t o p (obs t o d l) h' := by
  have hd := effect_dep he t o
  rw [obs_other hw]
  have : dep h' t o = dep h t o := by
    rw [hd]
    cases l <;> grind [who, chg]
  unfold Agree at ha ⊢
  rw [this]
  exact ha

theorem agree {t o d : Nat} {p p' : Phase} {h h' : Held} {ls : List Label}
    (hp : phase t (some p) ls = some p') (ha : atomic h ls = some h') (hg : Agree t o p d h) :
    Agree t o p' (depth t o d ls) h' := by
  induction ls generalizing p h d with
  | nil => cases hp; cases ha; exact hg
  | cons l ls ih =>
    rw [atomic] at ha
    rw [phase] at hp
    rw [depth_cons]
    cases he : effect h l with
    | none => rw [he] at ha; cases ha
    | some h1 =>
      rw [he] at ha
      by_cases hw : who l = t
      · rw [if_pos hw] at hp
        cases hm : move p l with
        | none =>
          rw [show (some p).bind (move · l) = none from hm, phase_none] at hp; cases hp
        | some p1 =>
          rw [show (some p).bind (move · l) = some p1 from hm] at hp
          exact ih hp ha (agree_own hw hm he hg)
      · rw [if_neg hw] at hp
        exact ih hp ha (agree_other hw he hg)

/-! ## Executions -/

theorem exec_app (as bs : List Act) : ∀ s, exec s (as ++ bs) = (do
    let (s1, l1) ← exec s as
    let (s2, l2) ← exec s1 bs
    .ok (s2, l1 ++ l2)) := by
  induction as with
  | nil =>
    intro s
    rw [List.nil_append, exec, ok_bind]
    dsimp only
    cases exec s bs with
    | error e => rfl
    | ok x => rfl
  | cons a as ih =>
    intro s
    rw [List.cons_append, exec, exec]
    cases step s a with
    | error e => rfl
    | ok r =>
      rw [ok_bind, ok_bind]
      cases r with
      | none => exact ih s
      | some x =>
        obtain ⟨s1, l1⟩ := x
        dsimp only
        rw [ih s1]
        cases exec s1 as with
        | error e => rfl
        | ok y =>
          obtain ⟨s2, l2⟩ := y
          simp only [ok_bind]
          cases exec s2 bs with
          | error e => rfl
          | ok z =>
            obtain ⟨s3, l3⟩ := z
            simp only [ok_bind, List.append_assoc]

/-- No `ReleaseMutex` fails. -/
def Clean (as : List Act) : Prop :=
  ∀ p a q, as = p ++ a :: q → ∀ s ls, exec init p = .ok (s, ls) → faults s a = false

theorem snoc_ind {α : Type} {P : List α → Prop} (h0 : P []) (h1 : ∀ as a, P as → P (as ++ [a])) (as : List α) : P as := by
  rw [← List.reverse_reverse as]
  induction as.reverse with
  | nil => exact h0
  | cons a as ih => rw [List.reverse_cons]; exact h1 _ _ ih

theorem exec_ok (as : List Act) (lv : Bool) : Orderly as → (lv = true → Clean as) → ∀ {s ls},
    exec init as = .ok (s, ls) → Shallow ls → ∃ h D, Inv s (dep h) D lv ∧ atomic [] ls = some h ∧
      ∀ t, phase t (some .out) ls = some (phOf (s.pc t)) := by
  induction as using snoc_ind with
  | h0 =>
    intro _ _ s ls he _
    cases he
    refine ⟨[], [], ?_, rfl, fun _ => rfl⟩
    have : dep [] = fun _ _ => 0 := rfl
    rw [this]
    cases lv
    · exact init_inv.weaken
    · exact init_inv
  | h1 as a ih =>
    intro ho hc s ls he hs
    rw [exec_app] at he
    obtain ⟨s1, l1, h1⟩ := exec_owned as owned_init
    rw [h1, ok_bind] at he
    dsimp only at he
    have ho1 : Orderly as := fun p t q e => ho p t (q ++ [a]) (by rw [e]; simp)
    have hc1 : lv = true → Clean as := fun e p b q e' => hc e p b (q ++ [a]) (by rw [e']; simp)
    cases h2 : exec s1 [a] with
    | error e => rw [h2] at he; cases he
    | ok x =>
      obtain ⟨s2, l2⟩ := x
      rw [h2, ok_bind] at he
      cases he
      have hs1 : Shallow l1 := fun q hq => hs q (hq.trans (List.prefix_append ..))
      obtain ⟨h, D, hi, ha, hp⟩ := ih ho1 hc1 h1 hs1
      have hag : ∀ t o, Agree t o (phOf (s1.pc t)) (depth t o 0 l1) h := fun t o =>
        agree (hp t) ha rfl
      have hk : ∀ t o, phOf (s1.pc t) = .locking o → dep h t o + 1 < 4294967296 := by
        intro t o e
        have := hag t o
        rw [e] at this
        have this : dep h t o = depth t o 0 l1 := this
        have := hs1 l1 (List.prefix_refl _) t o
        omega
      have hd : ∀ t, a = .die t → s1.pc t = .idle → ∀ o, dep h t o = 0 := by
        intro t e e' o
        have := hag t o
        rw [e'] at this
        have this : dep h t o = depth t o 0 l1 := this
        rw [this]
        exact ho as t [] (by rw [e]) s1 l1 h1 o
      obtain ⟨r, hr, hok⟩ := step_ok (a := a) hi hk hd
      have hlv : (lv && !faults s1 a) = lv := by
        cases lv
        · rfl
        · rw [hc rfl as a [] rfl s1 l1 h1]; rfl
      rw [hlv] at hok
      rw [exec, hr, ok_bind] at h2
      cases r with
      | none =>
        cases h2
        rw [List.append_nil]
        exact ⟨h, D, hi, ha, hp⟩
      | some y =>
        obtain ⟨s3, l3⟩ := y
        cases h2
        rw [List.append_nil]
        obtain ⟨h', D', hi', ha', hp'⟩ := hok _ _ rfl
        refine ⟨h', D', hi', ?_, fun t => ?_⟩
        · rw [atomic_append, ha]; exact ha'
        · rw [phase_append, hp t]; exact hp' t

end Verif.WinMutex
