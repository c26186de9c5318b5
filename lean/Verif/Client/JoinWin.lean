import Verif.Client.JoinCore
import Verif.Client.WinCore

/-! # Nothing is lost on Windows -/

namespace Verif.Client.Join

open Verif.Sem (Label isRet isTake isGive isCall)
open Verif.Sem.Spec (who)
open Verif.Client.Win (W Pc owes)

/-- How often thread `t` does `P`. -/
def cnt (t : Nat) (P : Label → Bool) (ls : List Label) : Nat := ls.countP fun l => decide (who l = t) && P l

/-- The kernel has taken the unit released by this thread. -/
def done1 : Pc → Nat
  | .signaled true => 1
  | _ => 0

structure WInv (m : Nat) (s : W) (tr : List Label) : Prop where
  kind : s.kind = .sem m
  bal : s.val + tr.countP isTake = m + tr.countP isGive
  ret : ∀ t, cnt t isTake tr = cnt t isRet tr + owes (s.pc t)
  suc : ∀ t, cnt t isGive tr = cnt t isSucc tr + done1 (s.pc t)
  noreset : ∀ t, s.pc t ≠ .reset

theorem WInv.move {m : Nat} {s : W} {tr : List Label} (h : WInv m s tr) (t : Nat) (p : Pc) (v : Nat) (ls : List Label)
    (hw : ∀ l ∈ ls, who l = t)
    (h1 : ls.countP isTake + owes (s.pc t) = ls.countP isRet + owes p)
    (h2 : ls.countP isGive + done1 (s.pc t) = ls.countP isSucc + done1 p)
    (h3 : v + ls.countP isTake = s.val + ls.countP isGive) (h4 : p ≠ .reset) :
    WInv m (({ s with val := v } : W).goto t p) (tr ++ ls) := by
  have app : ∀ (P : Label → Bool) (u : Nat), cnt u P (tr ++ ls) = cnt u P tr + cnt u P ls := fun P u => List.countP_append ..
  have key : ∀ (P : Label → Bool) (u : Nat), cnt u P ls = if u = t then ls.countP P else 0 := by
    intro P u
    by_cases hu : u = t
    · subst hu
      rw [if_pos rfl]
      exact List.countP_congr fun l hl => by simp [hw l hl]
    · rw [if_neg hu]
      refine List.countP_eq_zero.2 fun l hl => ?_
      simp [hw l hl, Ne.symm hu]
  refine ⟨h.kind, ?_, fun u => ?_, fun u => ?_, fun u => ?_⟩
  · rw [List.countP_append, List.countP_append]
    have := h.bal
    simp only [W.goto]
    omega
  · rw [app, app, key, key]
    have := h.ret u
    by_cases hu : u = t
    · subst hu; simp only [W.goto, put_self, if_pos]; omega
    · simp only [W.goto, put_ne _ _ hu, if_neg hu]; omega
  · rw [app, app, key, key]
    have := h.suc u
    by_cases hu : u = t
    · subst hu; simp only [W.goto, put_self, if_pos]; omega
    · simp only [W.goto, put_ne _ _ hu, if_neg hu]; omega
  · by_cases hu : u = t
    · subst hu; simp only [W.goto, put_self]; exact h4
    · simp only [W.goto, put_ne _ _ hu]; exact h.noreset u

theorem step_winv {m : Nat} {s c : W} {a : Win.Act} {tr ls : List Label} (h : WInv m s tr)
    (hs : Event.boxStep Win.step s a = .ok (some (c, ls))) : WInv m c (tr ++ ls) := by
  have hk := h.kind
  have go : ∀ (t : Nat) (p : Pc) (ls : List Label), (∀ l ∈ ls, who l = t) →
      ls.countP isTake + owes (s.pc t) = ls.countP isRet + owes p →
      ls.countP isGive + done1 (s.pc t) = ls.countP isSucc + done1 p →
      ls.countP isTake = ls.countP isGive → p ≠ .reset → WInv m (s.goto t p) (tr ++ ls) := by
    intro t p ls hw h1 h2 h3 h4
    exact h.move t p s.val ls hw h1 h2 (by omega) h4
  obtain ⟨l0, hw, rfl⟩ : ∃ l0, Win.step s a = .ok (some (c, l0)) ∧ ls = l0.filterMap Event.asSem := by
    unfold Event.boxStep at hs
    split at hs
    · cases hs
    · cases hs
    · rename_i c' l1 hs'
      cases hs
      exact ⟨l1, hs', rfl⟩
  clear hs
  have hs := hw
  cases a with
  | callWait t w =>
    simp only [Win.step] at hs
    split at hs <;> cases hs
    rename_i hi
    exact go t _ _ (by simp [Event.asSem, who]) (by simp [Event.asSem, isTake, isRet, owes, hi]) (by simp [Event.asSem, isGive, isSucc, done1, hi])
      (by simp [Event.asSem, isTake, isGive]) (by simp)
  | callFire t =>
    simp only [Win.step] at hs
    split at hs <;> cases hs
    rename_i hi
    exact go t _ _ (by simp [Event.asSem, who]) (by simp [Event.asSem, isTake, isRet, owes, hi]) (by simp [Event.asSem, isGive, isSucc, done1, hi])
      (by simp [Event.asSem, isTake, isGive]) (by simp)
  | callReset t => simp only [Win.step, hk] at hs; cases hs
  | run t =>
    replace hs : Win.run s t = some (c, l0) := by simpa [Win.step] using hs
    unfold Win.run at hs
    split at hs
    · cases hs
    · rename_i hi
      split at hs
      · split at hs <;> cases hs
        exact go t _ _ (by simp) (by simp [owes, hi]) (by simp [done1, hi]) (by simp) (by simp)
      · cases hs
        exact h.move t _ _ _ (by simp [Event.asSem, who]) (by simp [Event.asSem, isTake, isRet, owes, hi])
          (by simp [Event.asSem, isGive, isSucc, done1, hi]) (by simp [Event.asSem, isTake, isGive, hk, Win.left]; omega) (by simp)
    · rename_i r hi
      cases hs
      exact go t _ _ (by simp [Event.asSem, who]) (by cases r <;> simp [Event.asSem, isTake, isRet, owes, hi])
        (by simp [Event.asSem, isGive, isSucc, done1, hi]) (by simp [Event.asSem, isTake, isGive]) (by simp)
    · rename_i hi
      split at hs
      · rename_i v hv
        cases hs
        have hv' : v = s.val + 1 := by
          rw [hk] at hv
          simp only [Win.raised] at hv
          split at hv <;> cases hv
          rfl
        exact h.move t _ _ _ (by simp [Event.asSem, who]) (by simp [Event.asSem, isTake, isRet, owes, hi])
          (by simp [Event.asSem, isGive, isSucc, done1, hi]) (by simp [Event.asSem, isTake, isGive, hv']) (by simp)
      · cases hs
        exact go t _ _ (by simp) (by simp [owes, hi]) (by simp [done1, hi]) (by simp) (by simp)
    · rename_i r hi
      cases hs
      exact go t _ _ (by simp [Event.asSem, who]) (by simp [Event.asSem, isTake, isRet, owes, hi])
        (by cases r <;> simp [Event.asSem, isGive, isSucc, done1, hi]) (by simp [Event.asSem, isTake, isGive]) (by simp)
    · rename_i hi
      exact absurd hi (h.noreset t)
    · rename_i r hi
      cases hs
      exact go t .idle [] (by simp) (by simp [owes, hi]) (by simp [done1, hi]) (by simp) (by simp)
  | fail t =>
    replace hs : Win.fail s t = some (c, l0) := by simpa [Win.step] using hs
    unfold Win.fail at hs
    split at hs <;> cases hs
    all_goals
      rename_i hi
      exact go t _ _ (by simp) (by simp [owes, hi]) (by simp [done1, hi]) (by simp) (by simp)

theorem trace_winv {m : Nat} {s : W} {tr : List Label} (h : Sem.Trace (Event.boxStep Win.step) (Win.sem m) s tr) : WInv m s tr := by
  induction h with
  | nil => exact ⟨rfl, rfl, fun _ => rfl, fun _ => rfl, fun _ => (fun h => nomatch h)⟩
  | snoc _ hs ih => exact step_winv ih hs

end Verif.Client.Join
