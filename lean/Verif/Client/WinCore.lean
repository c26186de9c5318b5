import Verif.Client.WinModel
import Verif.Client.EventCore

/-! # Waits and fires of the Windows objects -/

namespace Verif.Client.Win

open Verif.Event (Label isRet isPass isFire isCall)
open Verif.Event.Spec (who)
open Verif.Client.Event (isFail isEnd)

/-- How often thread `t` does `P`. -/
def cnt (t : Nat) (P : Label → Bool) (ls : List Label) : Nat := ls.countP fun l => decide (who l = t) && P l

/-- The kernel has let the wait of this thread pass. -/
def owes : Pc → Nat
  | .waited true => 1
  | _ => 0

/-- A call of fire that has not set anything. -/
def open1 : Pc → Nat
  | .signal | .signaled false => 1
  | _ => 0

def auto : Kind → Bool
  | .event true => false
  | _ => true

structure Inv (e s : W) (ls : List Label) : Prop where
  kind : s.kind = e.kind
  ret : ∀ t, cnt t isRet ls + owes (s.pc t) ≤ cnt t isPass ls
  call : ∀ t, cnt t isEnd ls + open1 (s.pc t) ≤ cnt t isCall ls
  bal : auto e.kind = true → ls.countP isPass + s.val ≤ e.val + ls.countP isFire
  quiet : e.val = 0 → ls.countP isFire = 0 → s.val = 0 ∧ ls.countP isPass = 0

theorem cnt_append (t : Nat) (P : Label → Bool) (l m : List Label) : cnt t P (l ++ m) = cnt t P l + cnt t P m :=
  List.countP_append ..

theorem cnt_nil (t : Nat) (P : Label → Bool) : cnt t P [] = 0 := rfl

theorem cnt_one (t : Nat) (P : Label → Bool) (l : Label) : cnt t P [l] = if who l = t ∧ P l = true then 1 else 0 := by
  by_cases h : who l = t <;> cases hp : P l <;> simp [cnt, h, hp]

/-- A step of thread `t` to `p` with new value `v`. -/
theorem Inv.move {e s : W} {tr : List Label} (h : Inv e s tr) (t : Nat) (p : Pc) (v : Nat) (ls : List Label)
    (hw : ∀ l ∈ ls, who l = t)
    (h1 : ls.countP isRet + owes p ≤ ls.countP isPass + owes (s.pc t))
    (h2 : ls.countP isEnd + open1 p ≤ ls.countP isCall + open1 (s.pc t))
    (h3 : auto e.kind = true → ls.countP isPass + v ≤ s.val + ls.countP isFire)
    (h4 : s.val = 0 → ls.countP isFire = 0 → v = 0 ∧ ls.countP isPass = 0) :
    Inv e (({ s with val := v } : W).goto t p) (tr ++ ls) := by
  have key : ∀ (P : Label → Bool) (u : Nat), cnt u P ls = if u = t then ls.countP P else 0 := by
    intro P u
    by_cases hu : u = t
    · subst hu
      rw [if_pos rfl]
      exact List.countP_congr fun l hl => by simp [hw l hl]
    · rw [if_neg hu]
      refine List.countP_eq_zero.2 fun l hl => ?_
      simp [hw l hl, Ne.symm hu]
  refine ⟨h.kind, fun u => ?_, fun u => ?_, fun ha => ?_, fun h0 hf => ?_⟩
  · rw [cnt_append, cnt_append, key, key]
    have := h.ret u
    by_cases hu : u = t
    · subst hu; simp only [W.goto, put_self, if_pos]; omega
    · simp only [W.goto, put_ne _ _ hu, if_neg hu]; omega
  · rw [cnt_append, cnt_append, key, key]
    have := h.call u
    by_cases hu : u = t
    · subst hu; simp only [W.goto, put_self, if_pos]; omega
    · simp only [W.goto, put_ne _ _ hu, if_neg hu]; omega
  · rw [List.countP_append, List.countP_append]
    have := h.bal ha
    have := h3 ha
    simp only [W.goto]
    omega
  · rw [List.countP_append] at hf ⊢
    obtain ⟨h5, h6⟩ := h.quiet h0 (by omega)
    obtain ⟨h7, h8⟩ := h4 h5 (by omega)
    exact ⟨h7, by omega⟩

theorem step_inv {e s c : W} {a : Act} {tr ls : List Label} (h : Inv e s tr) (hs : step s a = .ok (some (c, ls))) :
    Inv e c (tr ++ ls) := by
  have go : ∀ (t : Nat) (p : Pc) (ls : List Label), (∀ l ∈ ls, who l = t) →
      ls.countP isRet + owes p ≤ ls.countP isPass + owes (s.pc t) →
      ls.countP isEnd + open1 p ≤ ls.countP isCall + open1 (s.pc t) →
      ls.countP isPass ≤ ls.countP isFire → ls.countP isPass = 0 → Inv e (s.goto t p) (tr ++ ls) := by
    intro t p ls hw h1 h2 h3 h4
    exact h.move t p s.val ls hw h1 h2 (fun _ => by omega) (fun h0 _ => ⟨h0, h4⟩)
  have hk := h.kind
  cases a with
  | callWait t w =>
    simp only [step] at hs
    split at hs <;> cases hs
    rename_i hi
    exact go t _ _ (by simp [who]) (by simp [isRet, isPass, owes, hi]) (by simp [isEnd, isFire, isFail, isCall, open1, hi])
      (by simp [isPass]) (by simp [isPass])
  | callFire t =>
    simp only [step] at hs
    split at hs <;> cases hs
    rename_i hi
    exact go t _ _ (by simp [who]) (by simp [isRet, isPass, owes, hi]) (by simp [isEnd, isFire, isFail, isCall, open1, hi])
      (by simp [isPass]) (by simp [isPass])
  | callReset t =>
    simp only [step] at hs
    split at hs
    · cases hs
    split at hs <;> cases hs
    rename_i hi
    exact go t _ _ (by simp [who]) (by simp [isRet, isPass, owes, hi]) (by simp [isEnd, isFire, isFail, isCall, open1, hi])
      (by simp [isPass]) (by simp [isPass])
  | run t =>
    replace hs : run s t = some (c, ls) := by simpa [step] using hs
    unfold run at hs
    split at hs
    · cases hs
    · rename_i limit hi
      split at hs
      · split at hs <;> cases hs
        exact go t _ _ (by simp) (by simp [owes, hi]) (by simp [open1, hi]) (by simp) (by simp)
      · rename_i hv
        cases hs
        refine h.move t _ _ _ (by simp [who]) (by simp [isRet, isPass, owes, hi])
          (by simp [isEnd, isFire, isFail, isCall, open1, hi]) (fun ha => ?_) (fun h0 => absurd h0 hv)
        rw [← hk] at ha
        have : left s.kind s.val = s.val - 1 := by
          unfold left
          split
          · rename_i e; rw [e] at ha; cases ha
          · rfl
        simp [this, isPass, isFire]
        omega
    · rename_i r hi
      cases hs
      cases r
      · exact go t _ _ (by simp [who]) (by simp [isRet, isPass, owes, hi])
          (by simp [isEnd, isFire, isFail, isCall, open1, hi]) (by simp [isPass]) (by simp [isPass])
      · exact go t _ _ (by simp [who]) (by simp [isRet, isPass, owes, hi])
          (by simp [isEnd, isFire, isFail, isCall, open1, hi]) (by simp [isPass]) (by simp [isPass])
    · rename_i hi
      split at hs
      · rename_i n hr
        cases hs
        refine h.move t _ _ _ (by simp [who]) (by simp [isRet, isPass, owes, hi])
          (by simp [isEnd, isFire, isFail, isCall, open1, hi]) (fun _ => ?_) (fun _ hf => by simp [isFire] at hf)
        have : n ≤ s.val + 1 := by
          unfold raised at hr
          split at hr
          · split at hr <;> cases hr
            exact Nat.le_refl _
          · cases hr; omega
        simpa [isPass, isFire] using this
      · cases hs
        exact go t _ _ (by simp) (by simp [owes, hi]) (by simp [open1, hi]) (by simp) (by simp)
    · rename_i r hi
      cases hs
      cases r
      · exact go t _ _ (by simp [who]) (by simp [isRet, isPass, owes, hi])
          (by simp [isEnd, isFire, isFail, isCall, open1, hi]) (by simp [isPass]) (by simp [isPass])
      · exact go t _ _ (by simp [who]) (by simp [isRet, isPass, owes, hi])
          (by simp [isEnd, isFire, isFail, isCall, open1, hi]) (by simp [isPass]) (by simp [isPass])
    · rename_i hi
      cases hs
      exact h.move t _ _ _ (by simp [who]) (by simp [isRet, isPass, owes, hi])
        (by simp [isEnd, isFire, isFail, isCall, open1, hi]) (fun _ => by simp [isPass])
        (fun _ _ => ⟨rfl, by simp [isPass]⟩)
    · rename_i r hi
      cases hs
      exact go t _ _ (by simp [who]) (by simp [isRet, isPass, owes, hi])
        (by simp [isEnd, isFire, isFail, isCall, open1, hi]) (by simp [isPass]) (by simp [isPass])
  | fail t =>
    replace hs : fail s t = some (c, ls) := by simpa [step] using hs
    unfold fail at hs
    split at hs <;> cases hs
    all_goals
      rename_i hi
      exact go t _ _ (by simp) (by simp [owes, hi]) (by simp [open1, hi]) (by simp) (by simp)

theorem trace_inv {e s : W} {tr : List Label} (he : ∀ t, e.pc t = .idle) (h : Sem.Trace step e s tr) : Inv e s tr := by
  induction h with
  | nil =>
    exact ⟨rfl, fun t => by simp [cnt, he, owes], fun t => by simp [cnt, he, open1], fun _ => by simp,
      fun h _ => ⟨h, rfl⟩⟩
  | snoc _ hs ih => exact step_inv ih hs

theorem credit {e : W} (he : ∀ t, e.pc t = .idle) (ha : auto e.kind = true) : Event.Credit step e e.val :=
  fun _ ls h => by
    have hi := trace_inv he h
    have h1 := Counts.counts_le who (P := isRet) (Q := isPass) (ls := ls) fun t => by
      have := hi.ret t; unfold cnt at this; omega
    have h2 := Counts.counts_le who (P := isEnd) (Q := isCall) (ls := ls) fun t => by
      have := hi.call t; unfold cnt at this; omega
    have h3 := hi.bal ha
    rw [Event.end_counts] at h2
    omega

theorem notBefore {e : W} (he : ∀ t, e.pc t = .idle) (h0 : e.val = 0) : Event.NotBefore step e := fun _ ls h hc => by
  have hi := trace_inv he h
  have h1 := Counts.counts_le who (P := isRet) (Q := isPass) (ls := ls) fun t => by
    have := hi.ret t; unfold cnt at this; omega
  have h2 := Counts.counts_le who (P := isEnd) (Q := isCall) (ls := ls) fun t => by
    have := hi.call t; unfold cnt at this; omega
  rw [Event.end_counts] at h2
  have := (hi.quiet h0 (by omega)).2
  omega

end Verif.Client.Win
