import Verif.Tls.ThreadsLemmas
import Verif.Tls.Spec
import Mathlib.Tactic.ByContra

/-! # C121: threads sharing one thread-local allocator do not notice each other -/

namespace Verif.Tls
open Spec

namespace Spec

/-- What is known about each thread: with how many buckets it is initialised, and its live blocks. -/
structure Threads where
  bits : Nat → Option Nat
  live : Nat → Live

/-- Nobody has called anything. -/
def Threads.none : Threads := ⟨fun _ => .none, fun _ => Live.none⟩

/-- The thread keeps to the rules: those of C40 with its own live blocks; everything is freed before `ThreadEnd`; and the
number of buckets is at most 31, or the sizes at most `2 ^ 31`.  A thread that is not initialised may ask for memory. -/
def MValid (K : Nat) (σ : Threads) (t : Nat) : MOp → Prop
  | .init _ bits => bits ≤ 31 ∨ K ≤ 31
  | .call op =>
    match σ.bits t with
    | some m => Valid m K (σ.live t) op
    | .none =>
      match op with
      | .malloc _ _ => True
      | .realloc _ p _ _ => Usable (σ.live t) p
      | .free p _ => Usable (σ.live t) p
      | .peek p i => Inside (σ.live t) p i
      | .poke p i _ => Inside (σ.live t) p i
  | .fin => ∀ p, σ.live t p = .none

/-- Proper results: those of C40, and a block that is handed out is in use nowhere, in no thread.  Without `ThreadInit` there
is no memory. -/
def MGood (σ : Threads) (t : Nat) : MOp → MOut → Prop
  | .init ok _, .bool b => b = ((σ.bits t).isSome || ok)
  | .fin, .bool b => b = (σ.bits t).isSome
  | .call op, .out o =>
    match σ.bits t with
    | some _ => Good (σ.live t) op o ∧ ∀ b, o = .ptr (.blk b) → ∀ t', t' ≠ t → σ.live t' b = .none
    | .none => o = .ptr .null ∨ o = .unit
  | _, _ => False

/-- What is known after a call. -/
def mafter (σ : Threads) (t : Nat) : MOp → MOut → Threads
  | .init _ bits, .bool true =>
    match σ.bits t with
    | some _ => σ
    | .none => { σ with bits := fun u => if u = t then some bits else σ.bits u }
  | .call op, .out o => { σ with live := fun u => if u = t then after (σ.live t) op o else σ.live u }
  | .fin, _ => { σ with bits := fun u => if u = t then .none else σ.bits u }
  | _, _ => σ

/-- The same after an interleaving. -/
def mafterAll : Threads → List (Nat × MOp × MOut) → Threads
  | σ, [] => σ
  | σ, (t, op, o) :: h => mafterAll (mafter σ t op o) h

/-- All threads kept to the rules. -/
def MAllValid (K : Nat) : Threads → List (Nat × MOp × MOut) → Prop
  | _, [] => True
  | σ, (t, op, o) :: h => MValid K σ t op ∧ MAllValid K (mafter σ t op o) h

end Spec

/-! ## The invariant -/

/-- The part of the heap that belongs to a thread. -/
def mask (own : Nat → Option Nat) (t : Nat) (h : BHeap Cell) : BHeap Cell := h.mapIdx fun p b => if own p = some t then b else none

theorem mask_live {own : Nat → Option Nat} {t : Nat} {h : BHeap Cell} {p : Nat} {b : List Cell} :
    (mask own t h)[p]? = some (some b) ↔ own p = some t ∧ h[p]? = some (some b) := by
  unfold mask
  rw [List.getElem?_mapIdx]
  cases h[p]? with
  | none => simp
  | some c =>
    simp only [Option.map_some, Option.some.injEq]
    split
    · rename_i e; simp [e]
    · rename_i e; simp [e]

theorem Rel.congr {m K : Nat} {s s' : St} {l : Live} (h : Rel m K s l) (hm : s'.main = s.main) (hb : s'.bk = s.bk)
    (hh : ∀ (p : Nat) (b : List Cell), s'.heap[p]? = some (some b) ↔ s.heap[p]? = some (some b)) : Rel m K s' l := by
  refine ⟨h.bnd, by rw [hm]; exact h.main, fun p cs e => ?_, fun i q e => ?_, by rw [hb]; exact h.nd, by rw [hb]; exact h.dj,
    by rw [hb]; exact h.emp, fun p b e => ?_⟩
  · obtain ⟨b, pos, e1, e2⟩ := h.live p cs e
    exact ⟨b, pos, (hh p b).2 e1, e2⟩
  · rw [hb] at e
    obtain ⟨e0, b, e1, e2⟩ := h.free i q e
    exact ⟨e0, b, (hh q b).2 e1, e2⟩
  · rw [hb]
    exact h.own p b ((hh p b).1 e)

/-- One thread. -/
def ThInv (K : Nat) (own : Nat → Option Nat) (heap : BHeap Cell) (t : Nat) (th : Th) (le : Live) : Prop :=
  match th.main with
  | some m => Rel m K ⟨mask own t heap, some m, th.bk⟩ le ∧ (m ≤ 31 ∨ K ≤ 31)
  | none => (∀ p, le p = none) ∧ ∀ p b, own p = some t → heap[p]? ≠ some (some b)

structure MInv (K : Nat) (own : Nat → Option Nat) (s : M) (σ : Threads) (le : Nat → Live) : Prop where
  th : ∀ t, ThInv K own s.heap t (s.th t) (le t)
  kn : ∀ t, Knows (σ.live t) (le t)
  bits : ∀ t, (s.th t).main = σ.bits t
  owned : ∀ p b, s.heap[p]? = some (some b) → own p ≠ none

/-- Blocks made while thread `t` is at work belong to it. -/
def owner (own : Nat → Option Nat) (n t : Nat) : Nat → Option Nat := fun p => if n ≤ p then some t else own p

theorem ThInv.keep {K : Nat} {own own' : Nat → Option Nat} {h h' : BHeap Cell} {t : Nat} {th : Th} {le : Live} (i : ThInv K own h t th le)
    (hh : ∀ p b, (own' p = some t ∧ h'[p]? = some (some b)) ↔ (own p = some t ∧ h[p]? = some (some b))) : ThInv K own' h' t th le := by
  unfold ThInv at i ⊢
  cases hm : th.main with
  | some m =>
    rw [hm] at i
    exact ⟨i.1.congr rfl rfl (fun p b => by rw [mask_live, mask_live]; exact hh p b), i.2⟩
  | none =>
    rw [hm] at i
    exact ⟨i.1, fun p b e1 e2 => i.2 p b ((hh p b).1 ⟨e1, e2⟩).1 ((hh p b).1 ⟨e1, e2⟩).2⟩

/-- What a thread sees is its part of the heap, as far as it can tell. -/
theorem sim_start (own : Nat → Option Nat) (t : Nat) (h : BHeap Cell) :
    Sim (fun p => p < h.length ∧ own p ≠ some t) h (mask own t h) h := by
  refine ⟨by simp [mask], Nat.le_refl _, fun p hp => ⟨hp.1, ?_, rfl⟩, fun p hp => ?_⟩
  · unfold mask
    rw [List.getElem?_mapIdx, List.getElem?_eq_getElem hp.1]
    simp [hp.2]
  · unfold mask
    rw [List.getElem?_mapIdx]
    rcases Nat.lt_or_ge p h.length with hl | hl
    · have : own p = some t := by
        by_contra hne
        exact hp ⟨hl, hne⟩
      rw [List.getElem?_eq_getElem hl]
      simp [this]
    · rw [List.getElem?_eq_none hl]
      rfl

theorem sim_self {own : Nat → Option Nat} {t : Nat} {h hm hr : BHeap Cell} (s : Sim (fun p => p < h.length ∧ own p ≠ some t) h hm hr)
    (p : Nat) (b : List Cell) : (mask (owner own h.length t) t hr)[p]? = some (some b) ↔ hm[p]? = some (some b) := by
  rw [mask_live]
  by_cases hF : p < h.length ∧ own p ≠ some t
  · rw [(s.oth p hF).2.1]
    simp only [owner, if_neg (show ¬ h.length ≤ p by omega)]
    constructor
    · intro e; exact absurd e.1 hF.2
    · intro e; cases e
  · rw [s.own p hF]
    constructor
    · exact And.right
    · intro e
      refine ⟨?_, e⟩
      unfold owner
      split
      · rfl
      · rename_i hl
        by_contra hne
        exact hF ⟨by omega, hne⟩

theorem sim_other {own : Nat → Option Nat} {t t' : Nat} {h hm hr : BHeap Cell} (s : Sim (fun p => p < h.length ∧ own p ≠ some t) h hm hr)
    (ht : t' ≠ t) (p : Nat) (b : List Cell) :
    (owner own h.length t p = some t' ∧ hr[p]? = some (some b)) ↔ (own p = some t' ∧ h[p]? = some (some b)) := by
  unfold owner
  by_cases hl : h.length ≤ p
  · rw [if_pos hl, List.getElem?_eq_none hl]
    constructor
    · rintro ⟨e, -⟩; exact absurd (Option.some.inj e).symm ht
    · rintro ⟨-, e⟩; cases e
  · rw [if_neg hl]
    constructor
    · rintro ⟨e1, e2⟩
      refine ⟨e1, ?_⟩
      rw [← (s.oth p ⟨by omega, by rw [e1]; intro h; exact ht (Option.some.inj h)⟩).2.2]
      exact e2
    · rintro ⟨e1, e2⟩
      refine ⟨e1, ?_⟩
      rw [(s.oth p ⟨by omega, by rw [e1]; intro h; exact ht (Option.some.inj h)⟩).2.2]
      exact e2

theorem sim_owned {own : Nat → Option Nat} {t : Nat} {h hm hr : BHeap Cell} (s : Sim (fun p => p < h.length ∧ own p ≠ some t) h hm hr)
    (ho : ∀ p b, h[p]? = some (some b) → own p ≠ none) (p : Nat) (b : List Cell) (e : hr[p]? = some (some b)) :
    owner own h.length t p ≠ none := by
  unfold owner
  split
  · simp
  · rename_i hl
    by_cases e' : own p = some t
    · rw [e']; simp
    · rw [(s.oth p ⟨by omega, e'⟩).2.2] at e
      exact ho p b e

theorem live_own {K m : Nat} {own : Nat → Option Nat} {h : BHeap Cell} {t : Nat} {bk : Nat → List Nat} {le : Live} {p : Nat}
    (r : Rel m K ⟨mask own t h, some m, bk⟩ le) (hp : le p ≠ none) : own p = some t ∧ p < h.length := by
  obtain ⟨cs, e⟩ := Option.ne_none_iff_exists'.mp hp
  obtain ⟨b, pos, e1, -⟩ := r.live p cs e
  have := mask_live.1 e1
  exact ⟨this.1, BHeap.lt_of_block this.2⟩

theorem good_live {m K : Nat} {l : Live} {op : Op} {b : Nat} (hv : Valid m K l op) (hg : Good l op (.ptr (.blk b))) :
    after l op (.ptr (.blk b)) b ≠ none := by
  cases op with
  | malloc ok n => simp [after, put]
  | realloc ok p n c =>
    obtain ⟨-, -, h3⟩ := hv
    rcases h3 with rfl | ⟨b0, rfl, h4⟩
    · simp [after, put]
    · obtain ⟨cs, hcs⟩ := Option.ne_none_iff_exists'.mp h4
      simp [after, hcs, put]
  | free p c => exact absurd hg (by simp [Good])
  | peek p i => cases p <;> exact absurd hg (by simp [Good])
  | poke p i v => exact absurd hg (by simp [Good])

/-- A thread without a cache has nothing and gets nothing. -/
theorem call_uninit {s : St} {l : Live} {op : Op} (hm : s.main = none) (hl : ∀ p, l p = none)
    (hv : match op with
      | .malloc _ _ => True
      | .realloc _ p _ _ => Usable l p
      | .free p _ => Usable l p
      | .peek p i => Inside l p i
      | .poke p i _ => Inside l p i) :
    ∃ o, step s op = .ok (o, s) ∧ (o = .ptr .null ∨ o = .unit) ∧ after l op o = l := by
  have hu : ∀ p, Usable l p → p = .null := by
    rintro p (h | ⟨b, -, h⟩)
    · exact h
    · exact absurd (hl b) h
  have hmal : ∀ ok n, malloc s ok n = .ok (.null, s) := by
    intro ok n
    unfold malloc
    split
    · rfl
    · rw [hm]
  cases op with
  | malloc ok n => exact ⟨.ptr .null, by simp [step, hmal], .inl rfl, rfl⟩
  | realloc ok p n c =>
    have := hu p hv
    subst this
    refine ⟨.ptr .null, ?_, .inl rfl, rfl⟩
    unfold step realloc
    by_cases h0 : n = 0
    · simp [h0, free]
    · simp [h0, hmal]
  | free p c =>
    have := hu p hv
    subst this
    exact ⟨.unit, rfl, .inr rfl, rfl⟩
  | peek p i =>
    obtain ⟨b, cs, -, h, -⟩ := hv
    rw [hl b] at h
    cases h
  | poke p i v =>
    obtain ⟨b, cs, -, h, -⟩ := hv
    rw [hl b] at h
    cases h

theorem setAt_same {α : Type} (f : Nat → α) (t : Nat) (x : α) : setAt f t x t = x := if_pos rfl
theorem setAt_other {α : Type} (f : Nat → α) {t u : Nat} (x : α) (h : u ≠ t) : setAt f t x u = f u := if_neg h

theorem mstep_ok {K : Nat} {own : Nat → Option Nat} {s : M} {σ : Threads} {le : Nat → Live} (hK : 3 ≤ K ∧ K ≤ 63) (h : MInv K own s σ le)
    (t : Nat) (op : MOp) (hv : MValid K σ t op) :
    ∃ o s' own' le', mstep s t op = .ok (o, s') ∧ MGood σ t op o ∧ MInv K own' s' (mafter σ t op o) le' := by
  have hb := h.bits t
  have ht := h.th t
  unfold ThInv at ht
  cases op with
  | init ok bits =>
    unfold mstep
    cases hm : (s.th t).main with
    | some m =>
      rw [hm] at hb
      refine ⟨.bool true, s, own, le, rfl, by simp [MGood, ← hb], ?_⟩
      simp only [mafter, ← hb]
      exact h
    | none =>
      rw [hm] at hb ht
      cases ok with
      | false => exact ⟨.bool false, s, own, le, rfl, by simp [MGood, ← hb], h⟩
      | true =>
        refine ⟨.bool true, s.back t ⟨s.heap, some bits, fun _ => []⟩, own, le, ?_, by simp [MGood, ← hb], ?_⟩
        · simp [threadInit, M.view, hm]
        · simp only [mafter, ← hb]
          refine ⟨fun u => ?_, h.kn, fun u => ?_, h.owned⟩
          · show ThInv K own s.heap u (setAt s.th t _ u) (le u)
            by_cases e : u = t
            · subst e
              rw [setAt_same]
              refine ⟨⟨hK, rfl, fun p cs e => ?_, by simp, by simp, by simp, by simp, fun p b e => ?_⟩, hv⟩
              · rw [ht.1 p] at e; cases e
              · exact absurd (mask_live.1 e).2 (ht.2 p b (mask_live.1 e).1)
            · rw [setAt_other _ _ e]; exact h.th u
          · show (setAt s.th t _ u).main = if u = t then some bits else σ.bits u
            by_cases e : u = t
            · subst e
              rw [setAt_same, if_pos rfl]
            · rw [setAt_other _ _ e, if_neg e]; exact h.bits u
  | call op =>
    simp only [MValid] at hv
    cases hm : (s.th t).main with
    | none =>
      rw [hm] at hb ht
      rw [← hb] at hv
      have hl : ∀ p, σ.live t p = none := fun p => ((h.kn t).dom p).2 (ht.1 p)
      obtain ⟨o, e1, e2, e3⟩ := call_uninit (s := s.view t) (op := op) hm hl hv
      refine ⟨.out o, s.back t (s.view t), own, le, by simp [mstep, e1], ?_, ?_⟩
      · simp only [MGood, ← hb]
        exact e2
      · have hσ : mafter σ t (.call op) (.out o) = σ := by
          simp only [mafter, e3]
          congr 1
          funext u
          split
          · rename_i e; rw [e]
          · rfl
        have hs : s.back t (s.view t) = s := by
          unfold M.back M.view
          congr 1
          funext u
          by_cases e : u = t
          · rw [e, setAt_same]
          · rw [setAt_other _ _ e]
        rw [hσ, hs]
        exact h
    | some m =>
      rw [hm] at hb ht
      rw [← hb] at hv
      obtain ⟨hr, h31⟩ := ht
      obtain ⟨o, sm, le1, e1, hg, hr1, hk1⟩ := step_ok hr (h.kn t) op hv (.inl h31)
      have hst : StSim (fun p => p < s.heap.length ∧ own p ≠ some t) s.heap ⟨mask own t s.heap, some m, (s.th t).bk⟩ (s.view t) :=
        ⟨sim_start own t s.heap, hm, rfl⟩
      obtain ⟨⟨o', sr⟩, e2, rfl, hsim, hmain, hbk⟩ := step_sim hst op _ e1
      simp only at e2 hsim hmain hbk
      have hsm : sm.main = some m := hr1.main
      have hr2 : Rel m K ⟨mask (owner own s.heap.length t) t sr.heap, some m, sr.bk⟩ le1 :=
        hr1.congr hsm.symm hbk (fun p b => sim_self hsim p b)
      refine ⟨.out o, s.back t sr, owner own s.heap.length t, fun u => if u = t then le1 else le u, by simp [mstep, e2], ?_, ?_⟩
      · simp only [MGood, ← hb]
        refine ⟨hg, fun b eb u hu => ?_⟩
        subst eb
        have h1 : le1 b ≠ none := fun e => good_live hv hg ((hk1.dom b).2 e)
        have h2 := (live_own hr2 h1).1
        by_contra hne
        have h3 : le u b ≠ none := fun e => hne (((h.kn u).dom b).2 e)
        have hu' := h.th u
        unfold ThInv at hu'
        cases hmu : (s.th u).main with
        | none => rw [hmu] at hu'; exact h3 (hu'.1 b)
        | some m' =>
          rw [hmu] at hu'
          obtain ⟨h4, h5⟩ := live_own hu'.1 h3
          rw [owner, if_neg (by omega), h4] at h2
          exact hu (Option.some.inj h2)
      · refine ⟨fun u => ?_, fun u => ?_, fun u => ?_, fun p b e => sim_owned hsim h.owned p b e⟩
        · show ThInv K _ sr.heap u (setAt s.th t ⟨sr.main, sr.bk⟩ u) (if u = t then le1 else le u)
          by_cases e : u = t
          · subst e
            rw [setAt_same, if_pos rfl, hmain, hsm]
            exact ⟨hr2, h31⟩
          · rw [setAt_other _ _ e, if_neg e]
            exact (h.th u).keep (fun p b => sim_other hsim e p b)
        · show Knows (if u = t then after (σ.live t) op o else σ.live u) (if u = t then le1 else le u)
          by_cases e : u = t
          · rw [if_pos e, if_pos e]; exact hk1
          · rw [if_neg e, if_neg e]; exact h.kn u
        · show (setAt s.th t ⟨sr.main, sr.bk⟩ u).main = σ.bits u
          by_cases e : u = t
          · subst e
            rw [setAt_same, ← hb]
            show sr.main = _
            rw [hmain, hsm]
          · rw [setAt_other _ _ e]; exact h.bits u
  | fin =>
    cases hm : (s.th t).main with
    | none =>
      rw [hm] at hb
      refine ⟨.bool false, s.back t (s.view t), own, le, by simp [mstep, threadEnd, M.view, hm], by simp [MGood, ← hb], ?_⟩
      have hσ : mafter σ t .fin (.bool false) = σ := by
        simp only [mafter]
        congr 1
        funext u
        split
        · rename_i e; rw [e]; exact hb
        · rfl
      have hs : s.back t (s.view t) = s := by
        unfold M.back M.view
        congr 1
        funext u
        by_cases e : u = t
        · rw [e, setAt_same]
        · rw [setAt_other _ _ e]
      rw [hσ, hs]
      exact h
    | some m =>
      rw [hm] at hb ht
      obtain ⟨hr, h31⟩ := ht
      obtain ⟨sm, e1, e3, e4⟩ := threadEnd_ok hr
      have hst : StSim (fun p => p < s.heap.length ∧ own p ≠ some t) s.heap ⟨mask own t s.heap, some m, (s.th t).bk⟩ (s.view t) :=
        ⟨sim_start own t s.heap, hm, rfl⟩
      obtain ⟨⟨o', sr⟩, e2, hbo, hsim, hmain, hbk⟩ := threadEnd_sim hst _ e1
      simp only at e2 hbo hsim hmain hbk
      subst hbo
      have hsm : sm.main = none := by
        unfold threadEnd at e1
        dsimp only at e1
        cases hfb : freeBuckets (s.th t).bk m 0 (mask own t s.heap) with
        | error u => rw [hfb] at e1; cases e1
        | ok x => rw [hfb, ok_bind] at e1; cases e1; rfl
      have hle : ∀ p, le t p = none := fun p => ((h.kn t).dom p).1 (hv p)
      refine ⟨.bool true, s.back t sr, owner own s.heap.length t, le, by simp [mstep, e2], by simp [MGood, ← hb], ?_⟩
      refine ⟨fun u => ?_, h.kn, fun u => ?_, fun p b e => sim_owned hsim h.owned p b e⟩
      · show ThInv K _ sr.heap u (setAt s.th t ⟨sr.main, sr.bk⟩ u) (le u)
        by_cases e : u = t
        · subst e
          rw [setAt_same, hmain, hsm]
          refine ⟨hle, fun p b e5 e6 => ?_⟩
          exact e4 p b ((sim_self hsim p b).1 (mask_live.2 ⟨e5, e6⟩)) (hle p)
        · rw [setAt_other _ _ e]
          exact (h.th u).keep (fun p b => sim_other hsim e p b)
      · show (setAt s.th t ⟨sr.main, sr.bk⟩ u).main = if u = t then none else σ.bits u
        by_cases e : u = t
        · subst e
          rw [setAt_same, if_pos rfl]
          show sr.main = _
          rw [hmain, hsm]
        · rw [setAt_other _ _ e, if_neg e]; exact h.bits u

theorem minit (K : Nat) : MInv K (fun _ => none) M.empty Threads.none (fun _ => Live.none) := by
  refine ⟨fun t => ⟨fun p => rfl, fun p b e => ?_⟩, fun t => ?_, fun t => rfl, fun p b e => ?_⟩
  · simp [M.empty]
  · exact ⟨fun p => Iff.rfl, fun p cs cs' e => by cases e⟩
  · simp [M.empty] at e

theorem mrun_inv {K : Nat} (hK : 3 ≤ K ∧ K ≤ 63) : ∀ (ops : List (Nat × MOp)) (s : M) (σ : Threads) (own : Nat → Option Nat) (le : Nat → Live)
    (h : List (Nat × MOp × MOut)) (s' : M), MInv K own s σ le → mrun s ops = .ok (h, s') → MAllValid K σ h →
    ∃ own' le', MInv K own' s' (mafterAll σ h) le'
  | [], s, σ, own, le, h, s', hi, e, hv => by
    cases e
    exact ⟨own, le, hi⟩
  | (t, op) :: ops, s, σ, own, le, h, s', hi, e, hv => by
    unfold mrun at e
    cases e1 : mstep s t op with
    | error u => rw [e1] at e; cases e
    | ok x =>
      rw [e1, ok_bind] at e
      cases e2 : mrun x.2 ops with
      | error u => simp only [e2, error_bind] at e; cases e
      | ok y =>
        simp only [e2, ok_bind] at e
        cases e
        obtain ⟨hv1, hv2⟩ := hv
        obtain ⟨o, s1, own1, le1, e3, hg, hi1⟩ := mstep_ok hK hi t op hv1
        rw [e1] at e3
        cases e3
        exact mrun_inv hK ops s1 (mafter σ t op o) own1 le1 y.1 y.2 hi1 e2 hv2

/-- C121.  After any interleaving of calls by any threads, each keeping to the rules for its own blocks, one more such call
has no undefined behaviour and a proper result: a thread that asks for memory gets a block that is in use in no thread, and
reads what it has written itself, whatever the others have done in between.

Missing: the cases named at C40 (`allocator_partial`). -/
theorem threads_partial (K : Nat) (hK : 3 ≤ K ∧ K ≤ 63) (ops : List (Nat × MOp)) (h : List (Nat × MOp × MOut)) (s : M)
    (e : mrun .empty ops = .ok (h, s)) (hv : MAllValid K Threads.none h) (t : Nat) (op : MOp)
    (hop : MValid K (mafterAll Threads.none h) t op) :
    ∃ o s', mstep s t op = .ok (o, s') ∧ MGood (mafterAll Threads.none h) t op o := by
  obtain ⟨own, le, hi⟩ := mrun_inv hK ops _ _ _ _ h s (minit K) e hv
  obtain ⟨o, s', -, -, e1, hg, -⟩ := mstep_ok hK hi t op hop
  exact ⟨o, s', e1, hg⟩

/-- C121.  When all threads have called `ThreadEnd`, the system has all its memory back. -/
theorem threads_end (K : Nat) (hK : 3 ≤ K ∧ K ≤ 63) (ops : List (Nat × MOp)) (h : List (Nat × MOp × MOut)) (s : M)
    (e : mrun .empty ops = .ok (h, s)) (hv : MAllValid K Threads.none h)
    (hend : ∀ t, (mafterAll Threads.none h).bits t = none) (p : Nat) (c : List Cell) : s.heap.block p ≠ .ok c := by
  obtain ⟨own, le, hi⟩ := mrun_inv hK ops _ _ _ _ h s (minit K) e hv
  intro hb
  unfold BHeap.block at hb
  split at hb
  · rename_i b hp
    obtain ⟨t, ht⟩ := Option.ne_none_iff_exists'.mp (hi.owned p b hp)
    have := hi.th t
    unfold ThInv at this
    rw [hi.bits t, hend t] at this
    exact this.2 p b ht hp
  · cases hb

/-- C121 needs its rules: a block of a thread without small buckets, freed by a thread that has them, is too short for the
node of the cache. -/
theorem freed_elsewhere : mrun .empty [(1, .init true 3), (2, .init true 4), (1, .call (.malloc true 5)), (2, .call (.free (.blk 0) true))] =
    .error .oobWrite := by rfl

/-! ## A concrete case -/

/-- Two threads; the second frees a block and gets it again, never the first one's. -/
def twoOps : List (Nat × MOp) :=
  [(1, .init true 5), (2, .call (.malloc true 4)), (2, .init true 4), (1, .call (.malloc true 10)), (1, .call (.poke (.blk 0) 9 77)),
   (2, .call (.malloc true 8)), (2, .call (.poke (.blk 1) 0 1)), (2, .call (.free (.blk 1) true)), (2, .call (.malloc true 7)),
   (1, .call (.peek (.blk 0) 9)), (2, .call (.free (.blk 1) true)), (2, .fin), (1, .call (.free (.blk 0) true)), (1, .fin)]

def twoHist : List (Nat × MOp × MOut) :=
  [(1, .init true 5, .bool true), (2, .call (.malloc true 4), .out (.ptr .null)), (2, .init true 4, .bool true),
   (1, .call (.malloc true 10), .out (.ptr (.blk 0))), (1, .call (.poke (.blk 0) 9 77), .out .unit),
   (2, .call (.malloc true 8), .out (.ptr (.blk 1))), (2, .call (.poke (.blk 1) 0 1), .out .unit), (2, .call (.free (.blk 1) true), .out .unit),
   (2, .call (.malloc true 7), .out (.ptr (.blk 1))), (1, .call (.peek (.blk 0) 9), .out (.cell (some 77))),
   (2, .call (.free (.blk 1) true), .out .unit), (2, .fin, .bool true), (1, .call (.free (.blk 0) true), .out .unit), (1, .fin, .bool true)]

example : (mrun .empty twoOps).map (fun r => (r.1.map fun x => x.2.2, r.2.heap)) = .ok (twoHist.map (fun x => x.2.2), [none, none]) := by
  decide +kernel

example : MAllValid 10 Threads.none twoHist := by
  refine ⟨.inl (by decide), trivial, .inl (by decide), ⟨by decide, .inl rfl⟩, ⟨0, _, rfl, rfl, by decide⟩, ⟨by decide, .inl rfl⟩,
    ⟨1, _, rfl, rfl, by decide⟩, .inr ⟨1, rfl, by decide⟩, ⟨by decide, .inl rfl⟩, ⟨0, _, rfl, rfl, by decide⟩, .inr ⟨1, rfl, by decide⟩, ?_,
    .inr ⟨0, rfl, by decide⟩, ?_, trivial⟩
  · intro p
    by_cases h : p = 1
    · subst h; rfl
    · simp [mafter, Threads.none, after, put, Live.none, h]
  · intro p
    by_cases h : p = 0
    · subst h; rfl
    · simp [mafter, Threads.none, after, put, Live.none, h]

end Verif.Tls
