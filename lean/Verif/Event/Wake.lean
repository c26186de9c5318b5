import Verif.Event.Lemmas
import Verif.Counts

/-! # Wake-ups of the event, and counting -/

namespace Verif.Event

open Spec

/-- Threads counted in `MxWaiting`. -/
def counted : Pc → Bool
  | .wEnter _ | .wBlocked _ | .wWoken _ _ | .wRetest _ | .wDec _ => true
  | _ => false

/-- Threads about to block. -/
def entering : Pc → Bool
  | .wInc _ | .wEnter _ => true
  | _ => false

/-- Threads that left the condition variable with an error. -/
def erring : Pc → Bool
  | .wWoken _ false | .wDec false => true
  | _ => false

/-- Threads that will wake the others up. -/
def signalling : Pc → Bool
  | .fSignal => true
  | _ => false

/-- Threads that will see (and clear) the signal, or pass it on. -/
def awake : Pc → Bool
  | .wWoken _ true | .wRetest _ | .wDec true | .wClear | .fSignal => true
  | _ => false

def Cnt (s : S) : Prop :=
  ∃ L : List Nat, L.Nodup ∧ (∀ t, t ∈ L ↔ counted (s.pc t) = true) ∧
    s.waiting = L.length % 4294967296

def Safe (P : Pc → Bool) (s : S) : Prop :=
  s.signaled = true → (s.queue = [] ∧ ∀ t, entering (s.pc t) = false) ∨ ∃ t, P (s.pc t) = true

theorem Cnt.upd {s s' : S} {t : Nat} {p : Pc} (h : Cnt s)
    (hs : ∀ u, s'.pc u = if u = t then p else s.pc u) (hw : s'.waiting = s.waiting)
    (hc : counted p = counted (s.pc t)) : Cnt s' := by
  obtain ⟨L, h1, h2, h3⟩ := h
  refine ⟨L, h1, fun u => ?_, hw.trans h3⟩
  rw [h2, hs]
  by_cases hu : u = t
  · rw [if_pos hu, hc, hu]
  · rw [if_neg hu]

theorem Safe.upd {P : Pc → Bool} {s s' : S} {t : Nat} {p : Pc} (h : Safe P s)
    (hs : ∀ u, s'.pc u = if u = t then p else s.pc u)
    (hsig : s'.signaled = true → s.signaled = true) (hq : s.queue = [] → s'.queue = [])
    (he : entering p = true → entering (s.pc t) = true)
    (hp : P (s.pc t) = true → P p = true) : Safe P s' := by
  intro h1
  rcases h (hsig h1) with ⟨h2, h3⟩ | ⟨u, hu⟩
  · refine Or.inl ⟨hq h2, fun u => ?_⟩
    rw [hs]
    by_cases hu : u = t
    · rw [if_pos hu]
      cases hc : entering p
      · rfl
      · have := he hc; rw [h3] at this; cases this
    · rw [if_neg hu]; exact h3 u
  · refine Or.inr ⟨u, ?_⟩
    rw [hs]
    by_cases hut : u = t
    · rw [if_pos hut]; exact hp (hut ▸ hu)
    · rw [if_neg hut]; exact hu

/-- The invariant about wake-ups; `ne`: no condition wait has ended with an error so far. -/
structure Inv2 (ne : Bool) (s : S) : Prop where
  cnt : Cnt s
  man : s.manual = true → Safe signalling s
  noerr : ne = true → ∀ t, erring (s.pc t) = false
  aut : ne = true → s.manual = false → Safe awake s

def Ok2 (ne : Bool) (r : CRes (Option (S × List Label))) : Prop :=
  ∀ s' ls, r = .ok (some (s', ls)) → Inv2 ne s'

theorem Ok2.none {ne : Bool} : Ok2 ne (.ok none) := fun _ _ h => nomatch h

/-- Steps that change neither the queue nor the signal, nor what the thread counts for. -/
theorem Inv2.upd {ne : Bool} {s s' : S} {t : Nat} {p : Pc} (h : Inv2 ne s)
    (hs : ∀ u, s'.pc u = if u = t then p else s.pc u) (hm : s'.manual = s.manual)
    (hw : Cnt s')
    (hsig : s'.signaled = true → s.signaled = true) (hq : s.queue = [] → s'.queue = [])
    (he : entering p = true → entering (s.pc t) = true)
    (h1 : signalling (s.pc t) = true → signalling p = true)
    (h2 : awake (s.pc t) = true → awake p = true ∨ s'.signaled = false)
    (h3 : ne = true → erring p = true → erring (s.pc t) = true) : Inv2 ne s' := by
  refine ⟨hw, fun e => ?_, fun e u => ?_, fun e1 e2 => ?_⟩
  · rw [hm] at e; exact (h.man e).upd hs hsig hq he h1
  · rw [hs]
    by_cases hu : u = t
    · rw [if_pos hu]
      cases hc : erring p
      · rfl
      · have := h3 e hc; rw [h.noerr e] at this; cases this
    · rw [if_neg hu]; exact h.noerr e u
  · rw [hm] at e2
    cases hsg : s'.signaled with
    | false => intro e; rw [hsg] at e; cases e
    | true =>
      refine (h.aut e1 e2).upd hs hsig hq he fun e => ?_
      rcases h2 e with h | h
      · exact h
      · rw [hsg] at h; cases h

theorem Ok2.move {ne : Bool} {s : S} {t : Nat} {p : Pc} {ls : List Label} (h : Inv2 ne s)
    (hc : counted p = counted (s.pc t))
    (he : entering p = true → entering (s.pc t) = true)
    (h1 : signalling (s.pc t) = true → signalling p = true)
    (h2 : awake (s.pc t) = true → awake p = true)
    (h3 : ne = true → erring p = true → erring (s.pc t) = true) :
    Ok2 ne (.ok (some (s.goto t p, ls))) := by
  intro s' ls' e
  cases e
  exact h.upd (t := t) (p := p) (fun u => rfl) rfl (h.cnt.upd (fun u => rfl) rfl hc) id id he h1
    (fun e => Or.inl (h2 e)) h3

theorem Ok2.lock {ne : Bool} {s : S} {t : Nat} {p : Pc} (h : Inv2 ne s)
    (hc : counted p = counted (s.pc t))
    (he : entering p = true → entering (s.pc t) = true)
    (h1 : signalling (s.pc t) = true → signalling p = true)
    (h2 : awake (s.pc t) = true → awake p = true)
    (h3 : ne = true → erring p = true → erring (s.pc t) = true) :
    Ok2 ne (lock s t p) := by
  unfold Event.lock
  cases s.owner with
  | some o => exact .none
  | none =>
    intro s' ls' e
    cases e
    exact h.upd (t := t) (p := p) (fun u => rfl) rfl (h.cnt.upd (fun u => rfl) rfl hc) id id he h1
      (fun e => Or.inl (h2 e)) h3

theorem Ok2.unlock {ne : Bool} {s : S} {t : Nat} {l : Label} (h : Inv2 ne s)
    (hc : counted (s.pc t) = false) (h1 : signalling (s.pc t) = false)
    (h2 : awake (s.pc t) = false) : Ok2 ne (unlock s t l) := by
  unfold Event.unlock
  split
  · intro s' ls' e
    cases e
    exact h.upd (t := t) (p := .idle) (fun u => rfl) rfl (h.cnt.upd (fun u => rfl) rfl hc.symm) id id
      (fun e => (nomatch e)) (fun e => by rw [h1] at e; cases e)
      (fun e => by rw [h2] at e; cases e) (fun _ e => (nomatch e))
  · intro s' ls' e; cases e

/-- Blocking, when the signal is off or somebody else is awake. -/
theorem Ok2.block {ne : Bool} {s : S} {t wait : Nat} (h : Inv2 ne s)
    (hc : counted (s.pc t) = true)
    (hm : s.manual = true → s.signaled = false)
    (ha : ne = true → s.manual = false → s.signaled = true →
      ∃ u, u ≠ t ∧ awake (s.pc u) = true) : Ok2 ne (block s t wait) := by
  unfold Event.block
  split
  · intro s' ls' e
    cases e
    refine ⟨h.cnt.upd (t := t) (p := .wBlocked wait) (fun u => rfl) rfl hc.symm, fun e e' => ?_,
      fun e u => ?_, fun e1 e2 e3 => ?_⟩
    · have : s.signaled = true := e'
      rw [hm e] at this; cases this
    · rw [goto_pc]
      split
      · rfl
      · exact h.noerr e u
    · obtain ⟨u, hu, ha⟩ := ha e1 e2 e3
      refine Or.inr ⟨u, ?_⟩
      rw [goto_pc, if_neg hu]; exact ha
  · intro s' ls' e; cases e

theorem erase_iff {L : List Nat} (hd : L.Nodup) {P : Nat → Prop} {t : Nat} (h : ∀ u, u ∈ L ↔ P u) :
    ∀ u, u ∈ L.erase t ↔ u ≠ t ∧ P u := fun u => by rw [hd.mem_erase_iff, h]

theorem Cnt.inc {s s' : S} {t : Nat} {p : Pc} (h : Cnt s)
    (hs : ∀ u, s'.pc u = if u = t then p else s.pc u)
    (hw : s'.waiting = (s.waiting + 1) % 4294967296)
    (h1 : counted (s.pc t) = false) (h2 : counted p = true) : Cnt s' := by
  obtain ⟨L, hd, hL, hl⟩ := h
  refine ⟨t :: L, List.nodup_cons.mpr ⟨fun e => ?_, hd⟩, fun u => ?_, ?_⟩
  · rw [hL, h1] at e; cases e
  · rw [hs, List.mem_cons, hL]
    by_cases hu : u = t
    · rw [if_pos hu]; exact ⟨fun _ => h2, fun _ => Or.inl hu⟩
    · rw [if_neg hu]; exact ⟨fun e => e.resolve_left hu, Or.inr⟩
  · rw [hw, hl, List.length_cons]; omega

theorem Cnt.dec {s s' : S} {t : Nat} {p : Pc} (h : Cnt s)
    (hs : ∀ u, s'.pc u = if u = t then p else s.pc u)
    (hw : s'.waiting = dec32 s.waiting)
    (h1 : counted (s.pc t) = true) (h2 : counted p = false) : Cnt s' := by
  obtain ⟨L, hd, hL, hl⟩ := h
  have hm : t ∈ L := (hL t).mpr h1
  refine ⟨L.erase t, hd.erase t, fun u => ?_, ?_⟩
  · rw [hs, erase_iff hd hL]
    by_cases hu : u = t
    · rw [if_pos hu, h2]; exact ⟨fun e => absurd hu e.1, fun e => nomatch e⟩
    · rw [if_neg hu]; exact ⟨And.right, fun e => ⟨hu, e⟩⟩
  · have hpos := List.length_pos_of_mem hm
    rw [hw, hl, List.length_erase_of_mem hm, dec32]
    split <;> omega

theorem Cnt.exists {s : S} (h : Cnt s) (hw : s.waiting ≠ 0) : ∃ u, counted (s.pc u) = true := by
  obtain ⟨L, hd, hL, hl⟩ := h
  cases L with
  | nil => exact absurd hl hw
  | cons u L => exact ⟨u, (hL u).mp (List.mem_cons_self ..)⟩

theorem run_2 {ne : Bool} {s : S} {t pick : Nat} (h : Inv s) (h2 : Inv2 ne s) :
    Ok2 ne (run s t pick) := by
  unfold run
  cases hpc : s.pc t with
  | idle => exact .none
  | wLock wait =>
    dsimp only
    split
    · refine .move h2 ?_ ?_ ?_ ?_ ?_ <;> rw [hpc] <;> simp [counted, entering, signalling, awake, erring]
    · refine .lock h2 ?_ ?_ ?_ ?_ ?_ <;> rw [hpc] <;> simp [counted, entering, signalling, awake, erring]
  | wTest wait =>
    have ho := owner_of h hpc rfl
    dsimp only
    split
    · split
      · refine .move h2 ?_ ?_ ?_ ?_ ?_ <;> rw [hpc] <;> simp [counted, entering, signalling, awake, erring]
      · refine .move h2 ?_ ?_ ?_ ?_ ?_ <;> rw [hpc] <;> simp [counted, entering, signalling, awake, erring]
    · rename_i hc
      split
      · refine .move h2 ?_ ?_ ?_ ?_ ?_ <;> rw [hpc] <;> simp [counted, entering, signalling, awake, erring]
      · intro s' ls e
        cases e
        refine ⟨h2.cnt.upd (t := t) (p := .wInc wait) (fun u => rfl) rfl (by rw [hpc]; rfl),
          fun e1 e2 => ?_, fun e u => ?_, fun e1 e2 e3 => ?_⟩
        · exact absurd ⟨e2, Or.inl e1⟩ hc
        · rw [goto_pc]
          split
          · rfl
          · exact h2.noerr e u
        · have hw : s.waiting ≠ 0 := fun hw => hc ⟨e3, Or.inr hw⟩
          obtain ⟨u, hu⟩ := h2.cnt.exists hw
          have hut : u ≠ t := by intro e; rw [e, hpc] at hu; cases hu
          have hnc := h.others (Or.inr ho) hut
          have hne := h2.noerr e1 u
          have key : ∃ v, v ≠ t ∧ awake (s.pc v) = true := by
            cases hpu : s.pc u with
            | wBlocked w =>
              rcases h2.aut e1 e2 e3 with ⟨hq, _⟩ | ⟨v, hv⟩
              · have := (h.queue u).mpr (by rw [hpu]; rfl)
                rw [hq] at this; cases this
              · exact ⟨v, (fun e => by rw [e, hpc] at hv; cases hv), hv⟩
            | wWoken w z =>
              cases z
              · rw [hpu] at hne; cases hne
              · exact ⟨u, hut, by rw [hpu]; rfl⟩
            | _ => rw [hpu] at hu hnc; first | (cases hu; done) | (cases hnc; done)
          obtain ⟨v, hv1, hv2⟩ := key
          refine Or.inr ⟨v, ?_⟩
          rw [goto_pc, if_neg hv1]; exact hv2
  | wInc wait =>
    intro s' ls e
    cases e
    refine h2.upd (t := t) (p := .wEnter wait) (fun u => rfl) rfl
      (h2.cnt.inc (t := t) (p := .wEnter wait) (fun u => rfl) rfl (by rw [hpc]; rfl) rfl) id id
      ?_ ?_ ?_ ?_ <;> rw [hpc] <;> simp [entering, signalling, awake, erring]
  | wEnter wait =>
    have ho := owner_of h hpc rfl
    refine .block h2 (by rw [hpc]; rfl) (fun e => ?_) (fun e1 e2 e3 => ?_)
    · cases hs : s.signaled
      · rfl
      · rcases h2.man e hs with ⟨_, he⟩ | ⟨u, hu⟩
        · have := he t; rw [hpc] at this; cases this
        · have hut : u ≠ t := by intro e; rw [e, hpc] at hu; cases hu
          have := h.others (Or.inr ho) hut
          revert hu this
          cases s.pc u <;> intro hu hc <;> first | (cases hu; done) | (cases hc; done)
    · rcases h2.aut e1 e2 e3 with ⟨_, he⟩ | ⟨u, hu⟩
      · have := he t; rw [hpc] at this; cases this
      · exact ⟨u, (fun e => by rw [e, hpc] at hu; cases hu), hu⟩
  | wBlocked wait => exact .none
  | wWoken wait zero =>
    cases zero <;> refine .lock h2 ?_ ?_ ?_ ?_ ?_ <;> rw [hpc] <;>
      simp [counted, entering, signalling, awake, erring]
  | wRetest wait =>
    dsimp only
    split
    · refine .move h2 ?_ ?_ ?_ ?_ ?_ <;> rw [hpc] <;> simp [counted, entering, signalling, awake, erring]
    · rename_i hs
      exact .block h2 (by rw [hpc]; rfl) (fun _ => by simpa using hs) (fun _ _ e => absurd e hs)
  | wDec zero =>
    dsimp only
    split
    · split
      · rename_i hz hm
        intro s' ls e
        cases e
        refine ⟨h2.cnt.dec (t := t) (p := .wUnlock true) (fun u => rfl) rfl (by rw [hpc]; rfl) rfl,
          fun e => ?_, fun e u => ?_, fun _ e2 => ?_⟩
        · refine (h2.man e).upd (t := t) (p := .wUnlock true) (fun u => rfl) id id ?_ ?_ <;>
            rw [hpc] <;> simp [entering, signalling]
        · rw [goto_pc]
          split
          · rfl
          · exact h2.noerr e u
        · have : s.manual = false := e2
          rw [show s.manual = true from hm] at this; cases this
      · intro s' ls e
        cases e
        refine h2.upd (t := t) (p := .wClear) (fun u => rfl) rfl
          (h2.cnt.dec (t := t) (p := .wClear) (fun u => rfl) rfl (by rw [hpc]; rfl) rfl) id id
          ?_ ?_ ?_ ?_ <;> rw [hpc] <;> simp [entering, signalling, awake, erring]
    · rename_i hz
      intro s' ls e
      cases e
      have hz : zero = false := by simpa using hz
      subst hz
      refine h2.upd (t := t) (p := .wUnlock false) (fun u => rfl) rfl
        (h2.cnt.dec (t := t) (p := .wUnlock false) (fun u => rfl) rfl (by rw [hpc]; rfl) rfl) id id
        ?_ ?_ ?_ ?_ <;> rw [hpc] <;> simp [entering, signalling, awake, erring]
  | wClear =>
    intro s' ls e
    cases e
    refine h2.upd (t := t) (p := .wUnlock true) (fun u => rfl) rfl
      (h2.cnt.upd (t := t) (p := .wUnlock true) (fun u => rfl) rfl (by rw [hpc]; rfl))
      (fun e => nomatch e) id ?_ ?_ (fun _ => Or.inr rfl) ?_ <;> rw [hpc] <;>
      simp [entering, signalling, erring]
  | wUnlock r => exact .unlock h2 (by rw [hpc]; rfl) (by rw [hpc]; rfl) (by rw [hpc]; rfl)
  | fLock =>
    refine .lock h2 ?_ ?_ ?_ ?_ ?_ <;> rw [hpc] <;> simp [counted, entering, signalling, awake, erring]
  | fSet =>
    intro s' ls e
    cases e
    refine ⟨h2.cnt.upd (t := t) (p := .fSignal) (fun u => rfl) rfl (by rw [hpc]; rfl),
      fun _ _ => Or.inr ⟨t, by rw [goto_pc, if_pos rfl]; rfl⟩, fun e u => ?_,
      fun _ _ _ => Or.inr ⟨t, by rw [goto_pc, if_pos rfl]; rfl⟩⟩
    rw [goto_pc]
    split
    · rfl
    · exact h2.noerr e u
  | fSignal =>
    have ho := owner_of h hpc rfl
    have noent : ∀ u, entering (s.pc u) = false := by
      intro u
      by_cases hut : u = t
      · rw [hut, hpc]; rfl
      · have := h.others (Or.inr ho) hut
        revert this
        cases s.pc u <;> intro hc <;> first | rfl | (cases hc; done)
    dsimp only
    split
    · rename_i hm
      intro s' ls e
      cases e
      refine ⟨?_, fun _ _ => Or.inl ⟨rfl, fun u => ?_⟩, fun e u => ?_, fun _ e => ?_⟩
      · obtain ⟨L, h1, h2, h3⟩ := h2.cnt
        refine ⟨L, h1, fun u => ?_, h3⟩
        rw [h2, goto_pc]
        by_cases hu : u = t
        · rw [if_pos hu, hu, hpc]; exact ⟨fun e => (nomatch e), fun e => (nomatch e)⟩
        · rw [if_neg hu]
          rcases wakeAll_pc s u with ⟨_, e⟩ | ⟨w, e1, e2⟩
          · rw [e]
          · rw [e1, e2]; exact ⟨fun _ => rfl, fun _ => rfl⟩
      · rw [goto_pc]
        split
        · rfl
        · rcases wakeAll_pc s u with ⟨_, e⟩ | ⟨w, e1, e2⟩
          · rw [e]; exact noent u
          · rw [e2]; rfl
      · rw [goto_pc]
        split
        · rfl
        · rcases wakeAll_pc s u with ⟨_, e'⟩ | ⟨w, e1, e2⟩
          · rw [e']; exact h2.noerr e u
          · rw [e2]; rfl
      · have : s.manual = false := e
        rw [hm] at this; cases this
    · rename_i hm
      have hm : s.manual = false := by simpa using hm
      cases hq : s.queue with
      | nil =>
        intro s' ls e
        cases e
        refine ⟨h2.cnt.upd (t := t) (p := .fUnlock) (fun u => rfl) rfl (by rw [hpc]; rfl),
          fun _ _ => Or.inl ⟨hq, fun u => ?_⟩, fun e u => ?_, fun _ _ _ => Or.inl ⟨hq, fun u => ?_⟩⟩
        · rw [goto_pc]; split
          · rfl
          · exact noent u
        · rw [goto_pc]; split
          · rfl
          · exact h2.noerr e u
        · rw [goto_pc]; split
          · rfl
          · exact noent u
      | cons q qs =>
        cases hpp : s.pc pick with
        | wBlocked wait =>
          intro s' ls e
          cases e
          have hne : pick ≠ t := by intro e; rw [e, hpc] at hpp; cases hpp
          refine ⟨?_, fun e => ?_, fun e u => ?_, fun _ _ _ => Or.inr ⟨pick, ?_⟩⟩
          · have h3 : Cnt (({ s with queue := (q :: qs).erase pick } : S).goto pick
                (.wWoken wait true)) :=
              h2.cnt.upd (t := pick) (p := .wWoken wait true) (fun u => rfl) rfl (by rw [hpp]; rfl)
            refine h3.upd (t := t) (p := .fUnlock) (fun u => rfl) rfl ?_
            rw [goto_pc, if_neg hne.symm]
            show counted .fUnlock = counted (s.pc t)
            rw [hpc]; rfl
          · have : s.manual = true := e
            rw [hm] at this; cases this
          · rw [goto_pc]; split
            · rfl
            · rw [goto_pc]; split
              · rfl
              · exact h2.noerr e u
          · rw [goto_pc, if_neg hne, goto_pc, if_pos rfl]; rfl
        | _ => exact .none
  | fUnlock => exact .unlock h2 (by rw [hpc]; rfl) (by rw [hpc]; rfl) (by rw [hpc]; rfl)
  | tManual =>
    dsimp only
    split
    · refine .move h2 ?_ ?_ ?_ ?_ ?_ <;> rw [hpc] <;> simp [counted, entering, signalling, awake, erring]
    · refine .move h2 ?_ ?_ ?_ ?_ ?_ <;> rw [hpc] <;> simp [counted, entering, signalling, awake, erring]
  | tLock =>
    refine .lock h2 ?_ ?_ ?_ ?_ ?_ <;> rw [hpc] <;> simp [counted, entering, signalling, awake, erring]
  | tSet =>
    intro s' ls e
    cases e
    refine h2.upd (t := t) (p := .tUnlock) (fun u => rfl) rfl
      (h2.cnt.upd (t := t) (p := .tUnlock) (fun u => rfl) rfl (by rw [hpc]; rfl))
      (fun e => nomatch e) id ?_ ?_ (fun _ => Or.inr rfl) ?_ <;> rw [hpc] <;>
      simp [entering, signalling, erring]
  | tUnlock => exact .unlock h2 (by rw [hpc]; rfl) (by rw [hpc]; rfl) (by rw [hpc]; rfl)

/-- The action ends a condition wait with an error (or time-out). -/
def isErr : Act → Bool
  | .wake _ false => true
  | _ => false

theorem call_2 {ne : Bool} {s : S} {t : Nat} {p : Pc} {l : Label} (h2 : Inv2 ne s)
    (hc : counted p = false) (he : entering p = false) (h3 : erring p = false) :
    Ok2 ne (.ok (if s.pc t = .idle then some (s.goto t p, [l]) else none)) := by
  by_cases hpc : s.pc t = .idle
  · rw [if_pos hpc]
    refine .move h2 (hc.trans (by rw [hpc]; rfl)) (fun e => by rw [he] at e; cases e) ?_ ?_
      (fun _ e => by rw [h3] at e; cases e) <;> rw [hpc] <;> exact fun e => nomatch e
  · rw [if_neg hpc]; exact .none

theorem step_2 {ne : Bool} {s : S} {a : Act} (h : Inv s) (h2 : Inv2 ne s)
    (ha : ne = true → isErr a = false) : Ok2 ne (step s a) := by
  cases a with
  | callWait t wait => exact call_2 h2 rfl rfl rfl
  | callFire t => exact call_2 h2 rfl rfl rfl
  | callReset t => exact call_2 h2 rfl rfl rfl
  | run t pick => exact run_2 h h2
  | fail t =>
    rw [step, fail]
    cases hpc : s.pc t with
    | wLock wait =>
      refine .move h2 ?_ ?_ ?_ ?_ ?_ <;> rw [hpc] <;> simp [counted, entering, signalling, awake, erring]
    | wInc wait =>
      dsimp only
      split
      · refine .move h2 ?_ ?_ ?_ ?_ ?_ <;> rw [hpc] <;> simp [counted, entering, signalling, awake, erring]
      · exact .none
    | fLock =>
      refine .move h2 ?_ ?_ ?_ ?_ ?_ <;> rw [hpc] <;> simp [counted, entering, signalling, awake, erring]
    | tLock =>
      refine .move h2 ?_ ?_ ?_ ?_ ?_ <;> rw [hpc] <;> simp [counted, entering, signalling, awake, erring]
    | _ => exact .none
  | wake t zero =>
    rw [step]
    cases hpc : s.pc t with
    | wBlocked wait =>
      intro s' ls e
      cases e
      refine h2.upd (t := t) (p := .wWoken wait zero) (fun u => rfl) rfl
        (h2.cnt.upd (t := t) (p := .wWoken wait zero) (fun u => rfl) rfl (by rw [hpc]; rfl))
        id (fun e => ?_) ?_ ?_ ?_ (fun e1 e2 => ?_)
      · show s.queue.erase t = []
        rw [e]; rfl
      · exact fun e => nomatch e
      · rw [hpc]; exact fun e => nomatch e
      · rw [hpc]; exact fun e => nomatch e
      · cases zero
        · have := ha e1; cases this
        · cases e2
    | _ => exact .none

theorem exec_2 {ne : Bool} {s : S} (as : List Act) (h : Inv s) (h2 : Inv2 ne s)
    (ha : ne = true → ∀ a ∈ as, isErr a = false) {s' : S} {ls : List Label}
    (he : exec s as = .ok (s', ls)) : Inv2 ne s' := by
  induction as generalizing s ls with
  | nil => cases he; exact h2
  | cons a as ih =>
    obtain ⟨r, hr, hok⟩ := step_ok (a := a) h
    rw [exec, hr, ok_bind] at he
    have ha' : ne = true → ∀ a ∈ as, isErr a = false := fun e a hm => ha e a (List.mem_cons_of_mem _ hm)
    cases r with
    | none => exact ih h h2 ha' he
    | some x =>
      obtain ⟨s1, l1⟩ := x
      obtain ⟨hi1, _⟩ := hok s1 l1 rfl
      have h3 := step_2 h h2 (fun e => ha e a (List.mem_cons_self ..)) s1 l1 hr
      obtain ⟨s2, l2, he2, _⟩ := exec_ok as hi1
      simp only [he2, ok_bind] at he
      cases he
      exact ih hi1 h3 ha' he2

theorem init_2 (ne manual signaled : Bool) : Inv2 ne (init manual signaled) :=
  ⟨⟨[], List.nodup_nil, fun _ => ⟨fun h => (nomatch h), fun h => (nomatch h)⟩, rfl⟩,
    fun _ _ => Or.inl ⟨rfl, fun _ => rfl⟩, fun _ _ => rfl, fun _ _ _ => Or.inl ⟨rfl, fun _ => rfl⟩⟩

/-! ### Counting -/

def isRet : Label → Bool
  | .retWait _ true => true
  | _ => false

def isPass : Label → Bool
  | .pass _ => true
  | _ => false

def isFire : Label → Bool
  | .fire _ => true
  | _ => false

def isCall : Label → Bool
  | .callFire _ => true
  | _ => false

theorem waits_eq (ls : List Label) : waits ls = ls.countP isRet := rfl
theorem fires_eq (ls : List Label) : fires ls = ls.countP isCall := rfl

theorem atomic_counts {b c : Bool} {ls : List Label} (h : atomic false b ls = some c) :
    c.toNat + ls.countP isPass ≤ b.toNat + ls.countP isFire := by
  induction ls generalizing b with
  | nil => cases h; exact Nat.le_refl _
  | cons l ls ih =>
    rw [List.countP_cons, List.countP_cons]
    cases l with
    | pass t =>
      rw [atomic] at h
      cases b
      · cases h
      · have h1 := ih h
        have : (true && false).toNat = 0 := rfl
        simp only [isPass, isFire, if_true, if_false, Bool.false_eq_true, Bool.toNat_true]
        omega
    | fire t =>
      have h1 := ih (b := true) h
      simp only [isPass, isFire, if_true, if_false, Bool.false_eq_true, Bool.toNat_true] at h1 ⊢
      omega
    | reset t => cases h
    | _ => exact ih h

def inPassed : Phase → Nat
  | .passed => 1
  | _ => 0

def inFiring : Phase → Nat
  | .firing => 1
  | _ => 0

theorem move_counts {p q : Phase} {l : Label} (h : move p l = some q) :
    (if isRet l = true then 1 else 0) + inPassed q
      = (if isPass l = true then 1 else 0) + inPassed p ∧
    (if isFire l = true then 1 else 0) + inFiring q
      ≤ (if isCall l = true then 1 else 0) + inFiring p := by
  cases p <;> cases l <;> try (cases h; done)
  all_goals try (cases h; exact ⟨rfl, Nat.le_refl _⟩)
  all_goals
    rename_i t b
    cases b <;> cases h
    exact ⟨rfl, Nat.zero_le _⟩

theorem phase_none (t : Nat) (ls : List Label) : (phase t none ls).isSome = false := by
  induction ls with
  | nil => rfl
  | cons l ls ih => rw [phase]; split <;> exact ih

theorem phase_counts' {t : Nat} {p : Phase} {ls : List Label}
    (h : (phase t (some p) ls).isSome = true) :
    (ls.countP fun l => decide (who l = t) && isRet l)
      ≤ (ls.countP fun l => decide (who l = t) && isPass l) + inPassed p ∧
    (ls.countP fun l => decide (who l = t) && isFire l)
      ≤ (ls.countP fun l => decide (who l = t) && isCall l) + inFiring p := by
  induction ls generalizing p with
  | nil => exact ⟨Nat.zero_le _, Nat.zero_le _⟩
  | cons l ls ih =>
    rw [phase] at h
    by_cases hw : who l = t
    · rw [if_pos hw] at h
      cases hm : move p l with
      | none =>
        rw [show (some p).bind (move · l) = none from hm, phase_none] at h
        cases h
      | some q =>
        rw [show (some p).bind (move · l) = some q from hm] at h
        have h1 := ih h
        have h2 := move_counts hm
        simp only [List.countP_cons, hw, decide_true, Bool.true_and] at h1 ⊢
        omega
    · rw [if_neg hw] at h
      have := ih h
      simp only [List.countP_cons, hw, decide_false, Bool.false_and, Bool.false_eq_true,
        if_false] at this ⊢
      exact this

theorem phase_counts {t : Nat} {ls : List Label} (h : (phase t (some .out) ls).isSome = true) :
    (ls.countP fun l => decide (who l = t) && isRet l)
      ≤ (ls.countP fun l => decide (who l = t) && isPass l) ∧
    (ls.countP fun l => decide (who l = t) && isFire l)
      ≤ (ls.countP fun l => decide (who l = t) && isCall l) := phase_counts' h

end Verif.Event
