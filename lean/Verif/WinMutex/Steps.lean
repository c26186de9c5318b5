import Verif.WinMutex.Lemmas

/-! # Every step keeps the invariants of the mutex on Windows -/

namespace Verif.WinMutex

open Verif.Mutex (Label Pc setAt dec32 critAt unstable window phOf)
open Verif.Mutex.Spec (Phase phase move who depth Holds Shallow)
open Spec

theorem Ker.weaken {s : S} {c : Nat → Nat → Nat} {D : List Nat} {lv : Bool} (hk : Ker s c D lv) : Ker s c D false :=
  ⟨hk.ker, hk.dn, hk.dk, hk.dm, fun e => nomatch e⟩

theorem Inv.weaken {s : S} {c : Nat → Nat → Nat} {D : List Nat} {lv : Bool} (hi : Inv s c D lv) : Inv s c D false :=
  ⟨hi.crit, hi.ker.weaken, hi.oid, hi.pos, hi.val⟩

/-- A successful wait. -/
theorem Ker.take {s s' : S} {c c' : Nat → Nat → Nat} {D : List Nat} {lv : Bool} {t o : Nat} (hk : Ker s c D lv)
    (hf : s.kown = none ∨ s.kown = some t) (h0 : c t o = 0) (h1 : s'.kown = some t) (h2 : s'.kcnt = s.kcnt + 1)
    (h3 : s'.ab = false) (hc : ∀ u p, c' u p = if u = t ∧ p = o then c u p + 1 else c u p) : Ker s' c' (o :: D) lv := by
  obtain ⟨g1, g2, g3, g4, g5⟩ := hk
  have hon : o ∉ D := fun e => by
    obtain ⟨u, hu⟩ := g4 o e
    have := (g1 u o hu).1
    rcases hf with e' | e'
    · rw [e'] at this; cases this
    · rw [e'] at this; cases this; omega
  constructor
  · intro u p hu
    rw [hc] at hu
    by_cases e : u = t ∧ p = o
    · obtain ⟨rfl, rfl⟩ := e
      exact ⟨h1, List.mem_cons_self ..⟩
    · rw [if_neg e] at hu
      obtain ⟨e1, e2⟩ := g1 u p hu
      refine ⟨?_, List.mem_cons_of_mem _ e2⟩
      rcases hf with e' | e'
      · rw [e'] at e1; cases e1
      · rw [h1, ← e', e1]
  · exact List.nodup_cons.mpr ⟨hon, g2⟩
  · rw [h2, List.length_cons]; omega
  · intro p hp
    rcases List.mem_cons.mp hp with e | e
    · exact ⟨t, by rw [hc, if_pos ⟨rfl, e⟩]; omega⟩
    · obtain ⟨u, hu⟩ := g4 p e
      exact ⟨u, by rw [hc]; split <;> omega⟩
  · intro e
    obtain ⟨e1, _, _⟩ := g5 e
    exact ⟨by rw [h2, e1, List.length_cons], h3, fun _ => List.cons_ne_nil _ _⟩

/-- A wait for an abandoned mutex. -/
theorem Ker.abandoned {s s' : S} {c : Nat → Nat → Nat} {D : List Nat} {lv : Bool} {t : Nat} (hk : Ker s c D lv)
    (hf : s.kown = none ∨ s.kown = some t) (ha : s.ab = true) (h1 : s'.kown = some t) (h2 : s'.kcnt = s.kcnt + 1) :
    Ker s' c D lv := by
  obtain ⟨g1, g2, g3, g4, g5⟩ := hk
  constructor
  · intro u p hu
    obtain ⟨e1, e2⟩ := g1 u p hu
    refine ⟨?_, e2⟩
    rcases hf with e' | e'
    · rw [e'] at e1; cases e1
    · rw [h1, ← e', e1]
  · exact g2
  · omega
  · exact g4
  · intro e
    have := (g5 e).2.1
    rw [ha] at this; cases this

/-- The last unlock through an object; `ReleaseMutex` may fail. -/
theorem Ker.drop {s s' : S} {c c' : Nat → Nat → Nat} {D : List Nat} {lv lv' : Bool} {t o : Nat} (hk : Ker s c D lv)
    (h0 : 0 < c t o)
    (hs : s'.kown = s.kown ∧ s'.kcnt = s.kcnt ∧ lv' = false ∨
      s'.kown = (if s.kcnt = 1 then none else some t) ∧ s'.kcnt = s.kcnt - 1 ∧ s'.ab = s.ab ∧ lv' = lv)
    (hc : ∀ u p, c' u p = if u = t ∧ p = o then 0 else c u p) : Ker s' c' (D.erase o) lv' := by
  obtain ⟨g1, g2, g3, g4, g5⟩ := hk
  obtain ⟨hko, hoD⟩ := g1 t o h0
  have hlen := List.length_erase_of_mem hoD
  have hpos : 0 < D.length := List.length_pos_of_mem hoD
  constructor
  · intro u p hu
    rw [hc] at hu
    by_cases e : u = t ∧ p = o
    · rw [if_pos e] at hu; omega
    · rw [if_neg e] at hu
      obtain ⟨e1, e2⟩ := g1 u p hu
      rw [hko] at e1
      cases e1
      have hpo : p ≠ o := fun e' => e ⟨rfl, e'⟩
      have hin : p ∈ D.erase o := (List.mem_erase_of_ne hpo).mpr e2
      have := List.length_pos_of_mem hin
      refine ⟨?_, hin⟩
      rcases hs with hs | hs
      · rw [hs.1, hko]
      · rw [hs.1, if_neg (by omega)]
  · exact g2.erase _
  · rcases hs with hs | hs
    · rw [hs.2.1]; omega
    · rw [hs.2.1]; omega
  · intro p hp
    have h1 : p ∈ D := List.mem_of_mem_erase hp
    have h2 : p ≠ o := fun e => by
      subst e
      exact (List.Nodup.not_mem_erase g2) hp
    obtain ⟨u, hu⟩ := g4 p h1
    exact ⟨u, by rw [hc, if_neg fun e => h2 e.2]; exact hu⟩
  · intro e
    rcases hs with hs | hs
    · rw [hs.2.2] at e; cases e
    · rw [hs.2.2.2] at e
      obtain ⟨e1, e2, e3⟩ := g5 e
      refine ⟨by rw [hs.2.1, hlen, e1], by rw [hs.2.2.1]; exact e2, ?_⟩
      rw [hs.1]
      split
      · intro e; exact absurd rfl e
      · intro _ e'
        rw [e', List.length_nil] at hlen
        omega

/-- Steps of the holder that change the counter of its object (and perhaps the depth). -/
theorem cnt_inv {s : S} {h h' : Held} {D : List Nat} {lv : Bool} {t o c : Nat} {p : Pc} (hi : Inv s (dep h) D lv)
    (hc : s.cs o = some t) (ho : s.oid o = some t) (hcp : critAt p = critAt (s.pc t))
    (hd : ∀ u q, ¬ (u = t ∧ q = o) → dep h' u q = dep h u q) (hd0 : 0 < dep h' t o)
    (hs : unstable p ≠ some o → c = dep h' t o)
    (hun : ∀ q, q ≠ o → unstable (s.pc t) ≠ some q) (hwin : window (s.pc t) = none)
    (hv : Val (({ s with cnt := setAt s.cnt o c } : S).goto t p) (dep h') t p) :
    Inv (({ s with cnt := setAt s.cnt o c } : S).goto t p) (dep h') D lv := by
  refine hi.upd (t := t) (p := p) rfl (fun _ _ _ => Iff.rfl)
    (fun q => by rw [hcp]; exact hi.crit t q) (fun u q hut hu => ?_) (fun _ _ _ => Iff.rfl) (fun u q hut => ?_) (fun q e => ?_)
    (fun q e => ?_) (hi.ker.same rfl rfl rfl fun u q => ?_) hv
  · show setAt s.cnt o c q = s.cnt q
    refine setAt_ne _ _ fun e => ?_
    subst e
    rcases hu with hu | hu
    · rw [hc] at hu; cases hu; exact hut rfl
    · rw [ho] at hu; cases hu; exact hut rfl
  · exact hd u q fun e => hut e.1
  · by_cases hq : q = o
    · subst hq
      exact ⟨hd0, fun e => by show setAt s.cnt q c q = _; rw [setAt_self]; exact hs e⟩
    · rw [hd t q fun e => hq e.2]
      have := hi.oid q t e
      refine ⟨this.1, fun _ => ?_⟩
      show setAt s.cnt o c q = _
      rw [setAt_ne _ _ hq]
      exact this.2 (hun q hq)
  · by_cases hq : q = o
    · rw [hq]; exact Or.inl ho
    · rw [hd t q fun e => hq e.2] at e
      refine Or.inl ((hi.pos t q e).resolve_right ?_)
      rw [hwin]; exact fun e => nomatch e
  · by_cases e : u = t ∧ q = o
    · obtain ⟨rfl, rfl⟩ := e
      exact ⟨fun _ => (hi.oid q u ho).1, fun _ => hd0⟩
    · rw [hd u q e]

theorem run_ok {s : S} {h : Held} {D : List Nat} {lv : Bool} {t : Nat} (hi : Inv s (dep h) D lv)
    (hk : ∀ o, phOf (s.pc t) = .locking o → dep h t o + 1 < 4294967296) :
    ∃ r, run s t = .ok r ∧ StepOk s h lv r := by
  unfold run
  have hval := hi.val t
  have hcrit := fun o => (hi.crit t o).mp
  cases hpc : s.pc t with
  | idle => exact ⟨_, rfl, .none⟩
  | lCs o wait =>
    exact enter_ok hi (by rw [hpc]; rfl) (by rw [hpc]; rfl) (by rw [hpc]; rfl) rfl
      (fun _ _ _ => trivial) (by rw [hpc]; rfl)
  | lTest o wait =>
    dsimp only
    split
    · rename_i ho
      exact ⟨_, rfl, move_ok hi (by rw [hpc]; rfl) (by rw [hpc]; exact fun _ e => (nomatch e))
        (by rw [hpc]; exact fun _ _ e => (nomatch e)) ho rfl (fun _ e => (nomatch e)) (by rw [hpc]; rfl)⟩
    · rename_i ho
      exact ⟨_, rfl, move_ok hi (by rw [hpc]; rfl) (by rw [hpc]; exact fun _ e => (nomatch e))
        (by rw [hpc]; exact fun _ _ e => (nomatch e)) ho rfl (fun _ e => (nomatch e)) (by rw [hpc]; rfl)⟩
  | lLoad o =>
    rw [hpc] at hval
    exact ⟨_, rfl, move_ok hi (by rw [hpc]; rfl) (by rw [hpc]; exact fun _ e => (nomatch e))
        (by rw [hpc]; exact fun _ _ e => (nomatch e)) ⟨hval, rfl⟩ rfl (fun _ e => (nomatch e)) (by rw [hpc]; rfl)⟩
  | lStore o v =>
    have hc := hcrit o (by rw [hpc]; rfl)
    rw [hpc] at hval
    obtain ⟨ho, rfl⟩ := hval
    obtain ⟨hd, hs⟩ := hi.oid o t ho
    have hcd := hs (by rw [hpc]; exact fun e => nomatch e)
    have hbd := hk o (by rw [hpc]; rfl)
    have hm : (s.cnt o + 1) % 4294967296 = dep h t o + 1 := by
      rw [hcd]; exact Nat.mod_eq_of_lt hbd
    dsimp only
    rw [hm]
    refine ⟨_, rfl, StepOk.mk (t := t) (p := .lUnl o) (h' := (t, o) :: h) (D' := D) ?_ ?_ rfl
      (fun l hl => by rw [List.mem_singleton.mp hl]; rfl) ?_⟩
    · refine cnt_inv hi hc ho (by rw [hpc]; rfl) (fun u q e => by rw [dep_cons, if_neg e])
        (by rw [dep_cons, if_pos ⟨rfl, rfl⟩]; omega) (fun _ => by rw [dep_cons, if_pos ⟨rfl, rfl⟩])
        (by rw [hpc]; exact fun _ _ e => (nomatch e)) (by rw [hpc]; rfl) trivial
    · show (effect _ _).bind _ = _
      rw [effect, if_pos (dep_mem.mp hd)]; rfl
    · rw [hpc, phase_one (t := t) (by rfl)]
      show (if o = o then some (Phase.locked o) else none) = some (.locked o)
      exact if_pos rfl
  | lUnl o =>
    refine leave_ok hi (by rw [hpc]; rfl) (by rw [hpc]; rfl) (by rw [hpc]; rfl) rfl (fun _ _ _ => trivial) rfl
      (fun l hl => by rw [List.mem_singleton.mp hl]; rfl) ?_
    rw [hpc, phase_one (t := t) (by rfl)]
    show (if o = o then some Phase.out else none) = some .out
    exact if_pos rfl
  | lOut o wait =>
    rw [hpc] at hval
    exact leave_ok hi (by rw [hpc]; rfl) (by rw [hpc]; rfl) (by rw [hpc]; rfl) rfl
      (fun s' e _ => by
        show s'.oid o ≠ some t
        rw [e]; exact hval) rfl
      (fun l hl => nomatch hl) (by rw [hpc]; rfl)
  | lWait o wait =>
    rw [hpc] at hval
    have ho : s.oid o ≠ some t := hval
    have hn := not_held hi ho (by rw [hpc]; rfl)
    have hgw : atomic h [.giveUp t o, .retLock t o false] = some h := by
      show (effect h (.giveUp t o)).bind _ = _
      rw [effect, if_neg (dep_not hn)]; rfl
    have hww : ∀ l ∈ [Label.giveUp t o, .retLock t o false], who l = t := fun l hl => by
      rcases List.mem_cons.mp hl with e | e
      · rw [e]; rfl
      · rw [List.mem_singleton.mp e]; rfl
    have hpp : phase t (some (phOf (s.pc t))) [.giveUp t o, .retLock t o false] = some (phOf .idle) := by
      rw [hpc]
      simp [phase, who, phOf, move]
    dsimp only
    split
    · rename_i hf
      split
      · rename_i hab
        refine ⟨_, rfl, StepOk.mk (t := t) (p := .idle) (h' := h) (D' := D) ?_ hgw rfl hww hpp⟩
        refine hi.upd (t := t) (p := .idle) rfl (fun _ _ _ => Iff.rfl)
          (fun q => by rw [← show critAt (s.pc t) = critAt .idle by rw [hpc]; rfl]; exact hi.crit t q) (fun _ _ _ _ => rfl)
          (fun _ _ _ => Iff.rfl) (fun _ _ _ => rfl) (fun q e => ?_) (fun q e => ?_) (hi.ker.abandoned hf hab rfl rfl) trivial
        · have := hi.oid q t e
          exact ⟨this.1, fun _ => this.2 (by rw [hpc]; exact fun e => nomatch e)⟩
        · exact Or.inl ((hi.pos t q e).resolve_right (by rw [hpc]; exact fun e => nomatch e))
      · have hc' := dep_cons h t o
        refine ⟨_, rfl, StepOk.mk (t := t) (p := .lCs2 o) (h' := (t, o) :: h) (D' := o :: D) ?_ ?_ rfl
          (fun l hl => by rw [List.mem_singleton.mp hl]; rfl) ?_⟩
        · refine hi.upd (t := t) (p := .lCs2 o) rfl (fun _ _ _ => Iff.rfl)
            (fun q => by rw [← show critAt (s.pc t) = critAt (.lCs2 o) by rw [hpc]; rfl]; exact hi.crit t q) (fun _ _ _ _ => rfl)
            (fun _ _ _ => Iff.rfl) (fun u q e => by rw [hc', if_neg fun e' => e e'.1]) (fun q e => ?_) (fun q e => ?_)
            (hi.ker.take hf hn rfl rfl rfl hc') ⟨ho, by rw [hc', if_pos ⟨rfl, rfl⟩, hn]⟩
          · have hq : ¬ (t = t ∧ q = o) := fun e' => by rw [e'.2] at e; exact ho e
            rw [hc', if_neg hq]
            have := hi.oid q t e
            exact ⟨this.1, fun _ => this.2 (by rw [hpc]; exact fun e => nomatch e)⟩
          · by_cases hq : q = o
            · rw [hq]; exact Or.inr rfl
            · rw [hc', if_neg fun e => hq e.2] at e
              exact Or.inl ((hi.pos t q e).resolve_right (by rw [hpc]; exact fun e => nomatch e))
        · show (effect _ _).bind _ = _
          rw [effect, if_pos]
          · rfl
          · refine ⟨fun x hx => ?_, dep_not hn⟩
            have := (hi.ker.ker x.1 x.2 (dep_mem.mpr hx)).1
            rcases hf with e | e
            · rw [e] at this; cases this
            · rw [e] at this; cases this; rfl
        · rw [hpc, phase_one (t := t) (by rfl)]
          show (if o = o then some (Phase.locked o) else none) = some (.locked o)
          exact if_pos rfl
    · split
      · exact ⟨_, rfl, move_ok hi (by rw [hpc]; rfl) (by rw [hpc]; exact fun _ e => (nomatch e))
          (by rw [hpc]; exact fun _ _ e => (nomatch e)) trivial hgw hww hpp⟩
      · exact ⟨_, rfl, .none⟩
  | lCs2 o =>
    rw [hpc] at hval
    exact enter_ok hi (by rw [hpc]; rfl) (by rw [hpc]; rfl) (by rw [hpc]; rfl) rfl
      (fun s' e _ => ⟨by rw [e]; exact hval.1, hval.2⟩) (by rw [hpc]; rfl)
  | lOwn o =>
    have hc := hcrit o (by rw [hpc]; rfl)
    rw [hpc] at hval
    obtain ⟨ho, hh⟩ := hval
    refine ⟨_, rfl, StepOk.mk (t := t) (p := .lCnt o) (h' := h) (D' := D) ?_ rfl rfl (fun l hl => nomatch hl) (by rw [hpc]; rfl)⟩
    refine hi.upd (t := t) (p := .lCnt o) rfl (fun _ _ _ => Iff.rfl)
      (fun q => by rw [← show critAt (s.pc t) = critAt (.lCnt o) by rw [hpc]; rfl]; exact hi.crit t q) (fun _ _ _ _ => rfl)
      (fun u q hut => ?_) (fun _ _ _ => rfl) (fun q e => ?_) (fun q e => ?_) (hi.ker.same rfl rfl rfl fun _ _ => Iff.rfl)
      ⟨setAt_self .., hh⟩
    · show setAt s.oid o (some t) q = some u ↔ _
      by_cases e : q = o
      · subst e
        rw [setAt_self]
        refine ⟨fun e => absurd (Option.some.inj e).symm hut, fun e => ?_⟩
        have h1 := (hi.ker.ker u q (hi.oid q u e).1).1
        have h2 := (hi.ker.ker t q (by rw [hh]; exact Nat.one_pos)).1
        rw [h1] at h2
        exact absurd (Option.some.inj h2) hut
      · rw [setAt_ne _ _ e]
    · have e : setAt s.oid o (some t) q = some t := e
      by_cases e' : q = o
      · subst e'
        exact ⟨by rw [hh]; exact Nat.one_pos, fun e => absurd rfl e⟩
      · rw [setAt_ne _ _ e'] at e
        have := hi.oid q t e
        exact ⟨this.1, fun _ => this.2 (by rw [hpc]; exact fun e => nomatch e)⟩
    · left
      show setAt s.oid o (some t) q = some t
      by_cases e' : q = o
      · subst e'; exact setAt_self ..
      · rw [setAt_ne _ _ e']
        refine (hi.pos t q e).resolve_right fun e2 => ?_
        rw [hpc] at e2
        exact e' (Option.some.inj e2).symm
  | lCnt o =>
    have hc := hcrit o (by rw [hpc]; rfl)
    rw [hpc] at hval
    obtain ⟨ho, hh⟩ := hval
    refine ⟨_, rfl, StepOk.mk (t := t) (p := .lUnl o) (h' := h) (D' := D) ?_ rfl rfl (fun l hl => nomatch hl) (by rw [hpc]; rfl)⟩
    exact cnt_inv hi hc ho (by rw [hpc]; rfl) (fun _ _ _ => rfl) (by rw [hh]; exact Nat.one_pos) (fun _ => hh.symm)
      (by rw [hpc]; exact fun q e e' => e (Option.some.inj e').symm) (by rw [hpc]; rfl) trivial
  | uCs o all =>
    exact enter_ok hi (by rw [hpc]; rfl) (by rw [hpc]; rfl) (by rw [hpc]; rfl) rfl
      (fun _ _ _ => trivial) (by rw [hpc]; rfl)
  | uTest o all =>
    dsimp only
    split
    · rename_i ho
      have hn := not_held hi ho (by rw [hpc]; rfl)
      refine ⟨_, rfl, move_ok hi (by rw [hpc]; rfl) (by rw [hpc]; exact fun _ e => (nomatch e))
        (by rw [hpc]; exact fun _ _ e => (nomatch e)) trivial ?_
        (fun l hl => by rw [List.mem_singleton.mp hl]; rfl) ?_⟩
      · show (effect h (.refuse t o)).bind _ = _
        rw [effect, if_neg (dep_not hn)]; rfl
      · rw [hpc, phase_one (t := t) (by rfl)]
        show (if o = o then some (Phase.unlockFailed o all) else none) = some (.unlockFailed o all)
        exact if_pos rfl
    · rename_i ho
      have ho : s.oid o = some t := Decidable.not_not.mp ho
      exact ⟨_, rfl, move_ok hi (by rw [hpc]; rfl) (by rw [hpc]; exact fun _ e => (nomatch e))
        (by rw [hpc]; exact fun _ _ e => (nomatch e)) ho rfl (fun _ e => (nomatch e)) (by rw [hpc]; rfl)⟩
  | uBad o all =>
    refine leave_ok hi (by rw [hpc]; rfl) (by rw [hpc]; rfl) (by rw [hpc]; rfl) rfl (fun _ _ _ => trivial) rfl
      (fun l hl => by rw [List.mem_singleton.mp hl]; rfl) ?_
    rw [hpc, phase_one (t := t) (by rfl)]
    show (if o = o ∧ all = all then some Phase.out else none) = some .out
    exact if_pos ⟨rfl, rfl⟩
  | uAll o all =>
    have hc := hcrit o (by rw [hpc]; rfl)
    rw [hpc] at hval
    have ho : s.oid o = some t := hval
    obtain ⟨hd, hs⟩ := hi.oid o t ho
    have hcd := hs (by rw [hpc]; exact fun e => nomatch e)
    cases all
    · exact ⟨_, rfl, move_ok hi (by rw [hpc]; rfl) (by rw [hpc]; exact fun _ e => (nomatch e))
        (by rw [hpc]; exact fun _ _ e => (nomatch e)) ⟨ho, hcd⟩ rfl (fun _ e => (nomatch e)) (by rw [hpc]; rfl)⟩
    · refine ⟨_, rfl, StepOk.mk (t := t) (p := .uLoad o true) (h' := h) (D' := D) ?_ rfl rfl (fun l hl => nomatch hl) (by rw [hpc]; rfl)⟩
      exact cnt_inv hi hc ho (by rw [hpc]; rfl) (fun _ _ _ => rfl) hd (fun e => absurd rfl e)
        (by rw [hpc]; exact fun _ _ e => (nomatch e)) (by rw [hpc]; rfl) ⟨ho, setAt_self ..⟩
  | uLoad o all =>
    rw [hpc] at hval
    obtain ⟨ho, hcd⟩ := hval
    exact ⟨_, rfl, move_ok hi (by rw [hpc]; rfl) (by rw [hpc]; exact fun _ e => e)
        (by rw [hpc]; exact fun _ _ e => (nomatch e)) ⟨ho, hcd⟩ rfl (fun _ e => (nomatch e)) (by rw [hpc]; rfl)⟩
  | uStore o all v =>
    have hc := hcrit o (by rw [hpc]; rfl)
    rw [hpc] at hval
    obtain ⟨ho, hcd⟩ := hval
    obtain ⟨hd, -⟩ := hi.oid o t ho
    refine ⟨_, rfl, StepOk.mk (t := t) (p := .uZero o all) (h' := h) (D' := D) ?_ rfl rfl (fun l hl => nomatch hl) (by rw [hpc]; rfl)⟩
    refine cnt_inv hi hc ho (by rw [hpc]; rfl) (fun _ _ _ => rfl) hd (fun e => absurd rfl e)
      (by rw [hpc]; exact fun q e e' => e (Option.some.inj e').symm) (by rw [hpc]; rfl) ⟨ho, ?_⟩
    show setAt s.cnt o (dec32 v) o = _
    rw [setAt_self, hcd, dec32]
    cases all
    · show (if dep h t o = 0 then _ else dep h t o - 1) = dep h t o - 1
      rw [if_neg (by omega)]
    · rfl
  | uZero o all =>
    have hc := hcrit o (by rw [hpc]; rfl)
    rw [hpc] at hval
    obtain ⟨ho, hcd⟩ := hval
    obtain ⟨hd, -⟩ := hi.oid o t ho
    dsimp only
    split
    · rename_i h0
      refine ⟨_, rfl, move_ok hi (by rw [hpc]; rfl) (by rw [hpc]; exact fun _ e => e)
        (by rw [hpc]; exact fun _ _ e => (nomatch e)) ⟨ho, ?_⟩ rfl (fun _ e => (nomatch e)) (by rw [hpc]; rfl)⟩
      cases all
      · right
        have hcd : s.cnt o = dep h t o - 1 := hcd
        omega
      · left; rfl
    · rename_i h0
      cases all
      · have hcd : s.cnt o = dep h t o - 1 := hcd
        have hc' := dep_erase h t o
        have hsame : ({ s with cnt := setAt s.cnt o (s.cnt o) } : S) = s := by
          have : setAt s.cnt o (s.cnt o) = s.cnt := by
            funext i
            unfold setAt
            split
            · rename_i e; rw [e]
            · rfl
          rw [this]
        refine ⟨_, rfl, StepOk.mk (t := t) (p := .uUnl o false) (h' := h.erase (t, o)) (D' := D) ?_ ?_ rfl
          (fun l hl => by rw [List.mem_singleton.mp hl]; rfl) ?_⟩
        · have := cnt_inv (c := s.cnt o) (p := .uUnl o false) (h' := h.erase (t, o)) hi hc ho (by rw [hpc]; rfl) (fun u q e => by rw [hc', if_neg e])
            (by rw [hc', if_pos ⟨rfl, rfl⟩]; omega) (fun _ => by rw [hc', if_pos ⟨rfl, rfl⟩]; exact hcd)
            (by rw [hpc]; exact fun q e e' => e (Option.some.inj e').symm) (by rw [hpc]; rfl) trivial
          rw [hsame] at this
          exact this
        · show (effect _ _).bind _ = _
          rw [effect, if_pos (dep_mem.mp hd)]
          rfl
        · rw [hpc, phase_one (t := t) (by rfl)]
          show (if o = o ∧ false = false then some (Phase.left o false) else none) = _
          exact if_pos ⟨rfl, rfl⟩
      · exact absurd hcd h0
  | uOwn o all =>
    have hc := hcrit o (by rw [hpc]; rfl)
    rw [hpc] at hval
    obtain ⟨ho, hcd⟩ := hval
    obtain ⟨hd, -⟩ := hi.oid o t ho
    refine ⟨_, rfl, StepOk.mk (t := t) (p := .uRel o all) (h' := h) (D' := D) ?_ rfl rfl (fun l hl => nomatch hl) (by rw [hpc]; rfl)⟩
    refine hi.upd (t := t) (p := .uRel o all) rfl (fun _ _ _ => Iff.rfl)
      (fun q => by rw [← show critAt (s.pc t) = critAt (.uRel o all) by rw [hpc]; rfl]; exact hi.crit t q) (fun _ _ _ _ => rfl)
      (fun u q hut => ?_) (fun _ _ _ => rfl) (fun q e => ?_) (fun q e => ?_) (hi.ker.same rfl rfl rfl fun _ _ => Iff.rfl)
      ⟨?_, hd, hcd⟩
    · show setAt s.oid o none q = some u ↔ _
      by_cases e : q = o
      · subst e
        rw [setAt_self, ho]
        exact ⟨fun e => (nomatch e), fun e => absurd (Option.some.inj e).symm hut⟩
      · rw [setAt_ne _ _ e]
    · have e : setAt s.oid o none q = some t := e
      by_cases e' : q = o
      · subst e'
        rw [setAt_self] at e; cases e
      · rw [setAt_ne _ _ e'] at e
        have := hi.oid q t e
        exact ⟨this.1, fun _ => this.2 (by rw [hpc]; exact fun e2 => e' (Option.some.inj e2).symm)⟩
    · by_cases e' : q = o
      · subst e'; exact Or.inr rfl
      · left
        show setAt s.oid o none q = some t
        rw [setAt_ne _ _ e']
        exact (hi.pos t q e).resolve_right (by rw [hpc]; exact fun e => nomatch e)
    · show setAt s.oid o none o ≠ some t
      rw [setAt_self]; exact fun e => nomatch e
  | uRel o all =>
    rw [hpc] at hval
    obtain ⟨ho, hd, hcd⟩ := hval
    have hko := (hi.ker.ker t o hd).1
    refine ⟨_, rfl, ?_⟩
    have hrel : released s t = { s with kown := if s.kcnt = 1 then none else some t, kcnt := s.kcnt - 1 } := by
      rw [released, if_pos hko]
    rw [hrel]
    have hc' : ∀ u q, dep (if all then h.filter (· ≠ (t, o)) else h.erase (t, o)) u q
        = if u = t ∧ q = o then 0 else dep h u q := by
      intro u q
      cases all
      · have hcd : dep h t o = 1 := hcd.resolve_left (fun e => nomatch e)
        rw [if_neg (fun e => nomatch e), dep_erase]
        by_cases e : u = t ∧ q = o
        · rw [if_pos e, if_pos e, e.1, e.2, hcd]
        · rw [if_neg e, if_neg e]
      · rw [if_pos rfl]
        exact dep_filter h t o u q
    refine StepOk.mk (t := t) (p := .uUnl o all) (h' := if all then h.filter (· ≠ (t, o)) else h.erase (t, o))
      (D' := D.erase o) ?_ ?_ rfl (fun l hl => by rw [List.mem_singleton.mp hl]; rfl) ?_
    · refine hi.upd (t := t) (p := .uUnl o all) rfl (fun _ _ _ => Iff.rfl)
        (fun q => by rw [← show critAt (s.pc t) = critAt (.uUnl o all) by rw [hpc]; rfl]; exact hi.crit t q) (fun _ _ _ _ => rfl)
        (fun _ _ _ => Iff.rfl) (fun u q e => by rw [hc', if_neg fun e' => e e'.1]) (fun q e => ?_) (fun q e => ?_)
        (hi.ker.drop hd (Or.inr ⟨rfl, rfl, rfl, rfl⟩) hc') trivial
      · have hq : ¬ (t = t ∧ q = o) := fun e' => by rw [e'.2] at e; exact ho e
        rw [hc', if_neg hq]
        have := hi.oid q t e
        exact ⟨this.1, fun _ => this.2 (by rw [hpc]; exact fun e => nomatch e)⟩
      · rw [hc'] at e
        split at e
        · omega
        · rename_i hq
          exact Or.inl ((hi.pos t q e).resolve_right
            (by rw [hpc]; exact fun e2 => hq ⟨rfl, (Option.some.inj e2).symm⟩))
    · show (effect _ _).bind _ = _
      rw [effect, if_pos (dep_mem.mp hd)]
      rfl
    · rw [hpc, phase_one (t := t) (by rfl)]
      show (if o = o ∧ all = all then some (Phase.left o all) else none) = _
      exact if_pos ⟨rfl, rfl⟩
  | uUnl o all =>
    refine leave_ok hi (by rw [hpc]; rfl) (by rw [hpc]; rfl) (by rw [hpc]; rfl) rfl (fun _ _ _ => trivial) rfl
      (fun l hl => by rw [List.mem_singleton.mp hl]; rfl) ?_
    rw [hpc, phase_one (t := t) (by rfl)]
    show (if o = o ∧ all = all then some Phase.out else none) = some .out
    exact if_pos ⟨rfl, rfl⟩

theorem fail_ok {s : S} {h : Held} {D : List Nat} {lv : Bool} {t : Nat} (hi : Inv s (dep h) D lv) :
    StepOk s h (lv && !faults s (.fail t)) (fail s t) := by
  unfold fail faults
  have hval := hi.val t
  cases hpc : s.pc t with
  | lWait o wait =>
    rw [hpc] at hval
    have hn := not_held hi hval (by rw [hpc]; rfl)
    have hlv : (lv && !false) = lv := by cases lv <;> rfl
    dsimp only
    rw [hpc]
    dsimp only
    rw [hlv]
    refine move_ok hi (by rw [hpc]; rfl) (by rw [hpc]; exact fun _ e => (nomatch e))
      (by rw [hpc]; exact fun _ _ e => (nomatch e)) trivial ?_ (fun l hl => ?_) ?_
    · show (effect h (.giveUp t o)).bind _ = _
      rw [effect, if_neg (dep_not hn)]; rfl
    · rcases List.mem_cons.mp hl with e | e
      · rw [e]; rfl
      · rw [List.mem_singleton.mp e]; rfl
    · rw [hpc]
      simp [phase, who, phOf, move]
  | uRel o all =>
    rw [hpc] at hval
    obtain ⟨ho, hd, hcd⟩ := hval
    have hlv : (lv && !true) = false := by cases lv <;> rfl
    dsimp only
    rw [hpc]
    dsimp only
    rw [hlv]
    have hc' : ∀ u q, dep (if all then h.filter (· ≠ (t, o)) else h.erase (t, o)) u q
        = if u = t ∧ q = o then 0 else dep h u q := by
      intro u q
      cases all
      · have hcd : dep h t o = 1 := hcd.resolve_left (fun e => nomatch e)
        rw [if_neg (fun e => nomatch e), dep_erase]
        by_cases e : u = t ∧ q = o
        · rw [if_pos e, if_pos e, e.1, e.2, hcd]
        · rw [if_neg e, if_neg e]
      · rw [if_pos rfl]
        exact dep_filter h t o u q
    refine StepOk.mk (t := t) (p := .uUnl o all) (h' := if all then h.filter (· ≠ (t, o)) else h.erase (t, o))
      (D' := D.erase o) ?_ ?_ rfl (fun l hl => by rw [List.mem_singleton.mp hl]; rfl) ?_
    · refine hi.upd (t := t) (p := .uUnl o all) rfl (fun _ _ _ => Iff.rfl)
        (fun q => by rw [← show critAt (s.pc t) = critAt (.uUnl o all) by rw [hpc]; rfl]; exact hi.crit t q) (fun _ _ _ _ => rfl)
        (fun _ _ _ => Iff.rfl) (fun u q e => by rw [hc', if_neg fun e' => e e'.1]) (fun q e => ?_) (fun q e => ?_)
        (hi.ker.drop hd (Or.inl ⟨rfl, rfl, rfl⟩) hc') trivial
      · have hq : ¬ (t = t ∧ q = o) := fun e' => by rw [e'.2] at e; exact ho e
        rw [hc', if_neg hq]
        have := hi.oid q t e
        exact ⟨this.1, fun _ => this.2 (by rw [hpc]; exact fun e => nomatch e)⟩
      · rw [hc'] at e
        split at e
        · omega
        · rename_i hq
          exact Or.inl ((hi.pos t q e).resolve_right
            (by rw [hpc]; exact fun e2 => hq ⟨rfl, (Option.some.inj e2).symm⟩))
    · show (effect _ _).bind _ = _
      rw [effect, if_pos (dep_mem.mp hd)]
      rfl
    · rw [hpc, phase_one (t := t) (by rfl)]
      show (if o = o ∧ all = all then some (Phase.left o all) else none) = _
      exact if_pos ⟨rfl, rfl⟩
  | _ => exact .none

/-- The end of a thread that holds nothing. -/
theorem die_ok {s : S} {h : Held} {D : List Nat} {lv : Bool} {t : Nat} (hi : Inv s (dep h) D lv)
    (hn : ∀ o, dep h t o = 0) : StepOk s h lv (some (ended s t, [])) := by
  intro s' ls e
  cases e
  unfold ended
  by_cases hk : s.kown = some t
  · rw [if_pos hk]
    have h0 : ∀ u o, dep h u o = 0 := fun u o => by
      rcases Nat.eq_zero_or_pos (dep h u o) with e | e
      · exact e
      · have := (hi.ker.ker u o e).1
        rw [hk] at this
        cases this
        exact hn o
    have hD : D = [] := by
      cases D with
      | nil => rfl
      | cons o D =>
        obtain ⟨u, hu⟩ := hi.ker.dm o (List.mem_cons_self ..)
        rw [h0 u o] at hu
        cases hu
    subst hD
    refine ⟨h, [], ⟨hi.crit, ⟨fun u o e => ?_, hi.ker.dn, Nat.le_refl _, hi.ker.dm, fun e => ?_⟩, hi.oid, hi.pos,
      fun u => (hi.val u).frame (fun _ _ => rfl) (fun _ => Iff.rfl) (fun _ => rfl)⟩, rfl, fun _ => rfl⟩
    · rw [h0] at e; cases e
    · exact absurd rfl ((hi.ker.live e).2.2 (by rw [hk]; exact fun e => nomatch e))
  · rw [if_neg hk]
    exact ⟨h, D, hi, rfl, fun _ => rfl⟩

theorem step_ok {s : S} {h : Held} {D : List Nat} {lv : Bool} {a : Act} (hi : Inv s (dep h) D lv)
    (hk : ∀ t o, phOf (s.pc t) = .locking o → dep h t o + 1 < 4294967296)
    (hd : ∀ t, a = .die t → s.pc t = .idle → ∀ o, dep h t o = 0) :
    ∃ r, step s a = .ok r ∧ StepOk s h (lv && !faults s a) r := by
  have hlv : (lv && !false) = lv := by cases lv <;> rfl
  cases a with
  | callLock t o wait =>
    refine ⟨_, rfl, ?_⟩
    show StepOk s h (lv && !false) _
    rw [hlv]
    by_cases hpc : s.pc t = .idle
    · rw [if_pos hpc]
      exact move_ok hi (by rw [hpc]; rfl) (by rw [hpc]; exact fun _ e => (nomatch e))
        (by rw [hpc]; exact fun _ _ e => (nomatch e)) trivial
        rfl (fun l hl => by rw [List.mem_singleton.mp hl]; rfl)
        (by rw [hpc, phase_one (t := t) (by rfl)]; rfl)
    · rw [if_neg hpc]; exact .none
  | callUnlock t o all =>
    refine ⟨_, rfl, ?_⟩
    show StepOk s h (lv && !false) _
    rw [hlv]
    by_cases hpc : s.pc t = .idle
    · rw [if_pos hpc]
      exact move_ok hi (by rw [hpc]; rfl) (by rw [hpc]; exact fun _ e => (nomatch e))
        (by rw [hpc]; exact fun _ _ e => (nomatch e)) trivial
        rfl (fun l hl => by rw [List.mem_singleton.mp hl]; rfl)
        (by rw [hpc, phase_one (t := t) (by rfl)]; rfl)
    · rw [if_neg hpc]; exact .none
  | run t =>
    show ∃ r, _ ∧ StepOk s h (lv && !false) r
    rw [hlv]
    exact run_ok hi (hk t)
  | fail t => exact ⟨_, rfl, fail_ok hi⟩
  | die t =>
    refine ⟨_, rfl, ?_⟩
    show StepOk s h (lv && !false) _
    rw [hlv]
    by_cases hpc : s.pc t = .idle
    · rw [if_pos hpc]
      exact die_ok hi (hd t rfl hpc)
    · rw [if_neg hpc]; exact .none

end Verif.WinMutex
