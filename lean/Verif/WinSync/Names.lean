import Verif.WinSync.Steps
import Verif.ShmName.Lemmas

/-!
# The names of kernel objects
-/

namespace Verif.WinSync
open Spec

variable {L : Prop}

theorem tail_inj {n n' d d' : List UInt8} (h : n ++ [45] ++ d = n' ++ [45] ++ d') (hd : (45 : UInt8) ∉ d) (hd' : (45 : UInt8) ∉ d') :
    n = n' ∧ d = d' := by
  rw [List.append_assoc, List.append_assoc, List.append_eq_append_iff] at h
  rcases h with ⟨a, h1, h2⟩ | ⟨a, h1, h2⟩
  · cases a with
    | nil => rw [List.nil_append] at h2; rw [List.append_nil] at h1; exact ⟨h1.symm, (List.cons.inj h2).2⟩
    | cons x a =>
      have h3 : d = a ++ ([45] ++ d') := (List.cons.inj h2).2
      exact absurd (by rw [h3]; simp) hd
  · cases a with
    | nil => rw [List.nil_append] at h2; rw [List.append_nil] at h1; exact ⟨h1, ((List.cons.inj h2).2).symm⟩
    | cons x a =>
      have h3 : d' = a ++ ([45] ++ d) := (List.cons.inj h2).2
      exact absurd (by rw [h3]; simp) hd'

theorem decimal_no_dash (n : Nat) : (45 : UInt8) ∉ ShmName.decimal n := by
  intro h
  rw [ShmName.decimal_eq] at h
  have := ShmName.numeral_digit n 45 h
  exact absurd this.1 (by decide)

theorem memText_inj {n n' : Str} {a b : Nat} (h : memText n a = memText n' b) : n = n' ∧ a % 4294967296 = b % 4294967296 := by
  unfold memText at h
  have h1 := List.append_cancel_right h
  obtain ⟨h2, h3⟩ := tail_inj h1 (decimal_no_dash _) (decimal_no_dash _)
  rw [ShmName.decimal_eq, ShmName.decimal_eq] at h3
  exact ⟨h2, ShmName.numeral_inj h3⟩

theorem key_inj {c : Cls} {s : Nat} {n n' : Str} {a b : Nat} (h : key c s n a = key c s n' b) :
    n = n' ∧ (c = .mem → a % 4294967296 = b % 4294967296) := by
  cases c with
  | rw => exact ⟨List.append_cancel_right h, fun e => nomatch e⟩
  | mem => exact ⟨(memText_inj h).1, fun _ => (memText_inj h).2⟩
  | sem => exact ⟨h, fun e => nomatch e⟩
  | event => exact ⟨h, fun e => nomatch e⟩
  | mutex => exact ⟨h, fun e => nomatch e⟩

theorem view_iff {w : W} {i v : Nat} : View w i v ↔ viewOf w i = some v := by
  unfold View viewOf
  constructor
  · rintro ⟨o, h1, h2⟩; rw [h1]; exact h2
  · intro e
    split at e
    · rename_i o ho
      exact ⟨o, ho, e⟩
    · cases e

theorem isMutex_of {w : W} {k : Nat} (h : kindAt w k = some 3) : IsMutex w k := by
  unfold kindAt at h
  cases e : w.kobjs[k]? with
  | none => rw [e] at h; cases h
  | some o =>
    rw [e] at h
    have h : o.st.kind = 3 := Option.some.inj h
    cases e2 : o.st with
    | mutex a b => exact ⟨o, a, b, e, e2⟩
    | sem a b => rw [e2] at h; cases h
    | event a b => rw [e2] at h; cases h
    | mapping a => rw [e2] at h; cases h

theorem Inv.accounted {w f cs} (hi : Inv L w f cs) : Accounted w := by
  have hc := hi.core
  refine ⟨?_, ?_, ?_, ?_, ?_, ?_⟩
  · exact fun i s h e => hc.st i s h (slot_iff.1 e)
  · exact fun i s h j u e e' => hc.inj i s h j u (slot_iff.1 e) (slot_iff.1 e')
  · intro h k e hm
    rcases hc.own h k e with ⟨i, s, e2⟩ | ⟨_, e2⟩
    · exact ⟨i, s, slot_iff.2 e2⟩
    · exact absurd (isMutex_of e2) hm
  · exact fun i v e => hc.vst i v (view_iff.1 e)
  · exact fun i j v e e' => hc.vinj i j v (view_iff.1 e) (view_iff.1 e')
  · intro v k e
    obtain ⟨i, e2⟩ := hc.vown v k e
    exact ⟨i, view_iff.2 e2⟩

/-- No object is left. -/
theorem Inv.gone {w f cs} (hi : Inv L w f cs) (hg : ∀ c ∈ cs, c = none) (i : Nat) (o : Obj) : w.objs[i]? ≠ some (some o) := by
  intro e
  have : cs[i]? = some (some o.cls) := by rw [← hi.cls, List.getElem?_map, e]; rfl
  cases hg _ (List.mem_of_getElem? this)

theorem ref_obj {w : W} {i s k : Nat} (h : Ref w i s k) : ∃ o h, w.objs[i]? = some (some o) ∧ o.hs[s]? = some (some h) ∧ w.handles[h]? = some (some k) := by
  obtain ⟨h, ⟨o, h1, h2⟩, h3⟩ := h
  exact ⟨o, h, h1, h2, h3⟩

/-- The places of created objects lead to kernel objects with the right names. -/
theorem Inv.name {w f cs} (hi : Inv L w f cs) {i : Nat} {m : Made} (hm : f i = some m) {s k : Nat} (hs : s < m.cls.slots) (hr : Ref w i s k) :
    ∃ ob, w.kobjs[k]? = some ob ∧ ob.name = m.name.map (fun n => key m.cls s n m.size) := by
  obtain ⟨o, h, h1, h2, h3⟩ := ref_obj hr
  obtain ⟨p, hp, hp1, _⟩ := hi.made i m hm
  rw [h1] at hp; cases hp
  obtain ⟨h', k', ob, e1, e2, e3, e4⟩ := hp1.2 s hs
  rw [h2] at e1; cases e1
  rw [h3] at e2; cases e2
  exact ⟨ob, e3, e4⟩

theorem Inv.ref {w f cs} (hi : Inv L w f cs) {i : Nat} {m : Made} (hm : f i = some m) {s : Nat} (hs : s < m.cls.slots) : ∃ k, Ref w i s k := by
  obtain ⟨p, hp, hp1, _⟩ := hi.made i m hm
  obtain ⟨h', k', ob, e1, e2, _⟩ := hp1.2 s hs
  exact ⟨k', h', ⟨p, hp, e1⟩, e2⟩

theorem Inv.shared {w f cs} (hi : Inv L w f cs) {i j : Nat} (hij : i ≠ j) {a b : Made} (ha : f i = some a) (hb : f j = some b) (hab : a.cls = b.cls)
    {s : Nat} (hs : s < a.cls.slots) {k k' : Nat} (hk : Ref w i s k) (hk' : Ref w j s k') :
    k = k' ↔ ∃ n, a.name = some n ∧ b.name = some n ∧ (a.cls = .mem → a.size % 4294967296 = b.size % 4294967296) := by
  obtain ⟨ob, e1, e2⟩ := hi.name ha hs hk
  obtain ⟨ob', e3, e4⟩ := hi.name hb (hab ▸ hs) hk'
  constructor
  · rintro rfl
    rw [e1] at e3
    cases e3
    rw [e2] at e4
    cases hn : a.name with
    | none =>
      obtain ⟨h, h1, h2⟩ := hk
      obtain ⟨g, g1, g2⟩ := hk'
      have := hi.core.priv h g k ob h2 g2 e1 (by rw [e2, hn]; rfl)
      subst this
      exact absurd (hi.core.inj i s h j s (slot_iff.1 h1) (slot_iff.1 g1)).1 hij
    | some n =>
      rw [hn] at e4
      cases hn' : b.name with
      | none => rw [hn'] at e4; cases e4
      | some n' =>
        rw [hn', ← hab] at e4
        obtain ⟨rfl, h2⟩ := key_inj (Option.some.inj e4)
        exact ⟨n, rfl, rfl, h2⟩
  · rintro ⟨n, h1, h2, h3⟩
    obtain ⟨h, _, g1⟩ := hk
    obtain ⟨h', _, g2⟩ := hk'
    rw [h1] at e2
    rw [h2] at e4
    refine hi.core.uniq k k' ob ob' _ (alive_handle g1) (alive_handle g2) e1 e3 e2 ?_
    rw [e4, ← hab]
    show some _ = some _
    congr 1
    cases hcl : a.cls with
    | mem => unfold key; dsimp only; unfold memText; rw [h3 hcl]
    | sem => rfl
    | event => rfl
    | rw => rfl
    | mutex => rfl

end Verif.WinSync
