import Verif.WinSync.Core

/-!
# The objects' side
-/

namespace Verif.WinSync
open Spec

variable {L : Prop}

/-- The handle in a place. -/
def slotOf (w : W) (i s : Nat) : Option Nat :=
  match w.objs[i]? with
  | some (some o) => (o.hs[s]?).join
  | _ => none

/-- The view of an object. -/
def viewOf (w : W) (i : Nat) : Option Nat :=
  match w.objs[i]? with
  | some (some o) => o.view
  | _ => none

/-- The kind of kernel object a place is for. -/
def kindOf : Cls → Nat → Nat
  | .sem, _ => 0
  | .event, _ => 1
  | .rw, s => if s = 2 then 1 else 0
  | .mem, _ => 2
  | .mutex, _ => 3

def kdOf (w : W) (i s : Nat) : Nat :=
  match w.objs[i]? with
  | some (some o) => kindOf o.cls s
  | _ => 0

/-- The name of the kernel object for a place. -/
def key (c : Cls) (s : Nat) (n : Str) (size : Nat) : Str :=
  match c with
  | .rw => n ++ rwSuffix s
  | .mem => memText n size
  | _ => n

/-- Object `o` is created as `m` says. -/
def MadeAt (w : W) (o : Obj) (m : Made) : Prop :=
  o.cls = m.cls ∧ ∀ s, s < m.cls.slots → ∃ (h k : Nat) (ob : KObj), o.hs[s]? = some (some h) ∧ w.handles[h]? = some (some k) ∧
    w.kobjs[k]? = some ob ∧ ob.name = m.name.map (fun n => key m.cls s n m.size)

/-- A created `SharedMem` has its memory. -/
def MemAt (w : W) (o : Obj) (m : Made) : Prop :=
  m.cls = .mem → ∃ (v k : Nat) (ob : KObj) (bytes h : Nat), o.view = some v ∧ w.views[v]? = some (some k) ∧ w.kobjs[k]? = some ob ∧
    ob.st = .mapping bytes ∧ m.size % 4294967296 ≤ bytes ∧ o.size = m.size ∧ o.hs[0]? = some (some h) ∧ w.handles[h]? = some (some k)

/-- No two objects are the first for the same memory. -/
def FirstOnce (w : W) : Prop :=
  ∀ (i j h g k : Nat) (o p : Obj), w.objs[i]? = some (some o) → w.objs[j]? = some (some p) → o.cls = .mem → p.cls = .mem →
    o.first = true → p.first = true → o.hs[0]? = some (some h) → p.hs[0]? = some (some g) → w.handles[h]? = some (some k) →
    w.handles[g]? = some (some k) → i = j

/-- The classes whose objects lack a handle until they are created. -/
def Plain (L : Prop) (c : Cls) : Prop := c = .sem ∨ c = .event ∨ c = .rw ∨ (c = .mutex ∧ ¬ L)

structure Inv (L : Prop) (w : W) (f : Nat → Option Made) (cs : List (Option Cls)) : Prop where
  core : Core L w (slotOf w) (viewOf w) (kdOf w)
  cls : w.objs.map (Option.map Obj.cls) = cs
  len : ∀ (i : Nat) o, w.objs[i]? = some (some o) → o.hs.length = o.cls.slots
  cnt : ∀ (i : Nat) o, w.objs[i]? = some (some o) → 0 < o.cnt → o.cls = .mutex ∧ ∃ h, o.hs = [some h]
  made : ∀ i m, f i = some m → ∃ o, w.objs[i]? = some (some o) ∧ MadeAt w o m ∧ MemAt w o m
  fst : FirstOnce w
  idle : ∀ (i : Nat) o, w.objs[i]? = some (some o) → f i = none → Plain L o.cls → none ∈ o.hs

theorem inv_init : Inv L W.init (fun _ => none) [] := by
  refine ⟨?_, rfl, fun i o h => ?_, fun i o h => ?_, (fun _ _ h => nomatch h), (fun _ _ _ _ _ _ _ h => nomatch h), (fun _ _ h => nomatch h)⟩
  · have hs : ∀ i s, slotOf W.init i s = none := fun _ _ => rfl
    have hv : ∀ i, viewOf W.init i = none := fun _ => rfl
    have ha : ∀ k, alive W.init k = false := fun k => by unfold alive W.init; simp
    constructor
    · intro i s h e; rw [hs] at e; cases e
    · intro i s h j u e; rw [hs] at e; cases e
    · intro h k e; cases e
    · intro i v e; rw [hv] at e; cases e
    · intro i j v e; rw [hv] at e; cases e
    · intro v k e; cases e
    · intro k e; rw [ha] at e; cases e
    · intro i s h k e; rw [hs] at e; cases e
    · intro k k' o o' n e; rw [ha] at e; cases e
    · intro h h' k o e; cases e
    · intro v k e; cases e
  · cases h
  · cases h

theorem Inv.obj {w f cs} (hi : Inv L w f cs) {i : Nat} {c : Cls} (h : cs[i]? = some (some c)) :
    ∃ o, w.objs[i]? = some (some o) ∧ o.cls = c := by
  rw [← hi.cls, List.getElem?_map] at h
  cases e : w.objs[i]? with
  | none => rw [e] at h; cases h
  | some x =>
    cases x with
    | none => rw [e] at h; cases h
    | some o => rw [e] at h; cases h; exact ⟨o, rfl, rfl⟩

theorem getObj_ok {w : W} {i : Nat} {o : Obj} (h : w.objs[i]? = some (some o)) : getObj w i = .ok o := by
  unfold getObj; rw [h]

theorem slotOf_live {w : W} {i : Nat} {o : Obj} (h : w.objs[i]? = some (some o)) (s : Nat) : slotOf w i s = (o.hs[s]?).join := by
  unfold slotOf; rw [h]

theorem viewOf_live {w : W} {i : Nat} {o : Obj} (h : w.objs[i]? = some (some o)) : viewOf w i = o.view := by
  unfold viewOf; rw [h]

theorem kdOf_live {w : W} {i : Nat} {o : Obj} (h : w.objs[i]? = some (some o)) (s : Nat) : kdOf w i s = kindOf o.cls s := by
  unfold kdOf; rw [h]

/-- The facts about an object the change does not concern. -/
theorem MadeAt.frame {w : W} {H V} {w1 : W} {H1 V1} {i j : Nat} {o : Obj} {m : Made}
    (hf : Frame (fun a _ => a = i) (fun a => a = i) w H V w1 H1 V1) (hne : j ≠ i)
    (hH : ∀ s, H j s = (o.hs[s]?).join) (hm : MadeAt w o m) : MadeAt w1 o m := by
  refine ⟨hm.1, fun s hs => ?_⟩
  obtain ⟨h, k, ob, e1, e2, e3, e4⟩ := hm.2 s hs
  obtain ⟨ob', e5, e6, _, _⟩ := hf.kobj k ob e3
  exact ⟨h, k, ob', e1, by rw [hf.hand j s h hne (by rw [hH, e1]; rfl)]; exact e2, e5, e6.trans e4⟩

theorem MemAt.frame {w : W} {H V} {w1 : W} {H1 V1} {i j : Nat} {o : Obj} {m : Made}
    (hf : Frame (fun a _ => a = i) (fun a => a = i) w H V w1 H1 V1) (hne : j ≠ i)
    (hV : V j = o.view) (hH : ∀ s, H j s = (o.hs[s]?).join) (hm : MemAt w o m) : MemAt w1 o m := by
  intro hc
  obtain ⟨v, k, ob, bytes, h, e1, e2, e3, e4, e5, e6, e11, e12⟩ := hm hc
  obtain ⟨ob', e7, e8, e9, e10⟩ := hf.kobj k ob e3
  refine ⟨v, k, ob', bytes, h, e1, by rw [hf.vhand j v hne (hV.trans e1)]; exact e2, e7, ?_, e5, e6, e11,
    by rw [hf.hand j 0 h hne (by rw [hH, e11]; rfl)]; exact e12⟩
  rcases e10 with e | e
  · rw [e4] at e; cases e
  · rw [e]; exact e4

theorem set_objs_get {l : List (Option Obj)} {i j : Nat} {x : Option Obj} {y : Option Obj} (hl : l[i]? = some x) :
    (l.set i y)[j]? = if j = i then some y else l[j]? := by
  rw [List.getElem?_set]
  by_cases e : i = j
  · subst e; simp [lt_of_some hl]
  · simp [e, Ne.symm e]

/-- The kernel objects other than mutexes are as before. -/
def Calm (w w' : W) : Prop := ∀ (k : Nat) (o : KObj), w.kobjs[k]? = some o → o.st.kind ≠ 3 → w'.kobjs[k]? = some o

theorem Frame.calm {P Q w H V w' H' V'} (hf : Frame P Q w H V w' H' V') : Calm w w' := by
  intro k o ho hk
  obtain ⟨o', e1, _, _, e2⟩ := hf.kobj k o ho
  rw [e2.resolve_left hk] at e1
  exact e1

/-- The end of a call that changes object `i`. -/
theorem finish {w f cs} (hi : Inv L w f cs) {i : Nat} {o : Obj} (ho : w.objs[i]? = some (some o)) {w1 : W} {H1 V1}
    (hc : Core L w1 H1 V1 (kdOf w)) (hf : Frame (fun a _ => a = i) (fun a => a = i) w (slotOf w) (viewOf w) w1 H1 V1)
    (o' : Obj) (h1 : o'.cls = o.cls) (h2 : o'.hs.length = o.cls.slots) (h3 : 0 < o'.cnt → o'.cls = .mutex ∧ ∃ h, o'.hs = [some h])
    (h4 : ∀ s, H1 i s = (o'.hs[s]?).join) (h5 : V1 i = o'.view) (f' : Nat → Option Made) (h6 : ∀ j, j ≠ i → f' j = f j)
    (h7 : ∀ m, f' i = some m → MadeAt w1 o' m ∧ MemAt w1 o' m)
    (h8 : o'.cls = .mem → o'.first = true → ∀ h k : Nat, o'.hs[0]? = some (some h) → w1.handles[h]? = some (some k) →
      ∀ j u g, j ≠ i → H1 j u = some g → w1.handles[g]? ≠ some (some k))
    (h9 : f' i = none → Plain L o'.cls → none ∈ o'.hs) : Inv L (setObj w1 i o') f' cs := by
  have hget : ∀ j : Nat, (setObj w1 i o').objs[j]? = if j = i then some (some o') else w.objs[j]? := fun j => by
    show (w1.objs.set i (some o'))[j]? = _
    rw [hf.objs]
    exact set_objs_get ho
  have hS : slotOf (setObj w1 i o') = H1 := by
    funext j s
    unfold slotOf
    rw [hget]
    by_cases e : j = i
    · subst e; rw [if_pos rfl]; exact (h4 s).symm
    · rw [if_neg e, hf.slot j s e]; rfl
  have hV : viewOf (setObj w1 i o') = V1 := by
    funext j
    unfold viewOf
    rw [hget]
    by_cases e : j = i
    · subst e; rw [if_pos rfl]; exact h5.symm
    · rw [if_neg e, hf.view j e]; rfl
  have hK : kdOf (setObj w1 i o') = kdOf w := by
    funext j s
    unfold kdOf
    rw [hget]
    by_cases e : j = i
    · subst e; rw [if_pos rfl, ho]; dsimp only; rw [h1]
    · rw [if_neg e]
  constructor
  · rw [hS, hV, hK]
    exact ⟨hc.st, hc.inj, hc.own, hc.vst, hc.vinj, hc.vown, hc.ok, hc.kinds, hc.uniq, hc.priv, hc.vkd⟩
  · rw [← hi.cls]
    show (w1.objs.set i (some o')).map _ = _
    rw [hf.objs, List.map_set]
    apply List.ext_getElem?
    intro j
    rw [List.getElem?_set]
    by_cases e : i = j
    · subst e
      rw [if_pos rfl, List.getElem?_map, ho, List.length_map, if_pos (lt_of_some ho)]
      simp [h1]
    · rw [if_neg e]
  · intro j p hp
    rw [hget] at hp
    by_cases e : j = i
    · subst e; rw [if_pos rfl] at hp; cases hp; rw [h1]; exact h2
    · rw [if_neg e] at hp; exact hi.len j p hp
  · intro j p hp
    rw [hget] at hp
    by_cases e : j = i
    · subst e; rw [if_pos rfl] at hp; cases hp; exact h3
    · rw [if_neg e] at hp; exact hi.cnt j p hp
  · intro j m hm
    rw [hget]
    by_cases e : j = i
    · subst e
      rw [if_pos rfl]
      exact ⟨o', rfl, h7 m hm⟩
    · rw [if_neg e]
      rw [h6 j e] at hm
      obtain ⟨p, hp, hp1, hp2⟩ := hi.made j m hm
      have hq1 : MadeAt w1 p m := hp1.frame hf e (fun s => slotOf_live hp s)
      have hq2 : MemAt w1 p m := hp2.frame hf e (viewOf_live hp) (fun s => slotOf_live hp s)
      exact ⟨p, hp, hq1, hq2⟩
  · intro a b h g k p q hp hq c1 c2 f1 f2 s1 s2 g1 g2
    rw [hget] at hp hq
    have hkeep : ∀ {j : Nat} {p : Obj} {h : Nat}, j ≠ i → w.objs[j]? = some (some p) → p.hs[0]? = some (some h) →
        H1 j 0 = some h ∧ w1.handles[h]? = w.handles[h]? := fun {j p h} hne hp hh => by
      have hs : slotOf w j 0 = some h := by rw [slotOf_live hp, hh]; rfl
      exact ⟨by rw [hf.slot j 0 hne]; exact hs, hf.hand j 0 h hne hs⟩
    by_cases e : a = i
    · by_cases e2 : b = i
      · rw [e, e2]
      · rw [if_pos e] at hp
        rw [if_neg e2] at hq
        cases hp
        exact absurd g2 (h8 c1 f1 h k s1 g1 b 0 g e2 (hkeep e2 hq s2).1)
    · rw [if_neg e] at hp
      by_cases e2 : b = i
      · rw [if_pos e2] at hq
        cases hq
        exact absurd g1 (h8 c2 f2 g k s2 g2 a 0 h e (hkeep e hp s1).1)
      · rw [if_neg e2] at hq
        refine hi.fst a b h g k p q hp hq c1 c2 f1 f2 s1 s2 ?_ ?_
        · rw [← (hkeep e hp s1).2]; exact g1
        · rw [← (hkeep e2 hq s2).2]; exact g2
  · intro j p hp hn hpl
    rw [hget] at hp
    by_cases e : j = i
    · subst e; rw [if_pos rfl] at hp; cases hp; exact h9 hn hpl
    · rw [if_neg e] at hp; rw [h6 j e] at hn; exact hi.idle j p hp hn hpl

/-- The same object, nothing changes for the handles. -/
theorem finish0 {w f cs} (hi : Inv L w f cs) {i : Nat} {o : Obj} (ho : w.objs[i]? = some (some o)) {w1 : W}
    (hc : Core L w1 (slotOf w) (viewOf w) (kdOf w))
    (hf : Frame (fun a _ => a = i) (fun a => a = i) w (slotOf w) (viewOf w) w1 (slotOf w) (viewOf w))
    (hh : w1.handles = w.handles)
    (o' : Obj) (h1 : o'.cls = o.cls) (h2 : o'.hs = o.hs) (h3 : 0 < o'.cnt → o'.cls = .mutex ∧ ∃ h, o'.hs = [some h])
    (h5 : o'.view = o.view) (hm0 : o.cls ≠ .mem) : Inv L (setObj w1 i o') f cs := by
  refine finish hi ho hc hf o' h1 (by rw [h2]; exact hi.len i o ho) h3 (fun s => by rw [h2]; exact slotOf_live ho s)
    (by rw [h5]; exact viewOf_live ho) f (fun _ _ => rfl) (fun m hm => ?_)
    (fun e => absurd (h1.symm.trans e) hm0) (fun hn hpl => by rw [h2]; exact hi.idle i o ho hn (by rw [← h1]; exact hpl))
  obtain ⟨p, hp, hp1, hp2⟩ := hi.made i m hm
  rw [ho] at hp
  cases hp
  refine ⟨⟨h1.trans hp1.1, fun s hs => ?_⟩, fun hc => ?_⟩
  · obtain ⟨h, k, ob, e1, e2, e3, e4⟩ := hp1.2 s hs
    obtain ⟨ob', e5, e6, _⟩ := hf.kobj k ob e3
    exact ⟨h, k, ob', by rw [h2]; exact e1, by rw [hh]; exact e2, e5, e6.trans e4⟩
  · exact absurd (hp1.1.trans hc) hm0

/-- The end of the destructor. -/
theorem finish_gone {w f cs} (hi : Inv L w f cs) {i : Nat} {o : Obj} (ho : w.objs[i]? = some (some o)) {w1 : W} {H1 V1}
    (hc : Core L w1 H1 V1 (kdOf w)) (hf : Frame (fun a _ => a = i) (fun a => a = i) w (slotOf w) (viewOf w) w1 H1 V1)
    (h4 : ∀ s, H1 i s = none) (h5 : V1 i = none) (f' : Nat → Option Made) (h6 : ∀ j, j ≠ i → f' j = f j)
    (h7 : f' i = none) : Inv L { w1 with objs := w1.objs.set i none } f' (cs.set i none) := by
  have hget : ∀ j : Nat, (w1.objs.set i none)[j]? = if j = i then some none else w.objs[j]? := fun j => by
    rw [hf.objs]
    exact set_objs_get ho
  have hS : slotOf { w1 with objs := w1.objs.set i none } = H1 := by
    funext j s
    unfold slotOf
    dsimp only
    rw [hget]
    by_cases e : j = i
    · subst e; rw [if_pos rfl]; exact (h4 s).symm
    · rw [if_neg e, hf.slot j s e]; rfl
  have hV : viewOf { w1 with objs := w1.objs.set i none } = V1 := by
    funext j
    unfold viewOf
    dsimp only
    rw [hget]
    by_cases e : j = i
    · subst e; rw [if_pos rfl]; exact h5.symm
    · rw [if_neg e, hf.view j e]; rfl
  have hK : ∀ j s h, H1 j s = some h → kdOf { w1 with objs := w1.objs.set i none } j s = kdOf w j s := by
    intro j s h e1
    unfold kdOf
    dsimp only
    rw [hget]
    by_cases e : j = i
    · subst e; rw [h4] at e1; cases e1
    · rw [if_neg e]
  constructor
  · rw [hS, hV]
    exact ⟨hc.st, hc.inj, hc.own, hc.vst, hc.vinj, hc.vown, hc.ok, fun a b c d e e' => by rw [hK a b c e]; exact hc.kinds a b c d e e',
      hc.uniq, hc.priv, hc.vkd⟩
  · rw [← hi.cls]
    show (w1.objs.set i none).map _ = _
    rw [hf.objs, List.map_set]
    rfl
  · intro j p hp
    have hp : (w1.objs.set i none)[j]? = some (some p) := hp
    rw [hget] at hp
    by_cases e : j = i
    · subst e; rw [if_pos rfl] at hp; cases hp
    · rw [if_neg e] at hp; exact hi.len j p hp
  · intro j p hp
    have hp : (w1.objs.set i none)[j]? = some (some p) := hp
    rw [hget] at hp
    by_cases e : j = i
    · subst e; rw [if_pos rfl] at hp; cases hp
    · rw [if_neg e] at hp; exact hi.cnt j p hp
  · intro j m hm
    show ∃ o, (w1.objs.set i none)[j]? = some (some o) ∧ _
    rw [hget]
    by_cases e : j = i
    · subst e
      rw [h7] at hm
      cases hm
    · rw [if_neg e]
      rw [h6 j e] at hm
      obtain ⟨p, hp, hp1, hp2⟩ := hi.made j m hm
      have hq1 : MadeAt w1 p m := hp1.frame hf e (fun s => slotOf_live hp s)
      have hq2 : MemAt w1 p m := hp2.frame hf e (viewOf_live hp) (fun s => slotOf_live hp s)
      exact ⟨p, hp, hq1, hq2⟩
  · intro a b h g k p q hp hq c1 c2 f1 f2 s1 s2 g1 g2
    have hp : (w1.objs.set i none)[a]? = some (some p) := hp
    have hq : (w1.objs.set i none)[b]? = some (some q) := hq
    rw [hget] at hp hq
    have hkeep : ∀ {j : Nat} {p : Obj} {h : Nat}, j ≠ i → w.objs[j]? = some (some p) → p.hs[0]? = some (some h) →
        w1.handles[h]? = w.handles[h]? := fun {j p h} hne hp hh =>
      hf.hand j 0 h hne (by rw [slotOf_live hp, hh]; rfl)
    by_cases e : a = i
    · rw [if_pos e] at hp; cases hp
    · by_cases e2 : b = i
      · rw [if_pos e2] at hq; cases hq
      · rw [if_neg e] at hp
        rw [if_neg e2] at hq
        refine hi.fst a b h g k p q hp hq c1 c2 f1 f2 s1 s2 ?_ ?_
        · rw [← hkeep e hp s1]; exact g1
        · rw [← hkeep e2 hq s2]; exact g2
  · intro j p hp hn hpl
    have hp : (w1.objs.set i none)[j]? = some (some p) := hp
    rw [hget] at hp
    by_cases e : j = i
    · rw [if_pos e] at hp; cases hp
    · rw [if_neg e] at hp; rw [h6 j e] at hn; exact hi.idle j p hp hn hpl

theorem inv_construct {w f cs} (hi : Inv L w f cs) (c : Cls) : Inv L (construct w c) f (cs ++ [some c]) := by
  have hnew : ∀ s : Nat, ((List.replicate c.slots (none : Option Nat))[s]?).join = none := by
    intro s
    rw [List.getElem?_replicate]
    split <;> rfl
  have hget : ∀ j : Nat, (construct w c).objs[j]? = if j = w.objs.length then some (some ⟨c, List.replicate c.slots none, none, false, 0, none, 0⟩)
      else w.objs[j]? := by
    intro j
    show (w.objs ++ [_])[j]? = _
    rw [List.getElem?_append]
    by_cases e : j < w.objs.length
    · rw [if_pos e, if_neg (by omega)]
    · rw [if_neg e]
      by_cases e2 : j = w.objs.length
      · subst e2; simp
      · rw [if_neg e2, List.getElem?_eq_none (by simp; omega), List.getElem?_eq_none (by omega)]
  have hold : ∀ (j : Nat) (p : Option Obj), w.objs[j]? = some p → j ≠ w.objs.length := fun j p e e' => by
    subst e'; exact absurd (lt_of_some e) (Nat.lt_irrefl _)
  have hS : slotOf (construct w c) = slotOf w := by
    funext j s
    unfold slotOf
    rw [hget]
    by_cases e : j = w.objs.length
    · subst e; rw [if_pos rfl]; simp only [hnew]; simp
    · rw [if_neg e]
  have hV : viewOf (construct w c) = viewOf w := by
    funext j
    unfold viewOf
    rw [hget]
    by_cases e : j = w.objs.length
    · subst e; rw [if_pos rfl]; simp
    · rw [if_neg e]
  have hK : ∀ j s h, slotOf w j s = some h → kdOf (construct w c) j s = kdOf w j s := by
    intro j s h e1
    unfold kdOf
    rw [hget]
    by_cases e : j = w.objs.length
    · subst e; unfold slotOf at e1; simp at e1
    · rw [if_neg e]
  have hc := hi.core
  constructor
  · rw [hS, hV]
    exact ⟨hc.st, hc.inj, hc.own, hc.vst, hc.vinj, hc.vown, hc.ok, fun a b c d e e' => by rw [hK a b c e]; exact hc.kinds a b c d e e',
      hc.uniq, hc.priv, hc.vkd⟩
  · show (w.objs ++ [_]).map _ = _
    rw [List.map_append, hi.cls]; rfl
  · intro j p hp
    rw [hget] at hp
    split at hp
    · cases hp; simp
    · exact hi.len j p hp
  · intro j p hp h0
    rw [hget] at hp
    split at hp
    · cases hp; cases h0
    · exact hi.cnt j p hp h0
  · intro j m hm
    obtain ⟨p, hp, hp1, hp2⟩ := hi.made j m hm
    exact ⟨p, by rw [hget, if_neg (hold j _ hp)]; exact hp, hp1, hp2⟩
  · intro a b h g k p q hp hq c1 c2 f1 f2 s1 s2 g1 g2
    rw [hget] at hp hq
    split at hp
    · cases hp; cases f1
    · split at hq
      · cases hq; cases f2
      · exact hi.fst a b h g k p q hp hq c1 c2 f1 f2 s1 s2 g1 g2
  · intro j p hp hn hpl
    rw [hget] at hp
    split at hp
    · cases hp
      rcases hpl with e | e | e | ⟨e, _⟩ <;> (dsimp only at e; subst e; simp [Cls.slots])
    · exact hi.idle j p hp hn hpl

end Verif.WinSync
