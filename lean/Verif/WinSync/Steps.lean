import Verif.WinSync.Lemmas

/-!
# What each call does to the accounts
-/

namespace Verif.WinSync
open Spec

variable {L : Prop}

theorem Core.blk {w H V kd} (hc : Core L w H V kd) (b : Nat) : Core L { w with blocks := b } H V kd :=
  ⟨hc.st, hc.inj, hc.own, hc.vst, hc.vinj, hc.vown, hc.ok, hc.kinds, hc.uniq, hc.priv, hc.vkd⟩

theorem Frame.blk {P Q w H V w' H' V'} (hf : Frame P Q w H V w' H' V') (b : Nat) : Frame P Q w H V { w' with blocks := b } H' V' :=
  ⟨hf.slot, hf.hand, hf.view, hf.vhand, hf.kobj, hf.objs⟩

/-- The object after `Create`, and what is known then. -/
def redo (f : Nat → Option Made) (i : Nat) (c : Cls) (name : Option Str) (size : Nat) (r : Bool) : Nat → Option Made :=
  fun j => if j = i then (if r then some ⟨c, name, size⟩ else none) else f j

theorem redo_self (f : Nat → Option Made) {i : Nat} {c : Cls} {name : Option Str} {size : Nat} {r : Bool} {m : Made}
    (h : redo f i c name size r i = some m) : r = true ∧ m = ⟨c, name, size⟩ := by
  unfold redo at h
  rw [if_pos rfl] at h
  split at h
  · rename_i e; cases h; exact ⟨e, rfl⟩
  · cases h

theorem redo_none (f : Nat → Option Made) {i : Nat} {c : Cls} {name : Option Str} {size : Nat} {r : Bool}
    (h : redo f i c name size r i = none) : r = false := by
  unfold redo at h
  rw [if_pos rfl] at h
  split at h
  · cases h
  · rename_i e; simpa using e

theorem redo_ne (f : Nat → Option Made) {i j : Nat} (c : Cls) (name : Option Str) (size : Nat) (r : Bool) (h : j ≠ i) :
    redo f i c name size r j = f j := if_neg h

theorem one {x : Option Nat} (s : Nat) : ([x][s]?).join = if s = 0 then x else none := by
  cases s with
  | zero => rfl
  | succ n => simp

theorem slot_iff {w : W} {i s h : Nat} : Slot w i s h ↔ slotOf w i s = some h := by
  unfold Slot slotOf
  constructor
  · rintro ⟨o, h1, h2⟩; rw [h1]; dsimp only; rw [h2]; rfl
  · intro e
    split at e
    · rename_i o ho
      refine ⟨o, ho, ?_⟩
      cases e2 : o.hs[s]? with
      | none => rw [e2] at e; cases e
      | some x => rw [e2] at e; cases x with
        | none => cases e
        | some y => cases e; rfl
    · cases e

/-- Creating for the only place of an object, which is empty now. -/
theorem create1 {w f cs} (hi : Inv L w f cs) {i : Nat} {o : Obj} (ho : w.objs[i]? = some (some o)) {w1 : W} {H1}
    (hc : Core L w1 H1 (viewOf w) (kdOf w)) (hf : Frame (fun a _ => a = i) (fun a => a = i) w (slotOf w) (viewOf w) w1 H1 (viewOf w))
    (he : ∀ s, H1 i s = none) (h1 : o.cls.slots = 1) {st : KSt} (hk : kindOf o.cls 0 = st.kind) (hm : o.cls ≠ .mem)
    (hkey : ∀ n, key o.cls 0 n 0 = n) (o' : Obj) (ho1 : o'.cls = o.cls) (ho2 : o'.view = o.view) (ho3 : o'.cnt = 0)
    (name : Option Str) (fails : Bool) :
    Inv L (setObj (kcreate w1 name st fails).1 i { o' with hs := [(kcreate w1 name st fails).2] })
      (redo f i o.cls name 0 (kcreate w1 name st fails).2.isSome) cs ∧
    Calm w (kcreate w1 name st fails).1 ∧ (kcreate w1 name st fails).1.blocks = w1.blocks ∧
    ((kcreate w1 name st fails).2.isSome = true → st.kind ≠ 2 → st.kind ≠ 3 →
      Opened w (setObj (kcreate w1 name st fails).1 i { o' with hs := [(kcreate w1 name st fails).2] }) i name st) := by
  have hm1 := kcreate_core hc (he 0) name (show kdOf w i 0 = st.kind by rw [kdOf_live ho]; exact hk) fails
  have hf2 := hf.trans (hm1.frame.mono (P' := fun a _ => a = i) (Q' := fun a => a = i) (fun _ _ h => h.1) (fun _ h => h.elim))
  refine ⟨?_, hf2.calm, hm1.blocks, fun hsome k2 k3 => ?_⟩
  rotate_left
  · obtain ⟨h, e2⟩ := Option.isSome_iff_exists.1 hsome
    obtain ⟨k, ob, g1, g2, g3, g4, g5⟩ := hm1.got h e2
    refine ⟨k, ⟨h, ⟨{ o' with hs := [(kcreate w1 name st fails).2] }, ?_, by rw [e2]; rfl⟩, g1⟩, ?_⟩
    · show ((kcreate w1 name st fails).1.objs.set i _)[i]? = _
      rw [hf2.objs, set_objs_get ho, if_pos rfl]
    rcases g5 with ⟨g5, g6⟩ | ⟨g5, g6⟩
    · have hkd : kindAt w1 k = some st.kind := by unfold kindAt; rw [g5]; exact congrArg some g4
      have hown : ∃ j u g, H1 j u = some g ∧ w1.handles[g]? = some (some k) := by
        rcases alive_iff.1 g6 with ⟨g, e⟩ | ⟨v, e⟩
        · rcases hc.own g k e with ⟨j, u, e3⟩ | ⟨_, e3⟩
          · exact ⟨j, u, g, e3, e⟩
          · rw [hkd] at e3; exact absurd (Option.some.inj e3) k3
        · have := hc.vkd v k e
          rw [hkd] at this; exact absurd (Option.some.inj this) k2
      obtain ⟨j, u, g, e3, e4⟩ := hown
      have hj : j ≠ i := by rintro rfl; rw [he] at e3; cases e3
      have e5 : slotOf w j u = some g := by rw [← hf.slot j u hj]; exact e3
      have e6 : w.handles[g]? = some (some k) := by rw [← hf.hand j u g hj e5]; exact e4
      refine .inl ⟨j, u, hj, ⟨g, slot_iff.2 e5, e6⟩, ?_⟩
      have h7 := hi.core.ok k (alive_handle e6)
      obtain ⟨x, hx⟩ : ∃ x, w.kobjs[k]? = some x := ⟨_, List.getElem?_eq_getElem h7⟩
      obtain ⟨x', q1, q2, q3, q4⟩ := hf.kobj k x hx
      rw [g5] at q1
      cases q1
      rcases q4 with q4 | q4
      · rw [← q3, g4] at q4; exact absurd q4 k3
      · rw [hx, ← q4]; exact g2
    · refine .inr ⟨fun j u hr => ?_, ?_⟩
      · obtain ⟨g, _, e6⟩ := hr
        have h7 := hi.core.ok k (alive_handle e6)
        obtain ⟨x', q1, _⟩ := hf.kobj k _ (List.getElem?_eq_getElem h7)
        have := lt_of_some q1
        omega
      · show (kcreate w1 name st fails).1.kobjs[k]? = _
        rw [g2, ← g3, ← g6]
  refine finish hi ho hm1.core hf2 { o' with hs := [(kcreate w1 name st fails).2] } ho1 h1.symm (fun h => by rw [ho3] at h; cases h) (fun s => ?_)
    (by rw [viewOf_live ho]; exact ho2.symm) _ (fun j hj => redo_ne f _ _ _ _ hj) (fun m hm' => ?_)
    (fun e => absurd (ho1.symm.trans e) hm) (fun e _ => ?_)
  · rw [one]
    by_cases e : s = 0
    · subst e; rw [upd_self]; rfl
    · rw [upd_ne _ (fun h => e h.2), if_neg e]; exact he s
  · obtain ⟨e1, rfl⟩ := redo_self f hm'
    refine ⟨⟨ho1, fun s hs => ?_⟩, fun e => absurd e hm⟩
    have hs0 : s = 0 := by rw [h1] at hs; omega
    subst hs0
    obtain ⟨h, e2⟩ := Option.isSome_iff_exists.1 e1
    obtain ⟨k, ob, g1, g2, g3, _⟩ := hm1.got h e2
    refine ⟨h, k, ob, by rw [e2]; rfl, g1, g2, ?_⟩
    rw [g3]
    cases name with
    | none => rfl
    | some n => exact congrArg some (hkey n).symm
  · have := redo_none f e
    show none ∈ [(kcreate w1 name st fails).2]
    cases e3 : (kcreate w1 name st fails).2 with
    | none => exact List.mem_singleton_self _
    | some x => rw [e3] at this; cases this

theorem closeAll_live {w f cs} (hi : Inv L w f cs) {i : Nat} {o : Obj} (ho : w.objs[i]? = some (some o)) :
    ∃ w', closeAll w o.hs = .ok w' ∧ Core L w' (clear (slotOf w) i) (viewOf w) (kdOf w) ∧
      Frame (fun j _ => j = i) (fun _ => False) w (slotOf w) (viewOf w) w' (clear (slotOf w) i) (viewOf w) ∧ w'.blocks = w.blocks :=
  closeAll_core o.hs 0 w (slotOf w) hi.core (fun s => by rw [Nat.zero_add]; exact slotOf_live ho s) (fun _ h => nomatch h)

theorem clear_self (H : Nat → Nat → Option Nat) (i s : Nat) : clear H i i s = none := if_pos rfl

theorem semCreate_ok {w f cs} (hi : Inv L w f cs) {i : Nat} (hl : cs[i]? = some (some .sem)) (name : Option Str) (val : Int) (fails : Bool) :
    ∃ r w', semCreate w i name val fails = .ok (r, w') ∧ Inv L w' (redo f i .sem name 0 r) cs ∧ Calm w w' ∧ w'.blocks = w.blocks ∧
      (r = true → Opened w w' i name (.sem val.toNat val.toNat)) := by
  obtain ⟨o, ho, hcl⟩ := hi.obj hl
  obtain ⟨w1, e1, c1, f1, b1⟩ := closeAll_live hi ho
  have h0 : o.cnt = 0 := by
    by_cases h : 0 < o.cnt
    · have := (hi.cnt i o ho h).1; rw [hcl] at this; cases this
    · omega
  obtain ⟨g1, g2, g3, g4⟩ := create1 hi ho c1 (f1.mono (fun _ _ h => h) (fun _ h => h.elim)) (clear_self _ i) (by rw [hcl]; rfl)
    (st := .sem val.toNat val.toNat) (by rw [hcl]; rfl) (by rw [hcl]; exact fun e => nomatch e) (by rw [hcl]; exact fun _ => rfl)
    o rfl rfl h0 name (fails || decide (val ≤ 0))
  rw [hcl] at g1 g4
  refine ⟨_, _, ?_, g1, g2, g3.trans b1, fun e => g4 e (fun h => nomatch h) (fun h => nomatch h)⟩
  unfold semCreate
  rw [getObj_ok ho, ok_bind, e1, ok_bind, ← hcl]

theorem evCreate_ok {w f cs} (hi : Inv L w f cs) {i : Nat} (hl : cs[i]? = some (some .event)) (name : Option Str)
    (manual prefire fails : Bool) :
    ∃ r w', evCreate w i name manual prefire fails = .ok (r, w') ∧ Inv L w' (redo f i .event name 0 r) cs ∧ Calm w w' ∧
      w'.blocks = w.blocks ∧ (r = true → Opened w w' i name (.event manual prefire)) := by
  obtain ⟨o, ho, hcl⟩ := hi.obj hl
  obtain ⟨w1, e1, c1, f1, b1⟩ := closeAll_live hi ho
  have h0 : o.cnt = 0 := by
    by_cases h : 0 < o.cnt
    · have := (hi.cnt i o ho h).1; rw [hcl] at this; cases this
    · omega
  obtain ⟨g1, g2, g3, g4⟩ := create1 hi ho c1 (f1.mono (fun _ _ h => h) (fun _ h => h.elim)) (clear_self _ i) (by rw [hcl]; rfl)
    (st := .event manual prefire) (by rw [hcl]; rfl) (by rw [hcl]; exact fun e => nomatch e) (by rw [hcl]; exact fun _ => rfl)
    o rfl rfl h0 name fails
  rw [hcl] at g1 g4
  refine ⟨_, _, ?_, g1, g2, g3.trans b1, fun e => g4 e (fun h => nomatch h) (fun h => nomatch h)⟩
  unfold evCreate
  rw [getObj_ok ho, ok_bind, e1, ok_bind, ← hcl]

theorem rwName_ok (name : Option Str) (d : Nat) : rwName name d = .ok (name.map (fun n => n ++ rwSuffix d)) := by
  cases name with
  | none => rfl
  | some n =>
    unfold rwName fmt
    dsimp only
    rw [if_pos (by rw [List.length_append]; show n.length + 17 + 1 ≤ _; omega)]
    rfl

theorem four {a b c d : Option Nat} (s : Nat) : ([a, b, c, d][s]?).join = if s = 0 then a else if s = 1 then b else if s = 2 then c
    else if s = 3 then d else none := by
  match s with
  | 0 | 1 | 2 | 3 => rfl
  | n + 4 => simp

theorem four_none : ∀ {a b c d : Option Nat}, (a.isSome && b.isSome && c.isSome && d.isSome) = false → none ∈ [a, b, c, d]
  | none, _, _, _, _ => by simp
  | _, none, _, _, _ => by simp
  | _, _, none, _, _ => by simp
  | _, _, _, none, _ => by simp
  | some _, some _, some _, some _, h => nomatch h

/-- A place created earlier still is. -/
theorem Made1.keep {w H V kd i s name st r} (hm : Made1 L w H V kd i s name st r) {j u h k : Nat} {ob : KObj} (hne : ¬ (j = i ∧ u = s))
    (hh : H j u = some h) (hk : w.handles[h]? = some (some k)) (ho : w.kobjs[k]? = some ob) :
    ∃ ob', r.1.handles[h]? = some (some k) ∧ r.1.kobjs[k]? = some ob' ∧ ob'.name = ob.name := by
  obtain ⟨ob', e1, e2, _⟩ := hm.frame.kobj k ob ho
  exact ⟨ob', by rw [hm.frame.hand j u h hne hh]; exact hk, e1, e2⟩

theorem rwCreate_ok {w f cs} (hi : Inv L w f cs) {i : Nat} (hl : cs[i]? = some (some .rw)) (name : Option Str) (f0 f1 f2 f3 : Bool) :
    ∃ r w', rwCreate w i name f0 f1 f2 f3 = .ok (r, w') ∧ Inv L w' (redo f i .rw name 0 r) cs ∧ Calm w w' ∧ w'.blocks = w.blocks := by
  obtain ⟨o, ho, hcl⟩ := hi.obj hl
  obtain ⟨w0, e0, c0, g0, b0⟩ := closeAll_live hi ho
  have h0 : o.cnt = 0 := by
    by_cases h : 0 < o.cnt
    · have := (hi.cnt i o ho h).1; rw [hcl] at this; cases this
    · omega
  have hkd : ∀ s, kdOf w i s = if s = 2 then 1 else 0 := fun s => by rw [kdOf_live ho, hcl]; rfl
  generalize hb : w0.blocks + (if name.isSome then 1 else 0) = B
  have c0 := c0.blk B
  have m1 := kcreate_core c0 (s := 0) (clear_self _ i 0) (name.map (fun n => n ++ rwSuffix 0)) (st := .sem 1 1) (hkd 0) f0
  generalize h1 : kcreate { w0 with blocks := B } (name.map (fun n => n ++ rwSuffix 0)) (.sem 1 1) f0 = r1 at m1
  have m2 := kcreate_core m1.core (s := 1) (by rw [upd_ne _ (by omega)]; exact clear_self _ i 1) (name.map (fun n => n ++ rwSuffix 1))
    (st := .sem longMax longMax) (hkd 1) f1
  generalize h2 : kcreate r1.1 (name.map (fun n => n ++ rwSuffix 1)) (.sem longMax longMax) f1 = r2 at m2
  have m3 := kcreate_core m2.core (s := 2) (by rw [upd_ne _ (by omega), upd_ne _ (by omega)]; exact clear_self _ i 2)
    (name.map (fun n => n ++ rwSuffix 2)) (st := .event true true) (hkd 2) f2
  generalize h3 : kcreate r2.1 (name.map (fun n => n ++ rwSuffix 2)) (.event true true) f2 = r3 at m3
  have m4 := kcreate_core m3.core (s := 3) (by rw [upd_ne _ (by omega), upd_ne _ (by omega), upd_ne _ (by omega)]; exact clear_self _ i 3)
    (name.map (fun n => n ++ rwSuffix 3)) (st := .sem 1 1) (hkd 3) f3
  generalize h4 : kcreate r3.1 (name.map (fun n => n ++ rwSuffix 3)) (.sem 1 1) f3 = r4 at m4
  have mono : ∀ {s w H V w' H' V'}, Frame (fun j u => j = i ∧ u = s) (fun _ => False) w H V w' H' V' →
      Frame (fun a _ => a = i) (fun a => a = i) w H V w' H' V' := fun hf => hf.mono (fun _ _ h => h.1) (fun _ h => h.elim)
  have hF := (((((g0.blk B).mono (P' := fun a _ => a = i) (Q' := fun a => a = i) (fun _ _ h => h) (fun _ h => h.elim)).trans
    (mono m1.frame)).trans (mono m2.frame)).trans (mono m3.frame)).trans (mono m4.frame)
  generalize hB : r4.1.blocks - (if name.isSome then 1 else 0) = B2
  have hb2 : B2 = w.blocks := by
    rw [← hB, m4.blocks, m3.blocks, m2.blocks, m1.blocks, ← b0]
    show B - _ = _
    rw [← hb, Nat.add_sub_cancel]
  refine ⟨r1.2.isSome && r2.2.isSome && r3.2.isSome && r4.2.isSome,
    setObj { r4.1 with blocks := B2 } i { o with hs := [r1.2, r2.2, r3.2, r4.2] }, ?_, ?_, (hF.blk B2).calm, hb2⟩
  · unfold rwCreate
    rw [getObj_ok ho, ok_bind, e0, ok_bind]
    dsimp only
    rw [hb, rwName_ok, ok_bind, h1, rwName_ok, ok_bind, h2, rwName_ok, ok_bind, h3, rwName_ok, ok_bind, h4, hB]
  · refine finish hi ho (m4.core.blk B2) (hF.blk B2) { o with hs := [r1.2, r2.2, r3.2, r4.2] } rfl (by rw [hcl]; rfl) (fun h => by rw [h0] at h; cases h) (fun s => ?_)
      (by rw [viewOf_live ho]) _ (fun j hj => redo_ne f _ _ _ _ hj) (fun m hm' => ?_)
      (fun e => by rw [hcl] at e; cases e) (fun e _ => four_none (redo_none f e))
    · rw [four]
      unfold upd
      by_cases a0 : s = 0
      · simp [a0]
      · by_cases a1 : s = 1
        · simp [a1]
        · by_cases a2 : s = 2
          · simp [a2]
          · by_cases a3 : s = 3
            · simp [a3]
            · simp [a0, a1, a2, a3, clear]
    · obtain ⟨er, rfl⟩ := redo_self f hm'
      refine ⟨⟨hcl, fun s hs => ?_⟩, fun e => nomatch e⟩
      simp only [Bool.and_eq_true] at er
      obtain ⟨⟨⟨er1, er2⟩, er3⟩, er4⟩ := er
      have hname : ∀ d, name.map (fun n => key .rw d n 0) = name.map (fun n => n ++ rwSuffix d) := fun d => by cases name <;> rfl
      dsimp only
      rw [hname]
      obtain ⟨x1, y1⟩ := Option.isSome_iff_exists.1 er1
      obtain ⟨x2, y2⟩ := Option.isSome_iff_exists.1 er2
      obtain ⟨x3, y3⟩ := Option.isSome_iff_exists.1 er3
      obtain ⟨x4, y4⟩ := Option.isSome_iff_exists.1 er4
      have hs : s < 4 := hs
      match s, hs with
      | 0, _ =>
        obtain ⟨k, ob, z1, z2, z3, _⟩ := m1.got x1 y1
        obtain ⟨ob2, z1, z2', z4⟩ := m2.keep (j := i) (u := 0) (by omega) (by rw [upd_self]; exact y1) z1 z2
        obtain ⟨ob3, z1, z2'', z5⟩ := m3.keep (j := i) (u := 0) (by omega) (by rw [upd_ne _ (by omega), upd_self]; exact y1) z1 z2'
        obtain ⟨ob4, z1, z2''', z6⟩ := m4.keep (j := i) (u := 0) (by omega) (by rw [upd_ne _ (by omega), upd_ne _ (by omega), upd_self]; exact y1) z1 z2''
        exact ⟨x1, k, ob4, by rw [y1]; rfl, z1, z2''', by rw [z6, z5, z4, z3]⟩
      | 1, _ =>
        obtain ⟨k, ob, z1, z2, z3, _⟩ := m2.got x2 y2
        obtain ⟨ob3, z1, z2'', z5⟩ := m3.keep (j := i) (u := 1) (by omega) (by rw [upd_self]; exact y2) z1 z2
        obtain ⟨ob4, z1, z2''', z6⟩ := m4.keep (j := i) (u := 1) (by omega) (by rw [upd_ne _ (by omega), upd_self]; exact y2) z1 z2''
        exact ⟨x2, k, ob4, by rw [y2]; rfl, z1, z2''', by rw [z6, z5, z3]⟩
      | 2, _ =>
        obtain ⟨k, ob, z1, z2, z3, _⟩ := m3.got x3 y3
        obtain ⟨ob4, z1, z2''', z6⟩ := m4.keep (j := i) (u := 2) (by omega) (by rw [upd_self]; exact y3) z1 z2
        exact ⟨x3, k, ob4, by rw [y3]; rfl, z1, z2''', by rw [z6, z3]⟩
      | 3, _ =>
        obtain ⟨k, ob, z1, z2, z3, _⟩ := m4.got x4 y4
        exact ⟨x4, k, ob, by rw [y4]; rfl, z1, z2, z3⟩

/-! ## SharedMem -/

theorem decimal_short : ∀ (d n : Nat), 0 < d → n < 10 ^ d → (ShmName.decimal n).length ≤ d
  | 0, n, h0, _ => by omega
  | d + 1, n, _, h => by
    rw [ShmName.decimal]
    split
    · simp
    · rename_i hn
      rw [List.length_append, List.length_singleton]
      have hd : 0 < d := by
        by_cases e : d = 0
        · subst e; omega
        · omega
      have := decimal_short d (n / 10) hd (by rw [Nat.div_lt_iff_lt_mul (by omega)]; rw [Nat.pow_succ] at h; exact h)
      omega

theorem fmt_mem (n : Str) (size : Nat) : fmt (n.length + 30) (memText n size) = .ok (memText n size) := by
  unfold fmt
  rw [if_pos]
  unfold memText
  have h1 : size % 4294967296 < 10 ^ 10 := by
    have := Nat.mod_lt size (show 0 < 4294967296 by decide)
    omega
  have := decimal_short 10 (size % 4294967296) (by decide) h1
  simp only [List.length_append, List.length_cons, List.length_nil]
  omega

/-- The end of `SharedMem::Create`. -/
theorem memMap_ok {w f cs} (hi : Inv L w f cs) {i : Nat} {o : Obj} (ho : w.objs[i]? = some (some o)) (hcl : o.cls = .mem) {w1 : W} {H1 V1}
    (hc : Core L w1 H1 V1 (kdOf w)) (hf : Frame (fun a _ => a = i) (fun a => a = i) w (slotOf w) (viewOf w) w1 H1 V1)
    {h k size : Nat} {ob : KObj} {n : Str} (h4 : ∀ s, H1 i s = if s = 0 then some h else none) (h5 : V1 i = none)
    (g1 : w1.handles[h]? = some (some k)) (g2 : w1.kobjs[k]? = some ob) (g3 : ob.name = some (memText n size)) (hb : w1.blocks = w.blocks + 1)
    (first fails : Bool) (hfr : first = true → ∀ j u g, j ≠ i → H1 j u = some g → w1.handles[g]? ≠ some (some k)) :
    ∃ r w', memMap w1 i o first h size fails = .ok (r, w') ∧ Inv L w' (redo f i .mem (some n) size r) cs ∧ Calm w w' ∧ w'.blocks = w.blocks ∧
      ∃ o', w'.objs[i]? = some (some o') ∧ o'.first = first ∧ (r = false → o'.view = none ∧ o'.size = o.size) := by
  have h0 : o.cnt = 0 := by
    by_cases h : 0 < o.cnt
    · have := (hi.cnt i o ho h).1; rw [hcl] at this; cases this
    · omega
  have hb' : w1.blocks - 1 = w.blocks := by omega
  have hpl : ∀ {P : Prop} {x : List (Option Nat)}, P → Plain L o.cls → none ∈ x := fun _ e => by
    rw [hcl] at e; rcases e with e | e | e | ⟨e, _⟩ <;> cases e
  have hfst : o.cls = .mem → first = true → ∀ h' k' : Nat, [some h][0]? = some (some h') → w1.handles[h']? = some (some k') →
      ∀ j u g, j ≠ i → H1 j u = some g → w1.handles[g]? ≠ some (some k') := by
    intro _ hft h' k' e1 e2
    cases e1
    rw [g1] at e2
    cases e2
    exact hfr hft
  have hgot : ∀ (w2 : W) (o' : Obj), w2.objs = w1.objs → (setObj w2 i o').objs[i]? = some (some o') := fun w2 o' e => by
    show (w2.objs.set i _)[i]? = _
    rw [e, hf.objs, set_objs_get ho, if_pos rfl]
  unfold memMap
  dsimp only
  rw [show handle { w1 with blocks := w1.blocks - 1 } h = .ok k from by unfold handle; rw [g1], ok_bind]
  unfold map
  rw [show kstate { w1 with blocks := w1.blocks - 1 } k = .ok ob.st from by unfold kstate; dsimp only; rw [g2], ok_bind]
  have hno : ∃ r w', (Except.ok (false, setObj { w1 with blocks := w1.blocks - 1 } i { o with hs := [some h], view := none, first := first })
        : CRes (Bool × W)) = .ok (r, w') ∧ Inv L w' (redo f i .mem (some n) size r) cs ∧ Calm w w' ∧ w'.blocks = w.blocks ∧
      ∃ o', w'.objs[i]? = some (some o') ∧ o'.first = first ∧ (r = false → o'.view = none ∧ o'.size = o.size) := by
    refine ⟨_, _, rfl, ?_, (hf.blk (w1.blocks - 1)).calm, hb', _, hgot _ _ rfl, rfl, fun _ => ⟨rfl, rfl⟩⟩
    refine finish hi ho (hc.blk (w1.blocks - 1)) (hf.blk (w1.blocks - 1)) { o with hs := [some h], view := none, first := first } rfl (by rw [hcl]; rfl) (fun h => by rw [h0] at h; cases h) (fun s => ?_) h5 _
      (fun j hj => redo_ne f _ _ _ _ hj) (fun m hm' => ?_) hfst hpl
    · rw [h4, one]
    · have := (redo_self f hm').1
      cases this
  cases hst : ob.st with
  | mapping bytes =>
    dsimp only
    split
    · rename_i hfit
      rw [ok_bind]
      dsimp only
      obtain ⟨m1, m2⟩ := map_core (hc.blk (w1.blocks - 1)) (i := i) (k := k) h5 (alive_handle g1) (by
        show (w1.kobjs[k]?).map _ = _
        rw [g2]; show some ob.st.kind = _; rw [hst]; rfl)
      have hF := (hf.blk (w1.blocks - 1)).trans (m2.mono (P' := fun a _ => a = i) (Q' := fun a => a = i) (fun _ _ h => h.elim) (fun _ h => h))
      refine ⟨_, _, rfl, ?_, hF.calm, hb', _, hgot _ _ rfl, rfl, fun e => nomatch e⟩
      refine finish hi ho m1 hF { o with hs := [some h], view := some w1.views.length, first := first, size := size } rfl (by rw [hcl]; rfl) (fun h => by rw [h0] at h; cases h) (fun s => ?_) (if_pos rfl) _
        (fun j hj => redo_ne f _ _ _ _ hj) (fun m hm' => ?_) hfst hpl
      · rw [h4, one]
      · obtain ⟨_, rfl⟩ := redo_self f hm'
        refine ⟨⟨hcl, fun s hs => ?_⟩, fun _ => ?_⟩
        · have hs0 : s = 0 := by have : s < 1 := hs; omega
          subst hs0
          exact ⟨h, k, ob, rfl, g1, g2, g3⟩
        · exact ⟨w1.views.length, k, ob, bytes, h, rfl, app_get.2 (.inl ⟨rfl, rfl⟩), g2, hst, hfit.2, rfl, rfl, g1⟩
    · rw [ok_bind]; exact hno
  | sem a b => rw [ok_bind]; exact hno
  | event a b => rw [ok_bind]; exact hno
  | mutex a b => rw [ok_bind]; exact hno

theorem memCreate_ok {w f cs} (hi : Inv L w f cs) {i : Nat} (hl : cs[i]? = some (some .mem)) (name : Option Str) (size : Nat) (f0 f1 f2 : Bool) :
    ∃ r w', memCreate w i name size f0 f1 f2 = .ok (r, w') ∧
      Inv L w' (match name with | none => f | some n => redo f i .mem (some n) size r) cs ∧ Calm w w' ∧
      (w'.blocks = w.blocks ∨ (w'.blocks = w.blocks + 1 ∧ r = false)) ∧ (name = none → w' = w ∧ r = false) := by
  obtain ⟨o, ho, hcl⟩ := hi.obj hl
  have h0 : o.cnt = 0 := by
    by_cases h : 0 < o.cnt
    · have := (hi.cnt i o ho h).1; rw [hcl] at this; cases this
    · omega
  cases name with
  | none =>
    exact ⟨false, w, by unfold memCreate; rw [getObj_ok ho, ok_bind], hi, fun _ _ h _ => h, .inl rfl, fun _ => ⟨rfl, rfl⟩⟩
  | some n =>
    obtain ⟨w1, e1, c1, g1, b1⟩ := unmap_core hi.core i
    rw [viewOf_live ho] at e1
    have hobj : w1.objs[i]? = some (some o) := by rw [g1.objs]; exact ho
    obtain ⟨w2, e2, c2, g2, b2⟩ := closeAll_core o.hs 0 w1 (slotOf w) c1
      (fun s => by rw [Nat.zero_add]; exact slotOf_live ho s) (fun _ h => nomatch h)
    generalize hV : (fun j => if j = i then none else viewOf w j) = V2 at c1 g1 c2 g2
    have hV0 : V2 i = none := by rw [← hV]; exact if_pos rfl
    have hF := (g1.mono (P' := fun a _ => a = i) (Q' := fun a => a = i) (fun _ _ h => h.elim) (fun _ h => h)).trans
      ((g2.blk (w2.blocks + 1)).mono (P' := fun a _ => a = i) (Q' := fun a => a = i) (fun _ _ h => h) (fun _ h => h.elim))
    have c3 := c2.blk (w2.blocks + 1)
    have hkd : kdOf w i 0 = 2 := by rw [kdOf_live ho, hcl]; rfl
    have hbl : w2.blocks + 1 = w.blocks + 1 := by rw [b2, b1]
    have hup : ∀ (x : Option Nat) (s : Nat), upd (clear (slotOf w) i) i 0 x i s = if s = 0 then x else none := by
      intro x s
      unfold upd
      by_cases e : s = 0
      · simp [e]
      · simp [e, clear]
    have mono : ∀ {s w H V w' H' V'}, Frame (fun j u => j = i ∧ u = s) (fun _ => False) w H V w' H' V' →
        Frame (fun a _ => a = i) (fun a => a = i) w H V w' H' V' := fun hf => hf.mono (fun _ _ h => h.1) (fun _ h => h.elim)
    unfold memCreate
    rw [getObj_ok ho, ok_bind]
    dsimp only
    rw [e1, ok_bind, e2, ok_bind, fmt_mem, ok_bind]
    have m1 := kcreate_core c3 (s := 0) (clear_self _ i 0) (some (memText n size)) (st := .mapping (size % 4294967296)) hkd
      (f0 || decide (size % 4294967296 = 0))
    generalize hr1 : kcreate { w2 with blocks := w2.blocks + 1 } (some (memText n size)) (.mapping (size % 4294967296))
      (f0 || decide (size % 4294967296 = 0)) = r1 at m1
    obtain ⟨w3, x⟩ := r1
    cases x with
    | some h =>
      dsimp only
      obtain ⟨k, ob, z1, z2, z3, _, z4⟩ := m1.got h rfl
      obtain ⟨r, w', q1, q2, q3, q4, _⟩ := memMap_ok hi ho hcl m1.core (hF.trans (mono m1.frame)) (hup (some h)) hV0 z1 z2 z3
        (m1.blocks.trans hbl) (!(find { w2 with blocks := w2.blocks + 1 } (memText n size)).isSome) f2 (fun hn j u g hj hg e => by
          have hn : find { w2 with blocks := w2.blocks + 1 } (memText n size) = none := by simpa using hn
          rcases z4 with ⟨z5, z6⟩ | ⟨z5, _⟩
          · exact absurd z3 (find_none hn z6 z5)
          · rw [upd_ne _ (fun e => hj e.1)] at hg
            have hne : ¬ (j = i ∧ u = 0) := fun e => hj e.1
            rw [m1.frame.hand j u g hne hg] at e
            have := c3.ok k (alive_handle e)
            omega)
      exact ⟨r, w', q1, q2, q3, .inl q4, fun e => nomatch e⟩
    | none =>
      have m1c : Core L w3 (clear (slotOf w) i) V2 (kdOf w) := by
        have := m1.core
        rwa [upd_none (clear_self _ i 0)] at this
      have m1f : Frame (fun j u => j = i ∧ u = 0) (fun _ => False) { w2 with blocks := w2.blocks + 1 } (clear (slotOf w) i) V2 w3
          (clear (slotOf w) i) V2 := by
        have := m1.frame
        rwa [upd_none (clear_self _ i 0)] at this
      have m2 : Made1 L w3 (clear (slotOf w) i) V2 (kdOf w) i 0 (some (memText n size)) (.mapping 0)
          (if f1 then (w3, none) else kopen w3 (memText n size) 2) := by
        split
        · exact made1_none m1c (clear_self _ i 0) _ _
        · exact kopen_core m1c (clear_self _ i 0) (st := .mapping 0) hkd
      dsimp only
      generalize hr2 : (if f1 then (w3, none) else kopen w3 (memText n size) 2) = r2 at m2
      obtain ⟨w4, y⟩ := r2
      cases y with
      | some h =>
        dsimp only
        obtain ⟨k, ob, z1, z2, z3, _⟩ := m2.got h rfl
        obtain ⟨r, w', q1, q2, q3, q4, _⟩ := memMap_ok hi ho hcl m2.core ((hF.trans (mono m1f)).trans (mono m2.frame)) (hup (some h)) hV0 z1 z2 z3
          ((m2.blocks.trans m1.blocks).trans hbl) false f2 (fun e => nomatch e)
        exact ⟨r, w', q1, q2, q3, .inl q4, fun e => nomatch e⟩
      | none =>
        dsimp only
        have hFF := (hF.trans (mono m1f)).trans (mono m2.frame)
        refine ⟨_, _, rfl, ?_, hFF.calm, .inr ⟨(m2.blocks.trans m1.blocks).trans hbl, rfl⟩, fun e => nomatch e⟩
        refine finish hi ho m2.core hFF { o with hs := [none], view := none, first := false } rfl (by rw [hcl]; rfl) (fun h => by rw [h0] at h; cases h) (fun s => ?_) hV0
          (redo f i .mem (some n) size false)
          (fun j hj => redo_ne f _ _ _ _ hj) (fun m hm' => ?_) (fun _ e => nomatch e)
          (fun _ _ => List.mem_singleton_self _)
        · rw [one]; exact hup none s
        · have := (redo_self f hm').1
          cases this

/-! ## Mutex -/

theorem setK_frame {P Q w H V} {k : Nat} {st : KSt} {o : KObj} (ho : w.kobjs[k]? = some o) (h3 : o.st.kind = 3) (hk : st.kind = 3) :
    Frame P Q w H V (setK w k st) H V := by
  refine ⟨fun _ _ _ => rfl, fun _ _ _ _ _ => rfl, fun _ _ => rfl, fun _ _ _ _ => rfl, fun j p hp => ?_, rfl⟩
  refine ⟨_, setK_get hp, ?_, ?_, ?_⟩
  · split <;> rfl
  · by_cases e : j = k
    · subst e; rw [ho] at hp; cases hp; simp [hk, h3]
    · simp [e]
  · by_cases e : j = k
    · subst e; rw [ho] at hp; cases hp; exact .inl h3
    · simp [e]

theorem mutex_k {w f cs} (hi : Inv L w f cs) {i : Nat} {o : Obj} (ho : w.objs[i]? = some (some o)) (hcl : o.cls = .mutex) {h : Nat}
    (hh : o.hs[0]? = some (some h)) : ∃ k ob a b, w.handles[h]? = some (some k) ∧ w.kobjs[k]? = some ob ∧ ob.st = .mutex a b := by
  have hs : slotOf w i 0 = some h := by rw [slotOf_live ho, hh]; rfl
  obtain ⟨k, hk⟩ := hi.core.st i 0 h hs
  have h1 := hi.core.kinds i 0 h k hs hk
  rw [kdOf_live ho, hcl] at h1
  unfold kindAt at h1
  cases e : w.kobjs[k]? with
  | none => rw [e] at h1; cases h1
  | some ob =>
    rw [e] at h1
    have h1 : ob.st.kind = 3 := Option.some.inj h1
    cases e2 : ob.st with
    | mutex a b => exact ⟨k, ob, a, b, hk, e, e2⟩
    | sem a b => rw [e2] at h1; cases h1
    | event a b => rw [e2] at h1; cases h1
    | mapping a => rw [e2] at h1; cases h1

theorem release_ok {P Q w H V kd} (hc : Core L w H V kd) {k t : Nat} {ob : KObj} {a b} (ho : w.kobjs[k]? = some ob) (hst : ob.st = .mutex a b) :
    ∃ w', release w k t = .ok w' ∧ Core L w' H V kd ∧ Frame P Q w H V w' H V ∧ w'.handles = w.handles ∧ w'.views = w.views ∧
      w'.blocks = w.blocks := by
  unfold release kstate
  rw [ho]
  dsimp only
  rw [ok_bind, hst]
  dsimp only
  split
  · have h3 : ob.st.kind = 3 := by rw [hst]; rfl
    have hk : KSt.kind (if b ≤ 1 then .mutex none 0 else .mutex a (b - 1)) = 3 := by split <;> rfl
    exact ⟨_, rfl, setK_core hc ho (hk.trans h3.symm), setK_frame ho h3 hk, rfl, rfl, rfl⟩
  · exact ⟨_, rfl, hc, Frame.refl, rfl, rfl, rfl⟩

theorem len1 {l : List (Option Nat)} (h : l.length = 1) : ∃ x, l = [x] := by
  match l, h with
  | [x], _ => exact ⟨x, rfl⟩

theorem setObj_same {w : W} {i : Nat} {o : Obj} (ho : w.objs[i]? = some (some o)) : setObj w i o = w := by
  unfold setObj
  have : w.objs.set i (some o) = w.objs := by
    apply List.ext_getElem?
    intro j
    rw [set_objs_get ho]
    split
    · rename_i e; rw [e, ho]
    · rfl
  rw [this]

theorem mutexMake_ok {w f cs} (hi : Inv L w f cs) {i : Nat} {o : Obj} (ho : w.objs[i]? = some (some o)) (hcl : o.cls = .mutex) {w1 : W} {H1}
    (hc : Core L w1 H1 (viewOf w) (kdOf w)) (hf : Frame (fun a _ => a = i) (fun a => a = i) w (slotOf w) (viewOf w) w1 H1 (viewOf w))
    (he : ∀ s, H1 i s = none) (hb : w1.blocks = w.blocks) (o' : Obj) (ho1 : o'.cls = o.cls) (ho2 : o'.view = o.view) (ho3 : o'.cnt = 0)
    (name : Option Str) (fails : Bool) :
    ∃ r w', mutexMake w1 i o' name fails = .ok (r, w') ∧ Inv L w' (redo f i .mutex name 0 r) cs ∧ Calm w w' ∧ w'.blocks = w.blocks := by
  obtain ⟨g1, g2, g3, _⟩ := create1 hi ho hc hf he (by rw [hcl]; rfl) (st := .mutex none 0) (by rw [hcl]; rfl)
    (by rw [hcl]; exact fun e => nomatch e) (by rw [hcl]; exact fun _ => rfl) o' ho1 ho2 ho3 name fails
  rw [hcl] at g1
  exact ⟨_, _, rfl, g1, g2, g3.trans hb⟩

theorem mutexCreate_ok {w f cs} (hi : Inv L w f cs) {i : Nat} (hl : cs[i]? = some (some .mutex)) (t : Nat) (name : Option Str) (fails : Bool)
    (hL : L ∨ f i = none) : ∃ r w', mutexCreate w i t name fails = .ok (r, w') ∧ Inv L w' (redo f i .mutex name 0 r) cs ∧ Calm w w' ∧ w'.blocks = w.blocks := by
  obtain ⟨o, ho, hcl⟩ := hi.obj hl
  unfold mutexCreate
  rw [getObj_ok ho, ok_bind]
  obtain ⟨x, hx⟩ := len1 (show o.hs.length = 1 by rw [hi.len i o ho, hcl]; rfl)
  split
  · rename_i h0
    obtain ⟨_, h, hh⟩ := hi.cnt i o ho h0
    split
    · rw [hh]
      dsimp only
      obtain ⟨k, ob, a, b, z1, z2, z3⟩ := mutex_k hi ho hcl (by rw [hh]; rfl)
      obtain ⟨w1, e1, c1, f1, b1, b2, b3⟩ := release_ok (P := fun a _ => a = i) (Q := fun a => a = i) (t := t) hi.core z2 z3
      have hs : slotOf w i 0 = some h := by rw [slotOf_live ho, hh]; rfl
      obtain ⟨w2, e2, c2, f2, b4⟩ := close_core c1 hs
      rw [show handle w h = .ok k from by unfold handle; rw [z1], ok_bind, e1, ok_bind, e2, ok_bind]
      refine mutexMake_ok hi ho hcl c2 (f1.trans (f2.mono (fun _ _ h => h.1) (fun _ h => h.elim))) (fun s => ?_) (b4.trans b3)
        { o with hs := [none], cnt := 0, own := none } rfl rfl rfl name fails
      by_cases e : s = 0
      · subst e; exact upd_self ..
      · rw [upd_ne _ (fun h => e h.2), slotOf_live ho, hh, one, if_neg e]
    · refine ⟨false, w, rfl, ?_, fun _ _ h _ => h, rfl⟩
      refine ⟨hi.core, hi.cls, hi.len, hi.cnt, fun j m hm => ?_, hi.fst, fun j p hp hn hpl => ?_⟩
      rotate_left
      · by_cases e : j = i
        · subst e
          rw [ho] at hp; cases hp
          rcases hL with hL | hL
          · rcases hpl with e | e | e | ⟨_, e⟩
            · rw [hcl] at e; cases e
            · rw [hcl] at e; cases e
            · rw [hcl] at e; cases e
            · exact absurd hL e
          · exact hi.idle j _ ho hL hpl
        · rw [redo_ne f _ _ _ _ e] at hn
          exact hi.idle j p hp hn hpl
      by_cases e : j = i
      · subst e
        have := (redo_self f hm).1
        cases this
      · rw [redo_ne f _ _ _ _ e] at hm
        exact hi.made j m hm
  · rename_i h0
    obtain ⟨c1, f1⟩ := leak_core hi.core (i := i) (s := 0) (by rw [kdOf_live ho, hcl]; rfl) (by
      rcases Classical.em L with h | h
      · exact .inl h
      · refine .inr ?_
        have := hi.idle i o ho (hL.resolve_left h) (.inr (.inr (.inr ⟨hcl, h⟩)))
        rw [hx] at this
        rw [slotOf_live ho, hx, ← List.mem_singleton.1 this]; rfl)
    refine mutexMake_ok hi ho hcl c1 (f1.mono (fun _ _ h => h.1) (fun _ h => h.elim)) (fun s => ?_) rfl o rfl rfl (by omega) name fails
    by_cases e : s = 0
    · subst e; exact upd_self ..
    · rw [upd_ne _ (fun h => e h.2), slotOf_live ho, hx, one, if_neg e]

theorem mutexLock_ok {w f cs} (hi : Inv L w f cs) {i : Nat} (hl : cs[i]? = some (some .mutex)) (t : Nat) (fails : Bool) :
    ∃ r w', mutexLock w i t fails = .ok (r, w') ∧ Inv L w' f cs ∧ Calm w w' ∧ w'.blocks = w.blocks := by
  obtain ⟨o, ho, hcl⟩ := hi.obj hl
  unfold mutexLock
  rw [getObj_ok ho, ok_bind]
  obtain ⟨x, hx⟩ := len1 (show o.hs.length = 1 by rw [hi.len i o ho, hcl]; rfl)
  have hno : ∃ r w', (Except.ok (false, w) : CRes (Bool × W)) = .ok (r, w') ∧ Inv L w' f cs ∧ Calm w w' ∧ w'.blocks = w.blocks :=
    ⟨false, w, rfl, hi, fun _ _ h _ => h, rfl⟩
  split
  · rename_i h tl e
    have hx : o.hs = [some h] := by rw [hx] at e ⊢; cases e; rfl
    obtain ⟨k, ob, a, b, z1, z2, z3⟩ := mutex_k hi ho hcl (by rw [hx]; rfl)
    split
    · exact ⟨_, _, rfl, finish0 hi ho hi.core Frame.refl rfl { o with cnt := (o.cnt + 1) % 4294967296 } rfl rfl (fun _ => ⟨hcl, h, hx⟩) rfl (by rw [hcl]; exact fun e => nomatch e),
        fun _ _ h _ => h, rfl⟩
    · rw [show handle w h = .ok k from by unfold handle; rw [z1], ok_bind, show kstate w k = .ok ob.st from by unfold kstate; rw [z2], ok_bind, z3]
      dsimp only
      split
      · have h3 : ob.st.kind = 3 := by rw [z3]; rfl
        have hF : Frame (fun a _ => a = i) (fun a => a = i) w (slotOf w) (viewOf w) (setK w k (.mutex (some t) (b + 1))) (slotOf w) (viewOf w) :=
          setK_frame z2 h3 rfl
        exact ⟨_, _, rfl, finish0 hi ho (setK_core (st := .mutex (some t) (b + 1)) hi.core z2 h3.symm) hF rfl { o with own := some t, cnt := 1 } rfl rfl (fun _ => ⟨hcl, h, hx⟩) rfl (by rw [hcl]; exact fun e => nomatch e),
          hF.calm, rfl⟩
      · exact hno
  · exact hno

theorem mutexUnlock_ok {w f cs} (hi : Inv L w f cs) {i : Nat} {o : Obj} (ho : w.objs[i]? = some (some o)) (hcl : o.cls = .mutex) (t : Nat) (all : Bool) :
    ∃ r w', mutexUnlock w i t all = .ok (r, w') ∧ Inv L w' f cs ∧ Calm w w' ∧ w'.blocks = w.blocks ∧
      ∃ o', w'.objs[i]? = some (some o') ∧ o'.hs = o.hs ∧ o'.view = o.view := by
  unfold mutexUnlock
  rw [getObj_ok ho, ok_bind]
  obtain ⟨x, hx⟩ := len1 (show o.hs.length = 1 by rw [hi.len i o ho, hcl]; rfl)
  have hno : ∃ r w', (Except.ok (false, w) : CRes (Bool × W)) = .ok (r, w') ∧ Inv L w' f cs ∧ Calm w w' ∧ w'.blocks = w.blocks ∧
      ∃ o', w'.objs[i]? = some (some o') ∧ o'.hs = o.hs ∧ o'.view = o.view :=
    ⟨false, w, rfl, hi, fun _ _ h _ => h, rfl, o, ho, rfl, rfl⟩
  split
  · rename_i h tl e
    have hx : o.hs = [some h] := by rw [hx] at e ⊢; cases e; rfl
    obtain ⟨k, ob, a, b, z1, z2, z3⟩ := mutex_k hi ho hcl (by rw [hx]; rfl)
    split
    · dsimp only
      generalize Mutex.dec32 (if all = true then 1 else o.cnt) = c
      by_cases hc0 : c = 0
      · rw [if_pos hc0]
        obtain ⟨w1, e1, c1, f1, b1, b2, b3⟩ := release_ok (P := fun a _ => a = i) (Q := fun a => a = i) (t := t) hi.core z2 z3
        rw [show handle w h = .ok k from by unfold handle; rw [z1], ok_bind, e1, ok_bind]
        refine ⟨_, _, rfl, finish0 hi ho c1 f1 b1 { o with own := none, cnt := 0 } rfl rfl (fun _ => ⟨hcl, h, hx⟩) rfl (by rw [hcl]; exact fun e => nomatch e), f1.calm, b3, { o with own := none, cnt := 0 }, ?_, rfl, rfl⟩
        show (w1.objs.set i _)[i]? = _
        rw [f1.objs, set_objs_get ho, if_pos rfl]
      · rw [if_neg hc0]
        refine ⟨_, _, rfl, finish0 hi ho hi.core Frame.refl rfl { o with cnt := c } rfl rfl (fun _ => ⟨hcl, h, hx⟩) rfl (by rw [hcl]; exact fun e => nomatch e), fun _ _ h _ => h, rfl, { o with cnt := c }, ?_, rfl, rfl⟩
        show (w.objs.set i _)[i]? = _
        rw [set_objs_get ho, if_pos rfl]
    · exact hno
  · exact hno

theorem destroy_ok {w f cs} (hi : Inv L w f cs) {i : Nat} {c : Cls} (hl : cs[i]? = some (some c)) (t : Nat) :
    ∃ w', destroy w i t = .ok w' ∧ Inv L w' (fun j => if j = i then none else f j) (cs.set i none) ∧ Calm w w' ∧ w'.blocks = w.blocks := by
  obtain ⟨o, ho, hcl⟩ := hi.obj hl
  unfold destroy
  rw [getObj_ok ho, ok_bind]
  have h1 : ∃ r w1, unlockAll w i t o = .ok (r, w1) ∧ Inv L w1 f cs ∧ Calm w w1 ∧
      w1.blocks = w.blocks ∧ ∃ o', w1.objs[i]? = some (some o') ∧ o'.hs = o.hs ∧ o'.view = o.view := by
    unfold unlockAll
    split
    · rename_i hm
      exact mutexUnlock_ok hi ho hm t true
    · exact ⟨_, _, rfl, hi, fun _ _ h _ => h, rfl, o, ho, rfl, rfl⟩
  obtain ⟨r, w1, e1, i1, q1, b1, o', ho', ho2, ho3⟩ := h1
  rw [e1, ok_bind]
  dsimp only
  obtain ⟨w2, e2, c2, f2, b2⟩ := unmap_core i1.core i
  rw [viewOf_live ho', ho3] at e2
  obtain ⟨w3, e3, c3, f3, b3⟩ := closeAll_core o.hs 0 w2 (slotOf w1) c2
    (fun s => by rw [Nat.zero_add, ← ho2]; exact slotOf_live ho' s) (fun _ h => nomatch h)
  rw [e2, ok_bind, e3, ok_bind]
  have hF := (f2.mono (P' := fun a _ => a = i) (Q' := fun a => a = i) (fun _ _ h => h.elim) (fun _ h => h)).trans
    (f3.mono (P' := fun a _ => a = i) (Q' := fun a => a = i) (fun _ _ h => h) (fun _ h => h.elim))
  refine ⟨_, rfl, finish_gone i1 ho' c3 hF (clear_self _ i) (if_pos rfl) _ (fun j hj => if_neg hj) (if_pos rfl), ?_, ?_⟩
  · intro k p hp hk
    exact hF.calm k p (q1 k p hp hk) hk
  · exact (b3.trans b2).trans b1

/-! ## Using semaphores and events -/

theorem use_inv {w f cs} (hi : Inv L w f cs) {k : Nat} {st : KSt} {ob : KObj} (ho : w.kobjs[k]? = some ob) (hk : st.kind = ob.st.kind)
    (h2 : ob.st.kind ≠ 2) : Inv L (setK w k st) f cs := by
  refine ⟨setK_core hi.core ho hk, hi.cls, hi.len, hi.cnt, fun j m hm => ?_, hi.fst, hi.idle⟩
  obtain ⟨p, hp, hp1, hp2⟩ := hi.made j m hm
  refine ⟨p, hp, ⟨hp1.1, fun s hs => ?_⟩, fun hc => ?_⟩
  · obtain ⟨h, k', ob', e1, e2, e3, e4⟩ := hp1.2 s hs
    refine ⟨h, k', _, e1, e2, setK_get e3, ?_⟩
    rw [← e4]; split <;> rfl
  · obtain ⟨v, k', ob', bytes, h, e1, e2, e3, e4, e5, e6⟩ := hp2 hc
    refine ⟨v, k', _, bytes, h, e1, e2, setK_get e3, ?_, e5, e6⟩
    rw [if_neg]
    · exact e4
    · rintro rfl
      rw [ho] at e3
      cases e3
      rw [e4] at h2
      exact h2 rfl

/-- The kernel object an object with one place leads to. -/
theorem target {w f cs} (hi : Inv L w f cs) {i : Nat} {o : Obj} (ho : w.objs[i]? = some (some o)) {h : Nat} (hh : o.hs[0]? = some (some h)) :
    ∃ k ob, w.handles[h]? = some (some k) ∧ w.kobjs[k]? = some ob ∧ ob.st.kind = kindOf o.cls 0 := by
  have hs : slotOf w i 0 = some h := by rw [slotOf_live ho, hh]; rfl
  obtain ⟨k, hk⟩ := hi.core.st i 0 h hs
  have h1 := hi.core.kinds i 0 h k hs hk
  rw [kdOf_live ho] at h1
  unfold kindAt at h1
  cases e : w.kobjs[k]? with
  | none => rw [e] at h1; cases h1
  | some ob => rw [e] at h1; exact ⟨k, ob, hk, e, Option.some.inj h1⟩

/-- A call on a semaphore: it has none, or this is it. -/
theorem sem_target {w f cs} (hi : Inv L w f cs) {i : Nat} (hl : cs[i]? = some (some .sem)) :
    ∃ o, w.objs[i]? = some (some o) ∧ (o.hs = [none] ∨ ∃ h k ob c m, o.hs = [some h] ∧ w.handles[h]? = some (some k) ∧ w.kobjs[k]? = some ob ∧
      ob.st = .sem c m) := by
  obtain ⟨o, ho, hcl⟩ := hi.obj hl
  obtain ⟨x, hx⟩ := len1 (show o.hs.length = 1 by rw [hi.len i o ho, hcl]; rfl)
  refine ⟨o, ho, ?_⟩
  cases x with
  | none => exact .inl hx
  | some h =>
    obtain ⟨k, ob, e1, e2, e3⟩ := target hi ho (h := h) (by rw [hx]; rfl)
    rw [hcl] at e3
    cases e4 : ob.st with
    | sem a b => exact .inr ⟨h, k, ob, a, b, hx, e1, e2, e4⟩
    | mutex a b => rw [e4] at e3; cases e3
    | event a b => rw [e4] at e3; cases e3
    | mapping a => rw [e4] at e3; cases e3

theorem ev_target {w f cs} (hi : Inv L w f cs) {i : Nat} (hl : cs[i]? = some (some .event)) :
    ∃ o, w.objs[i]? = some (some o) ∧ (o.hs = [none] ∨ ∃ h k ob c m, o.hs = [some h] ∧ w.handles[h]? = some (some k) ∧ w.kobjs[k]? = some ob ∧
      ob.st = .event c m) := by
  obtain ⟨o, ho, hcl⟩ := hi.obj hl
  obtain ⟨x, hx⟩ := len1 (show o.hs.length = 1 by rw [hi.len i o ho, hcl]; rfl)
  refine ⟨o, ho, ?_⟩
  cases x with
  | none => exact .inl hx
  | some h =>
    obtain ⟨k, ob, e1, e2, e3⟩ := target hi ho (h := h) (by rw [hx]; rfl)
    rw [hcl] at e3
    cases e4 : ob.st with
    | event a b => exact .inr ⟨h, k, ob, a, b, hx, e1, e2, e4⟩
    | mutex a b => rw [e4] at e3; cases e3
    | sem a b => rw [e4] at e3; cases e3
    | mapping a => rw [e4] at e3; cases e3

theorem handle_ok {w : W} {h k : Nat} (e : w.handles[h]? = some (some k)) : handle w h = .ok k := by unfold handle; rw [e]

theorem kstate_ok {w : W} {k : Nat} {ob : KObj} (e : w.kobjs[k]? = some ob) : kstate w k = .ok ob.st := by unfold kstate; rw [e]

theorem semLock_ok {w f cs} (hi : Inv L w f cs) {i : Nat} (hl : cs[i]? = some (some .sem)) (fails : Bool) :
    ∃ r w', semLock w i fails = .ok (r, w') ∧ Inv L w' f cs ∧ w'.blocks = w.blocks := by
  obtain ⟨o, ho, h⟩ := sem_target hi hl
  unfold semLock
  rw [getObj_ok ho, ok_bind]
  rcases h with h | ⟨h, k, ob, c, m, e1, e2, e3, e4⟩
  · rw [h]; exact ⟨_, _, rfl, hi, rfl⟩
  · rw [e1]
    dsimp only
    rw [handle_ok e2, ok_bind, kstate_ok e3, ok_bind, e4]
    dsimp only
    split
    · exact ⟨_, _, rfl, use_inv hi e3 (by rw [e4]; rfl) (by rw [e4]; exact fun e => nomatch e), rfl⟩
    · exact ⟨_, _, rfl, hi, rfl⟩

theorem semUnlock_ok {w f cs} (hi : Inv L w f cs) {i : Nat} (hl : cs[i]? = some (some .sem)) (fails : Bool) :
    ∃ r w', semUnlock w i fails = .ok (r, w') ∧ Inv L w' f cs ∧ w'.blocks = w.blocks := by
  obtain ⟨o, ho, h⟩ := sem_target hi hl
  unfold semUnlock
  rw [getObj_ok ho, ok_bind]
  rcases h with h | ⟨h, k, ob, c, m, e1, e2, e3, e4⟩
  · rw [h]; exact ⟨_, _, rfl, hi, rfl⟩
  · rw [e1]
    dsimp only
    rw [handle_ok e2, ok_bind, kstate_ok e3, ok_bind, e4]
    dsimp only
    split
    · exact ⟨_, _, rfl, use_inv hi e3 (by rw [e4]; rfl) (by rw [e4]; exact fun e => nomatch e), rfl⟩
    · exact ⟨_, _, rfl, hi, rfl⟩

theorem evWait_ok {w f cs} (hi : Inv L w f cs) {i : Nat} (hl : cs[i]? = some (some .event)) (fails : Bool) :
    ∃ r w', evWait w i fails = .ok (r, w') ∧ Inv L w' f cs ∧ w'.blocks = w.blocks := by
  obtain ⟨o, ho, h⟩ := ev_target hi hl
  unfold evWait
  rw [getObj_ok ho, ok_bind]
  rcases h with h | ⟨h, k, ob, c, m, e1, e2, e3, e4⟩
  · rw [h]; exact ⟨_, _, rfl, hi, rfl⟩
  · rw [e1]
    dsimp only
    rw [handle_ok e2, ok_bind, kstate_ok e3, ok_bind, e4]
    dsimp only
    split
    · exact ⟨_, _, rfl, use_inv hi e3 (by rw [e4]; rfl) (by rw [e4]; exact fun e => nomatch e), rfl⟩
    · exact ⟨_, _, rfl, hi, rfl⟩

theorem evSet_ok {w f cs} (hi : Inv L w f cs) {i : Nat} (hl : cs[i]? = some (some .event)) (sig fails : Bool) :
    ∃ r w', evSet w i sig fails = .ok (r, w') ∧ Inv L w' f cs ∧ w'.blocks = w.blocks := by
  obtain ⟨o, ho, h⟩ := ev_target hi hl
  unfold evSet
  rw [getObj_ok ho, ok_bind]
  rcases h with h | ⟨h, k, ob, c, m, e1, e2, e3, e4⟩
  · rw [h]; exact ⟨_, _, rfl, hi, rfl⟩
  · rw [e1]
    dsimp only
    rw [handle_ok e2, ok_bind, kstate_ok e3, ok_bind, e4]
    dsimp only
    split
    · exact ⟨_, _, rfl, use_inv hi e3 (by rw [e4]; rfl) (by rw [e4]; exact fun e => nomatch e), rfl⟩
    · exact ⟨_, _, rfl, hi, rfl⟩

/-! ## Any call -/

/-- It uses a semaphore or an event. -/
def uses : Op → Bool
  | .semLock _ _ | .semUnlock _ _ | .evWait _ _ | .evFire _ _ | .evReset _ _ => true
  | _ => false

/-- It is `SharedMem::Create`. -/
def isMem : Op → Bool
  | .memCreate _ _ _ _ _ _ => true
  | _ => false

theorem plain_ok {r : CRes (Bool × W)} {b : Bool} {w : W} (h : r = .ok (b, w)) : plain r = .ok (⟨b, none⟩, w) := by
  rw [h]; rfl

theorem step_ok {w f cs} (hi : Inv L w f cs) {op : Op} (hl : Legal cs op) (hT : L ∨ Tidy f op) :
    ∃ r w', step w op = .ok (r, w') ∧ Inv L w' (made f op r.result) (classes cs op) ∧ (uses op = false → Calm w w') ∧
      (w'.blocks = w.blocks ∨ (isMem op = true ∧ w'.blocks = w.blocks + 1 ∧ r.result = false)) := by
  cases op with
  | construct c => exact ⟨_, _, rfl, inv_construct hi c, fun _ _ _ h _ => h, .inl rfl⟩
  | semCreate i name val fails =>
    obtain ⟨r, w', h1, h2, h3, h4, _⟩ := semCreate_ok hi hl name val fails
    exact ⟨_, _, plain_ok h1, h2, fun _ => h3, .inl h4⟩
  | evCreate i name manual prefire fails =>
    obtain ⟨r, w', h1, h2, h3, h4, _⟩ := evCreate_ok hi hl name manual prefire fails
    exact ⟨_, _, plain_ok h1, h2, fun _ => h3, .inl h4⟩
  | rwCreate i name f0 f1 f2 f3 =>
    obtain ⟨r, w', h1, h2, h3, h4⟩ := rwCreate_ok hi hl name f0 f1 f2 f3
    exact ⟨_, _, plain_ok h1, h2, fun _ => h3, .inl h4⟩
  | memCreate i name size f0 f1 f2 =>
    obtain ⟨r, w', h1, h2, h3, h4, h5⟩ := memCreate_ok hi hl name size f0 f1 f2
    refine ⟨_, _, plain_ok h1, ?_, fun _ => h3, h4.imp id (fun h => ⟨rfl, h⟩)⟩
    cases name with
    | none => exact h2
    | some n => exact h2
  | mutexCreate i t name fails =>
    obtain ⟨r, w', h1, h2, h3, h4⟩ := mutexCreate_ok hi hl t name fails hT
    exact ⟨_, _, plain_ok h1, h2, fun _ => h3, .inl h4⟩
  | mutexLock i t fails =>
    obtain ⟨r, w', h1, h2, h3, h4⟩ := mutexLock_ok hi hl t fails
    exact ⟨_, _, plain_ok h1, h2, fun _ => h3, .inl h4⟩
  | mutexUnlock i t all =>
    obtain ⟨o, ho, hcl⟩ := hi.obj hl
    obtain ⟨r, w', h1, h2, h3, h4, _⟩ := mutexUnlock_ok hi ho hcl t all
    exact ⟨_, _, plain_ok h1, h2, fun _ => h3, .inl h4⟩
  | semLock i fails =>
    obtain ⟨r, w', h1, h2, h4⟩ := semLock_ok hi hl fails
    exact ⟨_, _, plain_ok h1, h2, fun e => (nomatch e), .inl h4⟩
  | semUnlock i fails =>
    obtain ⟨⟨r, p⟩, w', h1, h2, h4⟩ := semUnlock_ok hi hl fails
    exact ⟨⟨r, p⟩, w', by unfold step; dsimp only; rw [h1, ok_bind], h2, fun e => (nomatch e), .inl h4⟩
  | evWait i fails =>
    obtain ⟨r, w', h1, h2, h4⟩ := evWait_ok hi hl fails
    exact ⟨_, _, plain_ok h1, h2, fun e => (nomatch e), .inl h4⟩
  | evFire i fails =>
    obtain ⟨r, w', h1, h2, h4⟩ := evSet_ok hi hl true fails
    exact ⟨_, _, plain_ok h1, h2, fun e => (nomatch e), .inl h4⟩
  | evReset i fails =>
    obtain ⟨r, w', h1, h2, h4⟩ := evSet_ok hi hl false fails
    exact ⟨_, _, plain_ok h1, h2, fun e => (nomatch e), .inl h4⟩
  | destroy i t =>
    obtain ⟨c, hc⟩ := hl
    obtain ⟨w', h1, h2, h3, h4⟩ := destroy_ok hi hc t
    exact ⟨⟨true, none⟩, w', by unfold step; dsimp only; rw [h1, ok_bind], h2, fun _ => h3, .inl h4⟩

/-- Nothing is asked of the histories if handles of mutexes may be lost. -/
theorem Inv.weak {w f cs} (hi : Inv L w f cs) : Inv True w f cs := by
  have hc := hi.core
  refine ⟨⟨hc.st, hc.inj, fun h k e => (hc.own h k e).imp id (fun e => ⟨trivial, e.2⟩), hc.vst, hc.vinj, hc.vown, hc.ok, hc.kinds, hc.uniq,
    hc.priv, hc.vkd⟩, hi.cls, hi.len, hi.cnt, hi.made, hi.fst, fun i o ho hn hpl => hi.idle i o ho hn ?_⟩
  rcases hpl with e | e | e | ⟨_, e⟩
  · exact .inl e
  · exact .inr (.inl e)
  · exact .inr (.inr (.inl e))
  · exact absurd trivial e

theorem exec_any : ∀ (ops : List Op) {w f cs}, Inv True w f cs → LegalAll cs ops →
    ∃ rs w', exec w ops = .ok (rs, w') ∧ Inv True w' (madeAll f ops rs) (ops.foldl classes cs) ∧
      ((∀ op ∈ ops, isMem op = false) → w'.blocks = w.blocks)
  | [], w, f, cs, hi, _ => ⟨[], w, rfl, hi, fun _ => rfl⟩
  | op :: ops, w, f, cs, hi, hl => by
    obtain ⟨r, w1, h1, h2, _, h4⟩ := step_ok hi hl.1 (.inl trivial)
    obtain ⟨rs, w2, g1, g2, g3⟩ := exec_any ops h2 hl.2
    refine ⟨r :: rs, w2, by rw [exec, h1, ok_bind]; dsimp only; rw [g1, ok_bind], g2, fun h => ?_⟩
    rw [g3 (fun o ho => h o (List.mem_cons_of_mem _ ho))]
    rcases h4 with h4 | h4
    · exact h4
    · rw [h op (List.mem_cons_self ..)] at h4; cases h4.1

theorem exec_tidy : ∀ (ops : List Op) {w f cs rs w'}, Inv False w f cs → LegalAll cs ops → exec w ops = .ok (rs, w') →
    TidyAll f ops rs → Inv False w' (madeAll f ops rs) (ops.foldl classes cs)
  | [], w, f, cs, rs, w', hi, _, h, _ => by cases h; exact hi
  | op :: ops, w, f, cs, rs, w', hi, hl, h, ht => by
    obtain ⟨r, w1, h1, h2, _, _⟩ := step_ok hi.weak hl.1 (.inl trivial)
    rw [exec, h1, ok_bind] at h
    dsimp only at h
    obtain ⟨rs2, w2, g1, _⟩ := exec_any ops h2 hl.2
    rw [g1, ok_bind] at h
    cases h
    obtain ⟨r', w1', h1', h2', _⟩ := step_ok hi hl.1 (.inr ht.1)
    rw [h1] at h1'
    cases h1'
    exact exec_tidy ops h2' hl.2 g1 ht.2

end Verif.WinSync
