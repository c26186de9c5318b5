import Verif.OrderedHash.Multi
import Verif.OrderedHash.PropsLoad

/-!
# Calls on one hash do not touch the nodes of another, and do not depend on them

`ext L w` is the memory `w` with the further nodes `L`.  For every function of the model: a run that succeeds without the nodes
`L` succeeds in the same way when they exist, and nodes that did not exist for the function are not changed.
-/

namespace Verif.OrderedHash
open Verif.Links

variable {α : Type}

def lext (L : Nat → Bool) (h : LH) : LH := { h with live := fun x => h.live x || L x }
def ext (L : Nat → Bool) (w : W α) : W α := { w with lh := lext L w.lh }

/-- Links outside the live nodes stay. -/
structure LFr (h h' : LH) : Prop where
  live : h'.live = h.live
  fr : ∀ x, h.live x = false → h'.pv x = h.pv x ∧ h'.nx x = h.nx x

theorem LFr.rfl {h : LH} : LFr h h := ⟨Eq.refl _, fun _ _ => ⟨Eq.refl _, Eq.refl _⟩⟩
theorem LFr.trans {a b c : LH} (h : LFr a b) (h' : LFr b c) : LFr a c :=
  ⟨h'.live.trans h.live, fun x hx => ⟨(h'.fr x (by rw [h.live]; exact hx)).1.trans (h.fr x hx).1,
    (h'.fr x (by rw [h.live]; exact hx)).2.trans (h.fr x hx).2⟩⟩

theorem getPv_ext {h : LH} {x : Nat} {v : Option Nat} {L : Nat → Bool} (e : getPv h x = .ok v) : getPv (lext L h) x = .ok v := by
  unfold getPv at e ⊢
  split at e
  · rename_i hl; cases e; rw [if_pos (by simp [lext, hl])]; rfl
  · cases e

theorem getNx_ext {h : LH} {x : Nat} {v : Option Nat} {L : Nat → Bool} (e : getNx h x = .ok v) : getNx (lext L h) x = .ok v := by
  unfold getNx at e ⊢
  split at e
  · rename_i hl; cases e; rw [if_pos (by simp [lext, hl])]; rfl
  · cases e

theorem ne_of_dead {l : Nat → Bool} {x y : Nat} (hx : l x = true) (hy : l y = false) : y ≠ x := by
  rintro rfl
  rw [hx] at hy
  cases hy

theorem setPv_loc {h h' : LH} {x : Nat} {v : Option Nat} (e : setPv h x v = .ok h') : LFr h h' ∧ ∀ L, setPv (lext L h) x v = .ok (lext L h') := by
  unfold setPv at e
  split at e
  · rename_i hl
    cases e
    refine ⟨⟨rfl, fun y hy => ⟨upd_other _ _ (ne_of_dead hl hy), rfl⟩⟩, fun L => ?_⟩
    show setPv _ _ _ = _
    unfold setPv
    rw [if_pos (by simp [lext, hl])]
    rfl
  · cases e

theorem setNx_loc {h h' : LH} {x : Nat} {v : Option Nat} (e : setNx h x v = .ok h') : LFr h h' ∧ ∀ L, setNx (lext L h) x v = .ok (lext L h') := by
  unfold setNx at e
  split at e
  · rename_i hl
    cases e
    refine ⟨⟨rfl, fun y hy => ⟨rfl, upd_other _ _ (ne_of_dead hl hy)⟩⟩, fun L => ?_⟩
    show setNx _ _ _ = _
    unfold setNx
    rw [if_pos (by simp [lext, hl])]
    rfl
  · cases e

theorem setPvOpt_loc {h h' : LH} {p v : Option Nat} (e : setPvOpt h p v = .ok h') : LFr h h' ∧ ∀ L, setPvOpt (lext L h) p v = .ok (lext L h') := by
  cases p with
  | none => cases e; exact ⟨LFr.rfl, fun _ => rfl⟩
  | some a => exact setPv_loc e

theorem setNxOpt_loc {h h' : LH} {p v : Option Nat} (e : setNxOpt h p v = .ok h') : LFr h h' ∧ ∀ L, setNxOpt (lext L h) p v = .ok (lext L h') := by
  cases p with
  | none => cases e; exact ⟨LFr.rfl, fun _ => rfl⟩
  | some a => exact setNx_loc e

theorem linkBefore_loc {h h' : LH} {e e' : Ends} {n : Option Nat} {x : Nat} (g : linkBefore h e n x = .ok (h', e')) :
    LFr h h' ∧ ∀ L, linkBefore (lext L h) e n x = .ok (lext L h', e') := by
  cases n with
  | none =>
    obtain ⟨h1, g1, g⟩ := bind_ok g
    obtain ⟨h2, g2, g⟩ := bind_ok g
    cases g
    have l1 := setPv_loc g1
    have l2 := setNxOpt_loc g2
    refine ⟨l1.1.trans l2.1, fun L => ?_⟩
    show (setPv (lext L h) x e.last >>= _) = _
    rw [l1.2 L, ok_bind, l2.2 L]
    rfl
  | some b =>
    obtain ⟨h1, g1, g⟩ := bind_ok g
    obtain ⟨p, g2, g⟩ := bind_ok g
    obtain ⟨h3, g3, g⟩ := bind_ok g
    obtain ⟨h4, g4, g⟩ := bind_ok g
    obtain ⟨h5, g5, g⟩ := bind_ok g
    cases g
    have l1 := setNx_loc g1
    have l3 := setPv_loc g3
    have l4 := setNxOpt_loc g4
    have l5 := setPv_loc g5
    refine ⟨((l1.1.trans l3.1).trans l4.1).trans l5.1, fun L => ?_⟩
    show (setNx (lext L h) x (some b) >>= _) = _
    rw [l1.2 L, ok_bind, getPv_ext g2, ok_bind, l3.2 L, ok_bind, l4.2 L, ok_bind, l5.2 L]
    rfl

theorem linkAfter_loc {h h' : LH} {e e' : Ends} {n : Option Nat} {x : Nat} (g : linkAfter h e n x = .ok (h', e')) :
    LFr h h' ∧ ∀ L, linkAfter (lext L h) e n x = .ok (lext L h', e') := by
  cases n with
  | none =>
    obtain ⟨h1, g1, g⟩ := bind_ok g
    obtain ⟨h2, g2, g⟩ := bind_ok g
    cases g
    have l1 := setNx_loc g1
    have l2 := setPvOpt_loc g2
    refine ⟨l1.1.trans l2.1, fun L => ?_⟩
    show (setNx (lext L h) x e.first >>= _) = _
    rw [l1.2 L, ok_bind, l2.2 L]
    rfl
  | some b =>
    obtain ⟨h1, g1, g⟩ := bind_ok g
    obtain ⟨p, g2, g⟩ := bind_ok g
    obtain ⟨h3, g3, g⟩ := bind_ok g
    obtain ⟨h4, g4, g⟩ := bind_ok g
    obtain ⟨h5, g5, g⟩ := bind_ok g
    cases g
    have l1 := setPv_loc g1
    have l3 := setNx_loc g3
    have l4 := setPvOpt_loc g4
    have l5 := setNx_loc g5
    refine ⟨((l1.1.trans l3.1).trans l4.1).trans l5.1, fun L => ?_⟩
    show (setPv (lext L h) x (some b) >>= _) = _
    rw [l1.2 L, ok_bind, getNx_ext g2, ok_bind, l3.2 L, ok_bind, l4.2 L, ok_bind, l5.2 L]
    rfl

theorem linkOf_loc {h h' : LH} {e e' : Ends} {a : Bool} {n : Option Nat} {x : Nat} (g : linkOf a n x h e = .ok (h', e')) :
    LFr h h' ∧ ∀ L, linkOf a n x (lext L h) e = .ok (lext L h', e') := by
  cases a with
  | true => exact linkAfter_loc g
  | false => exact linkBefore_loc g

theorem unlinkEnds_loc {h h' : LH} {e e' : Ends} {x : Nat} (g : unlinkEnds h e x = .ok (h', e')) :
    LFr h h' ∧ ∀ L, unlinkEnds (lext L h) e x = .ok (lext L h', e') := by
  unfold unlinkEnds at g ⊢
  split at g
  · rename_i c
    obtain ⟨f, g1, g⟩ := bind_ok g
    cases f with
    | none =>
      cases g
      refine ⟨LFr.rfl, fun L => ?_⟩
      rw [if_pos c, getNx_ext g1, ok_bind]
    | some y =>
      obtain ⟨h1, g2, g⟩ := bind_ok g
      cases g
      have l2 := setPv_loc g2
      refine ⟨l2.1, fun L => ?_⟩
      rw [if_pos c, getNx_ext g1, ok_bind]
      dsimp only
      rw [l2.2 L, ok_bind]
  · rename_i c
    split at g
    · rename_i c'
      obtain ⟨f, g1, g⟩ := bind_ok g
      cases f with
      | none =>
        cases g
        refine ⟨LFr.rfl, fun L => ?_⟩
        rw [if_neg c, if_pos c', getPv_ext g1, ok_bind]
      | some y =>
        obtain ⟨h1, g2, g⟩ := bind_ok g
        cases g
        have l2 := setNx_loc g2
        refine ⟨l2.1, fun L => ?_⟩
        rw [if_neg c, if_pos c', getPv_ext g1, ok_bind]
        dsimp only
        rw [l2.2 L, ok_bind]
    · rename_i c'
      obtain ⟨n, g1, g⟩ := bind_ok g
      obtain ⟨p, g2, g⟩ := bind_ok g
      obtain ⟨h3, g3, g⟩ := bind_ok g
      obtain ⟨p', g4, g⟩ := bind_ok g
      obtain ⟨n', g5, g⟩ := bind_ok g
      obtain ⟨h6, g6, g⟩ := bind_ok g
      cases g
      have l3 := setPvOpt_loc g3
      have l6 := setNxOpt_loc g6
      refine ⟨l3.1.trans l6.1, fun L => ?_⟩
      rw [if_neg c, if_neg c', getNx_ext g1, ok_bind, getPv_ext g2, ok_bind, l3.2 L, ok_bind, getPv_ext g4, ok_bind, getNx_ext g5, ok_bind,
        l6.2 L, ok_bind]

theorem unlink_loc {h h' : LH} {e e' : Ends} {x : Nat} (g : unlink h e x = .ok (h', e')) : LFr h h' ∧ ∀ L, unlink (lext L h) e x = .ok (lext L h', e') := by
  obtain ⟨⟨h1, e1⟩, g1, g⟩ := bind_ok g
  obtain ⟨h2, g2, g⟩ := bind_ok g
  obtain ⟨h3, g3, g⟩ := bind_ok g
  cases g
  have l1 := unlinkEnds_loc g1
  have l2 := setNx_loc g2
  have l3 := setPv_loc g3
  refine ⟨(l1.1.trans l2.1).trans l3.1, fun L => ?_⟩
  show (unlinkEnds (lext L h) e x >>= _) = _
  rw [l1.2 L, ok_bind]
  dsimp only
  rw [l2.2 L, ok_bind, l3.2 L]
  rfl

/-! ## The hash -/

/-- Node `x` is the same in both. -/
structure SameNode (w w' : W α) (x : Nat) : Prop where
  pv : w'.lh.pv x = w.lh.pv x
  nx : w'.lh.nx x = w.lh.nx x
  hp : w'.hp x = w.hp x
  hn : w'.hn x = w.hn x
  hk : w'.hk x = w.hk x
  ik : w'.ik x = w.ik x
  sk : w'.sk x = w.sk x
  val : w'.val x = w.val x

theorem SameNode.rfl {w : W α} {x : Nat} : SameNode w w x := ⟨Eq.refl _, Eq.refl _, Eq.refl _, Eq.refl _, Eq.refl _, Eq.refl _, Eq.refl _, Eq.refl _⟩
theorem SameNode.trans {a b c : W α} {x : Nat} (h : SameNode a b x) (h' : SameNode b c x) : SameNode a c x :=
  ⟨h'.pv.trans h.pv, h'.nx.trans h.nx, h'.hp.trans h.hp, h'.hn.trans h.hn, h'.hk.trans h.hk, h'.ik.trans h.ik, h'.sk.trans h.sk,
    h'.val.trans h.val⟩

/-- Nodes that exist but not for this function stay as they are. -/
structure Fr (w w' : W α) : Prop where
  fresh : w.fresh ≤ w'.fresh
  fr : ∀ x, w.lh.live x = false → x < w.fresh → w'.lh.live x = false ∧ SameNode w w' x

theorem Fr.rfl {w : W α} : Fr w w := ⟨Nat.le_refl _, fun _ h _ => ⟨h, SameNode.rfl⟩⟩
theorem Fr.trans {a b c : W α} (h : Fr a b) (h' : Fr b c) : Fr a c :=
  ⟨Nat.le_trans h.fresh h'.fresh, fun x h1 h2 =>
    have g := h.fr x h1 h2
    have g' := h'.fr x g.1 (Nat.lt_of_lt_of_le h2 h.fresh)
    ⟨g'.1, g.2.trans g'.2⟩⟩

/-- The further nodes. -/
def D (L : Nat → Bool) (w : W α) : Prop := ∀ x, L x = true → w.lh.live x = false ∧ x < w.fresh

theorem D.mono {L : Nat → Bool} {w w' : W α} (d : D L w) (h : Fr w w') : D L w' := fun x hx =>
  ⟨(h.fr x (d x hx).1 (d x hx).2).1, Nat.lt_of_lt_of_le (d x hx).2 h.fresh⟩


theorem getHp_ext {w : W α} {x : Nat} {v : Option Nat} {L : Nat → Bool} (e : getHp w x = .ok v) : getHp (ext L w) x = .ok v := by
  unfold getHp at e ⊢
  split at e
  · rename_i hl; cases e; rw [if_pos (by simp [ext, lext, hl])]; rfl
  · cases e
theorem getHn_ext {w : W α} {x : Nat} {v : Option Nat} {L : Nat → Bool} (e : getHn w x = .ok v) : getHn (ext L w) x = .ok v := by
  unfold getHn at e ⊢
  split at e
  · rename_i hl; cases e; rw [if_pos (by simp [ext, lext, hl])]; rfl
  · cases e
theorem getHk_ext {w : W α} {x : Nat} {v : Nat} {L : Nat → Bool} (e : getHk w x = .ok v) : getHk (ext L w) x = .ok v := by
  unfold getHk at e ⊢
  split at e
  · rename_i hl; cases e; rw [if_pos (by simp [ext, lext, hl])]; rfl
  · cases e
theorem getIk_ext {w : W α} {x : Nat} {v : Int} {L : Nat → Bool} (e : getIk w x = .ok v) : getIk (ext L w) x = .ok v := by
  unfold getIk at e ⊢
  split at e
  · rename_i hl; cases e; rw [if_pos (by simp [ext, lext, hl])]; rfl
  · cases e
theorem getSk_ext {w : W α} {x : Nat} {v : Option (List UInt8)} {L : Nat → Bool} (e : getSk w x = .ok v) : getSk (ext L w) x = .ok v := by
  unfold getSk at e ⊢
  split at e
  · rename_i hl; cases e; rw [if_pos (by simp [ext, lext, hl])]; rfl
  · cases e

theorem setHp_loc {w w' : W α} {x : Nat} {v : Option Nat} (e : setHp w x v = .ok w') : Fr w w' ∧ ∀ L, D L w → setHp (ext L w) x v = .ok (ext L w') := by
  unfold setHp at e
  split at e
  · rename_i hl
    cases e
    refine ⟨⟨Nat.le_refl _, fun y hy _ => ⟨hy, rfl, rfl, upd_other _ _ (ne_of_dead hl hy), rfl, rfl, rfl, rfl, rfl⟩⟩, fun L _ => ?_⟩
    show setHp _ _ _ = _
    unfold setHp
    rw [if_pos (by simp [ext, lext, hl])]
    rfl
  · cases e

theorem setHn_loc {w w' : W α} {x : Nat} {v : Option Nat} (e : setHn w x v = .ok w') : Fr w w' ∧ ∀ L, D L w → setHn (ext L w) x v = .ok (ext L w') := by
  unfold setHn at e
  split at e
  · rename_i hl
    cases e
    refine ⟨⟨Nat.le_refl _, fun y hy _ => ⟨hy, rfl, rfl, rfl, upd_other _ _ (ne_of_dead hl hy), rfl, rfl, rfl, rfl⟩⟩, fun L _ => ?_⟩
    show setHn _ _ _ = _
    unfold setHn
    rw [if_pos (by simp [ext, lext, hl])]
    rfl
  · cases e

theorem setHpOpt_loc {w w' : W α} {p v : Option Nat} (e : setHpOpt w p v = .ok w') : Fr w w' ∧ ∀ L, D L w → setHpOpt (ext L w) p v = .ok (ext L w') := by
  cases p with
  | none => cases e; exact ⟨Fr.rfl, fun _ _ => rfl⟩
  | some a => exact setHp_loc e

theorem nodeHash_ext {hf : List UInt8 → Nat} {w : W α} {x h : Nat} {L : Nat → Bool} (e : nodeHash hf w x = .ok h) :
    nodeHash hf (ext L w) x = .ok h := by
  obtain ⟨sk, e1, e⟩ := bind_ok e
  obtain ⟨ik, e2, e⟩ := bind_ok e
  unfold nodeHash
  rw [getSk_ext e1, ok_bind, getIk_ext e2, ok_bind]
  exact e

theorem cachedHash_ext {hf : List UInt8 → Nat} {w : W α} {x h : Nat} {L : Nat → Bool} (e : cachedHash hf w x = .ok h) :
    cachedHash hf (ext L w) x = .ok h := by
  obtain ⟨k, e1, e⟩ := bind_ok e
  unfold cachedHash
  rw [getHk_ext e1, ok_bind]
  split at e
  · rename_i c; rw [if_pos c]; exact e
  · rename_i c; rw [if_neg c]; exact nodeHash_ext e

theorem matchInt_ext {w : W α} {i : Int} {x : Nat} {b : Bool} {L : Nat → Bool} (e : matchInt w i x = .ok b) :
    matchInt (ext L w) i x = .ok b := by
  obtain ⟨sk, e1, e⟩ := bind_ok e
  obtain ⟨ik, e2, e⟩ := bind_ok e
  unfold matchInt
  rw [getSk_ext e1, ok_bind, getIk_ext e2, ok_bind]
  exact e

theorem matchStr_ext {w : W α} {h : Nat} {bs : List UInt8} {x : Nat} {b : Bool} {L : Nat → Bool} (e : matchStr w h bs x = .ok b) :
    matchStr (ext L w) h bs x = .ok b := by
  obtain ⟨sk, e1, e⟩ := bind_ok e
  obtain ⟨hk, e2, e⟩ := bind_ok e
  obtain ⟨ik, e3, e⟩ := bind_ok e
  unfold matchStr
  rw [getSk_ext e1, ok_bind, getHk_ext e2, ok_bind, getIk_ext e3, ok_bind]
  exact e

theorem findLoop_ext {w : W α} {m m' : Nat → CRes Bool} {L : Nat → Bool} (hm : ∀ x b, m x = .ok b → m' x = .ok b) :
    ∀ (k : Nat) (o r : Option Nat), findLoop w m k o = .ok r → findLoop (ext L w) m' k o = .ok r
  | 0, o, r, e => by cases e
  | k + 1, none, r, e => e
  | k + 1, some x, r, e => by
    obtain ⟨b, e1, e⟩ := bind_ok e
    show (m' x >>= _) = _
    rw [hm x b e1, ok_bind]
    split at e
    · rename_i c; rw [if_pos c]; exact e
    · rename_i c
      rw [if_neg c]
      obtain ⟨n, e2, e⟩ := bind_ok e
      rw [getHn_ext e2, ok_bind]
      exact findLoop_ext hm k n r e

theorem findIn_ext {w : W α} {h : Nat} {m m' : Nat → CRes Bool} {L : Nat → Bool} {r : Option Nat} (hm : ∀ x b, m x = .ok b → m' x = .ok b)
    (e : findIn w h m = .ok r) : findIn (ext L w) h m' = .ok r := by
  obtain ⟨b, e1, e⟩ := bind_ok e
  obtain ⟨f, e2, e⟩ := bind_ok e
  unfold findIn
  have e1 : slot (ext L w) h = .ok b := e1
  have e2 : rd (ext L w).tbl b = .ok f := e2
  rw [e1, ok_bind, e2, ok_bind]
  exact findLoop_ext hm _ f r e

theorem find_ext {hf : List UInt8 → Nat} {w : W α} {k : Key} {L : Nat → Bool} {r : Option Nat} (e : find hf w k = .ok r) :
    find hf (ext L w) k = .ok r := by
  cases k with
  | int i => exact findIn_ext (fun _ _ => matchInt_ext) e
  | str bs => exact findIn_ext (fun _ _ => matchStr_ext) e

theorem findNode_ext {hf : List UInt8 → Nat} {w : W α} {x : Nat} {L : Nat → Bool} {r : Option Nat} (e : findNode hf w x = .ok r) :
    findNode hf (ext L w) x = .ok r := by
  obtain ⟨h, e1, e⟩ := bind_ok e
  obtain ⟨sk, e2, e⟩ := bind_ok e
  obtain ⟨ik, e3, e⟩ := bind_ok e
  unfold findNode
  rw [cachedHash_ext e1, ok_bind, getSk_ext e2, ok_bind, getIk_ext e3, ok_bind]
  cases sk with
  | none => exact findIn_ext (fun _ _ => matchInt_ext) e
  | some buf =>
    obtain ⟨bs, e4, e⟩ := bind_ok e
    dsimp only
    rw [e4, ok_bind]
    exact findIn_ext (fun _ _ => matchStr_ext) e

theorem attachHash_loc {w w' : W α} {x : Nat} (e : attachHash w x = .ok w') : Fr w w' ∧ ∀ L, D L w → attachHash (ext L w) x = .ok (ext L w') := by
  obtain ⟨h, e1, e⟩ := bind_ok e
  obtain ⟨b, e2, e⟩ := bind_ok e
  obtain ⟨f, e3, e⟩ := bind_ok e
  obtain ⟨w1, e4, e⟩ := bind_ok e
  obtain ⟨w2, e5, e⟩ := bind_ok e
  obtain ⟨t, e6, e⟩ := bind_ok e
  cases e
  have l4 := setHn_loc e4
  have l5 := setHpOpt_loc e5
  have fr := l4.1.trans l5.1
  refine ⟨⟨fr.fresh, fun x h1 h2 => ⟨(fr.fr x h1 h2).1, ?_⟩⟩, fun L d => ?_⟩
  · obtain ⟨-, a1, a2, a3, a4, a5, a6, a7, a8⟩ := fr.fr x h1 h2
    exact ⟨a1, a2, a3, a4, a5, a6, a7, a8⟩
  · show attachHash _ _ = _
    unfold attachHash
    have e2 : slot (ext L w) h = .ok b := e2
    have e3 : rd (ext L w).tbl b = .ok f := e3
    have e6 : wr (ext L w2).tbl b (some x) = .ok t := e6
    rw [getHk_ext e1, ok_bind, e2, ok_bind, e3, ok_bind, l4.2 L d, ok_bind, l5.2 L (d.mono l4.1), ok_bind, e6, ok_bind]
    rfl

theorem rehashLoop_loc : ∀ (k : Nat) {w w' : W α} {o : Option Nat}, rehashLoop k w o = .ok w' → Fr w w' ∧ ∀ L, D L w → rehashLoop k (ext L w) o = .ok (ext L w')
  | 0, w, w', o, e => by cases e
  | k + 1, w, w', none, e => by cases e; exact ⟨Fr.rfl, fun _ _ => rfl⟩
  | k + 1, w, w', some x, e => by
    obtain ⟨w1, e1, e⟩ := bind_ok e
    obtain ⟨w2, e2, e⟩ := bind_ok e
    obtain ⟨n, e3, e⟩ := bind_ok e
    have l1 := setHp_loc e1
    have l2 := attachHash_loc e2
    have l3 := rehashLoop_loc k e
    refine ⟨(l1.1.trans l2.1).trans l3.1, fun L d => ?_⟩
    show (setHp (ext L w) x none >>= _) = _
    have e3 : getNx (ext L w2).lh x = .ok n := getNx_ext e3
    rw [l1.2 L d, ok_bind, l2.2 L (d.mono l1.1), ok_bind, e3, ok_bind]
    exact l3.2 L ((d.mono l1.1).mono l2.1)

/-- Changing the members of the hash object. -/
theorem Fr.obj {w w' : W α} (h : Fr w w') {w0 w0' : W α} (h0 : ∀ x, SameNode w w0 x) (h0' : ∀ x, SameNode w' w0' x) (f0 : w0.fresh = w.fresh)
    (f0' : w0'.fresh = w'.fresh) (v0 : w0.lh.live = w.lh.live) (v0' : w0'.lh.live = w'.lh.live) : Fr w0 w0' :=
  ⟨by rw [f0, f0']; exact h.fresh, fun x h1 h2 => by
    obtain ⟨g1, g2⟩ := h.fr x (by rw [← v0]; exact h1) (by rw [← f0]; exact h2)
    have a := h0 x
    have b := g2.trans (h0' x)
    exact ⟨by rw [v0']; exact g1, b.pv.trans a.pv.symm, b.nx.trans a.nx.symm, b.hp.trans a.hp.symm, b.hn.trans a.hn.symm, b.hk.trans a.hk.symm,
      b.ik.trans a.ik.symm, b.sk.trans a.sk.symm, b.val.trans a.val.symm⟩⟩

theorem resize_loc {w w' : W α} {n : Nat} {b : Bool} (e : resize w n = .ok (b, w')) : Fr w w' ∧ ∀ L, D L w → resize (ext L w) n = .ok (b, ext L w') := by
  unfold resize at e ⊢
  split at e
  · rename_i c
    cases e
    exact ⟨Fr.rfl, fun _ _ => if_pos c⟩
  · rename_i c
    obtain ⟨w1, e1, e⟩ := bind_ok e
    cases e
    have l1 := rehashLoop_loc _ e1
    refine ⟨l1.1.obj (fun _ => ⟨rfl, rfl, rfl, rfl, rfl, rfl, rfl, rfl⟩) (fun _ => ⟨rfl, rfl, rfl, rfl, rfl, rfl, rfl, rfl⟩) rfl rfl rfl rfl, fun L d => ?_⟩
    rw [if_neg c]
    have := l1.2 L d
    show (rehashLoop (w.fresh + 1) (ext L { w with tbl := List.replicate n none }) w.ends.first >>= _) = _
    rw [this]
    rfl

theorem growOrAttach_loc {w w' : W α} {x : Nat} (e : growOrAttach w x = .ok w') : Fr w w' ∧ ∀ L, D L w → growOrAttach (ext L w) x = .ok (ext L w') := by
  unfold growOrAttach at e ⊢
  split at e
  · rename_i p hp
    split at e
    · rename_i c
      obtain ⟨⟨b, w1⟩, e1, e⟩ := bind_ok e
      cases e
      have l1 := resize_loc e1
      refine ⟨l1.1, fun L d => ?_⟩
      have hp : primes[(ext L w).npp]? = some p := hp
      simp only [hp]
      rw [if_pos (show p ≤ (ext L w).num from c), l1.2 L d]
      rfl
    · rename_i c
      have l1 := attachHash_loc e
      refine ⟨l1.1, fun L d => ?_⟩
      have hp : primes[(ext L w).npp]? = some p := hp
      simp only [hp]
      rw [if_neg (show ¬ p ≤ (ext L w).num from c)]
      exact l1.2 L d
  · rename_i hp
    have l1 := attachHash_loc e
    refine ⟨l1.1, fun L d => ?_⟩
    have hp : primes[(ext L w).npp]? = none := hp
    simp only [hp]
    exact l1.2 L d

theorem attachedTest_ext {w : W α} {x : Nat} {b : Bool} {L : Nat → Bool} (e : attachedTest w x = .ok b) : attachedTest (ext L w) x = .ok b := by
  obtain ⟨p, e1, e⟩ := bind_ok e
  unfold attachedTest
  rw [getHp_ext e1, ok_bind]
  split at e
  · rename_i c; rw [if_pos c]; exact e
  · rename_i c
    rw [if_neg c]
    obtain ⟨n, e2, e⟩ := bind_ok e
    rw [getHn_ext e2, ok_bind]
    exact e

theorem live_of_getHk {w : W α} {x v : Nat} (e : getHk w x = .ok v) : w.lh.live x = true := by
  unfold getHk at e
  split at e
  · assumption
  · cases e

theorem cacheHash_loc {hf : List UInt8 → Nat} {w w' : W α} {x : Nat} (e : cacheHash hf w x = .ok w') : Fr w w' ∧ ∀ L, D L w → cacheHash hf (ext L w) x = .ok (ext L w') := by
  obtain ⟨h, e1, e⟩ := bind_ok e
  cases e
  obtain ⟨k, e2, -⟩ := bind_ok e1
  have hl := live_of_getHk e2
  refine ⟨⟨Nat.le_refl _, fun y hy _ => ⟨hy, rfl, rfl, rfl, rfl, upd_other _ _ (ne_of_dead hl hy), rfl, rfl, rfl⟩⟩, fun L d => ?_⟩
  show cacheHash _ _ _ = _
  unfold cacheHash
  rw [cachedHash_ext e1, ok_bind]
  rfl

theorem insertN_loc {hf : List UInt8 → Nat} {w w' : W α} {a : Bool} {n r : Option Nat} {x : Nat} (e : insertN hf w x (linkOf a n x) = .ok (r, w')) :
    Fr w w' ∧ ∀ L, D L w → insertN hf (ext L w) x (linkOf a n x) = .ok (r, ext L w') := by
  obtain ⟨b, e1, e⟩ := bind_ok e
  unfold insertN
  split at e
  · rename_i c
    cases e
    refine ⟨Fr.rfl, fun L d => ?_⟩
    rw [attachedTest_ext e1, ok_bind, if_pos c]
  · rename_i c
    obtain ⟨w1, e2, e⟩ := bind_ok e
    obtain ⟨f, e3, e⟩ := bind_ok e
    have l2 := cacheHash_loc e2
    split at e
    · rename_i c'
      cases e
      refine ⟨l2.1, fun L d => ?_⟩
      rw [attachedTest_ext e1, ok_bind, if_neg c, l2.2 L d, ok_bind, findNode_ext e3, ok_bind, if_pos c']
    · rename_i c'
      obtain ⟨w2, e4, e⟩ := bind_ok e
      cases e
      obtain ⟨⟨lh, en⟩, e5, e4⟩ := bind_ok e4
      have l5 := linkOf_loc e5
      have l6 := growOrAttach_loc e4
      have f5 : Fr w1 { w1 with lh := lh, ends := en, num := w1.num + 1 } :=
        ⟨Nat.le_refl _, fun y h1 _ => ⟨by show lh.live y = false; rw [l5.1.live]; exact h1, (l5.1.fr y h1).1, (l5.1.fr y h1).2, rfl, rfl, rfl, rfl, rfl, rfl⟩⟩
      refine ⟨(l2.1.trans f5).trans l6.1, fun L d => ?_⟩
      rw [attachedTest_ext e1, ok_bind, if_neg c, l2.2 L d, ok_bind, findNode_ext e3, ok_bind, if_neg c']
      unfold attachList
      have e5' : linkOf a n x (ext L w1).lh (ext L w1).ends = .ok (lext L lh, en) := l5.2 L
      rw [e5', ok_bind]
      have := l6.2 L ((d.mono l2.1).mono f5)
      show (growOrAttach (ext L { w1 with lh := lh, ends := en, num := w1.num + 1 }) x >>= _) = _
      rw [this]
      rfl

theorem deleteNode_loc {w w' : W α} {x : Nat} (e : deleteNode w x = .ok w') : Fr w w' ∧ ∀ L, D L w → deleteNode (ext L w) x = .ok (ext L w') := by
  unfold deleteNode at e
  split at e
  · rename_i hl
    cases e
    refine ⟨⟨Nat.le_refl _, fun y hy _ => ⟨?_, rfl, rfl, rfl, rfl, rfl, rfl, rfl, rfl⟩⟩, fun L d => ?_⟩
    · show upd w.lh.live x false y = false
      rw [upd_other _ _ (ne_of_dead hl hy)]
      exact hy
    · show deleteNode _ _ = _
      unfold deleteNode
      rw [if_pos (by simp [ext, lext, hl])]
      have : upd (fun y => w.lh.live y || L y) x false = fun y => upd w.lh.live x false y || L y := by
        funext y
        by_cases c : y = x
        · subst c
          simp only [upd_same, Bool.false_or]
          cases hL : L y with
          | false => rfl
          | true => have := (d y hL).1; rw [hl] at this; cases this
        · rw [upd_other _ _ c, upd_other _ _ c]
      simp only [ext, lext, this]
  · cases e

theorem createNode_loc (w : W α) (k : Key) (v : α) : Fr w (createNode w k v).2 ∧
    ∀ L, D L w → createNode (ext L w) k v = ((createNode w k v).1, ext L (createNode w k v).2) := by
  refine ⟨⟨Nat.le_succ _, fun y hy hlt => ?_⟩, fun L d => ?_⟩
  · have hne : y ≠ w.fresh := Nat.ne_of_lt hlt
    exact ⟨(upd_other _ _ hne).trans hy, upd_other _ _ hne, upd_other _ _ hne, upd_other _ _ hne, upd_other _ _ hne, upd_other _ _ hne,
      upd_other _ _ hne, upd_other _ _ hne, upd_other _ _ hne⟩
  · have : upd (fun y => w.lh.live y || L y) w.fresh true = fun y => upd w.lh.live w.fresh true y || L y := by
      funext y
      by_cases c : y = w.fresh
      · subst c; simp
      · rw [upd_other _ _ c, upd_other _ _ c]
    simp only [createNode, ext, lext, this]

theorem insertV_loc {hf : List UInt8 → Nat} {w w' : W α} {a : Bool} {n r : Option Nat} {k : Key} {v : α} (e : insertV hf w a n k v = .ok (r, w')) :
    Fr w w' ∧ ∀ L, D L w → insertV hf (ext L w) a n k v = .ok (r, ext L w') := by
  obtain ⟨⟨r1, w1⟩, e1, e⟩ := bind_ok e
  have l0 := createNode_loc w k v
  have l1 := insertN_loc e1
  unfold insertV
  cases r1 with
  | some y =>
    cases e
    refine ⟨l0.1.trans l1.1, fun L d => ?_⟩
    dsimp only
    rw [l0.2 L d]
    dsimp only
    rw [l1.2 L (d.mono l0.1)]
    rfl
  | none =>
    obtain ⟨w2, e2, e⟩ := bind_ok e
    cases e
    have l2 := deleteNode_loc e2
    refine ⟨(l0.1.trans l1.1).trans l2.1, fun L d => ?_⟩
    dsimp only
    rw [l0.2 L d]
    dsimp only
    rw [l1.2 L (d.mono l0.1), ok_bind]
    dsimp only
    rw [l2.2 L ((d.mono l0.1).mono l1.1)]
    rfl

theorem unhashPrev_loc {w w' : W α} {x b : Nat} (e : unhashPrev w x b = .ok w') : Fr w w' ∧ ∀ L, D L w → unhashPrev (ext L w) x b = .ok (ext L w') := by
  obtain ⟨p, e1, e⟩ := bind_ok e
  obtain ⟨n, e2, e⟩ := bind_ok e
  unfold unhashPrev
  cases p with
  | some y =>
    have l3 := setHn_loc e
    refine ⟨l3.1, fun L d => ?_⟩
    rw [getHp_ext e1, ok_bind, getHn_ext e2, ok_bind]
    exact l3.2 L d
  | none =>
    obtain ⟨f, e3, e⟩ := bind_ok e
    split at e
    · rename_i c
      obtain ⟨t, e4, e⟩ := bind_ok e
      cases e
      refine ⟨⟨Nat.le_refl _, fun y hy _ => ⟨hy, rfl, rfl, rfl, rfl, rfl, rfl, rfl, rfl⟩⟩, fun L d => ?_⟩
      have e3 : rd (ext L w).tbl b = .ok f := e3
      have e4 : wr (ext L w).tbl b n = .ok t := e4
      rw [getHp_ext e1, ok_bind, getHn_ext e2, ok_bind]
      dsimp only
      rw [e3, ok_bind, if_pos c, e4, ok_bind]
      rfl
    · rename_i c
      cases e
      refine ⟨Fr.rfl, fun L d => ?_⟩
      have e3 : rd (ext L w).tbl b = .ok f := e3
      rw [getHp_ext e1, ok_bind, getHn_ext e2, ok_bind]
      dsimp only
      rw [e3, ok_bind, if_neg c]

theorem unhash_loc {w w' : W α} {x : Nat} (e : unhash w x = .ok w') : Fr w w' ∧ ∀ L, D L w → unhash (ext L w) x = .ok (ext L w') := by
  obtain ⟨h, e1, e⟩ := bind_ok e
  obtain ⟨b, e2, e⟩ := bind_ok e
  obtain ⟨w1, e3, e⟩ := bind_ok e
  obtain ⟨n, e4, e⟩ := bind_ok e
  obtain ⟨p, e5, e⟩ := bind_ok e
  obtain ⟨w2, e6, e⟩ := bind_ok e
  obtain ⟨w3, e7, e⟩ := bind_ok e
  have l3 := unhashPrev_loc e3
  have l6 := setHpOpt_loc e6
  have l7 := setHp_loc e7
  have l8 := setHn_loc e
  refine ⟨((l3.1.trans l6.1).trans l7.1).trans l8.1, fun L d => ?_⟩
  show unhash _ _ = _
  unfold unhash
  have e2 : slot (ext L w) h = .ok b := e2
  rw [getHk_ext e1, ok_bind, e2, ok_bind, l3.2 L d, ok_bind, getHn_ext e4, ok_bind, getHp_ext e5, ok_bind, l6.2 L (d.mono l3.1), ok_bind,
    l7.2 L ((d.mono l3.1).mono l6.1), ok_bind]
  exact l8.2 L (((d.mono l3.1).mono l6.1).mono l7.1)

theorem live_of_setHn {w w' : W α} {x : Nat} {v : Option Nat} (e : setHn w x v = .ok w') : w'.lh.live x = true := by
  unfold setHn at e
  split at e
  · cases e; assumption
  · cases e

theorem unhash_live {w w' : W α} {x : Nat} (e : unhash w x = .ok w') : w'.lh.live x = true := by
  obtain ⟨h, e1, e⟩ := bind_ok e
  obtain ⟨b, e2, e⟩ := bind_ok e
  obtain ⟨w1, e3, e⟩ := bind_ok e
  obtain ⟨n, e4, e⟩ := bind_ok e
  obtain ⟨p, e5, e⟩ := bind_ok e
  obtain ⟨w2, e6, e⟩ := bind_ok e
  obtain ⟨w3, e7, e⟩ := bind_ok e
  exact live_of_setHn e

/-- Resetting the hash key of a live node. -/
theorem Fr.reset {w : W α} {x : Nat} (hl : w.lh.live x = true) (reset : Bool) : Fr w (if reset then { w with hk := upd w.hk x 0 } else w) := by
  cases reset with
  | false => exact Fr.rfl
  | true => exact ⟨Nat.le_refl _, fun y hy _ => ⟨hy, Eq.refl _, Eq.refl _, Eq.refl _, Eq.refl _, upd_other _ _ (ne_of_dead hl hy), Eq.refl _, Eq.refl _, Eq.refl _⟩⟩

theorem ext_reset {w : W α} {x : Nat} {reset : Bool} {L : Nat → Bool} :
    (if reset then { ext L w with hk := upd (ext L w).hk x 0 } else ext L w) = ext L (if reset then { w with hk := upd w.hk x 0 } else w) := by
  cases reset <;> rfl

theorem detach_loc {w w' : W α} {o : Option Nat} {reset b : Bool} (e : detach w o reset = .ok (b, w')) : Fr w w' ∧ ∀ L, D L w → detach (ext L w) o reset = .ok (b, ext L w') := by
  cases o with
  | none => cases e; exact ⟨Fr.rfl, fun _ _ => rfl⟩
  | some x =>
    obtain ⟨⟨lh, en⟩, e1, e⟩ := bind_ok e
    obtain ⟨w1, e2, e⟩ := bind_ok e
    cases e
    have l1 := unlink_loc e1
    have l2 := unhash_loc e2
    have f1 : Fr w { w with lh := lh, ends := en, num := dec w.num } :=
      ⟨Nat.le_refl _, fun y h1 _ => ⟨by show lh.live y = false; rw [l1.1.live]; exact h1, (l1.1.fr y h1).1, (l1.1.fr y h1).2, rfl, rfl, rfl, rfl, rfl, rfl⟩⟩
    refine ⟨(f1.trans l2.1).trans (Fr.reset (unhash_live e2) reset), fun L d => ?_⟩
    show (unlink (ext L w).lh (ext L w).ends x >>= _) = _
    have e1' : unlink (ext L w).lh (ext L w).ends x = .ok (lext L lh, en) := l1.2 L
    rw [e1', ok_bind]
    have := l2.2 L (d.mono f1)
    show (unhash (ext L { w with lh := lh, ends := en, num := dec w.num }) x >>= _) = _
    rw [this, ok_bind, ext_reset]

theorem remove_loc {w w' : W α} {o : Option Nat} {b : Bool} (e : remove w o = .ok (b, w')) : Fr w w' ∧ ∀ L, D L w → remove (ext L w) o = .ok (b, ext L w') := by
  obtain ⟨⟨b1, w1⟩, e1, e⟩ := bind_ok e
  have l1 := detach_loc e1
  unfold remove
  cases b1 with
  | false =>
    cases e
    refine ⟨l1.1, fun L d => ?_⟩
    dsimp only
    rw [l1.2 L d]
    rfl
  | true =>
    cases o with
    | none => cases e1
    | some x =>
      obtain ⟨w2, e2, e⟩ := bind_ok e
      cases e
      have l2 := deleteNode_loc e2
      refine ⟨l1.1.trans l2.1, fun L d => ?_⟩
      dsimp only
      rw [l1.2 L d, ok_bind]
      dsimp only
      rw [l2.2 L (d.mono l1.1)]
      rfl

theorem emptyLoop_loc : ∀ (k : Nat) {w w' : W α} {o : Option Nat}, emptyLoop k w o = .ok w' → Fr w w' ∧ ∀ L, D L w → emptyLoop k (ext L w) o = .ok (ext L w')
  | 0, w, w', o, e => by cases e
  | k + 1, w, w', none, e => by cases e; exact ⟨Fr.rfl, fun _ _ => rfl⟩
  | k + 1, w, w', some x, e => by
    obtain ⟨n, e1, e⟩ := bind_ok e
    obtain ⟨w1, e2, e⟩ := bind_ok e
    have l2 := deleteNode_loc e2
    have l3 := emptyLoop_loc k e
    refine ⟨l2.1.trans l3.1, fun L d => ?_⟩
    show (getNx (ext L w).lh x >>= _) = _
    have e1 : getNx (ext L w).lh x = .ok n := getNx_ext e1
    rw [e1, ok_bind, l2.2 L d, ok_bind]
    exact l3.2 L (d.mono l2.1)

theorem releaseLoop_loc {reset : Bool} : ∀ (k : Nat) {w w' : W α} {o : Option Nat}, releaseLoop reset k w o = .ok w' →
    Fr w w' ∧ ∀ L, D L w → releaseLoop reset k (ext L w) o = .ok (ext L w')
  | 0, w, w', o, e => by cases e
  | k + 1, w, w', none, e => by cases e; exact ⟨Fr.rfl, fun _ _ => rfl⟩
  | k + 1, w, w', some x, e => by
    obtain ⟨n, e1, e⟩ := bind_ok e
    obtain ⟨w1, e2, e⟩ := bind_ok e
    obtain ⟨w2, e3, e⟩ := bind_ok e
    have l2 := setHp_loc e2
    have l3 := setHn_loc e3
    have f4 := Fr.reset (live_of_setHn e3) reset
    have l5 := releaseLoop_loc k e
    refine ⟨((l2.1.trans l3.1).trans f4).trans l5.1, fun L d => ?_⟩
    show (getNx (ext L w).lh x >>= _) = _
    have e1 : getNx (ext L w).lh x = .ok n := getNx_ext e1
    rw [e1, ok_bind, l2.2 L d, ok_bind, l3.2 L (d.mono l2.1), ok_bind, ext_reset]
    exact l5.2 L (((d.mono l2.1).mono l3.1).mono f4)

theorem same_refl8 {w w' : W α} (h : w'.lh = w.lh) (h1 : w'.hp = w.hp) (h2 : w'.hn = w.hn) (h3 : w'.hk = w.hk) (h4 : w'.ik = w.ik)
    (h5 : w'.sk = w.sk) (h6 : w'.val = w.val) (x : Nat) : SameNode w w' x :=
  ⟨by rw [h], by rw [h], by rw [h1], by rw [h2], by rw [h3], by rw [h4], by rw [h5], by rw [h6]⟩

theorem empty_loc {w w' : W α} (e : empty w = .ok w') : Fr w w' ∧ ∀ L, D L w → empty (ext L w) = .ok (ext L w') := by
  obtain ⟨w1, e1, e⟩ := bind_ok e
  cases e
  have l1 := emptyLoop_loc _ e1
  refine ⟨l1.1.obj (fun _ => SameNode.rfl) (same_refl8 rfl rfl rfl rfl rfl rfl rfl) rfl rfl rfl rfl, fun L d => ?_⟩
  show (emptyLoop (w.fresh + 1) (ext L w) w.ends.first >>= _) = _
  rw [l1.2 L d]
  rfl

theorem release_loc {w w' : W α} {reset : Bool} (e : release w reset = .ok w') : Fr w w' ∧ ∀ L, D L w → release (ext L w) reset = .ok (ext L w') := by
  obtain ⟨w1, e1, e⟩ := bind_ok e
  cases e
  have l1 := releaseLoop_loc _ e1
  refine ⟨l1.1.obj (fun _ => SameNode.rfl) (same_refl8 rfl rfl rfl rfl rfl rfl rfl) rfl rfl rfl rfl, fun L d => ?_⟩
  show (releaseLoop reset (w.fresh + 1) (ext L w) w.ends.first >>= _) = _
  rw [l1.2 L d]
  rfl

/-- Nodes that do not exist for a call neither change it nor are changed by it. -/
theorem step_loc {hf : List UInt8 → Nat} {w w' : W α} {op : Op α} {r : Ret} (e : step hf w op = .ok (r, w')) : Fr w w' ∧ ∀ L, D L w → step hf (ext L w) op = .ok (r, ext L w') := by
  cases op with
  | create k v =>
    cases e
    refine ⟨(createNode_loc w k v).1, fun L d => ?_⟩
    show Except.ok _ = _
    rw [(createNode_loc w k v).2 L d]
  | delete x =>
    obtain ⟨w1, e1, e⟩ := bind_ok e
    cases e
    have l := deleteNode_loc e1
    refine ⟨l.1, fun L d => ?_⟩
    show (deleteNode (ext L w) x >>= _) = _
    rw [l.2 L d]
    rfl
  | setKey x k =>
    cases k with
    | int i =>
      obtain ⟨w1, e1, e⟩ := bind_ok e
      cases e
      unfold setIntKey at e1
      split at e1
      · rename_i hl
        cases e1
        refine ⟨⟨Nat.le_refl _, fun y hy _ => ⟨hy, rfl, rfl, rfl, rfl, upd_other _ _ (ne_of_dead hl hy), upd_other _ _ (ne_of_dead hl hy),
          upd_other _ _ (ne_of_dead hl hy), rfl⟩⟩, fun L d => ?_⟩
        show (setIntKey (ext L w) x i >>= _) = _
        unfold setIntKey
        rw [if_pos (by simp [ext, lext, hl])]
        rfl
      · cases e1
    | str bs =>
      obtain ⟨w1, e1, e⟩ := bind_ok e
      cases e
      unfold setStrKey at e1
      split at e1
      · rename_i hl
        obtain ⟨buf, e2, e1⟩ := bind_ok e1
        cases e1
        refine ⟨⟨Nat.le_refl _, fun y hy _ => ⟨hy, rfl, rfl, rfl, rfl, upd_other _ _ (ne_of_dead hl hy), upd_other _ _ (ne_of_dead hl hy),
          upd_other _ _ (ne_of_dead hl hy), rfl⟩⟩, fun L d => ?_⟩
        show (setStrKey (ext L w) x bs >>= _) = _
        unfold setStrKey
        rw [if_pos (by simp [ext, lext, hl])]
        have e2 : copyStr ((ext L w).sk x) ((ext L w).ik x) bs = .ok buf := e2
        rw [e2]
        rfl
      · cases e1
  | setValue x v =>
    unfold step at e
    dsimp only at e
    split at e
    · rename_i hl
      cases e
      refine ⟨⟨Nat.le_refl _, fun y hy _ => ⟨hy, rfl, rfl, rfl, rfl, rfl, rfl, rfl, upd_other _ _ (ne_of_dead hl hy)⟩⟩, fun L d => ?_⟩
      show (if (ext L w).lh.live x = true then _ else _) = _
      rw [if_pos (by simp [ext, lext, hl])]
      rfl
    · cases e
  | insert a n k v =>
    obtain ⟨⟨r1, w1⟩, e1, e⟩ := bind_ok e
    cases e
    have l := insertV_loc e1
    refine ⟨l.1, fun L d => ?_⟩
    show (insertV hf (ext L w) a n k v >>= _) = _
    rw [l.2 L d]
    rfl
  | insertNode a n x =>
    obtain ⟨⟨r1, w1⟩, e1, e⟩ := bind_ok e
    cases e
    have l := insertN_loc e1
    refine ⟨l.1, fun L d => ?_⟩
    show (insertN hf (ext L w) x (linkOf a n x) >>= _) = _
    rw [l.2 L d]
    rfl
  | pop reset =>
    obtain ⟨⟨b, w1⟩, e1, e⟩ := bind_ok e
    cases e
    have l := detach_loc e1
    refine ⟨l.1, fun L d => ?_⟩
    show (detach (ext L w) w.ends.last reset >>= _) = _
    rw [l.2 L d]
    rfl
  | shift reset =>
    obtain ⟨⟨b, w1⟩, e1, e⟩ := bind_ok e
    cases e
    have l := detach_loc e1
    refine ⟨l.1, fun L d => ?_⟩
    show (detach (ext L w) w.ends.first reset >>= _) = _
    rw [l.2 L d]
    rfl
  | detach x reset =>
    obtain ⟨⟨b, w1⟩, e1, e⟩ := bind_ok e
    cases e
    have l := detach_loc e1
    refine ⟨l.1, fun L d => ?_⟩
    show (detach (ext L w) x reset >>= _) = _
    rw [l.2 L d]
    rfl
  | remove x =>
    obtain ⟨⟨b, w1⟩, e1, e⟩ := bind_ok e
    cases e
    have l := remove_loc e1
    refine ⟨l.1, fun L d => ?_⟩
    show (remove (ext L w) x >>= _) = _
    rw [l.2 L d]
    rfl
  | empty =>
    obtain ⟨w1, e1, e⟩ := bind_ok e
    cases e
    have l := empty_loc e1
    refine ⟨l.1, fun L d => ?_⟩
    show (empty (ext L w) >>= _) = _
    rw [l.2 L d]
    rfl
  | release reset =>
    obtain ⟨w1, e1, e⟩ := bind_ok e
    cases e
    have l := release_loc e1
    refine ⟨l.1, fun L d => ?_⟩
    show (release (ext L w) reset >>= _) = _
    rw [l.2 L d]
    rfl
  | find k =>
    obtain ⟨f, e1, e⟩ := bind_ok e
    cases e
    refine ⟨Fr.rfl, fun L d => ?_⟩
    show (find hf (ext L w) k >>= _) = _
    rw [find_ext e1]
    rfl
  | findNode x =>
    obtain ⟨f, e1, e⟩ := bind_ok e
    cases e
    refine ⟨Fr.rfl, fun L d => ?_⟩
    show (findNode hf (ext L w) x >>= _) = _
    rw [findNode_ext e1]
    rfl
  | resize n =>
    obtain ⟨⟨b, w1⟩, e1, e⟩ := bind_ok e
    cases e
    have l := resize_loc e1
    refine ⟨l.1, fun L d => ?_⟩
    show (resize (ext L w) n >>= _) = _
    rw [l.2 L d]
    rfl
  | size => cases e; exact ⟨Fr.rfl, fun _ _ => rfl⟩

end Verif.OrderedHash
