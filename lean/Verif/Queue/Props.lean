import Verif.Queue.Spec
import Verif.DList.Props

/-!
# Property C17 of `Queue`

The proof adds ghost `PrevNode` links: a queue call does to `NextNode`, `Value` and the objects what the corresponding
`List` call does, so the refinement proved for `List` carries over.
-/

namespace Verif.Queue
open Verif.Links
open Verif.DList (Obj Ret R getObj_ok seq_some bind_some seqs_set)
open Verif.DList.Spec (S seq setSeq create pushAll place)

variable {α : Type}

/-- Forget the ghost `PrevNode`. -/
def strip (w : DList.W α) : W α :=
  { live := w.lh.live, nx := w.lh.nx, val := w.val, fresh := w.fresh, objs := w.objs }

@[simp] theorem getObj_strip (w : DList.W α) (l : Nat) : getObj (strip w) l = DList.getObj w l := rfl
@[simp] theorem getVal_strip (w : DList.W α) (x : Nat) : getVal (strip w) x = DList.getVal w x := rfl
@[simp] theorem getNext_strip (w : DList.W α) (x : Nat) : getNext (strip w) x = getNx w.lh x := rfl
@[simp] theorem createNode_strip (w : DList.W α) (v : α) :
    createNode (strip w) v = ((DList.createNode w v).1, strip (DList.createNode w v).2) := rfl
theorem construct_strip (w : DList.W α) : construct (strip w) = strip (DList.construct w) := rfl

theorem bind_ok {β γ : Type} {m : CRes β} {f : β → CRes γ} {c : γ} (h : (m >>= f) = .ok c) :
    ∃ b, m = .ok b ∧ f b = .ok c := by
  cases m with
  | error e => cases h
  | ok b => exact ⟨b, rfl, h⟩

theorem setNx_inv {h h' : LH} {x : Nat} {v : Option Nat} (e : setNx h x v = .ok h') :
    h.live x = true ∧ h' = { h with nx := upd h.nx x v } := by
  unfold setNx at e
  split at e
  · cases e; exact ⟨by assumption, rfl⟩
  · cases e

theorem setPv_inv {h h' : LH} {x : Nat} {v : Option Nat} (e : setPv h x v = .ok h') :
    h.live x = true ∧ h' = { h with pv := upd h.pv x v } := by
  unfold setPv at e
  split at e
  · cases e; exact ⟨by assumption, rfl⟩
  · cases e

theorem getNx_inv {h : LH} {x : Nat} {v : Option Nat} (e : getNx h x = .ok v) : h.live x = true ∧ v = h.nx x := by
  unfold getNx at e
  split at e
  · cases e; exact ⟨by assumption, rfl⟩
  · cases e

theorem setPvOpt_inv {h h' : LH} {p v : Option Nat} (e : setPvOpt h p v = .ok h') : h'.live = h.live ∧ h'.nx = h.nx := by
  unfold setPvOpt at e
  split at e
  · cases e; exact ⟨rfl, rfl⟩
  · obtain ⟨_, rfl⟩ := setPv_inv e; exact ⟨rfl, rfl⟩

/-- The tail of `Push`. -/
def finishPush (w : W α) (l : Nat) (o : Obj) (x : Nat) : CRes (Option Nat × W α) := do
  let w ← linkLast w o.ends.last x
  .ok (some x, setObj w l { o with
    ends := { first := if o.ends.first = none then some x else o.ends.first, last := some x }, num := o.num + 1 })

theorem finishPush_sim {w w' : DList.W α} {l x : Nat} {o : Obj}
    (h : DList.attach w l o (linkBefore w.lh o.ends none x) = .ok w') : finishPush (strip w) l o x = .ok (some x, strip w') := by
  unfold DList.attach linkBefore at h
  obtain ⟨⟨h1, e1⟩, ha, hb⟩ := bind_ok h
  cases hb
  obtain ⟨h2, hc, ha⟩ := bind_ok ha
  obtain ⟨h3, hd, ha⟩ := bind_ok ha
  cases ha
  obtain ⟨hlx, rfl⟩ := setPv_inv hc
  unfold finishPush linkLast
  unfold setNxOpt at hd
  cases hl : o.ends.last with
  | none =>
    rw [hl] at hd
    cases hd
    rfl
  | some a =>
    rw [hl] at hd
    obtain ⟨hla, rfl⟩ := setNx_inv hd
    have : (strip w).live a = true := hla
    simp only [setNext, this, if_true, ok_bind]
    rfl

/-- The tail of `Unshift`. -/
def finishUnshift (w : W α) (l : Nat) (o : Obj) (x : Nat) : CRes (Option Nat × W α) := do
  let w ← setNext w x o.ends.first
  .ok (some x, setObj w l { o with
    ends := { first := some x, last := if o.ends.last = none then some x else o.ends.last }, num := o.num + 1 })

theorem finishUnshift_sim {w w' : DList.W α} {l x : Nat} {o : Obj}
    (h : DList.attach w l o (linkAfter w.lh o.ends none x) = .ok w') :
    finishUnshift (strip w) l o x = .ok (some x, strip w') := by
  unfold DList.attach linkAfter at h
  obtain ⟨⟨h1, e1⟩, ha, hb⟩ := bind_ok h
  cases hb
  obtain ⟨h2, hc, ha⟩ := bind_ok ha
  obtain ⟨h3, hd, ha⟩ := bind_ok ha
  cases ha
  obtain ⟨hlx, rfl⟩ := setNx_inv hc
  obtain ⟨e1, e2⟩ := setPvOpt_inv hd
  have : (strip w).live x = true := hlx
  unfold finishUnshift
  simp only [setNext, this, if_true, ok_bind]
  simp only [setObj, strip, DList.setObj, e1, e2]

theorem pushV_sim {w w' : DList.W α} {l : Nat} {v : α} {r : Option Nat}
    (h : DList.insertBeforeV w l none v = .ok (r, w')) : pushV (strip w) l v = .ok (r, strip w') := by
  unfold DList.insertBeforeV at h
  obtain ⟨o, ho, h⟩ := bind_ok h
  obtain ⟨w1, h1, h⟩ := bind_ok h
  cases h
  have := finishPush_sim h1
  unfold pushV pushN
  simp only [createNode_strip, getObj_strip]
  have e : DList.getObj (DList.createNode w v).2 l = .ok o := ho
  rw [e]
  have hn : getNx (DList.createNode w v).2.lh (DList.createNode w v).1 = .ok none := by simp [getNx, DList.createNode]
  simp only [ok_bind, getNext_strip, hn, Option.isSome_none]
  exact this

theorem unshiftV_sim {w w' : DList.W α} {l : Nat} {v : α} {r : Option Nat}
    (h : DList.insertAfterV w l none v = .ok (r, w')) : unshiftV (strip w) l v = .ok (r, strip w') := by
  unfold DList.insertAfterV at h
  obtain ⟨o, ho, h⟩ := bind_ok h
  obtain ⟨w1, h1, h⟩ := bind_ok h
  cases h
  have := finishUnshift_sim h1
  unfold unshiftV unshiftN
  simp only [createNode_strip, getObj_strip]
  have e : DList.getObj (DList.createNode w v).2 l = .ok o := ho
  rw [e]
  have hn : getNx (DList.createNode w v).2.lh (DList.createNode w v).1 = .ok none := by simp [getNx, DList.createNode]
  simp only [ok_bind, getNext_strip, hn, Option.isSome_none]
  exact this

theorem detach_first_sim {w w' : DList.W α} {l x : Nat} {o : Obj} (ho : DList.getObj w l = .ok o)
    (hf : o.ends.first = some x) {b : Bool} (h : DList.detach w l (some x) = .ok (b, w')) :
    shift (strip w) l = .ok (some x, strip w') := by
  unfold DList.detach at h
  rw [ho] at h
  simp only [ok_bind] at h
  obtain ⟨⟨h1, e1⟩, ha, hb⟩ := bind_ok h
  cases hb
  unfold unlink at ha
  obtain ⟨⟨h2, e2⟩, hc, ha⟩ := bind_ok ha
  obtain ⟨h3, hd, ha⟩ := bind_ok ha
  obtain ⟨h4, he, ha⟩ := bind_ok ha
  cases ha
  unfold unlinkEnds at hc
  rw [if_pos hf.symm] at hc
  obtain ⟨f, hg, hc⟩ := bind_ok hc
  obtain ⟨hlx, rfl⟩ := getNx_inv hg
  obtain ⟨-, rfl⟩ := setNx_inv hd
  obtain ⟨-, rfl⟩ := setPv_inv he
  have hlx' : (strip w).live x = true := hlx
  unfold shift
  simp only [getObj_strip, ho, ok_bind, hf, getNext_strip, hg, setNext, hlx', if_true]
  cases hn : w.lh.nx x with
  | none =>
    rw [hn] at hc
    cases hc
    rfl
  | some y =>
    rw [hn] at hc
    obtain ⟨h5, hi, hc⟩ := bind_ok hc
    cases hc
    obtain ⟨-, rfl⟩ := setPv_inv hi
    rfl

theorem shift_sim {w w' : DList.W α} {l : Nat} {r : Option Nat} (h : DList.shift w l = .ok (r, w')) :
    shift (strip w) l = .ok (r, strip w') := by
  unfold DList.shift at h
  obtain ⟨o, ho, h⟩ := bind_ok h
  obtain ⟨⟨b, w1⟩, h1, h⟩ := bind_ok h
  cases h
  cases hf : o.ends.first with
  | none =>
    rw [hf] at h1
    cases h1
    simp [shift, ho, hf]
  | some x =>
    rw [hf] at h1
    exact detach_first_sim ho hf h1

theorem deleteNode_sim {w w' : DList.W α} {x : Nat} (h : DList.deleteNode w x = .ok w') :
    deleteNode (strip w) x = .ok (strip w') := by
  unfold DList.deleteNode at h
  split at h
  next hl =>
    cases h
    have : (strip w).live x = true := hl
    simp only [deleteNode, this, if_true]; rfl
  next => cases h

theorem emptyLoop_sim : ∀ (k : Nat) {w w' : DList.W α} {l : Nat}, DList.emptyLoop k w l = .ok w' →
    emptyLoop k (strip w) l = .ok (strip w')
  | k + 1, w, w', l, h => by
    unfold DList.emptyLoop at h
    obtain ⟨o, ho, h⟩ := bind_ok h
    unfold emptyLoop
    simp only [getObj_strip, ho, ok_bind]
    cases hf : o.ends.first with
    | none => rw [hf] at h; cases h; rfl
    | some f =>
      rw [hf] at h
      obtain ⟨⟨b, w1⟩, h1, h⟩ := bind_ok h
      unfold DList.remove at h1
      obtain ⟨⟨b2, w2⟩, h2, h1⟩ := bind_ok h1
      have hs := detach_first_sim ho hf h2
      have hb2 : b2 = true := by
        unfold DList.detach at h2
        obtain ⟨_, _, h2⟩ := bind_ok h2
        obtain ⟨_, _, h2⟩ := bind_ok h2
        cases h2; rfl
      subst hb2
      obtain ⟨w3, h3, h1⟩ := bind_ok h1
      cases h1
      simp only [hs, ok_bind, deleteNode_sim h3]
      exact emptyLoop_sim k h

theorem empty_sim {w w' : DList.W α} {l : Nat} (h : DList.empty w l = .ok w') : empty (strip w) l = .ok (strip w') := by
  unfold DList.empty at h
  obtain ⟨w1, h1, h⟩ := bind_ok h
  obtain ⟨o, ho, h⟩ := bind_ok h
  cases h
  unfold empty
  rw [show (strip w).fresh = w.fresh from rfl, emptyLoop_sim _ h1]
  simp only [ok_bind, getObj_strip, ho]
  rfl

theorem copyLoop_sim : ∀ (k : Nat) {w w' : DList.W α} {n : Option Nat} {d : Nat}, DList.copyLoop k w n d = .ok w' →
    copyLoop k (strip w) n d = .ok (strip w')
  | k + 1, w, w', none, d, h => by cases h; rfl
  | k + 1, w, w', some x, d, h => by
    unfold DList.copyLoop at h
    obtain ⟨v, hv, h⟩ := bind_ok h
    obtain ⟨⟨r, w1⟩, h1, h⟩ := bind_ok h
    obtain ⟨n, hn, h⟩ := bind_ok h
    unfold copyLoop
    simp only [getVal_strip, hv, ok_bind, pushV_sim h1, getNext_strip, hn]
    exact copyLoop_sim k h

theorem detachAll_sim {w w' : DList.W α} {d t : Nat} (h : DList.detachAllAndAppend w d t = .ok w') :
    detachAllAndAppend (strip w) d t = .ok (strip w') := by
  unfold DList.detachAllAndAppend at h
  obtain ⟨o, ho, h⟩ := bind_ok h
  obtain ⟨p, hp, h⟩ := bind_ok h
  unfold detachAllAndAppend
  simp only [getObj_strip, ho, hp, ok_bind]
  cases hf : p.ends.first with
  | none => rw [hf] at h; cases h; rfl
  | some tf =>
    rw [hf] at h
    simp only at h ⊢
    cases hl : o.ends.last with
    | none => rw [hl] at h; cases h; rfl
    | some dl =>
      rw [hl] at h
      obtain ⟨h1, ha, h⟩ := bind_ok h
      obtain ⟨h2, hb, h⟩ := bind_ok h
      cases h
      obtain ⟨hld, rfl⟩ := setNx_inv ha
      obtain ⟨-, rfl⟩ := setPv_inv hb
      have : (strip w).live dl = true := hld
      simp only [setNext, this, if_true, ok_bind]
      rfl

/-! ## Every call follows the specification -/

/-- The world represents the abstract state: with suitable ghost links it is a world of lists. -/
def Q (w : W α) (s : S α) : Prop := ∃ lw, w = strip lw ∧ R lw s

theorem next_of_notLast {w : DList.W α} {s : S α} (r : R w s) {x : Nat} (hx : Spec.attachedNotLast s x = true) :
    ∃ y, getNx w.lh x = .ok (some y) := by
  unfold Spec.attachedNotLast at hx
  rw [List.any_eq_true] at hx
  obtain ⟨q, hq, hx⟩ := hx
  cases q with
  | none => simp at hx
  | some xs =>
    simp only [decide_eq_true_eq] at hx
    obtain ⟨l, hl⟩ := List.getElem?_of_mem hq
    obtain ⟨o, -, -, hc, -⟩ := r.obj hl
    rcases List.eq_nil_or_concat xs with rfl | ⟨ys, z, rfl⟩
    · simp at hx
    · simp only [List.concat_eq_append, List.dropLast_concat] at hx hc
      obtain ⟨as, bs, rfl⟩ := List.append_of_mem hx
      have hs := hc.seg
      rw [List.append_assoc, List.cons_append] at hs
      have hs := (seg_append _ _ _ _ _ _).1 hs
      have hnx : w.lh.nx x = (bs ++ [z]).head? := by have := hs.2.2.1; simpa using this
      have hlx := hc.live x (by simp)
      cases bs with
      | nil => exact ⟨z, by simp [getNx, hlx, hnx]⟩
      | cons b bs => exact ⟨b, by simp [getNx, hlx, hnx]⟩

theorem insertVal_push {s s' : S α} {l : Nat} {v : α} {ret : Ret} (h : Spec.insertVal s l v (· ++ [s.fresh]) = some (ret, s')) :
    DList.Spec.step s (.insertBeforeV l none v) = some (ret, s') := by
  obtain ⟨xs, hl, h⟩ := bind_some h
  cases h
  have := DList.push_state s l xs v (seq_some.1 hl)
  simp only [DList.Spec.step, DList.Spec.insertVal]
  rw [this]
  rfl

theorem insertVal_unshift {s s' : S α} {l : Nat} {v : α} {ret : Ret} (h : Spec.insertVal s l v (s.fresh :: ·) = some (ret, s')) :
    DList.Spec.step s (.insertAfterV l none v) = some (ret, s') := by
  obtain ⟨xs, hl, h⟩ := bind_some h
  cases h
  have e : seq (create s v) l = some xs := hl
  simp only [DList.Spec.step, DList.Spec.insertVal, place]
  rw [e]
  simp [DList.Spec.insAfter, create, setSeq]

/-- Every legal call returns what the specification says and keeps the relation. -/
theorem step_refines {w : W α} {s s' : S α} (q : Q w s) (op : Op α) {ret : Ret} (h : Spec.step s op = some (ret, s')) :
    ∃ w', step w op = .ok (ret, w') ∧ Q w' s' := by
  obtain ⟨lw, rfl, r⟩ := q
  cases op with
  | construct =>
    cases h
    exact ⟨_, rfl, _, rfl, r.construct⟩
  | constructV v =>
    obtain ⟨w', hw, r'⟩ := DList.step_refines r (.constructV v) h
    obtain ⟨w1, h1, hw⟩ := bind_ok hw
    cases hw
    obtain ⟨⟨n, w2⟩, h2, h1⟩ := bind_ok h1
    cases h1
    refine ⟨_, ?_, _, rfl, r'⟩
    simp only [step, constructV, construct_strip]
    rw [show (strip lw).objs = lw.objs from rfl, pushV_sim h2]
    rfl
  | copyConstruct src =>
    obtain ⟨w', hw, r'⟩ := DList.step_refines r (.copyConstruct src) h
    obtain ⟨w1, h1, hw⟩ := bind_ok hw
    cases hw
    obtain ⟨o, ho, h1⟩ := bind_ok h1
    refine ⟨_, ?_, _, rfl, r'⟩
    simp only [step, copyConstruct, construct_strip, getObj_strip, ho, ok_bind]
    rw [show (strip lw).objs = lw.objs from rfl, show (strip lw).fresh = lw.fresh from rfl, copyLoop_sim _ h1]
    rfl
  | assign d src =>
    obtain ⟨w', hw, r'⟩ := DList.step_refines r (.assign d src) h
    obtain ⟨w1, h1, hw⟩ := bind_ok hw
    cases hw
    unfold DList.assign at h1
    refine ⟨_, ?_, _, rfl, r'⟩
    simp only [step, assign]
    split at h1
    next e =>
      obtain ⟨o, ho, h1⟩ := bind_ok h1
      cases h1
      simp [e, ho]
    next e =>
      obtain ⟨w2, h2, h1⟩ := bind_ok h1
      obtain ⟨o, ho, h1⟩ := bind_ok h1
      simp only [e, if_false, empty_sim h2, ok_bind, getObj_strip, ho]
      rw [show (strip w2).fresh = w2.fresh from rfl, copyLoop_sim _ h1]
      rfl
  | destroy l =>
    obtain ⟨w', hw, r'⟩ := DList.step_refines r (.destroy l) h
    obtain ⟨w1, h1, hw⟩ := bind_ok hw
    cases hw
    obtain ⟨w2, h2, h1⟩ := bind_ok h1
    obtain ⟨o, ho, h1⟩ := bind_ok h1
    cases h1
    refine ⟨_, ?_, _, rfl, r'⟩
    simp only [step, destroy, empty_sim h2, ok_bind, getObj_strip, ho]
    rfl
  | createNode v =>
    obtain ⟨w', hw, r'⟩ := DList.step_refines r (.createNode v) h
    cases hw
    exact ⟨_, rfl, _, rfl, r'⟩
  | deleteNode x =>
    obtain ⟨w', hw, r'⟩ := DList.step_refines r (.deleteNode x) h
    obtain ⟨w1, h1, hw⟩ := bind_ok hw
    cases hw
    exact ⟨_, by simp only [step, deleteNode_sim h1, ok_bind], _, rfl, r'⟩
  | setValue x v =>
    obtain ⟨w', hw, r'⟩ := DList.step_refines r (.setValue x v) h
    simp only [DList.step] at hw
    split at hw
    next hl =>
      cases hw
      have : (strip lw).live x = true := hl
      refine ⟨strip { lw with val := upd lw.val x v }, ?_, _, rfl, r'⟩
      simp only [step, this, if_true]
      rfl
    next => cases hw
  | pushV l v =>
    obtain ⟨w', hw, r'⟩ := DList.step_refines r (.insertBeforeV l none v) (insertVal_push h)
    obtain ⟨⟨n, w1⟩, h1, hw⟩ := bind_ok hw
    cases hw
    exact ⟨_, by simp only [step, pushV_sim h1, ok_bind], _, rfl, r'⟩
  | unshiftV l v =>
    obtain ⟨w', hw, r'⟩ := DList.step_refines r (.insertAfterV l none v) (insertVal_unshift h)
    obtain ⟨⟨n, w1⟩, h1, hw⟩ := bind_ok hw
    cases hw
    exact ⟨_, by simp only [step, unshiftV_sim h1, ok_bind], _, rfl, r'⟩
  | pushN l x =>
    obtain ⟨xs, hl, h⟩ := bind_some h
    split at h
    next hx =>
      cases h
      have hd : DList.Spec.step s (.insertBeforeN l none x) =
          some (.node (some x), { setSeq s l (some (xs ++ [x])) with loose := s.loose.erase x }) := by
        simp [DList.Spec.step, DList.Spec.insertNode, hx, place, hl, DList.Spec.insBefore]
      obtain ⟨w', hw, r'⟩ := DList.step_refines r _ hd
      obtain ⟨⟨n, w1⟩, h1, hw⟩ := bind_ok hw
      cases hw
      unfold DList.insertBeforeN at h1
      obtain ⟨o, ho, h1⟩ := bind_ok h1
      rw [DList.attachedTest_loose r hx] at h1
      simp only [ok_bind, Bool.false_eq_true, if_false] at h1
      obtain ⟨w2, h2, h1⟩ := bind_ok h1
      cases h1
      have hlo := r.looseOk hx
      have hn : getNx lw.lh x = .ok none := by simp [getNx, hlo.1, hlo.2.2]
      refine ⟨_, ?_, _, rfl, r'⟩
      have hfp := finishPush_sim h2
      unfold finishPush at hfp
      simp only [step, pushN, getObj_strip, ho, ok_bind, getNext_strip, hn, Option.isSome_none, Bool.false_eq_true, if_false]
      rw [hfp]
      rfl
    next hx =>
      split at h
      next hat =>
        cases h
        obtain ⟨y, hn⟩ := next_of_notLast r hat
        obtain ⟨o, ho, -⟩ := getObj_ok r (seq_some.1 hl)
        exact ⟨strip lw, by simp [step, pushN, ho, hn], lw, rfl, r⟩
      next => cases h
  | unshiftN l x =>
    obtain ⟨xs, hl, h⟩ := bind_some h
    split at h
    next hx =>
      cases h
      have hd : DList.Spec.step s (.insertAfterN l none x) =
          some (.node (some x), { setSeq s l (some (x :: xs)) with loose := s.loose.erase x }) := by
        simp [DList.Spec.step, DList.Spec.insertNode, hx, place, hl, DList.Spec.insAfter]
      obtain ⟨w', hw, r'⟩ := DList.step_refines r _ hd
      obtain ⟨⟨n, w1⟩, h1, hw⟩ := bind_ok hw
      cases hw
      unfold DList.insertAfterN at h1
      obtain ⟨o, ho, h1⟩ := bind_ok h1
      rw [DList.attachedTest_loose r hx] at h1
      simp only [ok_bind, Bool.false_eq_true, if_false] at h1
      obtain ⟨w2, h2, h1⟩ := bind_ok h1
      cases h1
      have hlo := r.looseOk hx
      have hn : getNx lw.lh x = .ok none := by simp [getNx, hlo.1, hlo.2.2]
      refine ⟨_, ?_, _, rfl, r'⟩
      have hfp := finishUnshift_sim h2
      unfold finishUnshift at hfp
      simp only [step, unshiftN, getObj_strip, ho, ok_bind, getNext_strip, hn, Option.isSome_none, Bool.false_eq_true,
        if_false]
      rw [hfp]
      rfl
    next hx =>
      split at h
      next hat =>
        cases h
        obtain ⟨y, hn⟩ := next_of_notLast r hat
        obtain ⟨o, ho, -⟩ := getObj_ok r (seq_some.1 hl)
        exact ⟨strip lw, by simp [step, unshiftN, ho, hn], lw, rfl, r⟩
      next => cases h
  | shift l =>
    obtain ⟨w', hw, r'⟩ := DList.step_refines r (.shift l) h
    obtain ⟨⟨n, w1⟩, h1, hw⟩ := bind_ok hw
    cases hw
    exact ⟨_, by simp only [step, shift_sim h1, ok_bind], _, rfl, r'⟩
  | empty l =>
    obtain ⟨w', hw, r'⟩ := DList.step_refines r (.empty l) h
    obtain ⟨w1, h1, hw⟩ := bind_ok hw
    cases hw
    exact ⟨_, by simp only [step, empty_sim h1, ok_bind], _, rfl, r'⟩
  | detachAllAndAppend d t =>
    obtain ⟨w', hw, r'⟩ := DList.step_refines r (.detachAllAndAppend d t) h
    obtain ⟨w1, h1, hw⟩ := bind_ok hw
    cases hw
    exact ⟨_, by simp only [step, detachAll_sim h1, ok_bind], _, rfl, r'⟩
  | size l =>
    obtain ⟨w', hw, r'⟩ := DList.step_refines r (.size l) h
    obtain ⟨o, ho, hw⟩ := bind_ok hw
    cases hw
    exact ⟨_, by simp only [step, getObj_strip, ho, ok_bind], _, rfl, r'⟩

theorem run_refines : ∀ (ops : List (Op α)) {w : W α} {s s' : S α} {rs : List Ret} (_ : Q w s)
    (_ : Spec.run s ops = some (rs, s')), ∃ w', run w ops = .ok (rs, w') ∧ Q w' s'
  | [], w, s, s', rs, r, h => by cases h; exact ⟨w, rfl, r⟩
  | op :: ops, w, s, s', rs, r, h => by
    simp only [Spec.run] at h
    obtain ⟨⟨r1, s1⟩, h1, h⟩ := bind_some h
    obtain ⟨⟨r2, s2⟩, h2, h⟩ := bind_some h
    cases h
    obtain ⟨w1, hw1, R1⟩ := step_refines r op h1
    obtain ⟨w2, hw2, R2⟩ := run_refines ops R1 h2
    exact ⟨w2, by simp [run, hw1, hw2], R2⟩

theorem walk_sim : ∀ (k : Nat) {w : DList.W α} {n : Option Nat} {xs : List (Nat × α)}, DList.walkNext k w n = .ok xs →
    walk k (strip w) n = .ok xs
  | k + 1, w, none, xs, h => by cases h; rfl
  | k + 1, w, some x, xs, h => by
    unfold DList.walkNext at h
    obtain ⟨v, hv, h⟩ := bind_ok h
    obtain ⟨n, hn, h⟩ := bind_ok h
    obtain ⟨rest, hr, h⟩ := bind_ok h
    cases h
    unfold walk
    simp only [getVal_strip, hv, ok_bind, getNext_strip, hn, walk_sim k hr]

theorem contents_ok {w : DList.W α} {s : S α} (r : R w s) {l : Nat} {xs : List Nat} (hl : seq s l = some xs) :
    contents (strip w) l = .ok (xs.map fun x => (x, s.val x)) := by
  have h := DList.forward_ok r hl
  unfold DList.forward at h
  obtain ⟨o, ho, h⟩ := bind_ok h
  unfold contents
  simp only [getObj_strip, ho, ok_bind]
  exact walk_sim _ h

/-- **C17**.  For every legal history of calls on any number of queues the code has no undefined behaviour, returns what
the specification says (so `Shift` hands out the nodes in the order of the abstract sequence), the walk from `First()`
gives exactly the abstract sequence with its values, `Last()` is its last node, `GetSize()` its length, and exactly the
nodes in a queue or loose are allocated. -/
theorem queue_is_sequence_partial (dflt : α) (ops : List (Op α)) (rs : List Ret) (s : S α)
    (h : Spec.run (S.empty dflt) ops = some (rs, s)) :
    ∃ w, run (W.empty dflt) ops = .ok (rs, w) ∧
      (∀ l xs, seq s l = some xs →
        contents w l = .ok (xs.map fun x => (x, s.val x)) ∧ lastNode w l = .ok xs.getLast? ∧
        step w (.size l) = .ok (.num xs.length, w)) ∧
      (∀ x, w.live x = true ↔ x ∈ s.loose ∨ ∃ l xs, seq s l = some xs ∧ x ∈ xs) := by
  have q0 : Q (W.empty dflt) (S.empty dflt) := ⟨_, rfl, DList.R.empty_world dflt⟩
  obtain ⟨w, hw, lw, rfl, r⟩ := run_refines ops q0 h
  refine ⟨_, hw, fun l xs hl => ⟨contents_ok r hl, ?_, ?_⟩, fun x => ⟨fun hx => ?_, fun hx => ?_⟩⟩
  · obtain ⟨o, ho, -, ha, hc, hn⟩ := getObj_ok r (seq_some.1 hl)
    simp [lastNode, ho, hc.last]
  · obtain ⟨o, ho, -, ha, hc, hn⟩ := getObj_ok r (seq_some.1 hl)
    simp [step, ho, hn]
  · rcases r.own hx with h | ⟨l, xs, h, hx⟩
    · exact Or.inl h
    · exact Or.inr ⟨l, xs, seq_some.2 h, hx⟩
  · rcases hx with h | ⟨l, xs, h, hx⟩
    · exact (r.looseOk h).1
    · obtain ⟨o, -, -, hc, -⟩ := r.obj (seq_some.1 h)
      exact hc.live x hx

/-- A history with pushes at both ends, moves between queues, a copy and an assignment is legal. -/
example : ∃ rs s, Spec.run (S.empty (0 : Nat))
    [.constructV 1, .pushV 0 2, .unshiftV 0 0, .pushV 0 3, .copyConstruct 0, .shift 0, .pushN 1 2, .pushN 0 0,
     .detachAllAndAppend 0 1, .construct, .assign 2 0, .shift 2, .deleteNode 8, .empty 1, .destroy 1, .size 0] = some (rs, s) ∧
    (seq s 0).map (List.map s.val) = some [1, 2, 3, 0, 1, 2, 3, 0] ∧
    (seq s 2).map (List.map s.val) = some [2, 3, 0, 1, 2, 3, 0] ∧ rs[7]? = some (.node none) :=
  ⟨_, _, rfl, by decide, by decide, by decide⟩

theorem run_append : ∀ (a b : List (Op α)) (s : S α) {ra : List Ret} {s1 : S α}, Spec.run s a = some (ra, s1) →
    ∀ {rb : List Ret} {s2 : S α}, Spec.run s1 b = some (rb, s2) → Spec.run s (a ++ b) = some (ra ++ rb, s2)
  | [], b, s, ra, s1, h, rb, s2, h2 => by cases h; exact h2
  | op :: a, b, s, ra, s1, h, rb, s2, h2 => by
    simp only [Spec.run] at h
    obtain ⟨⟨r, s'⟩, h1, h⟩ := bind_some h
    obtain ⟨⟨rs, s''⟩, h3, h⟩ := bind_some h
    cases h
    have := run_append a b s' h3 h2
    simp [Spec.run, h1, this]

theorem run_pushes : ∀ (vs : List α) (s : S α) (xs : List Nat), s.seqs = [some xs] →
    ∃ s', Spec.run s (vs.map (.pushV 0)) = some ((List.range' s.fresh vs.length).map (fun i => .node (some i)), s') ∧
      s'.seqs = [some (xs ++ List.range' s.fresh vs.length)] ∧ (List.range' s.fresh vs.length).map s'.val = vs ∧
      (∀ x, x < s.fresh → s'.val x = s.val x)
  | [], s, xs, h => ⟨s, rfl, by simp [h], rfl, fun _ _ => rfl⟩
  | v :: vs, s, xs, h => by
    have hq : seq s 0 = some xs := by simp [seq, h]
    obtain ⟨s', h1, h2, h3, h4⟩ := run_pushes vs
      { setSeq s 0 (some (xs ++ [s.fresh])) with val := upd s.val s.fresh v, fresh := s.fresh + 1 } (xs ++ [s.fresh])
      (by simp [setSeq, h])
    simp only at h1 h2 h3 h4
    refine ⟨s', ?_, ?_, ?_, fun x hx => ?_⟩
    · have hs : Spec.step s (.pushV 0 v) = some (.node (some s.fresh),
          { setSeq s 0 (some (xs ++ [s.fresh])) with val := upd s.val s.fresh v, fresh := s.fresh + 1 }) := by
        simp [Spec.step, Spec.insertVal, hq]
      simp only [List.map_cons, Spec.run, hs, Option.bind_eq_bind, Option.bind_some, h1, List.length_cons, List.range'_succ]
    · rw [h2]; simp [List.range'_succ]
    · simp only [List.length_cons, List.range'_succ, List.map_cons]
      rw [h3, h4 _ (by omega)]; simp
    · rw [h4 x (by omega)]
      exact upd_other _ _ (by omega)

theorem run_shifts : ∀ (xs : List Nat) (s : S α), s.seqs = [some xs] →
    ∃ s', Spec.run s (List.replicate (xs.length + 1) (.shift 0)) =
        some (xs.map (fun i => .node (some i)) ++ [.node none], s') ∧ s'.val = s.val ∧ (∀ x ∈ xs, x ∈ s'.loose) ∧
        (∀ x ∈ s.loose, x ∈ s'.loose)
  | [], s, h => by
    have hq : seq s 0 = some [] := by simp [seq, h]
    refine ⟨s, ?_, rfl, by simp, fun _ h => h⟩
    simp [Spec.run, Spec.step, hq]
  | x :: xs, s, h => by
    have hq : seq s 0 = some (x :: xs) := by simp [seq, h]
    obtain ⟨s', h1, h2, h3, h4⟩ := run_shifts xs { setSeq s 0 (some xs) with loose := x :: s.loose } (by simp [setSeq, h])
    refine ⟨s', ?_, h2, ?_, fun y hy => h4 y (by simp [hy])⟩
    · rw [List.length_cons, List.replicate_succ]
      have hs : Spec.step s (.shift 0) = some (.node (some x), { setSeq s 0 (some xs) with loose := x :: s.loose }) := by
        simp [Spec.step, hq]
      simp only [Spec.run, hs, Option.bind_eq_bind, Option.bind_some, h1, List.map_cons, List.cons_append]
    · intro y hy
      rcases List.mem_cons.1 hy with rfl | hy
      · exact h4 _ (by simp)
      · exact h3 y hy

/-- First in, first out: pushing values on a fresh queue and then shifting until it is empty returns the nodes of the
values in the order they were pushed, then NULL. -/
theorem fifo (dflt : α) (vs : List α) :
    ∃ w, run (W.empty dflt) (.construct :: (vs.map (.pushV 0) ++ List.replicate (vs.length + 1) (.shift 0))) =
        .ok (.void :: ((List.range vs.length).map (fun i => .node (some i)) ++
          ((List.range vs.length).map (fun i => .node (some i)) ++ [.node none])), w) ∧
      (List.range vs.length).map w.val = vs := by
  obtain ⟨s1, h1, h2, h3, -⟩ := run_pushes vs { S.empty dflt with seqs := [some []] } [] rfl
  obtain ⟨s2, h4, h5, h6, -⟩ := run_shifts _ s1 h2
  have h0 : (S.empty dflt).fresh = 0 := rfl
  simp only [h0, List.nil_append, List.length_range', ← List.range_eq_range'] at h1 h3 h4 h6
  have hr := run_append _ _ _ h1 h4
  have hrun : Spec.run (S.empty dflt) (.construct :: (vs.map (.pushV 0) ++ List.replicate (vs.length + 1) (.shift 0))) =
      some (.void :: ((List.range vs.length).map (fun i => .node (some i)) ++
          ((List.range vs.length).map (fun i => .node (some i)) ++ [.node none])), s2) := by
    simp only [List.length_range] at hr
    exact congrArg (fun m => m >>= fun p => some (Ret.void :: p.1, p.2)) hr
  obtain ⟨w, hw, lw, rfl, r⟩ := run_refines _ ⟨_, rfl, DList.R.empty_world dflt⟩ hrun
  refine ⟨_, hw, ?_⟩
  refine Eq.trans ?_ h3
  apply List.map_congr_left
  intro x hx
  have := r.val (r.looseOk (h6 x hx)).1
  rw [← h5, ← this]
  rfl

/-- Pushing the last node of a queue once more is not refused: the node becomes its own successor and walks (also the
one in the destructor) never end or free memory twice. -/
theorem last_node_not_refused :
    (∃ rs w, run (W.empty (0 : Nat)) [.constructV 7, .pushN 0 0] = .ok (rs, w) ∧ rs = [.void, .node (some 0)] ∧
      contents w 0 = .error .diverges) ∧
    run (W.empty (0 : Nat)) [.constructV 7, .pushN 0 0, .destroy 0] = .error .badPtr :=
  ⟨⟨_, _, rfl, by decide, by decide⟩, rfl⟩

/-- Appending a queue to itself empties it and leaks its nodes. -/
theorem self_append_loses_nodes :
    ∃ rs w, run (W.empty (0 : Nat)) [.constructV 7, .detachAllAndAppend 0 0] = .ok (rs, w) ∧
      contents w 0 = .ok [] ∧ w.live 0 = true := ⟨_, _, rfl, by decide, by decide⟩

end Verif.Queue
