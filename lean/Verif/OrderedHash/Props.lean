import Verif.OrderedHash.Lemmas

/-!
# Properties C18 - C21 of `OrderedHash`
-/

namespace Verif.OrderedHash
open Verif.Links Spec

variable {α : Type}

/-! ## Refinement -/

theorem insertNode_ok {hf : List UInt8 → Nat} {w : W α} {s s' : S α} {a : Bool} {n : Option Nat} {x : Nat} {r : Ret} (h : R hf w s)
    (hs : Spec.step s (.insertNode a n x) = some (r, s')) :
    ∃ o w', r = .node o ∧ insertN hf w x (linkOf a n x) = .ok (o, w') ∧ R hf w' s' := by
  simp only [Spec.step] at hs
  split at hs
  next hx =>
    split at hs
    next hl =>
      split at hs
      next => cases hs
      next hst =>
        cases hy : ins s.seq x a n with
        | none => rw [hy] at hs; cases hs
        | some ys =>
          rw [hy] at hs
          cases hs
          obtain ⟨w', h1, h2⟩ := insertN_place h hx hl (fun e => by simpa [e] using hst) hy
          exact ⟨_, w', rfl, h1, h2⟩
    next hl =>
      cases hs
      obtain ⟨y, hy⟩ := Option.ne_none_iff_exists'.1 hl
      obtain ⟨w', h1, h2, _⟩ := insertN_refuse h (h.looseOk hx).1 hy (linkOf a n x)
      exact ⟨_, w', rfl, h1, h2⟩
  next hx =>
    split at hs
    next hq =>
      cases hs
      obtain ⟨w', h1, h2, _⟩ := insertN_refuse h (h.seq_live hq) (lookup_self h hq) (linkOf a n x)
      exact ⟨_, w', rfl, h1, h2⟩
    next => cases hs

theorem lookup_create {hf : List UInt8 → Nat} {w : W α} {s : S α} (h : R hf w s) (k k' : Key) (v : α) :
    lookup (create s k v) k' = lookup s k' := by
  have : ∀ x ∈ s.seq, (create s k v).key x = s.key x := fun x hx => by
    have := h.bound (h.seq_live hx)
    rw [h.fresh] at this
    exact upd_other _ _ (by omega)
  show s.seq.find? _ = s.seq.find? _
  have gen : ∀ xs : List Nat, (∀ x ∈ xs, (create s k v).key x = s.key x) →
      xs.find? (fun x => decide ((create s k v).key x = k')) = xs.find? (fun x => decide (s.key x = k')) := by
    intro xs
    induction xs with
    | nil => intro _; rfl
    | cons y ys ih => intro hy; rw [List.find?_cons, List.find?_cons, hy y (by simp), ih (fun x hx => hy x (by simp [hx]))]
  exact gen _ this

theorem step_refines {hf : List UInt8 → Nat} {w : W α} {s s' : S α} {op : Op α} {r : Ret} (h : R hf w s)
    (hs : Spec.step s op = some (r, s')) : ∃ w', step hf w op = .ok (r, w') ∧ R hf w' s' := by
  cases op with
  | create k v =>
    cases hs
    obtain ⟨h1, h2⟩ := h.create k v
    exact ⟨_, by simp only [step, h2], h1⟩
  | delete x =>
    simp only [Spec.step] at hs
    split at hs
    next hx =>
      cases hs
      obtain ⟨w', h1, h2⟩ := h.delete hx
      exact ⟨w', by simp [step, h1], h2⟩
    next => cases hs
  | setKey x k =>
    simp only [Spec.step] at hs
    split at hs
    next hx =>
      cases hs
      have hl := (h.looseOk hx).1
      cases k with
      | int i =>
        exact ⟨_, by simp only [step, setIntKey, hl, if_true, ok_bind], h.setKey hx (k := .int i) ⟨rfl, rfl⟩⟩
      | str bs =>
        obtain ⟨buf, h1, h2⟩ := copyStr_ok (h.keyOk hl) bs
        exact ⟨_, by simp only [step, setStrKey, hl, if_true, h1, ok_bind], h.setKey hx (k := .str bs) h2⟩
    next => cases hs
  | setValue x v =>
    simp only [Spec.step] at hs
    split at hs
    next hx =>
      cases hs
      have hl : w.lh.live x = true := by
        rcases hx with hx | hx
        · exact (h.looseOk hx).1
        · exact h.seq_live hx
      refine ⟨{ w with val := upd w.val x v }, by simp only [step, hl, if_true], ?_⟩
      refine ⟨h.chain, h.num, h.pos, h.bkt, h.keyOk, h.hkSeq, h.hkLoose, h.uniq, h.looseOk, h.looseNd, h.looseDisj, h.own,
        h.fresh, h.bound, fun {y} hy => ?_⟩
      simp only
      by_cases e : y = x
      · simp [e]
      · rw [upd_other _ _ e, upd_other _ _ e]; exact h.val hy
    next => cases hs
  | insert a n k v =>
    obtain ⟨rc, hid⟩ := h.create k v
    have hfr : s.fresh ∈ (create s k v).loose := by simp [Spec.create]
    have hk : (create s k v).key s.fresh = k := by simp [Spec.create]
    have her : (create s k v).loose.erase s.fresh = s.loose := by simp [Spec.create]
    have hst : upd (create s k v).stale s.fresh false = (create s k v).stale := by
      funext y
      by_cases e : y = s.fresh
      · simp [e, Spec.create]
      · simp [upd_other _ _ e]
    simp only [Spec.step] at hs
    split at hs
    next hl =>
      cases hy : ins s.seq s.fresh a n with
      | none => rw [hy] at hs; cases hs
      | some ys =>
        rw [hy] at hs
        cases hs
        obtain ⟨w', h1, h2⟩ := insertN_place rc hfr (by rw [hk, lookup_create h]; exact hl) (ys := ys) (a := a) (n := n)
          (fun _ => by simp [Spec.create]) hy
        rw [her, hst] at h2
        exact ⟨w', by simp [step, insertV, hid, h1], h2⟩
    next hl =>
      cases hs
      obtain ⟨y, hy⟩ := Option.ne_none_iff_exists'.1 hl
      obtain ⟨w1, h1, h2, h3⟩ := insertN_refuse rc (rc.looseOk hfr).1 (y := y) (by rw [hk, lookup_create h]; exact hy)
        (linkOf a n s.fresh)
      obtain ⟨w2, h4, h5⟩ := h2.delete hfr
      rw [her] at h5
      exact ⟨w2, by simp [step, insertV, hid, h1, h4], h5⟩
  | insertNode a n x =>
    obtain ⟨o, w', rfl, h1, h2⟩ := insertNode_ok h hs
    exact ⟨w', by simp [step, h1], h2⟩
  | pop reset =>
    simp only [Spec.step] at hs
    cases hl : s.seq.getLast? with
    | none =>
      rw [hl] at hs
      cases hs
      exact ⟨w, by simp [step, h.chain.last, hl, detach], h⟩
    | some x =>
      rw [hl] at hs
      cases hs
      have hx : x ∈ s.seq := List.mem_of_getLast? hl
      obtain ⟨w', h1, h2⟩ := h.detach hx reset
      refine ⟨w', by simp [step, h.chain.last, hl, h1], ?_⟩
      have : s.seq.erase x = s.seq.dropLast := by
        obtain ⟨ys, hys⟩ := List.getLast?_eq_some_iff.1 hl
        have hnd := h.chain.nodup
        rw [hys] at hnd ⊢
        have : x ∉ ys := fun hm => (List.nodup_append.1 hnd).2.2 x hm x (by simp) rfl
        rw [List.erase_append_right _ this]
        simp
      rw [this] at h2
      exact h2
  | shift reset =>
    simp only [Spec.step] at hs
    cases hl : s.seq with
    | nil =>
      rw [hl] at hs
      cases hs
      exact ⟨w, by simp [step, h.chain.first, hl, detach], h⟩
    | cons x xs =>
      rw [hl] at hs
      cases hs
      obtain ⟨w', h1, h2⟩ := h.detach (x := x) (by simp [hl]) reset
      refine ⟨w', by simp [step, h.chain.first, hl, h1], ?_⟩
      rw [hl] at h2
      simpa using h2
  | detach x reset =>
    cases x with
    | none => cases hs; exact ⟨w, rfl, h⟩
    | some x =>
      simp only [Spec.step] at hs
      split at hs
      next hx =>
        cases hs
        obtain ⟨w', h1, h2⟩ := h.detach hx reset
        exact ⟨w', by simp [step, h1], h2⟩
      next => cases hs
  | remove x =>
    cases x with
    | none => cases hs; exact ⟨w, rfl, h⟩
    | some x =>
      simp only [Spec.step] at hs
      split at hs
      next hx =>
        cases hs
        obtain ⟨w', h1, h2⟩ := h.remove hx
        exact ⟨w', by simp [step, h1], h2⟩
      next => cases hs
  | empty =>
    cases hs
    obtain ⟨w', h1, h2⟩ := h.empty
    exact ⟨w', by simp [step, h1], h2⟩
  | release reset =>
    cases hs
    obtain ⟨w', h1, h2⟩ := h.release reset
    exact ⟨w', by simp [step, h1], h2⟩
  | find k =>
    cases hs
    exact ⟨w, by simp [step, find_ok h], h⟩
  | findNode x =>
    simp only [Spec.step] at hs
    split at hs
    next hx =>
      cases hs
      have hl : w.lh.live x = true := by
        rcases hx with hx | hx
        · exact (h.looseOk hx).1
        · exact h.seq_live hx
      exact ⟨w, by simp [step, findNode_ok h hl], h⟩
    next => cases hs
  | resize n =>
    cases hs
    by_cases hn : n = 0
    · exact ⟨w, by simp [step, resize, hn], h⟩
    · obtain ⟨w', h1, h2⟩ := resize_ok h.core hn
      exact ⟨w', by simp [step, h1, hn], h2⟩
  | size => cases hs; exact ⟨w, by simp [step, h.num], h⟩

theorem run_refines {hf : List UInt8 → Nat} : ∀ {ops : List (Op α)} {w : W α} {s s' : S α} {rs : List Ret}, R hf w s →
    Spec.run s ops = some (rs, s') → ∃ w', run hf w ops = .ok (rs, w') ∧ R hf w' s'
  | [], w, s, s', rs, h, hs => by cases hs; exact ⟨w, rfl, h⟩
  | op :: ops, w, s, s', rs, h, hs => by
    simp only [Spec.run] at hs
    cases h1 : Spec.step s op with
    | none => rw [h1] at hs; cases hs
    | some q =>
      obtain ⟨r, s1⟩ := q
      rw [h1] at hs
      cases h2 : Spec.run s1 ops with
      | none => simp [h2] at hs
      | some q2 =>
        obtain ⟨rs2, s2⟩ := q2
        simp only [h2, Option.bind_eq_bind, Option.bind_some, Option.some.injEq, Prod.mk.injEq] at hs
        obtain ⟨rfl, rfl⟩ := hs
        obtain ⟨w1, g1, g2⟩ := step_refines h h1
        obtain ⟨w2, g3, g4⟩ := run_refines g2 h2
        exact ⟨w2, by simp [run, g1, g3], g4⟩

theorem getKey_ok {w : W α} {x : Nat} {k : Key} (hl : w.lh.live x = true) (hk : KeyRep (w.ik x) (w.sk x) k) :
    getKey w x = .ok k := by
  simp only [getKey, getSk, getIk, hl, if_true, ok_bind]
  cases k with
  | int i => simp [hk.1, hk.2]
  | str bs =>
    obtain ⟨buf, h1, h2, h3, h4⟩ := hk
    simp [h1, h2, readBytes, h3, h4]

theorem walkNext_ok {w : W α} {K : Nat → Key} {V : Nat → α} : ∀ (xs : List Nat) (k : Nat) (p : Option Nat), Seg w.lh.pv w.lh.nx p xs none →
    (∀ x ∈ xs, w.lh.live x = true ∧ KeyRep (w.ik x) (w.sk x) (K x) ∧ w.val x = V x) → xs.length < k →
    walkNext k w xs.head? = .ok (xs.map fun x => (x, K x, V x))
  | [], k + 1, _, _, _, _ => rfl
  | x :: xs, k + 1, p, hs, hl, hk => by
    have hnx : w.lh.nx x = xs.head? := by have := hs.2.1; simpa using this
    have ih := walkNext_ok xs k (some x) hs.2.2 (fun y hy => hl y (by simp [hy])) (by simp only [List.length_cons] at hk; omega)
    obtain ⟨h1, h2, h3⟩ := hl x (by simp)
    simp only [List.head?_cons, walkNext, getKey_ok h1 h2, getNx, h1, if_true, hnx, ih, ok_bind, h3, List.map_cons]

theorem walkPrev_ok {w : W α} {K : Nat → Key} {V : Nat → α} : ∀ (n : Nat) (xs : List Nat), xs.length = n → ∀ (k : Nat) (q : Option Nat), Seg w.lh.pv w.lh.nx none xs q →
    (∀ x ∈ xs, w.lh.live x = true ∧ KeyRep (w.ik x) (w.sk x) (K x) ∧ w.val x = V x) → n < k →
    walkPrev k w xs.getLast? = .ok (xs.map fun x => (x, K x, V x)).reverse
  | 0, xs, hn, k + 1, q, _, _, _ => by
    rw [List.length_eq_zero_iff] at hn
    subst hn
    rfl
  | n + 1, xs, hn, k + 1, q, hs, hl, hk => by
    rcases List.eq_nil_or_concat xs with e | ⟨ys, y, e⟩
    · simp [e] at hn
    · subst e
      rw [List.concat_eq_append] at hs hl hn ⊢
      have hs' := (seg_append _ _ _ _ _ _).1 hs
      have hpv : w.lh.pv y = ys.getLast? := by have := hs'.2.1; simpa using this
      have hlen : ys.length = n := by simpa using hn
      have ih := walkPrev_ok n ys hlen k _ hs'.1 (fun y hy => hl y (by simp [hy])) (by omega)
      obtain ⟨h1, h2, h3⟩ := hl y (by simp)
      simp only [List.getLast?_append_cons, List.getLast?_singleton, walkPrev, getKey_ok h1 h2, getPv, h1, if_true, hpv, ih, ok_bind, h3, List.map_append, List.map_cons, List.map_nil, List.reverse_append, List.reverse_cons, List.reverse_nil, List.nil_append, List.singleton_append]

theorem R.node {hf : List UInt8 → Nat} {w : W α} {s : S α} (h : R hf w s) :
    ∀ x ∈ s.seq, w.lh.live x = true ∧ KeyRep (w.ik x) (w.sk x) (s.key x) ∧ w.val x = s.val x :=
  fun _ hx => ⟨h.seq_live hx, h.keyOk (h.seq_live hx), h.val (h.seq_live hx)⟩

theorem forward_ok {hf : List UInt8 → Nat} {w : W α} {s : S α} (h : R hf w s) : forward w = .ok (entries s) := by
  unfold forward
  rw [h.chain.first]
  exact walkNext_ok s.seq _ none h.chain.seg h.node (by have := h.core.length_le; omega)

theorem backward_ok {hf : List UInt8 → Nat} {w : W α} {s : S α} (h : R hf w s) : backward w = .ok (entries s).reverse := by
  unfold backward
  rw [h.chain.last]
  exact walkPrev_ok _ s.seq rfl _ none h.chain.seg h.node (by have := h.core.length_le; omega)

/-- C18: For every hash function, every initial table size of at least one and every legal history the calls have no
undefined behaviour and return what the specification says; afterwards `Find` of every key, integer or string, gives the
node stored under it (NULL if there is none), iteration in both directions shows the sequence, `GetSize` counts it, and
no key occurs twice. -/
theorem ordered_hash_is_map_partial (hf : List UInt8 → Nat) (dflt : α) (n : Nat) (hn : 1 ≤ n) (ops : List (Op α)) (rs : List Ret) (s : S α)
    (hs : Spec.run (S.empty dflt) ops = some (rs, s)) :
    ∃ w, run hf (construct dflt n) ops = .ok (rs, w) ∧ forward w = .ok (entries s) ∧ backward w = .ok (entries s).reverse ∧
      (∀ k, find hf w k = .ok (lookup s k)) ∧ w.num = s.seq.length ∧ ((entries s).map fun e => e.2.1).Nodup := by
  obtain ⟨w, h1, h2⟩ := run_refines (R.construct hf dflt (n := n) (by omega)) hs
  refine ⟨w, h1, forward_ok h2, backward_ok h2, find_ok h2, h2.num, ?_⟩
  simp only [entries, List.map_map]
  exact List.Nodup.map_on (fun x hx y hy e => h2.uniq hx hy e) h2.chain.nodup

/-- What `lookup` means: the node found is in the sequence and has the key; NULL means that no node has it. -/
theorem lookup_spec (s : S α) (k : Key) :
    (∀ x, lookup s k = some x → x ∈ s.seq ∧ s.key x = k) ∧ (lookup s k = none ↔ ∀ x ∈ s.seq, s.key x ≠ k) := by
  refine ⟨fun x h => ⟨List.mem_of_find?_eq_some h, by simpa using List.find?_some h⟩, ?_⟩
  simp [lookup, List.find?_eq_none]

/-- C18: An insertion is refused exactly when the key is present, and then changes nothing that can be seen. -/
theorem insert_refused_iff_partial (hf : List UInt8 → Nat) (dflt : α) (n : Nat) (hn : 1 ≤ n) (ops : List (Op α)) (rs : List Ret) (s : S α)
    (hs : Spec.run (S.empty dflt) ops = some (rs, s)) (a : Bool) (k : Key) (v : α) (w : W α)
    (hw : run hf (construct dflt n) ops = .ok (rs, w)) :
    ∃ o w', step hf w (.insert a none k v) = .ok (.node o, w') ∧
      (o = none ↔ ∃ x ∈ s.seq, s.key x = k) ∧ (o = none → forward w' = forward w ∧ ∀ k', find hf w' k' = find hf w k') ∧
      (∀ x, o = some x → find hf w' k = .ok (some x)) := by
  obtain ⟨w0, h1, h2⟩ := run_refines (R.construct hf dflt (n := n) (by omega)) hs
  rw [hw] at h1
  cases h1
  have hlk := (lookup_spec s k).2
  by_cases hk : lookup s k = none
  · obtain ⟨w', g1, g2⟩ := step_refines h2 (op := .insert a none k v) (r := .node (some s.fresh))
      (s' := { create s k v with seq := if a then s.fresh :: s.seq else s.seq ++ [s.fresh], loose := s.loose })
      (by simp only [Spec.step, hk, if_true, ins]; rfl)
    refine ⟨some s.fresh, w', g1, ?_, (fun h => nomatch h), ?_⟩
    · constructor
      · intro h; cases h
      · rintro ⟨x, hx, e⟩; exact absurd e (hlk.1 hk x hx)
    · intro x hx
      cases hx
      rw [find_ok g2]
      congr 1
      have := lookup_self g2 (x := s.fresh) (by cases a <;> simp)
      rwa [show S.key { create s k v with seq := if a then s.fresh :: s.seq else s.seq ++ [s.fresh], loose := s.loose } s.fresh = k by
        simp [Spec.create]] at this
  · obtain ⟨w', g1, g2⟩ := step_refines h2 (op := .insert a none k v) (r := .node none) (s' := { create s k v with loose := s.loose })
      (by simp only [Spec.step, hk, if_false])
    refine ⟨none, w', g1, ?_, fun _ => ⟨?_, fun k' => ?_⟩, (fun _ h => nomatch h)⟩
    · simp only [true_iff]
      by_contra hno
      exact hk (hlk.2 fun x hx e => hno ⟨x, hx, e⟩)
    · rw [forward_ok g2, forward_ok h2]
      congr 1
      refine List.map_congr_left fun x hx => ?_
      have := h2.bound (h2.seq_live hx)
      rw [h2.fresh] at this
      have hne : x ≠ s.fresh := by omega
      simp [Spec.create, upd_other _ _ hne]
    · rw [find_ok g2, find_ok h2]
      congr 1
      exact lookup_create h2 k k' v

/-- A history with colliding keys (constant hash function), an integer key equal to a string key's length, a refused
second insertion, a re-inserted detached node and growth from table size 1. -/
example : ((run (fun _ => 0) (construct (0 : Nat) 1) [.insert false none (.str [65, 66]) 1, .insert false none (.int 2) 2,
    .insert true none (.str [65]) 3, .insert false none (.int 2) 9, .insert true (some 0) (.int (-1)) 4, .detach (some 1) false,
    .insertNode true (some 2) 1, .find (.int 2), .find (.str [65, 66]), .find (.int 7)]).map fun r => r.1) =
    .ok [.node (some 0), .node (some 1), .node (some 2), .node none, .node (some 4), .bool true, .node (some 1),
      .node (some 1), .node (some 0), .node none] := by decide

example : ((run (fun _ => 0) (construct (0 : Nat) 1) [.insert false none (.str [65, 66]) 1, .insert false none (.int 2) 2,
    .insert true none (.str [65]) 3, .insert true (some 0) (.int (-1)) 4]).bind fun r => forward r.2) =
    .ok [(2, .str [65], 3), (0, .str [65, 66], 1), (3, .int (-1), 4), (1, .int 2, 2)] := by decide

example : ((Spec.run (S.empty (0 : Nat)) [.insert false none (.str [65, 66]) 1, .insert false none (.int 2) 2, .resize 7,
    .insert false none (.int 2) 9]).map fun r => r.1) = some [.node (some 0), .node (some 1), .bool true, .node none] := by decide

/-! ## C19 -/

/-- C19: After a legal history, pushing a node puts it behind all others, unshifting puts it in front, inserting it next
to a node of the hash puts it exactly there; nothing else moves.  The node is loose and its key is not present; to be pushed or unshifted it must not come from
`Empty(false)`. -/
theorem insert_order_partial (hf : List UInt8 → Nat) (dflt : α) (n : Nat) (hn : 1 ≤ n) (ops : List (Op α)) (rs : List Ret) (s : S α)
    (hs : Spec.run (S.empty dflt) ops = some (rs, s)) (w : W α) (hw : run hf (construct dflt n) ops = .ok (rs, w))
    (x : Nat) (hx : x ∈ s.loose) (hk : lookup s (s.key x) = none) :
    (s.stale x = false → ∃ w', step hf w (.insertNode false none x) = .ok (.node (some x), w') ∧
      forward w' = .ok (entries s ++ [(x, s.key x, s.val x)])) ∧
    (s.stale x = false → ∃ w', step hf w (.insertNode true none x) = .ok (.node (some x), w') ∧
      forward w' = .ok ((x, s.key x, s.val x) :: entries s)) ∧
    (∀ as b bs, entries s = as ++ b :: bs →
      (∃ w', step hf w (.insertNode false (some b.1) x) = .ok (.node (some x), w') ∧
        forward w' = .ok (as ++ (x, s.key x, s.val x) :: b :: bs)) ∧
      (∃ w', step hf w (.insertNode true (some b.1) x) = .ok (.node (some x), w') ∧
        forward w' = .ok (as ++ b :: (x, s.key x, s.val x) :: bs))) := by
  obtain ⟨w0, h1, h2⟩ := run_refines (R.construct hf dflt (n := n) (by omega)) hs
  rw [hw] at h1
  cases h1
  have key : ∀ (a : Bool) (p : Option Nat) (ys : List Nat), ins s.seq x a p = some ys → ¬ (s.stale x = true ∧ p = none) →
      ∃ w', step hf w (.insertNode a p x) = .ok (.node (some x), w') ∧ forward w' = .ok (ys.map fun y => (y, s.key y, s.val y)) := by
    intro a p ys hy hst
    obtain ⟨w', g1, g2⟩ := step_refines h2 (op := .insertNode a p x) (r := .node (some x))
      (s' := { s with seq := ys, loose := s.loose.erase x, stale := upd s.stale x false })
      (by simp only [Spec.step, hx, if_true, hk, hy, if_neg hst]; rfl)
    exact ⟨w', g1, forward_ok g2⟩
  refine ⟨fun hst => ?_, fun hst => ?_, fun as b bs he => ?_⟩
  · obtain ⟨w', g1, g2⟩ := key false none _ rfl (by simp [hst])
    exact ⟨w', g1, by rw [g2]; simp [entries]⟩
  · obtain ⟨w', g1, g2⟩ := key true none _ rfl (by simp [hst])
    exact ⟨w', g1, by rw [g2]; simp [entries]⟩
  · obtain ⟨as', tl, e1, e2, e3⟩ := List.map_eq_append_iff.1 he
    obtain ⟨b', bs', rfl, rfl, rfl⟩ := List.map_eq_cons_iff.1 e3
    subst e2
    have hnd := h2.chain.nodup
    rw [e1] at hnd
    have hb : b' ∉ as' := fun h => (List.nodup_append.1 hnd).2.2 b' h b' (by simp) rfl
    have hnt : ∀ a, nextTo a x b' (as' ++ b' :: bs') = as' ++ (if a then b' :: x :: bs' else x :: b' :: bs') := by
      intro a
      clear he e1 e3 hnd
      induction as' with
      | nil => simp [nextTo]
      | cons c cs ih =>
        simp only [List.mem_cons, not_or] at hb
        simp [nextTo, Ne.symm hb.1, ih hb.2]
    have hm : b' ∈ s.seq := by rw [e1]; simp
    constructor
    · obtain ⟨w', g1, g2⟩ := key false (some b') (nextTo false x b' s.seq) (by simp only [ins, hm, if_true]) (by simp)
      exact ⟨w', g1, by rw [g2, e1, hnt]; simp⟩
    · obtain ⟨w', g1, g2⟩ := key true (some b') (nextTo true x b' s.seq) (by simp only [ins, hm, if_true]) (by simp)
      exact ⟨w', g1, by rw [g2, e1, hnt]; simp⟩

/-- C19: `Detach` and `Remove` take exactly the named node out. -/
theorem detach_order_partial (hf : List UInt8 → Nat) (dflt : α) (n : Nat) (hn : 1 ≤ n) (ops : List (Op α)) (rs : List Ret) (s : S α)
    (hs : Spec.run (S.empty dflt) ops = some (rs, s)) (w : W α) (hw : run hf (construct dflt n) ops = .ok (rs, w))
    (x : Nat) (hx : x ∈ s.seq) (op : Op α) (hop : (∃ reset, op = .detach (some x) reset) ∨ op = .remove (some x)) :
    ∃ w', step hf w op = .ok (.bool true, w') ∧ forward w' = .ok ((entries s).filter fun e => e.1 ≠ x) := by
  obtain ⟨w0, h1, h2⟩ := run_refines (R.construct hf dflt (n := n) (by omega)) hs
  rw [hw] at h1
  cases h1
  have he : (s.seq.erase x).map (fun y => (y, s.key y, s.val y)) = (entries s).filter fun e => e.1 ≠ x := by
    rw [h2.chain.nodup.erase_eq_filter, entries, List.filter_map]
    congr 1
    apply List.filter_congr
    intro y _
    simp [bne, Function.comp, beq_iff_eq, Bool.beq_eq_decide_eq]
  rcases hop with ⟨reset, rfl⟩ | rfl
  · obtain ⟨w', g1, g2⟩ := step_refines h2 (op := .detach (some x) reset) (r := .bool true)
      (s' := { s with seq := s.seq.erase x, loose := x :: s.loose }) (by simp only [Spec.step, hx, if_true])
    exact ⟨w', g1, by rw [forward_ok g2, ← he]; rfl⟩
  · obtain ⟨w', g1, g2⟩ := step_refines h2 (op := .remove (some x)) (r := .bool true)
      (s' := { s with seq := s.seq.erase x }) (by simp only [Spec.step, hx, if_true])
    exact ⟨w', g1, by rw [forward_ok g2, ← he]; rfl⟩

example : ((run (fun _ => 5) (construct (0 : Nat) 2) [.insert false none (.int 1) 1, .insert false none (.int 2) 2,
    .insert false none (.int 3) 3, .detach (some 1) true, .insertNode true none 1, .remove (some 2)]).bind fun r => forward r.2) =
    .ok [(1, .int 2, 2), (0, .int 1, 1)] := by decide

/-- `Empty(false)` hands nodes back; they can be deleted, be given keys, and be inserted next to a node. -/
example : ((Spec.run (S.empty (0 : Nat)) [.insert false none (.int 1) 1, .insert false none (.int 2) 2, .insert false none (.int 3) 3, .release true,
    .delete 1, .insert false none (.int 4) 4, .setKey 0 (.int 5), .insertNode true (some 3) 0]).map fun r => entries r.2) =
    some [(3, .int 4, 4), (0, .int 5, 1)] ∧
    ((run (fun _ => 5) (construct (0 : Nat) 2) [.insert false none (.int 1) 1, .insert false none (.int 2) 2, .insert false none (.int 3) 3, .release true,
    .delete 1, .insert false none (.int 4) 4, .setKey 0 (.int 5), .insertNode true (some 3) 0]).bind fun r => forward r.2) =
    .ok [(3, .int 4, 4), (0, .int 5, 1)] := by decide

/-! ## C20 -/

/-- C20: `ResizeHash` to any size of at least one succeeds and changes neither iteration nor any `Find`; size 0 is refused. -/
theorem resize_invisible_partial (hf : List UInt8 → Nat) (dflt : α) (n : Nat) (hn : 1 ≤ n) (ops : List (Op α)) (rs : List Ret) (s : S α)
    (hs : Spec.run (S.empty dflt) ops = some (rs, s)) (w : W α) (hw : run hf (construct dflt n) ops = .ok (rs, w)) (m : Nat) :
    ∃ w', step hf w (.resize m) = .ok (.bool (m != 0), w') ∧ (m ≠ 0 → w'.tbl.length = m) ∧ forward w' = forward w ∧
      backward w' = backward w ∧ ∀ k, find hf w' k = find hf w k := by
  obtain ⟨w0, h1, h2⟩ := run_refines (R.construct hf dflt (n := n) (by omega)) hs
  rw [hw] at h1
  cases h1
  obtain ⟨w', g1, g2⟩ := step_refines h2 (op := .resize m) (r := .bool (m != 0)) (s' := s) rfl
  refine ⟨w', g1, fun hm => ?_, by rw [forward_ok g2, forward_ok h2], by rw [backward_ok g2, backward_ok h2],
    fun k => by rw [find_ok g2, find_ok h2]⟩
  simp only [step, resize, hm, if_false] at g1
  obtain ⟨hp', hn', t', r1, r2, -, -⟩ := rehashLoop_ok s.seq (w.fresh + 1) { w with tbl := List.replicate m none } [] none
    (Buckets.empty _ _ _ _) (by simp) h2.chain.live (by simp) h2.chain.nodup h2.chain.seg (by simp; omega)
    (by have := h2.core.length_le; simp; omega)
  rw [h2.chain.first, r1] at g1
  simp only [ok_bind, Except.ok.injEq, Prod.mk.injEq] at g1
  rw [← g1.2]
  simpa using r2

/-- C20: The table size (and with it automatic growth) and the hash function are invisible: any two hashes that see the
same legal history return the same and show the same, whatever their initial sizes and hash functions. -/
theorem table_invisible_partial (hf hf' : List UInt8 → Nat) (dflt : α) (n n' : Nat) (hn : 1 ≤ n) (hn' : 1 ≤ n') (ops : List (Op α)) (rs : List Ret)
    (s : S α) (hs : Spec.run (S.empty dflt) ops = some (rs, s)) :
    ∃ w w', run hf (construct dflt n) ops = .ok (rs, w) ∧ run hf' (construct dflt n') ops = .ok (rs, w') ∧
      forward w = forward w' ∧ backward w = backward w' ∧ ∀ k, find hf w k = find hf' w' k := by
  obtain ⟨w, h1, h2⟩ := run_refines (R.construct hf dflt (n := n) (by omega)) hs
  obtain ⟨w', h3, h4⟩ := run_refines (R.construct hf' dflt (n := n') (by omega)) hs
  exact ⟨w, w', h1, h3, by rw [forward_ok h2, forward_ok h4], by rw [backward_ok h2, backward_ok h4],
    fun k => by rw [find_ok h2, find_ok h4]⟩

/-- Growth does happen: the third node makes a table of size 1 grow to 3. -/
example : ((run (fun bs => bs.length) (construct (0 : Nat) 1) [.insert false none (.str [1]) 1, .insert false none (.str [2, 2]) 2,
    .insert false none (.str [3]) 3]).map fun r => r.2.tbl.length) = .ok 3 := by decide

/-! ## Disagreements -/

/-- With an estimated size of 0 the very first `Find` or `Push` divides by zero. -/
theorem size_zero_divides_by_zero (hf : List UInt8 → Nat) (dflt : α) (k : Key) (v : α) :
    find hf (construct dflt 0) k = .error .divByZero ∧
    step hf (construct dflt 0) (.insert false none k v) = .error .divByZero := by
  constructor
  · cases k <;> rfl
  · cases k with
    | int i => simp [step, insertV, insertN, attachedTest, createNode, construct, getHp, getHn, cacheHash, cachedHash, getHk, nodeHash,
        getSk, getIk, findNode, findIn, slot, ite_self]
    | str bs => simp [step, insertV, insertN, attachedTest, createNode, construct, getHp, getHn, cacheHash, cachedHash, getHk, nodeHash,
        getSk, getIk, findNode, findIn, slot, ite_self, readBytes]

/-- Two nodes are pushed, `Empty(false)` hands them back, the first is pushed again. -/
def releasedRun : CRes (W Nat) := do
  let (_, w) ← run (fun _ => 0) (construct (0 : Nat) 5) [.insert false none (.int 1) 1, .insert false none (.int 2) 2]
  let w ← release w true
  let (_, w) ← run (fun _ => 0) w [.insertNode false none 0]
  .ok w

/-- `Empty(false)` hands the nodes back with their old list links: after pushing the first of them again the hash
counts one node, but the forward walk shows both. -/
theorem released_nodes_keep_links :
    (releasedRun.map fun w => w.num) = .ok 1 ∧ (releasedRun.bind fun w => forward w) = .ok [(0, .int 1, 1), (1, .int 2, 2)] ∧
    (releasedRun.bind fun w => backward w) = .ok [(0, .int 1, 1)] := by decide

/-! ## C21 -/

theorem cloneNode_ok {junk : Option Nat} {w : W α} {x : Nat} {k : Key} (hl : w.lh.live x = true) (hk : KeyRep (w.ik x) (w.sk x) k) :
    ∃ sk', cloneNode junk w x = .ok { w with
      lh := { live := upd w.lh.live w.fresh true, pv := upd w.lh.pv w.fresh junk, nx := upd w.lh.nx w.fresh none }
      hp := upd w.hp w.fresh none
      hn := upd w.hn w.fresh none
      hk := upd w.hk w.fresh (w.hk x)
      ik := upd w.ik w.fresh (w.ik x)
      sk := upd w.sk w.fresh sk'
      val := upd w.val w.fresh (w.val x)
      fresh := w.fresh + 1 } ∧ KeyRep (w.ik x) sk' k := by
  cases k with
  | int i => exact ⟨none, by simp [cloneNode, getSk, getIk, hl, hk.1], rfl, hk.2⟩
  | str bs =>
    obtain ⟨buf, h1, h2, h3, h4⟩ := hk
    exact ⟨some bs, by simp [cloneNode, getSk, getIk, hl, h1, h2, readBytes, h3, h4], bs, rfl, h2, Nat.le_refl _, by simp⟩

/-- The copy so far: nodes `ys` behind the old nodes, an empty table. -/
structure CopyInv (junk : Option Nat) (w : W α) (ys : List Nat) (len : Nat) (K : Nat → Key) (V : Nat → α) : Prop where
  seg : Seg w.lh.pv w.lh.nx junk ys none
  first : w.ends.first = ys.head?
  last : w.ends.last = ys.getLast?
  nodup : ys.Nodup
  tbl : w.tbl = List.replicate len none
  ok : ∀ y ∈ ys, w.lh.live y = true ∧ KeyRep (w.ik y) (w.sk y) (K y) ∧ w.val y = V y

theorem copyLink_nil {w : W α} {y : Nat} (h : w.ends.first = none) : copyLink w y = .ok { w with ends := ⟨some y, some y⟩ } := by
  simp only [copyLink, h]

theorem copyLink_cons {w : W α} {y f l : Nat} (hf : w.ends.first = some f) (hl : w.ends.last = some l) (hy : w.lh.live y = true)
    (hll : w.lh.live l = true) : copyLink w y =
      .ok { w with lh := { w.lh with pv := upd w.lh.pv y (some l), nx := upd w.lh.nx l (some y) }, ends := ⟨some f, some y⟩ } := by
  simp only [copyLink, hf, hl, setPv, hy, if_true, ok_bind, setNx, hll]

theorem copyHash_ok {w : W α} {y len : Nat} (hl : w.lh.live y = true) (ht : w.tbl = List.replicate len none) (hpos : 0 < len) :
    copyHash w y = .ok { w with hn := upd w.hn y none } := by
  have hlt : w.hk y % len < len := Nat.mod_lt _ hpos
  have h0 : w.tbl.length ≠ 0 := by rw [ht, List.length_replicate]; omega
  have : w.tbl[w.hk y % w.tbl.length]? = some none := by rw [ht]; simp [hlt]
  simp only [copyHash, getHk, hl, if_true, ok_bind, slot, if_neg h0, rd_some this, setHn, setHpOpt]

theorem copyLoop_ok {junk : Option Nat} {len lim : Nat} (hpos : 0 < len) : ∀ (rest : List Nat) (n : Nat) (w : W α) (ys : List Nat) (q : Option Nat)
    (K : Nat → Key) (V : Nat → α),
    CopyInv junk w ys len K V → Seg w.lh.pv w.lh.nx q rest none →
    (∀ x ∈ rest, w.lh.live x = true ∧ KeyRep (w.ik x) (w.sk x) (K x) ∧ w.val x = V x) → (∀ x ∈ rest, x < lim) →
    (∀ y ∈ ys, lim ≤ y ∧ y < w.fresh) → lim ≤ w.fresh → rest.length < n →
    ∃ w' zs K' V', copyLoop junk n w rest.head? = .ok w' ∧ CopyInv junk w' (ys ++ zs) len K' V' ∧
      zs.map (fun z => (K' z, V' z)) = rest.map (fun x => (K x, V x)) ∧ (∀ x, x < w.fresh → K' x = K x ∧ V' x = V x) ∧
      w'.num = w.num ∧ w'.fresh = w.fresh + rest.length ∧
      (∀ x, x < lim → w'.lh.live x = w.lh.live x ∧ w'.lh.pv x = w.lh.pv x ∧ w'.lh.nx x = w.lh.nx x)
  | [], n + 1, w, ys, q, K, V, inv, _, _, _, _, _, _ =>
    ⟨w, [], K, V, rfl, by simpa using inv, rfl, fun _ _ => ⟨rfl, rfl⟩, rfl, rfl, fun _ _ => ⟨rfl, rfl, rfl⟩⟩
  | x :: rest, n + 1, w, ys, q, K, V, inv, hs, hr, hlt, hys, hlim, hn => by
    obtain ⟨hlx, hkx, hvx⟩ := hr x (by simp)
    have hxf : x < w.fresh := by have := hlt x (by simp); omega
    obtain ⟨sk', hc, hk'⟩ := cloneNode_ok (junk := junk) hlx hkx
    have hnx : w.lh.nx x = rest.head? := by have := hs.2.1; simpa using this
    -- the world after cloning and linking
    obtain ⟨w2, h2, hlink, hpv, hnx2, hlive, hfr, hends1, hends2⟩ : ∃ w2, copyLink { w with
        lh := { live := upd w.lh.live w.fresh true, pv := upd w.lh.pv w.fresh junk, nx := upd w.lh.nx w.fresh none }
        hp := upd w.hp w.fresh none
        hn := upd w.hn w.fresh none
        hk := upd w.hk w.fresh (w.hk x)
        ik := upd w.ik w.fresh (w.ik x)
        sk := upd w.sk w.fresh sk'
        val := upd w.val w.fresh (w.val x)
        fresh := w.fresh + 1 } w.fresh = .ok w2 ∧
        (w2.hp = upd w.hp w.fresh none ∧ w2.hk = upd w.hk w.fresh (w.hk x) ∧ w2.ik = upd w.ik w.fresh (w.ik x) ∧
          w2.sk = upd w.sk w.fresh sk' ∧ w2.val = upd w.val w.fresh (w.val x) ∧ w2.tbl = w.tbl ∧ w2.num = w.num) ∧
        w2.lh.pv = upd w.lh.pv w.fresh (if ys = [] then junk else ys.getLast?) ∧
        w2.lh.nx = updLast (upd w.lh.nx w.fresh none) ys (some w.fresh) ∧ w2.lh.live = upd w.lh.live w.fresh true ∧
        w2.fresh = w.fresh + 1 ∧ w2.ends.first = (ys ++ [w.fresh]).head? ∧ w2.ends.last = some w.fresh := by
      rcases List.eq_nil_or_concat ys with e | ⟨ys', l, e⟩
      · subst e
        have : w.ends.first = none := by rw [inv.first]; rfl
        refine ⟨_, copyLink_nil this, ⟨rfl, rfl, rfl, rfl, rfl, rfl, rfl⟩, by simp, by simp [updLast], rfl, rfl, rfl, rfl⟩
      · obtain ⟨f, hf⟩ : ∃ f, w.ends.first = some f := by
          rw [inv.first, e]
          cases ys' <;> simp
        have hl : w.ends.last = some l := by rw [inv.last, e]; simp
        have hll := (inv.ok l (by simp [e])).1
        have hlf : l ≠ w.fresh := by have := (hys l (by simp [e])).2; omega
        refine ⟨_, copyLink_cons hf hl (by simp) (by simp [upd_other _ _ hlf, hll]), ⟨rfl, rfl, rfl, rfl, rfl, rfl, rfl⟩, ?_, ?_, rfl, rfl, ?_, rfl⟩
        · simp only [e]
          rw [if_neg (by simp)]
          simp only [List.concat_eq_append, List.getLast?_append_cons, List.getLast?_singleton]
          funext z
          by_cases hz : z = w.fresh
          · simp [hz]
          · simp [upd_other _ _ hz]
        · simp [e, updLast]
        · show some f = _
          rw [← hf, inv.first, e]
          cases ys' <;> simp
    obtain ⟨hhp, hhk, hik, hsk, hval, htbl, hnum⟩ := hlink
    have hl2 : w2.lh.live w.fresh = true := by rw [hlive]; simp
    have h3 := copyHash_ok hl2 (htbl.trans inv.tbl) hpos
    have hfy : w.fresh ∉ ys := fun h => by have := (hys _ h).2; omega
    have hne : ∀ {y : Nat}, y < w.fresh → y ≠ w.fresh := fun h => by omega
    have hltf : ∀ {y : Nat}, y < lim → y ≠ w.fresh := fun h => by omega
    have hxy : ∀ {y : Nat}, y < lim → y ∉ ys := fun h hm => by have := (hys _ hm).1; omega
    have same : ∀ {y : Nat}, y < lim → w2.lh.live y = w.lh.live y ∧ w2.lh.pv y = w.lh.pv y ∧ w2.lh.nx y = w.lh.nx y := by
      intro y hy
      rw [hlive, hpv, hnx2, updLast_other (hxy hy)]
      simp [upd_other _ _ (hltf hy)]
    have node : ∀ {y : Nat}, y < w.fresh → w2.ik y = w.ik y ∧ w2.sk y = w.sk y ∧ w2.val y = w.val y ∧ w2.lh.live y = w.lh.live y := by
      intro y hy
      rw [hik, hsk, hval, hlive]
      simp [upd_other _ _ (hne hy)]
    have inv' : CopyInv junk { w2 with hn := upd w2.hn w.fresh none } (ys ++ [w.fresh]) len (upd K w.fresh (K x)) (upd V w.fresh (V x)) := by
      refine ⟨?_, hends1, by simp [hends2], ?_, htbl.trans inv.tbl, ?_⟩
      · show Seg w2.lh.pv w2.lh.nx _ _ _
        rw [hpv, hnx2]
        refine (seg_append _ _ _ _ _ _).2 ⟨?_, ?_, ?_, trivial⟩
        · have := seg_last (some w.fresh) inv.seg inv.nodup
          refine seg_congr (fun y hy => ⟨upd_other _ _ (ne_of_mem hy hfy), ?_⟩) this
          unfold updLast
          cases ys.getLast? with
          | none => exact upd_other _ _ (ne_of_mem hy hfy)
          | some l =>
            by_cases e : y = l
            · simp [e]
            · simp [upd_other _ _ e, upd_other _ _ (ne_of_mem hy hfy)]
        · simp only [upd_same]
          cases hg : ys.getLast? with
          | none => simp [List.getLast?_eq_none_iff.1 hg]
          | some l =>
            have : ys ≠ [] := fun h => by simp [h] at hg
            simp [this]
        · rw [updLast_other hfy]; simp
      · exact List.nodup_append.2 ⟨inv.nodup, by simp, fun a ha b hb => by
          simp only [List.mem_singleton] at hb
          rw [hb]; exact ne_of_mem ha hfy⟩
      · intro y hy
        show w2.lh.live y = true ∧ KeyRep (w2.ik y) (w2.sk y) _ ∧ w2.val y = _
        rcases List.mem_append.1 hy with hy | hy
        · have hyf := (hys y hy).2
          obtain ⟨a, b, c, d⟩ := node hyf
          rw [a, b, c, d, upd_other _ _ (hne hyf), upd_other _ _ (hne hyf)]
          exact inv.ok y hy
        · simp only [List.mem_singleton] at hy
          rw [hy, hik, hsk, hval]
          simp only [upd_same]
          exact ⟨hl2, hk', hvx⟩
    have hnd' : ∀ y ∈ rest, y < lim := fun y hy => hlt y (by simp [hy])
    obtain ⟨w', zs, K', V', g1, g2, g3, g4, g5, g6, g7⟩ := copyLoop_ok (junk := junk) (lim := lim) hpos rest n
      { w2 with hn := upd w2.hn w.fresh none } (ys ++ [w.fresh]) (some x) (upd K w.fresh (K x)) (upd V w.fresh (V x)) inv'
      (seg_congr (fun y hy => (same (hnd' y hy)).2) hs.2.2)
      (fun y hy => by
        have hyl := hnd' y hy
        have hyf : y < w.fresh := by omega
        obtain ⟨a, b, c, d⟩ := node hyf
        show w2.lh.live y = true ∧ KeyRep (w2.ik y) (w2.sk y) _ ∧ w2.val y = _
        rw [a, b, c, d, upd_other _ _ (hne hyf), upd_other _ _ (hne hyf)]
        exact hr y (by simp [hy]))
      hnd'
      (fun y hy => by
        show lim ≤ y ∧ y < w2.fresh
        rw [hfr]
        rcases List.mem_append.1 hy with hy | hy
        · have := hys y hy; omega
        · simp only [List.mem_singleton] at hy; omega)
      (by show lim ≤ w2.fresh; omega) (by simp only [List.length_cons] at hn; omega)
    have hnx3 : w2.lh.nx x = rest.head? := by rw [(same (hlt x (by simp))).2.2]; exact hnx
    have hlx3 : w2.lh.live x = true := by rw [(same (hlt x (by simp))).1]; exact hlx
    refine ⟨w', w.fresh :: zs, K', V', ?_, by simpa using g2, ?_, ?_, by rw [g5]; exact hnum, ?_, ?_⟩
    · simp only [List.head?_cons, copyLoop, hc, ok_bind, h2, h3, getNx, hlx3, if_true, hnx3]
      exact g1
    · simp only [List.map_cons]
      obtain ⟨a, b⟩ := g4 w.fresh (by show w.fresh < w2.fresh; omega)
      rw [a, b, upd_same, upd_same, g3]
      congr 1
      refine List.map_congr_left fun y hy => ?_
      have : y ≠ w.fresh := hltf (hnd' y hy)
      simp [upd_other _ _ this]
    · intro y hy
      obtain ⟨a, b⟩ := g4 y (by show y < w2.fresh; omega)
      rw [a, b]
      simp [upd_other _ _ (hne hy)]
    · rw [g6]
      show w2.fresh + _ = _
      rw [hfr]; simp; omega
    · intro y hy
      obtain ⟨a, b, c⟩ := g7 y hy
      obtain ⟨a', b', c'⟩ := same hy
      exact ⟨a.trans a', b.trans b', c.trans c'⟩

/-- C21 (partial): The copy of any hash reached by a legal history is made without undefined behaviour, counts the same
number of nodes, and walking it forward shows the keys and values of the source in the same order; the nodes of the source
keep their links.

Missing, because the code does not do it: `Find` on the copy (see `copy_find_null`) and walking backward (the first clone's
`PrevListNode` is never set, see `copy_backward_uninit`). -/
theorem copy_forward_partial (hf : List UInt8 → Nat) (dflt : α) (n : Nat) (hn : 1 ≤ n) (ops : List (Op α)) (rs : List Ret) (s : S α)
    (hs : Spec.run (S.empty dflt) ops = some (rs, s)) (w : W α) (hw : run hf (construct dflt n) ops = .ok (rs, w)) (junk : Option Nat) :
    ∃ c es, copy junk w = .ok c ∧ forward c = .ok es ∧
      es.map (fun e => e.2) = (entries s).map (fun e => e.2) ∧ c.num = w.num ∧
      ∀ x, x < w.fresh → c.lh.live x = w.lh.live x ∧ c.lh.pv x = w.lh.pv x ∧ c.lh.nx x = w.lh.nx x := by
  obtain ⟨w0, h1, h2⟩ := run_refines (R.construct hf dflt (n := n) (by omega)) hs
  rw [hw] at h1
  cases h1
  obtain ⟨c, zs, K', V', g1, g2, g3, g4, g5, g6, g7⟩ := copyLoop_ok (junk := junk) (lim := w.fresh) h2.pos s.seq (w.fresh + 1)
    { w with tbl := List.replicate w.tbl.length none, ends := ⟨none, none⟩ } [] none s.key s.val
    ⟨trivial, rfl, rfl, List.nodup_nil, rfl, by simp⟩ h2.chain.seg h2.node (fun x hx => h2.bound (h2.seq_live hx)) (by simp)
    (Nat.le_refl _) (by have := h2.core.length_le; omega)
  simp only [List.nil_append] at g2
  have hlen : zs.length = s.seq.length := by simpa using congrArg List.length g3
  refine ⟨c, zs.map (fun z => (z, K' z, V' z)), by simp only [copy, h2.chain.first, g1]; rfl, ?_, ?_, g5, g7⟩
  · unfold forward
    rw [g2.first]
    exact walkNext_ok zs _ junk g2.seg g2.ok (by rw [g6]; show zs.length < w.fresh + s.seq.length + 1; omega)
  · simp only [entries, List.map_map, Function.comp_def]
    exact g3

/-- C21 fails: on the copy of any hash, `Find` gives NULL for every key, because the copy constructor never writes
its table. -/
theorem copy_find_null (hf : List UInt8 → Nat) (dflt : α) (n : Nat) (hn : 1 ≤ n) (ops : List (Op α)) (rs : List Ret) (s : S α)
    (hs : Spec.run (S.empty dflt) ops = some (rs, s)) (w : W α) (hw : run hf (construct dflt n) ops = .ok (rs, w)) (junk : Option Nat) :
    ∃ c, copy junk w = .ok c ∧ ∀ k, find hf c k = .ok none := by
  obtain ⟨w0, h1, h2⟩ := run_refines (R.construct hf dflt (n := n) (by omega)) hs
  rw [hw] at h1
  cases h1
  obtain ⟨c, zs, K', V', g1, g2, g3, g4, g5, g6, g7⟩ := copyLoop_ok (junk := junk) (lim := w.fresh) h2.pos s.seq (w.fresh + 1)
    { w with tbl := List.replicate w.tbl.length none, ends := ⟨none, none⟩ } [] none s.key s.val
    ⟨trivial, rfl, rfl, List.nodup_nil, rfl, by simp⟩ h2.chain.seg h2.node (fun x hx => h2.bound (h2.seq_live hx)) (by simp)
    (Nat.le_refl _) (by have := h2.core.length_le; omega)
  refine ⟨c, by simp only [copy, h2.chain.first, g1]; rfl, fun k => ?_⟩
  have hfi : ∀ h m, findIn c h m = .ok none := by
    intro h m
    have hl : c.tbl.length ≠ 0 := by rw [g2.tbl, List.length_replicate]; have := h2.pos; omega
    have : c.tbl[h % c.tbl.length]? = some none := by
      rw [g2.tbl]; simp [Nat.mod_lt _ h2.pos]
    simp only [findIn, slot, if_neg hl, ok_bind, rd_some this, findLoop]
  cases k <;> exact hfi _ _

/-- One pushed node, copied, with the given garbage in the new node's `PrevListNode`. -/
def copyRun (junk : Option Nat) : CRes (W Nat) := do
  let (_, w) ← run (fun _ => 0) (construct (0 : Nat) 5) [.insert false none (.int 7) 1, .insert false none (.str [1, 2]) 2]
  copy junk w

/-- C21 fails: what walking the copy backward shows depends on uninitialised memory. -/
theorem copy_backward_uninit : (copyRun none).bind backward = .ok [(3, .str [1, 2], 2), (2, .int 7, 1)] ∧
    (copyRun (some 1)).bind backward = .ok [(3, .str [1, 2], 2), (2, .int 7, 1), (1, .str [1, 2], 2), (0, .int 7, 1)] ∧
    (copyRun (some 9)).bind backward = .error .badPtr := by decide

/-- The source of that copy finds its key, the copy does not. -/
example : ((run (fun _ => 0) (construct (0 : Nat) 5) [.insert false none (.int 7) 1, .find (.int 7)]).map fun r => r.1) =
    .ok [.node (some 0), .node (some 0)] ∧ (copyRun none).bind (fun c => find (fun _ => 0) c (.int 7)) = .ok none := by decide

example : (copyRun none).bind forward = .ok [(2, .int 7, 1), (3, .str [1, 2], 2)] := by decide

end Verif.OrderedHash
