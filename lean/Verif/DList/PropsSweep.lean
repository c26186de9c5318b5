import Verif.DList.Props
import Verif.DList.Sweep

/-! # C131: node pointers as cursors, and loops over a list that change it -/

namespace Verif.DList
open Verif.Links Spec

variable {α : Type}

namespace Spec

/-- The nodes still to be visited are in the list, in this order and without others behind (forwards) or in front of
(backwards) or between them. -/
def ahead (fwd : Bool) (rest xs : List Nat) : Bool :=
  if fwd then decide (rest <:+ xs) else decide (rest.reverse <+: xs)

/-- The meaning of a loop over the nodes `xs` of list `l`: one round for each of them, with the calls of the body.
`none` marks a loop outside the rules: a call that is illegal, or one that touches the nodes that are still to be visited. -/
def sweep (fwd : Bool) (body : Nat → Nat → α → List (Op α)) (l : Nat) : Nat → List Nat → S α → Option (List (Nat × α) × S α)
  | _, [], s => some ([], s)
  | i, x :: rest, s => do
    let (_, s1) ← run s (body i x (s.val x))
    let ys ← seq s1 l
    if ahead fwd rest ys then do
      let (vis, s2) ← sweep fwd body l (i + 1) rest s1
      some ((x, s.val x) :: vis, s2)
    else none

/-- The order in which a loop sees a sequence. -/
def order (fwd : Bool) (xs : List Nat) : List Nat := if fwd then xs else xs.reverse

end Spec

/-! ## Cursors -/

theorem R.neighbours {w : W α} {s : S α} (r : R w s) {l x : Nat} {as bs : List Nat} (hl : seq s l = some (as ++ x :: bs)) :
    getVal w x = .ok (s.val x) ∧ follow true w x = .ok bs.head? ∧ follow false w x = .ok as.getLast? := by
  obtain ⟨o, -, -, hc, -⟩ := r.obj (seq_some.1 hl)
  have hlx : w.lh.live x = true := hc.live x (by simp)
  have hs := (seg_append _ _ as (x :: bs) none none).1 hc.seg
  have hnx : w.lh.nx x = bs.head? := by have := hs.2.2.1; simpa using this
  have hpx : w.lh.pv x = as.getLast? := by have := hs.2.1; simpa using this
  exact ⟨by simp [getVal, hlx, r.val hlx], by simp [follow, getNx, hlx, hnx], by simp [follow, getPv, hlx, hpx]⟩

theorem R.start {w : W α} {s : S α} (r : R w s) {l : Nat} {xs : List Nat} (hl : seq s l = some xs) (fwd : Bool) :
    start fwd w l = .ok (order fwd xs).head? := by
  obtain ⟨o, ho, -, ha, hc, hn⟩ := getObj_ok r (seq_some.1 hl)
  cases fwd <;> simp [DList.start, ho, hc.first, hc.last, order]

/-- **C131**, cursors.  After every legal history, for every node `x` of every list: `Value` is its value, `Next()` the
node behind it and `Prev()` the node in front of it in the sequence (NULL at the ends), and `First()` and `Last()` are the
ends of the sequence. -/
theorem cursor (dflt : α) (ops : List (Op α)) (rs : List Ret) (s : S α) (h : Spec.run (S.empty dflt) ops = some (rs, s)) :
    ∃ w, run (W.empty dflt) ops = .ok (rs, w) ∧
      (∀ l as x bs, seq s l = some (as ++ x :: bs) →
        getVal w x = .ok (s.val x) ∧ getNx w.lh x = .ok bs.head? ∧ getPv w.lh x = .ok as.getLast?) ∧
      (∀ l xs, seq s l = some xs → start true w l = .ok xs.head? ∧ start false w l = .ok xs.getLast?) := by
  obtain ⟨w, hw, r⟩ := run_refines ops (R.empty_world dflt) h
  refine ⟨w, hw, fun l as x bs hl => ?_, fun l xs hl => ⟨?_, ?_⟩⟩
  · simpa [follow] using r.neighbours hl
  · simpa [order] using r.start hl true
  · simpa [order] using r.start hl false

/-! ## Loops -/

theorem ahead_split {fwd : Bool} {x : Nat} {rest xs : List Nat} (h : ahead fwd (x :: rest) xs = true) :
    ∃ as bs, xs = as ++ x :: bs ∧ (if fwd then bs.head? else as.getLast?) = rest.head? := by
  cases fwd with
  | true =>
    simp only [ahead, if_true, decide_eq_true_eq] at h
    obtain ⟨as, h⟩ := h
    exact ⟨as, rest, h.symm, rfl⟩
  | false =>
    simp only [ahead, Bool.false_eq_true, if_false, decide_eq_true_eq] at h
    obtain ⟨bs, h⟩ := h
    refine ⟨rest.reverse, bs, by rw [← h]; simp, by simp⟩

theorem sweepLoop_ok (fwd : Bool) (body : Nat → Nat → α → List (Op α)) (l : Nat) : ∀ (todo : List Nat) (k i : Nat) (w : W α)
    (s s' : S α) (vis : List (Nat × α)) (ys : List Nat), R w s → seq s l = some ys → ahead fwd todo ys = true →
    todo.length < k → Spec.sweep fwd body l i todo s = some (vis, s') →
    ∃ w', sweepLoop fwd body k i w todo.head? = .ok (vis, w') ∧ R w' s' ∧ vis.map Prod.fst = todo
  | [], k + 1, i, w, s, s', vis, ys, r, _, _, _, h => by
    simp only [Spec.sweep, Option.some.injEq, Prod.mk.injEq] at h
    obtain ⟨rfl, rfl⟩ := h
    exact ⟨w, rfl, r, rfl⟩
  | x :: rest, k + 1, i, w, s, s', vis, ys, r, hl, ha, hk, h => by
    simp only [Spec.sweep] at h
    obtain ⟨⟨rs1, s1⟩, h1, h⟩ := bind_some h
    obtain ⟨zs, hz, h⟩ := bind_some h
    split at h
    case isFalse => cases h
    case isTrue hah =>
      obtain ⟨⟨vis2, s2⟩, h2, h⟩ := bind_some h
      cases h
      obtain ⟨as, bs, rfl, hd⟩ := ahead_split ha
      obtain ⟨n1, n2, n3⟩ := r.neighbours hl
      have hf : follow fwd w x = .ok rest.head? := by
        cases fwd with
        | true => rw [n2]; simpa using hd
        | false => rw [n3]; simpa using hd
      obtain ⟨w1, hw1, r1⟩ := run_refines _ r h1
      obtain ⟨w2, hw2, r2, e2⟩ := sweepLoop_ok fwd body l rest k (i + 1) w1 s1 s2 vis2 zs r1 hz hah
        (by simp only [List.length_cons] at hk; omega) h2
      exact ⟨w2, by simp [sweepLoop, n1, hf, hw1, hw2], r2, by simp [e2]⟩

theorem ahead_all (fwd : Bool) (xs : List Nat) : ahead fwd (order fwd xs) xs = true := by
  cases fwd <;> simp [ahead, order]

theorem order_length (fwd : Bool) (xs : List Nat) : (order fwd xs).length = xs.length := by cases fwd <;> simp [order]

theorem sweep_ok {w : W α} {s s' : S α} (r : R w s) {l : Nat} {xs : List Nat} (hl : seq s l = some xs) (fwd : Bool)
    (body : Nat → Nat → α → List (Op α)) {vis : List (Nat × α)} (h : Spec.sweep fwd body l 0 (order fwd xs) s = some (vis, s')) :
    ∃ w', sweep fwd body w l = .ok (vis, w') ∧ R w' s' ∧ vis.map Prod.fst = order fwd xs := by
  obtain ⟨w', h', r', e'⟩ := sweepLoop_ok fwd body l (order fwd xs) (w.fresh + 1) 0 w s s' vis xs r hl (ahead_all fwd xs)
    (by rw [order_length]; have := r.length_le (seq_some.1 hl); omega) h
  exact ⟨w', by simp [sweep, r.start hl fwd, h'], r', e'⟩

/-- **C131**, loops.  After every legal history, a loop over list `l` (in either direction) that reads the next node before
anything is done with the current one, and whose body makes any legal calls on any lists and nodes that leave the nodes still
to be visited where they are: it has no undefined behaviour, ends, visits exactly the nodes that were in the list when it
began, each once and in order, and afterwards every list is what the calls of the bodies make it. -/
theorem sweep_visits (dflt : α) (ops : List (Op α)) (rs : List Ret) (s : S α)
    (h : Spec.run (S.empty dflt) ops = some (rs, s)) (l : Nat) (xs : List Nat) (hl : seq s l = some xs) (fwd : Bool)
    (body : Nat → Nat → α → List (Op α)) (vis : List (Nat × α)) (s' : S α)
    (hb : Spec.sweep fwd body l 0 (order fwd xs) s = some (vis, s')) :
    ∃ w w', run (W.empty dflt) ops = .ok (rs, w) ∧ sweep fwd body w l = .ok (vis, w') ∧
      vis.map Prod.fst = (if fwd then xs else xs.reverse) ∧
      (∀ m ys, seq s' m = some ys → forward w' m = .ok (ys.map fun x => (x, s'.val x)) ∧
        backward w' m = .ok (ys.reverse.map fun x => (x, s'.val x)) ∧ step w' (.size m) = .ok (.num ys.length, w')) := by
  obtain ⟨w, hw, r⟩ := run_refines ops (R.empty_world dflt) h
  obtain ⟨w', hw', r', e'⟩ := sweep_ok r hl fwd body hb
  refine ⟨w, w', hw, hw', by rw [e']; rfl, fun m ys hm => ⟨forward_ok r' hm, backward_ok r' hm, ?_⟩⟩
  obtain ⟨o, ho, -, ha, hc, hn⟩ := getObj_ok r' (seq_some.1 hm)
  simp [step, ho, hn]

/-- A body that changes a value, inserts in front of the current node, adds to another list and empties a third one is within the rules. -/
example : ∃ rs s vis s', Spec.run (S.empty (0 : Nat)) [.constructV 1, .insertBeforeV 0 none 2, .insertBeforeV 0 none 3, .construct,
      .constructV 9] = some (rs, s) ∧
    seq s 0 = some [0, 1, 2] ∧
    Spec.sweep true (fun _ x v => [.setValue x (v + 1), .insertBeforeV 0 (some x) (10 * v), .insertAfterV 1 none v, .empty 2,
      .detach 0 (some x)]) 0 0 [0, 1, 2] s = some (vis, s') ∧
    vis = [(0, 1), (1, 2), (2, 3)] ∧ (seq s' 0).map (·.map s'.val) = some [10, 20, 30] ∧ (seq s' 1).map (·.map s'.val) = some [3, 2, 1] :=
  ⟨_, _, _, _, rfl, by decide, rfl, by decide, by decide, by decide⟩

/-! ## Removing and moving nodes in the loop -/

theorem ahead_erase {fwd : Bool} {x : Nat} {rest ys : List Nat} (h : ahead fwd (x :: rest) ys = true) (hd : ys.Nodup) :
    ahead fwd rest (ys.erase x) = true ∧ ahead fwd rest ys = true := by
  cases fwd with
  | true =>
    simp only [ahead, if_true, decide_eq_true_eq] at h ⊢
    obtain ⟨as, rfl⟩ := h
    rw [erase_middle hd]
    exact ⟨⟨as, rfl⟩, ⟨as ++ [x], by simp⟩⟩
  | false =>
    simp only [ahead, Bool.false_eq_true, if_false, decide_eq_true_eq] at h ⊢
    obtain ⟨bs, rfl⟩ := h
    have e : (x :: rest).reverse ++ bs = rest.reverse ++ x :: bs := by simp
    rw [e] at hd ⊢
    rw [erase_middle hd]
    exact ⟨⟨bs, rfl⟩, ⟨x :: bs, rfl⟩⟩

theorem ahead_mem {fwd : Bool} {todo ys : List Nat} (h : ahead fwd todo ys = true) : ∀ x ∈ todo, x ∈ ys := by
  intro x hx
  cases fwd with
  | true =>
    simp only [ahead, if_true, decide_eq_true_eq] at h
    exact h.subset hx
  | false =>
    simp only [ahead, Bool.false_eq_true, if_false, decide_eq_true_eq] at h
    exact h.subset (by simpa using hx)

theorem ahead_nodup {fwd : Bool} {todo ys : List Nat} (h : ahead fwd todo ys = true) (hd : ys.Nodup) : todo.Nodup := by
  cases fwd with
  | true =>
    simp only [ahead, if_true, decide_eq_true_eq] at h
    exact hd.sublist h.sublist
  | false =>
    simp only [ahead, Bool.false_eq_true, if_false, decide_eq_true_eq] at h
    exact List.nodup_reverse.1 (hd.sublist h.sublist)

/-- What is left of `ys` when those of `todo` that are not kept are gone. -/
def left (keep : Nat → Bool) (todo ys : List Nat) : List Nat := ys.filter fun y => decide (y ∉ todo) || keep y

theorem left_nil (keep : Nat → Bool) (ys : List Nat) : left keep [] ys = ys := by simp [left]

theorem left_keep {keep : Nat → Bool} {x : Nat} {rest ys : List Nat} (hk : keep x = true) :
    left keep (x :: rest) ys = left keep rest ys := by
  unfold left
  apply List.filter_congr
  intro y _
  by_cases h : y = x
  · subst h; simp [hk]
  · simp [h]

theorem left_drop {keep : Nat → Bool} {x : Nat} {rest ys : List Nat} (hk : keep x = false) (hd : ys.Nodup) :
    left keep (x :: rest) ys = left keep rest (ys.erase x) := by
  unfold left
  rw [hd.erase_eq_filter, List.filter_filter]
  apply List.filter_congr
  intro y _
  by_cases h : y = x
  · subst h; simp [hk]
  · simp [h]

theorem seq_setSeq {s : S α} {l : Nat} {xs ys : List Nat} (h : seq s l = some xs) : seq (setSeq s l (some ys)) l = some ys :=
  seq_some.2 (seqs_set (seq_some.1 h))

theorem seq_setSeq_other {s : S α} {l m : Nat} {q : Option (List Nat)} (h : m ≠ l) : seq (setSeq s l q) m = seq s m := by
  unfold seq setSeq
  simp only
  rw [List.getElem?_set_ne (Ne.symm h)]

theorem sweep_remove (fwd : Bool) (keep : α → Bool) (l : Nat) : ∀ (todo : List Nat) (i : Nat) (s : S α) (ys : List Nat),
    seq s l = some ys → ahead fwd todo ys = true → ys.Nodup →
    Spec.sweep fwd (removeUnless keep l) l i todo s =
      some (todo.map (fun x => (x, s.val x)), setSeq s l (some (left (fun y => keep (s.val y)) todo ys)))
  | [], i, s, ys, hl, _, _ => by
    simp only [Spec.sweep, left_nil, setSeq_self (seq_some.1 hl)]
    rfl
  | x :: rest, i, s, ys, hl, ha, hd => by
    obtain ⟨ha1, ha2⟩ := ahead_erase ha hd
    have hx := ahead_mem ha x (by simp)
    by_cases hk : keep (s.val x) = true
    · have ih := sweep_remove fwd keep l rest (i + 1) s ys hl ha2 hd
      simp [Spec.sweep, removeUnless, hk, Spec.run, hl, ha2, ih, left_keep (keep := fun y => keep (s.val y)) (x := x) hk]
    · have hk' : keep (s.val x) = false := by simpa using hk
      have hl' := seq_setSeq (ys := ys.erase x) hl
      have ih := sweep_remove fwd keep l rest (i + 1) (setSeq s l (some (ys.erase x))) (ys.erase x) hl' ha1 (hd.erase x)
      have e : (setSeq s l (some (ys.erase x))).val = s.val := rfl
      simp [Spec.sweep, removeUnless, hk', Spec.run, Spec.step, Spec.drop, hl, hx, hl', ha1, ih, e, setSeq_setSeq,
        left_drop (keep := fun y => keep (s.val y)) (x := x) hk' hd]

theorem insBefore_end (zs : List Nat) (x : Nat) : insBefore zs x none = some (zs ++ [x]) := rfl

theorem setSeq_comm (s : S α) {l m : Nat} (h : l ≠ m) (a b : Option (List Nat)) :
    setSeq (setSeq s l a) m b = setSeq (setSeq s m b) l a := by
  simp only [setSeq, List.set_comm _ _ h]

theorem sweep_move (fwd : Bool) (keep : α → Bool) {l m : Nat} (hlm : m ≠ l) : ∀ (todo : List Nat) (i : Nat) (s : S α)
    (ys zs : List Nat), seq s l = some ys → seq s m = some zs → ahead fwd todo ys = true → ys.Nodup →
    Spec.sweep fwd (moveUnless keep l m) l i todo s =
      some (todo.map (fun x => (x, s.val x)), setSeq (setSeq s l (some (left (fun y => keep (s.val y)) todo ys))) m
        (some (zs ++ todo.filter fun x => !keep (s.val x))))
  | [], i, s, ys, zs, hl, hm, _, _ => by
    simp only [Spec.sweep, left_nil, setSeq_self (seq_some.1 hl), List.filter_nil, List.append_nil, setSeq_self (seq_some.1 hm)]
    rfl
  | x :: rest, i, s, ys, zs, hl, hm, ha, hd => by
    obtain ⟨ha1, ha2⟩ := ahead_erase ha hd
    have hx := ahead_mem ha x (by simp)
    by_cases hk : keep (s.val x) = true
    · have ih := sweep_move fwd keep hlm rest (i + 1) s ys zs hl hm ha2 hd
      simp [Spec.sweep, moveUnless, hk, Spec.run, hl, ha2, ih, left_keep (keep := fun y => keep (s.val y)) (x := x) hk]
    · have hk' : keep (s.val x) = false := by simpa using hk
      have hl1 := seq_setSeq (ys := ys.erase x) hl
      have hm1 : seq (setSeq s l (some (ys.erase x))) m = some zs := by rw [seq_setSeq_other hlm]; exact hm
      have hl2 : seq (setSeq (setSeq s l (some (ys.erase x))) m (some (zs ++ [x]))) l = some (ys.erase x) := by
        rw [seq_setSeq_other (Ne.symm hlm)]; exact hl1
      have hm2 : seq (setSeq (setSeq s l (some (ys.erase x))) m (some (zs ++ [x]))) m = some (zs ++ [x]) := seq_setSeq hm1
      have ih := sweep_move fwd keep hlm rest (i + 1) _ _ _ hl2 hm2 ha1 (hd.erase x)
      have hrun : Spec.run s (moveUnless keep l m i x (s.val x)) =
          some ([.bool true, .node (some x)], setSeq (setSeq s l (some (ys.erase x))) m (some (zs ++ [x]))) := by
        have hm1' : seq ({ setSeq s l (some (ys.erase x)) with loose := x :: s.loose } : S α) m = some zs := hm1
        simp [moveUnless, hk', Spec.run, Spec.step, Spec.take, hl, hx, insertNode, place, hm1', insBefore_end]
        simp [setSeq]
      have e : (setSeq (setSeq s l (some (ys.erase x))) m (some (zs ++ [x]))).val = s.val := rfl
      simp only [Spec.sweep, hrun, Option.bind_eq_bind, Option.bind_some, hl2, ha1, if_true, ih, e, List.map_cons,
        left_drop (keep := fun y => keep (s.val y)) (x := x) hk' hd, hk', Bool.not_false, List.filter_cons_of_pos,
        Option.some.injEq, Prod.mk.injEq, true_and]
      rw [setSeq_comm _ hlm, setSeq_setSeq, setSeq_setSeq]
      simp

theorem left_all {keep : Nat → Bool} {fwd : Bool} (xs : List Nat) : left keep (order fwd xs) xs = xs.filter keep := by
  unfold left
  apply List.filter_congr
  intro y hy
  cases fwd <;> simp [order, hy]

theorem map_pair_fst {xs : List Nat} {f : Nat → α} (q : α → Bool) :
    (xs.filter fun x => q (f x)).map (fun x => (x, f x)) = (xs.map fun x => (x, f x)).filter fun e => q e.2 := by
  induction xs with
  | nil => rfl
  | cons x xs ih => by_cases h : q (f x) = true <;> simp [h, ih]

/-- **C131**, removing in the loop.  After every legal history, the loop over list `l` that removes the nodes whose value is
not to be kept visits all nodes with their values in order and leaves exactly those that are to be kept, in order; the
others are freed; all other lists are as before. -/
theorem sweep_removes (dflt : α) (ops : List (Op α)) (rs : List Ret) (s : S α)
    (h : Spec.run (S.empty dflt) ops = some (rs, s)) (l : Nat) (xs : List Nat) (hl : seq s l = some xs) (fwd : Bool)
    (keep : α → Bool) :
    ∃ w w' es, run (W.empty dflt) ops = .ok (rs, w) ∧ forward w l = .ok es ∧
      sweep fwd (removeUnless keep l) w l = .ok (if fwd then es else es.reverse, w') ∧
      forward w' l = .ok (es.filter fun e => keep e.2) ∧
      (∀ e ∈ es, w'.lh.live e.1 = keep e.2) ∧
      (∀ m, m ≠ l → seq s m ≠ none → forward w' m = forward w m) := by
  obtain ⟨w, hw, r⟩ := run_refines ops (R.empty_world dflt) h
  obtain ⟨o, -, -, hc, -⟩ := r.obj (seq_some.1 hl)
  have hsw := sweep_remove fwd keep l (order fwd xs) 0 s xs hl (ahead_all fwd xs) hc.nodup
  rw [left_all] at hsw
  obtain ⟨w', hw', r', -⟩ := sweep_ok r hl fwd _ hsw
  have hl' : seq (setSeq s l (some (xs.filter fun y => keep (s.val y)))) l = some (xs.filter fun y => keep (s.val y)) :=
    seq_setSeq hl
  refine ⟨w, w', xs.map fun x => (x, s.val x), hw, forward_ok r hl, ?_, ?_, ?_, ?_⟩
  · rw [hw']; cases fwd <;> simp [order]
  · rw [forward_ok r' hl', ← map_pair_fst keep]; rfl
  · intro e he
    obtain ⟨x, hx, rfl⟩ := List.mem_map.1 he
    obtain ⟨o', -, -, hc', -⟩ := r'.obj (seq_some.1 hl')
    by_cases hk : keep (s.val x) = true
    · simp only [hk]
      exact hc'.live x (by simp [hx, hk])
    · simp only [hk]
      by_contra hcon
      have hlv : w'.lh.live x = true := by simpa using hcon
      rcases r'.own hlv with h1 | ⟨m, ys, h1, h2⟩
      · exact r.looseDisj (seq_some.1 hl) x hx h1
      · by_cases hml : m = l
        · subst hml
          have := (seq_some.2 h1).symm.trans hl'
          simp only [Option.some.injEq] at this
          subst this
          simp [hk] at h2
        · have h3 := seq_some.2 h1
          rw [seq_setSeq_other hml] at h3
          exact r.disj (Ne.symm hml) (seq_some.1 hl) (seq_some.1 h3) x hx h2
  · intro m hm hne
    obtain ⟨ys, hys⟩ := Option.ne_none_iff_exists'.1 hne
    rw [forward_ok r hys, forward_ok r' (by rw [seq_setSeq_other hm]; exact hys)]
    rfl

/-- **C131**, moving in the loop.  The loop over list `l` that detaches the nodes whose value is not to be kept and pushes
them to list `m` splits the list: what is to be kept stays in order, the others are behind what `m` had, in the order of the
loop, the very same nodes with their values; the remaining lists are as before. -/
theorem sweep_moves (dflt : α) (ops : List (Op α)) (rs : List Ret) (s : S α)
    (h : Spec.run (S.empty dflt) ops = some (rs, s)) (l m : Nat) (xs zs : List Nat) (hl : seq s l = some xs)
    (hm : seq s m = some zs) (hlm : m ≠ l) (fwd : Bool) (keep : α → Bool) :
    ∃ w w' es fs, run (W.empty dflt) ops = .ok (rs, w) ∧ forward w l = .ok es ∧ forward w m = .ok fs ∧
      sweep fwd (moveUnless keep l m) w l = .ok (if fwd then es else es.reverse, w') ∧
      forward w' l = .ok (es.filter fun e => keep e.2) ∧
      forward w' m = .ok (fs ++ (if fwd then es else es.reverse).filter fun e => !keep e.2) ∧
      (∀ n, n ≠ l → n ≠ m → seq s n ≠ none → forward w' n = forward w n) := by
  obtain ⟨w, hw, r⟩ := run_refines ops (R.empty_world dflt) h
  obtain ⟨o, -, -, hc, -⟩ := r.obj (seq_some.1 hl)
  have hsw := sweep_move fwd keep hlm (order fwd xs) 0 s xs zs hl hm (ahead_all fwd xs) hc.nodup
  rw [left_all] at hsw
  obtain ⟨w', hw', r', -⟩ := sweep_ok r hl fwd _ hsw
  have hm1 : seq (setSeq s l (some (xs.filter fun y => keep (s.val y)))) m = some zs := by rw [seq_setSeq_other hlm]; exact hm
  refine ⟨w, w', xs.map fun x => (x, s.val x), zs.map fun x => (x, s.val x), hw, forward_ok r hl, forward_ok r hm, ?_, ?_, ?_, ?_⟩
  · rw [hw']; cases fwd <;> simp [order]
  · rw [forward_ok r' (by rw [seq_setSeq_other (Ne.symm hlm)]; exact seq_setSeq hl), ← map_pair_fst keep]; rfl
  · rw [forward_ok r' (seq_setSeq hm1)]
    have e : (if fwd = true then xs.map fun x => (x, s.val x) else (xs.map fun x => (x, s.val x)).reverse) =
        (order fwd xs).map fun x => (x, s.val x) := by cases fwd <;> simp [order]
    rw [e, ← map_pair_fst (fun v => !keep v), List.map_append]
    rfl
  · intro n h1 h2 hne
    obtain ⟨ys, hys⟩ := Option.ne_none_iff_exists'.1 hne
    rw [forward_ok r hys, forward_ok r' (by rw [seq_setSeq_other h2, seq_setSeq_other h1]; exact hys)]
    rfl

/-- Two lists, some nodes to be kept. -/
example : ∃ rs s, Spec.run (S.empty (0 : Nat)) [.constructV 1, .insertBeforeV 0 none 2, .insertBeforeV 0 none 3, .insertBeforeV 0 none 4,
      .constructV 9] = some (rs, s) ∧ seq s 0 = some [0, 1, 2, 3] ∧ seq s 1 = some [4] ∧
      ([0, 1, 2, 3].map s.val).filter (fun v => v % 2 == 0) = [2, 4] :=
  ⟨_, _, rfl, by decide, by decide, by decide⟩

/-- **C131**, the rule is needed.  The loop that asks a node for the next one after removing it reads freed memory, after
every history, as soon as the list has a node that is not to be kept. -/
theorem late_next_undefined (dflt : α) (ops : List (Op α)) (rs : List Ret) (s : S α)
    (h : Spec.run (S.empty dflt) ops = some (rs, s)) (l : Nat) (xs : List Nat) (hl : seq s l = some xs) (fwd : Bool)
    (keep : α → Bool) (hx : ∃ x ∈ xs, keep (s.val x) = false) :
    ∃ w, run (W.empty dflt) ops = .ok (rs, w) ∧ late fwd (removeUnless keep l) w l = .error .badPtr := by
  obtain ⟨w, hw, r⟩ := run_refines ops (R.empty_world dflt) h
  refine ⟨w, hw, ?_⟩
  have key : ∀ (todo : List Nat) (k i : Nat), ahead fwd todo xs = true → todo.length < k → (∃ x ∈ todo, keep (s.val x) = false) →
      lateLoop fwd (removeUnless keep l) k i w todo.head? = .error .badPtr := by
    intro todo
    induction todo with
    | nil => intro k i _ _ hx; obtain ⟨x, hx, -⟩ := hx; cases hx
    | cons x rest ih =>
      intro k i ha hk hx
      obtain ⟨k, rfl⟩ : ∃ j, k = j + 1 := ⟨k - 1, by omega⟩
      obtain ⟨as, bs, hxs, hd⟩ := ahead_split ha
      have hl' := hl
      rw [hxs] at hl'
      obtain ⟨n1, n2, n3⟩ := r.neighbours hl'
      obtain ⟨o, -, -, hc, -⟩ := r.obj (seq_some.1 hl)
      by_cases hkx : keep (s.val x) = true
      · have hf : follow fwd w x = .ok rest.head? := by
          cases fwd with
          | true => rw [n2]; simpa using hd
          | false => rw [n3]; simpa using hd
        have hx' : ∃ y ∈ rest, keep (s.val y) = false := by
          obtain ⟨y, hy, hyk⟩ := hx
          rcases List.mem_cons.1 hy with rfl | hy
          · rw [hkx] at hyk; cases hyk
          · exact ⟨y, hy, hyk⟩
        have := ih k (i + 1) (ahead_erase ha hc.nodup).2 (by simp only [List.length_cons] at hk; omega) hx'
        simp [lateLoop, n1, removeUnless, hkx, run, hf, this]
      · have hkx' : keep (s.val x) = false := by simpa using hkx
        have hmem : x ∈ xs := ahead_mem ha x (by simp)
        obtain ⟨w1, h1, -, r1⟩ := r.remove (seq_some.1 hl) hmem
        have hdead : w1.lh.live x = false := by
          by_contra hcon
          have hlv : w1.lh.live x = true := by simpa using hcon
          rcases r1.own hlv with h1 | ⟨m, ys, h1, h2⟩
          · exact r.looseDisj (seq_some.1 hl) x hmem h1
          · by_cases hml : m = l
            · subst hml
              have := (seq_some.2 h1).symm.trans (seq_setSeq hl)
              simp only [Option.some.injEq] at this
              subst this
              exact hc.nodup.not_mem_erase h2
            · have h3 := seq_some.2 h1
              rw [seq_setSeq_other hml] at h3
              exact r.disj (Ne.symm hml) (seq_some.1 hl) (seq_some.1 h3) x hmem h2
        have hfo : follow fwd w1 x = .error .badPtr := by cases fwd <;> simp [follow, getNx, getPv, hdead]
        simp [lateLoop, n1, removeUnless, hkx', run, step, h1, hfo]
  have := key (order fwd xs) (w.fresh + 1) 0 (ahead_all fwd xs)
    (by rw [order_length]; have := r.length_le (seq_some.1 hl); omega)
    (by obtain ⟨x, hx, hk⟩ := hx; exact ⟨x, by cases fwd <;> simpa [order] using hx, hk⟩)
  simp [late, r.start hl fwd, this]

/-- Such a list. -/
example : ∃ rs s, Spec.run (S.empty (0 : Nat)) [.constructV 1, .insertBeforeV 0 none 2] = some (rs, s) ∧
    seq s 0 = some [0, 1] ∧ ∃ x ∈ [0, 1], (fun v => v % 2 == 1) (s.val x) = false := ⟨_, _, rfl, by decide, by decide⟩

end Verif.DList
