import Verif.OrderedHash.Props
import Verif.OrderedHash.Sweep
import Verif.DList.PropsSweep

/-! # C131 for the detachable ordered hash: node pointers as cursors, and loops that change the hash -/

namespace Verif.OrderedHash
open Verif.Links Spec
open Verif.DList.Spec (ahead order)

variable {α : Type}

namespace Spec

/-- The meaning of a loop over the nodes `xs`: one round for each of them, with the calls of the body.  `none` marks a loop
outside the rules: a call that is illegal, or one that touches the nodes that are still to be visited. -/
def sweep (fwd : Bool) (body : Nat → Nat → Key → α → List (Op α)) : Nat → List Nat → S α → Option (List (Nat × Key × α) × S α)
  | _, [], s => some ([], s)
  | i, x :: rest, s => do
    let (_, s1) ← run s (body i x (s.key x) (s.val x))
    if ahead fwd rest s1.seq then do
      let (vis, s2) ← sweep fwd body (i + 1) rest s1
      some ((x, s.key x, s.val x) :: vis, s2)
    else none

end Spec

theorem R.neighbours {hf : List UInt8 → Nat} {w : W α} {s : S α} (r : R hf w s) {x : Nat} {as bs : List Nat}
    (hl : s.seq = as ++ x :: bs) :
    getKey w x = .ok (s.key x) ∧ getVal w x = .ok (s.val x) ∧ follow true w x = .ok bs.head? ∧
      follow false w x = .ok as.getLast? := by
  have hc := r.chain
  rw [hl] at hc
  have hlx : w.lh.live x = true := hc.live x (by simp)
  have hs := (seg_append _ _ as (x :: bs) none none).1 hc.seg
  have hnx : w.lh.nx x = bs.head? := by have := hs.2.2.1; simpa using this
  have hpx : w.lh.pv x = as.getLast? := by have := hs.2.1; simpa using this
  exact ⟨getKey_ok hlx (r.keyOk hlx), by simp [getVal, hlx, r.val hlx], by simp [follow, getNx, hlx, hnx],
    by simp [follow, getPv, hlx, hpx]⟩

theorem R.start {hf : List UInt8 → Nat} {w : W α} {s : S α} (r : R hf w s) (fwd : Bool) :
    start fwd w = (order fwd s.seq).head? := by
  cases fwd <;> simp [OrderedHash.start, r.chain.first, r.chain.last, order]

/-- **C131**, cursors of the ordered hash.  For every hash function, every initial size of at least one and every legal
history: for every node of the hash, its key and `Value` are right, `NextList()` is the node behind it and `PrevList()` the
node in front of it in the sequence (NULL at the ends), and `FirstList()` and `LastList()` are the ends of the sequence. -/
theorem hash_cursor (hf : List UInt8 → Nat) (dflt : α) (n : Nat) (hn : 1 ≤ n) (ops : List (Op α)) (rs : List Ret) (s : S α)
    (hs : Spec.run (S.empty dflt) ops = some (rs, s)) :
    ∃ w, run hf (construct dflt n) ops = .ok (rs, w) ∧
      (∀ as x bs, s.seq = as ++ x :: bs → getKey w x = .ok (s.key x) ∧ getVal w x = .ok (s.val x) ∧
        getNx w.lh x = .ok bs.head? ∧ getPv w.lh x = .ok as.getLast?) ∧
      start true w = s.seq.head? ∧ start false w = s.seq.getLast? := by
  obtain ⟨w, hw, r⟩ := run_refines (R.construct hf dflt (n := n) (by omega)) hs
  refine ⟨w, hw, fun as x bs hl => ?_, ?_, ?_⟩
  · simpa [follow] using r.neighbours hl
  · simpa [order] using r.start true
  · simpa [order] using r.start false

theorem sweepLoop_ok (hf : List UInt8 → Nat) (fwd : Bool) (body : Nat → Nat → Key → α → List (Op α)) :
    ∀ (todo : List Nat) (k i : Nat) (w : W α) (s s' : S α) (vis : List (Nat × Key × α)), R hf w s →
    ahead fwd todo s.seq = true → todo.length < k → Spec.sweep fwd body i todo s = some (vis, s') →
    ∃ w', sweepLoop hf fwd body k i w todo.head? = .ok (vis, w') ∧ R hf w' s' ∧ vis.map Prod.fst = todo
  | [], k + 1, i, w, s, s', vis, r, _, _, h => by
    simp only [Spec.sweep, Option.some.injEq, Prod.mk.injEq] at h
    obtain ⟨rfl, rfl⟩ := h
    exact ⟨w, rfl, r, rfl⟩
  | x :: rest, k + 1, i, w, s, s', vis, r, ha, hk, h => by
    simp only [Spec.sweep] at h
    obtain ⟨⟨rs1, s1⟩, h1, h⟩ := DList.bind_some h
    split at h
    case isFalse => cases h
    case isTrue hah =>
      obtain ⟨⟨vis2, s2⟩, h2, h⟩ := DList.bind_some h
      cases h
      obtain ⟨as, bs, hxs, hd⟩ := DList.ahead_split ha
      obtain ⟨n0, n1, n2, n3⟩ := r.neighbours hxs
      have hfo : follow fwd w x = .ok rest.head? := by
        cases fwd with
        | true => rw [n2]; simpa using hd
        | false => rw [n3]; simpa using hd
      obtain ⟨w1, hw1, r1⟩ := run_refines r h1
      obtain ⟨w2, hw2, r2, e2⟩ := sweepLoop_ok hf fwd body rest k (i + 1) w1 s1 s2 vis2 r1 hah
        (by simp only [List.length_cons] at hk; omega) h2
      exact ⟨w2, by simp [sweepLoop, n0, n1, hfo, hw1, hw2], r2, by simp [e2]⟩

theorem sweep_ok {hf : List UInt8 → Nat} {w : W α} {s s' : S α} (r : R hf w s) (fwd : Bool)
    (body : Nat → Nat → Key → α → List (Op α)) {vis : List (Nat × Key × α)}
    (h : Spec.sweep fwd body 0 (order fwd s.seq) s = some (vis, s')) :
    ∃ w', sweep hf fwd body w = .ok (vis, w') ∧ R hf w' s' ∧ vis.map Prod.fst = order fwd s.seq := by
  obtain ⟨w', h', r', e'⟩ := sweepLoop_ok hf fwd body (order fwd s.seq) (w.fresh + 1) 0 w s s' vis r (DList.ahead_all fwd s.seq)
    (by rw [DList.order_length]; have := r.core.length_le; omega) h
  exact ⟨w', by simp [sweep, r.start fwd, h'], r', e'⟩

/-- **C131**, loops over the ordered hash.  For every hash function, every initial size of at least one and every legal
history, a loop over the hash (in either direction) that reads the next node before anything is done with the current one,
and whose body makes any legal calls that leave the nodes still to be visited where they are: it has no undefined behaviour,
ends, visits exactly the nodes that were in the hash when it began, each once and in order, and afterwards the hash is what
the calls of the bodies make it, for iteration and for `Find`. -/
theorem hash_sweep_visits (hf : List UInt8 → Nat) (dflt : α) (n : Nat) (hn : 1 ≤ n) (ops : List (Op α)) (rs : List Ret) (s : S α)
    (hs : Spec.run (S.empty dflt) ops = some (rs, s)) (fwd : Bool) (body : Nat → Nat → Key → α → List (Op α))
    (vis : List (Nat × Key × α)) (s' : S α) (hb : Spec.sweep fwd body 0 (order fwd s.seq) s = some (vis, s')) :
    ∃ w w', run hf (construct dflt n) ops = .ok (rs, w) ∧ sweep hf fwd body w = .ok (vis, w') ∧
      vis.map Prod.fst = (if fwd then s.seq else s.seq.reverse) ∧ forward w' = .ok (entries s') ∧
      backward w' = .ok (entries s').reverse ∧ w'.num = s'.seq.length ∧ ∀ k, find hf w' k = .ok (lookup s' k) := by
  obtain ⟨w, hw, r⟩ := run_refines (R.construct hf dflt (n := n) (by omega)) hs
  obtain ⟨w', hw', r', e'⟩ := sweep_ok r fwd body hb
  exact ⟨w, w', hw, hw', by rw [e']; rfl, forward_ok r', backward_ok r', r'.num, find_ok r'⟩

/-- A body that changes the value, inserts in front of the current node (the table grows) and gives the node a new key. -/
example : ∃ rs s vis s', Spec.run (S.empty (0 : Nat)) [.insert false none (.int 1) 1, .insert false none (.str [7]) 2,
      .insert false none (.int (-3)) 3] = some (rs, s) ∧ s.seq = [0, 1, 2] ∧
    Spec.sweep true (fun i x k v => [.setValue x (v + 1), .insert false (some x) (.int (10 + i)) (10 * v), .find k, .resize 50,
      .detach (some x) true, .setKey x (.int (20 + i)), .insertNode true none x]) 0 [0, 1, 2] s = some (vis, s') ∧
    vis = [(0, .int 1, 1), (1, .str [7], 2), (2, .int (-3), 3)] ∧
    (entries s').map Prod.snd = [(.int 22, 4), (.int 21, 3), (.int 20, 2), (.int 10, 10), (.int 11, 20), (.int 12, 30)] :=
  ⟨_, _, _, _, rfl, by decide, rfl, by decide, by decide⟩

theorem sweep_remove (fwd : Bool) (keep : Key → α → Bool) : ∀ (todo : List Nat) (i : Nat) (s : S α),
    ahead fwd todo s.seq = true → s.seq.Nodup →
    Spec.sweep fwd (removeUnless keep) i todo s =
      some (todo.map (fun x => (x, s.key x, s.val x)),
        { s with seq := DList.left (fun y => keep (s.key y) (s.val y)) todo s.seq })
  | [], i, s, _, _ => by simp [Spec.sweep, DList.left_nil]
  | x :: rest, i, s, ha, hd => by
    obtain ⟨ha1, ha2⟩ := DList.ahead_erase ha hd
    have hx := DList.ahead_mem ha x (by simp)
    by_cases hk : keep (s.key x) (s.val x) = true
    · have ih := sweep_remove fwd keep rest (i + 1) s ha2 hd
      simp [Spec.sweep, removeUnless, hk, Spec.run, ha2, ih,
        DList.left_keep (keep := fun y => keep (s.key y) (s.val y)) (x := x) hk]
    · have hk' : keep (s.key x) (s.val x) = false := by simpa using hk
      have ih := sweep_remove fwd keep rest (i + 1) { s with seq := s.seq.erase x } ha1 (hd.erase x)
      simp [Spec.sweep, removeUnless, hk', Spec.run, Spec.step, hx, ha1, ih,
        DList.left_drop (keep := fun y => keep (s.key y) (s.val y)) (x := x) hk' hd]

theorem entries_filter (s : S α) (keep : Key → α → Bool) :
    entries { s with seq := s.seq.filter fun y => keep (s.key y) (s.val y) } = (entries s).filter fun e => keep e.2.1 e.2.2 := by
  simp only [entries, List.filter_map]
  rfl

/-- **C131**, removing in the loop over the ordered hash.  The loop that removes the nodes whose key and value are not to be
kept visits all entries in order and leaves exactly those that are to be kept, in order; the others are freed, and `Find`
gives exactly the nodes that are left. -/
theorem hash_sweep_removes (hf : List UInt8 → Nat) (dflt : α) (n : Nat) (hn : 1 ≤ n) (ops : List (Op α)) (rs : List Ret) (s : S α)
    (hs : Spec.run (S.empty dflt) ops = some (rs, s)) (fwd : Bool) (keep : Key → α → Bool) :
    ∃ w w' es, run hf (construct dflt n) ops = .ok (rs, w) ∧ forward w = .ok es ∧
      sweep hf fwd (removeUnless keep) w = .ok (if fwd then es else es.reverse, w') ∧
      forward w' = .ok (es.filter fun e => keep e.2.1 e.2.2) ∧
      (∀ e ∈ es, w'.lh.live e.1 = keep e.2.1 e.2.2) ∧
      (∀ e ∈ es, find hf w' e.2.1 = .ok (if keep e.2.1 e.2.2 then some e.1 else none)) := by
  obtain ⟨w, hw, r⟩ := run_refines (R.construct hf dflt (n := n) (by omega)) hs
  have hsw := sweep_remove fwd keep (order fwd s.seq) 0 s (DList.ahead_all fwd s.seq) r.chain.nodup
  rw [DList.left_all] at hsw
  obtain ⟨w', hw', r', -⟩ := sweep_ok r fwd _ hsw
  refine ⟨w, w', entries s, hw, forward_ok r, ?_, ?_, ?_, ?_⟩
  · rw [hw']; cases fwd <;> simp [order, entries]
  · rw [forward_ok r', entries_filter]
  · intro e he
    obtain ⟨x, hx, rfl⟩ := List.mem_map.1 he
    by_cases hk : keep (s.key x) (s.val x) = true
    · simp only [hk]
      exact r'.seq_live (by simp [hx, hk])
    · simp only [hk]
      by_contra hcon
      have hlv : w'.lh.live x = true := by simpa using hcon
      rcases r'.own hlv with h1 | h1
      · simp [hk] at h1
      · exact r.looseDisj hx h1
  · intro e he
    obtain ⟨x, hx, rfl⟩ := List.mem_map.1 he
    rw [find_ok r']
    by_cases hk : keep (s.key x) (s.val x) = true
    · have := lookup_self r' (x := x) (by simp [hx, hk])
      simp only [hk, if_true]
      exact congrArg _ this
    · rw [if_neg hk]
      congr 1
      show List.find? _ _ = none
      rw [List.find?_eq_none]
      intro y hy
      simp only [List.mem_filter] at hy
      simp only [decide_eq_true_eq]
      intro e
      have := r.uniq hy.1 hx e
      subst this
      exact hk hy.2

/-- A hash with an integer key and a string key of the same bytes, one of which is to go. -/
example : ∃ rs s, Spec.run (S.empty (0 : Nat)) [.insert false none (.int 1) 1, .insert false none (.str [1, 0, 0, 0, 0, 0, 0, 0]) 2] =
    some (rs, s) ∧ (entries s).filter (fun e => e.2.2 == 1) = [(0, .int 1, 1)] := ⟨_, _, rfl, by decide⟩

/-- **C131**, the rule is needed, ordered hash: asking a node for the next one after removing it reads freed memory, after
every history, as soon as the hash has a node that is not to be kept. -/
theorem hash_late_next_undefined (hf : List UInt8 → Nat) (dflt : α) (n : Nat) (hn : 1 ≤ n) (ops : List (Op α)) (rs : List Ret)
    (s : S α) (hs : Spec.run (S.empty dflt) ops = some (rs, s)) (fwd : Bool) (keep : Key → α → Bool)
    (hx : ∃ x ∈ s.seq, keep (s.key x) (s.val x) = false) :
    ∃ w, run hf (construct dflt n) ops = .ok (rs, w) ∧ late hf fwd (removeUnless keep) w = .error .badPtr := by
  obtain ⟨w, hw, r⟩ := run_refines (R.construct hf dflt (n := n) (by omega)) hs
  refine ⟨w, hw, ?_⟩
  have key : ∀ (todo : List Nat) (k i : Nat), ahead fwd todo s.seq = true → todo.length < k →
      (∃ x ∈ todo, keep (s.key x) (s.val x) = false) →
      lateLoop hf fwd (removeUnless keep) k i w todo.head? = .error .badPtr := by
    intro todo
    induction todo with
    | nil => intro k i _ _ hx; obtain ⟨x, hx, -⟩ := hx; cases hx
    | cons x rest ih =>
      intro k i ha hk hx
      obtain ⟨k, rfl⟩ : ∃ j, k = j + 1 := ⟨k - 1, by omega⟩
      obtain ⟨as, bs, hxs, hd⟩ := DList.ahead_split ha
      obtain ⟨n0, n1, n2, n3⟩ := r.neighbours hxs
      by_cases hkx : keep (s.key x) (s.val x) = true
      · have hfo : follow fwd w x = .ok rest.head? := by
          cases fwd with
          | true => rw [n2]; simpa using hd
          | false => rw [n3]; simpa using hd
        have hx' : ∃ y ∈ rest, keep (s.key y) (s.val y) = false := by
          obtain ⟨y, hy, hyk⟩ := hx
          rcases List.mem_cons.1 hy with rfl | hy
          · rw [hkx] at hyk; cases hyk
          · exact ⟨y, hy, hyk⟩
        have := ih k (i + 1) (DList.ahead_erase ha r.chain.nodup).2 (by simp only [List.length_cons] at hk; omega) hx'
        simp [lateLoop, n0, n1, removeUnless, hkx, run, hfo, this]
      · have hkx' : keep (s.key x) (s.val x) = false := by simpa using hkx
        have hmem : x ∈ s.seq := DList.ahead_mem ha x (by simp)
        have h0 : Spec.step s (.remove (some x)) = some (.bool true, { s with seq := s.seq.erase x }) := by
          simp [Spec.step, hmem]
        obtain ⟨w1, h1, r1⟩ := step_refines r h0
        have hdead : w1.lh.live x = false := by
          by_contra hcon
          have hlv : w1.lh.live x = true := by simpa using hcon
          rcases r1.own hlv with h1 | h1
          · exact r.chain.nodup.not_mem_erase h1
          · exact r.looseDisj hmem h1
        have hfo : follow fwd w1 x = .error .badPtr := by cases fwd <;> simp [follow, getNx, getPv, hdead]
        simp [lateLoop, n0, n1, removeUnless, hkx', run, h1, hfo]
  have := key (order fwd s.seq) (w.fresh + 1) 0 (DList.ahead_all fwd s.seq)
    (by rw [DList.order_length]; have := r.core.length_le; omega)
    (by obtain ⟨x, hx, hk⟩ := hx; exact ⟨x, by cases fwd <;> simpa [order] using hx, hk⟩)
  simp [late, r.start fwd, this]

end Verif.OrderedHash
