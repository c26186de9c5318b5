import Verif.Tls.Lemmas

/-!
# C40, C62, C63: the thread-local allocator

`m` is the number of buckets given to `ThreadInit`, `2 ^ K` bounds the sizes asked for (`K ≤ 63`
covers every size for which `NormalizeBitPosition` is defined).  In C40 one of the two is at most 31,
because `realloc` computes `1 << Pos2` with an `int`.
-/

namespace Verif.Tls
open Spec

/-- C40 (partial).  After any history of `malloc`, `realloc`, `free` and accesses in which the caller
kept to the rules, one more such operation has no undefined behaviour and a proper result: a block that
is not in use, all of whose bytes can be written; a byte read is the one last written to it, also after
`realloc`.

Missing: failures of `::malloc` for large sizes and of `::realloc` (`large_failure`,
`realloc_failure`), sizes over 2^63 (`huge_size`), and copies of blocks over 2^30 bytes with more than
31 buckets (`copy_overflow`). -/
theorem allocator_partial (m K : Nat) (hm : m ≤ 31 ∨ K ≤ 31) (hK : 3 ≤ K ∧ K ≤ 63) (ops : List Op)
    (h : List (Op × Out)) (s : St) (e : run (threadInit .empty m) ops = .ok (h, s))
    (hv : AllValid m K Live.none h) (op : Op) (hop : Valid m K (afterAll Live.none h) op) :
    ∃ out s', step s op = .ok (out, s') ∧ Good (afterAll Live.none h) op out := by
  obtain ⟨hr, hk⟩ := init_rel m K hK
  obtain ⟨le, hr, hk⟩ := run_rel ops _ _ _ h s hr hk e hv
  obtain ⟨out, s', _, e1, hg, _, _⟩ := step_ok hr hk op hop (.inl hm)
  exact ⟨out, s', e1, hg⟩

/-- The history used for the example: two blocks; one is grown and moves, the first is freed and its
memory is used again for a request it can hold. -/
def sampleOps : List Op :=
  [.malloc true 5, .poke (.blk 0) 4 7, .malloc true 8, .realloc true (.blk 0) 20 true,
   .peek (.blk 2) 4, .malloc true 6]

def sampleHist : List (Op × Out) :=
  [(.malloc true 5, .ptr (.blk 0)), (.poke (.blk 0) 4 7, .unit), (.malloc true 8, .ptr (.blk 1)),
   (.realloc true (.blk 0) 20 true, .ptr (.blk 2)), (.peek (.blk 2) 4, .cell (some 7)),
   (.malloc true 6, .ptr (.blk 0))]

example : ((run (threadInit .empty 4) sampleOps).map fun x => x.1.map Prod.snd) =
    .ok (sampleHist.map Prod.snd) := by decide +kernel

example : AllValid 4 10 Live.none sampleHist ∧
    Valid 4 10 (afterAll Live.none sampleHist) (.poke (.blk 2) 19 1) := by
  refine ⟨⟨⟨by decide, .inl rfl⟩, ⟨0, _, rfl, rfl, by decide⟩, ⟨by decide, .inl rfl⟩,
    ⟨by decide, rfl, .inr ⟨0, rfl, by decide⟩⟩, ⟨2, _, rfl, rfl, by decide⟩, ⟨by decide, .inl rfl⟩,
    trivial⟩, ⟨2, _, rfl, rfl, by decide⟩⟩

/-- Negation of C40: when `::malloc` fails for a size beyond the buckets, `malloc` writes through the
NULL pointer instead of returning it. -/
theorem large_failure : malloc (threadInit .empty 4) false 100 = .error .nullDeref := by rfl

/-- Negation of C40: when `::realloc` fails, `realloc` returns the address 1, not NULL; and touching
or freeing it is undefined. -/
theorem realloc_failure : ∃ s p, malloc (threadInit .empty 3) true 5 = .ok (p, s) ∧
    ∃ s', realloc s false p 9 true = .ok (.one, s') ∧ free s' .one true = .error .nullDeref := by
  refine ⟨_, _, rfl, _, rfl, rfl⟩

/-- Negation of C40: for a size over 2^63 the loop of `NormalizeBitPosition` shifts by 64. -/
theorem huge_size (m : Nat) (ok : Bool) : malloc (threadInit .empty m) ok (2 ^ 63 + 1) =
    .error .badShift := by
  have : normPos (2 ^ 63 + 1) = .error .badShift := by decide +kernel
  simp [malloc, threadInit, St.empty, this]

/-- Negation of C40: with more than 32 buckets, growing a block of 2^31 bytes computes `1 << 31`. -/
theorem copy_overflow (m : Nat) (hm : 32 < m) (cache : Bool) :
    ∃ s, malloc (threadInit .empty m) true (2 ^ 31) = .ok (.blk 0, s) ∧
      realloc s true (.blk 0) (2 ^ 31 + 1) cache = .error .signedOverflow := by
  have e1 : normPos (2 ^ 31) = .ok 31 := by decide +kernel
  have e2 : normPos (2 ^ 31 + 1) = .ok 32 := by decide +kernel
  have e3 : normPos (2 ^ 32) = .ok 32 := by decide +kernel
  have hmal : ∀ (h : BHeap Cell) (pos : Nat), pos = 31 ∨ pos = 32 →
      malloc ⟨h, some m, fun _ => []⟩ true (2 ^ pos) =
      .ok (.blk h.length, ⟨h ++ [some ((List.replicate (2 ^ pos + 1) none).set 0 (some (UInt8.ofNat pos)))],
        some m, fun _ => []⟩) := by
    intro h pos hp
    have en : normPos (2 ^ pos) = .ok pos := by
      rcases hp with rfl | rfl
      · exact e1
      · exact e3
    have h0 : (2 : Nat) ^ pos ≠ 0 := by have := Nat.two_pow_pos pos; omega
    have h16 : ¬ (2 : Nat) ^ pos + 1 < nodeSize := by
      rcases hp with rfl | rfl <;> decide
    unfold malloc
    rw [if_neg h0]
    dsimp only
    rw [en, ok_bind, if_neg (by omega), if_neg h16]
    simp only [sysMalloc, if_true, BHeap.alloc]
    rw [putPos_ok (b := List.replicate (2 ^ pos + 1) none) (by simp) (by simp)]
    simp only
    rw [List.set_append_right _ _ (Nat.le_refl _)]
    simp
  have hg : ∀ k, 0 < k → getPos ⟨[] ++ [some ((List.replicate k (none : Cell)).set 0 (some (UInt8.ofNat 31)))],
      some m, fun _ => []⟩ 0 = .ok 31 := by
    intro k hk
    rw [getPos, BHeap.load_ok (v := some (UInt8.ofNat 31)) (b := (List.replicate k (none : Cell)).set 0
      (some (UInt8.ofNat 31))) rfl (by rw [List.getElem?_set_self (by simpa using hk)]), ok_bind]
    rfl
  have key : ∀ (s : St), s.main = some m → getPos s 0 = .ok 31 →
      (∃ p s', malloc s true (2 ^ 32) = .ok (p, s')) →
      realloc s true (.blk 0) (2 ^ 31 + 1) cache = .error .signedOverflow := by
    intro s h1 h2 ⟨p, s', h3⟩
    unfold realloc
    rw [if_neg (by decide)]
    dsimp only
    rw [e2, ok_bind, h2, ok_bind, if_neg (by decide), h1]
    dsimp only
    rw [if_neg (by omega), h3, ok_bind]
    simp [copyOver]
  exact ⟨_, hmal [] 31 (.inl rfl), key _ rfl (hg _ (Nat.succ_pos _)) ⟨_, _, hmal _ 32 (.inr rfl)⟩⟩

/-- C62 (partial).  After any such history with sizes of at most 2^30, `dup_malloc` of a live block
returns a fresh block of the system whose first bytes are what was written to the live block; the
other live blocks keep theirs.  Missing: blocks larger than `2 ^ m`; they may have been grown by
`::realloc`, and then the tail is lost (`dup_loses`). -/
theorem dup_keeps_partial (m K : Nat) (hK : 3 ≤ K ∧ K ≤ 30) (ops : List Op)
    (h : List (Op × Out)) (s : St) (e : run (threadInit .empty m) ops = .ok (h, s))
    (hv : AllValid m K Live.none h) (b : Nat) (cs : List (Option UInt8)) (cache : Bool)
    (hb : afterAll Live.none h b = some cs) (hsz : cs.length ≤ 2 ^ m) :
    ∃ d s' new, dupMalloc s true (.blk b) cache = .ok (some d, s') ∧ s'.heap.block d = .ok new ∧
      cs.length ≤ new.length ∧ (∀ (i : Nat) (v : UInt8), cs[i]? = some (some v) → new[i]? = some (some v)) ∧
      afterAll Live.none h d = none ∧
      ∀ q i, q ≠ b → afterAll Live.none h q ≠ none → peek s' (.blk q) i = peek s (.blk q) i := by
  obtain ⟨hr, hk⟩ := init_rel m K (by omega)
  obtain ⟨le, hr, hk⟩ := run_rel ops _ _ _ h s hr hk e hv
  obtain ⟨c, hc, hlen, hsub⟩ := knows_some hk hb
  obtain ⟨d, s', x, e1, e2, h1, h2, h3, h4⟩ := dup_ok hr (by omega) b c cache hc (by omega)
  have hxl : c.length ≤ x.length := by
    have := congrArg List.length h3
    simp at this
    omega
  refine ⟨d, s', x, e1, BHeap.block_ok e2, by omega, ?_, ?_, ?_⟩
  · intro i v hi
    have h5 := hsub i v hi
    rw [← h3, List.getElem?_take] at h5
    split at h5
    · exact h5
    · cases h5
  · rw [hk.dom]
    cases e5 : le d with
    | none => rfl
    | some y =>
      obtain ⟨z, _, e6, _⟩ := hr.live d y e5
      exact absurd e6 (h1 z)
  · intro q i hq hl
    have := h4 q hq (fun e => hl ((hk.dom q).mpr e))
    simp only [peek, BHeap.load, BHeap.block, this]

example : AllValid 4 10 Live.none [(.malloc true 5, .ptr (.blk 0)), (.poke (.blk 0) 4 7, .unit)] ∧
    (do let (_, s) ← run (threadInit .empty 4) [.malloc true 5, .poke (.blk 0) 4 7]
        let (d, s) ← dupMalloc s true (.blk 0) true
        match d with
        | some d => s.heap.load d 4
        | none => .error .nullDeref) = .ok (some 7) :=
  ⟨⟨⟨by decide, .inl rfl⟩, ⟨0, _, rfl, rfl, by decide⟩, trivial⟩, by decide +kernel⟩

/-- Negation of C62: a block grown by `::realloc` keeps its old size mark.  Nine bytes, the last one
written: the copy has eight. -/
theorem dup_loses : (do
    let (_, s) ← run (threadInit .empty 0)
      [.malloc true 1, .realloc true (.blk 0) 9 true, .poke (.blk 1) 8 7]
    let (d, s) ← dupMalloc s true (.blk 1) true
    match d with
    | some d => s.heap.load d 8
    | none => .error .nullDeref) = .error .oobRead := by decide +kernel

/-- C63.  After any such history, `ThreadEnd` gives every block back to the system except the live
ones, which it leaves as they are. -/
theorem thread_end (m K : Nat) (hK : 3 ≤ K ∧ K ≤ 63) (ops : List Op)
    (h : List (Op × Out)) (s : St) (e : run (threadInit .empty m) ops = .ok (h, s))
    (hv : AllValid m K Live.none h) :
    ∃ s', threadEnd s = .ok (true, s') ∧
      (∀ p, (∃ c, s'.heap.block p = .ok c) ↔ afterAll Live.none h p ≠ none) ∧
      ∀ p i, afterAll Live.none h p ≠ none → peek s' (.blk p) i = peek s (.blk p) i := by
  obtain ⟨hr, hk⟩ := init_rel m K hK
  obtain ⟨le, hr, hk⟩ := run_rel ops _ _ _ h s hr hk e hv
  obtain ⟨s', e1, h1, h2⟩ := threadEnd_ok hr
  have hdom : ∀ p, afterAll Live.none h p ≠ none ↔ le p ≠ none := fun p => not_congr (hk.dom p)
  refine ⟨s', e1, ?_, ?_⟩
  · intro p
    rw [hdom]
    constructor
    · rintro ⟨c, hc⟩
      apply h2 p c
      unfold BHeap.block at hc
      split at hc
      · cases hc; assumption
      · cases hc
    · intro hp
      obtain ⟨c, hc⟩ := Option.ne_none_iff_exists'.mp hp
      obtain ⟨z, _, e6, _⟩ := hr.live p c hc
      exact ⟨z, BHeap.block_ok (by rw [h1 p hp, e6])⟩
  · intro p i hl
    have := h1 p ((hdom p).mp hl)
    simp only [peek, BHeap.load, BHeap.block, this]

/-- Without `ThreadInit`, or after `ThreadEnd`, there is no memory. -/
theorem no_memory (s : St) (hs : s.main = none) (ok : Bool) (n : Nat) :
    malloc s ok n = .ok (.null, s) := by
  unfold malloc
  split
  · rfl
  · simp [hs]

example : ∃ s, threadEnd (threadInit .empty 4) = .ok (true, s) ∧ malloc s true 10 = .ok (.null, s) :=
  ⟨_, rfl, no_memory _ rfl _ _⟩

end Verif.Tls
