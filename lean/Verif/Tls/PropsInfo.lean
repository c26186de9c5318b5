import Verif.Tls.Info
import Mathlib.Data.List.Nodup

/-!
# C113: what GetBucketInfo says
-/

namespace Verif.Tls
open Spec

theorem norm_bucket {num n : Nat} (h3 : 3 ≤ num) (h63 : num ≤ 63) (h : InBucket num n) : normPos n = .ok num := by
  obtain ⟨h0, h1, h2⟩ := h
  obtain ⟨pos, e, hp, hk, hs, hmin⟩ := normPos_ok num n ⟨h3, h63⟩ h1
  rw [e]
  congr 1
  by_cases hlt : pos < num
  · rcases h2 with h2 | h2
    · omega
    · have : 2 ^ pos ≤ 2 ^ (num - 1) := Nat.pow_le_pow_right (by omega) (by omega)
      omega
  · omega

theorem serve_one {m K : Nat} {s : St} {l : Live} (h : Rel m K s l) {num n : Nat} (h3 : 3 ≤ num) (hm : num < m) (hK : num ≤ K)
    (hn : InBucket num n) :
    ∃ r s' l', malloc s false n = .ok (r, s') ∧ Rel m K s' l' ∧ s'.bk num = (s.bk num).tail ∧
      (r ≠ .null ↔ s.bk num ≠ []) := by
  have hle : n ≤ 2 ^ K := Nat.le_trans hn.2.1 (Nat.pow_le_pow_right (by omega) hK)
  have hle' : n ≤ 2 ^ (m - 1) := Nat.le_trans hn.2.1 (Nat.pow_le_pow_right (by omega) (by omega))
  obtain ⟨r, s', l', e, hr, _, _, _⟩ := malloc_ok h false n hle (.inr ⟨hle', by omega⟩)
  refine ⟨r, s', l', e, hr, ?_⟩
  have hn0 : n ≠ 0 := by have := hn.1; omega
  unfold malloc at e
  rw [if_neg hn0, h.main] at e
  dsimp only at e
  rw [norm_bucket h3 (by have := h.bnd; omega) hn, ok_bind, if_neg (by omega)] at e
  cases hb : s.bk num with
  | nil =>
    rw [hb] at e
    simp [sysMalloc] at e
    obtain ⟨rfl, rfl⟩ := e
    simp [hb]
  | cons p rest =>
    rw [hb] at e
    dsimp only at e
    obtain ⟨_, b, eb, hbl, hb16⟩ := h.free num p (by rw [hb]; exact List.mem_cons_self ..)
    rw [putPos_ok (s := { s with main := some m, bk := setAt s.bk num rest }) eb (by omega)] at e
    cases e
    simp [setAt]

theorem serve_all {m K num : Nat} (h3 : 3 ≤ num) (hm : num < m) (hK : num ≤ K) : ∀ (sizes : List Nat) (s : St) (l : Live), Rel m K s l →
    (∀ n ∈ sizes, InBucket num n) → ∃ h s', run s (sizes.map (Op.malloc false)) = .ok (h, s') ∧
      answered h = (List.range sizes.length).map fun i => decide (i < (s.bk num).length)
  | [], s, l, _, _ => ⟨[], s, rfl, rfl⟩
  | n :: ns, s, l, hr, hall => by
    obtain ⟨r, s1, l1, e1, hr1, hb, hnull⟩ := serve_one hr h3 hm hK (hall n (List.mem_cons_self ..))
    obtain ⟨h, s2, e2, ha⟩ := serve_all h3 hm hK ns s1 l1 hr1 fun x hx => hall x (List.mem_cons_of_mem _ hx)
    refine ⟨(.malloc false n, .ptr r) :: h, s2, ?_, ?_⟩
    · simp only [List.map_cons, run, step, e1, ok_bind, e2]
    · rw [List.length_cons, List.range_succ_eq_map, List.map_cons, List.map_map]
      unfold answered at ha ⊢
      rw [List.map_cons, ha, hb]
      congr 1
      · rw [decide_eq_decide]
        have : Out.ptr r ≠ .ptr .null ↔ r ≠ .null := by simp
        rw [this, hnull]
        cases s.bk num <;> simp
      · apply List.map_congr_left
        intro i _
        rw [Function.comp, List.length_tail, decide_eq_decide]
        omega

theorem valid_mono {m K K' : Nat} (hK : K ≤ K') {l : Live} {op : Op} (h : Valid m K l op) : Valid m K' l op := by
  have hp : 2 ^ K ≤ 2 ^ K' := Nat.pow_le_pow_right (by omega) hK
  cases op with
  | malloc ok n => exact ⟨Nat.le_trans h.1 hp, h.2⟩
  | realloc ok p n c => exact ⟨Nat.le_trans h.1 hp, h.2⟩
  | _ => exact h

theorem allValid_mono {m K K' : Nat} (hK : K ≤ K') : ∀ (h : List (Op × Out)) (l : Live), AllValid m K l h → AllValid m K' l h
  | [], _, _ => trivial
  | (_, _) :: h, _, ⟨h1, h2⟩ => ⟨valid_mono hK h1, allValid_mono hK h _ h2⟩

/-- C113 (partial).  After any history, `GetBucketInfo` of a bucket that requests belong to succeeds, and `Nodes` says how many requests
of its sizes would be answered if the system had no memory left: so many, and no more.  Missing: buckets from 31 on
(`bucket_overflow`). -/
theorem bucket_nodes_partial (m K : Nat) (hK : 3 ≤ K ∧ K ≤ 63) (ops : List Op)
    (h : List (Op × Out)) (s : St) (e : run (threadInit .empty m) ops = .ok (h, s))
    (hv : AllValid m K Live.none h) (num : Nat) (hnum : 3 ≤ num ∧ num < m ∧ num ≤ 30) (sizes : List Nat)
    (hs : ∀ n ∈ sizes, InBucket num n) :
    ∃ nodes size, getBucketInfo s num = .ok (some (nodes, size)) ∧
      ∃ h' s', run s (sizes.map (Op.malloc false)) = .ok (h', s') ∧
        answered h' = (List.range sizes.length).map fun i => decide (i < nodes) := by
  have hK' : 3 ≤ max K num ∧ max K num ≤ 63 := by omega
  obtain ⟨hr, hk⟩ := init_rel m (max K num) hK'
  obtain ⟨le, hr, hk⟩ := run_rel ops _ _ _ h s hr hk e (allValid_mono (Nat.le_max_left ..) h _ hv)
  have hi : ∃ size, getBucketInfo s num = .ok (some ((s.bk num).length, size)) := by
    unfold getBucketInfo
    rw [hr.main]
    dsimp only
    rw [if_neg (by omega), if_neg (by omega)]
    exact ⟨_, rfl⟩
  obtain ⟨size, hi⟩ := hi
  exact ⟨_, size, hi, serve_all hnum.1 hnum.2.1 (Nat.le_max_right ..) sizes s le hr hs⟩

/-- Two blocks of at most 16 bytes are freed, one of them with caching: one request is answered. -/
def infoOps : List Op :=
  [.malloc true 10, .malloc true 16, .malloc true 5, .free (.blk 0) true, .free (.blk 1) false]

def infoHist : List (Op × Out) :=
  [(.malloc true 10, .ptr (.blk 0)), (.malloc true 16, .ptr (.blk 1)), (.malloc true 5, .ptr (.blk 2)),
   (.free (.blk 0) true, .unit), (.free (.blk 1) false, .unit)]

example : ((run (threadInit .empty 6) infoOps).map fun x => x.1.map Prod.snd) = .ok (infoHist.map Prod.snd) ∧
    AllValid 6 10 Live.none infoHist ∧ (∀ n ∈ [9, 16], InBucket 4 n) ∧
    (do let (_, s) ← run (threadInit .empty 6) infoOps
        let i ← getBucketInfo s 4
        let (h, _) ← run s ([9, 16].map (Op.malloc false))
        .ok (i, answered h)) = .ok (some (1, 16), [true, false]) := by
  refine ⟨by decide +kernel, ⟨⟨by decide, .inl rfl⟩, ⟨by decide, .inl rfl⟩, ⟨by decide, .inl rfl⟩, .inr ⟨0, rfl, by decide⟩,
    .inr ⟨1, rfl, by decide⟩, trivial⟩, by simp [InBucket], by decide +kernel⟩

theorem idle_perm {m K : Nat} {s : St} {l le : Live} (hr : Rel m K s le) (hk : Knows l le) :
    (idle s.heap l).Perm ((List.range m).flatMap s.bk) := by
  rw [List.perm_ext_iff_of_nodup]
  · intro p
    simp only [idle, List.mem_filter, List.mem_range, Bool.and_eq_true, List.mem_flatMap, Option.isNone_iff_eq_none]
    constructor
    · rintro ⟨hp, hb, hl⟩
      have : ∃ b, s.heap[p]? = some (some b) := by
        cases e : s.heap[p]? with
        | none => rw [e] at hb; cases hb
        | some o => cases o with
          | none => rw [e] at hb; cases hb
          | some b => exact ⟨b, rfl⟩
      obtain ⟨b, hb⟩ := this
      rcases hr.own p b hb with h1 | ⟨i, hi⟩
      · exact absurd ((hk.dom p).mp hl) h1
      · refine ⟨i, ?_, hi⟩
        rcases Nat.lt_or_ge i m with h2 | h2
        · exact h2
        · rw [hr.emp i h2] at hi; cases hi
    · rintro ⟨i, hi, hp⟩
      obtain ⟨h1, b, h2, _⟩ := hr.free i p hp
      exact ⟨BHeap.lt_of_block h2, by rw [h2]; rfl, (hk.dom p).mpr h1⟩
  · exact List.Nodup.filter _ List.nodup_range
  · rw [List.nodup_flatMap]
    refine ⟨fun i _ => hr.nd i, ?_⟩
    refine List.Pairwise.imp_of_mem ?_ List.nodup_range
    intro a b _ _ hab q h1 h2
    exact hab (hr.dj a b q h1 h2)

theorem sum_const {c : Nat} {f : Nat → Nat} : ∀ (xs : List Nat), (∀ x ∈ xs, f x = c) → (xs.map f).sum = c * xs.length
  | [], _ => by simp
  | x :: xs, h => by
    rw [List.map_cons, List.sum_cons, sum_const xs fun y hy => h y (List.mem_cons_of_mem _ hy), h x (List.mem_cons_self ..),
      List.length_cons, Nat.mul_succ]
    omega

theorem sum_flat (bk : Nat → List Nat) (f : Nat → Nat) : ∀ (is : List Nat),
    ((is.flatMap bk).map f).sum = (is.map fun i => ((bk i).map f).sum).sum
  | [] => rfl
  | i :: is => by simp [List.flatMap_cons, sum_flat bk f is]

theorem le_sum {f : Nat → Nat} : ∀ (xs : List Nat) {x : Nat}, x ∈ xs → f x ≤ (xs.map f).sum
  | y :: ys, x, h => by
    rw [List.map_cons, List.sum_cons]
    rcases List.mem_cons.mp h with rfl | h
    · omega
    · have := le_sum (f := f) ys h; omega

/-- C113 (partial).  After any history, with at most 31 buckets, the `Nodes` of all buckets together are the blocks that were got from the
system, not given back and are not live; for their bytes, one per block has to be added to the `Size` of the buckets from 4 on.
Missing: that the sizes alone are right (`bucket_size_short`). -/
theorem bucket_memory_partial (m K : Nat) (hm : m ≤ 31) (hK : 3 ≤ K ∧ K ≤ 63) (ops : List Op)
    (h : List (Op × Out)) (s : St) (e : run (threadInit .empty m) ops = .ok (h, s))
    (hv : AllValid m K Live.none h) (hb : idleBytes s.heap (afterAll Live.none h) < 2 ^ 64) :
    ∃ nodes size : Nat → Nat, (∀ num, num < m → getBucketInfo s num = .ok (some (nodes num, size num))) ∧
      (idle s.heap (afterAll Live.none h)).length = ((List.range m).map nodes).sum ∧
      idleBytes s.heap (afterAll Live.none h) =
        ((List.range m).map fun num => size num + (if 4 ≤ num then nodes num else 0)).sum := by
  obtain ⟨hr0, hk0⟩ := init_rel m K hK
  obtain ⟨le, hr, hk⟩ := run_rel ops _ _ _ h s hr0 hk0 e hv
  have hx := run_exact ops _ _ _ h s hr0 hk0 (exact_init m) e hv
  have hperm := idle_perm hr hk
  have hbytes : idleBytes s.heap (afterAll Live.none h) = ((List.range m).map fun i => blkLen i * (s.bk i).length).sum := by
    unfold idleBytes
    rw [(hperm.map _).sum_nat, sum_flat]
    congr 1
    apply List.map_congr_left
    intro i _
    apply sum_const
    intro q hq
    obtain ⟨b, e1, e2⟩ := hx.cached i q hq
    rw [e1]
    exact e2
  have hpow : ∀ i, 4 ≤ i → 16 ≤ 2 ^ i := fun i hi => Nat.pow_le_pow_right (n := 2) (by omega) hi
  have hpow3 : ∀ i, i ≤ 3 → 2 ^ i ≤ 8 := fun i hi => Nat.pow_le_pow_right (n := 2) (by omega) hi
  refine ⟨fun i => (s.bk i).length, fun i => (if 2 ^ i < nodeSize then nodeSize else 2 ^ i) * (s.bk i).length % 2 ^ 64, ?_, ?_, ?_⟩
  · intro num hnum
    unfold getBucketInfo
    rw [hr.main]
    dsimp only
    rw [if_neg (by omega), if_neg (by omega)]
  · rw [hperm.length_eq, List.length_flatMap]
  · rw [hbytes]
    congr 1
    apply List.map_congr_left
    intro i hi
    have hle := le_sum (f := fun i => blkLen i * (s.bk i).length) (List.range m) hi
    rw [← hbytes] at hle
    change blkLen i * (s.bk i).length = (if 2 ^ i < nodeSize then nodeSize else 2 ^ i) * (s.bk i).length % 2 ^ 64 + (if 4 ≤ i then (s.bk i).length else 0)
    unfold blkLen nodeSize at *
    by_cases h4 : 4 ≤ i
    · have := hpow i h4
      rw [if_neg (by omega)] at hle ⊢
      rw [if_neg (by omega), if_pos h4]
      have hmul : (2 ^ i + 1) * (s.bk i).length = 2 ^ i * (s.bk i).length + (s.bk i).length := by rw [Nat.add_mul, Nat.one_mul]
      rw [hmul] at hle ⊢
      rw [Nat.mod_eq_of_lt (by omega)]
    · have := hpow3 i (by omega)
      rw [if_pos (by omega)] at hle ⊢
      rw [if_pos (by omega), if_neg h4, Nat.mod_eq_of_lt (by omega)]
      rfl

example : (do let (_, s) ← run (threadInit .empty 6) infoOps
              .ok (idleBytes s.heap (afterAll Live.none infoHist))) = .ok 17 := by decide +kernel

/-- Negation of C113: one block of 16 bytes in the cache takes 17 bytes of the system, `Size` says 16. -/
theorem bucket_size_short : ∃ h s, run (threadInit .empty 5) [.malloc true 16, .free (.blk 0) true] = .ok (h, s) ∧
    AllValid 5 10 Live.none h ∧ idleBytes s.heap (afterAll Live.none h) = 17 ∧
    (∀ num, num < 5 → num ≠ 4 → getBucketInfo s num = .ok (some (0, 0))) ∧ getBucketInfo s 4 = .ok (some (1, 16)) := by
  refine ⟨_, _, rfl, ⟨⟨by decide, .inl rfl⟩, .inr ⟨0, rfl, by decide⟩, trivial⟩, by decide +kernel, ?_, by decide +kernel⟩
  decide +kernel

/-- Negation of C113: with more than 31 buckets, asking for bucket 31 or a later one computes `1 << 31` and more with an `int`. -/
theorem bucket_overflow (m num : Nat) (hm : num < m) (hn : 31 ≤ num) :
    getBucketInfo (threadInit .empty m) num = .error .signedOverflow := by
  unfold getBucketInfo threadInit St.empty
  dsimp only
  rw [if_neg (by omega), if_pos hn]

/-- `GetBucketInfo` returns false for other numbers and for a thread that is not initialised. -/
theorem bucket_refuses (s : St) (num : Nat) (h : s.main = none ∨ ∃ m, s.main = some m ∧ m ≤ num) :
    getBucketInfo s num = .ok none := by
  unfold getBucketInfo
  rcases h with h | ⟨m, h, hm⟩ <;> rw [h]
  dsimp only
  rw [if_pos hm]

example : (threadInit .empty 15).main = some 15 ∧ getBucketInfo (threadInit .empty 15) 15 = .ok none :=
  ⟨rfl, bucket_refuses _ _ (.inr ⟨15, rfl, Nat.le_refl _⟩)⟩

end Verif.Tls
