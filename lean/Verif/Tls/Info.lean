import Verif.Tls.Lemmas

/-! # What the cached blocks look like -/

namespace Verif.Tls
open Spec

/-- The size of the blocks of a bucket. -/
def blkLen (i : Nat) : Nat := if 2 ^ i + 1 < nodeSize then nodeSize else 2 ^ i + 1

/-- Blocks of the buckets have exactly their size. -/
structure Exact (m : Nat) (s : St) : Prop where
  main : s.main = some m
  nd : ∀ i, (s.bk i).Nodup
  dj : ∀ i j q, q ∈ s.bk i → q ∈ s.bk j → i = j
  cached : ∀ i q, q ∈ s.bk i → ∃ b, s.heap[q]? = some (some b) ∧ b.length = blkLen i
  used : ∀ p b, s.heap[p]? = some (some b) → (∀ i, p ∉ s.bk i) →
    ∃ v : UInt8, b[0]? = some (some v) ∧ (v.toNat < m → b.length = blkLen v.toNat)

theorem exact_init (m : Nat) : Exact m (threadInit .empty m) := by
  refine ⟨rfl, ?_, ?_, ?_, ?_⟩ <;> simp [threadInit, St.empty]

theorem blkLen_pos (i : Nat) : 0 < blkLen i := by
  unfold blkLen nodeSize
  split <;> omega

/-- A fresh block with its mark. -/
theorem exact_fresh {m : Nat} {s : St} (h : Exact m s) (pos k : Nat) (hk : 0 < k) (h63 : pos ≤ 63)
    (hlen : pos < m → k = blkLen pos) :
    ∃ s', putPos { s with heap := s.heap ++ [some (List.replicate k none)] } s.heap.length pos = .ok (.blk s.heap.length, s') ∧
      Exact m s' ∧ s'.bk = s.bk := by
  rw [putPos_ok (b := List.replicate k none) (by simp) (by simpa using hk)]
  refine ⟨_, rfl, ⟨h.main, h.nd, h.dj, ?_, ?_⟩, rfl⟩
  · intro i q hq
    obtain ⟨b, e, hb⟩ := h.cached i q hq
    have := BHeap.lt_of_block e
    refine ⟨b, ?_, hb⟩
    dsimp only
    rw [List.getElem?_set_ne (by omega), List.getElem?_append_left this, e]
  · intro p b e hp
    dsimp only at e hp
    by_cases hpl : s.heap.length = p
    · subst hpl
      rw [List.getElem?_set_self (by simp)] at e
      cases e
      refine ⟨UInt8.ofNat pos, by rw [List.getElem?_set_self (by simpa using hk)], ?_⟩
      rw [toNat_pos pos h63]
      intro hlt
      simpa using hlen hlt
    · rw [List.getElem?_set_ne hpl] at e
      have hl := BHeap.lt_of_block e
      simp only [List.length_append, List.length_singleton] at hl
      rw [List.getElem?_append_left (by omega)] at e
      exact h.used p b e hp

theorem normPos_le {n pos : Nat} (e : normPos n = .ok pos) : pos ≤ 63 := by
  have key : ∀ k p, p + k = 64 → normLoop k p n = .ok pos → pos ≤ 63 := by
    intro k
    induction k with
    | zero => intro p _ e; cases e
    | succ k ih =>
      intro p hp e
      unfold normLoop at e
      split at e
      · exact ih (p + 1) (by omega) e
      · cases e; omega
  exact key 61 3 (by omega) e

theorem exact_malloc {m : Nat} {s : St} (h : Exact m s) {ok : Bool} {n : Nat} {r : Ptr} {s' : St}
    (e : malloc s ok n = .ok (r, s')) : Exact m s' ∧ ∀ i, (s'.bk i).Sublist (s.bk i) := by
  unfold malloc at e
  split at e
  · cases e; exact ⟨h, fun _ => List.Sublist.refl _⟩
  rw [h.main] at e
  dsimp only at e
  cases en : normPos n with
  | error u => rw [en] at e; cases e
  | ok pos =>
    rw [en, ok_bind] at e
    have h63 := normPos_le en
    split at e
    · rename_i hm
      cases ok with
      | false => simp [sysMalloc] at e
      | true =>
        obtain ⟨s2, e2, hx, hb⟩ := exact_fresh h pos (2 ^ pos + 1) (Nat.succ_pos _) h63 (by omega)
        simp only [sysMalloc, if_true, BHeap.alloc] at e
        rw [e2] at e
        cases e
        exact ⟨hx, fun i => by rw [hb]; exact List.Sublist.refl _⟩
    · rename_i hm
      cases hb : s.bk pos with
      | nil =>
        rw [hb] at e
        dsimp only at e
        cases ok with
        | false =>
          simp [sysMalloc] at e
          obtain ⟨_, rfl⟩ := e
          exact ⟨h, fun _ => List.Sublist.refl _⟩
        | true =>
          obtain ⟨s2, e2, hx, hb⟩ := exact_fresh h pos (blkLen pos) (blkLen_pos pos) h63 (fun _ => rfl)
          simp only [sysMalloc, if_true, BHeap.alloc] at e
          change putPos { s with heap := s.heap ++ [some (List.replicate (blkLen pos) none)] } s.heap.length pos = _ at e
          rw [e2] at e
          cases e
          exact ⟨hx, fun i => by rw [hb]; exact List.Sublist.refl _⟩
      | cons p rest =>
        rw [hb] at e
        dsimp only at e
        have hmem : p ∈ s.bk pos := by rw [hb]; exact List.mem_cons_self ..
        obtain ⟨b, eb, hbl⟩ := h.cached pos p hmem
        have hpos0 := blkLen_pos pos
        rw [putPos_ok (s := { s with main := some m, bk := setAt s.bk pos rest }) eb (by omega)] at e
        cases e
        have hnd := h.nd pos
        rw [hb] at hnd
        have hnot := (List.nodup_cons.mp hnd).1
        have hsub : ∀ i, (setAt s.bk pos rest i).Sublist (s.bk i) := by
          intro i
          unfold setAt
          split
          · next e => rw [e, hb]; exact List.sublist_cons_self ..
          · exact List.Sublist.refl _
        refine ⟨⟨rfl, fun i => (h.nd i).sublist (hsub i), fun i j q h1 h2 => h.dj i j q ((hsub i).subset h1) ((hsub j).subset h2), ?_, ?_⟩, hsub⟩
        · intro i q hq
          have hqp : p ≠ q := by
            rintro rfl
            have := h.dj i pos p ((hsub i).subset hq) hmem
            subst this
            simp only [setAt, if_true] at hq
            exact hnot hq
          obtain ⟨c, ec, hc⟩ := h.cached i q ((hsub i).subset hq)
          exact ⟨c, by dsimp only; rw [List.getElem?_set_ne hqp, ec], hc⟩
        · intro q c ec hq
          dsimp only at ec hq
          by_cases hqp : p = q
          · subst hqp
            rw [List.getElem?_set_self (BHeap.lt_of_block eb)] at ec
            cases ec
            refine ⟨UInt8.ofNat pos, by rw [List.getElem?_set_self (by omega)], ?_⟩
            rw [toNat_pos pos h63, List.length_set]
            exact fun _ => hbl
          · rw [List.getElem?_set_ne hqp] at ec
            refine h.used q c ec ?_
            intro i hi
            apply hq i
            unfold setAt
            split
            · next e1 =>
              rw [e1, hb] at hi
              rcases List.mem_cons.mp hi with e2 | e2
              · exact absurd e2.symm hqp
              · exact e2
            · exact hi

/-- Bytes of a block in use change, not the mark. -/
theorem exact_set {m : Nat} {s : St} (h : Exact m s) {p : Nat} {b b' : List Cell} (e : s.heap[p]? = some (some b))
    (hp : ∀ i, p ∉ s.bk i) (hl : 0 < b.length → b'.length = b.length ∧ b'[0]? = b[0]?) :
    Exact m { s with heap := s.heap.set p (some b') } := by
  refine ⟨h.main, h.nd, h.dj, ?_, ?_⟩
  · intro i q hq
    obtain ⟨c, ec, hc⟩ := h.cached i q hq
    exact ⟨c, by dsimp only; rw [List.getElem?_set_ne (by rintro rfl; exact hp i hq), ec], hc⟩
  · intro q c ec hq
    dsimp only at ec hq
    obtain ⟨v, hv, hv2⟩ := h.used p b e hp
    have hb0 : 0 < b.length := by
      rcases Nat.eq_zero_or_pos b.length with h0 | h0
      · rw [List.length_eq_zero_iff.mp h0] at hv; cases hv
      · exact h0
    by_cases hqp : p = q
    · subst hqp
      rw [List.getElem?_set_self (BHeap.lt_of_block e)] at ec
      cases ec
      exact ⟨v, by rw [(hl hb0).2, hv], by rw [(hl hb0).1]; exact hv2⟩
    · rw [List.getElem?_set_ne hqp] at ec
      exact h.used q c ec hq

theorem block_inv {h : BHeap Cell} {p : Nat} {b : List Cell} (e : h.block p = .ok b) : h[p]? = some (some b) := by
  unfold BHeap.block at e
  split at e
  · cases e; assumption
  · cases e

/-- A block in use is given back. -/
theorem exact_release {m : Nat} {s : St} (h : Exact m s) {p : Nat} (hp : ∀ i, p ∉ s.bk i) :
    Exact m { s with heap := s.heap.set p none } := by
  refine ⟨h.main, h.nd, h.dj, ?_, ?_⟩
  · intro i q hq
    obtain ⟨c, ec, hc⟩ := h.cached i q hq
    exact ⟨c, by dsimp only; rw [List.getElem?_set_ne (by rintro rfl; exact hp i hq), ec], hc⟩
  · intro q c ec hq
    dsimp only at ec hq
    rw [List.getElem?_set] at ec
    split at ec
    · split at ec <;> cases ec
    · exact h.used q c ec hq

theorem exact_free {m : Nat} {s : St} (h : Exact m s) {p : Nat} (hp : ∀ i, p ∉ s.bk i) {cache : Bool} {s' : St}
    (e : free s (.blk p) cache = .ok s') : Exact m s' := by
  unfold free at e
  dsimp only at e
  rw [h.main] at e
  dsimp only at e
  unfold getPos BHeap.load at e
  cases eb : s.heap.block p with
  | error u => rw [eb] at e; cases e
  | ok b =>
    have eb' := block_inv eb
    obtain ⟨v, hv, hv2⟩ := h.used p b eb' hp
    rw [eb, ok_bind, show rd b 0 = .ok (some v) from by simp [rd, hv], ok_bind] at e
    simp only [ok_bind] at e
    rw [BHeap.free_ok eb', ok_bind] at e
    rw [← h.main] at e
    split at e
    · cases e; exact exact_release h hp
    split at e
    · cases e; exact exact_release h hp
    rename_i hm hcache
    split at e
    · cases e
    cases e
    have hmem : ∀ i q, q ∈ setAt s.bk v.toNat (s.bk v.toNat ++ [p]) i → q ∈ s.bk i ∨ (q = p ∧ i = v.toNat) := by
      intro i q hq
      unfold setAt at hq
      split at hq
      · next e =>
        rcases List.mem_append.mp hq with h1 | h1
        · exact .inl (e ▸ h1)
        · exact .inr ⟨List.mem_singleton.mp h1, e⟩
      · exact .inl hq
    refine ⟨h.main, ?_, ?_, ?_, ?_⟩
    · intro i
      dsimp only
      unfold setAt
      split
      · rw [List.nodup_append]
        refine ⟨h.nd _, by simp, ?_⟩
        intro a ha c hc
        rw [List.mem_singleton.mp hc]
        rintro rfl
        exact hp _ ha
      · exact h.nd i
    · intro i j q h1 h2
      rcases hmem i q h1 with a | ⟨a, a'⟩ <;> rcases hmem j q h2 with c | ⟨c, c'⟩
      · exact h.dj i j q a c
      · exact absurd (c ▸ a) (hp i)
      · exact absurd (a ▸ c) (hp j)
      · omega
    · intro i q hq
      dsimp only at hq ⊢
      rcases hmem i q hq with a | ⟨rfl, rfl⟩
      · obtain ⟨c, ec, hc⟩ := h.cached i q a
        exact ⟨c, by rw [List.getElem?_set_ne (by rintro rfl; exact hp i a), ec], hc⟩
      · refine ⟨List.replicate b.length none, by rw [List.getElem?_set_self (BHeap.lt_of_block eb')], ?_⟩
        rw [List.length_replicate]
        exact hv2 (by omega)
    · intro q c ec hq
      dsimp only at ec hq
      have hqp : p ≠ q := by
        rintro rfl
        apply hq v.toNat
        simp [setAt]
      rw [List.getElem?_set_ne hqp] at ec
      refine h.used q c ec fun i hi => hq i ?_
      unfold setAt
      split
      · next e1 => subst e1; exact List.mem_append_left _ hi
      · exact hi

theorem exact_copy {m : Nat} {s s' : St} (h : Exact m s) {d src pos : Nat} (hd : ∀ i, d ∉ s.bk i)
    (e : copyOver s (.blk d) src pos = .ok s') : Exact m s' ∧ s'.bk = s.bk := by
  unfold copyOver at e
  split at e
  · cases e
  dsimp only at e
  cases e1 : s.heap.block src with
  | error u => rw [e1] at e; cases e
  | ok c =>
    rw [e1, ok_bind] at e
    cases e2 : s.heap.block d with
    | error u => rw [e2] at e; cases e
    | ok x =>
      rw [e2, ok_bind] at e
      cases e3 : memcpyTo x 1 (c.drop 1) (2 ^ pos) with
      | error u => rw [e3] at e; cases e
      | ok y =>
        rw [e3, ok_bind] at e
        cases e
        refine ⟨exact_set h (block_inv e2) hd ?_, rfl⟩
        intro h0
        unfold memcpyTo at e3
        split at e3
        · split at e3
          · cases e3
            refine ⟨by simp only [List.length_append, List.length_take, List.length_drop] at *; omega, ?_⟩
            cases x with
            | nil => cases h0
            | cons a t => simp
          · cases e3
        · cases e3

theorem exact_null {m : Nat} {s s' : St} (h : Exact m s) {cache : Bool} (e : free s .null cache = .ok s') : Exact m s' := by
  cases e; exact h

/-- `malloc` gives a block that is in no bucket afterwards. -/
theorem malloc_out {m K : Nat} {s s' : St} {l : Live} (h : Rel m K s l) {ok : Bool} {n d : Nat} (hn : n ≤ 2 ^ K)
    (hok : ok = true) (e : malloc s ok n = .ok (.blk d, s')) : (∀ i, d ∉ s'.bk i) ∧ l d = none := by
  obtain ⟨r, s2, l', e2, hr, hm, _⟩ := malloc_ok h ok n hn (.inl hok)
  rw [e] at e2
  cases e2
  rcases hm with ⟨h1, _⟩ | ⟨b, cs, h1, h2, h3, h4, h5⟩
  · cases h1
  · cases h1
    refine ⟨fun i hi => ?_, h2⟩
    have := (hr.free i d hi).1
    rw [h5] at this
    simp [put] at this

theorem exact_realloc {m K : Nat} {s s' : St} {l : Live} (hr : Rel m K s l) (h : Exact m s) {p : Nat}
    (hp : l p ≠ none) {n : Nat} (hn : n ≤ 2 ^ K) {cache : Bool} {r : Ptr}
    (e : realloc s true (.blk p) n cache = .ok (r, s')) : Exact m s' := by
  have hout : ∀ i, p ∉ s.bk i := fun i hi => hp (hr.free i p hi).1
  unfold realloc at e
  split at e
  · cases e1 : free s (.blk p) cache with
    | error u => rw [e1] at e; cases e
    | ok s1 =>
      rw [e1, ok_bind] at e
      cases e
      exact exact_free h hout e1
  rename_i h0
  dsimp only at e
  obtain ⟨pos, en, h3, h63, hsz, hmin⟩ := normPos_ok K n hr.bnd hn
  rw [en, ok_bind] at e
  obtain ⟨cs, hcs⟩ := Option.ne_none_iff_exists'.mp hp
  obtain ⟨b, pos2, eg, eb, hb0, hb⟩ := getPos_ok (hr.live p cs hcs)
  rw [eg, ok_bind] at e
  split at e
  · cases e; exact h
  rename_i hlt
  rw [h.main] at e
  dsimp only at e
  split at e
  · rename_i hm
    simp only [sysRealloc, if_true, BHeap.block_ok eb, BHeap.free_ok eb, ok_bind, BHeap.alloc] at e
    cases e
    have hx := exact_release h hout
    refine ⟨h.main, hx.nd, hx.dj, ?_, ?_⟩
    · intro i q hq
      obtain ⟨c, ec, hc⟩ := hx.cached i q hq
      refine ⟨c, ?_, hc⟩
      dsimp only at ec ⊢
      rw [List.getElem?_append_left (BHeap.lt_of_block ec), ec]
    · intro q c ec hq
      dsimp only at ec hq
      by_cases hql : q = (s.heap.set p none).length
      · subst hql
        rw [List.getElem?_append_right (Nat.le_refl _)] at ec
        simp only [Nat.sub_self, List.getElem?_cons_zero] at ec
        cases ec
        refine ⟨UInt8.ofNat pos2, ?_, ?_⟩
        · have : 0 < b.length := by omega
          rw [List.getElem?_append_left (by rw [List.length_take]; omega), List.getElem?_take, if_pos (by omega), hb0]
        · rw [toNat_pos pos2 (by omega)]; omega
      · have hl := BHeap.lt_of_block ec
        simp only [List.length_append, List.length_singleton] at hl
        rw [List.getElem?_append_left (by omega)] at ec
        exact hx.used q c ec hq
  · cases e1 : malloc s true (2 ^ pos) with
    | error u => rw [e1] at e; cases e
    | ok x =>
      obtain ⟨p2, s1⟩ := x
      rw [e1, ok_bind] at e
      dsimp only at e
      obtain ⟨hx, hsub⟩ := exact_malloc h e1
      cases e2 : copyOver s1 p2 p pos2 with
      | error u => rw [e2] at e; cases e
      | ok s2 =>
        rw [e2, ok_bind] at e
        cases p2 with
        | null => unfold copyOver at e2; split at e2 <;> cases e2
        | one => unfold copyOver at e2; split at e2 <;> cases e2
        | blk d =>
          obtain ⟨h1, h2⟩ := malloc_out hr (n := 2 ^ pos) (Nat.pow_le_pow_right (by omega) (by omega)) rfl e1
          obtain ⟨hx2, hb2⟩ := exact_copy hx h1 e2
          cases e3 : free s2 (.blk p) cache with
          | error u => rw [e3] at e; cases e
          | ok s3 =>
            rw [e3, ok_bind] at e
            cases e
            exact exact_free hx2 (fun i hi => hout i ((hsub i).subset (hb2 ▸ hi))) e3

theorem exact_step {m K : Nat} {s s' : St} {l le : Live} (hr : Rel m K s le) (hk : Knows l le) (h : Exact m s) {op : Op}
    (hv : Valid m K l op) {out : Out} (e : step s op = .ok (out, s')) : Exact m s' := by
  cases op with
  | malloc ok n =>
    simp only [step] at e
    cases e1 : malloc s ok n with
    | error u => rw [e1] at e; cases e
    | ok x =>
      rw [e1, ok_bind] at e
      cases e
      exact (exact_malloc h e1).1
  | realloc ok p n c =>
    obtain ⟨hn, rfl, hp⟩ := hv
    simp only [step] at e
    cases e1 : realloc s true p n c with
    | error u => rw [e1] at e; cases e
    | ok x =>
      rw [e1, ok_bind] at e
      cases e
      rcases hp with rfl | ⟨b, rfl, hb⟩
      · unfold realloc at e1
        split at e1
        · cases e1; exact h
        · exact (exact_malloc h e1).1
      · exact exact_realloc hr h (fun e => hb ((hk.dom b).mpr e)) hn e1
  | free p c =>
    simp only [step] at e
    cases e1 : free s p c with
    | error u => rw [e1] at e; cases e
    | ok x =>
      rw [e1, ok_bind] at e
      cases e
      rcases hv with rfl | ⟨b, rfl, hb⟩
      · exact exact_null h e1
      · exact exact_free h (fun i hi => hb ((hk.dom b).mpr (hr.free i b hi).1)) e1
  | peek p i =>
    simp only [step] at e
    cases e1 : peek s p i with
    | error u => rw [e1] at e; cases e
    | ok x =>
      rw [e1, ok_bind] at e
      cases e
      exact h
  | poke p i v =>
    obtain ⟨b, cs, rfl, hb, hi⟩ := hv
    have hout : ∀ i, b ∉ s.bk i := by
      intro i hi
      have := (hk.dom b).mpr (hr.free i b hi).1
      rw [hb] at this
      cases this
    simp only [step, poke, BHeap.store] at e
    cases e1 : s.heap.block b with
    | error u => rw [e1] at e; cases e
    | ok c =>
      rw [e1] at e
      simp only [ok_bind, wr] at e
      split at e
      · rw [ok_bind, ok_bind, ok_bind] at e
        cases e
        refine exact_set h (block_inv e1) hout fun _ => ⟨by simp, ?_⟩
        rw [List.getElem?_set_ne (by omega)]
      · cases e

theorem run_exact {m K : Nat} : ∀ (ops : List Op) (s : St) (l le : Live)
    (h : List (Op × Out)) (s' : St), Rel m K s le → Knows l le → Exact m s → run s ops = .ok (h, s') → AllValid m K l h →
    Exact m s'
  | [], s, l, le, h, s', hr, hk, hx, e, hv => by
    cases e
    exact hx
  | op :: ops, s, l, le, h, s', hr, hk, hx, e, hv => by
    unfold run at e
    cases e1 : step s op with
    | error u => rw [e1] at e; cases e
    | ok x =>
      rw [e1, ok_bind] at e
      cases e2 : run x.2 ops with
      | error u => simp only [e2, error_bind] at e; cases e
      | ok y =>
        simp only [e2, ok_bind] at e
        cases e
        obtain ⟨hv1, hv2⟩ := hv
        obtain ⟨out, s1, le1, e3, hg, hr1, hk1⟩ := step_ok hr hk op hv1 (.inr ⟨x, e1⟩)
        rw [e1] at e3
        cases e3
        exact run_exact ops s1 (after l op out) le1 _ _ hr1 hk1 (exact_step hr hk hx hv1 e1) e2 hv2

end Verif.Tls
