import Verif.Tls.Spec

namespace Verif.Tls
open Spec

theorem normLoop_ok (size : Nat) (hs : size ≤ 2 ^ 63) : ∀ (n pos : Nat), pos + n = 64 → pos ≤ 63 →
    ∃ q, normLoop n pos size = .ok q ∧ pos ≤ q ∧ q ≤ 63 ∧ size ≤ 2 ^ q ∧
      ∀ k, pos ≤ k → size ≤ 2 ^ k → q ≤ k
  | 0, pos, h, h2 => by omega
  | n + 1, pos, h, h2 => by
    unfold normLoop
    by_cases hlt : 2 ^ pos < size
    · rw [if_pos hlt]
      have hp : pos ≠ 63 := by rintro rfl; omega
      obtain ⟨q, e, h3, h4, h5, h6⟩ := normLoop_ok size hs n (pos + 1) (by omega) (by omega)
      refine ⟨q, e, by omega, h4, h5, fun k hk hsk => h6 k ?_ hsk⟩
      rcases Nat.lt_or_ge pos k with h | h
      · exact h
      · have : k = pos := by omega
        subst this; omega
    · rw [if_neg hlt]
      exact ⟨pos, rfl, Nat.le_refl _, h2, by omega, fun k hk _ => hk⟩

theorem normPos_ok (K size : Nat) (hK : 3 ≤ K ∧ K ≤ 63) (hs : size ≤ 2 ^ K) :
    ∃ q, normPos size = .ok q ∧ 3 ≤ q ∧ (q ≤ K ∧ 3 ≤ K ∧ K ≤ 63) ∧
    size ≤ 2 ^ q ∧ ∀ k, 3 ≤ k → size ≤ 2 ^ k → q ≤ k := by
  obtain ⟨q, e, h1, h2, h3, h4⟩ := normLoop_ok size
    (Nat.le_trans hs (Nat.pow_le_pow_right (by omega) hK.2)) 61 3 rfl (by omega)
  exact ⟨q, e, h1, ⟨h4 K hK.1 hs, hK⟩, h3, h4⟩

/-- The live blocks with the bytes they really hold. -/
abbrev Live := Spec.Live

/-- `malloc` of `n` bytes may return `r` and lead to `l'`: NULL changes nothing; another result is a
pointer not in use, now with `n` bytes. -/
def Mallocs (l : Live) (n : Nat) (r : Ptr) (l' : Live) : Prop :=
  (r = .null ∧ l' = l) ∨
  ∃ b cs, r = .blk b ∧ l b = .none ∧ 0 < n ∧ cs.length = n ∧ l' = put l b (some cs)

/-- Block `p` of the heap serves the live block with contents `cs`. -/
def Serves (m K : Nat) (h : BHeap Cell) (p : Nat) (cs : List Cell) : Prop :=
  ∃ b pos, h[p]? = some (some b) ∧ b[0]? = some (some (UInt8.ofNat pos)) ∧ (pos ≤ K ∧ 3 ≤ K ∧ K ≤ 63) ∧
    2 ^ pos + 1 ≤ b.length ∧ cs.length + 1 ≤ b.length ∧
    (pos < m → cs.length ≤ 2 ^ pos ∧ 16 ≤ b.length) ∧ (b.drop 1).take cs.length = cs

/-- Block `q` may be cached in bucket `i`. -/
def Cached (h : BHeap Cell) (i q : Nat) : Prop :=
  ∃ b, h[q]? = some (some b) ∧ 2 ^ i + 1 ≤ b.length ∧ 16 ≤ b.length

structure Rel (m K : Nat) (s : St) (l : Live) : Prop where
  bnd : 3 ≤ K ∧ K ≤ 63
  main : s.main = some m
  live : ∀ p cs, l p = some cs → Serves m K s.heap p cs
  free : ∀ i q, q ∈ s.bk i → l q = none ∧ Cached s.heap i q
  nd : ∀ i, (s.bk i).Nodup
  dj : ∀ i j q, q ∈ s.bk i → q ∈ s.bk j → i = j
  emp : ∀ i, m ≤ i → s.bk i = []
  own : ∀ p b, s.heap[p]? = some (some b) → l p ≠ none ∨ ∃ i, p ∈ s.bk i

theorem serves_lt {m K : Nat} {h : BHeap Cell} {p : Nat} {cs : List Cell} (hs : Serves m K h p cs) :
    p < h.length := by
  obtain ⟨b, pos, e, _⟩ := hs
  exact BHeap.lt_of_block e

theorem cached_lt {h : BHeap Cell} {i q : Nat} (hs : Cached h i q) : q < h.length := by
  obtain ⟨b, e, _⟩ := hs
  exact BHeap.lt_of_block e

theorem serves_congr {m K : Nat} {h h' : BHeap Cell} {p : Nat} {cs : List Cell} (hs : Serves m K h p cs)
    (e : h'[p]? = h[p]?) : Serves m K h' p cs := by
  obtain ⟨b, pos, e1, r⟩ := hs
  exact ⟨b, pos, by rw [e, e1], r⟩

theorem cached_congr {h h' : BHeap Cell} {i q : Nat} (hs : Cached h i q)
    (e : h'[q]? = h[q]?) : Cached h' i q := by
  obtain ⟨b, e1, r⟩ := hs
  exact ⟨b, by rw [e, e1], r⟩

theorem toNat_pos (pos : Nat) (h : pos ≤ 63) : (UInt8.ofNat pos).toNat = pos := by
  rw [UInt8.toNat_ofNat']; omega

theorem getPos_ok {s : St} {m K p : Nat} {cs : List Cell} (hs : Serves m K s.heap p cs) :
    ∃ b pos, getPos s p = .ok pos ∧ s.heap[p]? = some (some b) ∧
      b[0]? = some (some (UInt8.ofNat pos)) ∧ (pos ≤ K ∧ 3 ≤ K ∧ K ≤ 63) ∧ 2 ^ pos + 1 ≤ b.length ∧
      cs.length + 1 ≤ b.length ∧
      (pos < m → cs.length ≤ 2 ^ pos ∧ 16 ≤ b.length) ∧ (b.drop 1).take cs.length = cs := by
  obtain ⟨b, pos, e1, e2, h3, r⟩ := hs
  refine ⟨b, pos, ?_, e1, e2, h3, r⟩
  rw [getPos, BHeap.load_ok e1 e2, ok_bind]
  simp only [toNat_pos pos (by omega)]

/-- A block taken into use: it was not live and is not cached any more, everything else stays. -/
theorem take_block {m K : Nat} {s s' : St} {l : Live} {p n pos : Nat} {b : List Cell} (h : Rel m K s l)
    (hm : s'.main = s.main)
    (hp : s'.heap[p]? = some (some b)) (hother : ∀ q, q ≠ p → s'.heap[q]? = s.heap[q]? ∨
      (s.heap.length ≤ q ∧ ∀ c, s'.heap[q]? ≠ some (some c)))
    (h0 : b[0]? = some (some (UInt8.ofNat pos))) (hpos : pos ≤ K ∧ 3 ≤ K ∧ K ≤ 63) (hb : 2 ^ pos + 1 ≤ b.length)
    (hn : n + 1 ≤ b.length) (h16 : pos < m → n ≤ 2 ^ pos ∧ 16 ≤ b.length) (hl : l p = none)
    (hbk : ∀ i, (s'.bk i).Sublist (s.bk i)) (hnb : ∀ i, p ∉ s'.bk i)
    (hkeep : ∀ i q, q ∈ s.bk i → q ≠ p → q ∈ s'.bk i) :
    Rel m K s' (put l p (some ((b.drop 1).take n))) ∧ ((b.drop 1).take n).length = n := by
  have hlen : ((b.drop 1).take n).length = n := by simp; omega
  refine ⟨⟨h.bnd, by rw [hm]; exact h.main, ?_, ?_, ?_, ?_, ?_, ?_⟩, hlen⟩
  · intro q cs hq
    unfold put at hq
    by_cases e : q = p
    · rw [if_pos e] at hq
      cases hq
      subst e
      exact ⟨b, pos, hp, h0, hpos, hb, by rw [hlen]; omega, fun hlt => ⟨by rw [hlen]; exact (h16 hlt).1, (h16 hlt).2⟩,
        by rw [hlen]⟩
    · rw [if_neg e] at hq
      have hs := h.live q cs hq
      rcases hother q e with h1 | ⟨h1, _⟩
      · exact serves_congr hs h1
      · have := serves_lt hs; omega
  · intro i q hq
    have hqp : q ≠ p := by rintro rfl; exact hnb i hq
    obtain ⟨h1, h2⟩ := h.free i q ((hbk i).subset hq)
    refine ⟨by unfold put; rw [if_neg hqp]; exact h1, ?_⟩
    rcases hother q hqp with h3 | ⟨h3, _⟩
    · exact cached_congr h2 h3
    · have := cached_lt h2; omega
  · intro i; exact (hbk i).nodup (h.nd i)
  · intro i j q hi hj; exact h.dj i j q ((hbk i).subset hi) ((hbk j).subset hj)
  · intro i hi
    have := hbk i
    rw [h.emp i hi] at this
    exact List.sublist_nil.mp this
  · intro q c hq
    by_cases e : q = p
    · left; unfold put; rw [if_pos e]; simp
    · rcases hother q e with h1 | ⟨_, h1⟩
      · rw [h1] at hq
        rcases h.own q c hq with h2 | ⟨i, h2⟩
        · left; unfold put; rw [if_neg e]; exact h2
        · right; exact ⟨i, hkeep i q h2 e⟩
      · exact absurd hq (h1 c)

theorem putPos_ok {s : St} {p pos : Nat} {b : List Cell} (e : s.heap[p]? = some (some b))
    (hb : 0 < b.length) : putPos s p pos =
      .ok (.blk p, { s with heap := s.heap.set p (some (b.set 0 (some (UInt8.ofNat pos)))) }) := by
  rw [putPos, BHeap.store_ok e hb, ok_bind]

/-- A fresh block of the system taken into use. -/
theorem fresh_ok {m K : Nat} {s : St} {l : Live} {n pos k : Nat} (h : Rel m K s l) (hpos : pos ≤ K ∧ 3 ≤ K ∧ K ≤ 63)
    (hn : n ≤ 2 ^ pos) (hk : 2 ^ pos + 1 ≤ k) (h16 : pos < m → 16 ≤ k) :
    ∃ s' cs, putPos { s with heap := (s.heap.alloc (List.replicate k none)).2 }
        (s.heap.alloc (List.replicate k none)).1 pos = .ok (.blk s.heap.length, s') ∧
      l s.heap.length = none ∧ cs.length = n ∧
      Rel m K s' (put l s.heap.length (some cs)) ∧ s'.heap.length = s.heap.length + 1 ∧
      (∀ q, q < s.heap.length → s'.heap[q]? = s.heap[q]?) := by
  have hl : l s.heap.length = none := by
    cases e : l s.heap.length with
    | none => rfl
    | some cs => have := serves_lt (h.live _ _ e); omega
  have hget : (s.heap ++ [some (List.replicate k none)])[s.heap.length]? =
      some (some (List.replicate k (none : Cell))) := by simp
  have hkpos : 0 < k := by omega
  simp only [BHeap.alloc]
  rw [putPos_ok (b := List.replicate k none) hget (by simpa using hkpos)]
  obtain ⟨hr, hlen⟩ := take_block (s' := { s with heap := ((s.heap ++ [some (List.replicate k none)]).set
      s.heap.length (some ((List.replicate k (none : Cell)).set 0 (some (UInt8.ofNat pos))))) })
      (p := s.heap.length) (n := n) (pos := pos)
      (b := (List.replicate k (none : Cell)).set 0 (some (UInt8.ofNat pos))) h rfl
      (by simp) (by
        intro q hq
        dsimp only
        by_cases hlt : q < s.heap.length
        · left; grind
        · right; grind) (by grind) hpos (by simpa using hk) (by simp; omega)
        (fun hlt => ⟨hn, by simpa using h16 hlt⟩) hl
      (fun i => List.Sublist.refl _) (by
        intro i hi
        have := cached_lt (h.free i _ hi).2
        omega) (fun i q hq _ => hq)
  refine ⟨_, _, rfl, hl, hlen, hr, by simp, ?_⟩
  intro q hq
  dsimp only
  grind

/-- What `malloc` does. -/
theorem malloc_ok {m K : Nat} {s : St} {l : Live} (h : Rel m K s l) (ok : Bool) (n : Nat)
    (hn : n ≤ 2 ^ K) (hok : ok = true ∨ n ≤ 2 ^ (m - 1) ∧ 4 ≤ m) :
    ∃ r s' l', malloc s ok n = .ok (r, s') ∧ Rel m K s' l' ∧ Mallocs l n r l' ∧
      (ok = true → 0 < n → r ≠ .null) ∧
      ∀ b, l b ≠ none → s'.heap[b]? = s.heap[b]? := by
  unfold malloc
  by_cases h0 : n = 0
  · rw [if_pos h0]
    exact ⟨_, _, l, rfl, h, .inl ⟨rfl, rfl⟩, by omega, fun _ _ => rfl⟩
  rw [if_neg h0, h.main]
  dsimp only
  obtain ⟨pos, e, h3, h63, hsz, hmin⟩ := normPos_ok K n h.bnd hn
  rw [e, ok_bind]
  have hlive : ∀ b, l b ≠ none → b < s.heap.length := by
    intro b hb
    cases e : l b with
    | none => exact absurd e hb
    | some cs => exact serves_lt (h.live b cs e)
  by_cases hm : m ≤ pos
  · rw [if_pos hm]
    have hok : ok = true := by
      rcases hok with h | ⟨h1, h2⟩
      · exact h
      · have := hmin (m - 1) (by omega) h1; omega
    subst hok
    obtain ⟨s', cs, e1, e2, e3, e4, e5, e6⟩ := fresh_ok (n := n) (pos := pos) (k := 2 ^ pos + 1) h h63 hsz
      (Nat.le_refl _) (by omega)
    refine ⟨_, s', _, ?_, e4, .inr ⟨_, cs, rfl, e2, by omega, e3, rfl⟩, by simp, fun b hb => e6 b (hlive b hb)⟩
    simp only [sysMalloc, if_true]
    exact e1
  · rw [if_neg hm]
    cases hb : s.bk pos with
    | cons p rest =>
      dsimp only
      have hmem : p ∈ s.bk pos := by rw [hb]; exact List.mem_cons_self ..
      obtain ⟨hl, b, eb, hbl, hb16⟩ := h.free pos p hmem
      have hnd := h.nd pos
      rw [hb] at hnd
      have hnot := (List.nodup_cons.mp hnd).1
      rw [putPos_ok (s := { s with main := some m, bk := setAt s.bk pos rest }) eb (by omega)]
      obtain ⟨hr, hlen⟩ := take_block (s' := { heap := s.heap.set p (some (b.set 0 (some (UInt8.ofNat pos)))), main := some m, bk := setAt s.bk pos rest })
          (p := p) (n := n) (pos := pos) (b := b.set 0 (some (UInt8.ofNat pos))) h h.main.symm
          (by have := BHeap.lt_of_block eb; grind)
          (by intro q hq; left; dsimp only; grind)
          (by grind) h63 (by simpa using hbl) (by simp; omega) (fun _ => ⟨hsz, by simpa using hb16⟩) hl
          (by
            intro i
            dsimp only
            unfold setAt
            split
            · next e => rw [e, hb]; exact List.sublist_cons_self ..
            · exact List.Sublist.refl _)
          (by
            intro i hi
            dsimp only at hi
            unfold setAt at hi
            split at hi
            · exact hnot hi
            · next e => exact e (h.dj i pos p hi hmem))
          (by
            intro i q hq hqp
            dsimp only
            unfold setAt
            split
            · next e =>
              rw [e, hb] at hq
              rcases List.mem_cons.mp hq with e2 | e2
              · exact absurd e2 hqp
              · exact e2
            · exact hq)
      refine ⟨_, _, _, rfl, hr, .inr ⟨p, _, rfl, hl, by omega, hlen, rfl⟩, by simp, ?_⟩
      intro q hq
      have hqp : p ≠ q := by rintro rfl; exact hq hl
      dsimp only
      rw [List.getElem?_set_ne hqp]
    | nil =>
      dsimp only
      cases ok with
      | false =>
        simp only [sysMalloc, Bool.false_eq_true, if_false]
        exact ⟨_, _, l, rfl, h, .inl ⟨rfl, rfl⟩, by simp, fun _ _ => rfl⟩
      | true =>
        obtain ⟨s', cs, e1, e2, e3, e4, e5, e6⟩ := fresh_ok (n := n) (pos := pos)
          (k := if 2 ^ pos + 1 < nodeSize then nodeSize else 2 ^ pos + 1) h h63 hsz
          (by unfold nodeSize; split <;> omega) (by intro; unfold nodeSize; split <;> omega)
        refine ⟨_, s', _, ?_, e4, .inr ⟨_, cs, rfl, e2, by omega, e3, rfl⟩, by simp,
          fun b hb => e6 b (hlive b hb)⟩
        simp only [sysMalloc, if_true]
        exact e1

/-- A live block gets other contents. -/
theorem reput {m K : Nat} {s s' : St} {l : Live} {p : Nat} {cs' : List Cell} (h : Rel m K s l)
    (hl : l p ≠ none) (hm : s'.main = s.main) (hbk : s'.bk = s.bk)
    (ho : ∀ q, q ≠ p → s'.heap[q]? = s.heap[q]?) (hs : Serves m K s'.heap p cs') :
    Rel m K s' (put l p (some cs')) := by
  refine ⟨h.bnd, by rw [hm]; exact h.main, ?_, ?_, by rw [hbk]; exact h.nd, by rw [hbk]; exact h.dj,
    by rw [hbk]; exact h.emp, ?_⟩
  · intro q cs hq
    unfold put at hq
    by_cases e : q = p
    · rw [if_pos e] at hq; cases hq; rw [e]; exact hs
    · rw [if_neg e] at hq
      exact serves_congr (h.live q cs hq) (ho q e)
  · intro i q hq
    rw [hbk] at hq
    obtain ⟨h1, h2⟩ := h.free i q hq
    have hqp : q ≠ p := by rintro rfl; exact hl h1
    exact ⟨by unfold put; rw [if_neg hqp]; exact h1, cached_congr h2 (ho q hqp)⟩
  · intro q c hq
    by_cases e : q = p
    · left; unfold put; rw [if_pos e]; simp
    · rw [ho q e] at hq
      rw [hbk]
      rcases h.own q c hq with h2 | h2
      · left; unfold put; rw [if_neg e]; exact h2
      · exact .inr h2

/-- A live block is given back to the system. -/
theorem release {m K : Nat} {s s' : St} {l : Live} {p : Nat} (h : Rel m K s l)
    (hl : l p ≠ none) (hm : s'.main = s.main) (hbk : s'.bk = s.bk)
    (ho : ∀ q, q ≠ p → s'.heap[q]? = s.heap[q]?) (hs : ∀ c, s'.heap[p]? ≠ some (some c)) :
    Rel m K s' (put l p none) := by
  refine ⟨h.bnd, by rw [hm]; exact h.main, ?_, ?_, by rw [hbk]; exact h.nd, by rw [hbk]; exact h.dj,
    by rw [hbk]; exact h.emp, ?_⟩
  · intro q cs hq
    unfold put at hq
    by_cases e : q = p
    · rw [if_pos e] at hq; cases hq
    · rw [if_neg e] at hq
      exact serves_congr (h.live q cs hq) (ho q e)
  · intro i q hq
    rw [hbk] at hq
    obtain ⟨h1, h2⟩ := h.free i q hq
    have hqp : q ≠ p := by rintro rfl; exact hl h1
    exact ⟨by unfold put; rw [if_neg hqp]; exact h1, cached_congr h2 (ho q hqp)⟩
  · intro q c hq
    by_cases e : q = p
    · rw [e] at hq; exact absurd hq (hs c)
    · rw [ho q e] at hq
      rw [hbk]
      rcases h.own q c hq with h2 | h2
      · left; unfold put; rw [if_neg e]; exact h2
      · exact .inr h2

theorem free_ok {m K : Nat} {s : St} {l : Live} (h : Rel m K s l) (p : Nat) (cache : Bool)
    (hl : l p ≠ none) : ∃ s', free s (.blk p) cache = .ok s' ∧ Rel m K s' (put l p none) ∧
      ∀ q, q ≠ p → s'.heap[q]? = s.heap[q]? := by
  obtain ⟨cs, hcs⟩ := Option.ne_none_iff_exists'.mp hl
  obtain ⟨b, pos, e1, e2, e3, h63, hb, hc, hlt, hd⟩ := getPos_ok (h.live p cs hcs)
  have hplt := BHeap.lt_of_block e2
  have hsys : ∃ s', (do
      let h ← s.heap.free p
      (.ok { s with heap := h } : CRes St)) = .ok s' ∧ Rel m K s' (put l p none) ∧
      ∀ q, q ≠ p → s'.heap[q]? = s.heap[q]? := by
    have ho : ∀ q, q ≠ p → (s.heap.set p none)[q]? = s.heap[q]? := by
      intro q hq; rw [List.getElem?_set_ne (Ne.symm hq)]
    refine ⟨{ s with heap := s.heap.set p none }, by rw [BHeap.free_ok e2, ok_bind], ?_, ho⟩
    exact release h hl rfl rfl ho (by intro c; dsimp only; rw [List.getElem?_set_self hplt]; simp)
  unfold free
  dsimp only
  rw [h.main]
  dsimp only
  rw [e1, ok_bind]
  have hmain : s = { s with main := some m } := by rw [← h.main]
  rw [hmain] at hsys
  dsimp only at hsys
  by_cases hm : m ≤ pos
  · rw [if_pos hm]; exact hsys
  rw [if_neg hm]
  cases cache with
  | false => exact hsys
  | true =>
    simp only [Bool.not_true, Bool.false_eq_true, if_false]
    have h16 := (hlt (by omega)).2
    rw [BHeap.block_ok e2, ok_bind, if_neg (by unfold nodeSize; omega)]
    have ho : ∀ q, q ≠ p → (s.heap.set p (some (List.replicate b.length none)))[q]? = s.heap[q]? := by
      intro q hq; rw [List.getElem?_set_ne (Ne.symm hq)]
    have hself : (s.heap.set p (some (List.replicate b.length none)))[p]? =
        some (some (List.replicate b.length none)) := List.getElem?_set_self hplt
    have hnp : ∀ i, p ∉ s.bk i := by
      intro i hi; exact hl (h.free i p hi).1
    refine ⟨_, rfl, ⟨h.bnd, rfl, ?_, ?_, ?_, ?_, ?_, ?_⟩, ho⟩
    · intro q cs hq
      unfold put at hq
      by_cases e : q = p
      · rw [if_pos e] at hq; cases hq
      · rw [if_neg e] at hq
        exact serves_congr (h.live q cs hq) (ho q e)
    · intro i q hq
      dsimp only at hq
      by_cases e : q = p
      · subst e
        refine ⟨by simp [put], List.replicate b.length none, hself, ?_, by simpa using h16⟩
        have : i = pos := by
          unfold setAt at hq
          split at hq
          · assumption
          · exact absurd hq (hnp i)
        rw [this]
        simpa using hb
      · have hq' : q ∈ s.bk i := by
          unfold setAt at hq
          split at hq
          · next e2 =>
            rw [e2]
            rcases List.mem_append.mp hq with h | h
            · exact h
            · simp at h; exact absurd h e
          · exact hq
        obtain ⟨h1, h2⟩ := h.free i q hq'
        exact ⟨by unfold put; rw [if_neg e]; exact h1, cached_congr h2 (ho q e)⟩
    · intro i
      dsimp only
      unfold setAt
      split
      · next e2 =>
        rw [List.nodup_append]
        refine ⟨h.nd pos, by simp, ?_⟩
        intro a ha b hb e
        simp at hb
        rw [e, hb] at ha
        exact hnp pos ha
      · exact h.nd i
    · intro i j q hi hj
      dsimp only at hi hj
      have key : ∀ i, q ∈ setAt s.bk pos (s.bk pos ++ [p]) i → q ∈ s.bk i ∨ (q = p ∧ i = pos) := by
        intro i hi
        unfold setAt at hi
        split at hi
        · next e2 =>
          rcases List.mem_append.mp hi with h | h
          · rw [e2]; exact .inl h
          · simp at h; exact .inr ⟨h, e2⟩
        · exact .inl hi
      rcases key i hi with h1 | ⟨h1, h2⟩ <;> rcases key j hj with h3 | ⟨h3, h4⟩
      · exact h.dj i j q h1 h3
      · rw [h3] at h1; exact absurd h1 (hnp i)
      · rw [h1] at h3; exact absurd h3 (hnp j)
      · rw [h2, h4]
    · intro i hi
      dsimp only
      unfold setAt
      rw [if_neg (by omega)]
      exact h.emp i hi
    · intro q c hq
      by_cases e : q = p
      · right
        exact ⟨pos, by dsimp only; unfold setAt; rw [if_pos rfl, e]; simp⟩
      · dsimp only at hq
        rw [ho q e] at hq
        rcases h.own q c hq with h2 | ⟨i, h2⟩
        · left; unfold put; rw [if_neg e]; exact h2
        · right
          refine ⟨i, ?_⟩
          dsimp only
          unfold setAt
          split
          · next e2 => rw [← e2]; exact List.mem_append_left _ h2
          · exact h2

theorem memcpyTo_ok {β : Type} (dst src : List β) (pos n : Nat) (h1 : n ≤ src.length)
    (h2 : pos + n ≤ dst.length) :
    memcpyTo dst pos src n = .ok (dst.take pos ++ src.take n ++ dst.drop (pos + n)) := by
  unfold memcpyTo
  rw [if_pos h1, if_pos h2]

theorem put_put (l : Live) (p : Nat) (x y : Option (List Cell)) : put (put l p x) p y = put l p y := by
  funext q; unfold put; split <;> rfl

theorem put_comm (l : Live) (p q : Nat) (hpq : p ≠ q) (x y : Option (List Cell)) :
    put (put l p x) q y = put (put l q y) p x := by
  funext r; unfold put; grind

theorem realloc_ok {m K : Nat} {s : St} {l : Live} (h : Rel m K s l) (p n : Nat)
    (cs : List Cell) (cache : Bool)
    (hm31 : (m ≤ 31 ∨ K ≤ 31) ∨ ∃ x, realloc s true (.blk p) n cache = .ok x) (hn : n ≤ 2 ^ K) (hn0 : n ≠ 0) (hl : l p = some cs) :
    ∃ p' s' cs', realloc s true (.blk p) n cache = .ok (.blk p', s') ∧ (p' = p ∨ l p' = none) ∧
      cs'.length = n ∧ cs'.take (min cs.length n) = cs.take (min cs.length n) ∧
      Rel m K s' (put (put l p none) p' (some cs')) := by
  have hlp : l p ≠ none := by rw [hl]; simp
  obtain ⟨b, pos2, e1, e2, e3, h63, hb, hc, hlt, hd⟩ := getPos_ok (h.live p cs hl)
  obtain ⟨pos, en, h3, h63', hsz, hmin⟩ := normPos_ok K n h.bnd hn
  have hplt := BHeap.lt_of_block e2
  have htake : ∀ k, k ≤ cs.length → (b.drop 1).take k = cs.take k := by
    intro k hk
    rw [← hd, List.take_take, Nat.min_eq_left hk]
  unfold realloc at hm31 ⊢
  rw [if_neg hn0] at hm31 ⊢
  dsimp only at hm31 ⊢
  rw [en, ok_bind, e1, ok_bind] at hm31 ⊢
  by_cases hle : pos ≤ pos2
  · rw [if_pos hle]
    have hpow : 2 ^ pos ≤ 2 ^ pos2 := Nat.pow_le_pow_right (by omega) hle
    have hlen : ((b.drop 1).take n).length = n := by simp; omega
    refine ⟨p, s, (b.drop 1).take n, rfl, .inl rfl, hlen, ?_, ?_⟩
    · rw [List.take_take, Nat.min_eq_left (Nat.min_le_right ..), htake _ (Nat.min_le_left ..)]
    · rw [put_put]
      exact reput h hlp rfl rfl (fun _ _ => rfl) ⟨b, pos2, e2, e3, h63, hb, by rw [hlen]; omega,
        fun hlt' => ⟨by rw [hlen]; omega, (hlt hlt').2⟩, by rw [hlen]⟩
  rw [if_neg hle, h.main] at hm31 ⊢
  dsimp only at hm31 ⊢
  by_cases hmm : m ≤ pos ∧ m ≤ pos2
  · rw [if_pos hmm]
    simp only [sysRealloc, if_true]
    rw [BHeap.block_ok e2, ok_bind, BHeap.free_ok e2, ok_bind]
    simp only [ok_bind, BHeap.alloc]
    have hl1 : l s.heap.length = none := by
      cases e : l s.heap.length with
      | none => rfl
      | some cs => have := serves_lt (h.live _ _ e); omega
    have hpow : 2 ^ pos2 ≤ 2 ^ pos := Nat.pow_le_pow_right (by omega) (by omega)
    generalize hnb : b.take (1 + 2 ^ pos) ++ List.replicate (1 + 2 ^ pos - b.length) (none : Cell) = nb
    have hnbl : nb.length = 1 + 2 ^ pos := by rw [← hnb]; simp; omega
    have hn0 : nb[0]? = some (some (UInt8.ofNat pos2)) := by
      rw [← hnb, List.getElem?_append_left (by simp; omega)]
      rw [List.getElem?_take, if_pos (by omega), e3]
    have hlen : ((nb.drop 1).take n).length = n := by simp; omega
    have hset : (s.heap.set p none).length = s.heap.length := by simp
    have hr1 : Rel m K { s with main := some m, heap := s.heap.set p none } (put l p none) :=
      release h hlp h.main.symm rfl (by intro q hq; exact List.getElem?_set_ne (Ne.symm hq))
        (by intro c; dsimp only; rw [List.getElem?_set_self hplt]; simp)
    obtain ⟨hr2, _⟩ := take_block
      (s' := { main := some m, heap := s.heap.set p none ++ [some nb], bk := s.bk })
      (p := s.heap.length) (n := n) (pos := pos2) (b := nb) hr1 rfl (by rw [← hset]; simp)
      (by
        intro q hq
        dsimp only
        by_cases hlt : q < s.heap.length
        · left; rw [List.getElem?_append_left (by rw [hset]; exact hlt)]
        · right
          refine ⟨by rw [hset]; omega, ?_⟩
          rw [List.getElem?_eq_none (by simp; omega)]; simp)
      hn0 h63 (by omega) (by omega) (by omega) (by unfold put; split <;> simp [hl1])
      (fun i => List.Sublist.refl _)
      (by
        intro i hi
        have := cached_lt (h.free i _ hi).2
        omega) (fun i q hq _ => hq)
    refine ⟨s.heap.length, _, (nb.drop 1).take n, by rw [hset, ← hnb, h.main], .inr hl1, hlen, ?_, hr2⟩
    rw [List.take_take, Nat.min_eq_left (Nat.min_le_right ..), ← htake _ (Nat.min_le_left ..), ← hnb]
    apply List.ext_getElem?
    intro i
    rw [List.getElem?_take, List.getElem?_take]
    split
    · rw [List.getElem?_drop, List.getElem?_drop, List.getElem?_append_left (by simp; omega),
        List.getElem?_take, if_pos (by omega)]
    · rfl
  · rw [if_neg hmm] at hm31 ⊢
    have hp2 : pos2 < m := by omega
    have hp0 : 0 < 2 ^ pos := Nat.two_pow_pos pos
    obtain ⟨r, s1, l1, e4, hr1, hmal, hnn, hkeep⟩ := malloc_ok h true (2 ^ pos)
      (Nat.pow_le_pow_right (by omega) h63'.1) (.inl rfl)
    rcases hmal with ⟨h5, _⟩ | ⟨d, cs0, h5, hld, _, hcs0, hl1⟩
    · exact absurd h5 (hnn rfl hp0)
    subst h5
    subst hl1
    rw [e4, ok_bind] at hm31 ⊢
    dsimp only at hm31 ⊢
    have h31 : ¬ 31 ≤ pos2 := by
      rcases hm31 with h9 | ⟨x, h9⟩
      · omega
      · intro h10
        unfold copyOver at h9
        rw [if_pos h10] at h9
        cases h9
    clear hm31
    have hdp : d ≠ p := by rintro rfl; exact hlp hld
    have hbp : s1.heap[p]? = some (some b) := by rw [hkeep p hlp, e2]
    obtain ⟨e, pos', e5, e6, e7, h63'', he, hc0, hlt', hd0⟩ := getPos_ok (hr1.live d cs0 (by simp [put]))
    have hpow : 2 ^ pos2 ≤ 2 ^ pos := Nat.pow_le_pow_right (by omega) (by omega)
    have hdlt := BHeap.lt_of_block e6
    unfold copyOver
    rw [if_neg h31]
    dsimp only
    rw [BHeap.block_ok hbp, ok_bind, BHeap.block_ok e6, ok_bind,
      memcpyTo_ok _ _ _ _ (by simp; omega) (by omega), ok_bind, ok_bind]
    generalize he' : e.take 1 ++ (b.drop 1).take (2 ^ pos2) ++ e.drop (1 + 2 ^ pos2) = e'
    have he'l : e'.length = e.length := by rw [← he']; simp; omega
    have he'0 : e'[0]? = some (some (UInt8.ofNat pos')) := by
      rw [← he', List.append_assoc, List.getElem?_append_left (by simp; omega), List.getElem?_take,
        if_pos (by omega), e7]
    have hlen : ((e'.drop 1).take n).length = n := by simp; omega
    have hr2 : Rel m K { s1 with heap := s1.heap.set d (some e') }
        (put (put l d (some cs0)) d (some ((e'.drop 1).take n))) := by
      refine reput hr1 (by simp [put]) rfl rfl
        (fun q hq => List.getElem?_set_ne (Ne.symm hq)) ?_
      refine ⟨e', pos', List.getElem?_set_self hdlt, he'0, h63'', by omega, by rw [hlen]; omega, ?_, by rw [hlen]⟩
      intro hlt''
      have := hlt' hlt''
      rw [hlen]
      omega
    rw [put_put] at hr2
    obtain ⟨s3, e8, hr3, _⟩ := free_ok hr2 p cache (by unfold put; rw [if_neg (Ne.symm hdp)]; exact hlp)
    rw [e8, ok_bind]
    refine ⟨d, s3, (e'.drop 1).take n, rfl, .inr hld, hlen, ?_, ?_⟩
    · rw [List.take_take, Nat.min_eq_left (Nat.min_le_right ..), ← htake _ (Nat.min_le_left ..), ← he']
      have hcs := (hlt hp2).1
      apply List.ext_getElem?
      intro i
      rw [List.getElem?_take, List.getElem?_take]
      split
      · rw [List.getElem?_drop, List.append_assoc, List.getElem?_append_right (by simp; omega),
          List.getElem?_append_left (by simp; omega), List.getElem?_take, if_pos (by simp; omega)]
        congr 1
        simp; omega
      · rfl
    · rw [put_comm l p d (Ne.symm hdp)]
      exact hr3

/-- The first list of bytes, as far as known, is in the second. -/
def Sub (cs cs' : List Cell) : Prop :=
  cs.length = cs'.length ∧ ∀ (i : Nat) (v : UInt8), cs[i]? = some (some v) → cs'[i]? = some (some v)

/-- `l` says nothing wrong about the real blocks `le`. -/
structure Knows (l le : Live) : Prop where
  dom : ∀ p, l p = none ↔ le p = none
  sub : ∀ p cs cs', l p = some cs → le p = some cs' → Sub cs cs'

theorem knows_put {l le : Live} (h : Knows l le) (p : Nat) {cs cs' : List Cell} (hs : Sub cs cs') :
    Knows (put l p (some cs)) (put le p (some cs')) := by
  constructor
  · intro q; unfold put; split
    · simp
    · exact h.dom q
  · intro q c c' h1 h2
    unfold put at h1 h2
    split at h1
    · next e => rw [if_pos e] at h2; cases h1; cases h2; exact hs
    · next e => rw [if_neg e] at h2; exact h.sub q c c' h1 h2

theorem knows_del {l le : Live} (h : Knows l le) (p : Nat) : Knows (put l p none) (put le p none) := by
  constructor
  · intro q; unfold put; split
    · simp
    · exact h.dom q
  · intro q c c' h1 h2
    unfold put at h1 h2
    split at h1
    · cases h1
    · next e => rw [if_neg e] at h2; exact h.sub q c c' h1 h2

theorem knows_some {l le : Live} (h : Knows l le) {p : Nat} {cs : List Cell} (e : l p = some cs) :
    ∃ cs', le p = some cs' ∧ Sub cs cs' := by
  cases e2 : le p with
  | none => rw [(h.dom p).mpr e2] at e; cases e
  | some cs' => exact ⟨cs', rfl, h.sub p cs cs' e e2⟩

theorem sub_fresh {n : Nat} {cs : List Cell} (h : cs.length = n) : Sub (List.replicate n none) cs := by
  refine ⟨by simp [h], ?_⟩
  intro i v hi
  rw [List.getElem?_replicate] at hi
  split at hi <;> simp at hi

theorem sub_realloc {n : Nat} {cs c cs' : List Cell} (h : Sub cs c) (hl : cs'.length = n)
    (ht : cs'.take (min c.length n) = c.take (min c.length n)) :
    Sub (cs.take n ++ List.replicate (n - cs.length) none) cs' := by
  obtain ⟨h1, h2⟩ := h
  refine ⟨by simp; omega, ?_⟩
  intro i v hi
  by_cases hlt : i < min c.length n
  · rw [List.getElem?_append_left (by simp; omega), List.getElem?_take, if_pos (by omega)] at hi
    have h3 := h2 i v hi
    have h4 : (cs'.take (min c.length n))[i]? = (c.take (min c.length n))[i]? := by rw [ht]
    rw [List.getElem?_take, List.getElem?_take, if_pos hlt, if_pos hlt] at h4
    rw [h4, h3]
  · rw [List.getElem?_append_right (by simp; omega), List.getElem?_replicate] at hi
    split at hi <;> simp at hi

theorem sub_set {cs c : List Cell} (h : Sub cs c) (i : Nat) (v : UInt8) :
    Sub (cs.set i (some v)) (c.set i (some v)) := by
  obtain ⟨h1, h2⟩ := h
  refine ⟨by simp [h1], ?_⟩
  intro j w hj
  grind

theorem served_ok {m K : Nat} {s : St} {l le : Live} (h : Rel m K s le) (hk : Knows l le) (ok : Bool) (n : Nat)
    (hn : n ≤ 2 ^ K) (hok : ok = true ∨ n ≤ 2 ^ (m - 1) ∧ 4 ≤ m) :
    ∃ r s' le', malloc s ok n = .ok (r, s') ∧ Rel m K s' le' ∧ Served l ok n r ∧
      Knows (match r with | .blk b => put l b (some (List.replicate n none)) | _ => l) le' := by
  obtain ⟨r, s', le', e, hr, hm, hnn, _⟩ := malloc_ok h ok n hn hok
  rcases hm with ⟨h1, h2⟩ | ⟨b, cs, h1, h2, h3, h4, h5⟩
  · subst h1; subst h2
    refine ⟨_, s', le', e, hr, .inl ⟨rfl, fun h => ?_⟩, hk⟩
    rcases Nat.eq_zero_or_pos n with h0 | h0
    · exact h0
    · exact absurd rfl (hnn h h0)
  · subst h1; subst h5
    exact ⟨_, s', _, e, hr, .inr ⟨b, rfl, (hk.dom b).mpr h2, h3⟩, knows_put hk b (sub_fresh h4)⟩

theorem step_ok {m K : Nat} {s : St} {l le : Live} (h : Rel m K s le)
    (hk : Knows l le) (op : Op) (hv : Valid m K l op)
    (hm31 : (m ≤ 31 ∨ K ≤ 31) ∨ ∃ x, step s op = .ok x) :
    ∃ out s' le', step s op = .ok (out, s') ∧ Good l op out ∧ Rel m K s' le' ∧
      Knows (after l op out) le' := by
  cases op with
  | malloc ok n =>
    obtain ⟨h1, h2⟩ := hv
    obtain ⟨r, s', le', e, hr, hs, hk'⟩ := served_ok h hk ok n h1 h2
    refine ⟨.ptr r, s', le', by simp only [step, e, ok_bind], hs, hr, ?_⟩
    cases r <;> exact hk'
  | realloc ok p n c =>
    obtain ⟨h1, h2, h3⟩ := hv
    subst h2
    rcases h3 with h3 | ⟨b, h3, h4⟩
    · subst h3
      by_cases h0 : n = 0
      · subst h0
        exact ⟨.ptr .null, s, le, rfl, .inl ⟨rfl, fun _ => rfl⟩, h, hk⟩
      · obtain ⟨r, s', le', e, hr, hs, hk'⟩ := served_ok h hk true n h1 (.inl rfl)
        refine ⟨.ptr r, s', le', by simp only [step, realloc, if_neg h0, e, ok_bind], hs, hr, ?_⟩
        cases r <;> exact hk'
    · subst h3
      obtain ⟨cs, hcs⟩ := Option.ne_none_iff_exists'.mp h4
      obtain ⟨c', hc', hsub⟩ := knows_some hk hcs
      by_cases h0 : n = 0
      · subst h0
        obtain ⟨s', e, hr, _⟩ := free_ok h b c (by rw [hc']; simp)
        refine ⟨.ptr .null, s', _, by simp only [step, realloc, if_pos, e, ok_bind], .inl ⟨rfl, rfl⟩, hr, ?_⟩
        simp only [after, hcs]
        exact knows_del hk b
      · obtain ⟨p', s', cs', e, hp', hlen, htk, hr⟩ := realloc_ok h b n c' c (by
          rcases hm31 with h9 | ⟨x, h9⟩
          · exact .inl h9
          · right
            unfold step at h9
            cases e9 : realloc s true (.blk b) n c with
            | error u => simp only [e9, error_bind] at h9; cases h9
            | ok y => exact ⟨y, rfl⟩) h1 h0 hc'
        refine ⟨.ptr (.blk p'), s', _, by simp only [step, e, ok_bind],
          .inr ⟨by omega, p', rfl, ?_⟩, hr, ?_⟩
        · rcases hp' with hp' | hp'
          · exact .inl hp'
          · exact .inr ((hk.dom p').mpr hp')
        · simp only [after, hcs]
          exact knows_put (knows_del hk b) p' (sub_realloc hsub hlen htk)
  | free p c =>
    rcases hv with h3 | ⟨b, h3, h4⟩
    · subst h3
      exact ⟨.unit, s, le, rfl, trivial, h, hk⟩
    · subst h3
      obtain ⟨s', e, hr, _⟩ := free_ok h b c (fun e => h4 ((hk.dom b).mpr e))
      exact ⟨.unit, s', _, by simp only [step, e, ok_bind], trivial, hr, knows_del hk b⟩
  | peek p i =>
    obtain ⟨b, cs, h1, h2, h3⟩ := hv
    subst h1
    obtain ⟨c', hc', hsub⟩ := knows_some hk h2
    obtain ⟨b', pos, e1, e2, _, _, _, h5, _, hd⟩ := getPos_ok (h.live b c' hc')
    have hlen := hsub.1
    have h6 : b'[1 + i]? = some c'[i] := by
      have : c'[i]? = some c'[i] := List.getElem?_eq_getElem (by omega)
      rw [← this]
      conv => rhs; rw [← hd]
      rw [List.getElem?_take, if_pos (by omega), List.getElem?_drop]
    refine ⟨.cell c'[i], s, le, by simp only [step, peek, BHeap.load_ok e2 h6, ok_bind], ?_, h, hk⟩
    intro cs2 v hcs2 hv
    rw [h2] at hcs2; cases hcs2
    have := hsub.2 i v hv
    rw [List.getElem?_eq_getElem (by omega)] at this
    exact Option.some.inj this
  | poke p i v =>
    obtain ⟨b, cs, h1, h2, h3⟩ := hv
    subst h1
    obtain ⟨c', hc', hsub⟩ := knows_some hk h2
    obtain ⟨b', pos, e1, e2, e3, h63, hb, h5, hlt, hd⟩ := getPos_ok (h.live b c' hc')
    have hlen := hsub.1
    have hblt := BHeap.lt_of_block e2
    refine ⟨.unit, { s with heap := s.heap.set b (some (b'.set (1 + i) (some v))) },
      put le b (some (c'.set i (some v))),
      by simp only [step, poke, BHeap.store_ok e2 (show 1 + i < b'.length by omega), ok_bind], trivial, ?_, ?_⟩
    · refine reput h (by rw [hc']; simp) rfl rfl (fun q hq => List.getElem?_set_ne (Ne.symm hq)) ?_
      refine ⟨b'.set (1 + i) (some v), pos, List.getElem?_set_self hblt, ?_, h63, by simpa using hb,
        by simpa using h5, by simpa using hlt, ?_⟩
      · rw [List.getElem?_set_ne (by omega)]; exact e3
      · conv => rhs; rw [← hd]
        apply List.ext_getElem?
        intro j
        grind
    · simp only [after, h2]
      exact knows_put hk b (sub_set hsub i v)

theorem init_rel (m K : Nat) (hK : 3 ≤ K ∧ K ≤ 63) :
    Rel m K (threadInit .empty m) Live.none ∧ Knows Live.none Live.none := by
  refine ⟨⟨hK, rfl, ?_, ?_, ?_, ?_, ?_, ?_⟩, ?_, ?_⟩ <;> simp [threadInit, St.empty, Live.none]

theorem run_rel {m K : Nat} : ∀ (ops : List Op) (s : St) (l le : Live)
    (h : List (Op × Out)) (s' : St), Rel m K s le → Knows l le → run s ops = .ok (h, s') → AllValid m K l h →
    ∃ le', Rel m K s' le' ∧ Knows (afterAll l h) le'
  | [], s, l, le, h, s', hr, hk, e, hv => by
    cases e
    exact ⟨le, hr, hk⟩
  | op :: ops, s, l, le, h, s', hr, hk, e, hv => by
    unfold run at e
    cases e1 : step s op with
    | error u => rw [e1] at e; cases e
    | ok x =>
      rw [e1, ok_bind] at e
      cases e2 : run x.2 ops with
      | error u => simp only [e2, error_bind] at e; cases e
      | ok y =>
        simp only [e2, ok_bind] at e
        cases e
        obtain ⟨hv1, hv2⟩ := hv
        obtain ⟨out, s1, le1, e3, hg, hr1, hk1⟩ := step_ok hr hk op hv1 (.inr ⟨x, e1⟩)
        rw [e1] at e3
        cases e3
        exact run_rel ops s1 (after l op out) le1 _ _ hr1 hk1 e2 hv2

theorem freeNodes_ok : ∀ (bs : List Nat) (h : BHeap Cell), bs.Nodup →
    (∀ b ∈ bs, ∃ c, h[b]? = some (some c)) →
    ∃ h', freeNodes bs h = .ok h' ∧ (∀ q, q ∉ bs → h'[q]? = h[q]?) ∧
      (∀ q ∈ bs, ∀ c, h'[q]? ≠ some (some c))
  | [], h, _, _ => ⟨h, rfl, fun _ _ => rfl, by simp⟩
  | b :: bs, h, hnd, hl => by
    obtain ⟨hn, hnd⟩ := List.nodup_cons.mp hnd
    obtain ⟨c, hc⟩ := hl b (List.mem_cons_self ..)
    have hlt := BHeap.lt_of_block hc
    obtain ⟨h', e, h1, h2⟩ := freeNodes_ok bs (h.set b none) hnd (by
      intro q hq
      have hqb : b ≠ q := by rintro rfl; exact hn hq
      rw [List.getElem?_set_ne hqb]
      exact hl q (List.mem_cons_of_mem _ hq))
    refine ⟨h', by rw [freeNodes, BHeap.free_ok hc, ok_bind, e], ?_, ?_⟩
    · intro q hq
      have hqb : b ≠ q := by rintro rfl; exact hq (List.mem_cons_self ..)
      rw [h1 q (fun h => hq (List.mem_cons_of_mem _ h)), List.getElem?_set_ne hqb]
    · intro q hq c
      rcases List.mem_cons.mp hq with e | e
      · subst e
        rw [h1 q hn, List.getElem?_set_self hlt]
        simp
      · exact h2 q e c

theorem freeBuckets_ok (bk : Nat → List Nat) (hnd : ∀ i, (bk i).Nodup)
    (hdj : ∀ i j q, q ∈ bk i → q ∈ bk j → i = j) : ∀ (n x : Nat) (h : BHeap Cell),
    (∀ i q, x ≤ i → q ∈ bk i → ∃ c, h[q]? = some (some c)) →
    ∃ h', freeBuckets bk n x h = .ok h' ∧
      (∀ q, (∀ i, x ≤ i → i < x + n → q ∉ bk i) → h'[q]? = h[q]?) ∧
      (∀ i q, x ≤ i → i < x + n → q ∈ bk i → ∀ c, h'[q]? ≠ some (some c))
  | 0, x, h, _ => ⟨h, rfl, fun _ _ => rfl, by intro i q h1 h2; omega⟩
  | n + 1, x, h, hl => by
    obtain ⟨h1, e1, e2, e3⟩ := freeNodes_ok (bk x) h (hnd x) (fun b hb => hl x b (Nat.le_refl _) hb)
    obtain ⟨h2, e4, e5, e6⟩ := freeBuckets_ok bk hnd hdj n (x + 1) h1 (by
      intro i q hi hq
      rw [e2 q (fun h => by have := hdj i x q hq h; omega)]
      exact hl i q (by omega) hq)
    refine ⟨h2, by rw [freeBuckets, e1, ok_bind, e4], ?_, ?_⟩
    · intro q hq
      rw [e5 q (fun i h1 h2 => hq i (by omega) (by omega)), e2 q (hq x (Nat.le_refl _) (by omega))]
    · intro i q h1 h2 hq c
      by_cases hx : i = x
      · subst hx
        rw [e5 q (fun j h3 h4 hj => by have := hdj i j q hq hj; omega)]
        exact e3 q hq c
      · exact e6 i q (by omega) (by omega) hq c

theorem threadEnd_ok {m K : Nat} {s : St} {le : Live} (h : Rel m K s le) :
    ∃ s', threadEnd s = .ok (true, s') ∧ (∀ p, le p ≠ none → s'.heap[p]? = s.heap[p]?) ∧
      ∀ p c, s'.heap[p]? = some (some c) → le p ≠ none := by
  obtain ⟨h', e, h1, h2⟩ := freeBuckets_ok s.bk h.nd h.dj m 0 s.heap (by
    intro i q _ hq
    obtain ⟨_, c, hc, _⟩ := h.free i q hq
    exact ⟨c, hc⟩)
  refine ⟨{ heap := h', main := none, bk := fun _ => [] }, ?_, ?_, ?_⟩
  · unfold threadEnd
    rw [h.main]
    dsimp only
    rw [e, ok_bind]
  · intro p hp
    exact h1 p (fun i _ _ hi => hp (h.free i p hi).1)
  · intro p c hp
    dsimp only at hp
    by_cases hex : ∃ i, p ∈ s.bk i
    · obtain ⟨i, hi⟩ := hex
      have him : i < m := by
        rcases Nat.lt_or_ge i m with h3 | h3
        · exact h3
        · rw [h.emp i h3] at hi; cases hi
      exact absurd hp (h2 i p (by omega) (by omega) hi c)
    · rw [h1 p (fun i _ _ hi => hex ⟨i, hi⟩)] at hp
      rcases h.own p c hp with h3 | h3
      · exact h3
      · exact absurd h3 hex

/-- A system block nobody knows about (the caller's) in the heap does no harm to `free`. -/
theorem free_ok' {m K : Nat} {s : St} {l : Live} (h : Rel m K s l) (p : Nat) (cache : Bool)
    (hl : l p ≠ none) (x : List Cell) :
    ∃ s', free { s with heap := s.heap ++ [some x] } (.blk p) cache = .ok s' ∧
      ∀ q, q ≠ p → s'.heap[q]? = (s.heap ++ [some x])[q]? := by
  obtain ⟨cs, hcs⟩ := Option.ne_none_iff_exists'.mp hl
  have hs := h.live p cs hcs
  have hplt0 := serves_lt hs
  have hs' : Serves m K (s.heap ++ [some x]) p cs :=
    serves_congr hs (List.getElem?_append_left hplt0)
  obtain ⟨b, pos, e1, e2, e3, h63, hb, hc, hlt, hd⟩ :=
    getPos_ok (s := { s with heap := s.heap ++ [some x] }) hs'
  unfold free
  dsimp only
  rw [h.main] at e1 ⊢
  dsimp only
  rw [e1, ok_bind, BHeap.free_ok e2, ok_bind]
  have ho : ∀ (y : Option (List Cell)) q, q ≠ p →
      ((s.heap ++ [some x]).set p y)[q]? = (s.heap ++ [some x])[q]? :=
    fun y q hq => List.getElem?_set_ne (Ne.symm hq)
  by_cases hm : m ≤ pos
  · rw [if_pos hm]; exact ⟨_, rfl, ho _⟩
  rw [if_neg hm]
  cases cache with
  | false => exact ⟨_, rfl, ho _⟩
  | true =>
    simp only [Bool.not_true, Bool.false_eq_true, if_false]
    have h16 := (hlt (by omega)).2
    rw [BHeap.block_ok e2, ok_bind, if_neg (by unfold nodeSize; omega)]
    exact ⟨_, rfl, ho _⟩

theorem dup_ok {m K : Nat} {s : St} {le : Live} (h : Rel m K s le) (hK : K ≤ 30) (p : Nat) (cs : List Cell)
    (cache : Bool) (hl : le p = some cs) (hsz : cs.length ≤ 2 ^ m) :
    ∃ d s' e, dupMalloc s true (.blk p) cache = .ok (some d, s') ∧ s'.heap[d]? = some (some e) ∧
      (∀ c, s.heap[d]? ≠ some (some c)) ∧ d ≠ p ∧
      e.take cs.length = cs ∧ ∀ q, q ≠ p → le q ≠ none → s'.heap[q]? = s.heap[q]? := by
  obtain ⟨b, pos, e1, e2, e3, h63, hb, hc, hlt, hd⟩ := getPos_ok (h.live p cs hl)
  have hplt := BHeap.lt_of_block e2
  have hcs : cs.length ≤ 2 ^ pos := by
    rcases Nat.lt_or_ge pos m with h1 | h1
    · exact (hlt h1).1
    · exact Nat.le_trans hsz (Nat.pow_le_pow_right (by omega) h1)
  unfold dupMalloc
  dsimp only
  rw [e1, ok_bind, if_neg (by omega)]
  simp only [sysMalloc, if_true, BHeap.alloc]
  have e4 : (s.heap ++ [some (List.replicate (2 ^ pos) (none : Cell))])[p]? = some (some b) := by
    rw [List.getElem?_append_left hplt, e2]
  have e5 : (s.heap ++ [some (List.replicate (2 ^ pos) (none : Cell))])[s.heap.length]? =
      some (some (List.replicate (2 ^ pos) none)) := by simp
  rw [BHeap.block_ok e4, ok_bind, BHeap.block_ok e5, ok_bind,
    memcpyTo_ok _ _ _ _ (by simp; omega) (by simp), ok_bind]
  have e6 : (s.heap ++ [some (List.replicate (2 ^ pos) (none : Cell))]).set s.heap.length
      (some (List.take 0 (List.replicate (2 ^ pos) none) ++ List.take (2 ^ pos) (List.drop 1 b) ++
        List.drop (0 + 2 ^ pos) (List.replicate (2 ^ pos) none))) =
      s.heap ++ [some (List.take (2 ^ pos) (List.drop 1 b))] := by
    rw [List.set_append_right _ _ (Nat.le_refl _)]
    simp
  rw [e6]
  obtain ⟨s', e7, h8⟩ := free_ok' h p cache (by rw [hl]; simp) (List.take (2 ^ pos) (List.drop 1 b))
  rw [e7, ok_bind]
  refine ⟨_, s', List.take (2 ^ pos) (List.drop 1 b), rfl, ?_, ?_, by omega, ?_, ?_⟩
  · rw [h8 _ (by omega)]; simp
  · intro c; simp
  · rw [List.take_take, Nat.min_eq_left hcs, hd]
  · intro q hq hlq
    rw [h8 q hq]
    cases e9 : le q with
    | none => exact absurd e9 hlq
    | some c => rw [List.getElem?_append_left (serves_lt (h.live q c e9))]

end Verif.Tls
