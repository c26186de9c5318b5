import Verif.SyncLife.Spec

/-!
# Sizes, pages and the layout of the objects in memory
-/

namespace Verif.SyncLife
open Spec
open Verif.NamedMem (alignSize)

theorem align_ge (al n : Nat) : n ≤ alignSize al n := by
  unfold alignSize
  split <;> omega

theorem align_lt {al : Nat} (h : 0 < al) (n : Nat) : alignSize al n < n + al := by
  unfold alignSize
  split
  · have := Nat.mod_lt n h
    omega
  · omega

theorem align_dvd {al : Nat} (h : 0 < al) (n : Nat) : al ∣ alignSize al n := by
  unfold alignSize
  split
  · have h1 := Nat.mod_lt n h
    have h2 := Nat.div_add_mod n al
    refine ⟨n / al + 1, ?_⟩
    rw [Nat.mul_add]
    omega
  · next h1 => exact Nat.dvd_of_mod_eq_zero (by omega)

theorem align_le_of_dvd {al : Nat} (h : 0 < al) {n m : Nat} (hm : al ∣ m) (hn : n ≤ m) : alignSize al n ≤ m := by
  obtain ⟨x, rfl⟩ := hm
  obtain ⟨y, hy⟩ := align_dvd h n
  have h1 := align_lt h n
  rw [hy] at h1 ⊢
  have h2 : al * y < al * (x + 1) := by rw [Nat.mul_add]; omega
  have := Nat.lt_of_mul_lt_mul_left h2
  exact Nat.mul_le_mul_left _ (by omega)

variable {p : Par}

theorem pages_le (hp : 0 < p.page) (n k : Nat) : p.pages n ≤ k ↔ n ≤ k * p.page := by
  unfold Par.pages
  rw [Nat.le_iff_lt_add_one, Nat.div_lt_iff_lt_mul hp, Nat.add_mul]
  omega

theorem pages_align (hp : 0 < p.page) (ha : 0 < p.al) (hd : p.al ∣ p.page) (n : Nat) :
    p.pages (alignSize p.al n) = p.pages n := by
  apply Nat.le_antisymm
  · rw [pages_le hp]
    exact align_le_of_dvd ha (Nat.dvd_trans hd (Nat.dvd_mul_left _ _)) ((pages_le hp _ _).mp (Nat.le_refl _))
  · rw [pages_le hp]
    exact Nat.le_trans (align_ge _ _) ((pages_le hp _ _).mp (Nat.le_refl _))

theorem usable_ge (hp : 0 < p.page) (k : Blk) : k.len ≤ p.usable k := by
  unfold Par.usable
  split
  · exact (pages_le hp _ _).mp (Nat.le_refl _)
  · exact Nat.le_refl _

/-- A mapping that is not empty has at least one page. -/
theorem usable_page (hp : 0 < p.page) {k : Blk} (hk : k.named = true) (hl : 0 < k.len) : p.page ≤ p.usable k := by
  unfold Par.usable
  rw [if_pos hk]
  have : ¬ p.pages k.len ≤ 0 := by rw [pages_le hp]; omega
  exact Nat.le_mul_of_pos_left _ (by omega)

theorem A_eq (hal : 0 < p.al) {n : Nat} (h : n + p.al ≤ 18446744073709551616) : p.A n = alignSize p.al n := by
  unfold Par.A
  exact Nat.mod_eq_of_lt (Nat.lt_of_lt_of_le (align_lt hal n) h)

theorem A_ge (hal : 0 < p.al) {n : Nat} (h : n + p.al ≤ 18446744073709551616) : n ≤ p.A n := by
  rw [A_eq hal h]
  exact align_ge _ _

theorem A_small (hal : 0 < p.al) {n : Nat} (h : n + p.al ≤ 18446744073709551616) : p.A n ≤ n + p.al := by
  rw [A_eq hal h]
  exact Nat.le_of_lt (align_lt hal n)

/-- What the proofs use of the platform. -/
structure Facts (p : Par) : Prop where
  al : 0 < p.al
  alSmall : p.al ≤ 4294967296
  page : 0 < p.page
  mutex : 0 < p.msz
  cond : 0 < p.csz
  m1 : p.msz ≤ p.A p.msz
  m2 : p.A p.msz ≤ 4294967296
  c1 : p.csz ≤ p.A p.csz
  c2 : p.A p.csz ≤ 8589934592
  w1 : 4 ≤ p.A 4
  w2 : p.A 4 ≤ 4294967300
  t1 : 2 ≤ p.A 2
  t2 : p.A 2 ≤ 4294967298
  o1 : 1 ≤ p.A 1
  start : p.start ≤ p.page
  startSmall : p.start ≤ 4294967296

theorem facts (h : Platform p) : Facts p := by
  have h1 : p.al ≤ p.page := Nat.le_of_dvd h.page h.alPage
  have hs : p.al ≤ 4294967296 := Nat.le_trans h1 h.pageSmall
  have hst := h.header
  have hps := h.pageSmall
  have e1 : p.A 1 = alignSize p.al 1 := A_eq h.al (by omega)
  have e2 : p.A 2 = alignSize p.al 2 := A_eq h.al (by omega)
  have e4 : p.A 4 = alignSize p.al 4 := A_eq h.al (by omega)
  have em : p.A p.msz = alignSize p.al p.msz := A_eq h.al (by have := h.mutexSmall; omega)
  have gm := align_ge p.al p.msz
  have ec : p.A p.csz = alignSize p.al p.csz := A_eq h.al (by have := h.condSmall; omega)
  have hm : p.A p.msz ≤ p.page := by unfold Par.start at hst; omega
  have g1 := align_ge p.al 1
  have g2 := align_ge p.al 2
  have g4 := align_ge p.al 4
  have gc := align_ge p.al p.csz
  have l2 := align_lt h.al 2
  have l4 := align_lt h.al 4
  have lc := align_lt h.al p.csz
  have hc := h.condSmall
  refine ⟨h.al, hs, h.page, h.mutex, h.cond, by omega, by omega, by omega, by omega, by omega, by omega, by omega, by omega,
    by omega, hst, by omega⟩

/-- These parts follow one another between `lo` and `hi`. -/
def Chain (lo : Nat) : List Part → Nat → Prop
  | [], hi => lo ≤ hi
  | q :: qs, hi => lo ≤ q.off ∧ 0 < q.len ∧ Chain (q.off + q.len) qs hi

theorem Chain.le {lo hi : Nat} : ∀ {qs : List Part}, Chain lo qs hi → lo ≤ hi
  | [], h => h
  | q :: qs, ⟨h1, _, h3⟩ => by
    have := h3.le
    omega

theorem Chain.append {lo mid hi : Nat} : ∀ {qs rs : List Part}, Chain lo qs mid → Chain mid rs hi → Chain lo (qs ++ rs) hi
  | [], [], h1, h2 => Nat.le_trans h1 h2
  | [], r :: rs, h1, ⟨h2, h3, h4⟩ => ⟨Nat.le_trans h1 h2, h3, h4⟩
  | q :: qs, rs, ⟨h1, h2, h3⟩, h4 => ⟨h1, h2, Chain.append h3 h4⟩

theorem Chain.bounds {lo hi : Nat} : ∀ {qs : List Part}, Chain lo qs hi → ∀ q ∈ qs, lo ≤ q.off ∧ q.off + q.len ≤ hi
  | [], _, q, h => nomatch h
  | r :: qs, ⟨h1, h2, h3⟩, q, h => by
    rcases List.mem_cons.mp h with rfl | h
    · exact ⟨h1, h3.le⟩
    · have := h3.bounds q h
      exact ⟨by omega, this.2⟩

theorem sem_chain (h : Facts p) (o : Nat) : Chain o (p.semParts o) (o + p.semSize) := by
  obtain ⟨-, -, -, hm, hc, m1, -, c1, -, w1, -⟩ := h
  unfold Par.semParts Par.semSize Chain Chain Chain Chain Chain
  dsimp only
  omega

theorem event_chain (h : Facts p) (o : Nat) : Chain o (p.eventParts o) (o + p.eventSize) := by
  obtain ⟨-, -, -, hm, hc, m1, -, c1, -, w1, -, t1, -⟩ := h
  unfold Par.eventParts Par.eventSize Chain Chain Chain Chain Chain Chain
  dsimp only
  omega

theorem parts_chain (h : Facts p) (o : Nat) (c : Cls) (hc : c ≠ .mem) :
    Chain o (p.parts o c) (o + p.objSize 0 c) := by
  cases c with
  | mem => exact absurd rfl hc
  | sem => exact sem_chain h o
  | event => exact event_chain h o
  | lock =>
    unfold Par.parts Par.objSize
    have h1 := sem_chain h o
    have h2 : Chain (o + p.semSize) [⟨o + p.semSize, 4, false⟩] (o + p.semSize + p.A 4) := by
      have := h.w1
      unfold Chain Chain
      dsimp only
      omega
    have h3 := event_chain h (o + p.semSize + p.A 4)
    have h4 := sem_chain h (o + p.semSize + p.A 4 + p.eventSize)
    have := ((h1.append h2).append h3).append h4
    simp only [Nat.add_assoc] at this ⊢
    exact this

theorem header_chain (h : Facts p) : Chain 0 p.header p.start := by
  obtain ⟨-, -, -, hm, hc, m1, -, c1, -, w1, -, t1, -, o1, -⟩ := h
  unfold Par.header Par.start Chain Chain Chain Chain
  dsimp only
  omega

theorem objSize_small (h : Facts p) (c : Cls) (hc : c ≠ .mem) : p.objSize 0 c ≤ 1099511627776 := by
  obtain ⟨-, -, -, -, -, -, m2, -, c2, -, w2, -, t2, -⟩ := h
  have h1 : p.semSize ≤ 25769803776 := by unfold Par.semSize; omega
  have h2 : p.eventSize ≤ 25769803776 := by unfold Par.eventSize; omega
  cases c with
  | sem => show p.semSize ≤ _; omega
  | event => show p.eventSize ≤ _; omega
  | lock => show p.semSize + p.A 4 + p.eventSize + p.semSize ≤ _; omega
  | mem => exact absurd rfl hc

end Verif.SyncLife
