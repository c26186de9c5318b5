import Verif.PackedHash.Spec
import Mathlib.Data.List.Nodup
import Mathlib.Data.List.Perm.Subperm

/-! # Proof of the refinement of the packed ordered hash -/

namespace Verif.PackedHash
open Verif.Links Spec
open Verif.OrderedHash (Key intBytes)

variable {α : Type}

/-! ## Numbers -/

theorem mark_eq {b : Nat} (h : b < 2 ^ 31) : mark b = 2 ^ 31 + b := by
  unfold mark
  rw [show (0x80000000 : Nat) = 2 ^ 31 * 1 from rfl, ← Nat.two_pow_add_eq_or_of_lt h 1, Nat.mul_one]

theorem mark_bit {b : Nat} (h : b < 2 ^ 31) : mark b &&& 0x80000000 ≠ 0 := by
  intro e
  have := congrArg (fun n => Nat.testBit n 31) e
  simp only [Nat.testBit_and, mark_eq h, Nat.testBit_two_pow_add_eq, Nat.testBit_lt_two_pow h] at this
  revert this
  decide

theorem mark_low {b : Nat} (h : b < 2 ^ 31) : mark b &&& 0x7FFFFFFF = b := by
  show mark b &&& (2 ^ 31 - 1) = b
  rw [Nat.and_two_pow_sub_one_eq_mod, mark_eq h, Nat.add_mod_left, Nat.mod_eq_of_lt h]

theorem index_bit {x : Nat} (h : x < 2 ^ 31) : x &&& 0x80000000 = 0 := by
  apply Nat.eq_of_testBit_eq
  intro i
  rw [Nat.testBit_and, show (0x80000000 : Nat) = 2 ^ 31 from rfl, Nat.testBit_two_pow]
  by_cases e : 31 = i
  · subst e; simp [Nat.testBit_lt_two_pow h]
  · simp [e]

theorem hpos_eq {k h : Nat} (hk : k ≤ 30) : hpos (2 ^ k - 1) h = h % 2 ^ k := by
  unfold hpos
  rw [Nat.and_two_pow_sub_one_eq_mod]
  exact Nat.mod_mod_of_dvd _ (Nat.pow_dvd_pow 2 (by omega))

theorem ofI64_toI64 (h : UInt64) : ofI64 (toI64 h) = h.toNat := by
  have := h.toNat_lt
  unfold ofI64 toI64
  split <;> omega

theorem toI64_inj {a b : UInt64} (h : toI64 a = toI64 b) : a = b := by
  apply UInt64.toNat_inj.1
  rw [← ofI64_toI64 a, ← ofI64_toI64 b, h]

/-! ## Segments with raw links -/

/-- The nodes `xs` are linked in this order, `p` is the back link of the first and `n` the forward link of the last. -/
def RSeg (pv nx : Nat → Nat) : Nat → List Nat → Nat → Prop
  | _, [], _ => True
  | p, x :: xs, n => pv x = p ∧ nx x = xs.headD n ∧ RSeg pv nx x xs n

theorem rseg_append (pv nx : Nat → Nat) : ∀ (as bs : List Nat) (p n : Nat),
    RSeg pv nx p (as ++ bs) n ↔ RSeg pv nx p as (bs.headD n) ∧ RSeg pv nx (as.getLastD p) bs n
  | [], bs, p, n => by simp [RSeg]
  | a :: as, bs, p, n => by
    have h1 : (as ++ bs).headD n = as.headD (bs.headD n) := by cases as <;> simp
    simp only [List.cons_append, RSeg, h1, List.getLastD_cons]
    rw [rseg_append pv nx as bs a n]
    simp only [and_assoc]

theorem rseg_congr {pv nx pv' nx' : Nat → Nat} : ∀ {xs : List Nat} {p n : Nat},
    (∀ x ∈ xs, pv' x = pv x ∧ nx' x = nx x) → RSeg pv nx p xs n → RSeg pv' nx' p xs n
  | [], _, _, _, _ => trivial
  | x :: xs, p, n, h, hs =>
    ⟨by rw [(h x (by simp)).1]; exact hs.1, by rw [(h x (by simp)).2]; exact hs.2.1,
      rseg_congr (fun y hy => h y (by simp [hy])) hs.2.2⟩

/-- `nx` with the last node of `as` changed. -/
def uL (nx : Nat → Nat) (as : List Nat) (m : Nat) : Nat → Nat :=
  match as.getLast? with
  | none => nx
  | some a => upd nx a m

/-- `pv` with the first node of `bs` changed. -/
def uH (pv : Nat → Nat) (bs : List Nat) (q : Nat) : Nat → Nat :=
  match bs with
  | [] => pv
  | b :: _ => upd pv b q

theorem uL_other {nx : Nat → Nat} {as : List Nat} {m y : Nat} (h : y ∉ as) : uL nx as m y = nx y := by
  unfold uL
  cases hl : as.getLast? with
  | none => rfl
  | some a => exact upd_other _ _ (fun e => h (e ▸ List.mem_of_getLast? hl))

theorem uH_other {pv : Nat → Nat} {bs : List Nat} {q y : Nat} (h : y ∉ bs) : uH pv bs q y = pv y := by
  unfold uH
  cases bs with
  | nil => rfl
  | cons b bs => exact upd_other _ _ (fun e => h (by simp [e]))

theorem rseg_last {pv nx : Nat → Nat} {as : List Nat} {p n : Nat} (m : Nat)
    (hs : RSeg pv nx p as n) (hd : as.Nodup) : RSeg pv (uL nx as m) p as m := by
  rcases List.eq_nil_or_concat as with rfl | ⟨as', a, rfl⟩
  · trivial
  · simp only [List.concat_eq_append] at *
    rw [rseg_append] at hs ⊢
    have ha : a ∉ as' := by
      rw [List.nodup_append] at hd
      exact fun h => hd.2.2 a h a (by simp) rfl
    have e : uL nx (as' ++ [a]) m = upd nx a m := by simp [uL]
    rw [e]
    refine ⟨rseg_congr (fun y hy => ⟨rfl, upd_other _ _ (fun h => ha (h ▸ hy))⟩) (by simpa using hs.1), ?_⟩
    exact ⟨hs.2.1, by simp, trivial⟩

theorem rseg_head {pv nx : Nat → Nat} {bs : List Nat} {p n : Nat} (q : Nat)
    (hs : RSeg pv nx p bs n) (hd : bs.Nodup) : RSeg (uH pv bs q) nx q bs n := by
  cases bs with
  | nil => trivial
  | cons b bs =>
    have hb : b ∉ bs := (List.nodup_cons.1 hd).1
    exact ⟨by simp [uH], hs.2.1, rseg_congr (fun y hy => ⟨upd_other _ _ (fun h => hb (h ▸ hy)), rfl⟩) hs.2.2⟩

/-- Assembling a chain from two parts and a node between them. -/
theorem rseg_insert {pv nx : Nat → Nat} {as bs : List Nat} {x q n n' p' : Nat}
    (ha : RSeg pv nx q as n') (hb : RSeg pv nx p' bs n) (hd : (as ++ x :: bs).Nodup) :
    RSeg (uH (upd pv x (as.getLastD q)) bs x) (uL (upd nx x (bs.headD n)) as x) q (as ++ x :: bs) n := by
  have hd' := List.nodup_append.1 hd
  have hxb := List.nodup_cons.1 hd'.2.1
  have hxa : x ∉ as := fun h => hd'.2.2 x h x (by simp) rfl
  have hab : ∀ y ∈ as, y ∉ bs := fun y h1 h2 => hd'.2.2 y h1 y (by simp [h2]) rfl
  rw [rseg_append]
  refine ⟨?_, ?_, ?_, ?_⟩
  · refine rseg_congr (nx := uL nx as x) (pv := pv) (fun y hy => ⟨?_, ?_⟩) (rseg_last _ ha hd'.1)
    · rw [uH_other (hab y hy), upd_other _ _ (ne_of_mem hy hxa)]
    · unfold uL
      cases hl : as.getLast? with
      | none => simp [upd_other _ _ (ne_of_mem hy hxa)]
      | some a =>
        simp only
        by_cases hya : y = a
        · simp [hya]
        · rw [upd_other _ _ hya, upd_other _ _ hya, upd_other _ _ (ne_of_mem hy hxa)]
  · rw [uH_other hxb.1, upd_same]
  · rw [uL_other hxa, upd_same]
  · refine rseg_congr (nx := nx) (pv := uH pv bs x) (fun y hy => ⟨?_, ?_⟩) (rseg_head _ hb hxb.2)
    · unfold uH
      cases bs with
      | nil => cases hy
      | cons b bs =>
        simp only
        by_cases hyb : y = b
        · simp [hyb]
        · rw [upd_other _ _ hyb, upd_other _ _ hyb, upd_other _ _ (ne_of_mem hy hxb.1)]
    · rw [uL_other (fun h => hab y h hy), upd_other _ _ (ne_of_mem hy hxb.1)]

/-- Taking a node out of a chain. -/
theorem rseg_remove {pv nx : Nat → Nat} {as bs : List Nat} {x q n : Nat} (hs : RSeg pv nx q (as ++ x :: bs) n)
    (hd : (as ++ x :: bs).Nodup) :
    RSeg (uH pv bs (as.getLastD q)) (uL nx as (bs.headD n)) q (as ++ bs) n := by
  have hd' := List.nodup_append.1 hd
  have hxb := List.nodup_cons.1 hd'.2.1
  have hab : ∀ y ∈ as, y ∉ bs := fun y h1 h2 => hd'.2.2 y h1 y (by simp [h2]) rfl
  have hs' := (rseg_append _ _ _ _ _ _).1 hs
  rw [rseg_append]
  constructor
  · exact rseg_congr (nx := uL nx as (bs.headD n)) (pv := pv) (fun y hy => ⟨uH_other (hab y hy), rfl⟩) (rseg_last _ hs'.1 hd'.1)
  · exact rseg_congr (nx := nx) (pv := uH pv bs (as.getLastD q)) (fun y hy => ⟨rfl, uL_other (fun h => hab y h hy)⟩)
      (rseg_head _ hs'.2.2.2 hxb.2)

/-! ## Buckets -/

/-- The chains of the table hold exactly the nodes `xs`, each in the bucket `h` says. -/
def Bk (pv nx : Nat → Nat) (tbl : List Nat) (h : Nat → Nat) (xs : List Nat) : Prop :=
  (∀ x ∈ xs, h x < tbl.length) ∧ ∃ B : Nat → List Nat, ∀ b, b < tbl.length →
    tbl[b]? = some ((B b).headD nil32) ∧ RSeg pv nx (mark b) (B b) nil32 ∧ (B b).Nodup ∧ ∀ x, x ∈ B b ↔ x ∈ xs ∧ h x = b

theorem Bk.congr {pv nx pv' nx' : Nat → Nat} {tbl : List Nat} {h h' : Nat → Nat} {xs ys : List Nat}
    (hb : Bk pv nx tbl h xs) (hs : ∀ x, x ∈ xs ↔ x ∈ ys) (hl : ∀ x ∈ xs, pv' x = pv x ∧ nx' x = nx x ∧ h' x = h x) :
    Bk pv' nx' tbl h' ys := by
  obtain ⟨hlt, B, hb⟩ := hb
  refine ⟨fun x hx => by rw [(hl x ((hs x).2 hx)).2.2]; exact hlt x ((hs x).2 hx), B, fun b hbl => ?_⟩
  obtain ⟨h1, h2, h3, h4⟩ := hb b hbl
  have hm : ∀ x ∈ B b, x ∈ xs := fun x hx => ((h4 x).1 hx).1
  refine ⟨h1, rseg_congr (fun x hx => ⟨(hl x (hm x hx)).1, (hl x (hm x hx)).2.1⟩) h2, h3, fun x => ?_⟩
  rw [h4 x]
  constructor
  · rintro ⟨ha, hb⟩
    exact ⟨(hs x).1 ha, by rw [(hl x ha).2.2]; exact hb⟩
  · rintro ⟨ha, hb⟩
    have ha := (hs x).2 ha
    exact ⟨ha, by rw [(hl x ha).2.2] at hb; exact hb⟩

theorem Bk.empty (pv nx : Nat → Nat) (h : Nat → Nat) (n : Nat) : Bk pv nx (List.replicate n nil32) h [] := by
  refine ⟨by simp, fun _ => [], fun b hb => ⟨?_, trivial, List.nodup_nil, by simp⟩⟩
  simp only [List.length_replicate] at hb
  simp [hb]

/-- Giving one bucket a new chain. -/
theorem Bk.replace {pv nx pv' nx' : Nat → Nat} {tbl tbl' : List Nat} {h h' : Nat → Nat} {xs ys : List Nat} {b : Nat}
    (hlt : ∀ x ∈ xs, h x < tbl.length) {B : Nat → List Nat}
    (hb : ∀ b, b < tbl.length → tbl[b]? = some ((B b).headD nil32) ∧ RSeg pv nx (mark b) (B b) nil32 ∧ (B b).Nodup ∧
      ∀ x, x ∈ B b ↔ x ∈ xs ∧ h x = b)
    (hbl : b < tbl.length) (L : List Nat) (hlen : tbl'.length = tbl.length) (h1 : tbl'[b]? = some (L.headD nil32))
    (ho : ∀ c, c ≠ b → tbl'[c]? = tbl[c]?) (h2 : RSeg pv' nx' (mark b) L nil32) (h3 : L.Nodup)
    (hf : ∀ y ∈ xs, h y ≠ b → pv' y = pv y ∧ nx' y = nx y) (h4 : ∀ y, y ∈ L ↔ y ∈ ys ∧ h' y = b)
    (h5 : ∀ y c, c ≠ b → (y ∈ ys ∧ h' y = c ↔ y ∈ xs ∧ h y = c)) : Bk pv' nx' tbl' h' ys := by
  refine ⟨fun y hy => ?_, fun c => if c = b then L else B c, fun c hc => ?_⟩
  · rw [hlen]
    by_cases e : h' y = b
    · rw [e]; exact hbl
    · obtain ⟨hy', e'⟩ := (h5 y (h' y) e).1 ⟨hy, rfl⟩
      rw [← e']; exact hlt y hy'
  · rw [hlen] at hc
    by_cases e : c = b
    · subst e
      simp only [if_true]
      exact ⟨h1, h2, h3, h4⟩
    · simp only [if_neg e]
      obtain ⟨g1, g2, g3, g4⟩ := hb c hc
      refine ⟨by rw [ho c e]; exact g1, ?_, g3, fun y => by rw [g4 y, h5 y c e]⟩
      refine rseg_congr (fun y hy => ?_) g2
      obtain ⟨hy, ey⟩ := (g4 y).1 hy
      exact hf y hy (by rw [ey]; exact e)

theorem Bk.live {pv nx : Nat → Nat} {tbl : List Nat} {h : Nat → Nat} {xs : List Nat} (hb : Bk pv nx tbl h xs)
    (hlen : tbl.length ≤ 2 ^ 30) (hx : ∀ x ∈ xs, x < 2 ^ 30) {x : Nat} (hm : x ∈ xs) : pv x ≠ nil32 := by
  obtain ⟨hlt, B, hb⟩ := hb
  obtain ⟨-, h2, -, h4⟩ := hb _ (hlt x hm)
  have hxB : x ∈ B (h x) := (h4 x).2 ⟨hm, rfl⟩
  have hB : ∀ y ∈ B (h x), y < 2 ^ 30 := fun y hy => hx y ((h4 y).1 hy).1
  obtain ⟨as, bs, e⟩ := List.append_of_mem hxB
  rw [e] at h2 hB
  have hs := (rseg_append _ _ _ _ _ _).1 h2
  have hp := hs.2.1
  rw [hp]
  have hlt' := hlt x hm
  rcases List.eq_nil_or_concat as with ha | ⟨as', a, ha⟩
  · subst ha
    show mark (h x) ≠ nil32
    rw [mark_eq (by omega)]
    unfold nil32
    omega
  · have := hB a (by simp [ha])
    have e : as.getLastD (mark (h x)) = a := by simp [ha]
    rw [e]
    unfold nil32
    omega

/-! ## The table -/

/-- The key members of a node hold a key. -/
def KeyRep (hf : List UInt8 → UInt64) (ik : Int) (sk : Option (List UInt8)) : Key → Prop
  | .int i => sk = none ∧ ik = i
  | .str bs => sk = some bs ∧ ik = toI64 (hf bs)

theorem keyRep_new (hf : List UInt8 → UInt64) (k : Key) : KeyRep hf (keyIk hf k) (keySk k) k := by
  cases k <;> exact ⟨rfl, rfl⟩

/-- The bucket of a key. -/
def bucket (hf : List UInt8 → UInt64) (cap : Nat) (k : Key) : Nat := (hashOf hf k).toNat % cap

/-- The table holds the nodes `xs` with keys `K` and values `V`. -/
structure T (hf : List UInt8 → UInt64) (w : W α) (xs : List Nat) (K : Nat → Key) (V : Nat → α) : Prop where
  pow : ∃ k, k ≤ 30 ∧ w.cap = 2 ^ k
  mask : w.mask = w.cap - 1
  len : w.tbl.length = w.cap
  rng : ∀ x ∈ xs, x < w.cap ∧ w.init x = true
  bk : Bk w.pv w.nx w.tbl (fun x => bucket hf w.cap (K x)) xs
  key : ∀ x ∈ xs, KeyRep hf (w.ik x) (w.sk x) (K x)
  val : ∀ x ∈ xs, w.val x = some (V x)
  uniq : ∀ x ∈ xs, ∀ y ∈ xs, K x = K y → x = y

theorem T.cap_le {hf : List UInt8 → UInt64} {w : W α} {xs : List Nat} {K : Nat → Key} {V : Nat → α} (t : T hf w xs K V) :
    w.cap ≤ 2 ^ 30 ∧ 0 < w.cap := by
  obtain ⟨k, hk, e⟩ := t.pow
  rw [e]
  exact ⟨Nat.pow_le_pow_right (by omega) hk, Nat.two_pow_pos k⟩

theorem T.hpos {hf : List UInt8 → UInt64} {w : W α} {xs : List Nat} {K : Nat → Key} {V : Nat → α} (t : T hf w xs K V) (h : Nat) :
    hpos w.mask h = h % w.cap := by
  obtain ⟨k, hk, e⟩ := t.pow
  rw [t.mask, e]
  exact hpos_eq hk

theorem T.live {hf : List UInt8 → UInt64} {w : W α} {xs : List Nat} {K : Nat → Key} {V : Nat → α} (t : T hf w xs K V) {x : Nat}
    (hx : x ∈ xs) : w.pv x ≠ nil32 :=
  t.bk.live (by rw [t.len]; exact t.cap_le.1) (fun y hy => by have := (t.rng y hy).1; have := t.cap_le.1; omega) hx

theorem get_ok {β : Type} {w : W α} {f : Nat → β} {i : Nat} (h : i < w.cap ∧ w.init i = true) : get w f i = .ok (f i) := by
  simp [get, h.1, h.2]

theorem getVal_ok {hf : List UInt8 → UInt64} {w : W α} {xs : List Nat} {K : Nat → Key} {V : Nat → α} (t : T hf w xs K V) {x : Nat}
    (hx : x ∈ xs) : getVal w x = .ok (V x) := by
  simp [getVal, get_ok (t.rng x hx), t.val x hx]

theorem T.congr {hf : List UInt8 → UInt64} {w w' : W α} {xs ys : List Nat} {K K' : Nat → Key} {V V' : Nat → α} (t : T hf w xs K V)
    (hs : ∀ x, x ∈ xs ↔ x ∈ ys) (h1 : w'.cap = w.cap) (h2 : w'.mask = w.mask) (h3 : w'.tbl = w.tbl)
    (hl : ∀ x ∈ xs, w'.init x = w.init x ∧ w'.pv x = w.pv x ∧ w'.nx x = w.nx x ∧ w'.ik x = w.ik x ∧ w'.sk x = w.sk x ∧
      w'.val x = some (V' x) ∧ K' x = K x) : T hf w' ys K' V' := by
  refine ⟨by rw [h1]; exact t.pow, by rw [h1, h2]; exact t.mask, by rw [h1, h3]; exact t.len, fun x hx => ?_, ?_, fun x hx => ?_,
    fun x hx => (hl x ((hs x).2 hx)).2.2.2.2.2.1, fun x hx y hy e => ?_⟩
  · have hx := (hs x).2 hx
    rw [h1, (hl x hx).1]; exact t.rng x hx
  · rw [h3]
    exact t.bk.congr hs (fun x hx => ⟨(hl x hx).2.1, (hl x hx).2.2.1, by rw [h1, (hl x hx).2.2.2.2.2.2]⟩)
  · have hx := (hs x).2 hx
    obtain ⟨-, -, -, a, b, -, c⟩ := hl x hx
    rw [a, b, c]; exact t.key x hx
  · have hx := (hs x).2 hx
    have hy := (hs y).2 hy
    rw [(hl x hx).2.2.2.2.2.2, (hl y hy).2.2.2.2.2.2] at e
    exact t.uniq x hx y hy e

/-! ## Finding -/

theorem findLoop_ok {w : W α} {m : Nat → CRes Bool} {p : Nat → Bool} : ∀ (bs : List Nat) (k q : Nat),
    RSeg w.pv w.nx q bs nil32 → (∀ x ∈ bs, x < w.cap ∧ w.init x = true) → (∀ x ∈ bs, x ≠ nil32) → (∀ x ∈ bs, m x = .ok (p x)) →
    bs.length < k → findLoop w m k (bs.headD nil32) = .ok (bs.find? p)
  | [], k + 1, q, _, _, _, _, _ => by simp [findLoop]
  | x :: bs, k + 1, q, hs, hl, hne, hm, hk => by
    have hnx : w.nx x = bs.headD nil32 := hs.2.1
    have ih := findLoop_ok bs k x hs.2.2 (fun y hy => hl y (by simp [hy])) (fun y hy => hne y (by simp [hy]))
      (fun y hy => hm y (by simp [hy])) (by simp only [List.length_cons] at hk; omega)
    simp only [List.headD_cons, findLoop, if_neg (hne x (by simp)), hm x (by simp), ok_bind, get_ok (hl x (by simp)), hnx, ih]
    cases hp : p x <;> simp [hp]

theorem matchKey_ok {hf : List UInt8 → UInt64} {w : W α} {xs : List Nat} {K : Nat → Key} {V : Nat → α} (t : T hf w xs K V) (k : Key)
    {x : Nat} (hx : x ∈ xs) : matchKey hf w k x = .ok (decide (K x = k)) := by
  have hr := t.rng x hx
  have hk := t.key x hx
  cases k with
  | int i =>
    simp only [matchKey, matchInt, get_ok hr, ok_bind]
    congr 1
    cases h : K x with
    | int j => rw [h] at hk; simp [hk.1, hk.2]
    | str bs => rw [h] at hk; simp [hk.1]
  | str bs =>
    simp only [matchKey, matchStr, get_ok hr, ok_bind]
    cases h : K x with
    | int j => rw [h] at hk; simp [hk.1]
    | str cs =>
      rw [h] at hk
      simp only [hk.1, hk.2]
      congr 1
      by_cases e : cs = bs
      · simp [e]
      · have : bs ≠ cs := fun h => e h.symm
        simp [e, this]

theorem T.length_le {hf : List UInt8 → UInt64} {w : W α} {xs ys : List Nat} {K : Nat → Key} {V : Nat → α} (t : T hf w xs K V)
    (hd : ys.Nodup) (hs : ∀ x ∈ ys, x ∈ xs) : ys.length ≤ w.cap := by
  have : ys ⊆ List.range w.cap := fun x hx => List.mem_range.2 (t.rng x (hs x hx)).1
  have := (List.subperm_of_subset hd this).length_le
  simpa using this

theorem find_ok {hf : List UInt8 → UInt64} {w : W α} {xs : List Nat} {K : Nat → Key} {V : Nat → α} (t : T hf w xs K V) (k : Key) :
    find hf w k = .ok (xs.find? fun x => decide (K x = k)) := by
  obtain ⟨hlt, B, hb⟩ := t.bk
  beta_reduce at hlt hb
  have hc := t.cap_le
  have hbl : bucket hf w.cap k < w.tbl.length := by rw [t.len]; exact Nat.mod_lt _ hc.2
  obtain ⟨h1, h2, h3, h4⟩ := hb _ hbl
  have hBs : ∀ x ∈ B (bucket hf w.cap k), x ∈ xs := fun x hx => ((h4 x).1 hx).1
  have hp : Verif.PackedHash.hpos w.mask (hashOf hf k).toNat = bucket hf w.cap k := t.hpos _
  unfold find
  have hrd : rd w.tbl (bucket hf w.cap k) = .ok ((B (bucket hf w.cap k)).headD nil32) := by simp [rd, h1]
  rw [hp, hrd, ok_bind, findLoop_ok (p := fun x => decide (K x = k)) _ _ _ h2 (fun x hx => t.rng x (hBs x hx))
    (fun x hx => by have := (t.rng x (hBs x hx)).1; unfold nil32; omega)
    (fun x hx => matchKey_ok t k (hBs x hx)) (by have := t.length_le h3 hBs; omega)]
  congr 1
  cases hf' : xs.find? (fun x => decide (K x = k)) with
  | none =>
    rw [List.find?_eq_none] at hf' ⊢
    exact fun x hx => hf' x (hBs x hx)
  | some x =>
    have hx := List.mem_of_find?_eq_some hf'
    have hk : K x = k := by simpa using List.find?_some hf'
    have hxB : x ∈ B (bucket hf w.cap k) := (h4 x).2 ⟨hx, by rw [hk]⟩
    cases hg : (B (bucket hf w.cap k)).find? (fun x => decide (K x = k)) with
    | none =>
      rw [List.find?_eq_none] at hg
      exact absurd (by simpa using hk) (hg x hxB)
    | some y =>
      have hy := hBs y (List.mem_of_find?_eq_some hg)
      have hky : K y = k := by simpa using List.find?_some hg
      rw [t.uniq y hy x hx (hky.trans hk.symm)]

/-! ## Links of neighbours -/

theorem setNextLink_ok {w : W α} {bs : List Nat} {v : Nat} (hb : ∀ y ∈ bs, y < w.cap) (hc : w.cap ≤ 2 ^ 30) :
    setNextLink w (bs.headD nil32) v = .ok { w with pv := uH w.pv bs v } := by
  cases bs with
  | nil => simp [setNextLink, uH]
  | cons b bs =>
    have := hb b (by simp)
    have hn : b ≠ nil32 := by unfold nil32; omega
    simp [setNextLink, hn, setPv, this, uH]

theorem setPrevLink_ok {w : W α} {as : List Nat} {b v : Nat} (ha : ∀ y ∈ as, y < w.cap) (hc : w.cap ≤ 2 ^ 30)
    (hb : b < w.tbl.length) (hl : w.tbl.length = w.cap) :
    setPrevLink w (as.getLastD (mark b)) v =
      .ok { w with tbl := if as = [] then w.tbl.set b v else w.tbl, nx := uL w.nx as v } := by
  rcases List.eq_nil_or_concat as with e | ⟨as', a, e⟩
  · subst e
    have hb' : b < 2 ^ 31 := by omega
    simp only [List.getLastD_nil, setPrevLink, if_pos (mark_bit hb'), mark_low hb', wr, if_pos hb, ok_bind, uL]
    simp
  · have h1 := ha a (by simp [e])
    have h2 : as.getLastD (mark b) = a := by simp [e]
    have h3 : as ≠ [] := by simp [e]
    have h4 : uL w.nx as v = upd w.nx a v := by simp [uL, e]
    rw [h2, h4, if_neg h3]
    simp [setPrevLink, index_bit (show a < 2 ^ 31 by omega), setNx, h1]

theorem nodup_split {as bs : List Nat} {x : Nat} (h : (as ++ x :: bs).Nodup) :
    x ∉ as ∧ x ∉ bs ∧ (∀ y ∈ as, y ∉ bs) ∧ (as ++ bs).Nodup := by
  have hd' := List.nodup_append.1 h
  have hxb := List.nodup_cons.1 hd'.2.1
  exact ⟨fun h => hd'.2.2 x h x (by simp) rfl, hxb.1, fun y h1 h2 => hd'.2.2 y h1 y (by simp [h2]) rfl,
    List.nodup_append.2 ⟨hd'.1, hxb.2, fun a ha b hb => hd'.2.2 a ha b (by simp [hb])⟩⟩

/-! ## Adding a node -/

theorem T.add {hf : List UInt8 → UInt64} {w : W α} {xs : List Nat} {K : Nat → Key} {V : Nat → α} (t : T hf w xs K V) {x : Nat}
    (hx : x ∉ xs) (hc : x < w.cap) {k : Key} {v : α} {ik : Int} {sk : Option (List UInt8)} (hk : KeyRep hf ik sk k)
    (hn : ∀ y ∈ xs, K y ≠ k) :
    ∃ pv' nx' t', attach { w with ik := upd w.ik x ik, sk := upd w.sk x sk, val := upd w.val x (some v) } x (hashOf hf k).toNat =
        .ok { w with ik := upd w.ik x ik, sk := upd w.sk x sk, val := upd w.val x (some v), init := upd w.init x true,
                     pv := pv', nx := nx', tbl := t' } ∧
      T hf { w with ik := upd w.ik x ik, sk := upd w.sk x sk, val := upd w.val x (some v), init := upd w.init x true,
                     pv := pv', nx := nx', tbl := t' } (x :: xs) (upd K x k) (upd V x v) ∧
      (∀ y, y ≠ x → y ∉ xs → pv' y = w.pv y) := by
  obtain ⟨hlt, B, hb⟩ := t.bk
  beta_reduce at hlt hb
  have hcap := t.cap_le
  have hbl : bucket hf w.cap k < w.tbl.length := by rw [t.len]; exact Nat.mod_lt _ hcap.2
  obtain ⟨h1, h2, h3, h4⟩ := hb _ hbl
  generalize hbb : bucket hf w.cap k = b at *
  have hBs : ∀ y ∈ B b, y ∈ xs := fun y hy => ((h4 y).1 hy).1
  have hp : Verif.PackedHash.hpos w.mask (hashOf hf k).toNat = b := by rw [← hbb]; exact t.hpos _
  have hxB : x ∉ B b := fun h => hx (hBs x h)
  refine ⟨uH (upd w.pv x (mark b)) (B b) x, upd w.nx x ((B b).headD nil32), w.tbl.set b x, ?_, ?_, ?_⟩
  · unfold attach
    have hrd : rd w.tbl b = .ok ((B b).headD nil32) := by simp [rd, h1]
    simp only [hp, hrd, ok_bind, if_pos hc]
    rw [setNextLink_ok]
    · simp only [ok_bind, wr, hp, if_pos hbl]
    · exact fun y hy => (t.rng y (hBs y hy)).1
    · exact hcap.1
  · refine ⟨t.pow, t.mask, by simp [t.len], fun y hy => ?_, ?_, fun y hy => ?_, fun y hy => ?_, fun y hy z hz e => ?_⟩
    · rcases List.mem_cons.1 hy with rfl | hy
      · exact ⟨hc, by simp⟩
      · have := t.rng y hy
        exact ⟨this.1, by simp only; rw [upd_other _ _ (ne_of_mem hy hx)]; exact this.2⟩
    · refine Bk.replace hlt hb hbl (x :: B b) (by simp) (by simp [hbl]) (fun c hc => by simp only; rw [List.getElem?_set_ne (Ne.symm hc)])
        ?_ (List.nodup_cons.2 ⟨hxB, h3⟩) (fun y hy hne => ?_) (fun y => ?_) (fun y c hcb => ?_)
      · have := rseg_insert (as := []) (bs := B b) (x := x) (q := mark b) (n := nil32) (n' := 0) trivial h2
          (by simpa using ⟨hxB, h3⟩)
        simpa [uL] using this
      · have hyB : y ∉ B b := fun h => hne ((h4 y).1 h).2
        have hyx := ne_of_mem hy hx
        simp only
        rw [uH_other hyB, upd_other _ _ hyx, upd_other _ _ hyx]
        exact ⟨rfl, rfl⟩
      · simp only [List.mem_cons]
        constructor
        · rintro (rfl | hy)
          · exact ⟨Or.inl rfl, by simp [hbb]⟩
          · obtain ⟨a, c⟩ := (h4 y).1 hy
            exact ⟨Or.inr a, by rw [upd_other _ _ (ne_of_mem a hx)]; exact c⟩
        · rintro ⟨rfl | hy, hm⟩
          · exact Or.inl rfl
          · rw [upd_other _ _ (ne_of_mem hy hx)] at hm
            exact Or.inr ((h4 y).2 ⟨hy, hm⟩)
      · simp only [List.mem_cons]
        constructor
        · rintro ⟨rfl | hy, hm⟩
          · rw [upd_same, hbb] at hm; exact absurd hm.symm hcb
          · rw [upd_other _ _ (ne_of_mem hy hx)] at hm
            exact ⟨hy, hm⟩
        · rintro ⟨hy, hm⟩
          exact ⟨Or.inr hy, by rw [upd_other _ _ (ne_of_mem hy hx)]; exact hm⟩
    · simp only
      rcases List.mem_cons.1 hy with rfl | hy
      · simp only [upd_same]; exact hk
      · have := ne_of_mem hy hx
        simp only [upd_other _ _ this]; exact t.key y hy
    · simp only
      rcases List.mem_cons.1 hy with rfl | hy
      · simp only [upd_same]
      · have := ne_of_mem hy hx
        simp only [upd_other _ _ this]; exact t.val y hy
    · rcases List.mem_cons.1 hy with ey | hy
      · rcases List.mem_cons.1 hz with ez | hz
        · rw [ey, ez]
        · rw [ey, upd_same, upd_other _ _ (ne_of_mem hz hx)] at e
          exact absurd e.symm (hn z hz)
      · rcases List.mem_cons.1 hz with ez | hz
        · rw [ez, upd_same, upd_other _ _ (ne_of_mem hy hx)] at e
          exact absurd e (hn y hy)
        · rw [upd_other _ _ (ne_of_mem hy hx), upd_other _ _ (ne_of_mem hz hx)] at e
          exact t.uniq y hy z hz e
  · intro y hy hyx
    rw [uH_other (fun h => hyx (hBs y h)), upd_other _ _ hy]

/-! ## Unsetting a node -/

theorem T.unset {hf : List UInt8 → UInt64} {w : W α} {xs ys : List Nat} {K : Nat → Key} {V : Nat → α} (t : T hf w xs K V) {x : Nat}
    (hx : x ∈ xs) (hys : ∀ y, y ∈ ys ↔ y ∈ xs ∧ y ≠ x) :
    ∃ pv' nx' t', unset w (some x) = .ok (true, { w with pv := pv', nx := nx', tbl := t', val := upd w.val x none,
                                                          sk := upd w.sk x none, used := w.used - 1 }) ∧
      T hf { w with pv := pv', nx := nx', tbl := t', val := upd w.val x none, sk := upd w.sk x none, used := w.used - 1 } ys K V ∧
      pv' x = nil32 ∧ (∀ y, y ∉ xs → pv' y = w.pv y) := by
  obtain ⟨hlt, B, hb⟩ := t.bk
  beta_reduce at hlt hb
  have hcap := t.cap_le
  have hbl := hlt x hx
  obtain ⟨h1, h2, h3, h4⟩ := hb _ hbl
  generalize hbb : bucket hf w.cap (K x) = b at *
  have hxB : x ∈ B b := (h4 x).2 ⟨hx, hbb⟩
  obtain ⟨as, bs, hB⟩ := List.append_of_mem hxB
  rw [hB] at h1 h2 h3 h4
  obtain ⟨hxa, hxb, hab, hnd⟩ := nodup_split h3
  have hs := (rseg_append _ _ _ _ _ _).1 h2
  have hpx : w.pv x = as.getLastD (mark b) := hs.2.1
  have hnx : w.nx x = bs.headD nil32 := hs.2.2.1
  have hr := t.rng x hx
  have hra : ∀ y ∈ as, y < w.cap := fun y hy => (t.rng y ((h4 y).1 (by simp [hy])).1).1
  have hrb : ∀ y ∈ bs, y < w.cap := fun y hy => (t.rng y ((h4 y).1 (by simp [hy])).1).1
  refine ⟨upd (uH w.pv bs (as.getLastD (mark b))) x nil32, uL w.nx as (bs.headD nil32),
    (if as = [] then w.tbl.set b (bs.headD nil32) else w.tbl), ?_, ?_, by simp, ?_⟩
  · unfold PackedHash.unset
    simp only [get_ok hr, ok_bind, if_neg (t.live hx)]
    rw [hnx, hpx, setNextLink_ok hrb hcap.1, ok_bind, setPrevLink_ok]
    · rfl
    · exact hra
    · exact hcap.1
    · exact hbl
    · exact t.len
  · have hyx : ∀ y ∈ ys, y ≠ x := fun y hy => ((hys y).1 hy).2
    have hyxs : ∀ y ∈ ys, y ∈ xs := fun y hy => ((hys y).1 hy).1
    refine ⟨t.pow, t.mask, ?_, fun y hy => t.rng y (hyxs y hy), ?_, fun y hy => ?_, fun y hy => ?_,
      fun y hy z hz e => t.uniq y (hyxs y hy) z (hyxs z hz) e⟩
    · simp only
      split <;> simp [t.len]
    · refine Bk.replace hlt hb hbl (as ++ bs) ?_ ?_ (fun c hc => ?_) ?_ hnd (fun y hy hne => ?_) (fun y => ?_) (fun y c hcb => ?_)
      · simp only
        split <;> simp
      · by_cases e : as = []
        · simp [e, hbl]
        · simp only [if_neg e, h1]
          cases as with
          | nil => exact absurd rfl e
          | cons a as => rfl
      · simp only
        split
        · rw [List.getElem?_set_ne (Ne.symm hc)]
        · rfl
      · refine rseg_congr (fun y hy => ⟨upd_other _ _ ?_, rfl⟩) (rseg_remove h2 h3)
        intro e
        rw [e] at hy
        rcases List.mem_append.1 hy with h | h
        · exact hxa h
        · exact hxb h
      · have hyB : y ∉ as ++ x :: bs := fun h => hne ((h4 y).1 h).2
        simp only [List.mem_append, List.mem_cons, not_or] at hyB
        simp only
        rw [upd_other _ _ hyB.2.1, uH_other hyB.2.2, uL_other hyB.1]
        exact ⟨rfl, rfl⟩
      · rw [hys y]
        constructor
        · intro hy
          have hy' : y ∈ as ++ x :: bs := by
            simp only [List.mem_append, List.mem_cons] at hy ⊢
            rcases hy with h | h <;> simp [h]
          have := (h4 y).1 hy'
          refine ⟨⟨this.1, ?_⟩, this.2⟩
          rintro rfl
          rcases List.mem_append.1 hy with h | h
          · exact hxa h
          · exact hxb h
        · rintro ⟨⟨hy, hne⟩, hm⟩
          have := (h4 y).2 ⟨hy, hm⟩
          simp only [List.mem_append, List.mem_cons] at this ⊢
          rcases this with h | h | h
          · exact Or.inl h
          · exact absurd h hne
          · exact Or.inr h
      · rw [hys y]
        constructor
        · rintro ⟨⟨hy, _⟩, hm⟩; exact ⟨hy, hm⟩
        · rintro ⟨hy, hm⟩
          refine ⟨⟨hy, ?_⟩, hm⟩
          rintro rfl
          rw [hbb] at hm
          exact hcb hm.symm
    · simp only
      rw [upd_other _ _ (hyx y hy)]; exact t.key y (hyxs y hy)
    · simp only
      rw [upd_other _ _ (hyx y hy)]; exact t.val y (hyxs y hy)
  · intro y hy
    have hd : y ∉ as ++ x :: bs := fun h => hy ((h4 y).1 h).1
    simp only [List.mem_append, List.mem_cons, not_or] at hd
    rw [upd_other _ _ hd.2.1, uH_other hd.2.2]

/-! ## Moving a node -/

theorem T.move {hf : List UInt8 → UInt64} {w : W α} {xs ys : List Nat} {K : Nat → Key} {V : Nat → α} (t : T hf w xs K V) {j x : Nat}
    (hj : j ∈ xs) (hx : x ∉ xs) (hc : x < w.cap) (hys : ∀ y, y ∈ ys ↔ y = x ∨ (y ∈ xs ∧ y ≠ j)) :
    ∃ w', moveNode w j x = .ok w' ∧ T hf w' ys (upd K x (K j)) (upd V x (V j)) ∧
      w'.cap = w.cap ∧ w'.pos = w.pos ∧ w'.used = w.used ∧ w'.c90 = w.c90 ∧ w'.r40 = w.r40 ∧
      (∀ y, y ≠ x → w'.init y = w.init y) ∧ (∀ y, y ≠ x → y ∉ xs → w'.pv y = w.pv y) := by
  obtain ⟨hlt, B, hb⟩ := t.bk
  beta_reduce at hlt hb
  have hcap := t.cap_le
  have hbl := hlt j hj
  obtain ⟨h1, h2, h3, h4⟩ := hb _ hbl
  generalize hbb : bucket hf w.cap (K j) = b at *
  have hjB : j ∈ B b := (h4 j).2 ⟨hj, hbb⟩
  obtain ⟨as, bs, hB⟩ := List.append_of_mem hjB
  rw [hB] at h1 h2 h3 h4
  obtain ⟨hja, hjb, hab, hnd⟩ := nodup_split h3
  have hs := (rseg_append _ _ _ _ _ _).1 h2
  have hpj : w.pv j = as.getLastD (mark b) := hs.2.1
  have hnj : w.nx j = bs.headD nil32 := hs.2.2.1
  have hr := t.rng j hj
  have hra : ∀ y ∈ as, y < w.cap := fun y hy => (t.rng y ((h4 y).1 (by simp [hy])).1).1
  have hrb : ∀ y ∈ bs, y < w.cap := fun y hy => (t.rng y ((h4 y).1 (by simp [hy])).1).1
  have hxa : x ∉ as := fun h => hx ((h4 x).1 (by simp [h])).1
  have hxb : x ∉ bs := fun h => hx ((h4 x).1 (by simp [h])).1
  have hnd' : (as ++ x :: bs).Nodup := nodup_insert hnd (by simp [hxa, hxb])
  have hxj : x ≠ j := fun e => hx (e ▸ hj)
  refine ⟨{ w with init := upd w.init x true, ik := upd w.ik x (w.ik j), sk := upd w.sk x (w.sk j), val := upd w.val x (w.val j),
                   pv := uH (upd w.pv x (as.getLastD (mark b))) bs x, nx := uL (upd w.nx x (bs.headD nil32)) as x,
                   tbl := if as = [] then w.tbl.set b x else w.tbl }, ?_, ?_, rfl, rfl, rfl, rfl, rfl, fun y hy => upd_other _ _ hy, ?_⟩
  · unfold moveNode
    simp only [get_ok hr, ok_bind, if_pos hc]
    rw [hpj, hnj, setPrevLink_ok, ok_bind, setNextLink_ok]
    · exact hrb
    · exact hcap.1
    · exact hra
    · exact hcap.1
    · exact hbl
    · exact t.len
  · have hold : ∀ y ∈ ys, y ≠ x → y ∈ xs := fun y hy hne => by
      rcases (hys y).1 hy with h | h
      · exact absurd h hne
      · exact h.1
    refine ⟨t.pow, t.mask, ?_, fun y hy => ?_, ?_, fun y hy => ?_, fun y hy => ?_, fun y hy z hz e => ?_⟩
    · simp only
      split <;> simp [t.len]
    · simp only
      by_cases e : y = x
      · rw [e]; exact ⟨hc, by simp⟩
      · rw [upd_other _ _ e]; exact t.rng y (hold y hy e)
    · refine Bk.replace hlt hb hbl (as ++ x :: bs) ?_ ?_ (fun c hc => ?_) ?_ hnd' (fun y hy hne => ?_) (fun y => ?_) (fun y c hcb => ?_)
      · simp only
        split <;> simp
      · by_cases e : as = []
        · simp [e, hbl]
        · simp only [if_neg e, h1]
          cases as with
          | nil => exact absurd rfl e
          | cons a as => rfl
      · simp only
        split
        · rw [List.getElem?_set_ne (Ne.symm hc)]
        · rfl
      · exact rseg_insert hs.1 hs.2.2.2 hnd'
      · have hyB : y ∉ as ++ j :: bs := fun h => hne ((h4 y).1 h).2
        simp only [List.mem_append, List.mem_cons, not_or] at hyB
        have hyx := ne_of_mem hy hx
        simp only
        rw [uH_other hyB.2.2, upd_other _ _ hyx, uL_other hyB.1, upd_other _ _ hyx]
        exact ⟨rfl, rfl⟩
      · rw [hys y]
        simp only [List.mem_append, List.mem_cons]
        by_cases e : y = x
        · subst e; simp [hbb]
        · rw [upd_other _ _ e]
          have := h4 y
          simp only [List.mem_append, List.mem_cons] at this
          constructor
          · intro h
            have hyj : y ≠ j := by
              rintro rfl
              rcases h with h | h | h
              · exact hja h
              · exact e h
              · exact hjb h
            have := this.1 (by tauto)
            exact ⟨Or.inr ⟨this.1, hyj⟩, this.2⟩
          · rintro ⟨h | ⟨hy, hyj⟩, hm⟩
            · exact absurd h e
            · have := this.2 ⟨hy, hm⟩
              tauto
      · rw [hys y]
        by_cases e : y = x
        · subst e
          simp only [upd_same, hbb]
          constructor
          · rintro ⟨_, hm⟩; exact absurd hm.symm hcb
          · rintro ⟨h, _⟩; exact absurd h hx
        · simp only [upd_other _ _ e]
          constructor
          · rintro ⟨h | h, hm⟩
            · exact absurd h e
            · exact ⟨h.1, hm⟩
          · rintro ⟨h, hm⟩
            refine ⟨Or.inr ⟨h, ?_⟩, hm⟩
            rintro rfl
            rw [hbb] at hm
            exact hcb hm.symm
    · simp only
      by_cases e : y = x
      · rw [e]; simp only [upd_same]; exact t.key j hj
      · simp only [upd_other _ _ e]; exact t.key y (hold y hy e)
    · simp only
      by_cases e : y = x
      · rw [e]; simp only [upd_same]; exact t.val j hj
      · simp only [upd_other _ _ e]; exact t.val y (hold y hy e)
    · have hney : ∀ {y : Nat}, y ∈ ys → y ≠ x → y ≠ j := fun {y} hy hne => by
        rcases (hys y).1 hy with h | h
        · exact absurd h hne
        · exact h.2
      by_cases ey : y = x
      · by_cases ez : z = x
        · rw [ey, ez]
        · rw [ey, upd_same, upd_other _ _ ez] at e
          exact absurd (t.uniq j hj z (hold z hz ez) e).symm (hney hz ez)
      · by_cases ez : z = x
        · rw [ez, upd_same, upd_other _ _ ey] at e
          exact absurd (t.uniq y (hold y hy ey) j hj e) (hney hy ey)
        · rw [upd_other _ _ ey, upd_other _ _ ez] at e
          exact t.uniq y (hold y hy ey) z (hold z hz ez) e
  · intro y hy hyx
    have hd : y ∉ as ++ j :: bs := fun h => hyx ((h4 y).1 h).1
    simp only [List.mem_append, List.mem_cons, not_or] at hd
    simp only
    rw [uH_other hd.2.2, upd_other _ _ hy]

end Verif.PackedHash
