import Verif.OrderedHash.MultiLemmas

/-!
# Moving nodes between detachable ordered hashes (C129)

The specification: every hash has its sequence of nodes; the other nodes are loose.  A call on a hash means what it means for a hash
on its own (`Verif.OrderedHash.Spec`), with the named loose node at hand.  `tag` is what has to be known about a loose node: the hash
whose hash keys its cached hash value was made with, `none` if no value is cached.
-/

namespace Verif.OrderedHash
open Verif.Links

variable {α : Type}

namespace MSpec

structure T (α : Type) where
  seq : Nat → List Nat
  loose : Nat → Bool
  key : Nat → Key
  val : Nat → α
  stale : Nat → Bool
  tag : Nat → Option Nat
  fresh : Nat

def T.empty (dflt : α) : T α :=
  { seq := fun _ => [], loose := fun _ => false, key := fun _ => .int 0, val := fun _ => dflt, stale := fun _ => false, tag := fun _ => none, fresh := 0 }

/-- A loose node can be used with hash `i`: no hash value is cached, or one for the same hash keys. -/
def fits (seed : Nat → Nat) (t : T α) (i x : Nat) : Bool :=
  match t.tag x with
  | none => true
  | some j => decide (seed j = seed i)

/-- The loose node that a call names. -/
def named (t : T α) : Op α → List Nat
  | .insertNode _ _ x => if t.loose x then [x] else []
  | .findNode x => if t.loose x then [x] else []
  | _ => []

/-- Hash `i` on its own, with the loose nodes `xs`. -/
def alone (t : T α) (i : Nat) (xs : List Nat) : Spec.S α :=
  { seq := t.seq i, loose := xs, key := t.key, val := t.val, stale := t.stale, fresh := t.fresh }

/-- Calls that take nodes out with `ResetHashKey`. -/
def resets : Op α → Bool
  | .pop r => r
  | .shift r => r
  | .detach _ r => r
  | .release r => r
  | _ => false

/-- The tag of a node that is loose after a call on hash `i`. -/
def newTag (i : Nat) (old : Option Nat) : Op α → Option Nat
  | .findNode _ => old
  | op => if resets op then none else some i

/-- After a call on hash `i`. -/
def back (t : T α) (i : Nat) (op : Op α) (s : Spec.S α) : T α :=
  { seq := upd t.seq i s.seq
    loose := fun y => decide (y ∈ s.loose) || (t.loose y && !decide (y ∈ named t op))
    key := s.key
    val := s.val
    stale := s.stale
    tag := fun y => if y ∈ s.loose then newTag i (t.tag y) op else t.tag y
    fresh := s.fresh }

/-- The meaning of each call; `none` marks an illegal call. -/
def step (seed : Nat → Nat) (t : T α) : MOp α → Option (Ret × T α)
  | .create k v => some (.node (some t.fresh),
      { t with loose := upd t.loose t.fresh true, key := upd t.key t.fresh k, val := upd t.val t.fresh v, stale := upd t.stale t.fresh false,
               tag := upd t.tag t.fresh none, fresh := t.fresh + 1 })
  | .delete x => if t.loose x then some (.void, { t with loose := upd t.loose x false }) else none
  | .setKey x k => if t.loose x then some (.void, { t with key := upd t.key x k, tag := upd t.tag x none }) else none
  | .setValue x v => if t.loose x then some (.void, { t with val := upd t.val x v }) else none
  | .on i op =>
    if (named t op).all (fits seed t i) then do
      let (r, s) ← Spec.step (alone t i (named t op)) op
      some (r, back t i op s)
    else none

def run (seed : Nat → Nat) : T α → List (MOp α) → Option (List Ret × T α)
  | t, [] => some ([], t)
  | t, op :: ops => do
    let (r, t) ← step seed t op
    let (rs, t) ← run seed t ops
    some (r :: rs, t)

/-- What iteration over hash `i` shows. -/
def entries (t : T α) (i : Nat) : List (Nat × Key × α) := (t.seq i).map fun x => (x, t.key x, t.val x)

/-- The node stored under a key in hash `i`. -/
def lookup (t : T α) (i : Nat) (k : Key) : Option Nat := (t.seq i).find? fun x => decide (t.key x = k)

end MSpec

open MSpec

/-! ## The relation -/

/-- The memory with only some of the nodes. -/
def only (w : W α) (l : Nat → Bool) : W α := { w with lh := { w.lh with live := l } }

def inSeq (xs : List Nat) (x : Nat) : Bool := decide (x ∈ xs)

/-- A loose node. -/
structure LO (hf : Nat → List UInt8 → Nat) (seed : Nat → Nat) (w : W α) (t : T α) (x : Nat) : Prop where
  bound : x < w.fresh
  key : KeyRep (w.ik x) (w.sk x) (t.key x)
  val : w.val x = t.val x
  pv : t.stale x = false → w.lh.pv x = none
  nx : t.stale x = false → w.lh.nx x = none
  hp : w.hp x = none
  hn : w.hn x = none
  none : t.tag x = none → w.hk x = 0
  some : ∀ j, t.tag x = some j → w.hk x = 0 ∨ w.hk x = hf (seed j) (keyBytes (t.key x))

structure G (hf : Nat → List UInt8 → Nat) (seed : Nat → Nat) (m : MW α) (t : T α) : Prop where
  each : ∀ i, R (hf (seed i)) (only (m.view i) (inSeq (t.seq i))) (alone t i [])
  look : ∀ x, t.loose x = true → LO hf seed m.mem t x
  live : ∀ x, m.mem.lh.live x = true ↔ t.loose x = true ∨ ∃ i, x ∈ t.seq i
  disj : ∀ x i j, x ∈ t.seq i → x ∈ t.seq j → i = j
  sep : ∀ x i, x ∈ t.seq i → t.loose x = false

theorem G.fresh {hf : Nat → List UInt8 → Nat} {seed : Nat → Nat} {m : MW α} {t : T α} (g : G hf seed m t) : m.mem.fresh = t.fresh := (g.each 0).fresh

theorem G.bound {hf : Nat → List UInt8 → Nat} {seed : Nat → Nat} {m : MW α} {t : T α} (g : G hf seed m t) {x : Nat} (h : m.mem.lh.live x = true) :
    x < m.mem.fresh := by
  rcases (g.live x).1 h with h | ⟨i, h⟩
  · exact (g.look x h).bound
  · exact (g.each i).bound (x := x) (by simpa [only, inSeq] using h)

/-- Taking loose nodes into view. -/
theorem R.adopt {h : List UInt8 → Nat} {w : W α} {s : Spec.S α} {xs : List Nat} (r : R h (only w (inSeq s.seq)) { s with loose := [] })
    (hnd : xs.Nodup) (hd : ∀ x ∈ xs, x ∉ s.seq) (hb : ∀ x ∈ xs, x < w.fresh) (hk : ∀ x ∈ xs, KeyRep (w.ik x) (w.sk x) (s.key x))
    (hv : ∀ x ∈ xs, w.val x = s.val x) (hpv : ∀ x ∈ xs, (s.stale x = false → w.lh.pv x = none) ∧ (s.stale x = false → w.lh.nx x = none))
    (hh : ∀ x ∈ xs, w.hp x = none ∧ w.hn x = none) (hf : ∀ x ∈ xs, w.hk x = 0 ∨ w.hk x = h (keyBytes (s.key x))) :
    R h (only w fun x => inSeq s.seq x || inSeq xs x) { s with loose := xs } := by
  have cases2 : ∀ {x : Nat}, (inSeq s.seq x || inSeq xs x) = true → inSeq s.seq x = true ∨ x ∈ xs := by
    intro x hx
    simpa [inSeq] using hx
  refine ⟨⟨r.chain.seg, r.chain.first, r.chain.last, fun x hx => ?_, r.chain.nodup⟩, r.num, r.pos, r.bkt, fun {x} hx => ?_, r.hkSeq,
    fun {x} hx => hf x hx, r.uniq, fun {x} hx => ?_, hnd, fun {x} h1 h2 => hd x h2 h1, fun {x} hx => ?_, r.fresh, fun {x} hx => ?_, fun {x} hx => ?_⟩
  · simp [only, inSeq, show x ∈ s.seq from hx]
  · rcases cases2 hx with c | c
    · exact r.keyOk (x := x) c
    · exact hk x c
  · exact ⟨by simp [only, inSeq, show x ∈ xs from hx], (hpv x hx).1, (hpv x hx).2, (hh x hx).1, (hh x hx).2⟩
  · rcases cases2 hx with c | c
    · exact Or.inl (by simpa [inSeq] using c)
    · exact Or.inr c
  · rcases cases2 hx with c | c
    · exact r.bound (x := x) c
    · exact hb x c
  · rcases cases2 hx with c | c
    · exact r.val (x := x) c
    · exact hv x c

/-- Leaving the loose nodes out of view. -/
theorem R.drop {h : List UInt8 → Nat} {w : W α} {s : Spec.S α} (r : R h w s) : R h (only w (inSeq s.seq)) { s with loose := [] } := by
  have li : ∀ {x : Nat}, inSeq s.seq x = true → w.lh.live x = true := fun hx => r.chain.live _ (by simpa [inSeq] using hx)
  refine ⟨⟨r.chain.seg, r.chain.first, r.chain.last, fun x hx => by simpa [only, inSeq] using hx, r.chain.nodup⟩, r.num, r.pos, r.bkt,
    fun {x} hx => r.keyOk (li hx), r.hkSeq, fun {x} hx => (by cases hx), r.uniq, fun {x} hx => (by cases hx), List.nodup_nil,
    fun {x} h1 h2 => (by cases h2), fun {x} hx => Or.inl (by simpa [only, inSeq] using hx), r.fresh, fun {x} hx => r.bound (li hx),
    fun {x} hx => r.val (li hx)⟩

/-- Only the nodes of the hash and its members count. -/
theorem R.frozen {h : List UInt8 → Nat} {w w' : W α} {s s' : Spec.S α} (r : R h (only w (inSeq s.seq)) { s with loose := [] })
    (hs : s'.seq = s.seq) (hl : s'.loose = []) (hn : ∀ x ∈ s.seq, SameNode w w' x ∧ s'.key x = s.key x ∧ s'.val x = s.val x)
    (ht : w'.tbl = w.tbl) (he : w'.ends = w.ends) (hnum : w'.num = w.num) (hf : w'.fresh = s'.fresh) (hfr : w.fresh ≤ w'.fresh) :
    R h (only w' (inSeq s.seq)) s' := by
  obtain ⟨seq', loose', key', val', stale', fresh'⟩ := s'
  cases hs
  cases hl
  have mem : ∀ {x : Nat}, inSeq s.seq x = true → x ∈ s.seq := fun hx => by simpa [inSeq] using hx
  refine ⟨⟨seg_congr (fun x hx => ⟨(hn x hx).1.pv, (hn x hx).1.nx⟩) r.chain.seg, ?_, ?_, fun x hx => by simpa [only, inSeq] using hx, r.chain.nodup⟩,
    hnum.trans r.num, ?_, ?_, fun {x} hx => ?_, fun {x} hx => ?_, fun {x} hx => (by cases hx), fun {x y} hx hy e => ?_, fun {x} hx => (by cases hx),
    List.nodup_nil, fun {x} h1 h2 => (by cases h2), fun {x} hx => Or.inl (by simpa [only, inSeq] using hx), hf, fun {x} hx => ?_, fun {x} hx => ?_⟩
  · exact (congrArg Ends.first he).trans r.chain.first
  · exact (congrArg Ends.last he).trans r.chain.last
  · show 0 < w'.tbl.length
    rw [ht]
    exact r.pos
  · show Buckets w'.hp w'.hn w'.hk w'.tbl s.seq
    rw [ht]
    exact r.bkt.congr (fun _ => Iff.rfl) (fun x hx => ⟨(hn x hx).1.hp, (hn x hx).1.hn, (hn x hx).1.hk⟩)
  · have c := hn x (mem hx)
    show KeyRep (w'.ik x) (w'.sk x) (key' x)
    rw [c.1.ik, c.1.sk, show key' x = s.key x from c.2.1]
    exact r.keyOk (x := x) hx
  · have c := hn x hx
    show w'.hk x = h (keyBytes (key' x))
    rw [c.1.hk, show key' x = s.key x from c.2.1]
    exact r.hkSeq hx
  · have e : key' x = key' y := e
    rw [show key' x = s.key x from (hn x hx).2.1, show key' y = s.key y from (hn y hy).2.1] at e
    exact r.uniq hx hy e
  · exact Nat.lt_of_lt_of_le (r.bound (x := x) hx) hfr
  · have c := hn x (mem hx)
    show w'.val x = val' x
    rw [c.1.val, show val' x = s.val x from c.2.2]
    exact r.val (x := x) hx

/-- A call of the specification leaves other nodes alone. -/
theorem spec_frame {s s' : Spec.S α} {op : Op α} {r : Ret} (h : Spec.step s op = some (r, s')) {y : Nat} (h1 : y ∉ s.seq) (h2 : y ∉ s.loose)
    (h3 : y ≠ s.fresh) : s'.key y = s.key y ∧ s'.val y = s.val y ∧ s'.stale y = s.stale y := by
  cases op with
  | create k v =>
    cases h
    exact ⟨upd_other _ _ h3, upd_other _ _ h3, upd_other _ _ h3⟩
  | delete x =>
    unfold Spec.step at h
    dsimp only at h
    split at h
    · obtain rfl := some_snd h; exact ⟨rfl, rfl, rfl⟩
    · cases h
  | setKey x k =>
    unfold Spec.step at h
    dsimp only at h
    split at h
    · rename_i c
      obtain rfl := some_snd h
      exact ⟨upd_other _ _ (fun e => h2 (e ▸ c)), rfl, rfl⟩
    · cases h
  | setValue x v =>
    unfold Spec.step at h
    dsimp only at h
    split at h
    · rename_i c
      obtain rfl := some_snd h
      refine ⟨rfl, upd_other _ _ (fun e => ?_), rfl⟩
      rcases c with c | c
      · exact h2 (e ▸ c)
      · exact h1 (e ▸ c)
    · cases h
  | insert a n k v =>
    unfold Spec.step at h
    dsimp only at h
    split at h
    · obtain ⟨ys, -, h⟩ := obind_some h
      obtain rfl := some_snd h
      exact ⟨upd_other _ _ h3, upd_other _ _ h3, upd_other _ _ h3⟩
    · obtain rfl := some_snd h
      exact ⟨upd_other _ _ h3, upd_other _ _ h3, upd_other _ _ h3⟩
  | insertNode a n x =>
    unfold Spec.step at h
    dsimp only at h
    split at h
    · rename_i c
      split at h
      · split at h
        · cases h
        · obtain ⟨ys, -, h⟩ := obind_some h
          obtain rfl := some_snd h
          exact ⟨rfl, rfl, upd_other _ _ (fun e => h2 (e ▸ c))⟩
      · obtain rfl := some_snd h; exact ⟨rfl, rfl, rfl⟩
    · split at h
      · obtain rfl := some_snd h; exact ⟨rfl, rfl, rfl⟩
      · cases h
  | pop reset =>
    unfold Spec.step at h
    dsimp only at h
    split at h
    · obtain rfl := some_snd h; exact ⟨rfl, rfl, rfl⟩
    · obtain rfl := some_snd h; exact ⟨rfl, rfl, rfl⟩
  | shift reset =>
    unfold Spec.step at h
    dsimp only at h
    split at h
    · obtain rfl := some_snd h; exact ⟨rfl, rfl, rfl⟩
    · obtain rfl := some_snd h; exact ⟨rfl, rfl, rfl⟩
  | detach x reset =>
    cases x with
    | none => obtain rfl := some_snd h; exact ⟨rfl, rfl, rfl⟩
    | some x =>
      unfold Spec.step at h
      dsimp only at h
      split at h
      · obtain rfl := some_snd h; exact ⟨rfl, rfl, rfl⟩
      · cases h
  | remove x =>
    cases x with
    | none => obtain rfl := some_snd h; exact ⟨rfl, rfl, rfl⟩
    | some x =>
      unfold Spec.step at h
      dsimp only at h
      split at h
      · obtain rfl := some_snd h; exact ⟨rfl, rfl, rfl⟩
      · cases h
  | empty => obtain rfl := some_snd h; exact ⟨rfl, rfl, rfl⟩
  | release reset => obtain rfl := some_snd h; exact ⟨rfl, rfl, by simp [h1]⟩
  | find k => obtain rfl := some_snd h; exact ⟨rfl, rfl, rfl⟩
  | findNode x =>
    unfold Spec.step at h
    dsimp only at h
    split at h
    · obtain rfl := some_snd h; exact ⟨rfl, rfl, rfl⟩
    · cases h
  | resize n => obtain rfl := some_snd h; exact ⟨rfl, rfl, rfl⟩
  | size => obtain rfl := some_snd h; exact ⟨rfl, rfl, rfl⟩

/-- `Detach(Node, true)` leaves no hash value. -/
theorem detach_reset {w w' : W α} {x : Nat} {b : Bool} (e : detach w (some x) true = .ok (b, w')) : w'.hk x = 0 := by
  obtain ⟨⟨lh, en⟩, -, e⟩ := bind_ok e
  obtain ⟨w1, -, e⟩ := bind_ok e
  obtain rfl := ok_snd e
  simp

/-- The calls that reset hash values do so for the nodes they take out. -/
theorem resets_hk {h : List UInt8 → Nat} {w w' : W α} {s s' : Spec.S α} {op : Op α} {r : Ret} (hr : R h w s) (hl : s.loose = []) (ho : resets op = true)
    (hs : Spec.step s op = some (r, s')) (hm : step h w op = .ok (r, w')) {x : Nat} (hx : x ∈ s'.loose) : w'.hk x = 0 := by
  cases op with
  | pop reset =>
    cases (show reset = true from ho)
    obtain ⟨⟨b, w1⟩, e1, e⟩ := bind_ok hm
    have e : Except.ok (Ret.node w.ends.last, w1) = Except.ok (r, w') := e
    obtain rfl := ok_snd e
    unfold Spec.step at hs
    dsimp only at hs
    split at hs
    · obtain rfl := some_snd hs
      rw [hl] at hx
      cases hx
    · rename_i y hy
      obtain rfl := some_snd hs
      have hx : x ∈ y :: s.loose := hx
      rw [hl, List.mem_singleton] at hx
      subst hx
      rw [hr.chain.last, hy] at e1
      exact detach_reset e1
  | shift reset =>
    cases (show reset = true from ho)
    obtain ⟨⟨b, w1⟩, e1, e⟩ := bind_ok hm
    have e : Except.ok (Ret.node w.ends.first, w1) = Except.ok (r, w') := e
    obtain rfl := ok_snd e
    unfold Spec.step at hs
    dsimp only at hs
    split at hs
    · obtain rfl := some_snd hs
      rw [hl] at hx
      cases hx
    · rename_i y ys hy
      obtain rfl := some_snd hs
      have hx : x ∈ y :: s.loose := hx
      rw [hl, List.mem_singleton] at hx
      subst hx
      rw [hr.chain.first, hy] at e1
      exact detach_reset e1
  | detach o reset =>
    cases (show reset = true from ho)
    obtain ⟨⟨b, w1⟩, e1, e⟩ := bind_ok hm
    have e : Except.ok (Ret.bool b, w1) = Except.ok (r, w') := e
    obtain rfl := ok_snd e
    cases o with
    | none =>
      obtain rfl := some_snd hs
      rw [hl] at hx
      cases hx
    | some y =>
      unfold Spec.step at hs
      dsimp only at hs
      split at hs
      · obtain rfl := some_snd hs
        have hx : x ∈ y :: s.loose := hx
        rw [hl, List.mem_singleton] at hx
        subst hx
        exact detach_reset e1
      · cases hs
  | release reset =>
    cases (show reset = true from ho)
    obtain ⟨w1, e1, e⟩ := bind_ok hm
    have e : Except.ok (Ret.void, w1) = Except.ok (r, w') := e
    obtain rfl := ok_snd e
    obtain rfl := some_snd hs
    have hx : x ∈ s.seq ++ s.loose := hx
    rw [hl, List.append_nil] at hx
    obtain ⟨hp, hn, hk, g1, g2⟩ := releaseLoop_ok true s.seq (w.fresh + 1) w none hr.chain.seg hr.chain.live hr.chain.nodup
      (by have := hr.core.length_le; omega)
    unfold release at e1
    rw [hr.chain.first, g1, ok_bind] at e1
    cases e1
    exact ((g2 x).1 hx).2.2
  | _ => cases ho

theorem named_nil {t : T α} {op : Op α} (h : resets op = true) : named t op = [] := by
  cases op <;> first | rfl | cases h

theorem mem_named {t : T α} {op : Op α} {x : Nat} (h : x ∈ named t op) : t.loose x = true := by
  cases op with
  | insertNode a n y =>
    unfold named at h
    dsimp only at h
    split at h
    · rename_i c; rw [List.mem_singleton] at h; subst h; exact c
    · cases h
  | findNode y =>
    unfold named at h
    dsimp only at h
    split at h
    · rename_i c; rw [List.mem_singleton] at h; subst h; exact c
    · cases h
  | _ => cases h

theorem named_nodup (t : T α) (op : Op α) : (named t op).Nodup := by
  cases op <;> unfold named <;> dsimp only <;> (try split) <;> simp

/-- A change of one node that is in no hash. -/
theorem G.touch {hf : Nat → List UInt8 → Nat} {seed : Nat → Nat} {m : MW α} {t : T α} (g : G hf seed m t) {x : Nat} (hx : ∀ i, x ∉ t.seq i)
    {w : W α} {t' : T α} (hseq : t'.seq = t.seq) (hfr : m.mem.fresh ≤ w.fresh) (hft : w.fresh = t'.fresh)
    (hn : ∀ y, y ≠ x → SameNode m.mem w y ∧ w.lh.live y = m.mem.lh.live y ∧ t'.key y = t.key y ∧ t'.val y = t.val y ∧ t'.stale y = t.stale y
      ∧ t'.tag y = t.tag y ∧ t'.loose y = t.loose y) (hlv : w.lh.live x = t'.loose x) (ho : t'.loose x = true → LO hf seed w t' x) :
    G hf seed { m with mem := w } t' := by
  have ne : ∀ {y i : Nat}, y ∈ t.seq i → y ≠ x := fun hy e => hx _ (e ▸ hy)
  refine ⟨fun i => ?_, fun y hy => ?_, fun y => ?_, ?_, ?_⟩
  · have := (g.each i).frozen (w := m.view i) (s := alone t i []) (w' := MW.view { m with mem := w } i) (s' := alone t' i [])
      (by simp [alone, hseq]) rfl (fun y hy => ?_) rfl rfl rfl hft hfr
    · have e : t'.seq i = t.seq i := by rw [hseq]
      rw [e]
      exact this
    · obtain ⟨n1, -, n2, n3, -⟩ := hn y (ne hy)
      exact ⟨⟨n1.pv, n1.nx, n1.hp, n1.hn, n1.hk, n1.ik, n1.sk, n1.val⟩, n2, n3⟩
  · by_cases e : y = x
    · subst e; exact ho hy
    · obtain ⟨n1, n2, n3, n4, n5, n6, n7⟩ := hn y e
      rw [n7] at hy
      have l := g.look y hy
      refine ⟨Nat.lt_of_lt_of_le l.bound hfr, ?_, ?_, fun h => ?_, fun h => ?_, n1.hp.trans l.hp, n1.hn.trans l.hn, fun h => ?_, fun j h => ?_⟩
      · rw [n1.ik, n1.sk, n3]; exact l.key
      · rw [n1.val, n4]; exact l.val
      · rw [n1.pv]; exact l.pv (n5 ▸ h)
      · rw [n1.nx]; exact l.nx (n5 ▸ h)
      · rw [n1.hk]; exact l.none (n6 ▸ h)
      · rw [n1.hk, n3]; exact l.some j (n6 ▸ h)
  · show w.lh.live y = true ↔ _
    rw [hseq]
    by_cases e : y = x
    · subst e
      rw [hlv]
      exact ⟨Or.inl, fun h => h.resolve_right (fun ⟨i, h⟩ => hx i h)⟩
    · obtain ⟨n1, n2, n3, n4, n5, n6, n7⟩ := hn y e
      rw [n2, n7]
      exact g.live y
  · rw [hseq]; exact g.disj
  · rw [hseq]
    intro y i hy
    rw [(hn y (ne hy)).2.2.2.2.2.2]
    exact g.sep y i hy

theorem fits_hk {hf : Nat → List UInt8 → Nat} {seed : Nat → Nat} {w : W α} {t : T α} {x i : Nat} (l : LO hf seed w t x) (h : fits seed t i x = true) :
    w.hk x = 0 ∨ w.hk x = hf (seed i) (keyBytes (t.key x)) := by
  unfold fits at h
  split at h
  · rename_i e; exact Or.inl (l.none e)
  · rename_i j e
    rw [← of_decide_eq_true h]
    exact l.some j e

/-- A call on a hash. -/
theorem G.call {hf : Nat → List UInt8 → Nat} {seed : Nat → Nat} {m : MW α} {t : T α} (g : G hf seed m t) {i : Nat} {op : Op α} {r : Ret} {s1 : Spec.S α}
    (hfit : (named t op).all (fits seed t i) = true) (hs : Spec.step (alone t i (named t op)) op = some (r, s1)) :
    ∃ w, step (hf (seed i)) (m.view i) op = .ok (r, w) ∧ G hf seed (m.put i w) (back t i op s1) := by
  have hfit' : ∀ x ∈ named t op, fits seed t i x = true := List.all_eq_true.1 hfit
  have R0 : R (hf (seed i)) (only (m.view i) fun x => inSeq (t.seq i) x || inSeq (named t op) x) (alone t i (named t op)) :=
    R.adopt (s := alone t i (named t op)) (g.each i) (named_nodup t op)
      (fun x hx hx' => by have := g.sep x i hx'; rw [mem_named hx] at this; cases this)
      (fun x hx => (g.look x (mem_named hx)).bound) (fun x hx => (g.look x (mem_named hx)).key) (fun x hx => (g.look x (mem_named hx)).val)
      (fun x hx => ⟨(g.look x (mem_named hx)).pv, (g.look x (mem_named hx)).nx⟩) (fun x hx => ⟨(g.look x (mem_named hx)).hp, (g.look x (mem_named hx)).hn⟩)
      (fun x hx => fits_hk (w := m.mem) (g.look x (mem_named hx)) (hfit' x hx))
  obtain ⟨w1, e1, R1⟩ := step_refines R0 hs
  obtain ⟨fr, ex⟩ := step_loc e1
  let l0 : Nat → Bool := fun x => inSeq (t.seq i) x || inSeq (named t op) x
  let L : Nat → Bool := fun x => m.mem.lh.live x && !l0 x
  have l0_live : ∀ x, l0 x = true → m.mem.lh.live x = true := by
    intro x hx
    have : x ∈ t.seq i ∨ x ∈ named t op := by simpa [l0, inSeq] using hx
    rcases this with h | h
    · exact (g.live x).2 (Or.inr ⟨i, h⟩)
    · exact (g.live x).2 (Or.inl (mem_named h))
  have hD : D L (only (m.view i) l0) := by
    intro x hx
    have hx : m.mem.lh.live x = true ∧ l0 x = false := by simpa [L] using hx
    exact ⟨hx.2, g.bound hx.1⟩
  have hext : ext L (only (m.view i) l0) = m.view i := by
    have : (fun x => l0 x || L x) = m.mem.lh.live := by
      funext x
      cases h : l0 x with
      | true => simp [l0_live x h]
      | false => simp [L, h]
    unfold ext lext only
    simp only [this]
    rfl
  have e2 := ex L hD
  rw [hext] at e2
  -- nodes that the call does not see
  have out : ∀ {x : Nat}, m.mem.lh.live x = true → l0 x = false → w1.lh.live x = false ∧ SameNode m.mem w1 x ∧ s1.key x = t.key x ∧ s1.val x = t.val x
      ∧ s1.stale x = t.stale x := by
    intro x hx hl
    obtain ⟨a, b⟩ := fr.fr x hl (g.bound hx)
    have hn : x ∉ t.seq i ∧ x ∉ named t op := by simpa [l0, inSeq] using hl
    have c := spec_frame hs (y := x) hn.1 hn.2 (by
      have := g.bound hx
      rw [g.fresh] at this
      exact Nat.ne_of_lt this)
    exact ⟨a, ⟨b.pv, b.nx, b.hp, b.hn, b.hk, b.ik, b.sk, b.val⟩, c⟩
  have seq_out : ∀ {x j : Nat}, j ≠ i → x ∈ t.seq j → m.mem.lh.live x = true ∧ l0 x = false := by
    intro x j hj hx
    refine ⟨(g.live x).2 (Or.inr ⟨j, hx⟩), ?_⟩
    have n1 : x ∉ t.seq i := fun h => hj (g.disj x j i hx h)
    have n2 : x ∉ named t op := fun h => by have := g.sep x j hx; rw [mem_named h] at this; cases this
    simp [l0, inSeq, n1, n2]
  have loose_out : ∀ {x : Nat}, t.loose x = true → x ∉ named t op → m.mem.lh.live x = true ∧ l0 x = false := by
    intro x hx hn
    refine ⟨(g.live x).2 (Or.inl hx), ?_⟩
    have n1 : x ∉ t.seq i := fun h => by have := g.sep x i h; rw [hx] at this; cases this
    simp [l0, inSeq, n1, hn]
  have live1 : ∀ {x : Nat}, x ∈ s1.seq ∨ x ∈ s1.loose → w1.lh.live x = true := by
    rintro x (h | h)
    · exact R1.chain.live x h
    · exact (R1.looseOk h).1
  have backLoose : ∀ x, (back t i op s1).loose x = true ↔ x ∈ s1.loose ∨ (t.loose x = true ∧ x ∉ named t op) := by
    intro x
    simp [back]
  refine ⟨ext L w1, e2, fun j => ?_, fun x hx => ?_, fun x => ?_, fun x j k hj hk => ?_, fun x j hj => ?_⟩
  · by_cases c : j = i
    · subst c
      have := R1.drop
      have e3 : (back t j op s1).seq j = s1.seq := by simp [back]
      rw [e3]
      have e4 : alone (back t j op s1) j [] = { s1 with loose := [] } := by simp [alone, back]
      rw [e4]
      have e5 : only ((m.put j (ext L w1)).view j) (inSeq s1.seq) = only w1 (inSeq s1.seq) := by
        simp [only, MW.put, MW.view, ext, lext]
      rw [e5]
      exact this
    · have := (g.each j).frozen (w := m.view j) (s := alone t j []) (w' := (m.put i (ext L w1)).view j) (s' := alone (back t i op s1) j [])
        (by simp [alone, back, upd_other _ _ c]) rfl (fun x hx => ?_) (by simp [MW.put, MW.view, upd_other _ _ c])
        (by simp [MW.put, MW.view, upd_other _ _ c]) (by simp [MW.put, MW.view, upd_other _ _ c]) R1.fresh fr.fresh
      · have e : (back t i op s1).seq j = t.seq j := by simp [back, upd_other _ _ c]
        rw [e]
        exact this
      · obtain ⟨h1, h2⟩ := seq_out c hx
        obtain ⟨-, b, c1, c2, -⟩ := out h1 h2
        exact ⟨⟨b.pv, b.nx, b.hp, b.hn, b.hk, b.ik, b.sk, b.val⟩, c1, c2⟩
  · show LO hf seed (ext L w1) (back t i op s1) x
    by_cases c : x ∈ s1.loose
    · obtain ⟨a1, a2, a3, a4, a5⟩ := R1.looseOk c
      have tg : (back t i op s1).tag x = newTag i (t.tag x) op := by simp [back, c]
      refine ⟨R1.bound a1, R1.keyOk a1, R1.val a1, a2, a3, a4, a5, fun h => ?_, fun j h => ?_⟩
      · rw [tg] at h
        cases ho : resets op with
        | true =>
          exact resets_hk R0 (named_nil ho) ho hs e1 c
        | false =>
          cases op with
          | findNode y =>
            obtain ⟨f, e6, e7⟩ := bind_ok e1
            obtain rfl := ok_snd e7
            have : s1 = alone t i (named t (.findNode y)) := by
              unfold Spec.step at hs
              dsimp only at hs
              split at hs
              · exact (some_snd hs).symm
              · cases hs
            subst this
            exact (g.look x (mem_named (op := .findNode y) c)).none h
          | _ => first | (unfold newTag at h; dsimp only at h; rw [ho] at h; cases h) | cases ho
      · rw [tg] at h
        cases ho : resets op with
        | true =>
          cases op <;> first | (unfold newTag at h; dsimp only at h; rw [ho] at h; cases h) | cases ho
        | false =>
          cases op with
          | findNode y =>
            obtain ⟨f, e6, e7⟩ := bind_ok e1
            obtain rfl := ok_snd e7
            have : s1 = alone t i (named t (.findNode y)) := by
              unfold Spec.step at hs
              dsimp only at hs
              split at hs
              · exact (some_snd hs).symm
              · cases hs
            subst this
            exact (g.look x (mem_named (op := .findNode y) c)).some j h
          | _ => (unfold newTag at h; dsimp only at h; rw [ho] at h; cases h; exact R1.hkLoose c)
    · obtain ⟨c1, c2⟩ := ((backLoose x).1 hx).resolve_left c
      obtain ⟨h1, h2⟩ := loose_out c1 c2
      obtain ⟨-, b, d1, d2, d3⟩ := out h1 h2
      have l := g.look x c1
      have tg : (back t i op s1).tag x = t.tag x := by simp [back, c]
      refine ⟨Nat.lt_of_lt_of_le l.bound fr.fresh, ?_, ?_, fun h => ?_, fun h => ?_, b.hp.trans l.hp, b.hn.trans l.hn, fun h => ?_, fun j h => ?_⟩
      · show KeyRep (w1.ik x) (w1.sk x) (s1.key x)
        rw [b.ik, b.sk, d1]; exact l.key
      · show w1.val x = s1.val x
        rw [b.val, d2]; exact l.val
      · exact b.pv.trans (l.pv (d3 ▸ h))
      · exact b.nx.trans (l.nx (d3 ▸ h))
      · exact b.hk.trans (l.none (tg ▸ h))
      · show w1.hk x = 0 ∨ w1.hk x = hf (seed j) (keyBytes (s1.key x))
        rw [b.hk, d1]; exact l.some j (tg ▸ h)
  · show (w1.lh.live x || L x) = true ↔ _
    constructor
    · intro h
      rcases (by simpa using h : w1.lh.live x = true ∨ L x = true) with h | h
      · rcases R1.own h with h | h
        · exact Or.inr ⟨i, by simpa [back] using h⟩
        · exact Or.inl ((backLoose x).2 (Or.inl h))
      · have hx : m.mem.lh.live x = true ∧ l0 x = false := by simpa [L] using h
        have hn : x ∉ t.seq i ∧ x ∉ named t op := by simpa [l0, inSeq] using hx.2
        rcases (g.live x).1 hx.1 with h | ⟨j, h⟩
        · exact Or.inl ((backLoose x).2 (Or.inr ⟨h, hn.2⟩))
        · have hj : j ≠ i := fun e => hn.1 (e ▸ h)
          exact Or.inr ⟨j, by simpa [back, upd_other _ _ hj] using h⟩
    · rintro (h | ⟨j, h⟩)
      · rcases (backLoose x).1 h with h | ⟨h1, h2⟩
        · simp [live1 (Or.inr h)]
        · obtain ⟨a, b⟩ := loose_out h1 h2
          simp [L, a, b]
      · by_cases c : j = i
        · subst c
          have h : x ∈ s1.seq := by simpa [back] using h
          simp [live1 (Or.inl h)]
        · have h : x ∈ t.seq j := by simpa [back, upd_other _ _ c] using h
          obtain ⟨a, b⟩ := seq_out c h
          simp [L, a, b]
  · have no : ∀ {j : Nat}, j ≠ i → x ∈ (back t i op s1).seq j → x ∈ s1.seq → False := by
      intro j c h h'
      have h : x ∈ t.seq j := by simpa [back, upd_other _ _ c] using h
      obtain ⟨a, b⟩ := seq_out c h
      have := (out a b).1
      rw [live1 (Or.inl h')] at this
      cases this
    by_cases c : j = i
    · by_cases c' : k = i
      · rw [c, c']
      · subst c
        exact (no c' hk (by simpa [back] using hj)).elim
    · by_cases c' : k = i
      · subst c'
        exact (no c hj (by simpa [back] using hk)).elim
      · exact g.disj x j k (by simpa [back, upd_other _ _ c] using hj) (by simpa [back, upd_other _ _ c'] using hk)
  · cases h : (back t i op s1).loose x with
    | false => rfl
    | true =>
      exfalso
      by_cases c : j = i
      · subst c
        have hj : x ∈ s1.seq := by simpa [back] using hj
        rcases (backLoose x).1 h with h | ⟨h1, h2⟩
        · exact R1.looseDisj hj h
        · obtain ⟨a, b⟩ := loose_out h1 h2
          have := (out a b).1
          rw [live1 (Or.inl hj)] at this
          cases this
      · have hj : x ∈ t.seq j := by simpa [back, upd_other _ _ c] using hj
        obtain ⟨a, b⟩ := seq_out c hj
        rcases (backLoose x).1 h with h | ⟨h1, h2⟩
        · have := (out a b).1
          rw [live1 (Or.inr h)] at this
          cases this
        · have := g.sep x j hj
          rw [h1] at this
          cases this

theorem mstep_refines {hf : Nat → List UInt8 → Nat} {seed : Nat → Nat} {m : MW α} {t t' : T α} {op : MOp α} {r : Ret} (g : G hf seed m t)
    (hs : MSpec.step seed t op = some (r, t')) : ∃ m', mstep hf seed m op = .ok (r, m') ∧ G hf seed m' t' := by
  have nseq : ∀ {x : Nat}, t.loose x = true → ∀ i, x ∉ t.seq i := fun hx i h => by have := g.sep _ i h; rw [hx] at this; cases this
  cases op with
  | create k v =>
    cases hs
    have hfr := g.fresh
    refine ⟨_, by show Except.ok _ = _; rw [show (createNode m.mem k v).1 = t.fresh from hfr], ?_⟩
    have hx : ∀ i, t.fresh ∉ t.seq i := fun i h => by
      have := g.bound ((g.live _).2 (Or.inr ⟨i, h⟩))
      omega
    refine g.touch hx rfl (Nat.le_succ _) (congrArg (· + 1) hfr) (fun y hy => ?_) ?_ (fun _ => ?_)
    · have hy' : y ≠ m.mem.fresh := by rw [hfr]; exact hy
      exact ⟨⟨upd_other _ _ hy', upd_other _ _ hy', upd_other _ _ hy', upd_other _ _ hy', upd_other _ _ hy', upd_other _ _ hy', upd_other _ _ hy',
        upd_other _ _ hy'⟩, upd_other _ _ hy', upd_other _ _ hy, upd_other _ _ hy, upd_other _ _ hy, upd_other _ _ hy, upd_other _ _ hy⟩
    · simp [createNode, hfr]
    · refine ⟨by simp [createNode, hfr], ?_, by simp [createNode, hfr], by simp [createNode, hfr], by simp [createNode, hfr], by simp [createNode, hfr],
        by simp [createNode, hfr], by simp [createNode, hfr], by simp⟩
      cases k with
      | int i => simp [createNode, hfr, KeyRep]
      | str bs => simp [createNode, hfr, KeyRep]
  | delete x =>
    unfold MSpec.step at hs
    dsimp only at hs
    split at hs
    · rename_i hx
      cases hs
      have hl : m.mem.lh.live x = true := (g.live x).2 (Or.inl hx)
      refine ⟨_, by simp only [mstep, deleteNode, if_pos hl, ok_bind]; rfl, ?_⟩
      refine g.touch (nseq hx) rfl (Nat.le_refl _) g.fresh (fun y hy => ⟨⟨rfl, rfl, rfl, rfl, rfl, rfl, rfl, rfl⟩, upd_other _ _ hy, rfl, rfl, rfl, rfl, upd_other _ _ hy⟩) ?_
        (fun h => by simp at h)
      simp
    · cases hs
  | setKey x k =>
    unfold MSpec.step at hs
    dsimp only at hs
    split at hs
    · rename_i hx
      cases hs
      have hl : m.mem.lh.live x = true := (g.live x).2 (Or.inl hx)
      have l := g.look x hx
      have key : ∀ (ik : Int) (sk : Option (List UInt8)), KeyRep ik sk k →
          G hf seed { m with mem := { m.mem with hk := upd m.mem.hk x 0, ik := upd m.mem.ik x ik, sk := upd m.mem.sk x sk } }
            { t with key := upd t.key x k, tag := upd t.tag x none } := by
        intro ik sk hk
        refine g.touch (nseq hx) rfl (Nat.le_refl _) g.fresh (fun y hy => ⟨⟨rfl, rfl, rfl, rfl, upd_other _ _ hy, upd_other _ _ hy, upd_other _ _ hy, rfl⟩, rfl,
          upd_other _ _ hy, rfl, rfl, upd_other _ _ hy, rfl⟩) (hl.trans hx.symm) (fun _ => ?_)
        exact ⟨l.bound, by simpa using hk, l.val, l.pv, l.nx, l.hp, l.hn, by simp, by simp⟩
      cases k with
      | int i =>
        exact ⟨_, by simp only [mstep, setIntKey, if_pos hl, ok_bind], key i none ⟨rfl, rfl⟩⟩
      | str bs =>
        obtain ⟨buf, b1, b2⟩ := copyStr_ok l.key bs
        refine ⟨_, by simp only [mstep, setStrKey, if_pos hl, b1, ok_bind]; rfl, ?_⟩
        have := key (bs.length : Int) (some buf) b2
        exact this
    · cases hs
  | setValue x v =>
    unfold MSpec.step at hs
    dsimp only at hs
    split at hs
    · rename_i hx
      cases hs
      have hl : m.mem.lh.live x = true := (g.live x).2 (Or.inl hx)
      have l := g.look x hx
      refine ⟨_, by simp only [mstep, if_pos hl]; rfl, ?_⟩
      refine g.touch (nseq hx) rfl (Nat.le_refl _) g.fresh (fun y hy => ⟨⟨rfl, rfl, rfl, rfl, rfl, rfl, rfl, upd_other _ _ hy⟩, rfl, rfl, upd_other _ _ hy, rfl, rfl, rfl⟩)
        (hl.trans hx.symm) (fun _ => ?_)
      exact ⟨l.bound, l.key, by simp, l.pv, l.nx, l.hp, l.hn, l.none, l.some⟩
    · cases hs
  | on i op =>
    unfold MSpec.step at hs
    dsimp only at hs
    split at hs
    · rename_i hfit
      obtain ⟨⟨r1, s1⟩, h1, hs⟩ := obind_some hs
      cases hs
      obtain ⟨w, h2, h3⟩ := g.call hfit h1
      exact ⟨_, by simp only [mstep, h2, ok_bind], h3⟩
    · cases hs

theorem mrun_refines {hf : Nat → List UInt8 → Nat} {seed : Nat → Nat} : ∀ {ops : List (MOp α)} {m : MW α} {t t' : T α} {rs : List Ret}, G hf seed m t →
    MSpec.run seed t ops = some (rs, t') → ∃ m', mrun hf seed m ops = .ok (rs, m') ∧ G hf seed m' t'
  | [], m, t, t', rs, g, hs => by cases hs; exact ⟨m, rfl, g⟩
  | op :: ops, m, t, t', rs, g, hs => by
    obtain ⟨⟨r, t1⟩, h1, hs⟩ := obind_some hs
    obtain ⟨⟨rs1, t2⟩, h2, hs⟩ := obind_some hs
    cases hs
    obtain ⟨m1, g1, g2⟩ := mstep_refines g h1
    obtain ⟨m2, g3, g4⟩ := mrun_refines g2 h2
    exact ⟨m2, by show (mstep hf seed m op >>= _) = _; rw [g1, ok_bind]; show (mrun hf seed m1 ops >>= _) = _; rw [g3]; rfl, g4⟩

theorem G.construct (hf : Nat → List UInt8 → Nat) (seed : Nat → Nat) (dflt : α) {size : Nat → Nat} (hn : ∀ i, size i ≠ 0) :
    G hf seed (MW.construct dflt size) (T.empty dflt) := by
  refine ⟨fun i => ?_, fun x h => (by cases h), fun x => ?_, fun x i j h => (by cases h), fun x i h => by cases h⟩
  · have := (R.construct (hf (seed i)) dflt (hn i)).drop
    have e : only ((MW.construct dflt size).view i) (inSeq []) = only (OrderedHash.construct dflt (size i)) (inSeq []) := by
      simp [only, MW.construct, MW.view, OrderedHash.construct]
    show R _ (only ((MW.construct dflt size).view i) (inSeq [])) _
    rw [e]
    exact this
  · simp [MW.construct, OrderedHash.construct, T.empty]

theorem walkNext_ext2 {w : W α} {L : Nat → Bool} : ∀ (k : Nat) {o : Option Nat} {l : List (Nat × Key × α)}, walkNext k w o = .ok l → walkNext k (ext L w) o = .ok l
  | 0, o, l, e => by cases e
  | k + 1, none, l, e => e
  | k + 1, some x, l, e => by
    obtain ⟨key, e1, e⟩ := bind_ok e
    obtain ⟨n, e2, e⟩ := bind_ok e
    obtain ⟨rest, e3, e⟩ := bind_ok e
    show (getKey (ext L w) x >>= _) = _
    have e1' : getKey (ext L w) x = .ok key := by
      obtain ⟨sk, a1, a2⟩ := bind_ok e1
      obtain ⟨ik, a3, a4⟩ := bind_ok a2
      unfold getKey
      rw [getSk_ext a1, ok_bind, getIk_ext a3, ok_bind]
      exact a4
    have e2' : getNx (ext L w).lh x = .ok n := getNx_ext e2
    rw [e1', ok_bind, e2', ok_bind, walkNext_ext2 k e3]
    exact e

theorem walkPrev_ext2 {w : W α} {L : Nat → Bool} : ∀ (k : Nat) {o : Option Nat} {l : List (Nat × Key × α)}, walkPrev k w o = .ok l → walkPrev k (ext L w) o = .ok l
  | 0, o, l, e => by cases e
  | k + 1, none, l, e => e
  | k + 1, some x, l, e => by
    obtain ⟨key, e1, e⟩ := bind_ok e
    obtain ⟨n, e2, e⟩ := bind_ok e
    obtain ⟨rest, e3, e⟩ := bind_ok e
    show (getKey (ext L w) x >>= _) = _
    have e1' : getKey (ext L w) x = .ok key := by
      obtain ⟨sk, a1, a2⟩ := bind_ok e1
      obtain ⟨ik, a3, a4⟩ := bind_ok a2
      unfold getKey
      rw [getSk_ext a1, ok_bind, getIk_ext a3, ok_bind]
      exact a4
    have e2' : getPv (ext L w).lh x = .ok n := getPv_ext e2
    rw [e1', ok_bind, e2', ok_bind, walkPrev_ext2 k e3]
    exact e

/-- The view of a hash has more nodes than its own. -/
theorem G.view {hf : Nat → List UInt8 → Nat} {seed : Nat → Nat} {m : MW α} {t : T α} (g : G hf seed m t) (i : Nat) :
    ∃ L, ext L (only (m.view i) (inSeq (t.seq i))) = m.view i := by
  refine ⟨m.mem.lh.live, ?_⟩
  have : (fun x => inSeq (t.seq i) x || m.mem.lh.live x) = m.mem.lh.live := by
    funext x
    cases h : inSeq (t.seq i) x with
    | true => simp [(g.live x).2 (Or.inr ⟨i, by simpa [inSeq] using h⟩)]
    | false => simp
  unfold ext lext only
  simp only [this]
  rfl

/-- **C129.** Any number of hashes with their own hash keys and sizes, any legal history of calls on them and on nodes: all calls return
what the specification says, and afterwards every hash shows its own nodes in order, `Find` on it finds exactly its own keys, and its
size is right; nodes of a hash are in no other one. -/
theorem nodes_move_between_hashes (hf : Nat → List UInt8 → Nat) (seed : Nat → Nat) (dflt : α) (size : Nat → Nat) (hn : ∀ i, 1 ≤ size i)
    (ops : List (MOp α)) (rs : List Ret) (t : T α) (hs : MSpec.run seed (T.empty dflt) ops = some (rs, t)) :
    ∃ m, mrun hf seed (MW.construct dflt size) ops = .ok (rs, m)
      ∧ (∀ i, forward (m.view i) = .ok (entries t i) ∧ backward (m.view i) = .ok (entries t i).reverse ∧ (m.view i).num = (t.seq i).length
          ∧ ∀ k, find (hf (seed i)) (m.view i) k = .ok (MSpec.lookup t i k))
      ∧ (∀ x i j, x ∈ t.seq i → x ∈ t.seq j → i = j)
      ∧ (∀ x, m.mem.lh.live x = true ↔ t.loose x = true ∨ ∃ i, x ∈ t.seq i) := by
  obtain ⟨m, h1, g⟩ := mrun_refines (G.construct hf seed dflt (size := size) (fun i => by have := hn i; omega)) hs
  refine ⟨m, h1, fun i => ?_, g.disj, g.live⟩
  obtain ⟨L, hL⟩ := g.view i
  have r := g.each i
  refine ⟨?_, ?_, r.num, fun k => ?_⟩
  · have := walkNext_ext2 (L := L) _ (forward_ok r)
    rw [hL] at this
    exact this
  · have := walkPrev_ext2 (L := L) _ (backward_ok r)
    rw [hL] at this
    exact this
  · have := find_ext (L := L) (find_ok r k)
    rw [hL] at this
    exact this

theorem mem_nextTo {a : Bool} {x b y : Nat} : ∀ {xs : List Nat}, y ∈ Spec.nextTo a x b xs → y = x ∨ y ∈ xs
  | [], h => by cases h
  | z :: zs, h => by
    unfold Spec.nextTo at h
    split at h
    · cases a <;> simp at h ⊢ <;> tauto
    · rcases List.mem_cons.1 h with h | h
      · exact Or.inr (h ▸ List.mem_cons_self)
      · exact (mem_nextTo h).imp_right (List.mem_cons_of_mem _)

theorem mem_ins {xs ys : List Nat} {x y : Nat} {a : Bool} {n : Option Nat} (h : Spec.ins xs x a n = some ys) (hy : y ∈ ys) : y = x ∨ y ∈ xs := by
  unfold Spec.ins at h
  split at h
  · cases h
    cases a <;> simp at hy <;> tauto
  · split at h
    · cases h; exact mem_nextTo hy
    · cases h

/-- Nodes in a hash are not marked as left over from `ReleaseAll`. -/
theorem spec_stale {s s' : Spec.S α} {op : Op α} {r : Ret} (h : Spec.step s op = some (r, s')) (hs : ∀ x ∈ s.seq, s.stale x = false) {x : Nat}
    (hx : x ∈ s'.seq) : s'.stale x = false := by
  have up : ∀ {y : Nat}, (y = x ∨ x ∈ s.seq) → upd s.stale y false x = false := by
    rintro y (rfl | h)
    · simp
    · unfold upd; split
      · rfl
      · exact hs x h
  cases op with
  | create k v => cases h; exact up (Or.inr hx)
  | delete y =>
    unfold Spec.step at h; dsimp only at h
    split at h
    · obtain rfl := some_snd h; exact hs x hx
    · cases h
  | setKey y k =>
    unfold Spec.step at h; dsimp only at h
    split at h
    · obtain rfl := some_snd h; exact hs x hx
    · cases h
  | setValue y v =>
    unfold Spec.step at h; dsimp only at h
    split at h
    · obtain rfl := some_snd h; exact hs x hx
    · cases h
  | insert a n k v =>
    unfold Spec.step at h; dsimp only at h
    split at h
    · obtain ⟨ys, e, h⟩ := obind_some h
      obtain rfl := some_snd h
      exact up ((mem_ins e hx).imp_left Eq.symm)
    · obtain rfl := some_snd h
      exact up (Or.inr hx)
  | insertNode a n y =>
    unfold Spec.step at h; dsimp only at h
    split at h
    · split at h
      · split at h
        · cases h
        · obtain ⟨ys, e, h⟩ := obind_some h
          obtain rfl := some_snd h
          exact up ((mem_ins e hx).imp_left Eq.symm)
      · obtain rfl := some_snd h; exact hs x hx
    · split at h
      · obtain rfl := some_snd h; exact hs x hx
      · cases h
  | pop reset =>
    unfold Spec.step at h; dsimp only at h
    split at h
    · obtain rfl := some_snd h; exact hs x hx
    · obtain rfl := some_snd h; exact hs x (List.dropLast_subset _ hx)
  | shift reset =>
    unfold Spec.step at h; dsimp only at h
    split at h
    · obtain rfl := some_snd h; exact hs x hx
    · rename_i y ys e
      obtain rfl := some_snd h; exact hs x (e ▸ List.mem_cons_of_mem _ hx)
  | detach y reset =>
    cases y with
    | none => obtain rfl := some_snd h; exact hs x hx
    | some y =>
      unfold Spec.step at h; dsimp only at h
      split at h
      · obtain rfl := some_snd h; exact hs x (List.mem_of_mem_erase hx)
      · cases h
  | remove y =>
    cases y with
    | none => obtain rfl := some_snd h; exact hs x hx
    | some y =>
      unfold Spec.step at h; dsimp only at h
      split at h
      · obtain rfl := some_snd h; exact hs x (List.mem_of_mem_erase hx)
      · cases h
  | empty => obtain rfl := some_snd h; cases hx
  | release reset => obtain rfl := some_snd h; cases hx
  | find k => obtain rfl := some_snd h; exact hs x hx
  | findNode y =>
    unfold Spec.step at h; dsimp only at h
    split at h
    · obtain rfl := some_snd h; exact hs x hx
    · cases h
  | resize n => obtain rfl := some_snd h; exact hs x hx
  | size => obtain rfl := some_snd h; exact hs x hx

theorem mstep_stale {hf : Nat → List UInt8 → Nat} {seed : Nat → Nat} {m : MW α} {t t' : T α} {op : MOp α} {r : Ret} (g : G hf seed m t)
    (hs : MSpec.step seed t op = some (r, t')) (hst : ∀ i, ∀ x ∈ t.seq i, t.stale x = false) : ∀ i, ∀ x ∈ t'.seq i, t'.stale x = false := by
  cases op with
  | create k v =>
    cases hs
    intro i x hx
    show upd t.stale t.fresh false x = false
    unfold upd; split
    · rfl
    · exact hst i x hx
  | delete y =>
    unfold MSpec.step at hs; dsimp only at hs
    split at hs
    · cases hs; exact hst
    · cases hs
  | setKey y k =>
    unfold MSpec.step at hs; dsimp only at hs
    split at hs
    · cases hs; exact hst
    · cases hs
  | setValue y v =>
    unfold MSpec.step at hs; dsimp only at hs
    split at hs
    · cases hs; exact hst
    · cases hs
  | on j op =>
    unfold MSpec.step at hs; dsimp only at hs
    split at hs
    · obtain ⟨⟨r1, s1⟩, h1, hs⟩ := obind_some hs
      cases hs
      intro i x hx
      by_cases c : i = j
      · subst c
        exact spec_stale h1 (hst i) (by simpa [back] using hx)
      · have hx : x ∈ t.seq i := by simpa [back, upd_other _ _ c] using hx
        have := spec_frame h1 (y := x) (fun h => c (g.disj x i j hx h))
          (fun h => by have := g.sep x i hx; rw [mem_named h] at this; cases this)
          (by
            have := g.bound ((g.live x).2 (Or.inr ⟨i, hx⟩))
            rw [g.fresh] at this
            exact Nat.ne_of_lt this)
        exact this.2.2.trans (hst i x hx)
    · cases hs

theorem mrun_stale {seed : Nat → Nat} {hf : Nat → List UInt8 → Nat} : ∀ {ops : List (MOp α)} {m : MW α} {t t' : T α} {rs : List Ret}, G hf seed m t →
    MSpec.run seed t ops = some (rs, t') → (∀ i, ∀ x ∈ t.seq i, t.stale x = false) → ∀ i, ∀ x ∈ t'.seq i, t'.stale x = false
  | [], m, t, t', rs, g, hs, h => by cases hs; exact h
  | op :: ops, m, t, t', rs, g, hs, h => by
    obtain ⟨⟨r, t1⟩, h1, hs⟩ := obind_some hs
    obtain ⟨⟨rs1, t2⟩, h2, hs⟩ := obind_some hs
    cases hs
    obtain ⟨m1, -, g2⟩ := mstep_refines g h1
    exact mrun_stale g2 h2 (mstep_stale g h1 h)

/-- **C129**, moving: after any legal history, a node of one hash that is taken out with `ResetHashKey` can be put at the end of any other
hash that does not have its key.  Both calls succeed, the node leaves the one and is last in the other, is found there and not found
in the first one, and no other hash changes. -/
theorem node_moves (hf : Nat → List UInt8 → Nat) (seed : Nat → Nat) (dflt : α) (size : Nat → Nat) (hn : ∀ i, 1 ≤ size i) (ops : List (MOp α))
    (rs : List Ret) (t : T α) (hs : MSpec.run seed (T.empty dflt) ops = some (rs, t)) (i j x : Nat) (hij : i ≠ j) (hx : x ∈ t.seq i)
    (hk : MSpec.lookup t j (t.key x) = none) :
    ∃ m m' t', mrun hf seed (MW.construct dflt size) ops = .ok (rs, m)
      ∧ mrun hf seed m [.on i (.detach (some x) true), .on j (.insertNode false none x)] = .ok ([.bool true, .node (some x)], m')
      ∧ MSpec.run seed t [.on i (.detach (some x) true), .on j (.insertNode false none x)] = some ([.bool true, .node (some x)], t')
      ∧ t'.seq i = (t.seq i).erase x ∧ t'.seq j = t.seq j ++ [x] ∧ (∀ k, k ≠ i → k ≠ j → t'.seq k = t.seq k) ∧ t'.key = t.key ∧ t'.val = t.val
      ∧ find (hf (seed j)) (m'.view j) (t.key x) = .ok (some x) ∧ find (hf (seed i)) (m'.view i) (t.key x) = .ok none
      ∧ ∀ k, forward (m'.view k) = .ok (entries t' k) := by
  have g0 := G.construct hf seed dflt (size := size) (fun i => by have := hn i; omega)
  obtain ⟨m, h1, g⟩ := mrun_refines g0 hs
  have hst := mrun_stale g0 hs (fun i x h => by cases h) i x hx
  have hloose : t.loose x = false := g.sep x i hx
  let t1 : T α := back t i (.detach (some x) true) { alone t i [] with seq := (t.seq i).erase x, loose := [x] }
  have e1 : MSpec.step seed t (.on i (.detach (some x) true)) = some (.bool true, t1) := by
    simp [MSpec.step, named, Spec.step, alone, hx, t1]
  have l1 : t1.loose x = true := by simp [t1, back]
  have n1 : named t1 (.insertNode false none x : Op α) = [x] := by simp [named, l1]
  have s1 : t1.seq j = t.seq j := by simp [t1, back, upd_other _ _ (Ne.symm hij)]
  have k1 : Spec.lookup (alone t1 j [x]) ((alone t1 j [x]).key x) = none := by
    show List.find? (fun y => decide (t.key y = t.key x)) (t1.seq j) = none
    rw [s1]
    exact hk
  let t2 : T α := back t1 j (.insertNode false none x) { alone t1 j [x] with seq := t1.seq j ++ [x], loose := [], stale := upd t1.stale x false }
  have e2 : MSpec.step seed t1 (.on j (.insertNode false none x)) = some (.node (some x), t2) := by
    have f : fits seed t1 j x = true := by simp [fits, t1, back, newTag, resets]
    have st : (alone t1 j [x]).stale x = false := hst
    simp only [MSpec.step, n1, List.all_cons, f, List.all_nil, Bool.and_true, if_true]
    have : Spec.step (alone t1 j [x]) (.insertNode false none x) = some (.node (some x),
        { alone t1 j [x] with seq := t1.seq j ++ [x], loose := [], stale := upd t1.stale x false }) := by
      unfold Spec.step
      dsimp only
      rw [if_pos (by simp [alone]), if_pos k1, if_neg (by rw [st]; simp)]
      simp [Spec.ins, alone]
    rw [this]
    rfl
  have e3 : MSpec.run seed t [.on i (.detach (some x) true), .on j (.insertNode false none x)] = some ([.bool true, .node (some x)], t2) := by
    simp only [MSpec.run, e1, e2, Option.bind_eq_bind, Option.bind_some]
  obtain ⟨m', h2, g'⟩ := mrun_refines g e3
  have si : t2.seq i = (t.seq i).erase x := by simp [t2, t1, back, upd_other _ _ hij]
  have sj : t2.seq j = t.seq j ++ [x] := by simp [t2, back, s1]
  have key : t2.key = t.key := rfl
  have fnd : ∀ k key, find (hf (seed k)) (m'.view k) key = .ok (MSpec.lookup t2 k key) := by
    intro k key
    obtain ⟨L, hL⟩ := g'.view k
    have := find_ext (L := L) (find_ok (g'.each k) key)
    rw [hL] at this
    exact this
  refine ⟨m, m', t2, h1, h2, e3, si, sj, fun k hi hj => by simp [t2, t1, back, upd_other _ _ hj, upd_other _ _ hi], key, rfl, ?_, ?_, fun k => ?_⟩
  · rw [fnd, MSpec.lookup, sj, key, List.find?_append, show List.find? (fun y => decide (t.key y = t.key x)) (t.seq j) = none from hk]
    simp
  · rw [fnd, MSpec.lookup, si, key, List.find?_eq_none.2]
    intro y hy
    have hy' := ((g.each i).chain.nodup.mem_erase_iff).1 hy
    simp only [decide_eq_true_eq]
    exact fun e => hy'.1 ((g.each i).uniq (x := y) (y := x) hy'.2 hx e)
  · obtain ⟨L, hL⟩ := g'.view k
    have := walkNext_ext2 (L := L) _ (forward_ok (g'.each k))
    rw [hL] at this
    exact this

/-- Two hashes whose hash keys give different values for a key.  A node goes from the first to the second without `ResetHashKey`: the
insertion succeeds, the node is in the list, but `Find` does not find it, and the key can be inserted a second time. -/
theorem moved_node_lost (hf : Nat → List UInt8 → Nat) (seed : Nat → Nat) (bs : List UInt8) (h0 : hf (seed 0) bs ≠ 0)
    (h1 : hf (seed 0) bs ≠ hf (seed 1) bs) :
    (mrun hf seed (MW.construct (0 : Nat) fun _ => 1) [.create (.str bs) 7, .on 0 (.insertNode false none 0), .on 0 (.detach (some 0) false),
        .on 1 (.insertNode false none 0), .on 1 (.find (.str bs)), .on 1 (.insert false none (.str bs) 8)]).map (fun r => (r.1, forward (r.2.view 1)))
      = .ok ([.node (some 0), .node (some 0), .bool true, .node (some 0), .node none, .node (some 1)], .ok [(0, .str bs, 7), (1, .str bs, 8)]) := by
  simp [mrun, mstep, MW.construct, MW.view, MW.put, OrderedHash.construct, createNode, step, insertN, attachedTest, getHp, getHn, getHk, getIk, getSk, cacheHash,
    cachedHash, nodeHash, readBytes, findNode, findIn, slot, findLoop, attachList, linkOf, linkBefore, growOrAttach, attachHash, setHn, setHpOpt, setHp, detach, unlink,
    unhash, unhashPrev, find, matchStr, insertV, forward, walkNext, getKey, dec, h0, h1, upd, rd, wr, Nat.mod_one, nextPrimePos, primes, setPv, setNx, setPvOpt, setNxOpt, unlinkEnds, getPv, getNx, Except.map]

/-- A node that a hash has refused keeps the hash value of that hash: the hash that takes it afterwards does not find it. -/
theorem refused_node_lost (hf : Nat → List UInt8 → Nat) (seed : Nat → Nat) (bs : List UInt8) (h0 : hf (seed 0) bs ≠ 0)
    (h1 : hf (seed 0) bs ≠ hf (seed 1) bs) :
    (mrun hf seed (MW.construct (0 : Nat) fun _ => 1) [.on 0 (.insert false none (.str bs) 5), .create (.str bs) 7, .on 0 (.insertNode false none 1),
        .on 1 (.insertNode false none 1), .on 1 (.find (.str bs))]).map (fun r => (r.1, forward (r.2.view 1)))
      = .ok ([.node (some 0), .node (some 1), .node none, .node (some 1), .node none], .ok [(1, .str bs, 7)]) := by
  simp [mrun, mstep, MW.construct, MW.view, MW.put, OrderedHash.construct, createNode, step, insertN, attachedTest, getHp, getHn, getHk, getIk, getSk, cacheHash,
    cachedHash, nodeHash, readBytes, findNode, findIn, slot, findLoop, attachList, linkOf, linkBefore, growOrAttach, attachHash, setHn, setHpOpt, setHp,
    find, matchStr, insertV, forward, walkNext, getKey, h0, h1, upd, rd, wr, Nat.mod_one, nextPrimePos, primes, setPv, setNx, setNxOpt, getNx, Except.map]

/-- A history with two hashes that have different hash keys: a node moves, another one is refused, gets a new key and is accepted
elsewhere. -/
example : (MSpec.run (fun i => i) (T.empty (0 : Nat)) [.on 0 (.insert false none (.str [1]) 5), .on 0 (.insert false none (.int 2) 6), .on 1 (.insert true none (.int 9) 4),
    .on 0 (.detach (some 0) true), .on 1 (.insertNode false none 0), .create (.int 9) 1, .on 1 (.insertNode false none 3), .setKey 3 (.int 8),
    .on 0 (.insertNode true none 3), .on 1 (.find (.str [1])), .on 0 (.find (.str [1]))]).map (fun r => (r.1, r.2.seq 0, r.2.seq 1)) =
    some ([.node (some 0), .node (some 1), .node (some 2), .bool true, .node (some 0), .node (some 3), .node none, .void, .node (some 3), .node (some 0),
      .node none], [3, 1], [2, 0]) := by decide

/-- Without the reset the second insertion is not legal, with equal hash keys it is. -/
example : (MSpec.run (fun i => i) (T.empty (0 : Nat)) [.on 0 (.insert false none (.str [1]) 5), .on 0 (.detach (some 0) false), .on 1 (.insertNode false none 0)]).isNone
    ∧ (MSpec.run (fun _ => 4) (T.empty (0 : Nat)) [.on 0 (.insert false none (.str [1]) 5), .on 0 (.detach (some 0) false), .on 1 (.insertNode false none 0)]).isSome := by
  decide

/-- Hash functions as the last two theorems want them. -/
example : (fun s bs => 5381 + s + bs.length : Nat → List UInt8 → Nat) 0 [1] ≠ 0
    ∧ (fun s bs => 5381 + s + bs.length : Nat → List UInt8 → Nat) 0 [1] ≠ (fun s bs => 5381 + s + bs.length : Nat → List UInt8 → Nat) 1 [1] := by decide

end Verif.OrderedHash
