import Verif.Base

/-!
# Doubly linked nodes

The link code of `List` (templates/detachable_list_util.h) and of the list half of `OrderedHash`
(templates/detachable_ordered_hash_util.h) is the same text with other member names; both models use the functions here.

The heap is kept per member (one map per member from node addresses to its value), with the set of live nodes.  Every
access checks that the node is live.  A pointer is an `Option Nat`; `none` is NULL.
-/

namespace Verif.Links

/-- `x->member = v` on the map of one member. -/
def upd {β : Type} (f : Nat → β) (x : Nat) (v : β) : Nat → β := fun y => if y = x then v else f y

@[simp] theorem upd_same {β : Type} (f : Nat → β) (x : Nat) (v : β) : upd f x v x = v := by simp [upd]

theorem upd_other {β : Type} (f : Nat → β) {x y : Nat} (v : β) (h : y ≠ x) : upd f x v y = f y := by simp [upd, h]

theorem ne_of_mem {x y : Nat} {as : List Nat} (hy : y ∈ as) (hx : x ∉ as) : y ≠ x := fun h => hx (h ▸ hy)

/-- The part of the heap holding the links: which nodes exist, `PrevNode`, `NextNode`. -/
structure LH where
  live : Nat → Bool
  pv : Nat → Option Nat
  nx : Nat → Option Nat

/-- `FirstNode`, `LastNode` of a list object. -/
structure Ends where
  first : Option Nat
  last : Option Nat
  deriving DecidableEq, Repr

/-- `x->PrevNode` as a value -/
def getPv (h : LH) (x : Nat) : CRes (Option Nat) := if h.live x then .ok (h.pv x) else .error .badPtr
/-- `x->NextNode` as a value -/
def getNx (h : LH) (x : Nat) : CRes (Option Nat) := if h.live x then .ok (h.nx x) else .error .badPtr
/-- `x->PrevNode = v` -/
def setPv (h : LH) (x : Nat) (v : Option Nat) : CRes LH :=
  if h.live x then .ok { h with pv := upd h.pv x v } else .error .badPtr
/-- `x->NextNode = v` -/
def setNx (h : LH) (x : Nat) (v : Option Nat) : CRes LH :=
  if h.live x then .ok { h with nx := upd h.nx x v } else .error .badPtr

/-- `if (p != NULL)  p->NextNode = v` -/
def setNxOpt (h : LH) (p : Option Nat) (v : Option Nat) : CRes LH :=
  match p with
  | none => .ok h
  | some a => setNx h a v

/-- `if (p != NULL)  p->PrevNode = v` -/
def setPvOpt (h : LH) (p : Option Nat) (v : Option Nat) : CRes LH :=
  match p with
  | none => .ok h
  | some a => setPv h a v

/-- The link part of `InsertBefore(Next, Node)`: detachable_list_util.h:163-177 (and 188-202),
detachable_ordered_hash_util.h:271-285 -/
def linkBefore (h : LH) (e : Ends) (next : Option Nat) (x : Nat) : CRes (LH × Ends) :=
  match next with
  | none => do
    let h ← setPv h x e.last
    let h ← setNxOpt h e.last (some x)
    .ok (h, { first := if e.first = none then some x else e.first, last := some x })
  | some b => do
    let h ← setNx h x (some b)
    let p ← getPv h b
    let h ← setPv h x p
    let h ← setNxOpt h p (some x)
    let h ← setPv h b (some x)
    .ok (h, { e with first := if some b = e.first then some x else e.first })

/-- The link part of `InsertAfter(Prev, Node)`: detachable_list_util.h:214-228 (and 239-253),
detachable_ordered_hash_util.h:335-349 -/
def linkAfter (h : LH) (e : Ends) (prev : Option Nat) (x : Nat) : CRes (LH × Ends) :=
  match prev with
  | none => do
    let h ← setNx h x e.first
    let h ← setPvOpt h e.first (some x)
    .ok (h, { first := some x, last := if e.last = none then some x else e.last })
  | some a => do
    let h ← setPv h x (some a)
    let n ← getNx h a
    let h ← setNx h x n
    let h ← setPvOpt h n (some x)
    let h ← setNx h a (some x)
    .ok (h, { e with last := if some a = e.last then some x else e.last })

/-- Disconnecting the neighbours in `Detach(Node)`: detachable_list_util.h:291-307,
detachable_ordered_hash_util.h:371-387 -/
def unlinkEnds (h : LH) (e : Ends) (x : Nat) : CRes (LH × Ends) :=
  if some x = e.first then do
    let f ← getNx h x
    match f with
    | some y => do
      let h ← setPv h y none
      .ok (h, { e with first := some y })
    | none => .ok (h, { first := none, last := none })
  else if some x = e.last then do
    let l ← getPv h x
    match l with
    | some y => do
      let h ← setNx h y none
      .ok (h, { e with last := some y })
    | none => .ok (h, { first := none, last := none })
  else do
    let n ← getNx h x
    let p ← getPv h x
    let h ← setPvOpt h n p
    let p' ← getPv h x
    let n' ← getNx h x
    let h ← setNxOpt h p' n'
    .ok (h, e)

/-- The link part of `Detach(Node)`: detachable_list_util.h:291-309, detachable_ordered_hash_util.h:371-389 -/
def unlink (h : LH) (e : Ends) (x : Nat) : CRes (LH × Ends) := do
  let (h, e) ← unlinkEnds h e x
  let h ← setNx h x none
  let h ← setPv h x none
  .ok (h, e)

/-! ## Segments of a doubly linked list -/

/-- The nodes `xs` are linked in this order, with `p` before the first and `n` after the last. -/
def Seg (pv nx : Nat → Option Nat) : Option Nat → List Nat → Option Nat → Prop
  | _, [], _ => True
  | p, x :: xs, n => pv x = p ∧ nx x = xs.head?.or n ∧ Seg pv nx (some x) xs n

theorem seg_append (pv nx : Nat → Option Nat) : ∀ (as bs : List Nat) (p n : Option Nat),
    Seg pv nx p (as ++ bs) n ↔ Seg pv nx p as (bs.head?.or n) ∧ Seg pv nx (as.getLast?.or p) bs n
  | [], bs, p, n => by simp [Seg]
  | a :: as, bs, p, n => by
    have h1 : (as ++ bs).head?.or n = as.head?.or (bs.head?.or n) := by cases as <;> simp
    have h2 : (a :: as).getLast?.or p = as.getLast?.or (some a) := by
      rw [List.getLast?_cons]; cases as.getLast? <;> simp
    simp only [List.cons_append, Seg, h1, h2]
    rw [seg_append pv nx as bs (some a) n]
    simp only [and_assoc]

theorem seg_congr {pv nx pv' nx' : Nat → Option Nat} : ∀ {xs : List Nat} {p n : Option Nat},
    (∀ x ∈ xs, pv' x = pv x ∧ nx' x = nx x) → Seg pv nx p xs n → Seg pv' nx' p xs n
  | [], _, _, _, _ => trivial
  | x :: xs, p, n, h, hs =>
    ⟨by rw [(h x (by simp)).1]; exact hs.1, by rw [(h x (by simp)).2]; exact hs.2.1,
      seg_congr (fun y hy => h y (by simp [hy])) hs.2.2⟩

/-- `nx` with the last node of `as` changed. -/
def updLast (nx : Nat → Option Nat) (as : List Nat) (m : Option Nat) : Nat → Option Nat :=
  match as.getLast? with
  | none => nx
  | some a => upd nx a m

/-- `pv` with the first node of `bs` changed. -/
def updHead (pv : Nat → Option Nat) (bs : List Nat) (q : Option Nat) : Nat → Option Nat :=
  match bs.head? with
  | none => pv
  | some b => upd pv b q

theorem updLast_other {nx : Nat → Option Nat} {as : List Nat} {m : Option Nat} {y : Nat} (h : y ∉ as) :
    updLast nx as m y = nx y := by
  unfold updLast
  cases hl : as.getLast? with
  | none => rfl
  | some a => exact upd_other _ _ (fun e => h (e ▸ List.mem_of_getLast? hl))

theorem updHead_other {pv : Nat → Option Nat} {bs : List Nat} {q : Option Nat} {y : Nat} (h : y ∉ bs) :
    updHead pv bs q y = pv y := by
  unfold updHead
  cases hl : bs.head? with
  | none => rfl
  | some a => exact upd_other _ _ (fun e => h (e ▸ List.mem_of_head? hl))

theorem seg_last {pv nx : Nat → Option Nat} {as : List Nat} {p n : Option Nat} (m : Option Nat)
    (hs : Seg pv nx p as n) (hd : as.Nodup) : Seg pv (updLast nx as m) p as m := by
  rcases List.eq_nil_or_concat as with rfl | ⟨as', a, rfl⟩
  · trivial
  · simp only [List.concat_eq_append] at *
    rw [seg_append] at hs ⊢
    have ha : a ∉ as' := by
      rw [List.nodup_append] at hd
      exact fun h => hd.2.2 a h a (by simp) rfl
    have e : updLast nx (as' ++ [a]) m = upd nx a m := by simp [updLast]
    rw [e]
    refine ⟨seg_congr (fun y hy => ⟨rfl, upd_other _ _ (fun h => ha (h ▸ hy))⟩) (by simpa using hs.1), ?_⟩
    exact ⟨hs.2.1, by simp, trivial⟩

theorem seg_head {pv nx : Nat → Option Nat} {bs : List Nat} {p n : Option Nat} (q : Option Nat)
    (hs : Seg pv nx p bs n) (hd : bs.Nodup) : Seg (updHead pv bs q) nx q bs n := by
  cases bs with
  | nil => trivial
  | cons b bs =>
    have hb : b ∉ bs := (List.nodup_cons.1 hd).1
    have e : updHead pv (b :: bs) q = upd pv b q := by simp [updHead]
    rw [e]
    exact ⟨by simp, hs.2.1, seg_congr (fun y hy => ⟨upd_other _ _ (fun h => hb (h ▸ hy)), rfl⟩) hs.2.2⟩

/-- A list object represents the sequence `xs` of nodes. -/
structure Chain (h : LH) (e : Ends) (xs : List Nat) : Prop where
  seg : Seg h.pv h.nx none xs none
  first : e.first = xs.head?
  last : e.last = xs.getLast?
  live : ∀ x ∈ xs, h.live x = true
  nodup : xs.Nodup

/-- `h'` differs from `h` only in the links of the nodes `ys`. -/
structure Frame (h h' : LH) (ys : List Nat) : Prop where
  live : h'.live = h.live
  pv : ∀ y, y ∉ ys → h'.pv y = h.pv y
  nx : ∀ y, y ∉ ys → h'.nx y = h.nx y

theorem Frame.chain {h h' : LH} {ys xs : List Nat} {e : Ends} (f : Frame h h' ys) (hd : ∀ x ∈ xs, x ∉ ys)
    (c : Chain h e xs) : Chain h' e xs :=
  ⟨seg_congr (fun x hx => ⟨f.pv x (hd x hx), f.nx x (hd x hx)⟩) c.seg, c.first, c.last,
    fun x hx => by rw [f.live]; exact c.live x hx, c.nodup⟩

theorem setNxOpt_last {h : LH} {as : List Nat} {m : Option Nat} (hl : ∀ x ∈ as, h.live x = true) :
    setNxOpt h as.getLast? m = .ok { h with nx := updLast h.nx as m } := by
  unfold setNxOpt updLast
  cases e : as.getLast? with
  | none => rfl
  | some a => simp [setNx, hl a (List.mem_of_getLast? e)]

theorem setPvOpt_head {h : LH} {bs : List Nat} {q : Option Nat} (hl : ∀ x ∈ bs, h.live x = true) :
    setPvOpt h bs.head? q = .ok { h with pv := updHead h.pv bs q } := by
  unfold setPvOpt updHead
  cases e : bs.head? with
  | none => rfl
  | some a => simp [setPv, hl a (List.mem_of_head? e)]

/-- Assembling a list from two parts and a new node between them. -/
theorem seg_insert {pv nx : Nat → Option Nat} {as bs : List Nat} {x : Nat} {n' p' : Option Nat}
    (ha : Seg pv nx none as n') (hb : Seg pv nx p' bs none) (hd : (as ++ x :: bs).Nodup) :
    Seg (updHead (upd pv x as.getLast?) bs (some x)) (updLast (upd nx x bs.head?) as (some x)) none
      (as ++ x :: bs) none := by
  have hd' := List.nodup_append.1 hd
  have hxb := List.nodup_cons.1 hd'.2.1
  have hxa : x ∉ as := fun h => hd'.2.2 x h x (by simp) rfl
  have hab : ∀ y ∈ as, y ∉ bs := fun y h1 h2 => hd'.2.2 y h1 y (by simp [h2]) rfl
  rw [seg_append]
  refine ⟨?_, ?_, ?_, ?_⟩
  · refine seg_congr (nx := updLast nx as (some x)) (pv := pv) (fun y hy => ⟨?_, ?_⟩) (seg_last _ ha hd'.1)
    · rw [updHead_other (hab y hy), upd_other _ _ (ne_of_mem hy hxa)]
    · unfold updLast
      cases hl : as.getLast? with
      | none => simp [upd_other _ _ (ne_of_mem hy hxa)]
      | some a =>
        simp only
        by_cases hya : y = a
        · simp [hya]
        · rw [upd_other _ _ hya, upd_other _ _ hya, upd_other _ _ (ne_of_mem hy hxa)]
  · rw [updHead_other hxb.1, upd_same]; simp
  · rw [updLast_other hxa, upd_same]; simp
  · refine seg_congr (nx := nx) (pv := updHead pv bs (some x)) (fun y hy => ⟨?_, ?_⟩) (seg_head _ hb hxb.2)
    · unfold updHead
      cases hl : bs.head? with
      | none => simp [upd_other _ _ (ne_of_mem hy hxb.1)]
      | some b =>
        simp only
        by_cases hyb : y = b
        · simp [hyb]
        · rw [upd_other _ _ hyb, upd_other _ _ hyb, upd_other _ _ (ne_of_mem hy hxb.1)]
    · rw [updLast_other (fun h => hab y h hy), upd_other _ _ (ne_of_mem hy hxb.1)]

theorem frame_insert (h : LH) (as bs : List Nat) (x : Nat) (p q r s : Option Nat) :
    Frame h { h with pv := updHead (upd h.pv x p) bs q, nx := updLast (upd h.nx x r) as s } (as ++ x :: bs) := by
  refine ⟨rfl, fun y hy => ?_, fun y hy => ?_⟩
  · simp only [List.mem_append, List.mem_cons, not_or] at hy
    simp only
    rw [updHead_other hy.2.2, upd_other _ _ hy.2.1]
  · simp only [List.mem_append, List.mem_cons, not_or] at hy
    simp only
    rw [updLast_other hy.1, upd_other _ _ hy.2.1]

theorem nodup_insert {as bs : List Nat} {x : Nat} (h : (as ++ bs).Nodup) (hx : x ∉ as ++ bs) :
    (as ++ x :: bs).Nodup := by
  rw [List.nodup_append] at h ⊢
  simp only [List.mem_append, not_or] at hx
  refine ⟨h.1, List.nodup_cons.2 ⟨hx.2, h.2.1⟩, fun a ha b hb => ?_⟩
  rcases List.mem_cons.1 hb with rfl | hb
  · exact fun e => hx.1 (e ▸ ha)
  · exact h.2.2 a ha b hb

/-- The result of inserting `x` between `as` and `bs`. -/
theorem chain_insert {h : LH} {e : Ends} {as bs : List Nat} {x : Nat} (c : Chain h e (as ++ bs)) (hx : x ∉ as ++ bs)
    (hlx : h.live x = true) :
    Chain { h with pv := updHead (upd h.pv x as.getLast?) bs (some x), nx := updLast (upd h.nx x bs.head?) as (some x) }
      ⟨(as ++ x :: bs).head?, (as ++ x :: bs).getLast?⟩ (as ++ x :: bs) := by
  have hs := (seg_append _ _ _ _ _ _).1 c.seg
  have hd := nodup_insert c.nodup hx
  refine ⟨seg_insert hs.1 hs.2 hd, rfl, rfl, fun y hy => ?_, hd⟩
  simp only [List.mem_append, List.mem_cons] at hy
  rcases hy with hy | rfl | hy
  · exact c.live y (by simp [hy])
  · exact hlx
  · exact c.live y (by simp [hy])

theorem upd_self {β : Type} {f : Nat → β} {x : Nat} {v : β} (h : f x = v) : upd f x v = f := by
  funext y
  by_cases e : y = x
  · rw [e, upd_same, h]
  · rw [upd_other _ _ e]

theorem upd_comm {β : Type} {f : Nat → β} {x y : Nat} {v w : β} (h : x ≠ y) :
    upd (upd f x v) y w = upd (upd f y w) x v := by
  funext z
  by_cases e : z = x
  · subst e; simp [upd_other _ _ h]
  · rw [upd_other _ _ e]
    by_cases e2 : z = y
    · simp [e2]
    · rw [upd_other _ _ e2, upd_other _ _ e2, upd_other _ _ e]

/-- `InsertBefore(NULL, x)` of a node with no successor appends. -/
theorem linkBefore_end {h : LH} {e : Ends} {xs : List Nat} {x : Nat} (c : Chain h e xs) (hx : x ∉ xs)
    (hlx : h.live x = true) (hn : h.nx x = none) :
    ∃ h' e', linkBefore h e none x = .ok (h', e') ∧ Chain h' e' (xs ++ [x]) ∧ Frame h h' (xs ++ [x]) := by
  have c' := chain_insert (as := xs) (bs := []) (x := x) (by simpa using c) (by simpa using hx) hlx
  have f := frame_insert h xs [] x xs.getLast? (some x) none (some x)
  have hu : upd h.nx x none = h.nx := upd_self hn
  have hpv : updHead (upd h.pv x xs.getLast?) [] (some x) = upd h.pv x xs.getLast? := rfl
  simp only [List.head?_nil, hu, hpv] at c' f
  refine ⟨_, _, ?_, c', f⟩
  unfold linkBefore
  simp only [setPv, hlx, if_true, ok_bind, c.last]
  rw [setNxOpt_last (by intro y hy; exact c.live y hy)]
  simp only [ok_bind, c.first]
  cases xs <;> simp [List.getLast?_cons]

/-- `InsertBefore(b, x)` puts `x` right before `b`. -/
theorem linkBefore_mid {h : LH} {e : Ends} {as bs : List Nat} {b x : Nat} (c : Chain h e (as ++ b :: bs))
    (hx : x ∉ as ++ b :: bs) (hlx : h.live x = true) :
    ∃ h' e', linkBefore h e (some b) x = .ok (h', e') ∧ Chain h' e' (as ++ x :: b :: bs) ∧
      Frame h h' (as ++ x :: b :: bs) := by
  have c' := chain_insert (as := as) (bs := b :: bs) c hx hlx
  have f := frame_insert h as (b :: bs) x as.getLast? (some x) (some b) (some x)
  refine ⟨_, _, ?_, c', f⟩
  have hs := (seg_append _ _ _ _ _ _).1 c.seg
  have hpb : h.pv b = as.getLast? := by have := hs.2.1; simpa using this
  have hlb : h.live b = true := c.live b (by simp)
  have hd := List.nodup_append.1 c.nodup
  unfold linkBefore
  simp only [setNx, hlx, if_true, ok_bind, getPv, hlb, hpb, setPv]
  rw [setNxOpt_last (by intro y hy; exact c.live y (by simp [hy]))]
  simp only [ok_bind, hlb, if_true]
  have e1 : (if some b = e.first then some x else e.first) = (as ++ x :: b :: bs).head? := by
    rw [c.first]
    cases as with
    | nil => simp
    | cons a as =>
      have : b ≠ a := fun h => hd.2.2 a (by simp) b (by simp) h.symm
      simp [this]
  have e2 : e.last = (as ++ x :: b :: bs).getLast? := by
    rw [c.last]; simp
  rw [e1, e2]
  rfl

/-- `InsertAfter(NULL, x)` of a node with no predecessor prepends. -/
theorem linkAfter_front {h : LH} {e : Ends} {xs : List Nat} {x : Nat} (c : Chain h e xs) (hx : x ∉ xs)
    (hlx : h.live x = true) (hn : h.pv x = none) :
    ∃ h' e', linkAfter h e none x = .ok (h', e') ∧ Chain h' e' (x :: xs) ∧ Frame h h' (x :: xs) := by
  have c' := chain_insert (as := []) (bs := xs) (x := x) (by simpa using c) (by simpa using hx) hlx
  have f := frame_insert h [] xs x none (some x) xs.head? (some x)
  have hu : upd h.pv x none = h.pv := upd_self hn
  have hnx : updLast (upd h.nx x xs.head?) [] (some x) = upd h.nx x xs.head? := rfl
  simp only [List.getLast?_nil, hu, hnx, List.nil_append] at c' f
  refine ⟨_, _, ?_, c', f⟩
  unfold linkAfter
  simp only [setNx, hlx, if_true, ok_bind, c.first]
  rw [setPvOpt_head (by intro y hy; exact c.live y hy)]
  simp only [ok_bind, c.last]
  rcases List.eq_nil_or_concat xs with rfl | ⟨ys, y, rfl⟩ <;> simp [List.getLast?_cons]

/-- `InsertAfter(a, x)` puts `x` right after `a`. -/
theorem linkAfter_mid {h : LH} {e : Ends} {as bs : List Nat} {a x : Nat} (c : Chain h e (as ++ a :: bs))
    (hx : x ∉ as ++ a :: bs) (hlx : h.live x = true) :
    ∃ h' e', linkAfter h e (some a) x = .ok (h', e') ∧ Chain h' e' (as ++ a :: x :: bs) ∧
      Frame h h' (as ++ a :: x :: bs) := by
  have ee : as ++ a :: bs = (as ++ [a]) ++ bs := by simp
  have c0 : Chain h e ((as ++ [a]) ++ bs) := ee ▸ c
  have c' := chain_insert (x := x) c0 (ee ▸ hx) hlx
  have f := frame_insert h (as ++ [a]) bs x (some a) (some x) bs.head? (some x)
  have e3 : (as ++ [a]) ++ x :: bs = as ++ a :: x :: bs := by simp
  have e4 : (as ++ [a]).getLast? = some a := by simp
  rw [e3, e4] at c'
  rw [e3] at f
  refine ⟨_, _, ?_, c', f⟩
  have hs := (seg_append _ _ _ _ _ _).1 c.seg
  have hna : h.nx a = bs.head? := by have := hs.2.2.1; simpa using this
  have hla : h.live a = true := c.live a (by simp)
  have hd := List.nodup_append.1 c0.nodup
  unfold linkAfter
  simp only [setPv, hlx, if_true, ok_bind, getNx, hla, hna, setNx]
  rw [setPvOpt_head (by intro y hy; exact c.live y (by simp [hy]))]
  simp only [ok_bind, hla, if_true]
  have e1 : (if some a = e.last then some x else e.last) = (as ++ a :: x :: bs).getLast? := by
    rw [c.last]
    rcases List.eq_nil_or_concat bs with rfl | ⟨ys, y, rfl⟩
    · simp
    · have : a ≠ y := fun h => hd.2.2 a (by simp) y (by simp) h
      simp [List.getLast?_cons, this]
  have e2 : e.first = (as ++ a :: x :: bs).head? := by
    rw [c.first]; cases as <;> simp
  rw [e1, e2]
  have e5 : updLast (upd h.nx x bs.head?) (as ++ [a]) (some x) = upd (upd h.nx x bs.head?) a (some x) := by
    simp [updLast]
  rw [e5]

/-- Removing a node that sits between `as` and `bs`. -/
theorem seg_remove {pv nx : Nat → Option Nat} {as bs : List Nat} {x : Nat}
    (hs : Seg pv nx none (as ++ x :: bs) none) (hd : (as ++ x :: bs).Nodup) :
    Seg (upd (updHead pv bs as.getLast?) x none) (upd (updLast nx as bs.head?) x none) none (as ++ bs) none := by
  have hd' := List.nodup_append.1 hd
  have hxb := List.nodup_cons.1 hd'.2.1
  have hxa : x ∉ as := fun h => hd'.2.2 x h x (by simp) rfl
  have hab : ∀ y ∈ as, y ∉ bs := fun y h1 h2 => hd'.2.2 y h1 y (by simp [h2]) rfl
  rw [seg_append] at hs ⊢
  refine ⟨?_, ?_⟩
  · refine seg_congr (nx := updLast nx as bs.head?) (pv := pv) (fun y hy => ⟨?_, ?_⟩) ?_
    · rw [upd_other _ _ (ne_of_mem hy hxa), updHead_other (hab y hy)]
    · rw [upd_other _ _ (ne_of_mem hy hxa)]
    · have := seg_last bs.head? hs.1 hd'.1
      simpa using this
  · refine seg_congr (nx := nx) (pv := updHead pv bs as.getLast?) (fun y hy => ⟨?_, ?_⟩) ?_
    · rw [upd_other _ _ (ne_of_mem hy hxb.1)]
    · rw [upd_other _ _ (ne_of_mem hy hxb.1), updLast_other (fun h => hab y h hy)]
    · have := seg_head as.getLast? hs.2.2.2 hxb.2
      simpa using this

/-- `Detach(x)` takes exactly `x` out and leaves it with no neighbours. -/
theorem unlink_ok {h : LH} {e : Ends} {as bs : List Nat} {x : Nat} (c : Chain h e (as ++ x :: bs)) :
    ∃ h' e', unlink h e x = .ok (h', e') ∧ Chain h' e' (as ++ bs) ∧ Frame h h' (as ++ x :: bs) ∧
      h'.pv x = none ∧ h'.nx x = none := by
  have hd' := List.nodup_append.1 c.nodup
  have hxb := List.nodup_cons.1 hd'.2.1
  have hxa : x ∉ as := fun h => hd'.2.2 x h x (by simp) rfl
  have hab : ∀ y ∈ as, y ∉ bs := fun y h1 h2 => hd'.2.2 y h1 y (by simp [h2]) rfl
  have hs := (seg_append _ _ _ _ _ _).1 c.seg
  have hpx : h.pv x = as.getLast? := by have := hs.2.1; simpa using this
  have hnx : h.nx x = bs.head? := by have := hs.2.2.1; simpa using this
  have hlx : h.live x = true := c.live x (by simp)
  have hend : unlinkEnds h e x = .ok ({ h with pv := updHead h.pv bs as.getLast?, nx := updLast h.nx as bs.head? },
      ⟨(as ++ bs).head?, (as ++ bs).getLast?⟩) := by
    unfold unlinkEnds
    rw [c.first, c.last]
    cases has : as with
    | nil =>
      simp only [List.nil_append, List.head?_cons, if_true, getNx, hlx, ok_bind, hnx]
      cases hbs : bs with
      | nil => rfl
      | cons b bs' =>
        have hlb : h.live b = true := c.live b (by simp [hbs])
        simp only [List.head?_cons, setPv, hlb, if_true, ok_bind]
        rfl
    | cons a as' =>
      have hxa' : x ≠ a := fun h => hxa (by simp [has, h])
      rw [if_neg (by simp [hxa'])]
      rcases List.eq_nil_or_concat bs with hbs | ⟨bs', b, hbs⟩
      · rw [if_pos (by simp [hbs, List.getLast?_cons])]
        simp only [getPv, hlx, if_true, ok_bind, hpx, hbs]
        cases hl : as.getLast? with
        | none => rw [has] at hl; simp [List.getLast?_cons] at hl
        | some l =>
          have hll : h.live l = true := c.live l (by simp [List.mem_of_getLast? hl])
          simp only [setNx, hll, if_true, ok_bind]
          rw [← has]
          simp only [updLast, hl, List.append_nil, updHead, List.head?_nil]
          rw [has]
          simp
      · rw [if_neg (by
          rw [hbs]
          have : x ≠ b := fun h => hxb.1 (by simp [hbs, h])
          simp [List.getLast?_cons, List.getLast?_append, this])]
        simp only [getNx, hlx, if_true, ok_bind, getPv, hpx, hnx]
        rw [setPvOpt_head (by intro y hy; exact c.live y (by simp [hy]))]
        simp only [ok_bind, hlx, if_true, hnx]
        have : updHead h.pv bs as.getLast? x = as.getLast? := by rw [updHead_other hxb.1, hpx]
        rw [this, setNxOpt_last (by intro y hy; exact c.live y (by simp [hy]))]
        rw [← has]
        simp only [ok_bind]
        congr 2
        rw [has, hbs]
        cases e with
        | mk f l =>
          have h1 := c.first; have h2 := c.last
          rw [has, hbs] at h1 h2
          simp only at h1 h2
          rw [h1, h2]
          simp [List.getLast?_cons, List.getLast?_append]
  refine ⟨{ h with pv := upd (updHead h.pv bs as.getLast?) x none, nx := upd (updLast h.nx as bs.head?) x none },
    ⟨(as ++ bs).head?, (as ++ bs).getLast?⟩, ?_, ⟨seg_remove c.seg c.nodup, rfl, rfl, fun y hy => ?_, ?_⟩, ?_, by simp, by simp⟩
  · unfold unlink
    rw [hend]
    simp only [ok_bind, setNx, setPv, hlx, if_true]
  · refine c.live y ?_
    simp only [List.mem_append, List.mem_cons] at hy ⊢
    rcases hy with hy | hy <;> simp [hy]
  · refine List.nodup_append.2 ⟨hd'.1, hxb.2, fun a ha b hb => hd'.2.2 a ha b (by simp [hb])⟩
  · refine ⟨rfl, fun y hy => ?_, fun y hy => ?_⟩
    · simp only [List.mem_append, List.mem_cons, not_or] at hy
      simp only
      rw [upd_other _ _ hy.2.1, updHead_other hy.2.2]
    · simp only [List.mem_append, List.mem_cons, not_or] at hy
      simp only
      rw [upd_other _ _ hy.2.1, updLast_other hy.1]

end Verif.Links
