import Verif.Base

/-!
# A heap of array blocks

`new T[n]` returns a fresh block; `delete[] p` frees it.  A block number is never reused, so that a
dangling pointer stays recognisable.  Accesses to freed or unknown blocks, or outside a block, are
undefined behaviour.
-/

namespace Verif

/-- The blocks ever allocated; `none` is a freed block. -/
abbrev BHeap (α : Type) := List (Option (List α))

namespace BHeap
variable {α : Type}

/-- `new T[cells.length]` with these initial cells. -/
def alloc (h : BHeap α) (cells : List α) : Nat × BHeap α := (h.length, h ++ [some cells])

/-- The live block `p`. -/
def block (h : BHeap α) (p : Nat) : CRes (List α) :=
  match h[p]? with
  | some (some b) => .ok b
  | _ => .error .badPtr

/-- `delete[] p` -/
def free (h : BHeap α) (p : Nat) : CRes (BHeap α) := do
  let _ ← block h p
  .ok (h.set p none)

/-- `p[i]` -/
def load (h : BHeap α) (p i : Nat) : CRes α := do
  let b ← block h p
  rd b i

/-- `p[i] = v` -/
def store (h : BHeap α) (p i : Nat) (v : α) : CRes (BHeap α) := do
  let b ← block h p
  let b ← wr b i v
  .ok (h.set p (some b))

theorem block_ok {h : BHeap α} {p : Nat} {b : List α} (e : h[p]? = some (some b)) : block h p = .ok b := by
  simp [block, e]

theorem lt_of_block {h : BHeap α} {p : Nat} {b : Option (List α)} (e : h[p]? = some b) : p < h.length := by
  rcases Nat.lt_or_ge p h.length with h' | h'
  · exact h'
  · rw [List.getElem?_eq_none h'] at e; cases e

theorem load_ok {h : BHeap α} {p i : Nat} {b : List α} {v : α} (e : h[p]? = some (some b))
    (hi : b[i]? = some v) : load h p i = .ok v := by
  simp [load, block_ok e, rd, hi]

theorem store_ok {h : BHeap α} {p i : Nat} {b : List α} {v : α} (e : h[p]? = some (some b))
    (hi : i < b.length) : store h p i v = .ok (h.set p (some (b.set i v))) := by
  simp [store, block_ok e, wr, hi]

theorem free_ok {h : BHeap α} {p : Nat} {b : List α} (e : h[p]? = some (some b)) :
    free h p = .ok (h.set p none) := by
  simp [free, block_ok e]

/-- `for (x = x0; x < x0 + n; x++) dst[x] = src[x];` -/
def copyLoop (h : BHeap α) (dst src : Nat) : (n x : Nat) → CRes (BHeap α)
  | 0, _ => .ok h
  | n + 1, x => do
    let v ← load h src x
    let h ← store h dst x v
    copyLoop h dst src n (x + 1)

/-- Copying a whole block over a different block of at least that size. -/
theorem copyLoop_ok (src dst : Nat) (hne : dst ≠ src) (s : List α) : ∀ (n x : Nat) (h : BHeap α) (d : List α),
    h[src]? = some (some s) → h[dst]? = some (some d) → x + n ≤ s.length → x + n ≤ d.length →
    copyLoop h dst src n x =
      .ok (h.set dst (some (d.take x ++ (s.drop x).take n ++ d.drop (x + n)))) := by
  intro n
  induction n with
  | zero =>
    intro x h d hs hd h1 h2
    simp only [copyLoop, List.take_zero, List.append_nil, Nat.add_zero, List.take_append_drop]
    congr 1
    apply List.ext_getElem?
    intro i
    rw [List.getElem?_set]
    split
    · rename_i e; subst e; rw [if_pos (lt_of_block hd), hd]
    · rfl
  | succ n ih =>
    intro x h d hs hd h1 h2
    have hxs : x < s.length := by omega
    have hxd : x < d.length := by omega
    rw [copyLoop, load_ok hs (List.getElem?_eq_getElem hxs)]
    simp only [ok_bind]
    rw [store_ok hd hxd]
    simp only [ok_bind]
    have hdl := lt_of_block hd
    rw [ih (x + 1) _ (d.set x s[x]) (by rw [List.getElem?_set_ne hne]; exact hs)
      (by rw [List.getElem?_set_self hdl]) (by omega) (by simp; omega)]
    rw [List.set_set]
    congr 3
    have e1 : (d.set x s[x]).take (x + 1) = d.take x ++ [s[x]] := by
      rw [List.take_add_one, List.getElem?_set_self hxd, List.take_set_of_le (by omega)]
      simp
    have e2 : (d.set x s[x]).drop (x + 1 + n) = d.drop (x + (n + 1)) := by
      rw [List.drop_set_of_lt (by omega)]; congr 1; omega
    have e3 : (s.drop x).take (n + 1) = s[x] :: (s.drop (x + 1)).take n := by
      rw [List.drop_eq_getElem_cons hxs, List.take_succ_cons]
    rw [e1, e2, e3]
    simp

end BHeap
end Verif
