import Verif.OrderedHash.Model

/-!
# Specification of the ordered hash

The hash is a sequence of nodes with pairwise different keys; other nodes are *loose* (detached).  There is no table, no
hash value and no table size in the specification.  `none` marks an illegal call: naming a node that does not exist or
is in the wrong state, or a position that is not in the hash.

`stale` marks nodes that `Empty(false)` has handed back and that were not inserted since.  Inserting such a node at the front or
at the end is counted as illegal, because the code does not do it right (`released_nodes_keep_links`).
-/

namespace Verif.OrderedHash.Spec

variable {α : Type}

structure S (α : Type) where
  seq : List Nat
  loose : List Nat
  key : Nat → Key
  val : Nat → α
  stale : Nat → Bool
  fresh : Nat

def S.empty (dflt : α) : S α := { seq := [], loose := [], key := fun _ => .int 0, val := fun _ => dflt, stale := fun _ => false, fresh := 0 }

/-- The node stored under a key. -/
def lookup (s : S α) (k : Key) : Option Nat := s.seq.find? fun x => decide (s.key x = k)

/-- Put `x` before / after the node `b`. -/
def nextTo (after : Bool) (x b : Nat) : List Nat → List Nat
  | [] => []
  | y :: ys => if y = b then (if after then y :: x :: ys else x :: y :: ys) else y :: nextTo after x b ys

/-- The place of an insertion: next to a node of the hash, or (NULL) at the front (`after`) / at the end. -/
def ins (xs : List Nat) (x : Nat) (after : Bool) : Option Nat → Option (List Nat)
  | none => some (if after then x :: xs else xs ++ [x])
  | some b => if b ∈ xs then some (nextTo after x b xs) else none

/-- A new loose node. -/
def create (s : S α) (k : Key) (v : α) : S α :=
  { s with loose := s.fresh :: s.loose, key := Links.upd s.key s.fresh k, val := Links.upd s.val s.fresh v,
           stale := Links.upd s.stale s.fresh false, fresh := s.fresh + 1 }

/-- The meaning of each call. -/
def step (s : S α) : Op α → Option (Ret × S α)
  | .create k v => some (.node (some s.fresh), create s k v)
  | .delete x => if x ∈ s.loose then some (.void, { s with loose := s.loose.erase x }) else none
  | .setKey x k => if x ∈ s.loose then some (.void, { s with key := Links.upd s.key x k }) else none
  | .setValue x v => if x ∈ s.loose ∨ x ∈ s.seq then some (.void, { s with val := Links.upd s.val x v }) else none
  | .insert a n k v =>
    if lookup s k = none then do
      let ys ← ins s.seq s.fresh a n
      some (.node (some s.fresh), { create s k v with seq := ys, loose := s.loose })
    else some (.node none, { create s k v with loose := s.loose })
  | .insertNode a n x =>
    if x ∈ s.loose then
      if lookup s (s.key x) = none then
        if s.stale x = true ∧ n = none then none
        else do
          let ys ← ins s.seq x a n
          some (.node (some x), { s with seq := ys, loose := s.loose.erase x, stale := Links.upd s.stale x false })
      else some (.node none, s)
    else if x ∈ s.seq then some (.node none, s)
    else none
  | .pop _ =>
    match s.seq.getLast? with
    | none => some (.node none, s)
    | some x => some (.node (some x), { s with seq := s.seq.dropLast, loose := x :: s.loose })
  | .shift _ =>
    match s.seq with
    | [] => some (.node none, s)
    | x :: xs => some (.node (some x), { s with seq := xs, loose := x :: s.loose })
  | .detach none _ => some (.bool false, s)
  | .detach (some x) _ =>
    if x ∈ s.seq then some (.bool true, { s with seq := s.seq.erase x, loose := x :: s.loose }) else none
  | .remove none => some (.bool false, s)
  | .remove (some x) => if x ∈ s.seq then some (.bool true, { s with seq := s.seq.erase x }) else none
  | .empty => some (.void, { s with seq := [] })
  | .release _ => some (.void, { s with seq := [], loose := s.seq ++ s.loose, stale := fun x => s.stale x || decide (x ∈ s.seq) })
  | .find k => some (.node (lookup s k), s)
  | .findNode x => if x ∈ s.loose ∨ x ∈ s.seq then some (.node (lookup s (s.key x)), s) else none
  | .resize n => some (.bool (n != 0), s)
  | .size => some (.num s.seq.length, s)

/-- A history; `none` if some call is illegal. -/
def run : S α → List (Op α) → Option (List Ret × S α)
  | s, [] => some ([], s)
  | s, op :: ops => do
    let (r, s) ← step s op
    let (rs, s) ← run s ops
    some (r :: rs, s)

/-- What iteration shows. -/
def entries (s : S α) : List (Nat × Key × α) := s.seq.map fun x => (x, s.key x, s.val x)

end Verif.OrderedHash.Spec
