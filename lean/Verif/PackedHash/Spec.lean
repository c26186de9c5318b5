import Verif.PackedHash.Model

/-!
# Specification of the packed ordered hash

The hash is a list of keys with values, in the order in which the keys were first set; no key occurs twice.  There is no
capacity, no position and no hash value.  `none` marks a call outside the documented limits: the table must stay below
2^31 nodes (packed_ordered_hash.h:2), which holds as long as fewer than 966,367,642 keys (90 % of 2^30) are present when
one is added and no more than 2^30 nodes are asked for.
-/

namespace Verif.PackedHash.Spec
open Verif.OrderedHash (Key)

variable {α : Type}

/-- The value of a key. -/
def lookup (s : List (Key × α)) (k : Key) : Option α := (s.find? fun e => decide (e.1 = k)).map fun e => e.2

/-- Give a key a value: in its place if it is present, at the end otherwise. -/
def put (s : List (Key × α)) (k : Key) (v : α) : List (Key × α) :=
  if (lookup s k).isSome then s.map fun e => if e.1 = k then (k, v) else e else s ++ [(k, v)]

/-- The number of keys at which the table would have to grow to 2^31 nodes. -/
def limit : Nat := 966367642

/-- The meaning of each call. -/
def step (dflt : α) (s : List (Key × α)) : Op α → Option (Ret α × List (Key × α))
  | .set k v => if (lookup s k).isSome ∨ s.length < limit then some (.void, put s k v) else none
  | .touch k =>
    match lookup s k with
    | some v => some (.val (some v), s)
    | none => if s.length < limit then some (.val (some dflt), s ++ [(k, dflt)]) else none
  | .unset k => some (.bool (lookup s k).isSome, s.filter fun e => decide (e.1 ≠ k))
  | .find k => some (.val (lookup s k), s)
  | .resize n => if n ≤ 2 ^ 30 then some (.void, s) else none
  | .optimize => some (.bool true, s)
  | .autoResize => if s.length < limit then some (.void, s) else none
  | .size => some (.num s.length, s)

/-- A history; `none` if some call is outside the limits. -/
def run (dflt : α) : List (Key × α) → List (Op α) → Option (List (Ret α) × List (Key × α))
  | s, [] => some ([], s)
  | s, op :: ops => do
    let (r, s) ← step dflt s op
    let (rs, s) ← run dflt s ops
    some (r :: rs, s)

end Verif.PackedHash.Spec
