import Verif.WinLink.Model
import Verif.WinDir.Spec

/-!
# What links lead to, and where a link is
-/

namespace Verif.WinLink.Spec
open Verif.WinAbs.Spec (resolve absPath)

/-- What a link leads to, as the documentation of the structure has it: offset and length count bytes, a
character has two. -/
def target (r : Reparse) : List Nat := (r.path.drop (r.off / 2)).take (r.len / 2)

/-- A reparse point as the system stores it: whole characters, inside what was written, and that inside 16384 bytes. -/
structure Stored (r : Reparse) : Prop where
  off : r.off % 2 = 0
  len : r.len % 2 = 0
  inside : r.off + r.len ≤ 2 * r.path.length
  room : r.path.length ≤ 8182

/-- Where the names begin in a reparse point, in bytes, as the documentation of the structure has it (one more field for symbolic links). -/
def start (t : Tag) : Nat := if t = .symlink then 20 else 16

/-- The characters from offset to offset plus length, both taken as numbers of characters, are inside the 16384 bytes of the buffer. -/
def Inside (r : Reparse) : Prop := start r.tag + 2 * (r.off + r.len) ≤ 16384

/-- The layout of mount points: the target first, a terminator after it. -/
def TargetFirst (r : Reparse) : Prop := r.off = 0 ∧ ∃ more, r.path = target r ++ 0 :: more

/-- The layout of symbolic links: a name for display first, then the target, which is `extra` characters longer
(0 for relative targets, 4 for absolute ones, which begin with `\??\`). -/
def PrintFirst (r : Reparse) (extra : Nat) : Prop :=
  ∃ shown, r.off = 2 * shown.length ∧ r.path = shown ++ target r ∧ (target r).length = shown.length + extra

/-- The directory that holds a file: the components without the last. -/
def holder (p : List Nat × List (List Nat)) : List Nat × List (List Nat) := (p.1, p.2.dropLast)

end Verif.WinLink.Spec
