import Verif.WinPath.Spec
import Verif.Path.Spec

/-!
# Windows paths in the form for the system, as a volume and a list of components
-/

namespace Verif.WinAbs.Spec

open Verif.WinPath.Spec (Begins unc uni pieces)
open Verif.Path.Spec (walk)

/-- The length of the prefix `\\?\UNC\` or `\\?\`. -/
def prefixLen (s : List Nat) : Nat := if Begins unc s then 8 else if uni <+: s then 4 else 0

/-- The prefix and what follows it up to the next backslash: the volume or the host.  Empty without a prefix. -/
def volume (s : List Nat) : List Nat :=
  if prefixLen s = 0 then [] else s.take (prefixLen s) ++ (s.drop (prefixLen s)).takeWhile (fun c => c ≠ 92)

/-- What follows the volume. -/
def path (s : List Nat) : List Nat := s.drop (volume s).length

/-- The components of a path: its pieces between backslashes that are not empty. -/
def comps (s : List Nat) : List (List Nat) := (pieces s).filter (fun g => !g.isEmpty)

/-- The volume and the components of the directory or file a name means, seen from a base directory. -/
def resolve (base name : List Nat) : List Nat × List (List Nat) :=
  if volume name ≠ [] then (volume name, walk [] (comps (path name)))
  else if name.head? = some 92 then (volume base, walk [] (comps name))
  else (volume base, walk [] (comps (path base) ++ comps name))

/-- The absolute path with this volume and these components. -/
def absPath (trailing : Bool) (p : List Nat × List (List Nat)) : List Nat :=
  p.1 ++ if p.2 = [] then [92] else p.2.flatMap (92 :: ·) ++ (if trailing then [92] else [])

end Verif.WinAbs.Spec
