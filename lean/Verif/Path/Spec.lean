import Verif.Utf8.Spec

/-!
# Paths as lists of components
-/

namespace Verif.Path.Spec

/-- The pieces of a string between its slashes (at least one piece; pieces may be empty). -/
def pieces : List Nat → List (List Nat)
  | [] => [[]]
  | c :: s =>
    if c = 47 then [] :: pieces s
    else match pieces s with
      | [] => [[c]]
      | g :: gs => (c :: g) :: gs

/-- The components of a path: its pieces that are not empty. -/
def comps (s : List Nat) : List (List Nat) := (pieces s).filter (fun g => !g.isEmpty)

/-- "." -/
def dot : List Nat := [46]

/-- ".." -/
def dotdot : List Nat := [46, 46]

/-- Walking down from the directory `st` (a list of components): "." stays, ".." goes up (at the root
it stays), any other component goes down. -/
def walk (st : List (List Nat)) : List (List Nat) → List (List Nat)
  | [] => st
  | c :: cs => if c = dot then walk st cs else if c = dotdot then walk st.dropLast cs else walk (st ++ [c]) cs

/-- The directory or file a name means, seen from a base directory. -/
def resolve (base name : List Nat) : List (List Nat) :=
  if name.head? = some 47 then walk [] (comps name) else walk [] (comps base ++ comps name)

/-- The absolute path with these components. -/
def absPath (trailing : Bool) (cs : List (List Nat)) : List Nat :=
  if cs = [] then [47] else cs.flatMap (47 :: ·) ++ (if trailing then [47] else [])

/-- A string is stored at the beginning of a buffer, terminated. -/
def Holds (buf s : List Nat) : Prop := ∃ rest, buf = s ++ 0 :: rest

/-- The characters a file name must not contain: control characters, DEL and `* ? " < > |`. -/
def Forbidden (c : Nat) : Prop :=
  c < 0x20 ∨ c = 0x7F ∨ c = 42 ∨ c = 63 ∨ c = 34 ∨ c = 60 ∨ c = 62 ∨ c = 124

/-- A backslash becomes a slash. -/
def slashed (s : List Nat) : List Nat := s.map (fun c => if c = 92 then 47 else c)

end Verif.Path.Spec
