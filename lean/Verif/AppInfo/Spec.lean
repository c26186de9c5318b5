/-!
# Directory names
-/

namespace Verif.AppInfo.Spec

/-- With a trailing slash. -/
def dirName (s : List Nat) : List Nat := if s.getLast? = some 47 then s else s ++ [47]

/-- The directory of an application: a directory name, and below it, if an application is named, a directory
whose name is the application's with a prefix. -/
def appDir (base pre : List Nat) (app : Option (List Nat)) : List Nat :=
  match app with
  | none => dirName base
  | some a => dirName (dirName base ++ pre ++ a)

/-- A string is stored at the beginning of a buffer, terminated. -/
def Holds (buf s : List Nat) : Prop := ∃ rest, buf = s ++ 0 :: rest

end Verif.AppInfo.Spec
