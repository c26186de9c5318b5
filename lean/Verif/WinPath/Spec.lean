import Verif.Utf8.Spec

/-!
# Windows paths
-/

namespace Verif.WinPath.Spec

/-- ASCII letters without regard to case. -/
def fold (c : Nat) : Nat := if 65 ≤ c ∧ c ≤ 90 then c + 32 else c

/-- The same word without regard to case. -/
def Same (a b : List Nat) : Prop := a.map fold = b.map fold

/-- A string begins with a word, without regard to case. -/
def Begins (p s : List Nat) : Prop := p.map fold <+: s.map fold

instance (p s : List Nat) : Decidable (Begins p s) := by unfold Begins; infer_instance

/-- `\\?\` -/
def uni : List Nat := [92, 92, 63, 92]
/-- `\\?\UNC\` -/
def unc : List Nat := [92, 92, 63, 92, 85, 78, 67, 92]
/-- `Volume{` -/
def vol : List Nat := [86, 111, 108, 117, 109, 101, 123]

/-- Slashes become backslashes, and an initial `\??\` becomes `\\?\`. -/
def canon (f : List Nat) : List Nat :=
  let s := f.map (fun c => if c = 47 then 92 else c)
  if [92, 63, 63, 92] <+: s then uni ++ s.drop 4 else s

/-- Paths of devices: `\\?\Device\...` and `\\.\...`. -/
def Device (s : List Nat) : Prop :=
  Begins [92, 92, 63, 92, 68, 101, 118, 105, 99, 101, 92] s ∨ [92, 92, 46, 92] <+: s

instance (s : List Nat) : Decidable (Device s) := by unfold Device; infer_instance

/-- A drive letter with its colon at the beginning. -/
def Drive : List Nat → Prop
  | c :: d :: _ => ((65 ≤ c ∧ c ≤ 90) ∨ (97 ≤ c ∧ c ≤ 122)) ∧ d = 58
  | _ => False

instance : (s : List Nat) → Decidable (Drive s)
  | [] => by unfold Drive; infer_instance
  | [_] => by unfold Drive; infer_instance
  | _ :: _ :: _ => by unfold Drive; infer_instance

/-- The first letter in upper case. -/
def upperFirst : List Nat → List Nat
  | [] => []
  | c :: r => (if 97 ≤ c ∧ c ≤ 122 then c - 32 else c) :: r

/-- A drive letter in upper case. -/
def upperDrive (s : List Nat) : List Nat := if Drive s then upperFirst s else s

/-- The path in the form for the system: absolute paths with the prefix `\\?\`, network paths with the prefix
`\\?\UNC\`, drive letters in upper case, anything else as it is. -/
def normal (s : List Nat) : List Nat :=
  if Begins unc s then s.take 8 ++ upperDrive (s.drop 8)
  else if uni <+: s then
    if Drive (s.drop 4) then uni ++ upperDrive (s.drop 4)
    else if vol <+: s.drop 4 then s
    else unc ++ s.drop 4
  else if Drive s then uni ++ upperDrive s
  else if [92, 92] <+: s then unc ++ s.drop 2
  else s

/-- Without a drive letter and its colon. -/
def afterDrive (s : List Nat) : List Nat := if Drive s then s.drop 2 else s

/-- The part of the path after prefixes and drive letter. -/
def body (s : List Nat) : List Nat :=
  if Begins unc s then afterDrive (s.drop 8)
  else if uni <+: s then afterDrive (s.drop 4)
  else afterDrive s

/-- The characters that must not be there: control characters, DEL and `: * ? " < > |`. -/
def Forbidden (c : Nat) : Prop :=
  c < 0x20 ∨ c = 0x7F ∨ c = 58 ∨ c = 42 ∨ c = 63 ∨ c = 34 ∨ c = 60 ∨ c = 62 ∨ c = 124

/-- The pieces of a string between its backslashes (at least one piece; pieces may be empty). -/
def pieces : List Nat → List (List Nat)
  | [] => [[]]
  | c :: s =>
    if c = 92 then [] :: pieces s
    else match pieces s with
      | [] => [[c]]
      | g :: gs => (c :: g) :: gs

/-- A name without its extensions. -/
def stem (w : List Nat) : List Nat := w.takeWhile (fun c => c ≠ 46)

/-- The names of devices: NUL, CON, AUX, PRN, CLOCK$, LPT0 to LPT9, COM0 to COM9, without regard to case. -/
def Reserved (w : List Nat) : Prop :=
  Same w [78, 85, 76] ∨ Same w [67, 79, 78] ∨ Same w [65, 85, 88] ∨ Same w [80, 82, 78] ∨
    Same w [67, 76, 79, 67, 75, 36] ∨
    ∃ d, 48 ≤ d ∧ d ≤ 57 ∧ (Same w [76, 80, 84, d] ∨ Same w [67, 79, 77, d])

/-- A path without forbidden characters, no component of which is the name of a device, with or without
extension. -/
def Acceptable (s : List Nat) : Prop :=
  (∀ c ∈ body s, ¬ Forbidden c) ∧ ∀ g ∈ pieces (body s), ¬ Reserved (stem g)

/-- A string is stored at the beginning of a buffer, terminated. -/
def Holds (buf s : List Nat) : Prop := ∃ rest, buf = s ++ 0 :: rest

end Verif.WinPath.Spec
