import Verif.WinAbs.Spec

/-!
# Names in UTF-16, the calendar, and permissions
-/

namespace Verif.WinOps.Spec

open Verif.Utf8.Spec (GoodText text)
open Verif.WinPath.Spec (canon normal Same)
open Verif.WinAbs.Spec (prefixLen volume)

/-- `w` is the name `f` in the form for the system, in UTF-16. -/
def Wide (f w : List Nat) : Prop := ∃ cps, GoodText cps ∧ normal (canon f) = text 1 cps ∧ w = text 2 cps

/-- Leap years of the Gregorian calendar. -/
def leap (y : Nat) : Bool := (y % 4 = 0 && y % 100 ≠ 0) || y % 400 = 0

/-- The days in the `n` years from `y` on. -/
def days (y : Nat) : Nat → Nat
  | 0 => 0
  | n + 1 => (if leap y then 366 else 365) + days (y + 1) n

/-- Midnight of 1 January 1970 in units of 100 nanoseconds since 1 January 1601. -/
def unixEpoch : Nat := days 1601 369 * 86400 * 10000000

/-- Somebody may write. -/
def Writable (mode : Nat) : Prop := mode / 0o200 % 2 = 1 ∨ mode / 0o20 % 2 = 1 ∨ mode / 0o2 % 2 = 1

instance (m : Nat) : Decidable (Writable m) := by unfold Writable; infer_instance

/-- A name of more than four characters that ends with .exe, .com, .bat or .cmd, in any case. -/
def Program (s : List Nat) : Prop :=
  ∃ a e, a ≠ [] ∧ s = a ++ 46 :: e ∧ (Same e [101, 120, 101] ∨ Same e [99, 111, 109] ∨ Same e [98, 97, 116] ∨ Same e [99, 109, 100])

/-- The number of the drive of a path with a volume, 0 if the volume is not a drive. -/
def driveNo (s : List Nat) : Option Nat :=
  if prefixLen s = 0 then none
  else match (volume s).drop (prefixLen s) with
    | [c, d] => if 65 ≤ c ∧ c ≤ 90 ∧ d = 58 then some (c - 65) else some 0
    | _ => some 0

end Verif.WinOps.Spec
