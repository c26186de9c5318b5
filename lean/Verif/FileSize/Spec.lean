import Verif.ConvertInt.Spec

/-! # Specification of file size rendering, independent of the model -/

namespace Verif.FileSize.Spec
open ConvertInt.Spec

/-- Unit index `k` (unit `1024^k` bytes, letters K M G T P E for 1..6) chosen for a number, as an ordering
statement: in the "browser" format (fraction digits requested) a unit above K is used from 1000 of the
next smaller unit on; in the strict format from one full unit on. -/
def UnitIndex (browser : Bool) (num k : Nat) : Prop :=
  let start (j : Nat) : Nat := if j = 0 then 0 else if browser ∧ 2 ≤ j then 1000 * 1024 ^ (j - 1) else 1024 ^ j
  k ≤ 6 ∧ start k ≤ num ∧ ∀ j, j ≤ 6 → k < j → num < start j

/-- The suffix text of a unit: the bytes unit name, or the letter followed by `B`. -/
def suffix (unit : List UInt8) : Nat → List UInt8
  | 0 => unit
  | 1 => [75, 66]
  | 2 => [77, 66]
  | 3 => [71, 66]
  | 4 => [84, 66]
  | 5 => [80, 66]
  | _ => [69, 66]

/-- `frac` consists of exactly `f` decimal digits whose value is `v`. -/
def IsFraction (f v : Nat) (frac : List UInt8) : Prop :=
  ∃ ds : List Nat, ds.length = f ∧ (∀ d ∈ ds, d < 10) ∧ valueOf 10 ds = v ∧
    frac = ds.map (fun d => UInt8.ofNat (48 + d))

/-- The text the function should print: integer part, fraction (for units above K when requested)
truncated to `f` digits, unit separator and unit name. -/
def IsText (num numFrac : Nat) (numSep decSep unitSep : UInt8) (unit text : List UInt8) : Prop :=
  ∃ k ip, UnitIndex (numFrac ≠ 0) num k ∧ IsRendering 10 numSep (num / 1024 ^ k) ip ∧
    ∃ fr, (if numFrac ≠ 0 ∧ 2 ≤ k then
        ∃ ds, IsFraction numFrac (num % 1024 ^ k * 10 ^ numFrac / 1024 ^ k) ds ∧ fr = decSep :: ds
      else fr = []) ∧
    text = ip ++ fr ++ (if unitSep ≠ 0 then [unitSep] else []) ++ suffix unit k

end Verif.FileSize.Spec
