/-!
# Specification of integer rendering, independent of the model
-/

namespace Verif.ConvertInt.Spec

/-- The digit characters `0-9A-Z` in order. -/
def digitChars : List UInt8 :=
  [48, 49, 50, 51, 52, 53, 54, 55, 56, 57, 65, 66, 67, 68, 69, 70, 71, 72, 73, 74, 75, 76, 77, 78, 79,
   80, 81, 82, 83, 84, 85, 86, 87, 88, 89, 90]

/-- Value of a digit list, most significant digit first. -/
def valueOf (radix : Nat) (ds : List Nat) : Nat := ds.foldl (fun acc d => acc * radix + d) 0

/-- `ds` is the numeral of `n` in base `radix`: proper digits, right value, non-empty, and no
leading zero unless it is the numeral `0`. -/
def IsNumeral (radix n : Nat) (ds : List Nat) : Prop :=
  (∀ d ∈ ds, d < radix) ∧ valueOf radix ds = n ∧ ds ≠ [] ∧ (ds.head? = some 0 → ds = [0])

/-- Separator placement: after a digit comes a separator exactly when the number of digits still to
come is a positive multiple of three.  No separator at all if `sep` is NUL. -/
def group (sep : UInt8) : List UInt8 → List UInt8
  | [] => []
  | c :: cs =>
    if sep ≠ 0 ∧ cs ≠ [] ∧ cs.length % 3 = 0 then c :: sep :: group sep cs
    else c :: group sep cs

/-- `text` is the rendering of the number `n`: the digit characters of its numeral with the
separators inserted. -/
def IsRendering (radix : Nat) (sep : UInt8) (n : Nat) (text : List UInt8) : Prop :=
  ∃ ds, IsNumeral radix n ds ∧ ∃ cs : List UInt8,
    cs.map some = ds.map (fun d => digitChars[d]?) ∧ text = group sep cs

/-- Reading a text in base `radix`: the value of its digit characters; `none` if some character is
not a digit of the base. -/
def parse (radix : Nat) (text : List UInt8) : Option Nat :=
  text.foldl (fun acc c => do
    let a ← acc
    let d ← digitChars.findIdx? (· == c)
    if d < radix then some (a * radix + d) else none) (some 0)

end Verif.ConvertInt.Spec
