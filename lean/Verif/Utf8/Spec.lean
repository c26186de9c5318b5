/-!
# Unicode encoding forms, by arithmetic
-/

namespace Verif.Utf8.Spec

/-- Unicode code points the library accepts: scalar values that are not noncharacters. -/
def Valid (n : Nat) : Prop :=
  n ≤ 0x10FFFF ∧ ¬ (0xD800 ≤ n ∧ n ≤ 0xDFFF) ∧ ¬ (0xFDD0 ≤ n ∧ n ≤ 0xFDEF) ∧ n % 0x10000 < 0xFFFE

/-- Combining marks (the blocks the library knows). -/
def Combining (n : Nat) : Prop :=
  (0x300 ≤ n ∧ n ≤ 0x36F) ∨ (0x1DC0 ≤ n ∧ n ≤ 0x1DFF) ∨ (0x20D0 ≤ n ∧ n ≤ 0x20FF) ∨
    (0xFE20 ≤ n ∧ n ≤ 0xFE2F)

instance (n : Nat) : Decidable (Valid n) := by unfold Valid; infer_instance
instance (n : Nat) : Decidable (Combining n) := by unfold Combining; infer_instance

/-- The UTF-8 form of a code point. -/
def enc8 (n : Nat) : List Nat :=
  if n < 0x80 then [n]
  else if n < 0x800 then [0xC0 + n / 64, 0x80 + n % 64]
  else if n < 0x10000 then [0xE0 + n / 4096, 0x80 + n / 64 % 64, 0x80 + n % 64]
  else [0xF0 + n / 262144, 0x80 + n / 4096 % 64, 0x80 + n / 64 % 64, 0x80 + n % 64]

/-- The UTF-16 form of a code point. -/
def enc16 (n : Nat) : List Nat :=
  if n < 0x10000 then [n] else [0xD800 + (n - 0x10000) / 1024, 0xDC00 + (n - 0x10000) % 1024]

/-- The form with units of `width` bytes. -/
def enc (width n : Nat) : List Nat :=
  if width = 1 then enc8 n else if width = 2 then enc16 n else [n]

/-- The text of a list of code points. -/
def text (width : Nat) (cps : List Nat) : List Nat := cps.flatMap (enc width)

/-- A list of code points is acceptable text: all valid, and it does not start with a combining
mark. -/
def GoodText (cps : List Nat) : Prop :=
  (∀ c ∈ cps, Valid c) ∧ ∀ c, cps.head? = some c → ¬ Combining c

/-- Reading 16-bit units: a high surrogate takes the next unit with it, whatever that is; the two
give a code point if the second is a low surrogate. -/
def decode16 : List Nat → List Nat
  | [] => []
  | u :: r =>
    if u < 0xD800 ∨ 0xDC00 ≤ u then u :: decode16 r
    else match r with
      | [] => []
      | v :: r' =>
        if 0xDC00 ≤ v ∧ v ≤ 0xDFFF then
          (0x10000 + (u - 0xD800) * 1024 + (v - 0xDC00)) :: decode16 r'
        else decode16 r'

end Verif.Utf8.Spec
