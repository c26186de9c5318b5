/-!
# Specification of object names, independent of the model
-/

namespace Verif.ShmName.Spec

/-- The decimal numeral of a number as ASCII text. -/
def numeral (n : Nat) : List UInt8 := (Nat.toDigits 10 n).map fun c => UInt8.ofNat c.toNat

/-- `/`, `\` and `_`: the characters that names do not tell apart. -/
def slashLike (b : UInt8) : Prop := b = 47 ∨ b = 92 ∨ b = 95

/-- Two characters are alike if they are equal or both slash-like. -/
def alike (a b : UInt8) : Prop := a = b ∨ (slashLike a ∧ slashLike b)

/-- Two names are alike if they are so character by character. -/
def Alike : List UInt8 → List UInt8 → Prop
  | [], [] => True
  | a :: as, b :: bs => alike a b ∧ Alike as bs
  | _, _ => False

/-- The number of allocation units of `al` bytes needed for `n` bytes. -/
def units (al n : Nat) : Nat := (n + al - 1) / al

/-- The full text of an object name: prefix, alignment, size, name. -/
def fullText (pre : List UInt8) (al total : Nat) (name : List UInt8) : List UInt8 :=
  pre ++ [45] ++ numeral al ++ [45] ++ numeral total ++ [45] ++ name

/-- A name `shm_open` accepts and that has the same meaning on every system: a slash, then a
non-empty text with no further slash and no NUL, all in less than `cap` characters. -/
def Valid (cap : Nat) (s : List UInt8) : Prop :=
  ∃ w, s = 47 :: w ∧ w ≠ [] ∧ 47 ∉ w ∧ 0 ∉ w ∧ s.length < cap

end Verif.ShmName.Spec
