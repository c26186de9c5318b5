import Verif.Base

/-!
# Model of `Convert::Int::ToString` (convert/convert_int.cpp)

The caller's buffer `char Result[Size]` is the list `m`, `Size = m.length`.  All writes are checked, so an
access outside `Result[0..Size)` would be the outcome `.error .oobWrite`.
-/

namespace Verif.ConvertInt

/-- `(char)(z > 9 ? z - 10 + 'A' : z + '0')`, convert_int.cpp:33 -/
def digitChar (z : Nat) : UInt8 :=
  if z > 9 then UInt8.ofNat (z - 10 + 65) else UInt8.ofNat (z + 48)

/-- How the `while` loop is left (convert_int.cpp 14-44). -/
inductive Exit where
  /-- `return false` inside the loop (line 29) -/
  | ret (m : List UInt8)
  /-- loop condition false: buffer, position `x`, remaining `Num` -/
  | fall (m : List UInt8) (x : Nat) (num : Nat)
  deriving DecidableEq, Repr

/-- The loop `while (Num && x) {…}`, convert_int.cpp:24-36.  Recursion follows `x`, which every
iteration decrements once (digit) or twice (separator and digit). -/
def loop (sep : UInt8) (radix : Nat) : (x : Nat) → List UInt8 → (y num : Nat) → CRes Exit
  | 0, m, _, num => .ok (.fall m 0 num)
  | 1, m, y, num =>
    if num = 0 then .ok (.fall m 1 num)
    else if sep ≠ 0 ∧ y ≠ 0 ∧ y % 3 = 0 then do
      let m ← wr m 0 sep
      .ok (.ret m)
    else do
      let m ← wr m 0 (digitChar (num % radix))
      .ok (.fall m 0 (num / radix))
  | x + 2, m, y, num =>
    if num = 0 then .ok (.fall m (x + 2) num)
    else if sep ≠ 0 ∧ y ≠ 0 ∧ y % 3 = 0 then do
      let m ← wr m (x + 1) sep
      let m ← wr m x (digitChar (num % radix))
      loop sep radix x m (y + 1) (num / radix)
    else do
      let m ← wr m (x + 1) (digitChar (num % radix))
      loop sep radix (x + 1) m (y + 1) (num / radix)

/-- `Int::ToString(char *, size_t, uint64_t, char, size_t)`, convert_int.cpp:14-44.
`Size` is `m.length`; `num` is a `uint64_t` value.  Returns the result flag and the buffer. -/
def toStringU (m : List UInt8) (num : Nat) (sep : UInt8) (radix : Nat) : CRes (Bool × List UInt8) :=
  if m.length < 2 ∨ radix < 2 ∨ radix > 36 then .ok (false, m)                 -- line 16
  else do
    let m ← wr m (m.length - 1) 0                                              -- line 20
    if num = 0 then
      let m ← wr m (m.length - 2) 48                                           -- line 21
      let m ← memmoveIn m 0 (m.length - 2) 2                                   -- line 41
      .ok (true, m)
    else
      match ← loop sep radix (m.length - 1) m 0 num with                       -- lines 24-36
      | .ret m => .ok (false, m)                                               -- line 29
      | .fall m x num =>
        if num ≠ 0 then .ok (false, m)                                         -- line 38
        else do
          let m ← memmoveIn m 0 x (m.length - x)                               -- line 41
          .ok (true, m)

/-- `Int::ToString(char *, size_t, int64_t, char, size_t)`, convert_int.cpp:46-54.
`num` is an `int64_t` value; the negation `-Num` of the minimum value overflows (UB). -/
def toStringI (m : List UInt8) (num : Int) (sep : UInt8) (radix : Nat) : CRes (Bool × List UInt8) :=
  if 0 ≤ num then toStringU m num.toNat sep radix                              -- line 48
  else if m.length < 2 then .ok (false, m)                                     -- line 50
  else
    match m with
    | [] => .error .oobWrite
    | _ :: tl =>
      -- `Result[0] = '-'`, then the call on `Result + 1, Size - 1`              -- lines 51-53
      if num = -(2 ^ 63) then .error .signedOverflow
      else do
        let (ok, tl') ← toStringU tl (-num).toNat sep radix
        .ok (ok, 45 :: tl')

end Verif.ConvertInt
