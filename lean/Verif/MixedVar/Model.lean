import Verif.Base

/-!
# Model of `StaticMixedVar<char[N]>` (templates/static_mixed_var.h)

`MxStr` is a list of `N` bytes; every access is checked.  Its initial contents are arbitrary (the constructor does not
initialise it).  A `const char *` read as a C string is the list of its characters (no zero byte); one with a size is
the memory it points to.  The text `snprintf` produces for a double is a parameter of the call.

Simplifications: `MxStrPos + size` does not wrap (both objects fit in the address space together), arguments do not
alias `MxStr`, doubles are opaque bit patterns.
-/

namespace Verif.MixedVar

/-- `enum StaticMixedVarModes`, static_mixed_var.h:14-22 -/
inductive Mode where
  | none | bool | int | uint | double | str
  deriving DecidableEq, Repr

/-- Members, static_mixed_var.h:30-34; `mxInt` is an `int64_t`, `dbl` the bits of the double -/
structure V where
  mode : Mode
  mxInt : Int
  dbl : UInt64
  str : List UInt8
  pos : Nat
  deriving DecidableEq, Repr

/-- Constructor, static_mixed_var.h:36-38; `junk` is what happens to be in `MxStr` -/
def construct (junk : List UInt8) : V := { mode := .none, mxInt := 0, dbl := 0, str := junk, pos := 0 }

/-- `(std::int64_t)x` for a `uint64_t` value -/
def toI64 (n : Nat) : Int := if n < 2 ^ 63 then n else (n : Int) - 2 ^ 64

/-- `GetBool`, static_mixed_var.h:71-74 -/
def getBool (v : V) : Bool := v.mxInt ≠ 0
/-- `GetInt`, static_mixed_var.h:76-79 -/
def getInt (v : V) : Int := v.mxInt
/-- `GetUInt`, static_mixed_var.h:81-84: conversion modulo 2^64 -/
def getUInt (v : V) : Nat := (v.mxInt % 2 ^ 64).toNat
/-- `GetDouble`, static_mixed_var.h:86-89 -/
def getDouble (v : V) : UInt64 := v.dbl

/-- `SetBool`, static_mixed_var.h:106-110 -/
def setBool (v : V) (b : Bool) : V := { v with mode := .bool, mxInt := if b then 1 else 0 }
/-- `SetInt`, static_mixed_var.h:112-116 -/
def setInt (v : V) (n : Int) : V := { v with mode := .int, mxInt := n }
/-- `SetUInt`, static_mixed_var.h:118-122 -/
def setUInt (v : V) (n : Nat) : V := { v with mode := .uint, mxInt := toI64 n }
/-- `SetDouble`, static_mixed_var.h:124-128 -/
def setDouble (v : V) (d : UInt64) : V := { v with mode := .double, dbl := d }

/-- The loop `while (MxStrPos < sizeof(MxStr) - 1 && *str)`, static_mixed_var.h:134-137, 200-203.
`sizeof(MxStr)` is at least 1. -/
def copyStr (v : V) : List UInt8 → CRes V
  | [] => .ok v
  | c :: cs =>
    if v.pos < v.str.length - 1 ∧ c ≠ 0 then do
      let m ← wr v.str v.pos c
      copyStr { v with str := m, pos := v.pos + 1 } cs
    else .ok v

/-- The loop `while (MxStrPos < sizeof(MxStr) - 1 && size)`, static_mixed_var.h:145-149, 209-213 -/
def copyData (v : V) (mem : List UInt8) : (size i : Nat) → CRes V
  | 0, _ => .ok v
  | n + 1, i =>
    if v.pos < v.str.length - 1 then do
      let c ← rd mem i
      let m ← wr v.str v.pos c
      copyData { v with str := m, pos := v.pos + 1 } mem n (i + 1)
    else .ok v

/-- `MxStr[MxStrPos] = '\0'` -/
def term (v : V) : CRes V := do
  let m ← wr v.str v.pos 0
  .ok { v with str := m }

/-- `AppendStr`, static_mixed_var.h:198-205 -/
def appendStr (v : V) (s : List UInt8) : CRes V := do
  let v ← copyStr v s
  term v

/-- `AppendData`, static_mixed_var.h:207-215 -/
def appendData (v : V) (mem : List UInt8) (size : Nat) : CRes V := do
  let v ← copyData v mem size 0
  term v

/-- `SetStr`, static_mixed_var.h:130-139 -/
def setStr (v : V) (s : List UInt8) : CRes V := appendStr { v with mode := .str, pos := 0 } s

/-- `SetData`, static_mixed_var.h:141-151 -/
def setData (v : V) (mem : List UInt8) (size : Nat) : CRes V := appendData { v with mode := .str, pos := 0 } mem size

/-- `PrependData`, static_mixed_var.h:165-173 -/
def prependData (v : V) (mem : List UInt8) (size : Nat) : CRes V :=
  if v.pos + size < v.str.length - 1 then do
    let m ← memmoveIn v.str size 0 (v.pos + 1)
    let m ← memcpyTo m 0 mem size
    .ok { v with str := m, pos := v.pos + size }
  else .ok v

/-- The characters up to the first zero byte (static_mixed_var.h 130-238). -/
def cstr : List UInt8 → List UInt8
  | [] => []
  | c :: cs => if c = 0 then [] else c :: cstr cs

/-- `PrependStr`, static_mixed_var.h:154-163: the same with `strlen(str)` -/
def prependStr (v : V) (s : List UInt8) : CRes V := prependData v s (cstr s).length

/-- `(char)(z > 9 ? z - 10 + 'A' : z + '0')`, static_mixed_var.h:296 -/
def digit (z : Nat) : UInt8 := if z > 9 then UInt8.ofNat (z - 10 + 65) else UInt8.ofNat (z + 48)

/-- The loop of `IntToString`, static_mixed_var.h:293-298; recursion follows `x`; `Num % Radix` with radix 0 is UB -/
def intLoop (radix : Nat) : (x : Nat) → List UInt8 → (num : Nat) → CRes (List UInt8 × Nat × Nat)
  | 0, m, num => .ok (m, 0, num)
  | x + 1, m, num =>
    if num = 0 then .ok (m, x + 1, num)
    else if radix = 0 then .error .divByZero
    else do
      let m ← wr m x (digit (num % radix))
      intLoop radix x m (num / radix)

/-- `IntToString(char *, size_t, uint64_t, size_t)`, static_mixed_var.h:281-305.  No check of the radix. -/
def intToStringU (m : List UInt8) (num radix : Nat) : CRes (Bool × List UInt8) :=
  if m.length < 2 then .ok (false, m)
  else do
    let m ← wr m (m.length - 1) 0
    if num = 0 then do
      let m ← wr m (m.length - 2) 48
      let m ← memmoveIn m 0 (m.length - 2) 2
      .ok (true, m)
    else do
      let (m, x, num) ← intLoop radix (m.length - 1) m num
      if num ≠ 0 then .ok (false, m)
      else do
        let m ← memmoveIn m 0 x (m.length - x)
        .ok (true, m)

/-- `IntToString(char *, size_t, int64_t, size_t)`, static_mixed_var.h:307-315; `-Num` overflows for the minimum -/
def intToStringI (m : List UInt8) (num : Int) (radix : Nat) : CRes (Bool × List UInt8) :=
  if 0 ≤ num then intToStringU m num.toNat radix
  else if m.length < 2 then .ok (false, m)
  else
    match m with
    | [] => .error .oobWrite
    | _ :: tl =>
      if num = -(2 ^ 63) then .error .signedOverflow
      else do
        let (ok, tl') ← intToStringU tl (-num).toNat radix
        .ok (ok, 45 :: tl')

/-- `if (IntToString(tempbuffer, …)) f(tempbuffer)`, static_mixed_var.h:175-185, 217-227 -/
def withInt (v : V) (r : CRes (Bool × List UInt8)) (f : V → List UInt8 → CRes V) : CRes V := do
  let (ok, t) ← r
  if ok then f v (cstr t) else .ok v

/-- `AppendChar`, static_mixed_var.h:243-250 -/
def appendChar (v : V) (c : UInt8) : CRes V :=
  if v.pos < v.str.length - 1 then do
    let m ← wr v.str v.pos c
    term { v with str := m, pos := v.pos + 1 }
  else .ok v

/-- Does the text end with `chr`?  The test of static_mixed_var.h:254, 263 -/
def endsWith (v : V) (c : UInt8) : CRes Bool :=
  if v.pos = 0 then .ok false
  else do
    let x ← rd v.str (v.pos - 1)
    .ok (x = c)

/-- `AppendMissingChar`, static_mixed_var.h:252-259 -/
def appendMissingChar (v : V) (c : UInt8) : CRes V := do
  let e ← endsWith v c
  if e then .ok v else appendChar v c

/-- `RemoveTrailingChar`, static_mixed_var.h:261-268 -/
def removeTrailingChar (v : V) (c : UInt8) : CRes (Bool × V) := do
  let e ← endsWith v c
  if e then do
    let v ← term { v with pos := v.pos - 1 }
    .ok (true, v)
  else .ok (false, v)

/-- `SetSize`, static_mixed_var.h:270-277 -/
def setSize (v : V) (n : Nat) : CRes V :=
  if n < v.str.length then term { v with pos := n } else .ok v

/-- All modifying calls.  The text of a double is what `snprintf` left in `tempbuffer[100]`. -/
inductive Op where
  | setBool (b : Bool)
  | setInt (n : Int)
  | setUInt (n : Nat)
  | setDouble (d : UInt64)
  | setStr (s : List UInt8)
  | setData (mem : List UInt8) (size : Nat)
  | prependStr (s : List UInt8)
  | prependData (mem : List UInt8) (size : Nat)
  | prependInt (n : Int) (radix : Nat)
  | prependUInt (n : Nat) (radix : Nat)
  | prependDouble (printed : List UInt8)
  | appendStr (s : List UInt8)
  | appendData (mem : List UInt8) (size : Nat)
  | appendInt (n : Int) (radix : Nat)
  | appendUInt (n : Nat) (radix : Nat)
  | appendDouble (printed : List UInt8)
  | appendChar (c : UInt8)
  | appendMissingChar (c : UInt8)
  | removeTrailingChar (c : UInt8)
  | setSize (n : Nat)
  deriving DecidableEq, Repr

/-- One call; the temporary number buffer starts as zeros (it is never read before being written)
(static_mixed_var.h 106-278). -/
def step (v : V) : Op → CRes V
  | .setBool b => .ok (setBool v b)
  | .setInt n => .ok (setInt v n)
  | .setUInt n => .ok (setUInt v n)
  | .setDouble d => .ok (setDouble v d)
  | .setStr s => setStr v s
  | .setData mem n => setData v mem n
  | .prependStr s => prependStr v s
  | .prependData mem n => prependData v mem n
  | .prependInt n r => withInt v (intToStringI (List.replicate 44 0) n r) prependStr
  | .prependUInt n r => withInt v (intToStringU (List.replicate 44 0) n r) prependStr
  | .prependDouble t => prependStr v t
  | .appendStr s => appendStr v s
  | .appendData mem n => appendData v mem n
  | .appendInt n r => withInt v (intToStringI (List.replicate 44 0) n r) appendStr
  | .appendUInt n r => withInt v (intToStringU (List.replicate 44 0) n r) appendStr
  | .appendDouble t => appendStr v t
  | .appendChar c => appendChar v c
  | .appendMissingChar c => appendMissingChar v c
  | .removeTrailingChar c => do let (_, v) ← removeTrailingChar v c; .ok v
  | .setSize n => setSize v n

/-- A history of calls (calls of static_mixed_var.h 106-278). -/
def run (v : V) : List Op → CRes V
  | [] => .ok v
  | o :: os => do
    let v ← step v o
    run v os

end Verif.MixedVar
