import Verif.MixedVar.Model
import Verif.Utf8.Model

/-!
# Model of `UTF8MixedVar<char[N]>` (utf8/utf8_mixed_var.h)

The variable is that of `Verif.MixedVar`, the conversion that of `Verif.Utf8`.  `width` is `sizeof(WCHAR)`.  A wide C
string is the list of its units without the terminator.  `Util::ConvertToUTF8` gets a pointer into `MxStr`; the object it
may write to is the rest of `MxStr` from there on.
-/

namespace Verif.Utf8Var
open Verif.MixedVar (V)

/-- `Util::ConvertToUTF8(src, srcsize, width, MxStr + off, size)` with `size = max` on entry: the array and the final `size`
(utf8_mixed_var.h 34, 53). -/
def convertAt (str : List UInt8) (off : Nat) (src : List Nat) (width max : Nat) : CRes (List UInt8 × Nat) := do
  let (d, _) ← Utf8.convertTo src width (some ((str.drop off).map UInt8.toNat)) max none
  match d.buf with
  | none => .error .nullDeref
  | some b => .ok (str.take off ++ b.map UInt8.ofNat, d.size)

/-- `MxStrPos == sizeof(MxStr) || (MxStrPos && MxStr[MxStrPos - 1] == '\0')` (utf8_mixed_var.h 35, 55). -/
def mustStepBack (v : V) : CRes Bool :=
  if v.pos = v.str.length then .ok true
  else if v.pos = 0 then .ok false
  else do
    let c ← rd v.str (v.pos - 1)
    .ok (c = 0)

/-- The test, `MxStrPos--`, and the terminator (utf8_mixed_var.h 35-36, 55-56). -/
def finish (v : V) : CRes V := do
  let back ← mustStepBack v
  MixedVar.term { v with pos := if back then v.pos - 1 else v.pos }

/-- `SetUTF8(src, srcsize)` (utf8_mixed_var.h 30-37). -/
def setUTF8 (v : V) (mem : List Nat) (size width : Nat) : CRes V :=
  if mem.length < size then .error .oobRead
  else do
    let (str, pos) ← convertAt v.str 0 (mem.take size) width v.str.length
    finish { v with mode := .str, str := str, pos := pos }

/-- `AppendUTF8(src)` (utf8_mixed_var.h 49-57): the number of units limits the number of bytes. -/
def appendUTF8 (v : V) (src : List Nat) (width : Nat) : CRes V := do
  let size := if src.length > v.str.length - v.pos then v.str.length - v.pos else src.length
  let (str, n) ← convertAt v.str v.pos (src.take size) width size
  finish { v with str := str, pos := v.pos + n }

/-- `ConvertFromUTF8(DestData, DestDataSize)` (utf8_mixed_var.h 44-47). -/
def getWide (v : V) (dest : List Nat) (max width : Nat) : CRes Utf8.D :=
  if v.str.length < v.pos + 1 then .error .oobRead
  else Utf8.convertFrom ((v.str.take (v.pos + 1)).map UInt8.toNat) (some dest) max width

/-- All modifying calls of `UTF8MixedVar` and its base class (utf8_mixed_var.h 27-57). -/
inductive Op where
  | base (o : MixedVar.Op)
  | setUTF8 (mem : List Nat) (size : Nat)
  | appendUTF8 (src : List Nat)

/-- One call (utf8_mixed_var.h 27-57). -/
def step (width : Nat) (v : V) : Op → CRes V
  | .base o => MixedVar.step v o
  | .setUTF8 mem n => setUTF8 v mem n width
  | .appendUTF8 src => appendUTF8 v src width

/-- A history of calls (utf8_mixed_var.h 27-57). -/
def run (width : Nat) (v : V) : List Op → CRes V
  | [] => .ok v
  | o :: os => do
    let v ← step width v o
    run width v os

end Verif.Utf8Var
