import Verif.ConvertInt.Model

/-!
# Model of `Convert::Int::ToFilesizeString` (convert/convert_int.cpp:56-224)

`m` is the caller's buffer (`Size = m.length`), `unit` the bytes of the C string `BytesUnit` before its
terminator, `num` and `numFrac` are 64-bit unsigned values.
-/

namespace Verif.FileSize
open ConvertInt (loop)

/-- `uint64_t`/`size_t` wrap-around. -/
def W : Nat := 2 ^ 64

/-- Choice of unit letter, divider and number of fraction digits, convert_int.cpp:65-146.
The letter is 0 for plain bytes. -/
def pick (num numFrac : Nat) : UInt8 × Nat × Nat :=
  if numFrac ≠ 0 then
    -- Windows/web browser format, lines 68-104
    if num ≥ 1125899906842624000 then (69, 1152921504606846976, numFrac)
    else if num ≥ 1099511627776000 then (80, 1125899906842624, numFrac)
    else if num ≥ 1073741824000 then (84, 1099511627776, numFrac)
    else if num ≥ 1048576000 then (71, 1073741824, numFrac)
    else if num ≥ 1024000 then (77, 1048576, numFrac)
    else if num ≥ 1024 then (75, 1024, 0)
    else (0, 1, 0)
  else
    -- strict format, lines 109-145
    if num ≥ 1152921504606846976 then (69, 1152921504606846976, numFrac)
    else if num ≥ 1125899906842624 then (80, 1125899906842624, numFrac)
    else if num ≥ 1099511627776 then (84, 1099511627776, numFrac)
    else if num ≥ 1073741824 then (71, 1073741824, numFrac)
    else if num ≥ 1048576 then (77, 1048576, numFrac)
    else if num ≥ 1024 then (75, 1024, 0)
    else (0, 1, 0)

/-- `Result[--x] = v` (convert_int.cpp 56-214). -/
def wrPre (m : List UInt8) (x : Nat) (v : UInt8) : CRes (List UInt8 × Nat) :=
  if x = 0 then .error .oobWrite
  else do
    let m ← wr m (x - 1) v
    .ok (m, x - 1)

/-- `for (x2 = 0; x2 < NumFrac; x2++) Extra *= 10ULL;`, convert_int.cpp:167, with 64-bit wrap-around -/
def mulTen : Nat → Nat → Nat
  | 0, e => e
  | f + 1, e => mulTen f (e * 10 % W)

/-- `while (Extra && NumFrac && x) {…}`, convert_int.cpp:170-175.  Returns buffer, `x`, `NumFrac`, `Extra`. -/
def fracLoop : (numFrac : Nat) → List UInt8 → (x extra : Nat) → CRes (List UInt8 × Nat × Nat × Nat)
  | 0, m, x, e => .ok (m, x, 0, e)
  | f + 1, m, x, e =>
    if e ≠ 0 ∧ x ≠ 0 then do
      let (m, x) ← wrPre m x (UInt8.ofNat (e % 10) + 48)
      fracLoop f m x (e / 10)
    else .ok (m, x, f + 1, e)

/-- `while (NumFrac && x) {…}`, convert_int.cpp:177-181.  Returns buffer and `x`. -/
def padLoop : (numFrac : Nat) → List UInt8 → (x : Nat) → CRes (List UInt8 × Nat)
  | 0, m, x => .ok (m, x)
  | f + 1, m, x =>
    if x ≠ 0 then do
      let (m, x) ← wrPre m x 48
      padLoop f m x
    else .ok (m, x)

/-- Lines 190-213: the integer part and the final `memmove`. -/
def intPart (m : List UInt8) (x num divider : Nat) (numSep : UInt8) : CRes (Bool × List UInt8) := do
  let num := num / divider                                                     -- line 190
  if num = 0 then
    let (m, x) ← wrPre m x 48                                                  -- line 192
    let m ← memmoveIn m 0 x (m.length - x)
    .ok (true, m)
  else
    match ← loop numSep 10 x m 0 num with                                      -- lines 195-206
    | .ret m => .ok (false, m)                                                 -- line 200
    | .fall m x num =>
      if num ≠ 0 then .ok (false, m)                                           -- line 208
      else do
        let m ← memmoveIn m 0 x (m.length - x)                                 -- line 211
        .ok (true, m)

/-- Lines 148-158: the unit letter, or `strcpy(Result + x, BytesUnit)`. -/
def putName (m : List UInt8) (trail : UInt8) (unit : List UInt8) : CRes (List UInt8 × Nat) :=
  if trail ≠ 0 then do
    let (m, x) ← wrPre m m.length 0                                            -- line 150
    let (m, x) ← wrPre m x 66                                                  -- line 151
    wrPre m x trail                                                            -- line 152
  else do
    let m' ← memcpyTo m (m.length - unit.length - 1) (unit ++ [0]) (unit.length + 1)  -- lines 156-157
    .ok (m', m.length - unit.length - 1)

/-- Lines 148-160: unit name and unit separator. -/
def putUnit (m : List UInt8) (trail unitSep : UInt8) (unit : List UInt8) : CRes (List UInt8 × Nat) := do
  let (m, x) ← putName m trail unit
  if unitSep ≠ 0 then wrPre m x unitSep else .ok (m, x)                        -- line 160

/-- Lines 162-213: fraction, decimal separator, integer part. -/
def putNumber (m : List UInt8) (x num divider numFrac : Nat) (numSep decSep : UInt8) :
    CRes (Bool × List UInt8) :=
  if numFrac ≠ 0 then
    if x < (numFrac + 2) % W then .ok (false, m)                               -- line 164
    else do
      let (m, x, f, extra) ←
        fracLoop numFrac m x (mulTen numFrac (num % divider) / divider)        -- lines 166-175
      let (m, x) ← padLoop f m x
      if extra ≠ 0 ∨ x = 0 then .ok (false, m)                                 -- line 183
      else do
        let (m, x) ← wrPre m x decSep                                          -- line 185
        if x = 0 then .ok (false, m)                                           -- line 187
        else intPart m x num divider numSep
  else intPart m x num divider numSep

/-- `Int::ToFilesizeString(char *, size_t, uint64_t, …)`, convert_int.cpp:56-214 -/
def toFilesizeU (m : List UInt8) (num numFrac : Nat) (numSep decSep unitSep : UInt8)
    (unit : List UInt8) : CRes (Bool × List UInt8) :=
  if m.length < 5 + unit.length then .ok (false, m)                            -- line 61
  else
    match pick num numFrac with
    | (trail, divider, numFrac) => do
      let (m, x) ← putUnit m trail unitSep unit
      putNumber m x num divider numFrac numSep decSep

/-- `Int::ToFilesizeString(char *, size_t, int64_t, …)`, convert_int.cpp:216-224 -/
def toFilesizeI (m : List UInt8) (num : Int) (numFrac : Nat) (numSep decSep unitSep : UInt8)
    (unit : List UInt8) : CRes (Bool × List UInt8) :=
  if 0 ≤ num then toFilesizeU m num.toNat numFrac numSep decSep unitSep unit   -- line 218
  else if m.length < 2 then .ok (false, m)                                     -- line 220
  else
    match m with
    | [] => .error .oobWrite
    | _ :: tl =>
      if num = -(2 ^ 63) then .error .signedOverflow                           -- line 223
      else do
        let (ok, tl') ← toFilesizeU tl (-num).toNat numFrac numSep decSep unitSep unit
        .ok (ok, 45 :: tl')

end Verif.FileSize
