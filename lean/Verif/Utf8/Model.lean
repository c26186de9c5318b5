import Verif.Base

/-!
# Model of `UTF8::Util` (utf8/utf8_util.cpp)

Bytes, 16-bit and 32-bit units are natural numbers; every store goes through the cast the code
makes (`% 256`, `% 65536`), and theorems about arbitrary input assume that input units are in the
range of their type.  A NULL destination is `none`.

Simplifications.
* `size_t` arithmetic is on unbounded numbers.
* The test for the next UTF-8 sequence is written out in `ConvertToUTF8` and again in
  `ConvertFromUTF8`; the model has it once (`decodeAt`).
* Allocation does not fail.
-/

namespace Verif.Utf8

/-- A destination: the buffer (`none` for NULL) and `DestDataSize` (utf8_util.cpp 67-249). -/
structure D where
  buf : Option (List Nat)
  size : Nat
  deriving DecidableEq

/-- `DestData[DestDataSize++] = v` for each value of a list (utf8_util.cpp 67-126, 207-249). -/
def put (b : List Nat) (i : Nat) : List Nat → CRes (List Nat)
  | [] => .ok b
  | v :: vs => do
    let b ← wr b i v
    put b (i + 1) vs

/-- The pattern common to all branches that store: NULL counts only; a store that would not fit is
refused; otherwise the units are stored (e.g. utf8_util.cpp 79-81). -/
def store (d : D) (max : Nat) (vs : List Nat) : CRes (Bool × D) :=
  match d.buf with
  | none => .ok (true, { d with size := d.size + vs.length })
  | some b =>
    if d.size + (vs.length - 1) ≥ max then .ok (false, d)
    else do
      let b ← put b d.size vs
      .ok (true, { buf := some b, size := d.size + vs.length })

/-- The code points rejected by the first test (utf8_util.cpp 72). -/
def reserved (cp : Nat) : Bool :=
  (cp ≥ 0xD800 && cp ≤ 0xDFFF) || (cp ≥ 0xFDD0 && cp ≤ 0xFDEF) || (cp &&& 0xFFFE) == 0xFFFE

/-- `IsCombiningCodePoint` (utf8_util.cpp 392-395), also written out at 75 and 218. -/
def isCombining (cp : Nat) : Bool :=
  (cp ≥ 0x0300 && cp ≤ 0x036F) || (cp ≥ 0x1DC0 && cp ≤ 0x1DFF) ||
    (cp ≥ 0x20D0 && cp ≤ 0x20FF) || (cp ≥ 0xFE20 && cp ≤ 0xFE2F)

/-- `AppendUTF8CodePoint` (utf8_util.cpp 67-126). -/
def appendUTF8 (cp : Nat) (d : D) (max : Nat) : CRes (Bool × D) :=
  if reserved cp then .ok (false, d)
  else if d.size = 0 ∧ isCombining cp then .ok (false, d)
  else if cp ≤ 0x7F then store d max [cp % 256]
  else if cp ≤ 0x07FF then
    store d max [(0xC0 ||| (cp >>> 6)) % 256, (0x80 ||| (cp &&& 0x3F)) % 256]
  else if cp ≤ 0xFFFF then
    store d max [(0xE0 ||| (cp >>> 12)) % 256, (0x80 ||| ((cp >>> 6) &&& 0x3F)) % 256,
      (0x80 ||| (cp &&& 0x3F)) % 256]
  else if cp ≤ 0x10FFFF then
    store d max [(0xF0 ||| (cp >>> 18)) % 256, (0x80 ||| ((cp >>> 12) &&& 0x3F)) % 256,
      (0x80 ||| ((cp >>> 6) &&& 0x3F)) % 256, (0x80 ||| (cp &&& 0x3F)) % 256]
  else .ok (false, d)

/-- `(SrcData[i] & 0xC0) == 0x80` for `k` bytes from `i`, stopping at the first that fails. -/
def conts (src : List Nat) : Nat → Nat → CRes Bool
  | _, 0 => .ok true
  | i, k + 1 => do
    let b ← rd src i
    if b &&& 0xC0 = 0x80 then conts src (i + 1) k else .ok false

/-- `c && m` with `m` evaluated only if `c` holds (utf8_util.cpp 128-205). -/
def andThen (c : Bool) (m : CRes Bool) : CRes Bool := if c then m else .ok false

/-- The sequence starting at `x`: its value and length, or nothing if the byte has to be skipped
(utf8_util.cpp 142-167 and 262-287). -/
def decodeAt (src : List Nat) (x : Nat) : CRes (Option (Nat × Nat)) := do
  let b ← rd src x
  let n := src.length
  if b ≤ 0x7F then .ok (some (b, 1))
  else do
    let c2 ← andThen (x + 1 < n && (b &&& 0xE0) == 0xC0) (conts src (x + 1) 1)
    if c2 then do
      let b1 ← rd src (x + 1)
      .ok (some (((b &&& 0x1F) <<< 6) ||| (b1 &&& 0x3F), 2))
    else do
      let c3 ← andThen (x + 2 < n && (b &&& 0xF0) == 0xE0) (conts src (x + 1) 2)
      if c3 then do
        let b1 ← rd src (x + 1)
        let b2 ← rd src (x + 2)
        .ok (some (((b &&& 0x0F) <<< 12) ||| ((b1 &&& 0x3F) <<< 6) ||| (b2 &&& 0x3F), 3))
      else do
        let c4 ← andThen (x + 3 < n && (b &&& 0xF8) == 0xF0) (conts src (x + 1) 3)
        if c4 then do
          let b1 ← rd src (x + 1)
          let b2 ← rd src (x + 2)
          let b3 ← rd src (x + 3)
          .ok (some (((b &&& 0x07) <<< 18) ||| ((b1 &&& 0x3F) <<< 12) ||| ((b2 &&& 0x3F) <<< 6) |||
            (b3 &&& 0x3F), 4))
        else .ok none

/-- What the branches of the one-byte loop store in `*LastPos` when the code point was appended
(utf8_util.cpp 147, 153, 158, 164): nothing for three-byte sequences, the start of a four-byte
sequence. -/
def lastPos1 (ok : Bool) (x len : Nat) (lp : Option Nat) : Option Nat :=
  match lp with
  | none => none
  | some v =>
    if ok then
      if len = 3 then some v else if len = 4 then some x else some (x + len)
    else some v

/-- The loop of `ConvertToUTF8` for one-byte units (utf8_util.cpp 139-168). -/
def toLoop1 (src : List Nat) (max : Nat) : Nat → Nat → D → Option Nat → CRes (D × Option Nat)
  | 0, _, _, _ => .error .diverges
  | k + 1, x, d, lp =>
    if x < src.length then do
      let r ← decodeAt src x
      match r with
      | none => toLoop1 src max k (x + 1) d lp
      | some (cp, len) => do
        let (ok, d) ← appendUTF8 cp d max
        toLoop1 src max k (x + len) d (lastPos1 ok x len lp)
    else .ok (d, lp)

/-- `if (ok && LastPos != NULL)  *LastPos = x` (utf8_util.cpp 180, 189, 202). -/
def lastPosW (ok : Bool) (x : Nat) (lp : Option Nat) : Option Nat :=
  match lp with
  | none => none
  | some v => if ok then some x else some v

/-- The loop of `ConvertToUTF8` for two-byte units (utf8_util.cpp 174-192). -/
def toLoop2 (src : List Nat) (max : Nat) : Nat → Nat → D → Option Nat → CRes (D × Option Nat)
  | 0, _, _, _ => .error .diverges
  | k + 1, x, d, lp =>
    if x < src.length then do
      let cp ← rd src x
      if cp < 0xD800 ∨ cp > 0xDBFF then do
        let (ok, d) ← appendUTF8 cp d max
        toLoop2 src max k (x + 1) d (lastPosW ok x lp)
      else if x + 1 < src.length then do
        let u ← rd src (x + 1)
        if u ≥ 0xDC00 ∧ u ≤ 0xDFFF then do
          let (ok, d) ← appendUTF8 ((((cp - 0xD800) <<< 10) ||| (u - 0xDC00)) + 0x010000) d max
          toLoop2 src max k (x + 2) d (lastPosW ok (x + 1) lp)
        else toLoop2 src max k (x + 2) d lp
      else toLoop2 src max k (x + 2) d lp
    else .ok (d, lp)

/-- The loop of `ConvertToUTF8` for four-byte units (utf8_util.cpp 198-203). -/
def toLoop4 (src : List Nat) (max : Nat) : Nat → Nat → D → Option Nat → CRes (D × Option Nat)
  | 0, _, _, _ => .error .diverges
  | k + 1, x, d, lp =>
    if x < src.length then do
      let cp ← rd src x
      let (ok, d) ← appendUTF8 cp d max
      toLoop4 src max k (x + 1) d (lastPosW ok x lp)
    else .ok (d, lp)

/-- `ConvertToUTF8` into a given buffer (utf8_util.cpp 128-205); `max` is the value of
`DestDataSize` on entry. -/
def convertTo (src : List Nat) (width : Nat) (buf : Option (List Nat)) (max : Nat)
    (lp : Option Nat) : CRes (D × Option Nat) :=
  let d : D := { buf := buf, size := 0 }
  if width = 1 then toLoop1 src max (src.length + 1) 0 d lp
  else if width = 2 then toLoop2 src max (src.length + 1) 0 d lp
  else if width = 4 then toLoop4 src max (src.length + 1) 0 d lp
  else .ok (d, lp)

/-- The units up to and including the first zero (utf8_util.cpp 15-41). -/
def withNul : List Nat → CRes (List Nat)
  | [] => .error .oobRead
  | u :: r => if u = 0 then .ok [0] else (withNul r).map (u :: ·)

/-- `ConvertToUTF8` into an allocated buffer (utf8_util.cpp 10-49).  `junk` is the value of the
uninitialised `y` handed to the counting call; `fill` is the initial content of the new block. -/
def convertToAlloc (obj : List Nat) (width : Nat) (lp : Option Nat) (junk fill : Nat) :
    CRes (Option (List Nat) × Option Nat) :=
  if width = 1 ∨ width = 2 ∨ width = 4 then do
    let src ← withNul obj
    let (d, _) ← convertTo src width none junk none
    let (d', lp) ← convertTo src width (some (List.replicate d.size fill)) d.size lp
    .ok (d'.buf, lp)
  else .ok (none, lp)

/-- `AppendUTFCodePoint` (utf8_util.cpp 207-249). -/
def appendUTF (cp : Nat) (d : D) (width max : Nat) : CRes (Bool × D) :=
  if width = 1 then appendUTF8 cp d max
  else if reserved cp || cp > 0x10FFFF then .ok (false, d)
  else if d.size = 0 ∧ isCombining cp then .ok (false, d)
  else if width = 2 then
    if cp > 0xFFFF then
      store d max [((((cp - 0x010000) >>> 10) &&& 0x03FF) + 0xD800) % 65536,
        (((cp - 0x010000) &&& 0x03FF) + 0xDC00) % 65536]
    else store d max [cp % 65536]
  else if width = 4 then store d max [cp]
  else .ok (true, d)

/-- The loop of `ConvertFromUTF8` (utf8_util.cpp 259-288). -/
def fromLoop (src : List Nat) (width max : Nat) : Nat → Nat → D → CRes D
  | 0, _, _ => .error .diverges
  | k + 1, x, d =>
    if x < src.length ∧ max ≠ 0 then do
      let r ← decodeAt src x
      match r with
      | none => fromLoop src width max k (x + 1) d
      | some (cp, len) => do
        let (ok, d) ← appendUTF cp d width max
        if ok then fromLoop src width max k (x + len) d else .ok d
    else .ok d

/-- `ConvertFromUTF8` into a given buffer (utf8_util.cpp 251-289). -/
def convertFrom (src : List Nat) (buf : Option (List Nat)) (max width : Nat) : CRes D :=
  fromLoop src width max (src.length + 1) 0 { buf := buf, size := 0 }

/-! ## The parser -/

/-- The parser's state: `NextCP`, `Pos`, `Size`, `HasCombiningCP` (variables of the caller)
(utf8_util.cpp 331-372). -/
structure P where
  next : Nat
  pos : Nat
  size : Nat
  comb : Bool
  deriving DecidableEq

/-- How far `NextCodePoint` moves over the sequence starting with byte `b` at `pos`: `none` for an
invalid sequence (utf8_util.cpp 348-352 and 362-366). -/
def advance (s : List Nat) (b pos size : Nat) : CRes (Option Nat) := do
  if b ≤ 0x7F then .ok (some (pos + 1))
  else do
    let c2 ← andThen (pos + 1 < size && (b &&& 0xE0) == 0xC0) (conts s (pos + 1) 1)
    if c2 then .ok (some (pos + 2))
    else do
      let c3 ← andThen (pos + 2 < size && (b &&& 0xF0) == 0xE0) (conts s (pos + 1) 2)
      if c3 then .ok (some (pos + 3))
      else do
        let c4 ← andThen (pos + 3 < size && (b &&& 0xF8) == 0xF0) (conts s (pos + 1) 3)
        if c4 then .ok (some (pos + 4)) else .ok none

/-- The second half of `NextCodePoint`, reading the code point after the current one (utf8_util.cpp
358-371). -/
def peek (s : List Nat) (p : P) : CRes P := do
  let b ← rd s p.pos
  if b = 0 then .ok { p with next := 0, comb := isCombining 0 }
  else do
    let a ← advance s b p.pos p.size
    match a with
    | some pos => .ok { p with next := b, pos := pos, comb := isCombining b }
    | none => .ok { p with next := 0, comb := isCombining 0 }

/-- `NextCodePoint` (utf8_util.cpp 331-372) on the NUL-terminated string `s`; `len` is the call
`strlen(Str)` in it.  The result is the return value, `ResultCP` and the new state. -/
def nextCP (len : CRes Nat) (s : List Nat) (p : P) : CRes (Bool × Nat × P) :=
  if p.pos ≠ 0 then
    if p.next = 0 then .ok (false, 0, p)
    else do
      let q ← peek s p
      .ok (true, p.next, q)
  else do
    let n ← len
    let p := { p with size := n, comb := false }
    let b ← rd s 0
    if b = 0 then .ok (false, 0, p)
    else do
      let a ← advance s b 0 n
      match a with
      | none => .ok (false, b, p)
      | some pos =>
        if isCombining b then .ok (false, b, { p with pos := pos })
        else do
          let q ← peek s { p with pos := pos }
          .ok (true, b, q)

/-- The loop of `Util::strlen` (utf8_util.cpp 300-304). -/
def countLoop (len : CRes Nat) (s : List Nat) : Nat → P → Nat → CRes Nat
  | 0, _, _ => .error .diverges
  | k + 1, p, r => do
    let (ok, _, q) ← nextCP len s p
    if ok then countLoop len s k q (if q.comb then r else r + 1)
    else .ok (if q.comb then r + 1 else r)

/-- `Util::strlen` (utf8_util.cpp 291-307) with the inner `strlen` as an argument. -/
def strlenWith (len : CRes Nat) (s : List Nat) : CRes Nat :=
  countLoop len s (s.length + 1) { next := 0, pos := 0, size := 0, comb := false } 0

/-- `Util::strlen` as compiled: inside the class the name `strlen` in `NextCodePoint` (utf8_util.cpp
342) is `Util::strlen` itself.  The argument bounds the depth of the recursion. -/
def strlen : Nat → List Nat → CRes Nat
  | 0, _ => .error .diverges
  | k + 1, s => strlenWith (strlen k s) s

/-- The values of `ResultCP` in a caller's loop `while (NextCodePoint(...))` (the way `NextCodePoint`
is meant to be used, utf8_util.h 42-44; e.g. utf8_util.cpp 379). -/
def walk (len : CRes Nat) (s : List Nat) : Nat → P → CRes (List Nat)
  | 0, _ => .error .diverges
  | k + 1, p => do
    let (ok, c, q) ← nextCP len s p
    if ok then do
      let r ← walk len s k q
      .ok (c :: r)
    else .ok []

/-- The loop of `FindCodePoint` (utf8_util.cpp 317-328), again with the inner `strlen` as an
argument.  The result is `ResultPos`, or nothing if the function returns false. -/
def findLoop (len : CRes Nat) (cp : Nat) (allow : Bool) (s : List Nat) : Nat → P → CRes (Option Nat)
  | 0, _ => .error .diverges
  | k + 1, p => do
    let (ok, c, q) ← nextCP len s p
    if ok then
      if c = cp ∧ (allow ∨ q.comb = false) then .ok (some q.pos)
      else findLoop len cp allow s k q
    else .ok none

/-- `FindCodePoint` (utf8_util.cpp 309-329). -/
def findWith (len : CRes Nat) (cp : Nat) (s : List Nat) (allow : Bool) : CRes (Option Nat) :=
  if allow = false ∧ isCombining cp then .ok none
  else findLoop len cp allow s (s.length + 1) { next := 0, pos := 0, size := 0, comb := false }

/-- `ConvertFromUTF8` into an allocated buffer (utf8_util.cpp 51-65): its first act is to call
`Util::strlen`. -/
def convertFromAlloc (depth : Nat) (s : List Nat) (width junk fill : Nat) :
    CRes (Option (List Nat)) := do
  let x ← strlen depth s
  let d ← convertFrom (s.take x) none junk width
  if width = 1 ∨ width = 2 ∨ width = 4 then do
    let d' ← convertFrom (s.take x) (some (List.replicate d.size fill)) d.size width
    .ok d'.buf
  else .ok none

end Verif.Utf8
