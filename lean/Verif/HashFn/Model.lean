import Verif.Base

/-!
# Model of the key hashing functions

templates/detachable_ordered_hash.cpp 22-116 (`OrderedHashUtil`), templates/packed_ordered_hash.cpp 14-108
(`PackedOrderedHashUtil`, the same text) and templates/cache.cpp 19-57 (`CacheUtil`).

The key is `size` bytes at offset `p` of an object `mem`; every read is checked against the object.  `le` is the byte order of the
machine.  Not modelled: the alignment of the word reads `*((const std::uint32_t *)Str)` (undefined for unaligned keys
in ISO C++, harmless on the machines the library names), `size_t` is 64 bits wide.
-/

namespace Verif.HashFn

/-- The number written by bytes, least significant first (detachable_ordered_hash.cpp 60-116). -/
def leNum : List UInt8 → Nat
  | [] => 0
  | b :: bs => b.toNat + 256 * leNum bs

/-- The number in the `n` bytes at `p`, read as one word (`y = *((const std::uint32_t *)Str)`,
detachable_ordered_hash.cpp 32; `y = *((const std::uint64_t *)Str)`, 82). -/
def loadWord (le : Bool) (mem : List UInt8) (p n : Nat) : CRes Nat :=
  if p + n ≤ mem.length then
    let bs := (mem.drop p).take n
    .ok (leNum (if le then bs else bs.reverse))
  else .error .oobRead

/-- One step of the DJB hash, `((Result << 5) + Result) ^ y` (detachable_ordered_hash.cpp 34, 41-43). -/
def djbStep (r y : UInt32) : UInt32 := ((r <<< 5) + r) ^^^ y

/-- The loop over the words of 4 bytes (detachable_ordered_hash.cpp 29-37, cache.cpp 38-46).
The first argument bounds the number of rounds, running out of it is an error of the model. -/
def djbWords (le : Bool) (mem : List UInt8) : Nat → Nat → Nat → UInt32 → CRes (Nat × UInt32)
  | 0, _, _, _ => .error .diverges
  | k + 1, p, e, r => do
    if p ≠ e then do
      let y ← loadWord le mem p 4
      djbWords le mem k (p + 4) e (djbStep r (UInt32.ofNat y))
    else .ok (p, r)

/-- The `switch` over the remaining bytes, falling through from the last byte to the first
(detachable_ordered_hash.cpp 39-45, cache.cpp 48-54). -/
def djbTail (mem : List UInt8) (p : Nat) : Nat → UInt32 → CRes UInt32
  | 0, r => .ok r
  | n + 1, r => do
    let b ← rd mem (p + n)
    djbTail mem p n (djbStep r b.toUInt32)

/-- `GetDJBX33XHashKey` (detachable_ordered_hash.cpp 22-48, packed_ordered_hash.cpp 14-40). -/
def djb (le : Bool) (mem : List UInt8) (p size : Nat) (init : UInt64) : CRes UInt64 := do
  let left := size % 4
  let (p, r) ← djbWords le mem (size + 1) p (p + size - left) init.toUInt32
  let r ← djbTail mem p left r
  .ok r.toUInt64

/-- `CacheUtil::GetHashKey(Str, Size)` (cache.cpp 31-57). -/
def cacheBytes (le : Bool) (mem : List UInt8) (p size : Nat) : CRes UInt64 := do
  let left := size % 4
  let (p, r) ← djbWords le mem (size + 1) p (p + size - left) 5381
  let r ← djbTail mem p left r
  .ok r.toUInt64

/-- A `char` converted to `size_t` (cache.cpp 23); `sgn`: `char` is signed. -/
def charToSize (sgn : Bool) (c : UInt8) : UInt64 :=
  if sgn ∧ 128 ≤ c.toNat then c.toUInt64 + 0xFFFFFFFFFFFFFF00 else c.toUInt64

/-- The loop of `CacheUtil::GetHashKey(Str)` (cache.cpp 19-29). -/
def cacheStrLoop (sgn : Bool) (mem : List UInt8) : Nat → Nat → UInt64 → CRes UInt64
  | 0, _, _ => .error .diverges
  | k + 1, p, r => do
    let c ← rd mem p
    if charToSize sgn c ≠ 0 then cacheStrLoop sgn mem k (p + 1) (((r <<< 5) + r) ^^^ charToSize sgn c)
    else .ok r

/-- `CacheUtil::GetHashKey(Str)` (cache.cpp 19-29).  The fuel is enough for every string in the object. -/
def cacheStr (sgn : Bool) (mem : List UInt8) (p : Nat) : CRes UInt64 := cacheStrLoop sgn mem (mem.length + 1) p 5381

/-- The four words of SipHash (detachable_ordered_hash.cpp 63-66). -/
structure Sip where
  v0 : UInt64
  v1 : UInt64
  v2 : UInt64
  v3 : UInt64
  deriving DecidableEq

/-- `ROTL` (detachable_ordered_hash.cpp 50). -/
def rotl (x b : UInt64) : UInt64 := (x <<< b) ||| (x >>> (64 - b))

/-- `SIPROUND` (detachable_ordered_hash.cpp 52-58). -/
def sipRound (s : Sip) : Sip :=
  let v0 := s.v0
  let v1 := s.v1
  let v2 := s.v2
  let v3 := s.v3
  let v0 := v0 + v1
  let v1 := rotl v1 13
  let v1 := v1 ^^^ v0
  let v0 := rotl v0 32
  let v2 := v2 + v3
  let v3 := rotl v3 16
  let v3 := v3 ^^^ v2
  let v0 := v0 + v3
  let v3 := rotl v3 21
  let v3 := v3 ^^^ v0
  let v2 := v2 + v1
  let v1 := rotl v1 17
  let v1 := v1 ^^^ v2
  let v2 := rotl v2 32
  ⟨v0, v1, v2, v3⟩

/-- `for (x = 0; x < n; ++x)  SIPROUND;` (detachable_ordered_hash.cpp 86, 107, 112). -/
def sipRounds : Nat → Sip → Sip
  | 0, s => s
  | n + 1, s => sipRounds n (sipRound s)

/-- The loop over the words of 8 bytes (detachable_ordered_hash.cpp 79-91). -/
def sipWords (le : Bool) (mem : List UInt8) (c : Nat) : Nat → Nat → Nat → Sip → CRes (Nat × Sip)
  | 0, _, _, _ => .error .diverges
  | k + 1, p, e, s => do
    if p ≠ e then do
      let y ← loadWord le mem p 8
      let y := UInt64.ofNat y
      let s := { s with v3 := s.v3 ^^^ y }
      let s := sipRounds c s
      let s := { s with v0 := s.v0 ^^^ y }
      sipWords le mem c k (p + 8) e s
    else .ok (p, s)

/-- The `switch` over the remaining bytes, falling through from the last byte to the first: byte `n` is shifted by
`8 n` bits (detachable_ordered_hash.cpp 93-103). -/
def sipTail (mem : List UInt8) (p : Nat) : Nat → UInt64 → CRes UInt64
  | 0, r => .ok r
  | n + 1, r => do
    let b ← rd mem (p + n)
    sipTail mem p n (r ||| (b.toUInt64 <<< UInt64.ofNat (8 * n)))

/-- `GetSipHashKey` (detachable_ordered_hash.cpp 60-116, packed_ordered_hash.cpp 52-108). -/
def sip (le : Bool) (mem : List UInt8) (p size : Nat) (key1 key2 : UInt64) (c d : Nat) : CRes UInt64 := do
  let left := size % 8
  let s : Sip := ⟨0x736f6d6570736575, 0x646f72616e646f6d, 0x6c7967656e657261, 0x7465646279746573⟩
  let s := { s with v3 := s.v3 ^^^ key2 }
  let s := { s with v2 := s.v2 ^^^ key1 }
  let s := { s with v1 := s.v1 ^^^ key2 }
  let s := { s with v0 := s.v0 ^^^ key1 }
  let (p, s) ← sipWords le mem c (size + 1) p (p + size - left) s
  let r ← sipTail mem p left (UInt64.ofNat size <<< 56)
  let s := { s with v3 := s.v3 ^^^ r }
  let s := sipRounds c s
  let s := { s with v0 := s.v0 ^^^ r }
  let s := { s with v2 := s.v2 ^^^ 0xff }
  let s := sipRounds d s
  .ok (s.v0 ^^^ s.v1 ^^^ s.v2 ^^^ s.v3)

/-- `GetHashKey` of the hashes (detachable_ordered_hash_util.h 538-541, packed_ordered_hash_util.h 443-446). -/
def hashKey (le useSip : Bool) (key1 key2 : UInt64) (mem : List UInt8) (p size : Nat) : CRes UInt64 :=
  if useSip then sip le mem p size key1 key2 2 4 else djb le mem p size key1

end Verif.HashFn
