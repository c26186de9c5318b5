/-!
# SipHash, as published, and the DJB hashes

SipHash: J.-P. Aumasson, D. J. Bernstein, "SipHash: a fast short-input PRF" (2012), section 2.
-/

namespace Verif.HashFn.Spec

/-- The number written by bytes, least significant first. -/
def littleEndian : List UInt8 → Nat
  | [] => 0
  | b :: bs => b.toNat + 256 * littleEndian bs

/-- The message is cut into words of 8 bytes, least significant byte first; the last one is filled up with zeros and ends
with the length modulo 256.  (`le = false` is the variant for machines with the other byte order, where the words
before the last one are read the other way round.) -/
def sipWords (le : Bool) (m : List UInt8) (len : Nat) : List UInt64 :=
  if _h : m.length < 8 then [UInt64.ofNat (littleEndian (m ++ List.replicate (7 - m.length) 0 ++ [UInt8.ofNat len]))]
  else UInt64.ofNat (littleEndian (if le then m.take 8 else (m.take 8).reverse)) :: sipWords le (m.drop 8) len
termination_by m.length
decreasing_by simp; omega

abbrev State := UInt64 × UInt64 × UInt64 × UInt64

/-- Rotation to the left. -/
def rol (x : UInt64) (b : UInt64) : UInt64 := (x <<< b) ||| (x >>> (64 - b))

/-- The SipRound of figure 2.1 of the paper: the two halves of the network, each for both pairs of words. -/
def round : State → State
  | (v0, v1, v2, v3) =>
    let (v0, v2) := (v0 + v1, v2 + v3)
    let (v1, v3) := (rol v1 13, rol v3 16)
    let (v1, v3) := (v1 ^^^ v0, v3 ^^^ v2)
    let v0 := rol v0 32
    let (v2, v0) := (v2 + v1, v0 + v3)
    let (v1, v3) := (rol v1 17, rol v3 21)
    let (v1, v3) := (v1 ^^^ v2, v3 ^^^ v0)
    let v2 := rol v2 32
    (v0, v1, v2, v3)

def rounds (n : Nat) (s : State) : State := Nat.repeat round n s

/-- Compression of one word. -/
def compress (c : Nat) (s : State) (w : UInt64) : State :=
  match rounds c (s.1, s.2.1, s.2.2.1, s.2.2.2 ^^^ w) with
  | (v0, v1, v2, v3) => (v0 ^^^ w, v1, v2, v3)

/-- SipHash-c-d of a message with the key `(k0, k1)`, for `le = true`. -/
def sipHash (le : Bool) (c d : Nat) (k0 k1 : UInt64) (m : List UInt8) : UInt64 :=
  let s : State := (k0 ^^^ 0x736f6d6570736575, k1 ^^^ 0x646f72616e646f6d, k0 ^^^ 0x6c7967656e657261, k1 ^^^ 0x7465646279746573)
  let s := (sipWords le m m.length).foldl (compress c) s
  match rounds d (s.1, s.2.1, s.2.2.1 ^^^ 0xff, s.2.2.2) with
  | (v0, v1, v2, v3) => v0 ^^^ v1 ^^^ v2 ^^^ v3

/-- The test vector of the paper (appendix A): the message 00 01 ... 0e with the key 00 01 ... 0f. -/
example : sipHash true 2 4 0x0706050403020100 0x0f0e0d0c0b0a0908 [0, 1, 2, 3, 4, 5, 6, 7, 8, 9, 10, 11, 12, 13, 14] = 0xa129ca6149be45e5 := by
  unfold sipHash
  rw [sipWords, sipWords]
  decide +kernel

/-- One step of Bernstein's hash: multiply by 33 and combine with the next piece. -/
def bernstein (r y : UInt32) : UInt32 := (r * 33) ^^^ y

/-- The DJB hash of a key: first the words of 4 bytes in the byte order of the machine (`le`: least significant byte
first), then the remaining bytes from the last to the first. -/
def djbHash (le : Bool) (r : UInt32) (m : List UInt8) : UInt32 :=
  if _h : m.length < 4 then m.reverse.foldl (fun r b => bernstein r b.toUInt32) r
  else djbHash le (bernstein r (UInt32.ofNat (littleEndian (if le then m.take 4 else (m.take 4).reverse)))) (m.drop 4)
termination_by m.length
decreasing_by simp; omega

/-- The DJB hash of a text, character by character; `sgn`: characters are signed, so those from 128 on are negative
numbers. -/
def djbText (sgn : Bool) (m : List UInt8) : UInt64 :=
  m.foldl (fun r b => (r * 33) ^^^ (if sgn ∧ 128 ≤ b.toNat then UInt64.ofNat (0xFFFFFFFFFFFFFF00 + b.toNat) else UInt64.ofNat b.toNat)) 5381

end Verif.HashFn.Spec
