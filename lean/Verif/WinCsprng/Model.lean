import Verif.Csprng.Model

/-!
# Model of `Security::CSPRNG` on Windows (security/security_csprng.cpp 10-28 and 66-94)

The operating system is a parameter: whether `SystemFunction036` was found when the object was constructed, and
the answer of each call of it.  `GetInteger` is the same code as on POSIX (`Csprng.getInteger`), fed with the
words `GetBytes` delivers.
-/

namespace Verif.WinCsprng

open Verif.Csprng (fill Run getInteger)

/-- Answer of one call of `RtlGenRandom` that was asked for `n` bytes: the bytes it wrote, or FALSE.  A failing
call is taken to leave the buffer alone (security_csprng.cpp 27). -/
abbrev Gen := (n : Nat) → Option (List UInt8)

/-- `(ULONG)Size`: a 32-bit unsigned type also where `size_t` has 64 bits (security_csprng.cpp 27). -/
def ulong (size : Nat) : Nat := size % 2 ^ 32

/-- `CSPRNG::CSPRNG(bool)`, security_csprng.cpp 12-17: the module and then the function are looked up; the result
says whether `MxRtlGenRandom` is not NULL. -/
def construct (module function : Bool) : Bool :=
  if !module then false                                                        -- line 15
  else function                                                                -- line 16

/-- `CSPRNG::GetBytes(Result, Size)`, security_csprng.cpp 23-28: the returned value and the destination
afterwards. -/
def getBytes (found : Bool) (gen : Gen) (buf : List UInt8) (size : Nat) : Bool × List UInt8 :=
  if !found then (false, buf)                                                  -- line 25
  else
    match gen (ulong size) with                                                -- line 27
    | none => (false, buf)
    | some bytes => (true, fill buf bytes)

/-- The 64-bit number stored in eight bytes on a little endian machine (security_csprng.cpp 86, the cast of
`&Result`). -/
def word (bytes : List UInt8) : BitVec 64 :=
  BitVec.ofNat 64 (bytes.foldr (fun b acc => b.toNat + 256 * acc) 0)

/-- One `GetBytes((std::uint8_t *)&Result, sizeof(std::uint64_t))`, security_csprng.cpp 86, `old` the bytes of
`Result` before. -/
def getWord (found : Bool) (gen : Gen) (old : List UInt8) : Option (BitVec 64) :=
  match getBytes found gen old 8 with
  | (true, buf) => some (word buf)
  | (false, _) => none

/-- `CSPRNG::GetInteger(Result, Min, Max)` on Windows, security_csprng.cpp 67-94, with the answers of the
successive calls of `RtlGenRandom` and the bytes of `Result` before each (irrelevant, as the theorems show). -/
def getInt (found : Bool) (mn mx : BitVec 64) (os : List (Gen × List UInt8)) :
    CRes (Run (Option (BitVec 64)) (Option (BitVec 64))) :=
  getInteger mn mx (os.map fun o => getWord found o.1 o.2)

end Verif.WinCsprng
