import Verif.Base

/-!
# Model of `Security::CSPRNG` (security/security_csprng.cpp, POSIX branch 30-63 and 66-94)

The operating system is a parameter: the finite list of outcomes the successive `read` calls will have.
A call that is still looping when the list is used up is `pending`; a theorem that a call is `pending`
on every finite outcome list of some kind says that it never returns under such an environment.
-/

namespace Verif.Csprng

/-- Outcome of one `read(MxURandom, Result, Size)` call (security_csprng.cpp 46-63). -/
inductive ReadRes where
  /-- transferred these bytes (`BytesRead` is their number) -/
  | got (bytes : List UInt8)
  /-- returned -1 with `errno == EINTR` -/
  | eintr
  /-- returned -1 with another `errno` -/
  | fail
  deriving DecidableEq, Repr

/-- The `ssize_t` returned by `read` (security_csprng.cpp 46-63). -/
def ReadRes.ret : ReadRes → Int
  | .got bytes => bytes.length
  | .eintr => -1
  | .fail => -1

/-- `(ssize_t)Size` for a 64-bit `size_t`, security_csprng.cpp:58. -/
def ssize (size : Nat) : Int := if size < 2 ^ 63 then size else (size : Int) - 2 ^ 64

/-- What a call did: it returned with a value and left outcomes unused, or it is still looping
(security_csprng.cpp 46-94). -/
inductive Run (ρ σ : Type) where
  | returned (r : ρ) (rest : List σ)
  | pending
  deriving DecidableEq, Repr

/-- Effect of a read on the destination buffer (`read` writes at the start of `Result`)
(security_csprng.cpp 46-63). -/
def fill (buf bytes : List UInt8) : List UInt8 := bytes ++ buf.drop bytes.length

/-- The destination after one `read` call; a failing call leaves it alone (security_csprng.cpp 46-63). -/
def afterRead (buf : List UInt8) : ReadRes → List UInt8
  | .got bytes => fill buf bytes
  | _ => buf

/-- The loops of `CSPRNG::GetBytes`, security_csprng.cpp:52-62.  `buf` is the destination. -/
def getBytesLoop (size : Nat) : List UInt8 → List ReadRes → Run (Bool × List UInt8) ReadRes
  | _, [] => .pending
  | buf, r :: rs =>
    if r = .eintr then getBytesLoop size (afterRead buf r) rs                 -- line 57
    else if r.ret ≠ ssize size then getBytesLoop size (afterRead buf r) rs    -- line 58
    else if r.ret < 0 then .returned (false, afterRead buf r) rs              -- line 60
    else .returned (true, afterRead buf r) rs                                 -- line 62

/-- `CSPRNG::GetBytes(Result, Size)`, security_csprng.cpp:46-63.  `opened` says whether the device could be
opened (`MxURandom >= 0`). -/
def getBytes (opened : Bool) (size : Nat) (buf : List UInt8) (os : List ReadRes) :
    Run (Bool × List UInt8) ReadRes :=
  if opened then getBytesLoop size buf os else .returned (false, buf) os      -- line 48

/-- `while (Max2 > Mask) Mask = (Mask << 1) | 0x01;`, security_csprng.cpp:80, on 64-bit words.
`fuel` bounds the number of iterations; running out of it is reported as divergence. -/
def maskLoop (max2 : BitVec 64) : (fuel : Nat) → BitVec 64 → CRes (BitVec 64)
  | 0, _ => .error .diverges
  | fuel + 1, mask => if mask < max2 then maskLoop max2 fuel ((mask <<< 1) ||| 1#64) else .ok mask

/-- The rejection loop, security_csprng.cpp:84-93.  The environment is the list of outcomes of the
`GetBytes` calls: `none` for false, `some w` for true with the 8 bytes of `Result` holding `w`. -/
def sampleLoop (min max2 mask : BitVec 64) : List (Option (BitVec 64)) →
    Run (Option (BitVec 64)) (Option (BitVec 64))
  | [] => .pending
  | none :: rest => .returned none rest                                        -- line 86
  | some w :: rest =>
    if max2 < (w &&& mask) then sampleLoop min max2 mask rest                  -- lines 87-89
    else .returned (some ((w &&& mask) + min)) rest                            -- lines 91-93

/-- `CSPRNG::GetInteger(Result, Min, Max)`, security_csprng.cpp:67-94.  The result `some r` is a true return
with `Result == r`, `none` a false return. -/
def getInteger (mn mx : BitVec 64) (os : List (Option (BitVec 64))) :
    CRes (Run (Option (BitVec 64)) (Option (BitVec 64))) := do
  let (lo, hi) := if mx < mn then (mx, mn) else (mn, mx)                       -- lines 71-76
  let mask ← maskLoop (hi - lo) 65 0#64                                        -- lines 78-80
  .ok (sampleLoop lo (hi - lo) mask os)

end Verif.Csprng
