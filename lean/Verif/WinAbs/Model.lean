import Verif.WinPath.Model

/-!
# Model of the Windows `GetAbsoluteFilename` (utf8/utf8_file_dir.cpp 398-505)

As in `Verif.Path`, whose POSIX version this code repeats with backslashes and behind a volume.  `reg` is the registry
(see `Verif.WinPath`).  The local buffers start with arbitrary contents, which are arguments of the model.

Simplifications.
* `size_t` arithmetic is on unbounded numbers.
* `Getcwd` (1075-1092) is the call of `GetPlatformFilename` in it, for the UTF-8 form of the current
  directory (`cwd`); `none`: the system does not tell it.
-/

namespace Verif.WinAbs

open Verif.Path (cstr at_ Info)
open Verif.WinPath (getPlatform info preUni)

/-- `while (Filename3[x] == '\\' && … '.' && … '\\')  x += 2` (utf8_file_dir.cpp 409). -/
def skipDot (b : List Nat) : Nat → Nat → CRes Nat
  | 0, _ => .error .diverges
  | k + 1, x => do
    let m ← at_ b x [92, 46, 92]
    if m then skipDot b k (x + 2) else .ok x

/-- The loop replacing `\.\` by `\` in place (utf8_file_dir.cpp 407-414); returns `x2`. -/
def dotLoop (y : Nat) : Nat → Nat → Nat → List Nat → CRes (Nat × List Nat)
  | 0, _, _, _ => .error .diverges
  | k + 1, x, x2, b =>
    if x < y then do
      let x ← skipDot b (b.length + 1) x
      let c ← rd b x
      let b ← wr b x2 c
      let e ← at_ b x [92, 46, 0]
      if e then .ok (x2 + 1, b) else dotLoop y k (x + 1) (x2 + 1) b
    else .ok (x2, b)

/-- The test for a trailing `\..` (utf8_file_dir.cpp 415). -/
def endsDotDot (x2 : Nat) (b : List Nat) : CRes Bool :=
  if x2 ≥ 3 then at_ b (x2 - 3) [92, 46, 46] else .ok false

/-- Normalising `Filename3` (utf8_file_dir.cpp 404-420). -/
def dotName (b : List Nat) : CRes (Bool × List Nat) := do
  let s ← cstr b
  let (x2, b) ← dotLoop s.length (b.length + 1) 0 0 b
  let e ← endsDotDot x2 b
  if e then
    if x2 ≥ 8191 then .ok (false, b)
    else do
      let b ← wr b x2 92
      let b ← wr b (x2 + 1) 0
      .ok (true, b)
  else do
    let b ← wr b x2 0
    .ok (true, b)

/-- The loop removing trailing backslashes (utf8_file_dir.cpp 469); the argument and the result are
`FileInfo2.Length - FileInfo2.StartPath`, `sp` is `FileInfo2.StartPath`. -/
def popSlashes (b : List Nat) (sp : Nat) : Nat → CRes Nat
  | 0 => .ok 0
  | n + 1 => do
    let c ← rd b (sp + n)
    if c = 92 then popSlashes b sp n else .ok (n + 1)

/-- The loop removing the last name (utf8_file_dir.cpp 470). -/
def popName (b : List Nat) (sp : Nat) : Nat → CRes Nat
  | 0 => .ok 0
  | n + 1 => do
    let c ← rd b (sp + n)
    if c ≠ 92 then popName b sp n else .ok (n + 1)

/-- The inner loop handling `\..\` (utf8_file_dir.cpp 465-474): new `x` and `FileInfo2.Length`. -/
def popLoop (f3 b : List Nat) (sp : Nat) : Nat → Nat → Nat → CRes (Nat × Nat)
  | 0, _, _ => .error .diverges
  | k + 1, x, n => do
    let m ← at_ f3 x [92, 46, 46, 92]
    if m then do
      let d ← popSlashes b sp (n - sp)
      let d ← popName b sp d
      popLoop f3 b sp k (x + 3) (sp + d)
    else .ok (x, n)

/-- The loop appending the name to the base directory (utf8_file_dir.cpp 463-478); `none`: the
result got too long.  `y` is `FileInfo3.Length`. -/
def nameLoop (f3 : List Nat) (sp y : Nat) : Nat → Nat → Nat → List Nat → CRes (Option (Nat × List Nat))
  | 0, _, _, _ => .error .diverges
  | k + 1, x, n, b =>
    if x < y then do
      let (x, n) ← popLoop f3 b sp (f3.length + 1) x n
      if n ≥ 8191 then .ok none
      else do
        let c ← rd f3 x
        let b ← wr b n c
        nameLoop f3 sp y k (x + 1) (n + 1) b
    else .ok (some (n, b))

/-- The loop copying the volume to the result (utf8_file_dir.cpp 481); `k` characters from `x` on. -/
def volLoop (b : List Nat) : Nat → Nat → List Nat → CRes (List Nat)
  | 0, _, r => .ok r
  | k + 1, x, r => do
    let c ← rd b x
    let r ← wr r x c
    volLoop b k (x + 1) r

/-- `while (Filename2[x] == '\\' && Filename2[x + 1] == '\\')  x++` (utf8_file_dir.cpp 487). -/
def skipSlash (b : List Nat) : Nat → Nat → CRes Nat
  | 0, _ => .error .diverges
  | k + 1, x => do
    let m ← at_ b x [92, 92]
    if m then skipSlash b k (x + 1) else .ok x

/-- The loop copying the rest to the result (utf8_file_dir.cpp 484-490); returns `x2`. -/
def outLoop (b : List Nat) (n size : Nat) : Nat → Nat → Nat → List Nat → CRes (Nat × List Nat)
  | 0, _, _, _ => .error .diverges
  | k + 1, x, x2, r =>
    if x2 < size ∧ x < n then do
      let x ← skipSlash b (b.length + 1) x
      let c ← rd b x
      let r ← wr r x2 c
      outLoop b n size k (x + 1) (x2 + 1) r
    else .ok (x2, r)

/-- `x2 && Result[x2 - 1] == '\\'` (utf8_file_dir.cpp 448, 491-492). -/
def lastIs (r : List Nat) (x2 : Nat) : CRes Bool :=
  if x2 = 0 then .ok false
  else do
    let c ← rd r (x2 - 1)
    .ok (c = 92)

/-- The sanity check (utf8_file_dir.cpp 497-504); `k` characters from `x` on. -/
def saneLoop (r : List Nat) : Nat → Nat → CRes Bool
  | 0, _ => .ok true
  | k + 1, x => do
    let a ← at_ r x [92, 46, 92]
    if a then .ok false
    else do
      let a ← at_ r x [92, 46, 46, 92]
      if a then .ok false else saneLoop r k (x + 1)

/-- The end of `GetAbsoluteFilename`: the trailing backslash, the terminator and the sanity check
(utf8_file_dir.cpp 491-506). -/
def absEnd (trailing : Bool) (size x2 : Nat) (r : List Nat) : CRes (Bool × List Nat) := do
  let last ← lastIs r x2
  let (x2, r) ← (if trailing && x2 != 0 && !last && x2 < size then do
      let r ← wr r x2 92
      .ok (x2 + 1, r)
    else .ok (x2, r) : CRes (Nat × List Nat))
  let last ← lastIs r x2
  let x2 := if !trailing && last then x2 - 1 else x2
  if x2 ≥ size then .ok (false, r)
  else do
    let r ← wr r x2 0
    let ok ← saneLoop r x2 0
    .ok (ok, r)

/-- Getting the base directory into `Filename2` (utf8_file_dir.cpp 434-444). -/
def baseDir (sgn : Bool) (reg : List Nat → Option Nat) (base : Option (List Nat)) (cwd : Option (List Nat)) (b : List Nat) :
    CRes (Bool × List Nat) := do
  let (ok, b) ← (match base with
    | some d => getPlatform sgn reg b 8192 d false
    | none =>
      match cwd with
      | none => .ok (false, b)
      | some s => getPlatform sgn reg b 8192 s false : CRes (Bool × List Nat))
  if !ok then .ok (false, b)
  else do
    let m ← at_ b 0 preUni
    .ok (m, b)

/-- Copying the volume of the name to `Filename2` (utf8_file_dir.cpp 429-430). -/
def copyVolume (f3 : List Nat) (sp : Nat) (b : List Nat) : CRes (List Nat) := do
  let b ← memcpyTo b 0 f3 sp
  wr b sp 0

/-- Giving the base directory a trailing backslash (utf8_file_dir.cpp 447-453). -/
def slashBase (b : List Nat) : CRes (Bool × List Nat) := do
  let s ← cstr b
  let y := s.length
  let last ← lastIs b y
  if y ≠ 0 ∧ !last then
    if y ≥ 8191 then .ok (false, b)
    else do
      let b ← wr b y 92
      let b ← wr b (y + 1) 0
      .ok (true, b)
  else .ok (true, b)

/-- The loops from `FileInfo2.Length = n` on (utf8_file_dir.cpp 462-506). -/
def finish (trailing : Bool) (size : Nat) (f3 : List Nat) (i3 : Info) (sp n : Nat) (b r : List Nat) : CRes (Bool × List Nat) := do
  let q ← nameLoop f3 sp i3.length (f3.length + 1) i3.startPath n b
  match q with
  | none => .ok (false, r)
  | some (n, b) => do
    let r ← volLoop b (min size sp) 0 r
    let (x2, r) ← outLoop b n size (b.length + 1) (min size sp) (min size sp) r
    absEnd trailing size x2 r

/-- `GetAbsoluteFilename` from the point where both names are prepared (utf8_file_dir.cpp
455-506); `f3` and `b` are `Filename3` and `Filename2`. -/
def combine (trailing : Bool) (size : Nat) (f3 : List Nat) (i3 : Info) (b r : List Nat) : CRes (Bool × List Nat) := do
  let i2 ← info b
  let c ← rd f3 i3.startPath
  let n := if c = 92 then i2.startPath else i2.length
  if n ≥ 8191 then .ok (false, r)
  else do
    let (n, b) ← (if i2.startPath = n then do
        let b ← wr b n 92
        .ok (n + 1, b)
      else .ok (n, b) : CRes (Nat × List Nat))
    finish trailing size f3 i3 i2.startPath n b r

/-- `GetAbsoluteFilename` (utf8_file_dir.cpp 398-507): the returned value and the result buffer;
`junk2` and `junk3` are the local buffers. -/
def absolute (sgn : Bool) (reg : List Nat → Option Nat) (junk2 junk3 : List Nat) (result : List Nat) (size : Nat)
    (base : Option (List Nat)) (cwd : Option (List Nat)) (name : List Nat) (trailing : Bool) : CRes (Bool × List Nat) := do
  let (ok, f3) ← getPlatform sgn reg junk3 8192 name false
  if !ok then .ok (false, result)
  else do
    let (ok, f3) ← dotName f3
    if !ok then .ok (false, result)
    else do
      let i3 ← info f3
      let (ok, b) ← (if i3.startVolume ≠ 0 then do
          let b ← copyVolume f3 i3.startPath junk2
          .ok (true, b)
        else baseDir sgn reg base cwd junk2 : CRes (Bool × List Nat))
      if !ok then .ok (false, result)
      else do
        let (ok, b) ← slashBase b
        if !ok then .ok (false, result)
        else combine trailing size f3 i3 b result

end Verif.WinAbs
