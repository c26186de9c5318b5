import Verif.Utf8.Model

/-!
# Model of the POSIX path functions of `UTF8::File` (utf8/utf8_file_dir.cpp 1382-1531)

Bytes are natural numbers.  A `char *` argument is the object it points to; reading it goes through
`rd`, so that a missing terminator is reported.  A local buffer starts with arbitrary contents, which
are an argument of the model: what an uninitialised cell holds is unknown.

`sgn` says whether the type `char` is signed (it is on x86, it is not on most ARM systems).

Simplifications.
* `size_t` arithmetic is on unbounded numbers.
* `getcwd` is an input (`cwd`); it fails if the name does not fit.
* `strcmp` and `strcpy` are described by their result (their arguments have to be terminated).
-/

namespace Verif.Path

open Verif.Utf8 (convertTo D)

/-- The C string an object begins with (utf8_file_dir.cpp 1382-1531). -/
def cstr : List Nat → CRes (List Nat)
  | [] => .error .oobRead
  | u :: r => if u = 0 then .ok [] else (cstr r).map (u :: ·)

/-- The characters rejected by the test in the loop (utf8_file_dir.cpp 1396), where `TempCP` is a
`char`. -/
def rejected (sgn : Bool) (c : Nat) : Bool :=
  (c < 0x20 || (sgn && c ≥ 0x80)) || c == 0x7F || c == 42 || c == 63 || c == 34 || c == 60 || c == 62 || c == 124

/-- The loop of `GetPlatformFilename` (utf8_file_dir.cpp 1392-1398); `k` characters from `x` on. -/
def platLoop (sgn : Bool) : Nat → Nat → List Nat → CRes (Bool × List Nat)
  | 0, _, r => .ok (true, r)
  | k + 1, x, r => do
    let c ← rd r x
    if rejected sgn c then .ok (false, r)
    else if c = 92 then do
      let r ← wr r x 47
      platLoop sgn k (x + 1) r
    else platLoop sgn k (x + 1) r

/-- `GetPlatformFilename` (utf8_file_dir.cpp 1382-1401): the returned value and the result buffer. -/
def getPlatform (sgn : Bool) (result : List Nat) (size : Nat) (name : List Nat) : CRes (Bool × List Nat) := do
  let f ← cstr name
  let y := f.length
  if y + 1 > size then .ok (false, result)
  else do
    let (d, _) ← convertTo (name.take (y + 1)) 1 (some result) size none
    match d.buf with
    | none => .error .nullDeref
    | some r => do
      let s ← cstr r
      if s.length = 0 ∨ s ≠ f then .ok (false, r)
      else platLoop sgn y 0 r

/-- `IsValidFilenameFormat` (utf8_file_dir.cpp 1853-1858); `junk` is the local buffer. -/
def isValid (sgn : Bool) (junk : List Nat) (name : List Nat) : CRes Bool := do
  let (ok, _) ← getPlatform sgn junk 8192 name
  .ok ok

/-! ## `GetPlatformFilenameInfo` -/

/-- `FilenameInfo` (utf8_file_dir.h); the volume part is always empty on POSIX. -/
structure Info where
  startVolume : Nat
  startPath : Nat
  startFilename : Nat
  startExt : Nat
  startLastExt : Nat
  length : Nat
  deriving DecidableEq

/-- The loop going back to the last slash (utf8_file_dir.cpp 1412). -/
def backSlash (name : List Nat) : Nat → CRes Nat
  | 0 => .ok 0
  | x + 1 => do
    let c ← rd name x
    if c ≠ 47 then backSlash name x else .ok (x + 1)

/-- The loop going forward to the first dot (utf8_file_dir.cpp 1415); `k` characters from `x` on. -/
def toDot (name : List Nat) : Nat → Nat → CRes Nat
  | 0, x => .ok x
  | k + 1, x => do
    let c ← rd name x
    if c ≠ 46 then toDot name k (x + 1) else .ok x

/-- The loop finding the last dot (utf8_file_dir.cpp 1418-1421). -/
def lastDot (name : List Nat) : Nat → Nat → Nat → CRes Nat
  | 0, _, last => .ok last
  | k + 1, x, last => do
    let c ← rd name x
    lastDot name k (x + 1) (if c = 46 then x else last)

/-- `GetPlatformFilenameInfo` (utf8_file_dir.cpp 1403-1422). -/
def info (name : List Nat) : CRes Info := do
  let f ← cstr name
  let y := f.length
  let sf ← backSlash name y
  let se ← toDot name (y - sf) sf
  let sl ← lastDot name (y - se) se se
  .ok { startVolume := 0, startPath := 0, startFilename := sf, startExt := se, startLastExt := sl, length := y }

/-! ## `GetAbsoluteFilename` -/

/-- `b[i] == p₀ && b[i + 1] == p₁ && …`, stopping at the first comparison that fails. -/
def at_ (b : List Nat) (i : Nat) : List Nat → CRes Bool
  | [] => .ok true
  | p :: ps => do
    let c ← rd b i
    if c = p then at_ b (i + 1) ps else .ok false

/-- `while (Filename3[x] == '/' && … '.' && … '/')  x += 2` (utf8_file_dir.cpp 1435). -/
def skipDot (b : List Nat) : Nat → Nat → CRes Nat
  | 0, _ => .error .diverges
  | k + 1, x => do
    let m ← at_ b x [47, 46, 47]
    if m then skipDot b k (x + 2) else .ok x

/-- The loop replacing `/./` by `/` in place (utf8_file_dir.cpp 1433-1440); returns `x2`. -/
def dotLoop (y : Nat) : Nat → Nat → Nat → List Nat → CRes (Nat × List Nat)
  | 0, _, _, _ => .error .diverges
  | k + 1, x, x2, b =>
    if x < y then do
      let x ← skipDot b (b.length + 1) x
      let c ← rd b x
      let b ← wr b x2 c
      let e ← at_ b x [47, 46, 0]
      if e then .ok (x2 + 1, b) else dotLoop y k (x + 1) (x2 + 1) b
    else .ok (x2, b)

/-- The test for a trailing `/..` (utf8_file_dir.cpp 1441). -/
def endsDotDot (x2 : Nat) (b : List Nat) : CRes Bool :=
  if x2 ≥ 3 then at_ b (x2 - 3) [47, 46, 46] else .ok false

/-- The two loops removing the last component (utf8_file_dir.cpp 1495-1496): the trailing slashes,
then the trailing other characters; the argument is `FileInfo2.Length`. -/
def popSlashes (b : List Nat) : Nat → CRes Nat
  | 0 => .ok 0
  | n + 1 => do
    let c ← rd b n
    if c = 47 then popSlashes b n else .ok (n + 1)

/-- See `popSlashes` (utf8_file_dir.cpp 1424-1531). -/
def popName (b : List Nat) : Nat → CRes Nat
  | 0 => .ok 0
  | n + 1 => do
    let c ← rd b n
    if c ≠ 47 then popName b n else .ok (n + 1)

/-- The inner loop handling `/../` (utf8_file_dir.cpp 1491-1500): new `x` and `FileInfo2.Length`. -/
def popLoop (f3 b : List Nat) : Nat → Nat → Nat → CRes (Nat × Nat)
  | 0, _, _ => .error .diverges
  | k + 1, x, n => do
    let m ← at_ f3 x [47, 46, 46, 47]
    if m then do
      let n ← popSlashes b n
      let n ← popName b n
      popLoop f3 b k (x + 3) n
    else .ok (x, n)

/-- The loop appending the name to the base directory (utf8_file_dir.cpp 1489-1504); `none`: the
result got longer than `lim` (8191).  `y` is `FileInfo3.Length`. -/
def nameLoop (lim : Nat) (f3 : List Nat) (y : Nat) : Nat → Nat → Nat → List Nat → CRes (Option (Nat × List Nat))
  | 0, _, _, _ => .error .diverges
  | k + 1, x, n, b =>
    if x < y then do
      let (x, n) ← popLoop f3 b (f3.length + 1) x n
      if n ≥ lim then .ok none
      else do
        let c ← rd f3 x
        let b ← wr b n c
        nameLoop lim f3 y k (x + 1) (n + 1) b
    else .ok (some (n, b))

/-- `while (Filename2[x] == '/' && Filename2[x + 1] == '/')  x++` (utf8_file_dir.cpp 1511). -/
def skipSlash (b : List Nat) : Nat → Nat → CRes Nat
  | 0, _ => .error .diverges
  | k + 1, x => do
    let m ← at_ b x [47, 47]
    if m then skipSlash b k (x + 1) else .ok x

/-- The loop copying to the result (utf8_file_dir.cpp 1509-1514); returns `x2`. -/
def outLoop (b : List Nat) (n size : Nat) : Nat → Nat → Nat → List Nat → CRes (Nat × List Nat)
  | 0, _, _, _ => .error .diverges
  | k + 1, x, x2, r =>
    if x2 < size ∧ x < n then do
      let x ← skipSlash b (b.length + 1) x
      let c ← rd b x
      let r ← wr r x2 c
      outLoop b n size k (x + 1) (x2 + 1) r
    else .ok (x2, r)

/-- `Result[x2 - 1] != '/'`, looked at only if the other conditions hold (utf8_file_dir.cpp
1515-1516). -/
def lastIs (r : List Nat) (x2 : Nat) : CRes Bool :=
  if x2 = 0 then .ok false
  else do
    let c ← rd r (x2 - 1)
    .ok (c = 47)

/-- The sanity check (utf8_file_dir.cpp 1521-1528); `k` characters from `x` on. -/
def saneLoop (r : List Nat) : Nat → Nat → CRes Bool
  | 0, _ => .ok true
  | k + 1, x => do
    let a ← at_ r x [47, 46, 47]
    if a then .ok false
    else do
      let a ← at_ r x [47, 46, 46, 47]
      if a then .ok false else saneLoop r k (x + 1)

/-- The end of `GetAbsoluteFilename`: the trailing slash, the terminator and the sanity check
(utf8_file_dir.cpp 1515-1530). -/
def absEnd (trailing : Bool) (size x2 : Nat) (r : List Nat) : CRes (Bool × List Nat) := do
  let last ← lastIs r x2
  let (x2, r) ← (if trailing && x2 != 0 && !last && x2 < size then do
      let r ← wr r x2 47
      .ok (x2 + 1, r)
    else .ok (x2, r) : CRes (Nat × List Nat))
  let last ← lastIs r x2
  let x2 := if !trailing && last then x2 - 1 else x2
  if x2 ≥ size then .ok (false, r)
  else do
    let r ← wr r x2 0
    let ok ← saneLoop r x2 0
    .ok (ok, r)

/-- Getting the base directory into `Filename2` (utf8_file_dir.cpp 1460-1472). -/
def baseDir (sgn : Bool) (base : Option (List Nat)) (cwd : Option (List Nat)) (b : List Nat) :
    CRes (Bool × List Nat) := do
  let (ok, b) ← (match base with
    | some d => getPlatform sgn b 8192 d
    | none =>
      match cwd with
      | none => .ok (false, b)
      | some s => if s.length + 1 > 8192 then .ok (false, b) else do
          let b ← memcpyTo b 0 (s ++ [0]) (s.length + 1)
          .ok (true, b) : CRes (Bool × List Nat))
  if !ok then .ok (false, b)
  else do
    let c ← rd b 0
    .ok (c = 47, b)

/-- Giving the base directory a trailing slash (utf8_file_dir.cpp 1474-1480). -/
def slashBase (b : List Nat) : CRes (Bool × List Nat) := do
  let s ← cstr b
  let y := s.length
  let last ← lastIs b y
  if y ≠ 0 ∧ !last then
    if y ≥ 8191 then .ok (false, b)
    else do
      let b ← wr b y 47
      let b ← wr b (y + 1) 0
      .ok (true, b)
  else .ok (true, b)

/-- Normalising `Filename3` (utf8_file_dir.cpp 1430-1446). -/
def dotName (b : List Nat) : CRes (Bool × List Nat) := do
  let s ← cstr b
  let (x2, b) ← dotLoop s.length (b.length + 1) 0 0 b
  let e ← endsDotDot x2 b
  if e then
    if x2 ≥ 8191 then .ok (false, b)
    else do
      let b ← wr b x2 47
      let b ← wr b (x2 + 1) 0
      .ok (true, b)
  else do
    let b ← wr b x2 0
    .ok (true, b)

/-- `GetAbsoluteFilename` from the point where both names are prepared (utf8_file_dir.cpp
1448-1454, 1481-1530); `f3` and `b` are `Filename3` and `Filename2`. -/
def combine (trailing : Bool) (size : Nat) (f3 b r : List Nat) : CRes (Bool × List Nat) := do
  let i3 ← info f3
  let i2 ← info b
  let c ← rd f3 0
  let n := if c = 47 then 0 else i2.length
  if n ≥ 8191 then .ok (false, r)
  else do
    let (n, b) ← (if n = 0 then do
        let b ← wr b 0 47
        .ok (1, b)
      else .ok (n, b) : CRes (Nat × List Nat))
    let q ← nameLoop 8191 f3 i3.length (f3.length + 1) 0 n b
    match q with
    | none => .ok (false, r)
    | some (n, b) => do
      let (x2, r) ← outLoop b n size (b.length + 1) 0 0 r
      absEnd trailing size x2 r

/-- `GetAbsoluteFilename` (utf8_file_dir.cpp 1424-1531): the returned value and the result buffer;
`junk2` and `junk3` are the local buffers. -/
def absolute (sgn : Bool) (junk2 junk3 : List Nat) (result : List Nat) (size : Nat) (base : Option (List Nat))
    (cwd : Option (List Nat)) (name : List Nat) (trailing : Bool) : CRes (Bool × List Nat) := do
  let (ok, f3) ← getPlatform sgn junk3 8192 name
  if !ok then .ok (false, result)
  else do
    let (ok, f3) ← dotName f3
    if !ok then .ok (false, result)
    else do
      let (ok, b) ← baseDir sgn base cwd junk2
      if !ok then .ok (false, result)
      else do
        let (ok, b) ← slashBase b
        if !ok then .ok (false, result)
        else combine trailing size f3 b result

end Verif.Path
