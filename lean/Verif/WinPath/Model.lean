import Verif.Path.Model

/-!
# Model of the Windows path functions of `UTF8::File` (utf8/utf8_file_dir.cpp 228-396)

As in `Verif.Path`: bytes are natural numbers, a `char *` argument is the object it points to, and
reads go through `rd`.  `sgn` says whether the type `char` is signed (it is by default in the compilers for
Windows).

Simplifications.
* `size_t` arithmetic is on unbounded numbers, but for the subtraction at 331, whose wrapping is reported
  as a read outside the buffer.
* `strncmp`, `_strnicmp` read up to the first difference; `_strnicmp` folds the ASCII letters.
* The registry (312-342) is a function from the name looked up to the drive letter found.
-/

namespace Verif.WinPath

open Verif.Utf8 (convertTo D)
open Verif.Path (cstr at_)

/-- Folding of ASCII letters, as `_strnicmp` does in the "C" locale (utf8_file_dir.cpp 245-292). -/
def lower (c : Nat) : Nat := if 65 ≤ c ∧ c ≤ 90 then c + 32 else c

/-- `!_strnicmp(b + i, p, strlen(p))`, for a string literal `p` (utf8_file_dir.cpp 245-292). -/
def atI (b : List Nat) (i : Nat) : List Nat → CRes Bool
  | [] => .ok true
  | p :: ps => do
    let c ← rd b i
    if lower c = lower p then atI b (i + 1) ps else .ok false

/-- The loop replacing slashes (utf8_file_dir.cpp 238-241); `k` characters from `x` on. -/
def slashLoop : Nat → Nat → List Nat → CRes (List Nat)
  | 0, _, r => .ok r
  | k + 1, x, r => do
    let c ← rd r x
    if c = 47 then do
      let r ← wr r x 92
      slashLoop k (x + 1) r
    else slashLoop k (x + 1) r

/-- `\??\` (utf8_file_dir.cpp 244). -/
def preNt : List Nat := [92, 63, 63, 92]
/-- `\\?\` (utf8_file_dir.cpp 254, 302). -/
def preUni : List Nat := [92, 92, 63, 92]
/-- `\\.\` (utf8_file_dir.cpp 245). -/
def preDev : List Nat := [92, 92, 46, 92]
/-- `\\?\Device\` (utf8_file_dir.cpp 245). -/
def preDevice : List Nat := [92, 92, 63, 92, 68, 101, 118, 105, 99, 101, 92]
/-- `\\?\UNC\` (utf8_file_dir.cpp 248, 375). -/
def preUnc : List Nat := [92, 92, 63, 92, 85, 78, 67, 92]
/-- `Volume{` (utf8_file_dir.cpp 270). -/
def preVolume : List Nat := [86, 111, 108, 117, 109, 101, 123]
/-- `\\?\Volume{` (utf8_file_dir.cpp 307). -/
def preUniVolume : List Nat := [92, 92, 63, 92, 86, 111, 108, 117, 109, 101, 123]

/-- `a || b` on results of comparisons: `b` is not evaluated if `a` holds (utf8_file_dir.cpp 281-292). -/
def orElse (a : CRes Bool) (b : CRes Bool) : CRes Bool := do
  let v ← a
  if v then .ok true else b

/-- The test for a reserved device name between `lp` and `x` (utf8_file_dir.cpp 281-283 and 290-292). -/
def reservedAt (r : List Nat) (lp x : Nat) : CRes Bool :=
  if x - lp = 3 then
    orElse (atI r lp [78, 85, 76]) (orElse (atI r lp [67, 79, 78]) (orElse (atI r lp [65, 85, 88]) (atI r lp [80, 82, 78])))
  else if x - lp = 6 then atI r lp [67, 76, 79, 67, 75, 36]
  else if x - lp = 4 then do
    let m ← orElse (atI r lp [76, 80, 84]) (atI r lp [67, 79, 77])
    if m then do
      let c ← rd r (x - 1)
      .ok (48 ≤ c && c ≤ 57)
    else .ok false
  else .ok false

/-- The characters rejected by the test in the loop (utf8_file_dir.cpp 277), where `TempCP` is a `char`. -/
def rejected (sgn : Bool) (c : Nat) : Bool :=
  (c < 0x20 || (sgn && c ≥ 0x80)) || c == 0x7F || c == 58 || c == 42 || c == 63 || c == 34 || c == 60 || c == 62 || c == 124

/-- The loop over the characters and the test after it (utf8_file_dir.cpp 272-292); `k` characters from `x`
on, `lp` is `LastPos`. -/
def nameLoop (sgn : Bool) (r : List Nat) : Nat → Nat → Nat → CRes Bool
  | 0, x, lp => do
    let m ← reservedAt r lp x
    .ok !m
  | k + 1, x, lp => do
    let c ← rd r x
    if rejected sgn c then .ok false
    else if c = 46 ∨ c = 92 then do
      let m ← reservedAt r lp x
      if m then .ok false
      else nameLoop sgn r k (x + 1) (if c = 92 then x + 1 else lp)
    else nameLoop sgn r k (x + 1) lp

/-- A drive letter at `x` (utf8_file_dir.cpp 264-270): whether there is one, and the string with the letter in
upper case. -/
def letterAt (r : List Nat) (x : Nat) : CRes (Bool × List Nat) := do
  let c ← rd r x
  if (97 ≤ c ∧ c ≤ 122) ∨ (65 ≤ c ∧ c ≤ 90) then do
    let d ← rd r (x + 1)
    if d = 58 then
      if 97 ≤ c then do
        let r ← wr r x (c - 97 + 65)
        .ok (true, r)
      else .ok (true, r)
    else .ok (false, r)
  else .ok (false, r)

/-- `strchr(Result + 4, '\\')` (utf8_file_dir.cpp 306): the position, if any, in the string from `x` on. -/
def strchr (r : List Nat) : Nat → Nat → CRes (Option Nat)
  | 0, _ => .error .diverges
  | k + 1, x => do
    let c ← rd r x
    if c = 92 then .ok (some x) else if c = 0 then .ok none else strchr r k (x + 1)

/-- Resolving a volume (utf8_file_dir.cpp 305-345); `y` is the length of the name as given. -/
def volume (reg : List Nat → Option Nat) (y : Nat) (r : List Nat) : CRes (List Nat) := do
  let p ← strchr r (r.length + 1) 4
  let m ← at_ r 0 preUniVolume
  match m, p with
  | true, some p => do
    let r ← wr r 1 63
    let s ← cstr r
    let r ← (match reg s with
      | none => .ok r
      | some l => do
        let r ← wr r 4 l
        let r ← wr r 5 58
        if p > y + 1 then .error .oobRead
        else memmoveIn r 6 p (y + 1 - p) : CRes (List Nat))
    wr r 1 92
  | _, _ => .ok r

/-- The end of `GetPlatformFilename`: the prefixes (utf8_file_dir.cpp 294-365). -/
def prefixes (reg : List Nat → Option Nat) (y size : Nat) (drive unc uni : Bool) (r : List Nat) : CRes (Bool × List Nat) :=
  if drive then
    if !uni then
      if y + 4 > size then .ok (false, r)
      else do
        let r ← memmoveIn r 4 0 (y + 1)
        let r ← memcpyTo r 0 preUni 4
        let r ← volume reg y r
        .ok (true, r)
    else do
      let r ← volume reg y r
      .ok (true, r)
  else if !unc then
    if uni then
      if y + 4 > size then .ok (false, r)
      else do
        let r ← memmoveIn r 8 4 (y + 1 - 4)
        let r ← memcpyTo r 4 [85, 78, 67, 92] 4
        .ok (true, r)
    else do
      let m ← at_ r 0 [92, 92]
      if m then
        if y + 6 > size then .ok (false, r)
        else do
          let r ← memmoveIn r 7 1 (y + 1 - 1)
          let r ← memcpyTo r 1 [92, 63, 92, 85, 78, 67] 6
          .ok (true, r)
      else .ok (true, r)
  else .ok (true, r)

/-- `GetPlatformFilename` after the slashes are replaced (utf8_file_dir.cpp 243-365). -/
def checkName (sgn : Bool) (reg : List Nat → Option Nat) (y size : Nat) (r : List Nat) (allowUnsafe : Bool) :
    CRes (Bool × List Nat) := do
  let nt ← at_ r 0 preNt
  let r ← (if nt then wr r 1 92 else .ok r)
  let dev ← orElse (atI r 0 preDevice) (at_ r 0 preDev)
  if dev then .ok (allowUnsafe, r)
  else do
    let unc ← atI r 0 preUnc
    let uni ← (if unc then .ok true else at_ r 0 preUni)
    let x := if unc then 8 else if uni then 4 else 0
    let (letter, r) ← letterAt r x
    let drive ← (if letter then .ok true else at_ r 0 preVolume)
    let x := if letter then x + 2 else x
    let ok ← nameLoop sgn r (y - x) x 0
    if ok then prefixes reg y size drive unc uni r else .ok (false, r)

/-- `GetPlatformFilename` (utf8_file_dir.cpp 228-366): the returned value and the result buffer. -/
def getPlatform (sgn : Bool) (reg : List Nat → Option Nat) (result : List Nat) (size : Nat) (name : List Nat)
    (allowUnsafe : Bool) : CRes (Bool × List Nat) := do
  let f ← cstr name
  let y := f.length
  if y + 1 > size then .ok (false, result)
  else do
    let (d, _) ← convertTo (name.take (y + 1)) 1 (some result) size none
    match d.buf with
    | none => .error .nullDeref
    | some r => do
      let s ← cstr r
      if s.length = 0 ∨ s ≠ f then .ok (false, r)
      else do
        let r ← slashLoop y 0 r
        checkName sgn reg y size r allowUnsafe

/-! ## `GetPlatformFilenameInfo` -/

/-- The loop over the volume (utf8_file_dir.cpp 382); `k` characters from `x` on. -/
def toSlash (name : List Nat) : Nat → Nat → CRes Nat
  | 0, x => .ok x
  | k + 1, x => do
    let c ← rd name x
    if c ≠ 92 then toSlash name k (x + 1) else .ok x

/-- The loop going back to the last backslash, not before `sp + k` down to `sp` (utf8_file_dir.cpp 386). -/
def backSlash (name : List Nat) (sp : Nat) : Nat → CRes Nat
  | 0 => .ok sp
  | k + 1 => do
    let c ← rd name (sp + k)
    if c ≠ 92 then backSlash name sp k else .ok (sp + k + 1)

/-- The end of the volume prefix (utf8_file_dir.cpp 375-377). -/
def startVolume (name : List Nat) : CRes Nat := do
  let unc ← atI name 0 preUnc
  if unc then .ok 8
  else do
    let uni ← at_ name 0 preUni
    .ok (if uni then 4 else 0)

/-- `GetPlatformFilenameInfo` (utf8_file_dir.cpp 369-396). -/
def info (name : List Nat) : CRes Path.Info := do
  let f ← cstr name
  let y := f.length
  let sv ← startVolume name
  let sp ← (if sv = 0 then .ok 0 else toSlash name (y - sv) sv)
  let sf ← backSlash name sp (y - sp)
  let se ← Path.toDot name (y - sf) sf
  let sl ← Path.lastDot name (y - se) se se
  .ok { startVolume := sv, startPath := sp, startFilename := sf, startExt := se, startLastExt := sl, length := y }

end Verif.WinPath
