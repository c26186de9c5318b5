import Verif.WinLink.Model

/-!
# Model of `File::Realpath` on Windows (utf8/utf8_file_dir.cpp 549-665)

The loop over the chunks of the name: each is appended to `Filename3`, the system is asked for the entry of that name
(`FindFirstFileW`), and the chunk is replaced by the name of the entry; a link is replaced by its target, and the loop begins again.

Simplified: nobody changes the file system during the call; opening a link and asking for its target is one question (`Sys.reparse`); `Filename4`, and the
local buffers of the functions called, have the same arbitrary contents each time; `Found.name` is `cFileName` up to its terminator.
-/

namespace Verif.WinReal
open Verif.Path (cstr at_)
open Verif.WinOps (DWord REPARSE wideName)
open Verif.WinAbs (absolute)
open Verif.WinPath (getPlatform info preUni)
open Verif.WinLink (Tag Reparse linkUnits)
open Verif.Utf8 (convertTo convertFrom)

/-- `WIN32_FIND_DATAW` (utf8_file_dir.cpp 572): attributes, `dwReserved0`, `cFileName`. -/
structure Found where
  attrs : DWord
  tag : Tag
  name : List Nat

/-- The system calls (utf8_file_dir.cpp 589, 607-614, 664). -/
structure Sys where
  find : List Nat → Option Found
  reparse : List Nat → Option Reparse
  attrs : List Nat → Option DWord

/-- What the buffers of this function and of those it calls hold at first (utf8_file_dir.cpp 551, 571, 616). -/
structure Env where
  sgn : Bool
  reg : List Nat → Option Nat
  f2 : List Nat
  f3 : List Nat
  f4 : List Nat
  wide : List Nat
  junk : List Nat
  junk2 : List Nat
  junk3 : List Nat

/-- The buffers of `Exists` (utf8_file_dir.cpp 538-548). -/
def opsEnv (E : Env) : WinOps.Env := ⟨E.sgn, E.reg, E.junk, E.wide⟩

/-- `Filename2`, `FileInfo.Length`, `FileInfo.StartPath`, `Filename3`, `x2`, `NumLinks` (utf8_file_dir.cpp 551-573). -/
structure St where
  f2 : List Nat
  len : Nat
  sp : Nat
  f3 : List Nat
  x2 : Nat
  links : Nat

/-- Beginning with the name in `Filename2` (utf8_file_dir.cpp 556-567 and 632-643). -/
def start (f2 f3 : List Nat) (links : Nat) : CRes (Option St) := do
  let m ← at_ f2 0 preUni
  if !m then .ok none
  else do
    let i ← info f2
    let f3 ← memcpyTo f3 0 f2 i.startPath
    .ok (some ⟨f2, i.length, i.startPath, f3, i.startPath, links⟩)

/-- Skipping backslashes (utf8_file_dir.cpp 580); `k` characters from `x` on. -/
def skip (f2 : List Nat) : Nat → Nat → CRes Nat
  | 0, x => .ok x
  | k + 1, x => do
    let c ← rd f2 x
    if c = 92 then skip f2 k (x + 1) else .ok x

/-- Copying the next chunk (utf8_file_dir.cpp 581-585); `k` characters from `x` on. -/
def copyChunk (f2 : List Nat) : Nat → Nat → Nat → List Nat → CRes (Option (Nat × Nat × List Nat))
  | 0, x, x2, f3 => .ok (some (x, x2, f3))
  | k + 1, x, x2, f3 => do
    let c ← rd f2 x
    if c = 92 then .ok (some (x, x2, f3))
    else if x2 ≥ 8191 then .ok none
    else do
      let f3 ← wr f3 x2 c
      copyChunk f2 k (x + 1) (x2 + 1) f3

/-- The name for the system (utf8_file_dir.cpp 589-590). -/
def wideOf (E : Env) (f3 : List Nat) (x2 : Nat) : CRes (List Nat) := do
  let d ← convertFrom (f3.take (x2 + 1)) (some E.wide) 8192 2
  match d.buf with
  | none => .error .nullDeref
  | some b => cstr b

/-- Putting the target in the place of the link (utf8_file_dir.cpp 616-643). -/
def follow (E : Env) (st : St) (r : Reparse) : CRes (Option St) := do
  let u ← linkUnits r
  let (d, _) ← convertTo u 2 (some E.f4) 8192 none
  match d.buf with
  | none => .error .nullDeref
  | some f4 => do
    let f2 ← wr st.f2 st.sp 0
    let (ok, f3) ← absolute E.sgn E.reg E.junk2 E.junk3 st.f3 8192 (some f2) none f4 false
    if !ok then .ok none
    else do
      let f2 ← (if st.sp < st.len then wr f2 st.sp 92 else .ok f2)
      let t ← cstr f3
      if t.length + st.len - st.sp + 1 > 8191 then .ok none
      else do
        let f3 ← memcpyTo f3 t.length (f2.drop st.sp) (st.len - st.sp + 1)
        let s ← cstr f3
        let f2 ← memcpyTo f2 0 (s ++ [0]) (s.length + 1)
        start f2 f3 st.links

/-- Putting the name of the entry in the place of the chunk, which begins at `x` (utf8_file_dir.cpp 654-658). -/
def exchange (st : St) (x : Nat) (name : List Nat) : CRes (Option St) := do
  let (d, _) ← convertTo name 2 (some (st.f3.drop x)) (8192 - x) none
  match d.buf with
  | none => .error .nullDeref
  | some b => .ok (some { st with f3 := st.f3.take x ++ b, x2 := d.size + x })

/-- An entry was found (utf8_file_dir.cpp 593-659). -/
def found (S : Sys) (E : Env) (st : St) (x : Nat) (w : List Nat) (e : Found) : CRes (Option St) :=
  if (e.attrs &&& REPARSE) ≠ 0#32 ∧ e.tag ≠ .other then
    if st.links + 1 > 20 then .ok none
    else
      match S.reparse w with
      | some r => follow E { st with links := st.links + 1 } { r with tag := e.tag }
      | none => exchange { st with links := st.links + 1 } x e.name
  else exchange st x e.name

/-- One round of the loop (utf8_file_dir.cpp 576-660); `none`: the function returns false. -/
def step (S : Sys) (E : Env) (st : St) : CRes (Option St) := do
  if st.x2 ≥ 8191 then .ok none
  else do
    let f3 ← wr st.f3 st.x2 92
    let x := st.x2 + 1
    let sp ← skip st.f2 (st.len - st.sp) st.sp
    let o ← copyChunk st.f2 (st.len - sp) sp x f3
    match o with
    | none => .ok none
    | some (sp, x2, f3) => do
      let f3 ← wr f3 x2 0
      let w ← wideOf E f3 x2
      match S.find w with
      | none => .ok (some { st with sp := sp, f3 := f3, x2 := x2 })
      | some e => found S E { st with sp := sp, f3 := f3, x2 := x2 } x w e

/-- The loop (utf8_file_dir.cpp 574-661). -/
def loop (S : Sys) (E : Env) : Nat → St → CRes (Option St)
  | 0, _ => .error .diverges
  | k + 1, st =>
    if st.sp < st.len then do
      let o ← step S E st
      match o with
      | none => .ok none
      | some st => loop S E k st
    else .ok (some st)

/-- The end: the result (utf8_file_dir.cpp 661-664). -/
def give (S : Sys) (E : Env) (st : St) (result : List Nat) (size : Nat) : CRes (Bool × List Nat) := do
  let f3 ← wr st.f3 st.x2 0
  if size < st.x2 + 1 then .ok (false, result)
  else do
    let result ← memcpyTo result 0 f3 (st.x2 + 1)
    let w ← wideName (opsEnv E) result
    match w with
    | none => .ok (false, result)
    | some w => .ok ((S.attrs w).isSome, result)

/-- `Realpath` (utf8_file_dir.cpp 549-665): the returned value and the result buffer.  At most 21 names of at most 8191 characters are gone through,
which bounds the number of rounds. -/
def realpath (S : Sys) (E : Env) (result : List Nat) (size : Nat) (name : List Nat) : CRes (Bool × List Nat) := do
  let (ok, f2) ← getPlatform E.sgn E.reg E.f2 8192 name false
  if !ok then .ok (false, result)
  else do
    let o ← start f2 E.f3 0
    match o with
    | none => .ok (false, result)
    | some st => do
      let o ← loop S E (21 * 8192 + 1) st
      match o with
      | none => .ok (false, result)
      | some st => give S E st result size

end Verif.WinReal
