import Verif.WinDir.Model

/-!
# Model of `File::Readlink` and `File::Symlink` on Windows (utf8/utf8_file_dir.cpp 856-959)

`DeviceIoControl` with `FSCTL_GET_REPARSE_POINT` fills a `REPARSE_DATA_BUFFER` in a local buffer of
`MAXIMUM_REPARSE_DATA_BUFFER_SIZE` = 16384 bytes, all 0 before.  The names of a link are in `PathBuffer`, which begins 20 bytes (symbolic
links) or 16 bytes (mount points) into it; `SubstituteNameOffset` and `SubstituteNameLength` are numbers of bytes, says the
documentation of the structure, but the code uses them as numbers of characters.

Simplified: `SetThreadProcessPrivilege` is one step that may change the state (modelled in `Priv.lean`); `LoadLibraryA` and `GetProcAddress` are one question (the library
is loaded in every process and stays loaded, so that it is never freed has no visible effect); handles are opened and closed in one step.
-/

namespace Verif.WinLink
open Verif.Path (cstr)
open Verif.WinOps (DWord DIRECTORY REPARSE wideName)
open Verif.WinAbs (absolute)

/-- The kinds of reparse points: `IO_REPARSE_TAG_SYMLINK`, `IO_REPARSE_TAG_MOUNT_POINT`, others (utf8_file_dir.cpp 934). -/
inductive Tag where
  | symlink
  | mount
  | other
  deriving DecidableEq

/-- What `DeviceIoControl` gives (utf8_file_dir.cpp 931): the kind, the offset and length of the substitute name in bytes, and the characters written to
`PathBuffer`. -/
structure Reparse where
  tag : Tag
  off : Nat
  len : Nat
  path : List Nat

/-- The characters of `PathBuffer` inside the local buffer (utf8_file_dir.cpp 927-928). -/
def cap (t : Tag) : Nat :=
  match t with
  | .symlink => 8182
  | _ => 8184

/-- `PathBuffer` up to the end of the local buffer (utf8_file_dir.cpp 927-931). -/
def pathBuffer (r : Reparse) : List Nat := (r.path ++ List.replicate (cap r.tag) 0).take (cap r.tag)

/-- The characters handed to `ConvertToUTF8` (utf8_file_dir.cpp 938-939); it reads all of them, so they have to be inside the buffer. -/
def linkUnits (r : Reparse) : CRes (List Nat) :=
  if r.len = 0 then .ok []
  else if r.off + r.len ≤ cap r.tag then .ok (((pathBuffer r).drop r.off).take r.len)
  else .error .oobRead

/-- Copying the name to the result (utf8_file_dir.cpp 936-946). -/
def giveName (r : Reparse) (result : List Nat) (size : Nat) : CRes (Bool × List Nat) := do
  let u ← linkUnits r
  let (d, _) ← Utf8.convertTo u 2 (some result) size none
  match d.buf with
  | none => .error .nullDeref
  | some b =>
    if d.size < size then do
      let b ← wr b d.size 0
      .ok (true, b)
    else .ok (false, b)

/-- The system calls (utf8_file_dir.cpp 856-959).  `reparse` opens the name and asks for the reparse point. -/
structure Sys (σ : Type) where
  cwd : σ → Option (List Nat)
  attrs : σ → List Nat → Option DWord
  reparse : σ → List Nat → Option Reparse
  privilege : σ → σ
  canLink : σ → Bool
  create : σ → List Nat → List Nat → Bool → σ × Bool

/-- `Readlink` (utf8_file_dir.cpp 906-959): the returned value and the result buffer. -/
def readlink {σ : Type} (S : Sys σ) (E : WinOps.Env) (s : σ) (result : List Nat) (size : Nat) (name : List Nat) : CRes (Bool × List Nat) := do
  let o ← wideName E name
  match o with
  | none => .ok (false, result)
  | some w =>
    match S.attrs s w with
    | none => .ok (false, result)
    | some a =>
      if (a &&& REPARSE) = 0#32 then .ok (false, result)
      else
        match S.reparse s w with
        | none => .ok (false, result)
        | some r => if r.tag = .other then .ok (false, result) else giveName r result size

/-- The buffers of the functions called (utf8_file_dir.cpp 509-518). -/
def opsEnv (E : WinDir.Env) : WinOps.Env := ⟨E.sgn, E.reg, E.junk, E.wjunk⟩

/-- The last part of `Symlink`: the names as given (utf8_file_dir.cpp 900-903). -/
def request {σ : Type} (S : Sys σ) (E : WinDir.Env) (s : σ) (src dest : List Nat) (dir : Bool) : CRes (σ × Bool) := do
  let a ← wideName (opsEnv E) src
  match a with
  | none => .ok (s, false)
  | some a => do
    let b ← wideName (opsEnv E) dest
    match b with
    | none => .ok (s, false)
    | some b => .ok (S.create s a b dir)

/-- `Symlink` (utf8_file_dir.cpp 881-904).  `Src` is the link to be made, `Dest` what it leads to. -/
def symlink {σ : Type} (S : Sys σ) (E : WinDir.Env) (s : σ) (src dest : List Nat) : CRes (σ × Bool) := do
  let s := S.privilege s
  if !S.canLink s then .ok (s, false)
  else do
    let c ← WinDir.cwdText E (S.cwd s)
    let (ok, src2) ← absolute E.sgn E.reg E.junk2 E.junk3 E.junk 8192 none c src false
    if !ok then .ok (s, false)
    else do
      let (ok, dest2) ← absolute E.sgn E.reg E.junk2 E.junk3 E.junk 8192 (some src2) c dest false
      if !ok then .ok (s, false)
      else do
        let w ← wideName (opsEnv E) dest2
        match w with
        | none => .ok (s, false)
        | some w =>
          match S.attrs s w with
          | none => .ok (s, false)
          | some a => request S E s src dest ((a &&& DIRECTORY) ≠ 0#32)

end Verif.WinLink
