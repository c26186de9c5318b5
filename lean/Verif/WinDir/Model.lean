import Verif.WinAbs.Model
import Verif.WinOps.Model

/-!
# Model of `Dir::Getcwd`, `Mkdir` and `Rmdir` on Windows (utf8/utf8_file_dir.cpp 1075-1191)

The operating system is a record of functions on an arbitrary state, so the theorems hold for every behaviour of the
file system; every call may change the state.  Wide characters are numbers; names the system gets or gives are strings
without terminator.

Simplified: `FindFirstFileW` gives all entries at once (those the following calls of `FindNextFileW` will give); the
state can still change between the entries.  The conversion of the current directory is done even
if the name turns out to have a volume and the directory is not needed.  `SECURITY_ATTRIBUTES` and `FindClose` have no visible
effect.
-/

namespace Verif.WinDir
open Verif.Path (cstr)
open Verif.WinPath (getPlatform info)
open Verif.WinAbs (absolute)
open Verif.WinOps (DWord DIRECTORY REPARSE)

/-- The system calls (utf8_file_dir.cpp 1075-1191).  `find` is `FindFirstFileW` with its `FindNextFileW` calls: the names and
attributes of the entries. -/
structure Sys (σ : Type) where
  cwd : σ → σ × Option (List Nat)
  attrs : σ → List Nat → σ × Option DWord
  find : σ → List Nat → σ × Option (List (List Nat × DWord))
  delete : σ → List Nat → σ × Bool
  rmdir : σ → List Nat → σ × Bool
  mkdir : σ → List Nat → σ × Bool

/-- What the compiler, the registry and the stack provide: whether `char` is signed, the drive letters of volumes, and the
contents of the local buffers before they are written: those of `GetAbsoluteFilename`, `Dirname2` and `Dirname3` of its caller, and
`Dirname2` of `Getcwd` (utf8_file_dir.cpp 1075-1191). -/
structure Env where
  sgn : Bool
  reg : List Nat → Option Nat
  junk2 : List Nat
  junk3 : List Nat
  junk : List Nat
  wjunk : List Nat
  cjunk : List Nat

/-- The current directory in UTF-8, in the local buffer of `Getcwd` (utf8_file_dir.cpp 1077-1087).  `GetCurrentDirectoryW`
does not write a name that does not fit, but returns a number that is not 0. -/
def cwdText (E : Env) (w : Option (List Nat)) : CRes (Option (List Nat)) :=
  match w with
  | none => .ok none
  | some w =>
    if w.length ≥ 8192 then .error .uninit
    else do
      let (d, _) ← Utf8.convertTo (w ++ [0]) 2 (some E.cjunk) 8192 none
      .ok d.buf

/-- `Getcwd` for the current directory `w` (utf8_file_dir.cpp 1075-1091): the returned value and the result buffer. -/
def getcwd (E : Env) (w : Option (List Nat)) (result : List Nat) (size : Nat) : CRes (Bool × List Nat) := do
  let c ← cwdText E w
  match c with
  | none => .ok (false, result)
  | some b => getPlatform E.sgn E.reg result size b false

/-- The absolute name in UTF-8 and in UTF-16, and the number of units of the latter with the terminator
(utf8_file_dir.cpp 1098-1103, 1138-1143). -/
def absName {σ : Type} (S : Sys σ) (E : Env) (s : σ) (name : List Nat) : CRes (σ × Option (List Nat × List Nat × Nat)) := do
  let c ← cwdText E (S.cwd s).2
  let (ok, b) ← absolute E.sgn E.reg E.junk2 E.junk3 E.junk 8192 none c name false
  if !ok then .ok ((S.cwd s).1, none)
  else do
    let p ← cstr b
    let d ← Utf8.convertFrom (b.take (p.length + 1)) (some E.wjunk) 8192 2
    match d.buf with
    | none => .error .nullDeref
    | some w => .ok ((S.cwd s).1, some (b, w, d.size))

/-! ## Mkdir -/

/-- The loop skipping to the first backslash (utf8_file_dir.cpp 1117). -/
def skipTo (b : List Nat) : Nat → Nat → CRes Nat
  | 0, _ => .error .diverges
  | k + 1, x => do
    let c ← rd b x
    if c ≠ 0 ∧ c ≠ 92 then skipTo b k (x + 1) else .ok x

/-- The loop creating the parents (utf8_file_dir.cpp 1119-1127). -/
def parents {σ : Type} (S : Sys σ) : Nat → Nat → σ → List Nat → CRes (σ × List Nat)
  | 0, _, _, _ => .error .diverges
  | k + 1, x, s, b => do
    let c ← rd b x
    if c = 0 then .ok (s, b)
    else if c = 92 then do
      let b ← wr b x 0
      let p ← cstr b
      let b ← wr b x 92
      parents S k (x + 1) (S.mkdir s p).1 b
    else parents S k (x + 1) s b

/-- `Mkdir` (utf8_file_dir.cpp 1093-1131). -/
def mkdir {σ : Type} (S : Sys σ) (E : Env) (s : σ) (name : List Nat) (recursive : Bool) : CRes (σ × Bool) := do
  let (s, r) ← absName S E s name
  match r with
  | none => .ok (s, false)
  | some (b, w, _) =>
    if recursive then do
      let i ← info b
      let x ← skipTo w (w.length + 1) i.startVolume
      let c ← rd w x
      let (s, w) ← parents S (w.length + 1) (if c = 92 then x + 1 else x) s w
      let p ← cstr w
      .ok (S.mkdir s p)
    else do
      let p ← cstr w
      .ok (S.mkdir s p)

/-! ## Rmdir -/

/-- The loop of `Rmdir_RecurseInternal` (utf8_file_dir.cpp 1168-1185); `rec` is the recursive call. -/
def entries {σ : Type} (S : Sys σ) (rec : σ → List Nat → Nat → CRes (σ × List Nat)) (size : Nat) :
    List (List Nat × DWord) → σ → List Nat → CRes (σ × List Nat)
  | [], s, w => .ok (s, w)
  | (e, a) :: es, s, w =>
    if e = [46] ∨ e = [46, 46] then entries S rec size es s w
    else if size + 1 + (e.length + 1) ≤ 8191 then do
      let w ← memcpyTo w (size + 1) (e ++ [0]) (e.length + 1)
      if (a &&& DIRECTORY) = 0#32 then do
        let p ← cstr w
        entries S rec size es (S.delete s p).1 w
      else do
        let (s, w) ← (if (a &&& REPARSE) = 0#32 then rec s w (size + (e.length + 1)) else .ok (s, w) : CRes (σ × List Nat))
        let p ← cstr w
        entries S rec size es (S.rmdir s p).1 w
    else entries S rec size es s w

/-- `Rmdir_RecurseInternal` (utf8_file_dir.cpp 1155-1191); the first argument bounds the depth of the recursion,
running out of it is an error of the model. -/
def rmRec {σ : Type} (S : Sys σ) : Nat → σ → List Nat → Nat → CRes (σ × List Nat)
  | 0, _, _, _ => .error .diverges
  | k + 1, s, w, size =>
    if size ≥ 8190 then .ok (s, w)
    else do
      let w ← wr w size 92
      let w ← wr w (size + 1) 42
      let w ← wr w (size + 2) 0
      let p ← cstr w
      match (S.find s p).2 with
      | none => do
        let w ← wr w size 0
        .ok ((S.find s p).1, w)
      | some es => do
        let (s, w) ← entries S (rmRec S k) size es (S.find s p).1 w
        let w ← wr w size 0
        .ok (s, w)

/-- `Rmdir` (utf8_file_dir.cpp 1133-1153). -/
def rmdir {σ : Type} (S : Sys σ) (E : Env) (s : σ) (name : List Nat) (recursive : Bool) : CRes (σ × Bool) := do
  let (s, r) ← absName S E s name
  match r with
  | none => .ok (s, false)
  | some (_, w, size) =>
    if recursive then do
      let p ← cstr w
      let (s, w) ← (match (S.attrs s p).2 with
        | none => .ok ((S.attrs s p).1, w)
        | some a =>
          if (a &&& REPARSE) = 0#32 then rmRec S 8192 (S.attrs s p).1 w ((size + 2 ^ 64 - 1) % 2 ^ 64)
          else .ok ((S.attrs s p).1, w) : CRes (σ × List Nat))
      let p ← cstr w
      .ok (S.rmdir s p)
    else do
      let p ← cstr w
      .ok (S.rmdir s p)

end Verif.WinDir
