import Verif.Path.Model

/-!
# Model of `Dir::Mkdir` and `Dir::Rmdir` (utf8/utf8_file_dir.cpp, POSIX branch)

The operating system is a record of functions on an arbitrary state, so the theorems hold for every
behaviour of the file system; every call may change the state.
Simplified: `opendir` gives all entry names at once (the names the following `readdir` calls will
return, including "." and ".."); the state can still change between the entries.  `closedir` has no
visible effect.
-/

namespace Verif.Dir
open Verif.Path

/-- What `lstat` says about a path (utf8_file_dir.cpp 1812-1845). -/
inductive Kind where
  | dir
  | link
  | other
  deriving DecidableEq

/-- The system calls.  Paths are strings without terminator (utf8_file_dir.cpp 1770-1845). -/
structure Sys (σ : Type) where
  cwd : σ → σ × Option (List Nat)
  lstat : σ → List Nat → σ × Option Kind
  opendir : σ → List Nat → σ × Option (List (List Nat))
  unlink : σ → List Nat → σ × Bool
  rmdir : σ → List Nat → σ × Bool
  mkdir : σ → List Nat → Nat → σ × Bool

/-- What the compiler and the stack provide: whether `char` is signed, and the contents of the local
buffers of `GetAbsoluteFilename` and of its caller before they are written (utf8_file_dir.cpp 1770-1845). -/
structure Env where
  sgn : Bool
  junk2 : List Nat
  junk3 : List Nat
  junk : List Nat

/-- `GetAbsoluteFilename(Dirname2, 8192, NULL, Dirname, false)` (utf8_file_dir.cpp 1726, 1774, 1800). -/
def resolvePath {σ : Type} (S : Sys σ) (E : Env) (s : σ) (name : List Nat) : CRes (σ × Bool × List Nat) := do
  let (ok, b) ← absolute E.sgn E.junk2 E.junk3 E.junk 8192 none (S.cwd s).2 name false
  .ok ((S.cwd s).1, ok, b)

/-- `Dir::Open` (utf8_file_dir.cpp 1720-1731). -/
def openDir {σ : Type} (S : Sys σ) (E : Env) (s : σ) (name : List Nat) : CRes (σ × Option (List (List Nat))) := do
  let (s, ok, b) ← resolvePath S E s name
  if !ok then .ok (s, none)
  else do
    let p ← cstr b
    .ok (S.opendir s p)

/-- `TempDir.Read(Dirname + Size + 1, 8192 - Size - 1)` for the next entry (utf8_file_dir.cpp 1733-1752,
1824): `none` if the name is too long. -/
def readEntry (buf : List Nat) (size : Nat) (e : List Nat) : CRes (Option (List Nat)) :=
  if e.length + 1 > 8192 - size - 1 then .ok none
  else do
    let buf ← memcpyTo buf (size + 1) (e ++ [0]) (e.length + 1)
    .ok (some buf)

/-- The loop of `Rmdir_RecurseInternal` (utf8_file_dir.cpp 1824-1840); `rec` is the recursive call. -/
def entries {σ : Type} (S : Sys σ) (rec : σ → List Nat → Nat → CRes (σ × List Nat)) (size : Nat) :
    List (List Nat) → σ → List Nat → CRes (σ × List Nat)
  | [], s, buf => .ok (s, buf)
  | e :: es, s, buf => do
    let r ← readEntry buf size e
    match r with
    | none => .ok (s, buf)
    | some buf => do
      let name ← cstr (buf.drop (size + 1))
      if name = [46] ∨ name = [46, 46] then entries S rec size es s buf
      else do
        let p ← cstr buf
        match (S.lstat s p).2 with
        | none => entries S rec size es (S.lstat s p).1 buf
        | some .dir => do
          let (s, buf) ← rec (S.lstat s p).1 buf p.length
          let p ← cstr buf
          entries S rec size es (S.rmdir s p).1 buf
        | some _ => entries S rec size es (S.unlink (S.lstat s p).1 p).1 buf

/-- `Rmdir_RecurseInternal` (utf8_file_dir.cpp 1812-1844); the first argument bounds the depth of the
recursion, running out of it is an error of the model. -/
def rmRec {σ : Type} (S : Sys σ) (E : Env) : Nat → σ → List Nat → Nat → CRes (σ × List Nat)
  | 0, _, _, _ => .error .diverges
  | k + 1, s, buf, size => do
    if size ≥ 8190 then .ok (s, buf)
    else do
      let (s, es) ← openDir S E s buf
      match es with
      | none => .ok (s, buf)
      | some es => do
        let buf ← wr buf size 47
        let (s, buf) ← entries S (rmRec S E k) size es s buf
        let buf ← wr buf size 0
        .ok (s, buf)

/-- `Dir::Rmdir` (utf8_file_dir.cpp 1796-1810). -/
def rmdir {σ : Type} (S : Sys σ) (E : Env) (s : σ) (name : List Nat) (recursive : Bool) : CRes (σ × Bool) := do
  let (s, ok, b) ← resolvePath S E s name
  if !ok then .ok (s, false)
  else if recursive then do
    let p ← cstr b
    match (S.lstat s p).2 with
    | none => do
      let p ← cstr b
      .ok (S.rmdir (S.lstat s p).1 p)
    | some .link => do
      let p ← cstr b
      .ok (S.rmdir (S.lstat s p).1 p)
    | some _ => do
      let (s, b) ← rmRec S E 8192 (S.lstat s p).1 b p.length
      let p ← cstr b
      .ok (S.rmdir s p)
  else do
    let p ← cstr b
    .ok (S.rmdir s p)

/-- The loop skipping to the first slash (utf8_file_dir.cpp 1780). -/
def skipTo (b : List Nat) : Nat → Nat → CRes Nat
  | 0, _ => .error .diverges
  | k + 1, x => do
    let c ← rd b x
    if c ≠ 0 ∧ c ≠ 47 then skipTo b k (x + 1) else .ok x

/-- The loop creating the parents (utf8_file_dir.cpp 1782-1790). -/
def parents {σ : Type} (S : Sys σ) (mode : Nat) : Nat → Nat → σ → List Nat → CRes (σ × List Nat)
  | 0, _, _, _ => .error .diverges
  | k + 1, x, s, b => do
    let c ← rd b x
    if c = 0 then .ok (s, b)
    else if c = 47 then do
      let b ← wr b x 0
      let p ← cstr b
      let b ← wr b x 47
      parents S mode k (x + 1) (S.mkdir s p mode).1 b
    else parents S mode k (x + 1) s b

/-- `Dir::Mkdir` (utf8_file_dir.cpp 1770-1794). -/
def mkdir {σ : Type} (S : Sys σ) (E : Env) (s : σ) (name : List Nat) (mode : Nat) (recursive : Bool) : CRes (σ × Bool) := do
  let (s, ok, b) ← resolvePath S E s name
  if !ok then .ok (s, false)
  else if recursive then do
    let x ← skipTo b (b.length + 1) 0
    let c ← rd b x
    let (s, b) ← parents S mode (b.length + 1) (if c = 47 then x + 1 else x) s b
    let p ← cstr b
    .ok (S.mkdir s p mode)
  else do
    let p ← cstr b
    .ok (S.mkdir s p mode)

end Verif.Dir
