import Verif.Path.Model
import Verif.File.Model

/-!
# Model of the operations on files by name (utf8/utf8_file_dir.cpp 1533-1705, POSIX branch)

`Exists`, `Realpath`, `Chmod`, `Chown`, `Chgrp`, `Delete`, `Stat`, `Symlink`, `Readlink`,
`SetFileTimes` over an arbitrary operating system (`Sys`), and `Copy` and `Move` as wholes over a
small file system (`Fs`): names of numbered files with contents, owner, permissions and times.

Simplified: the file system has no directories and no symbolic links, reading does not change the
access time, times are whole nanoseconds.  `ssize_t` holds every length.
-/

namespace Verif.FileOps
open Verif.Path
open Verif.File (Cell)

/-- What `stat` says, as far as it is used: the times in seconds (`st_atime`, `st_mtime`)
(utf8_file_dir.cpp 1674-1683). -/
structure St where
  atime : Nat
  mtime : Nat

/-- `struct timeval` (utf8_file_dir.cpp 1684). -/
structure Stamp where
  sec : Nat
  usec : Nat
  deriving DecidableEq

/-- The system calls.  Paths are strings without terminator (utf8_file_dir.cpp 1533-1708). -/
structure Sys (σ : Type) where
  unlink : σ → List Nat → σ × Bool
  chmod : σ → List Nat → Nat → σ × Bool
  /-- `none` stands for -1: leave it as it is -/
  chown : σ → List Nat → Option Nat → Option Nat → σ × Bool
  stat : σ → List Nat → Option St
  lstat : σ → List Nat → Option St
  utimes : σ → List Nat → Stamp → Stamp → σ × Bool
  symlink : σ → List Nat → List Nat → σ × Bool
  readlink : σ → List Nat → Option (List Nat)
  realpath : σ → List Nat → Option (List Nat)
  /-- `getpwnam`: user and group number of an account -/
  user : σ → List Nat → Option (Nat × Nat)

/-- What the compiler and the stack provide: whether `char` is signed, and the contents of the local
buffers before they are written (utf8_file_dir.cpp 1533-1708). -/
structure Env where
  sgn : Bool
  junk : List Nat

variable {σ : Type}

/-- The beginning of most functions: `GetPlatformFilename` into a local buffer
(e.g. utf8_file_dir.cpp 1556-1557). -/
def byName (E : Env) (s : σ) (name : List Nat) (act : List Nat → σ × Bool) : CRes (σ × Bool) := do
  let (ok, b) ← getPlatform E.sgn E.junk 8192 name
  if !ok then .ok (s, false)
  else do
    let p ← cstr b
    .ok (act p)

/-- `Chmod` (utf8_file_dir.cpp 1554-1560). -/
def chmod (S : Sys σ) (E : Env) (s : σ) (name : List Nat) (mode : Nat) : CRes (σ × Bool) :=
  byName E s name fun p => S.chmod s p mode

/-- `Chown` (utf8_file_dir.cpp 1562-1571). -/
def chown (S : Sys σ) (E : Env) (s : σ) (name owner : List Nat) : CRes (σ × Bool) := do
  let o ← cstr owner
  byName E s name fun p =>
    match S.user s o with
    | none => (s, false)
    | some (uid, _) => S.chown s p (some uid) none

/-- `Chgrp` (utf8_file_dir.cpp 1573-1582). -/
def chgrp (S : Sys σ) (E : Env) (s : σ) (name group : List Nat) : CRes (σ × Bool) := do
  let g ← cstr group
  byName E s name fun p =>
    match S.user s g with
    | none => (s, false)
    | some (_, gid) => S.chown s p none (some gid)

/-- `Delete` (utf8_file_dir.cpp 1645-1651). -/
def delete (S : Sys σ) (E : Env) (s : σ) (name : List Nat) : CRes (σ × Bool) :=
  byName E s name fun p => S.unlink s p

/-- `Stat` (utf8_file_dir.cpp 1653-1659): the result, `none` for false. -/
def stat (S : Sys σ) (E : Env) (s : σ) (name : List Nat) (link : Bool) : CRes (Option St) := do
  let (ok, b) ← getPlatform E.sgn E.junk 8192 name
  if !ok then .ok none
  else do
    let p ← cstr b
    .ok (if link then S.lstat s p else S.stat s p)

/-- `Exists` (utf8_file_dir.cpp 1533-1540). -/
def exists_ (S : Sys σ) (E : Env) (s : σ) (name : List Nat) : CRes Bool := do
  let r ← stat S E s name false
  .ok r.isSome

/-- `Symlink` (utf8_file_dir.cpp 1661-1664): a link called `Src` that leads to `Dest`. -/
def symlink (S : Sys σ) (s : σ) (src dest : List Nat) : CRes (σ × Bool) := do
  let l ← cstr src
  let t ← cstr dest
  .ok (S.symlink s t l)

/-- `Readlink` (utf8_file_dir.cpp 1666-1671); `readlink(2)` refuses a size of 0, cuts the target and
writes no terminator. -/
def readlink (S : Sys σ) (s : σ) (result : List Nat) (size : Nat) (name : List Nat) :
    CRes (Bool × List Nat) := do
  let p ← cstr name
  match S.readlink s p with
  | none => .ok (false, result)
  | some t =>
    if size = 0 then .ok (false, result)
    else do
      let r ← memcpyTo result 0 t (min t.length size)
      .ok (min t.length size < size, r)

/-- `Realpath` (utf8_file_dir.cpp 1542-1552). -/
def realpath (S : Sys σ) (s : σ) (result : List Nat) (size : Nat) (name : List Nat) :
    CRes (Bool × List Nat) := do
  let p ← cstr name
  match S.realpath s p with
  | none => .ok (false, result)
  | some t =>
    if t.length + 1 ≤ size then do
      let r ← memcpyTo result 0 (t ++ [0]) (t.length + 1)
      .ok (true, r)
    else .ok (false, result)

/-- The new value of a time (utf8_file_dir.cpp 1685-1694, 1696-1705); `none`: a NULL pointer. -/
def newTime (given : Option Nat) (old : Nat) : Stamp :=
  match given with
  | none => ⟨old, 0⟩
  | some t => ⟨t / 1000000, t % 1000000⟩

/-- `SetFileTimes` (utf8_file_dir.cpp 1674-1708). -/
def setFileTimes (S : Sys σ) (E : Env) (s : σ) (name : List Nat) (access update : Option Nat) :
    CRes (σ × Bool) :=
  byName E s name fun p =>
    match S.stat s p with
    | none => (s, false)
    | some st => S.utimes s p (newTime access st.atime) (newTime update st.mtime)

/-! ## Copying and moving -/

/-- A file (utf8_file_dir.cpp 1590-1622). -/
structure Node where
  data : List Cell
  regular : Bool
  mode : Nat
  uid : Nat
  gid : Nat
  /-- nanoseconds -/
  atime : Nat
  mtime : Nat

/-- A file system (utf8_file_dir.cpp 1584-1643). -/
structure Fs where
  names : List Nat → Option Nat
  nodes : Nat → Option Node
  /-- number and time stamp of the next new file -/
  fresh : Nat
  now : Nat

/-- A function changed at one place (utf8_file_dir.cpp 1584-1643). -/
def set {α β : Type} [DecidableEq α] (f : α → β) (a : α) (b : β) : α → β :=
  fun x => if x = a then b else f x

/-- The file of a name (utf8_file_dir.cpp 1591-1593). -/
def Fs.lookup (fs : Fs) (p : List Nat) : Option (Nat × Node) :=
  match fs.names p with
  | none => none
  | some i =>
    match fs.nodes i with
    | none => none
    | some n => some (i, n)

/-- How the opening of the destination ends (utf8_file_dir.cpp 1598). -/
inductive OpenDst where
  | ok
  /-- nothing happened -/
  | refused
  /-- `Open` returned false after the file was opened or made (the lock failed) -/
  | locked

/-- What the system does during a copy (utf8_file_dir.cpp 1597-1622). -/
structure Outcome where
  openSrc : Bool
  openDst : OpenDst
  reads : List (List File.Sys)
  writes : List (List File.Sys)
  chown : Bool
  chmod : Bool
  utime : Bool

/-- `open` of the destination for writing, `O_CREAT` (utf8_file_dir.cpp 1598). -/
def Fs.create (fs : Fs) (p : List Nat) (mode : Nat) : Fs × Nat × Node :=
  match fs.lookup p with
  | some (i, n) => (fs, i, n)
  | none =>
    let n : Node := ⟨[], true, mode, 0, 0, fs.now, fs.now⟩
    ({ fs with names := set fs.names p (some fs.fresh), nodes := set fs.nodes fs.fresh (some n),
               fresh := fs.fresh + 1 }, fs.fresh, n)

/-- The owner, permissions and times of the copy (utf8_file_dir.cpp 1614-1622); `utime` takes
seconds. -/
def clone (o : Outcome) (src n : Node) : Node :=
  let n : Node := if o.chown then { n with uid := src.uid, gid := src.gid } else n
  let n : Node := if o.chmod then { n with mode := src.mode } else n
  if o.utime then
    { n with atime := n.atime / 1000000000 * 1000000000, mtime := src.mtime / 1000000000 * 1000000000 }
  else n

/-- `Copy` after the names are checked (utf8_file_dir.cpp 1590-1626). -/
def copyFs (o : Outcome) (fs : Fs) (p q : List Nat) : CRes (Fs × Bool) :=
  match fs.lookup p with
  | none => .ok (fs, false)
  | some (i, src) =>
    if !src.regular then .ok (fs, false)
    else if fs.names q = some i then .ok (fs, false)
    else if !o.openSrc then .ok (fs, false)
    else
      match o.openDst with
      | .refused => .ok (fs, false)
      | .locked => .ok ((fs.create q src.mode).1, false)
      | .ok => do
        let r := fs.create q src.mode
        let data ← File.copy src.data r.2.2.data o.reads o.writes (src.data.length + 1)
        .ok ({ r.1 with nodes := set r.1.nodes r.2.1 (some (clone o src { r.2.2 with data := data, mtime := r.1.now })) },
          true)

/-- `Copy` (utf8_file_dir.cpp 1584-1627). -/
def copy (E E' : Env) (o : Outcome) (fs : Fs) (src dst : List Nat) : CRes (Fs × Bool) := do
  let (ok, a) ← getPlatform E.sgn E.junk 8192 src
  if !ok then .ok (fs, false)
  else do
    let (ok, b) ← getPlatform E'.sgn E'.junk 8192 dst
    if !ok then .ok (fs, false)
    else do
      let p ← cstr a
      let q ← cstr b
      copyFs o fs p q

/-- `::unlink` (utf8_file_dir.cpp 1639). -/
def Fs.unlink (fs : Fs) (p : List Nat) : Fs := { fs with names := set fs.names p none }

/-- `::rename` when it succeeds: nothing happens if both are names of one file (utf8_file_dir.cpp 1635). -/
def Fs.rename (fs : Fs) (p q : List Nat) : Fs :=
  if fs.names p = fs.names q then fs
  else { fs with names := set (set fs.names q (fs.names p)) p none }

/-- `Move` (utf8_file_dir.cpp 1629-1643): `renamed` and `unlinked` say whether those calls succeed
(only possible for an existing source). -/
def move (E E' : Env) (renamed unlinked : Bool) (o : Outcome) (fs : Fs) (src dst : List Nat) :
    CRes (Fs × Bool) := do
  let (ok, a) ← getPlatform E.sgn E.junk 8192 src
  if !ok then .ok (fs, false)
  else do
    let (ok, b) ← getPlatform E'.sgn E'.junk 8192 dst
    if !ok then .ok (fs, false)
    else do
      let p ← cstr a
      let q ← cstr b
      if renamed && (fs.lookup p).isSome then .ok (fs.rename p q, true)
      else do
        let (fs', r) ← copy E E' o fs a b
        if r && unlinked then .ok (fs'.unlink p, true) else .ok (fs', r)

end Verif.FileOps
