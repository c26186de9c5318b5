import Verif.WinPath.Model
import Verif.Utf8.Model

/-!
# Model of the operations on files by name on Windows (utf8/utf8_file_dir.cpp 509-1017)

`GetWindowsPlatformFilename`, `Exists`, `Chmod`, `Copy`, `Move`, `Delete`, `Stat`, `SetFileTimes` and the conversions of
times (also environment/environment_appinfo.cpp 27-61), over a small file system: names of numbered files with
attributes, contents and times.

The system calls follow their documentation as far as it matters here: files that are read-only or are directories are
not deleted and not opened for writing; `MoveFileW` does not replace a file; `CopyFileW` replaces a
file unless that is read-only, hidden, a directory or the source itself, and the copy gets the attributes and the
modification time of the source; `SetFileAttributesW` cannot change what a file is; `SetFileTime` leaves a time alone for
0 and -1 and refuses numbers that are negative when taken as signed.  Besides that each call may be refused
(`Os.deny`), and a refused copy may leave anything in the destination (`Os.torn`).

Simplified: names of the file system are compared exactly; `Copy` and `Move` are not followed through symbolic
links (a link is a file with a mark, which only `Stat` reads); nobody else changes the file system during a call.
-/

namespace Verif.WinOps
open Verif.Path (cstr Info)
open Verif.WinPath (getPlatform info atI)

/-- `DWORD` (utf8_file_dir.cpp 672). -/
abbrev DWord := BitVec 32

/-- `FILETIME` (utf8_file_dir.cpp 961). -/
structure FileTime where
  hi : Nat
  lo : Nat
  deriving DecidableEq

/-- `ULARGE_INTEGER::QuadPart` of a `FILETIME` (utf8_file_dir.cpp 966-968). -/
def quad (t : FileTime) : Nat := t.hi * 2 ^ 32 + t.lo

/-- The parts of a `QuadPart` (utf8_file_dir.cpp 980-982). -/
def ofQuad (q : Nat) : FileTime := ⟨q / 2 ^ 32 % 2 ^ 32, q % 2 ^ 32⟩

/-- `ConvertFILETIMEToUnixTime` (utf8_file_dir.cpp 961-971); the subtraction is modulo 2^64. -/
def toUnix (t : FileTime) : Nat := ((quad t + 2 ^ 64 - 116444736000000000) % 2 ^ 64) / 10000000

/-- `ConvertUnixMicrosecondTimeToFILETIME` (utf8_file_dir.cpp 973-985). -/
def ofMicro (t : Nat) : FileTime := ofQuad ((t * 10 % 2 ^ 64 + 116444736000000000) % 2 ^ 64)

/-- `GetUnixMicrosecondTime` (environment_appinfo.cpp 27-41) for the time of the system clock. -/
def clockMicro (t : FileTime) : Nat := (quad t / 10 + 2 ^ 64 - 11644473600000000) % 2 ^ 64

/-- `GetUnixMicrosecondTime`, POSIX (environment_appinfo.cpp 54-61); `none`: `gettimeofday` fails. -/
def clockMicroPosix (t : Option (Nat × Nat)) : Nat :=
  match t with
  | none => 0
  | some (sec, usec) => (sec * 1000000 % 2 ^ 64 + usec) % 2 ^ 64

/-! ## The file system -/

/-- A file.  `attrs` without `FILE_ATTRIBUTE_NORMAL`, which stands for the absence of others
(utf8_file_dir.cpp 680). -/
structure Node where
  attrs : DWord
  data : List Nat
  created : Nat
  accessed : Nat
  written : Nat
  /-- a symbolic link or mount point -/
  link : Bool

/-- `FILE_ATTRIBUTE_READONLY` (utf8_file_dir.cpp 677). -/
def READONLY : DWord := 0x1#32
/-- `FILE_ATTRIBUTE_HIDDEN`, used by `CopyFileW` (utf8_file_dir.cpp 711). -/
def HIDDEN : DWord := 0x2#32
/-- `FILE_ATTRIBUTE_DIRECTORY` (utf8_file_dir.cpp 675). -/
def DIRECTORY : DWord := 0x10#32
/-- `FILE_ATTRIBUTE_NORMAL` (utf8_file_dir.cpp 678). -/
def NORMAL : DWord := 0x80#32
/-- `FILE_ATTRIBUTE_REPARSE_POINT` (utf8_file_dir.cpp 803). -/
def REPARSE : DWord := 0x400#32

/-- The file system: where the names lead, the files, and a number never used
(utf8_file_dir.cpp 509-1017). -/
structure Fs where
  name : List Nat → Option Nat
  node : Nat → Node
  next : Nat

/-- The file a name leads to (utf8_file_dir.cpp 509-1017). -/
def Fs.find (fs : Fs) (w : List Nat) : Option Node := (fs.name w).map fs.node

/-- Replace a file (utf8_file_dir.cpp 509-1017). -/
def Fs.put (fs : Fs) (i : Nat) (n : Node) : Fs := { fs with node := fun j => if j = i then n else fs.node j }

/-- Let a name lead to a file or nowhere (utf8_file_dir.cpp 509-1017). -/
def Fs.bind (fs : Fs) (w : List Nat) (o : Option Nat) : Fs := { fs with name := fun v => if v = w then o else fs.name v }

/-- The system calls (utf8_file_dir.cpp 509-1017). -/
inductive Call where
  | attrs (w : List Nat)
  | setAttrs (w : List Nat) (a : DWord)
  | info (w : List Nat)
  | delete (w : List Nat)
  | move (a b : List Nat)
  | copy (a b : List Nat)
  | openWrite (w : List Nat)
  | setTimes (w : List Nat)
  | reparse (w : List Nat)

/-- What the system decides: which calls it refuses, what a refused copy leaves in the destination
(`none`: nothing happens), and the clock (utf8_file_dir.cpp 509-1017). -/
structure Os where
  deny : Call → Fs → Bool
  torn : Fs → Option (List Nat)
  now : Fs → Nat

/-- The attributes as the system tells them (utf8_file_dir.cpp 674). -/
def told (a : DWord) : DWord := if a = 0#32 then NORMAL else a

/-- `GetFileAttributesW`; `none` stands for -1 (utf8_file_dir.cpp 674). -/
def getAttrs (os : Os) (fs : Fs) (w : List Nat) : Option DWord :=
  if os.deny (.attrs w) fs then none else (fs.find w).map (fun n => told n.attrs)

/-- The attributes after `SetFileAttributesW`: what a file is does not change (utf8_file_dir.cpp 681). -/
def changed (old a : DWord) : DWord :=
  (old &&& (DIRECTORY ||| REPARSE)) ||| (a &&& ~~~(DIRECTORY ||| REPARSE ||| NORMAL))

/-- `SetFileAttributesW` (utf8_file_dir.cpp 681). -/
def setAttrs (os : Os) (fs : Fs) (w : List Nat) (a : DWord) : Fs × Bool :=
  match fs.name w with
  | none => (fs, false)
  | some i =>
    if os.deny (.setAttrs w a) fs then (fs, false)
    else (fs.put i { fs.node i with attrs := changed (fs.node i).attrs a }, true)

/-- A file has one of these attributes (utf8_file_dir.cpp 675). -/
def has (n : Node) (m : DWord) : Bool := (n.attrs &&& m) ≠ 0#32

/-- `DeleteFileW` (utf8_file_dir.cpp 747). -/
def deleteFile (os : Os) (fs : Fs) (w : List Nat) : Fs × Bool :=
  match fs.name w with
  | none => (fs, false)
  | some i =>
    if has (fs.node i) (READONLY ||| DIRECTORY) || os.deny (.delete w) fs then (fs, false)
    else (fs.bind w none, true)

/-- `MoveFileW` (utf8_file_dir.cpp 730). -/
def moveFile (os : Os) (fs : Fs) (a b : List Nat) : Fs × Bool :=
  match fs.name a, fs.name b with
  | some i, none => if os.deny (.move a b) fs then (fs, false) else ((fs.bind a none).bind b (some i), true)
  | _, _ => (fs, false)

/-- A file that `CopyFileW` made of `n` (utf8_file_dir.cpp 711). -/
def copied (os : Os) (fs : Fs) (n : Node) : Node :=
  { n with attrs := n.attrs &&& ~~~REPARSE, created := os.now fs, accessed := os.now fs, link := false }

/-- A file that `CopyFileW` left unfinished (utf8_file_dir.cpp 711). -/
def unfinished (os : Os) (fs : Fs) (d : List Nat) (attrs : DWord) : Node :=
  { attrs := attrs, data := d, created := os.now fs, accessed := os.now fs, written := os.now fs, link := false }

/-- `CopyFileW` replacing a file (utf8_file_dir.cpp 711). -/
def copyFile (os : Os) (fs : Fs) (a b : List Nat) : Fs × Bool :=
  match fs.name a with
  | none => (fs, false)
  | some i =>
    if has (fs.node i) DIRECTORY then (fs, false)
    else match fs.name b with
      | some j =>
        if i = j || has (fs.node j) (READONLY ||| HIDDEN ||| DIRECTORY) then (fs, false)
        else if os.deny (.copy a b) fs then
          match os.torn fs with
          | none => (fs, false)
          | some d => (fs.put j (unfinished os fs d (fs.node j).attrs), false)
        else (fs.put j (copied os fs (fs.node i)), true)
      | none =>
        if os.deny (.copy a b) fs then
          match os.torn fs with
          | none => (fs, false)
          | some d => ({ (fs.bind b (some fs.next)).put fs.next (unfinished os fs d 0#32) with next := fs.next + 1 }, false)
        else ({ (fs.bind b (some fs.next)).put fs.next (copied os fs (fs.node i)) with next := fs.next + 1 }, true)

/-- The time `SetFileTime` leaves, for the old one and the argument; outside: `none` if the argument is
refused (utf8_file_dir.cpp 1012). -/
def newTime (old : Nat) (arg : Option FileTime) : Option Nat :=
  match arg with
  | none => some old
  | some t =>
    if quad t = 0 ∨ 2 ^ 64 - 2 ≤ quad t then some old
    else if 2 ^ 63 ≤ quad t then none
    else some (quad t)

/-- `SetFileTime` (utf8_file_dir.cpp 1006, 1012). -/
def setTimes (os : Os) (fs : Fs) (w : List Nat) (c a u : Option FileTime) : Fs × Bool :=
  match fs.name w with
  | none => (fs, false)
  | some i =>
    match newTime (fs.node i).created c, newTime (fs.node i).accessed a, newTime (fs.node i).written u with
    | some c, some a, some u =>
      if os.deny (.setTimes w) fs then (fs, false)
      else (fs.put i { fs.node i with created := c, accessed := a, written := u }, true)
    | _, _, _ => (fs, false)

/-- `CreateFileW` with `GENERIC_WRITE` (utf8_file_dir.cpp 999-1000): does it succeed. -/
def openWrite (os : Os) (fs : Fs) (w : List Nat) : Bool :=
  match fs.find w with
  | none => false
  | some n => !has n (READONLY ||| DIRECTORY) && !os.deny (.openWrite w) fs

/-! ## The functions -/

/-- What the compiler, the stack and the registry provide: whether `char` is signed, the drive letters of volumes, and
the contents of the local buffers before they are written (utf8_file_dir.cpp 509-518). -/
structure Env where
  sgn : Bool
  reg : List Nat → Option Nat
  junk : List Nat
  wjunk : List Nat

/-- The conversion of a file name to UTF-16, as the system reads it: up to the terminator
(utf8_file_dir.cpp 515, 758); `b` holds `s`, terminated. -/
def widen (E : Env) (b s : List Nat) : CRes (List Nat) := do
  let d ← Utf8.convertFrom (b.take (s.length + 1)) (some E.wjunk) 8192 2
  match d.buf with
  | none => .error .nullDeref
  | some w => cstr w

/-- `GetWindowsPlatformFilename` into a buffer of 8192 characters (utf8_file_dir.cpp 509-518); `none`: refused. -/
def wideName (E : Env) (name : List Nat) : CRes (Option (List Nat)) := do
  let (ok, b) ← getPlatform E.sgn E.reg E.junk 8192 name false
  if !ok then .ok none
  else do
    let s ← cstr b
    let w ← widen E b s
    .ok (some w)

/-- The beginning of most functions (utf8_file_dir.cpp 540-541, 669-670, 742-743, 991-992). -/
def byName (E : Env) (fs : Fs) (name : List Nat) (act : List Nat → Fs × Bool) : CRes (Fs × Bool) := do
  let o ← wideName E name
  match o with
  | none => .ok (fs, false)
  | some w => .ok (act w)

/-- `Exists` (utf8_file_dir.cpp 538-547). -/
def exists_ (E : Env) (os : Os) (fs : Fs) (name : List Nat) : CRes (Fs × Bool) :=
  byName E fs name fun w => (fs, (getAttrs os fs w).isSome)

/-- The attributes `Chmod` sets (utf8_file_dir.cpp 677-680). -/
def chmodAttrs (a mode : DWord) : DWord :=
  let a := a &&& ~~~READONLY
  let a := a &&& ~~~NORMAL
  let a := if (mode &&& 0o333#32) = 0#32 ∧ (mode &&& 0o444#32) ≠ 0#32 then a ||| READONLY else a
  if a = 0#32 then a ||| NORMAL else a

/-- `Chmod` after the conversion of the name (utf8_file_dir.cpp 672-683). -/
def chmodWide (os : Os) (fs : Fs) (mode : DWord) (w : List Nat) : Fs × Bool :=
  match getAttrs os fs w with
  | none => (fs, false)
  | some a => if (a &&& DIRECTORY) ≠ 0#32 then (fs, false) else setAttrs os fs w (chmodAttrs a mode)

/-- `Chmod` (utf8_file_dir.cpp 667-684). -/
def chmod (E : Env) (os : Os) (fs : Fs) (name : List Nat) (mode : DWord) : CRes (Fs × Bool) :=
  byName E fs name (chmodWide os fs mode)

/-- `Delete` (utf8_file_dir.cpp 740-748). -/
def delete (E : Env) (os : Os) (fs : Fs) (name : List Nat) : CRes (Fs × Bool) :=
  byName E fs name fun w => deleteFile os (setAttrs os fs w NORMAL).1 w

/-- `SetFileTimes` after the conversion of the name (utf8_file_dir.cpp 999-1016). -/
def setFileTimesWide (os : Os) (fs : Fs) (c a u : Option Nat) (w : List Nat) : Fs × Bool :=
  if !openWrite os fs w then (fs, false)
  else
    let fs := (setTimes os fs w none (some ⟨0xFFFFFFFF, 0xFFFFFFFF⟩) (some ⟨0xFFFFFFFF, 0xFFFFFFFF⟩)).1
    setTimes os fs w (c.map ofMicro) (a.map ofMicro) (u.map ofMicro)

/-- `SetFileTimes` (utf8_file_dir.cpp 987-1017). -/
def setFileTimes (E : Env) (os : Os) (fs : Fs) (name : List Nat) (c a u : Option Nat) : CRes (Fs × Bool) :=
  if c = none ∧ a = none ∧ u = none then .ok (fs, false)
  else byName E fs name (setFileTimesWide os fs c a u)

/-- `GetWindowsFilenameInfo` (utf8_file_dir.cpp 520-536): the number of the file, which stands for the serial number and
index, and the file. -/
def fileInfo (os : Os) (fs : Fs) (w : List Nat) : Option (Nat × Node) :=
  if os.deny (.info w) fs then none else (fs.name w).map (fun i => (i, fs.node i))

/-- The test for copying a file onto itself (utf8_file_dir.cpp 707). -/
def sameFile (os : Os) (fs : Fs) (i : Nat) (n : Node) (b : List Nat) : Bool :=
  match fileInfo os fs b with
  | none => false
  | some (j, m) => i = j && n.data.length = m.data.length

/-- The attributes given to the destination after the copy (utf8_file_dir.cpp 712). -/
def afterCopy (ok : Bool) (src : DWord) (before : Option DWord) : DWord :=
  if ok then src else match before with
    | some a => a
    | none => NORMAL

/-- The time passed to `SetFileTimes` (utf8_file_dir.cpp 717). -/
def copyMicro (t : FileTime) : Nat := ((t.hi * 2 ^ 32 + t.lo + 2 ^ 64 - 116444736000000000) % 2 ^ 64) / 10

/-- `Copy` after the conversion of the names (utf8_file_dir.cpp 703-721).  `SetFileTimes` converts the name
again, with the same result. -/
def copyWide (os : Os) (fs : Fs) (a b : List Nat) : Fs × Bool :=
  match fileInfo os fs a with
  | none => (fs, false)
  | some (i, n) =>
    if sameFile os fs i n b then (fs, false)
    else
      let before := getAttrs os fs b
      let fs := (setAttrs os fs b NORMAL).1
      let r := copyFile os fs a b
      let fs := (setAttrs os r.1 b (afterCopy r.2 (told n.attrs) before)).1
      if r.2 then ((setFileTimesWide os fs none none (some (copyMicro (ofQuad n.written))) b).1, true) else (fs, false)

/-- `Copy` (utf8_file_dir.cpp 697-722). -/
def copy (E : Env) (os : Os) (fs : Fs) (src dest : List Nat) : CRes (Fs × Bool) := do
  let a ← wideName E src
  match a with
  | none => .ok (fs, false)
  | some a => byName E fs dest (copyWide os fs a)

/-- `Move` after the conversion of the names (utf8_file_dir.cpp 730-737).  `Copy` converts the names again,
with the same result. -/
def moveWide (os : Os) (fs : Fs) (a b : List Nat) : Fs × Bool :=
  let r := moveFile os fs a b
  if r.2 then r
  else
    let r := copyWide os r.1 a b
    if r.2 then ((deleteFile os r.1 a).1, true) else r

/-- `Move` (utf8_file_dir.cpp 724-738). -/
def move (E : Env) (os : Os) (fs : Fs) (src dest : List Nat) : CRes (Fs × Bool) := do
  let a ← wideName E src
  match a with
  | none => .ok (fs, false)
  | some a => byName E fs dest (moveWide os fs a)

/-! ## Stat -/

/-- The fields `Stat` fills (utf8_file_dir.cpp 764-851). -/
structure St where
  dev : Nat
  mode : Nat
  size : Nat
  atime : Nat
  mtime : Nat
  ctime : Nat
  deriving DecidableEq

/-- `st_dev` of a name with a volume: the drive, or 0; `none` without a volume (utf8_file_dir.cpp 769-776, 786-793). -/
def device (b : List Nat) (i : Info) : CRes (Option Nat) := do
  let drive ← (if i.startPath - i.startVolume = 2 then do
      let c ← rd b i.startVolume
      if 65 ≤ c ∧ c ≤ 90 then do
        let d ← rd b (i.startVolume + 1)
        .ok (if d = 58 then some (c - 65) else none)
      else .ok none
    else .ok none : CRes (Option Nat))
  match drive with
  | some d => .ok (some d)
  | none => .ok (if i.startVolume > 0 then some 0 else none)

/-- `st_dev`, an unsigned number (utf8_file_dir.cpp 766-798, 1075-1091); `cwd` is the current directory in UTF-8, terminated, and `none` if the system does not
tell it; the result is `none` if `Getcwd` fails. -/
def statDev (E : Env) (b : List Nat) (i : Info) (cwd : Option (List Nat)) : CRes (Option Nat) := do
  let d ← device b i
  match d with
  | some d => .ok (some d)
  | none =>
    match cwd with
    | none => .ok none
    | some c => do
      let (ok, b) ← getPlatform E.sgn E.reg E.junk 8192 c false
      if !ok then .ok none
      else do
        let i ← info b
        let d ← device b i
        match d with
        | some d => .ok (some d)
        | none => .ok (some (2 ^ 32 - 1))

/-- The test for the extensions of programs (utf8_file_dir.cpp 837-839). -/
def program (b : List Nat) (i : Info) : CRes Bool :=
  if i.length > 4 then do
    let c ← rd b (i.length - 4)
    if c = 46 then
      WinPath.orElse (atI b (i.length - 3) [101, 120, 101])
        (WinPath.orElse (atI b (i.length - 3) [99, 111, 109])
          (WinPath.orElse (atI b (i.length - 3) [98, 97, 116]) (atI b (i.length - 3) [99, 109, 100])))
    else .ok false
  else .ok false

/-- `st_mode` (utf8_file_dir.cpp 802-843); `link`: the argument `Link`, `os.deny (.reparse w)`: the
link cannot be opened. -/
def statMode (os : Os) (fs : Fs) (w : List Nat) (n : Node) (link prog : Bool) : Nat :=
  let mode :=
    if link && has n REPARSE && !os.deny (.reparse w) fs && n.link then 0o120000
    else if has n DIRECTORY then 0o40000 ||| 0o111 else 0o100000
  let mode := mode ||| (if has n READONLY then 0o444 else 0o666)
  if !has n DIRECTORY && prog then mode ||| 0o111 else mode

/-- `Stat` (utf8_file_dir.cpp 750-854). -/
def stat (E : Env) (os : Os) (fs : Fs) (cwd : Option (List Nat)) (name : List Nat) (link : Bool) : CRes (Option St) := do
  let (ok, b) ← getPlatform E.sgn E.reg E.junk 8192 name false
  if !ok then .ok none
  else do
    let s ← cstr b
    let w ← widen E b s
    match (if os.deny (.attrs w) fs then none else fs.find w) with
    | none => .ok none
    | some n => do
      let i ← info b
      let dev ← statDev E b i cwd
      match dev with
      | none => .ok none
      | some dev => do
        let prog ← program b i
        .ok (some { dev := dev, mode := statMode os fs w n link prog, size := n.data.length,
                    atime := toUnix (ofQuad n.accessed), mtime := toUnix (ofQuad n.written), ctime := toUnix (ofQuad n.created) })

end Verif.WinOps
