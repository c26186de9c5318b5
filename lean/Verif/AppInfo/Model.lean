import Verif.Base

/-!
# Model of `utf8/utf8_appinfo.cpp` (POSIX branch)

Characters are `Nat`s, strings are lists without terminator, the caller's buffer is a list of cells.
Each function returns its `bool`, the final `BufferSize` and the final buffer.
The environment (`HOME`, the password entry, the `/proc` links, `realpath`) is an argument.
The `__APPLE__` lines are in `Verif.AppInfo.Mac`, the Windows branch is in `Verif.WinAppInfo`.
-/

namespace Verif.AppInfo

/-- `strcpy(Buffer, s)` (utf8_appinfo.cpp 155, 171, 189, 203). -/
def strcpy (b s : List Nat) : CRes (List Nat) := memcpyTo b 0 (s ++ [0]) (s.length + 1)

/-- `if (z2) Buffer[0] = '\0';` (utf8_appinfo.cpp 109, 167, 181, 199). -/
def clear (b : List Nat) (z2 : Nat) : CRes (List Nat) := if z2 ≠ 0 then wr b 0 0 else .ok b

/-- `if (z < z2 && Buffer[z - 1] != '/') Buffer[z++] = '/';` (utf8_appinfo.cpp 212, 222).  For `z = 0`
the read is of the byte before the buffer. -/
def slash (b : List Nat) (z z2 : Nat) : CRes (Nat × List Nat) :=
  if z < z2 then
    match z with
    | 0 => .error .oobRead
    | k + 1 => do
      let c ← rd b k
      if c ≠ 47 then do
        let b ← wr b z 47
        .ok (z + 1, b)
      else .ok (z, b)
  else .ok (z, b)

/-- `while (z < z2 && *s) Buffer[z++] = *s++;` (utf8_appinfo.cpp 217, 220). -/
def append (z2 : Nat) : List Nat → Nat → List Nat → CRes (Nat × List Nat)
  | [], z, b => .ok (z, b)
  | c :: s, z, b =>
    if z < z2 then do
      let b ← wr b z c
      append z2 s (z + 1) b
    else .ok (z, b)

/-- The characters of a string that may be NULL (utf8_appinfo.cpp 177-208). -/
def orNil : Option (List Nat) → List Nat
  | none => []
  | some s => s

/-- The part of `GetNIXStorageDir` for an application directory (utf8_appinfo.cpp 213-223). -/
def addApp (pre app : Option (List Nat)) (z z2 : Nat) (b : List Nat) : CRes (Nat × List Nat) :=
  match app with
  | none => .ok (z, b)
  | some a => do
    let (z, b) ← append z2 (orNil pre) z b
    let (z, b) ← append z2 a z b
    slash b z z2

/-- `GetNIXStorageDir` (utf8_appinfo.cpp 210-229); `BufferSize` is 0 on entry. -/
def nixDir (b : List Nat) (pre app : Option (List Nat)) (z z2 : Nat) : CRes (Bool × Nat × List Nat) := do
  let (z, b) ← slash b z z2
  let (z, b) ← addApp pre app z z2 b
  let (z, b) ← (if z < z2 then do
      let b ← wr b z 0
      .ok (z + 1, b)
    else .ok (z, b) : CRes (Nat × List Nat))
  if z = z2 then .ok (false, 0, b) else .ok (true, z, b)

/-- "/var/lib/" (utf8_appinfo.cpp 163-175). -/
def varLib : List Nat := [47, 118, 97, 114, 47, 108, 105, 98, 47]

/-- "/tmp/" (utf8_appinfo.cpp 195-208). -/
def tmp : List Nat := [47, 116, 109, 112, 47]

/-- `GetSystemAppStorageDir` (utf8_appinfo.cpp 163-175). -/
def systemDir (b : List Nat) (z2 : Nat) (app : Option (List Nat)) : CRes (Bool × Nat × List Nat) := do
  let b ← clear b z2
  if z2 < 10 then .ok (false, 0, b)
  else do
    let b ← strcpy b varLib
    nixDir b none app 9 z2

/-- The choice of the home directory (utf8_appinfo.cpp 183-184). -/
def homeDir : Option (List Nat) → Option (Option (List Nat)) → CRes (Option (List Nat))
  | some h, _ => .ok (some h)
  | none, none => .error .nullDeref
  | none, some d => .ok d

/-- `GetCurrentUserAppStorageDir` (utf8_appinfo.cpp 177-193); `home` is `getenv("HOME")`, `pw` is
`getpwuid(getuid())`, if not NULL, with its `pw_dir`. -/
def userDir (b : List Nat) (z2 : Nat) (home : Option (List Nat)) (pw : Option (Option (List Nat))) (app : Option (List Nat)) :
    CRes (Bool × Nat × List Nat) := do
  let b ← clear b z2
  let h ← homeDir home pw
  match h with
  | none => .ok (false, 0, b)
  | some h =>
    if z2 < h.length then .ok (false, 0, b)
    else do
      let b ← strcpy b h
      nixDir b (some [46]) app h.length z2

/-- `GetTempStorageDir` (utf8_appinfo.cpp 195-207). -/
def tempDir (b : List Nat) (z2 : Nat) : CRes (Bool × Nat × List Nat) := do
  let b ← clear b z2
  if z2 < 5 then .ok (false, 0, b)
  else do
    let b ← strcpy b tmp
    nixDir b none none 5 z2

/-- `readlink(link, Buffer, z2)` for a link with the given text: the buffer is filled with at most `z2`
characters and not terminated; a size of 0 is an error (`none`). -/
def readlink (b : List Nat) (z2 : Nat) (link : Option (List Nat)) : CRes (Option Nat × List Nat) :=
  match link with
  | none => .ok (none, b)
  | some t =>
    if z2 = 0 then .ok (none, b)
    else do
      let b ← memcpyTo b 0 t (min t.length z2)
      .ok (some (min t.length z2), b)

/-- Trying the links in turn until one can be read (utf8_appinfo.cpp 112-121). -/
def readlinks (z2 : Nat) : List (Option (List Nat)) → List Nat → CRes (Option Nat × List Nat)
  | [], b => .ok (none, b)
  | l :: ls, b => do
    let (z, b) ← readlink b z2 l
    match z with
    | some z => .ok (some z, b)
    | none => readlinks z2 ls b

/-- The characters of a buffer up to the terminator, as read by `realpath` (utf8_appinfo.cpp 136). -/
def cstr : List Nat → CRes (List Nat)
  | [] => .error .oobRead
  | c :: b => if c = 0 then .ok [] else do let s ← cstr b; .ok (c :: s)

/-- The end of `GetExecutableFilename` (utf8_appinfo.cpp 147-159). -/
def exeEnd (b : List Nat) (z2 : Nat) (file : Option (List Nat)) : CRes (Bool × Nat × List Nat) :=
  match file with
  | none => .ok (false, 0, b)
  | some f =>
    if f.length ≥ z2 then .ok (false, 0, b)
    else do
      let b ← strcpy b f
      .ok (true, f.length + 1, b)

/-- The fallback using `argv[0]` (utf8_appinfo.cpp 139-144). -/
def viaArg (b : List Nat) (z2 : Nat) (real : List Nat → Option (List Nat)) (argv0 : Option (List Nat)) :
    CRes (Bool × Nat × List Nat) :=
  match argv0 with
  | none => .ok (false, 0, b)
  | some a => exeEnd b z2 (real a)

/-- `GetExecutableFilename` (utf8_appinfo.cpp 105-160); `links` are the texts of the four `/proc` links,
`real` is `realpath`. -/
def exeName (b : List Nat) (z2 : Nat) (links : List (Option (List Nat))) (real : List Nat → Option (List Nat))
    (argv0 : Option (List Nat)) : CRes (Bool × Nat × List Nat) := do
  let b ← clear b z2
  let (z, b) ← readlinks z2 links b
  let b ← (if z2 ≠ 0 then wr b (z2 - 1) 0 else .ok b : CRes (List Nat))
  match z with
  | none => viaArg b z2 real argv0
  | some 0 => viaArg b z2 real argv0
  | some (k + 1) => do
    let b ← (if k + 1 < z2 then wr b (k + 1) 0 else .ok b : CRes (List Nat))
    let s ← cstr b
    exeEnd b z2 (real s)

/-- `while (BufferSize && Buffer[BufferSize - 1] != '/' && …) BufferSize--;` (utf8_appinfo.cpp 237). -/
def backTo (b : List Nat) : Nat → CRes Nat
  | 0 => .ok 0
  | k + 1 => do
    let c ← rd b k
    if c ≠ 47 ∧ c ≠ 92 then backTo b k else .ok (k + 1)

/-- `GetExecutablePath` (utf8_appinfo.cpp 136). -/
def exePath (b : List Nat) (z2 : Nat) (links : List (Option (List Nat))) (real : List Nat → Option (List Nat))
    (argv0 : Option (List Nat)) : CRes (Bool × Nat × List Nat) := do
  let (ok, z, b) ← exeName b z2 links real argv0
  if !ok then .ok (false, z, b)
  else do
    let z ← backTo b z
    let b ← wr b z 0
    .ok (true, z + 1, b)

end Verif.AppInfo
