import Verif.AppInfo.Model

/-!
# Model of `AppInfo::GetExecutableFilename` and `GetExecutablePath` on macOS (utf8/utf8_appinfo.cpp 105-160, 232-241)

As in `Verif.AppInfo.Model`, with the lines under `__APPLE__`.  `proc_pidpath` is part of the model: it refuses buffers
of less than 1024 bytes (`PROC_PIDPATHINFO_SIZE`) and more than 4096 (`PROC_PIDPATHINFO_MAXSIZE`), and paths that do not fit
with their terminator; it then returns 0 and leaves the buffer alone.
-/

namespace Verif.AppInfo.Mac

/-- `proc_pidpath(getpid(), Buffer, size)`; `path` is what the system knows (utf8_appinfo.cpp 125). -/
def pidpath (b : List Nat) (size : Nat) (path : Option (List Nat)) : CRes (Nat × List Nat) :=
  if size < 1024 ∨ 4096 < size then .ok (0, b)
  else
    match path with
    | none => .ok (0, b)
    | some p =>
      if p.length < size then do
        let b ← strcpy b p
        .ok (p.length, b)
      else .ok (0, b)

/-- What the buffer holds before `realpath`; the result is not -1 after line 125, so line 126 replaces it by `strlen(Buffer)`
(utf8_appinfo.cpp 112-126). -/
def ask (b : List Nat) (z2 : Nat) (links : List (Option (List Nat))) (path : Option (List Nat)) :
    CRes (Nat × List Nat) := do
  let (z, b) ← readlinks z2 links b
  let b ← (match z with
    | some _ => .ok b
    | none => do
      let (_, b) ← pidpath b (if 4096 < z2 then 4096 else z2) path
      .ok b : CRes (List Nat))
  let s ← cstr b
  .ok (s.length, b)

/-- From the terminator on (utf8_appinfo.cpp 129-159). -/
def finish (b : List Nat) (z2 z : Nat) (real : List Nat → Option (List Nat)) (argv0 : Option (List Nat)) :
    CRes (Bool × Nat × List Nat) := do
  let b ← (if z2 ≠ 0 then wr b (z2 - 1) 0 else .ok b : CRes (List Nat))
  match z with
  | 0 => viaArg b z2 real argv0
  | k + 1 => do
    let b ← (if k + 1 < z2 then wr b (k + 1) 0 else .ok b : CRes (List Nat))
    let s ← cstr b
    exeEnd b z2 (real s)

/-- `GetExecutableFilename` on macOS (utf8_appinfo.cpp 105-160). -/
def exeName (b : List Nat) (z2 : Nat) (links : List (Option (List Nat))) (path : Option (List Nat))
    (real : List Nat → Option (List Nat)) (argv0 : Option (List Nat)) : CRes (Bool × Nat × List Nat) := do
  let b ← clear b z2
  let (z, b) ← ask b z2 links path
  finish b z2 z real argv0

/-- `GetExecutablePath` on macOS (utf8_appinfo.cpp 232-241). -/
def exePath (b : List Nat) (z2 : Nat) (links : List (Option (List Nat))) (path : Option (List Nat))
    (real : List Nat → Option (List Nat)) (argv0 : Option (List Nat)) : CRes (Bool × Nat × List Nat) := do
  let (ok, z, b) ← exeName b z2 links path real argv0
  if !ok then .ok (false, z, b)
  else do
    let z ← backTo b z
    let b ← wr b z 0
    .ok (true, z + 1, b)

end Verif.AppInfo.Mac
