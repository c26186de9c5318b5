import Verif.Utf8.Model

/-!
# Model of `utf8/utf8_appinfo.cpp` (Windows branch, lines 24-101)

Characters of the buffer are `Nat`s (bytes), `WCHAR`s are 16-bit units, strings are lists without
terminator, the caller's buffer is a list of cells.  Each function returns its `bool`, the final
`BufferSize` and the final buffer.  What the system calls return is an argument.
-/

namespace Verif.WinAppInfo

/-- `if (z2) Buffer[0] = '\0';` (utf8_appinfo.cpp 30, 50, 63, 75). -/
def clear (b : List Nat) (z2 : Nat) : CRes (List Nat) := if z2 ≠ 0 then wr b 0 0 else .ok b

/-- `if (z < z2 && Buffer[z - 1] != '\\') Buffer[z++] = '\\';` (utf8_appinfo.cpp 89, 94).  For `z = 0`
the read is of the byte before the buffer. -/
def slash (b : List Nat) (z z2 : Nat) : CRes (Nat × List Nat) :=
  if z < z2 then
    match z with
    | 0 => .error .oobRead
    | k + 1 => do
      let c ← rd b k
      if c ≠ 92 then do
        let b ← wr b z 92
        .ok (z + 1, b)
      else .ok (z, b)
  else .ok (z, b)

/-- `while (z < z2 && *AppDir) Buffer[z++] = *AppDir++;` (utf8_appinfo.cpp 92). -/
def append (z2 : Nat) : List Nat → Nat → List Nat → CRes (Nat × List Nat)
  | [], z, b => .ok (z, b)
  | c :: s, z, b =>
    if z < z2 then do
      let b ← wr b z c
      append z2 s (z + 1) b
    else .ok (z, b)

/-- The part for an application directory (utf8_appinfo.cpp 90-95). -/
def addApp (app : Option (List Nat)) (z z2 : Nat) (b : List Nat) : CRes (Nat × List Nat) :=
  match app with
  | none => .ok (z, b)
  | some a => do
    let (z, b) ← append z2 a z b
    slash b z z2

/-- The lines of `GetWindowsUTF8StorageDir` after the conversion (utf8_appinfo.cpp 89-100). -/
def finish (b : List Nat) (app : Option (List Nat)) (z z2 : Nat) : CRes (Bool × Nat × List Nat) := do
  let (z, b) ← slash b z z2
  let (z, b) ← addApp app z z2 b
  let (z, b) ← (if z < z2 then do
      let b ← wr b z 0
      .ok (z + 1, b)
    else .ok (z, b) : CRes (Nat × List Nat))
  if z = z2 then .ok (false, 0, b) else .ok (true, z, b)

/-- The buffer after a conversion into it (utf8_appinfo.cpp 38, 87). -/
def bufOf (d : Utf8.D) : CRes (List Nat) :=
  match d.buf with
  | none => .error .nullDeref
  | some b => .ok b

/-- `GetWindowsUTF8StorageDir` (utf8_appinfo.cpp 85-101); `z` is the limit given to the conversion. -/
def winDir (dirname : List Nat) (b : List Nat) (app : Option (List Nat)) (z z2 : Nat) :
    CRes (Bool × Nat × List Nat) := do
  let (d, _) ← Utf8.convertTo dirname 2 (some b) z none
  let b ← bufOf d
  finish b app d.size z2

/-- `GetSystemAppStorageDir` and `GetCurrentUserAppStorageDir` (utf8_appinfo.cpp 45-69), which differ
only in the folder they ask for; `folder` is what `SHGetFolderPathW` delivers, `none` if it fails. -/
def folderDir (b : List Nat) (z2 : Nat) (folder : Option (List Nat)) (app : Option (List Nat)) :
    CRes (Bool × Nat × List Nat) := do
  let b ← clear b z2
  match folder with
  | none => .ok (false, 0, b)
  | some dirname => winDir dirname b app z2 z2

/-- What `GetTempPathW` does (utf8_appinfo.cpp 78): it fails and returns 0, or writes the path and returns
its length, or returns the size it needs, larger than 8192, and leaves the array as it was. -/
inductive TempPath where
  | fails
  | path (t : List Nat)
  | tooLong (n : Nat)

/-- `GetTempStorageDir` (utf8_appinfo.cpp 71-82): the length of the path in 16-bit units becomes the limit
of the conversion. -/
def tempDir (b : List Nat) (z2 : Nat) (t : TempPath) : CRes (Bool × Nat × List Nat) := do
  let b ← clear b z2
  match t with
  | .fails => .ok (false, 0, b)
  | .path t => if t.length = 0 then .ok (false, 0, b) else winDir t b none t.length z2
  | .tooLong _ => .error .uninit

/-- `GetExecutableFilename` (utf8_appinfo.cpp 25-43); `name` is what `GetModuleFileNameW` wrote (at most
8192 units), nothing if it failed. -/
def exeName (b : List Nat) (z2 : Nat) (name : List Nat) : CRes (Bool × Nat × List Nat) := do
  let b ← clear b z2
  if name.length ≥ 8192 - 1 then .ok (false, 0, b)
  else do
    let (d, _) ← Utf8.convertTo (name ++ [0]) 2 (some b) z2 none
    let b ← bufOf d
    if d.size = z2 then .ok (false, 0, b) else .ok (true, d.size, b)

end Verif.WinAppInfo
