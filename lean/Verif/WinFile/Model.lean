import Verif.File.Model

/-!
# Model of the Windows `File` class (utf8/utf8_file_dir.cpp 42-227)

As in `Verif.File`, whose state is used here too: the object's fields together with the system's view of the open
file, its bytes and its file pointer.  Nobody else uses the file.  Each system call may fail; a failing call
has no effect.  `ReadFile` and `WriteFile` may transfer fewer bytes than asked for.

Positions are 64-bit unsigned numbers; `size_t` has 64 bits and `DWORD` 32.

Not modelled: `Flush`, the sharing modes (other than that unknown ones are refused), and the conversion of the
name (C84).
-/

namespace Verif.WinFile

open Verif.File (F Whence Share ReadRes WriteRes sub64 seekTarget setAccess close)

variable {α : Type}

/-- `Seek` (utf8_file_dir.cpp 135-158); `ok`: `SetFilePointer` succeeds.  It refuses positions that are negative as 64-bit
signed numbers. -/
def seek (f : F α) (w : Whence) (pos : Nat) (ok : Bool) : Bool × F α :=
  if !f.opened then (false, f)
  else if 2 ^ 63 ≤ seekTarget f w pos || !ok then (false, f)
  else (true, { f with off := seekTarget f w pos, curr := seekTarget f w pos })

/-- What the system does to a call of `ReadFile` or `WriteFile` (utf8_file_dir.cpp 160-194). -/
inductive Sys where
  | all
  | fail
  /-- transfers about `k` bytes -/
  | some (k : Nat)
  deriving DecidableEq

/-- `UpdateMaxPos` (utf8_file_dir.cpp 205-215); `ok`: `GetFileSize` succeeds. -/
def updateMax (f : F α) (ok : Bool) : F α :=
  if !f.opened then f else { f with max := if ok then f.data.length else 0 }

/-- `ReadFile` transfers `n` bytes to the reader; `Read` returns true (utf8_file_dir.cpp 173-176). -/
def gotBytes (f : F α) (n : Nat) : ReadRes α × F α :=
  (.got ((f.data.drop f.off).take n),
    { f with off := f.off + ((f.data.drop f.off).take n).length,
             curr := (f.curr + ((f.data.drop f.off).take n).length) % 2 ^ 64 })

/-- The call of `ReadFile` with `(DWORD)DataSize` (utf8_file_dir.cpp 172-176). -/
def sysRead (f : F α) (n : Nat) : Sys → ReadRes α × F α
  | .all => gotBytes f (n % 2 ^ 32)
  | .fail => (.failed, f)
  | .some k => gotBytes f (min (n % 2 ^ 32) (max 1 k))

/-- The size check of `Read` (utf8_file_dir.cpp 164-168), first part. -/
def readUpdate (f : F α) (n : Nat) (sizeOk : Bool) : F α := if n > sub64 f.max f.curr then updateMax f sizeOk else f

/-- Second part: the number of bytes to ask for (utf8_file_dir.cpp 164-168). -/
def readSize (f : F α) (n : Nat) : Nat := if n > sub64 f.max f.curr then sub64 f.max f.curr else n

/-- `Read` (utf8_file_dir.cpp 160-179). -/
def read (f : F α) (n : Nat) (sizeOk : Bool) (o : Sys) : ReadRes α × F α :=
  if !f.opened || !f.rd then (.refused, f)
  else if readSize (readUpdate f n sizeOk) n = 0 then (.got [], readUpdate f n sizeOk)
  else sysRead (readUpdate f n sizeOk) (readSize (readUpdate f n sizeOk) n) o

/-- The system stores bytes at the file pointer (utf8_file_dir.cpp 188). -/
def store (f : F α) (bs : List α) : F α :=
  { f with data := f.data.take f.off ++ bs ++ f.data.drop (f.off + bs.length),
           off := f.off + bs.length }

/-- End of `Write` (utf8_file_dir.cpp 189-193). -/
def writeEnd (f : F α) (written : Nat) : WriteRes × F α :=
  (.done written,
    { f with curr := (f.curr + written) % 2 ^ 64,
             max := if (f.curr + written) % 2 ^ 64 > f.max then (f.curr + written) % 2 ^ 64 else f.max })

/-- The call of `WriteFile` for `n` bytes at `buf + pos` (utf8_file_dir.cpp 188); it fails if the file gets too
large. -/
def sysWrite (f : F α) (buf : List α) (pos n : Nat) : CRes (WriteRes × F α) :=
  if pos + n ≤ buf.length then
    if f.off + n < 2 ^ 63 then .ok (writeEnd (store f ((buf.drop pos).take n)) n) else .ok (.failed 0, f)
  else .error .oobRead

/-- `Write` (utf8_file_dir.cpp 181-196) of `size` bytes at `buf + pos`. -/
def write (f : F α) (buf : List α) (pos size : Nat) (o : Sys) : CRes (WriteRes × F α) :=
  if !f.opened || !f.wr then .ok (.refused, f)
  else if size = 0 then .ok (.done 0, f)
  else match o with
    | .all => sysWrite f buf pos (size % 2 ^ 32)
    | .fail => .ok (.failed 0, f)
    | .some k => sysWrite f buf pos (min k (size % 2 ^ 32))

/-! ## Opening -/

/-- The creation modes of `CreateFileW` (utf8_file_dir.cpp 94-95). -/
inductive Creation where
  | createNew
  | openAlways
  | openExisting
  deriving DecidableEq

/-- The choice of the creation mode (utf8_file_dir.cpp 94-95). -/
def creation (creat excl : Bool) : Creation :=
  if creat then (if excl then .createNew else .openAlways) else .openExisting

/-- `CreateFileW` (utf8_file_dir.cpp 107), `disk` being the contents of the file if there is one; `ok = false`: it fails for another
reason. -/
def createFile (disk : Option (List α)) (c : Creation) (ok : Bool) : Option (List α) :=
  if !ok then none
  else match c, disk with
    | .createNew, none => some []
    | .createNew, some _ => none
    | .openAlways, none => some []
    | .openAlways, some d => some d
    | .openExisting, d => d

/-- The rest of `Open` for an open file (utf8_file_dir.cpp 113-130); `endOk`, `sizeOk`, `seekOk`: `SetEndOfFile`,
`GetFileSize`, `SetFilePointer` succeed. -/
def afterOpen (f : F α) (trunc append endOk sizeOk seekOk : Bool) : F α :=
  if trunc then { f with data := if endOk then [] else f.data, curr := 0, max := 0 }
  else if append then (seek (updateMax f sizeOk) .fromEnd 0 seekOk).2
  else updateMax { f with curr := 0 } sizeOk

/-- `Open` (utf8_file_dir.cpp 56-133).  `nameOk`: the name is accepted. -/
def openFile (f : F α) (access : Nat) (share : Share) (creat excl trunc append nameOk : Bool) (disk : Option (List α))
    (openOk endOk sizeOk seekOk : Bool) : Bool × F α :=
  match setAccess (close f) access with
  | none => (false, close f)
  | some f =>
    if share = .other then (false, f)
    else if !nameOk then (false, f)
    else match createFile disk (creation creat excl) openOk with
      | none => (false, f)
      | some d => (true, afterOpen { f with opened := true, data := d, off := 0 } trunc append endOk sizeOk seekOk)

end Verif.WinFile
