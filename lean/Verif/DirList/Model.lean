import Verif.Base

/-!
# Model of listing a directory: `Dir::Open`, `Read`, `Close` (utf8/utf8_file_dir.cpp 1711-1763, POSIX branch)

Any number of `Dir` objects and of the system's directory streams.  A stream is the list of the names
it will still deliver (including "." and ".."), or closed; numbers of streams are not used twice, so
every use of a closed stream shows as undefined behaviour.

Simplified: what a stream will deliver is fixed when it is opened; which directory is opened
(`GetAbsoluteFilename`, `opendir`) is an input of `Open`, see `Verif.Dir.openDir` for that part.
-/

namespace Verif.DirList

/-- A name without terminator (utf8_file_dir.cpp 1733-1753). -/
abbrev Name := List Nat

/-- The streams (`none`: closed) and the objects (`none`: destroyed) with their `MxDir` (`some none`:
NULL) (utf8_file_dir.h 191-229). -/
structure W where
  streams : List (Option (List Name))
  objs : List (Option (Option Nat))

/-- `this->MxDir` (utf8_file_dir.cpp 1722, 1735, 1757). -/
def getObj (w : W) (i : Nat) : CRes (Option Nat) :=
  match w.objs[i]? with
  | some (some p) => .ok p
  | _ => .error .badPtr

/-- `MxDir = p` (utf8_file_dir.cpp 1728, 1760). -/
def setObj (w : W) (i : Nat) (p : Option Nat) : W := { w with objs := w.objs.set i (some p) }

/-- Use of a stream (utf8_file_dir.cpp 1739, 1759). -/
def stream (w : W) (h : Nat) : CRes (List Name) :=
  match w.streams[h]? with
  | some (some es) => .ok es
  | _ => .error .badPtr

/-- The constructor (utf8_file_dir.cpp 1711-1713). -/
def create (w : W) : W := { w with objs := w.objs ++ [some none] }

/-- `Close` (utf8_file_dir.cpp 1755-1763). -/
def close (w : W) (i : Nat) : CRes (Bool × W) := do
  let p ← getObj w i
  match p with
  | none => .ok (false, w)
  | some h => do
    let _ ← stream w h
    .ok (true, setObj { w with streams := w.streams.set h none } i none)

/-- `Open` (utf8_file_dir.cpp 1720-1731); `d` is the directory found under the name, if any. -/
def openDir (w : W) (i : Nat) (d : Option (List Name)) : CRes (Bool × W) := do
  let (_, w) ← close w i
  match d with
  | none => .ok (false, w)
  | some es => .ok (true, setObj { w with streams := w.streams ++ [some es] } i (some w.streams.length))

/-- `Read` (utf8_file_dir.cpp 1733-1753). -/
def read (w : W) (i : Nat) (buf : List Nat) (size : Nat) : CRes ((Bool × List Nat) × W) := do
  let p ← getObj w i
  match p with
  | none => .ok ((false, buf), w)
  | some h => do
    let es ← stream w h
    match es with
    | [] => do
      let (_, w) ← close w i
      .ok ((false, buf), w)
    | e :: es => do
      let w : W := { w with streams := w.streams.set h (some es) }
      if e.length + 1 > size then .ok ((false, buf), w)
      else do
        let buf ← memcpyTo buf 0 (e ++ [0]) (e.length + 1)
        .ok ((true, buf), w)

/-- The destructor (utf8_file_dir.cpp 1715-1718). -/
def destroy (w : W) (i : Nat) : CRes W := do
  let (_, w) ← close w i
  .ok { w with objs := w.objs.set i none }

/-- The calls (utf8_file_dir.cpp 1711-1763). -/
inductive Op where
  | create
  | open (i : Nat) (d : Option (List Name))
  | read (i : Nat) (buf : List Nat) (size : Nat)
  | close (i : Nat)
  | destroy (i : Nat)

/-- What a call gives back: the result and, for `Read`, the caller's buffer afterwards
(utf8_file_dir.cpp 1711-1763). -/
structure Out where
  result : Bool
  buf : List Nat
  deriving DecidableEq

/-- One call (utf8_file_dir.cpp 1711-1763). -/
def step (w : W) : Op → CRes (Out × W)
  | .create => .ok (⟨true, []⟩, create w)
  | .open i d => do
    let (r, w) ← openDir w i d
    .ok (⟨r, []⟩, w)
  | .read i buf size => do
    let ((r, buf), w) ← read w i buf size
    .ok (⟨r, buf⟩, w)
  | .close i => do
    let (r, w) ← close w i
    .ok (⟨r, []⟩, w)
  | .destroy i => do
    let w ← destroy w i
    .ok (⟨true, []⟩, w)

/-- A history of calls (utf8_file_dir.cpp 1711-1763). -/
def run (w : W) : List Op → CRes (List Out × W)
  | [] => .ok ([], w)
  | o :: os => do
    let (r, w) ← step w o
    let (rs, w) ← run w os
    .ok (r :: rs, w)

/-- The loop users write, `while (d.Read(buf, size))  use(buf);`: the contents of the buffer after each
successful `Read` (utf8_file_dir.cpp 1824-1840 is an instance). -/
def list (w : W) (i : Nat) (buf : List Nat) (size : Nat) : Nat → CRes (List (List Nat) × W)
  | 0 => .error .diverges
  | n + 1 => do
    let ((r, buf), w) ← read w i buf size
    if r then do
      let (xs, w) ← list w i buf size n
      .ok (buf :: xs, w)
    else .ok ([], w)

end Verif.DirList
