import Verif.WinDir.Model

/-!
# Model of listing a directory on Windows: `Dir::Open`, `Read`, `Close` (utf8/utf8_file_dir.cpp 1020-1073)

Any number of `Dir` objects and of the system's search handles.  A handle is the list of the names
it will still deliver (including "." and ".."), or closed; numbers of handles are not used twice, so
every use of a closed handle shows as undefined behaviour.  Names the system gives are lists of 16-bit units
without terminator.

Simplified: what a handle will deliver is fixed when it is opened; what `FindFirstFileW` finds
is an input of `Open`.  Which pattern it is asked for is `pattern`.
-/

namespace Verif.WinList
open Verif.Path (cstr)
open Verif.WinDir (Env cwdText)
open Verif.WinAbs (absolute)

/-- A name as the system gives it (utf8_file_dir.cpp 1052-1066). -/
abbrev Name := List Nat

/-! ## Open -/

/-- The pattern `Open` hands to `FindFirstFileW`, `none` if it returns before (utf8_file_dir.cpp 1033-1045). -/
def pattern (E : Env) (cwd : Option (List Nat)) (name : List Nat) : CRes (Option (List Nat)) := do
  let c ← cwdText E cwd
  let (ok, b) ← absolute E.sgn E.reg E.junk2 E.junk3 E.junk 8192 none c name true
  if !ok then .ok none
  else do
    let p ← cstr b
    if p.length ≥ 8191 then .ok none
    else do
      let b ← wr b p.length 42
      let b ← wr b (p.length + 1) 0
      let d ← Utf8.convertFrom (b.take (p.length + 2)) (some E.wjunk) 8192 2
      match d.buf with
      | none => .error .nullDeref
      | some w => do
        let q ← cstr w
        .ok (some q)

/-! ## The objects -/

/-- `MxDir` (`none` is `INVALID_HANDLE_VALUE`) and `MxFindData.cFileName` (`none`: never written) (utf8_file_dir.h 191-229). -/
structure Obj where
  dir : Option Nat
  data : Option Name
  deriving DecidableEq

/-- The handles (`none`: closed) and the objects (`none`: destroyed) (utf8_file_dir.h 191-229). -/
structure W where
  handles : List (Option (List Name))
  objs : List (Option Obj)

/-- `this` (utf8_file_dir.cpp 1020-1073). -/
def getObj (w : W) (i : Nat) : CRes Obj :=
  match w.objs[i]? with
  | some (some o) => .ok o
  | _ => .error .badPtr

/-- Storing into the members (utf8_file_dir.cpp 1020-1073). -/
def setObj (w : W) (i : Nat) (o : Obj) : W := { w with objs := w.objs.set i (some o) }

/-- Use of a handle (utf8_file_dir.cpp 1060, 1069). -/
def handle (w : W) (h : Nat) : CRes (List Name) :=
  match w.handles[h]? with
  | some (some es) => .ok es
  | _ => .error .badPtr

/-- The constructor (utf8_file_dir.cpp 1020-1022). -/
def create (w : W) : W := { w with objs := w.objs ++ [some ⟨none, none⟩] }

/-- `Close` (utf8_file_dir.cpp 1065-1073). -/
def close (w : W) (i : Nat) : CRes (Bool × W) := do
  let o ← getObj w i
  match o.dir with
  | none => .ok (false, w)
  | some h => do
    let _ ← handle w h
    .ok (true, setObj { w with handles := w.handles.set h none } i { o with dir := none })

/-- `Open` (utf8_file_dir.cpp 1029-1048); `d` is what `FindFirstFileW` finds: the first name and those the handle will deliver, `none` if
it fails or is not called. -/
def openDir (w : W) (i : Nat) (d : Option (Name × List Name)) : CRes (Bool × W) := do
  let (_, w) ← close w i
  match d with
  | none => .ok (false, w)
  | some (e, es) =>
    .ok (true, setObj { w with handles := w.handles ++ [some es] } i ⟨some w.handles.length, some e⟩)

/-- `Read` (utf8_file_dir.cpp 1051-1063). -/
def read (w : W) (i : Nat) (buf : List Nat) (size : Nat) : CRes ((Bool × List Nat) × W) := do
  let o ← getObj w i
  match o.dir with
  | none => .ok ((false, buf), w)
  | some h =>
    match o.data with
    | none => .error .uninit
    | some e => do
      let (d, _) ← Utf8.convertTo (e ++ [0]) 2 (some buf) size none
      match d.buf with
      | none => .error .nullDeref
      | some buf =>
        if size = d.size then .ok ((false, buf), w)
        else do
          let es ← handle w h
          match es with
          | [] => do
            let (_, w) ← close w i
            .ok ((true, buf), w)
          | e :: es => .ok ((true, buf), setObj { w with handles := w.handles.set h (some es) } i { o with data := some e })

/-- The destructor (utf8_file_dir.cpp 1024-1027). -/
def destroy (w : W) (i : Nat) : CRes W := do
  let (_, w) ← close w i
  .ok { w with objs := w.objs.set i none }

/-- The calls (utf8_file_dir.cpp 1020-1073). -/
inductive Op where
  | create
  | open (i : Nat) (d : Option (Name × List Name))
  | read (i : Nat) (buf : List Nat) (size : Nat)
  | close (i : Nat)
  | destroy (i : Nat)

/-- What a call gives back: the result and, for `Read`, the caller's buffer afterwards
(utf8_file_dir.cpp 1020-1073). -/
structure Out where
  result : Bool
  buf : List Nat
  deriving DecidableEq

/-- One call (utf8_file_dir.cpp 1020-1073). -/
def step (w : W) : Op → CRes (Out × W)
  | .create => .ok (⟨true, []⟩, create w)
  | .open i d => do
    let (r, w) ← openDir w i d
    .ok (⟨r, []⟩, w)
  | .read i buf size => do
    let ((r, buf), w) ← read w i buf size
    .ok (⟨r, buf⟩, w)
  | .close i => do
    let (r, w) ← close w i
    .ok (⟨r, []⟩, w)
  | .destroy i => do
    let w ← destroy w i
    .ok (⟨true, []⟩, w)

/-- A history of calls (utf8_file_dir.cpp 1020-1073). -/
def run (w : W) : List Op → CRes (List Out × W)
  | [] => .ok ([], w)
  | o :: os => do
    let (r, w) ← step w o
    let (rs, w) ← run w os
    .ok (r :: rs, w)

/-- The loop users write, `while (d.Read(buf, size))  use(buf);`: the contents of the buffer after each
successful `Read` (utf8_file_dir.cpp 1051-1063). -/
def list (w : W) (i : Nat) (buf : List Nat) (size : Nat) : Nat → CRes (List (List Nat) × W)
  | 0 => .error .diverges
  | n + 1 => do
    let ((r, buf), w) ← read w i buf size
    if r then do
      let (xs, w) ← list w i buf size n
      .ok (buf :: xs, w)
    else .ok ([], w)

end Verif.WinList
