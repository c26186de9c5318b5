import Verif.SharedLib.Model

/-!
# Model of the lives of shared library objects, on POSIX and on Windows

`ModuleUtil` and `FunctionUtil` with constructors and destructors (templates/shared_lib.h 19-70 on Windows,
125-175 on POSIX) and `Call`, `CallVoid`, `CallOnce`, `CallOnceVoid` (templates/shared_lib_util.h 9-65 and 70-128).
The two branches differ only in the names of the system calls (`LoadLibraryA`, `GetProcAddress`, `FreeLibrary`
against `dlopen`, `dlsym`, `dlclose`), and the four calling conventions of the Windows branch are the same text; one
model serves all.

Any number of modules and functions is used in one process.  What the program asks of the loader and where it jumps
is written down in a trace.  A library is loaded as often as it was opened and not closed; jumping into a library
that is not loaded, closing one that is not loaded and using a destroyed module are undefined behaviour.
-/

namespace Verif.SharedLife

open Verif.SharedLib (Loader)

/-- What the process does with the loader (shared_lib.h 19-175, shared_lib_util.h 9-128). -/
inductive Ev where
  /-- `dlopen` by a module (or a `CallOnce`, `none`) and its answer -/
  | opened (by_ : Option Nat) (h : Option Nat)
  /-- `dlclose` by a module -/
  | closed (by_ : Nat) (h : Nat)
  /-- a call of the function at address `a` of library `h` -/
  | jump (h a : Nat)
  deriving DecidableEq, Repr

/-- How often a library was opened (shared_lib.h 142). -/
def opens (tr : List Ev) (h : Nat) : Nat :=
  tr.countP fun e => match e with
    | .opened _ (some x) => x == h
    | _ => false

/-- How often a library was closed (shared_lib.h 134). -/
def closes (tr : List Ev) (h : Nat) : Nat :=
  tr.countP fun e => match e with
    | .closed _ x => x == h
    | _ => false

/-- Calls of `dlopen` so far (shared_lib.h 142). -/
def asked (tr : List Ev) : Nat :=
  tr.countP fun e => match e with
    | .opened _ _ => true
    | _ => false

/-- `ModuleUtil` (shared_lib.h 43-45, 149-151). -/
structure Mod where
  filename : Option String
  ptr : Option Nat
  deriving DecidableEq, Repr

/-- `FunctionUtil`: the module, the name and the address with the library it lies in (shared_lib.h 68-70, 175-177). -/
structure Fn where
  mod : Nat
  name : Option String
  ptr : Option (Nat × Nat)
  deriving DecidableEq, Repr

/-- A process; destroyed modules are `none` (shared_lib.h 19-175). -/
structure W where
  mods : List (Option Mod)
  fns : List Fn
  tr : List Ev
  deriving DecidableEq, Repr

/-- Nothing yet (shared_lib.h 19-175). -/
def W.init : W := ⟨[], [], []⟩

/-- Access through `MxModule` (shared_lib.h 64, 170). -/
def getMod (w : W) (i : Nat) : CRes Mod :=
  match w.mods[i]? with
  | some (some m) => .ok m
  | _ => .error .badPtr

/-- `ModuleUtil::Load` (shared_lib.h 31-41, 137-147). -/
def load (L : Loader) (w : W) (i : Nat) : CRes (Option Nat × W) := do
  let m ← getMod w i
  match m.ptr with
  | some h => .ok (some h, w)                                                  -- lines 33, 139
  | none =>
    match m.filename with
    | none => .ok (none, w)                                                    -- lines 34, 140
    | some f =>
      let r := L.dlopen (asked w.tr) f                                         -- lines 36, 142
      .ok (r, { w with mods := w.mods.set i (some ⟨none, r⟩), tr := w.tr ++ [.opened (some i) r] })

/-- `FunctionUtil::LoadFuncPtr` (shared_lib.h 57-67, 163-173). -/
def loadFuncPtr (L : Loader) (w : W) (j : Nat) (f : Fn) : CRes (Option (Nat × Nat) × W) :=
  match f.name with
  | none => .ok (none, w)                                                      -- lines 59, 165
  | some name => do
    let w := { w with fns := w.fns.set j { f with name := none } }             -- lines 61-62, 167-168
    let (r, w) ← load L w f.mod                                                -- lines 64, 170
    match r with
    | none => .ok (none, w)                                                    -- lines 66, 172
    | some h =>
      let p := (L.dlsym h name).map fun a => (h, a)
      .ok (p, { w with fns := w.fns.set j { f with name := none, ptr := p } })

/-- The call through the address (shared_lib_util.h 16, 28, 46, 62, 77, 89, 107, 123). -/
def jump (w : W) (p : Nat × Nat) : CRes W :=
  if closes w.tr p.1 < opens w.tr p.1 then .ok { w with tr := w.tr ++ [.jump p.1 p.2] } else .error .badPtr

/-- The end of the four functions: false without an address, else the call and true (shared_lib_util.h 14-18). -/
def finish (w : W) (p : Option (Nat × Nat)) : CRes (Bool × W) :=
  match p with
  | none => .ok (false, w)
  | some p => do
    let w ← jump w p
    .ok (true, w)

/-- Access to a `FunctionUtil` (shared_lib_util.h 14). -/
def getFn (w : W) (j : Nat) : CRes Fn :=
  match w.fns[j]? with
  | some f => .ok f
  | none => .error .badPtr

/-- `Call` (shared_lib_util.h 9-19, 70-80). -/
def call (L : Loader) (w : W) (j : Nat) : CRes (Bool × W) := do
  let f ← getFn w j
  match f.ptr with
  | some p => finish w (some p)
  | none => do
    let (p, w) ← loadFuncPtr L w j f
    finish w p

/-- `CallVoid` (shared_lib_util.h 21-31, 82-92). -/
def callVoid (L : Loader) (w : W) (j : Nat) : CRes (Bool × W) := do
  let f ← getFn w j
  match f.ptr with
  | none => .ok (false, w)                                                     -- lines 26, 87: `||`
  | some _ => do
    let (p, w) ← loadFuncPtr L w j f
    finish w p

/-- `CallOnce` and `CallOnceVoid` (shared_lib_util.h 34-65, 95-128). -/
def callOnce (L : Loader) (w : W) (file name : String) : CRes (Bool × W) :=
  let r := L.dlopen (asked w.tr) file                                          -- lines 40, 101
  let w := { w with tr := w.tr ++ [.opened none r] }
  match r with
  | none => .ok (false, w)                                                     -- lines 41, 102
  | some h => finish w ((L.dlsym h name).map fun a => (h, a))                  -- lines 43-48, 104-109

/-- `ModuleUtil::~ModuleUtil` (shared_lib.h 26-29, 132-135). -/
def destroy (w : W) (i : Nat) : CRes W := do
  let m ← getMod w i
  match m.ptr with
  | none => .ok { w with mods := w.mods.set i none }
  | some h =>
    if closes w.tr h < opens w.tr h then
      .ok { w with mods := w.mods.set i none, tr := w.tr ++ [.closed i h] }
    else .error .badPtr

/-- What a program does (shared_lib.h 19-175, shared_lib_util.h 9-128).  New objects get the next free number. -/
inductive Op where
  | newMod (file : String)
  | newFn (i : Nat) (name : String)
  | call (j : Nat) (void : Bool)
  | once (file name : String)
  | destroy (i : Nat)
  deriving DecidableEq, Repr

/-- One operation and what it returns (constructors: shared_lib.h 22-24, 51-53, 128-130, 157-159). -/
def step (L : Loader) (w : W) : Op → CRes (Bool × W)
  | .newMod file => .ok (true, { w with mods := w.mods ++ [some ⟨some file, none⟩] })
  | .newFn i name => .ok (true, { w with fns := w.fns ++ [⟨i, some name, none⟩] })
  | .call j void => if void then callVoid L w j else call L w j
  | .once file name => callOnce L w file name
  | .destroy i => do
    let w ← destroy w i
    .ok (true, w)

/-- A whole program (shared_lib.h 19-175, shared_lib_util.h 9-128). -/
def exec (L : Loader) (w : W) : List Op → CRes (List Bool × W)
  | [] => .ok ([], w)
  | op :: ops => do
    let (r, w) ← step L w op
    let (rs, w) ← exec L w ops
    .ok (r :: rs, w)

end Verif.SharedLife
