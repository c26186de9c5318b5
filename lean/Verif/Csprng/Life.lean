import Verif.Csprng.Model

/-!
# The descriptor of a `CSPRNG` object (security/security_csprng.cpp 31-48, POSIX branch)

A program with any number of `CSPRNG` objects, and files of its own.  The system hands out any descriptor that is not in
use, or refuses.

Simplification: `close` of an open descriptor succeeds.
-/

namespace Verif.Csprng

/-- What a descriptor leads to (security_csprng.cpp 33-37): a random device or a file of the program's own. -/
inductive Target where
  | random
  | arandom
  | urandom
  | file (n : Nat)
  deriving DecidableEq, Repr

/-- Descriptors of the process and the `MxURandom` of each object alive; `none` inside is -1
(security_csprng.cpp 31-43). -/
structure W where
  fd : Nat → Option Target
  obj : Nat → Option (Option Nat)

/-- Replace one value of a function; helper for the state (security_csprng.cpp 31-43). -/
def upd {α : Type} (f : Nat → α) (i : Nat) (x : α) : Nat → α := fun j => if j = i then x else f j

/-- A program that has opened nothing (security_csprng.cpp 31-43). -/
def W.start : W := ⟨fun _ => none, fun _ => none⟩

/-- `open(path, O_RDONLY)` with the answer of the system: a descriptor not in use, or -1 (security_csprng.cpp 33-37).
`none`: no system answers so. -/
def openFd (w : W) (t : Target) : Option Nat → Option (Option Nat × W)
  | none => some (none, w)
  | some d => if w.fd d = none then some (some d, { w with fd := upd w.fd d (some t) }) else none

/-- `close(d)`; -1 and descriptors not in use are refused without effect (security_csprng.cpp 42). -/
def closeFd (w : W) : Option Nat → W
  | none => w
  | some d => { w with fd := upd w.fd d none }

/-- `CSPRNG::CSPRNG(CryptoSafe)` (security_csprng.cpp 31-38); `a1`, `a2` are the answers to the first and the second `open`. -/
def create (w : W) (i : Nat) (safe : Bool) (a1 a2 : Option Nat) : Option W :=
  if safe then do                                                            -- line 33
    let (d, w) ← openFd w .random a1
    some { w with obj := upd w.obj i (some d) }
  else do
    let (d, w) ← openFd w .arandom a1                                        -- line 36
    match d with
    | some d => some { w with obj := upd w.obj i (some (some d)) }
    | none =>
      let (d, w) ← openFd w .urandom a2                                      -- line 37
      some { w with obj := upd w.obj i (some d) }

/-- `CSPRNG::~CSPRNG()` (security_csprng.cpp 40-43). -/
def destroy (w : W) (i : Nat) : Option W := do
  let d ← w.obj i
  let w := closeFd w d
  some { w with obj := upd w.obj i none }

/-- What the program does: create an object, ask it for bytes, destroy it; open and close files of its own
(security_csprng.cpp 31-63). -/
inductive LOp where
  | create (i : Nat) (safe : Bool) (a1 a2 : Option Nat)
  | bytes (i size : Nat) (buf : List UInt8) (reads : List ReadRes)
  | destroy (i : Nat)
  | openFile (n : Nat) (answer : Option Nat)
  | closeFile (d : Nat)

/-- What it sees: for a request where the reads went, if there were any, and the result (security_csprng.cpp 46-63). -/
inductive LOut where
  | unit
  | bytes (source : Option Target) (r : Run (Bool × List UInt8) ReadRes)
  deriving DecidableEq, Repr

/-- One action; `none` if the program may not do it or no system answers so: creating an object that is alive, using one that
is not, closing a descriptor that is not in use (security_csprng.cpp 31-63). -/
def lstep (w : W) : LOp → Option (LOut × W)
  | .create i safe a1 a2 => do
    if w.obj i = none then
      let w ← create w i safe a1 a2
      some (.unit, w)
    else none
  | .bytes i size buf reads => do
    let d ← w.obj i
    match d with
    | none => some (.bytes none (getBytes false size buf reads), w)          -- line 48
    | some d => some (.bytes (w.fd d) (getBytes true size buf reads), w)     -- lines 50-62
  | .destroy i => do
    let w ← destroy w i
    some (.unit, w)
  | .openFile n answer => do
    let (_, w) ← openFd w (.file n) answer
    some (.unit, w)
  | .closeFile d =>
    if w.fd d = none then none else some (.unit, closeFd w (some d))

/-- A history (calls of security_csprng.cpp 31-63). -/
def lrun : W → List LOp → Option (List (LOp × LOut) × W)
  | w, [] => some ([], w)
  | w, op :: ops => do
    let (o, w) ← lstep w op
    let (h, w) ← lrun w ops
    some ((op, o) :: h, w)

end Verif.Csprng
