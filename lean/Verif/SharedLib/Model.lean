import Verif.Base

/-!
# Model of the POSIX shared library helpers

`ModuleUtil`, `FunctionUtil` (templates/shared_lib.h:125-179) and `Call`, `CallVoid`, `CallOnce`,
`CallOnceVoid` (templates/shared_lib_util.h:70-128).

The dynamic loader is a parameter.  Each `dlopen` gets its own answer from `dlopen n` where `n` counts the
`dlopen` calls made so far, so that nothing is assumed about repeated calls; `dlsym m name` is the answer of
`dlsym`.  Addresses are positive numbers, `none` is NULL.
-/

namespace Verif.SharedLib

/-- The dynamic loader's answers (shared_lib.h 137-176, shared_lib_util.h 95-128). -/
structure Loader where
  /-- answer to the `n`-th `dlopen` of a file -/
  dlopen : (n : Nat) → (file : String) → Option Nat
  /-- answer of `dlsym` -/
  dlsym : (module : Nat) → (name : String) → Option Nat

/-- `ModuleUtil`, shared_lib.h:125-152, together with the number of `dlopen` calls it made. -/
structure Module where
  filename : Option String
  modulePtr : Option Nat
  opens : Nat
  deriving DecidableEq, Repr

/-- `FunctionUtil`, shared_lib.h:154-179 -/
structure Func where
  funcName : Option String
  funcPtr : Option Nat
  deriving DecidableEq, Repr

/-- One module and the functions bound to it (shared_lib.h 125-179). -/
structure World where
  mod : Module
  funcs : List Func
  deriving DecidableEq, Repr

/-- `ModuleUtil::Load`, shared_lib.h:137-147 -/
def load (L : Loader) (m : Module) : Option Nat × Module :=
  match m.modulePtr with
  | some p => (some p, m)                                                    -- line 139
  | none =>
    match m.filename with
    | none => (none, m)                                                      -- line 140
    | some f =>
      let r := L.dlopen m.opens f                                            -- line 142
      (r, { filename := none, modulePtr := r, opens := m.opens + 1 })        -- lines 142-146

/-- `FunctionUtil::LoadFuncPtr`, shared_lib.h:163-173 -/
def loadFuncPtr (L : Loader) (m : Module) (f : Func) : Option Nat × Module × Func :=
  match f.funcName with
  | none => (none, m, f)                                                     -- line 165
  | some name =>
    let f := { f with funcName := none }                                     -- lines 167-168
    match load L m with                                                      -- line 170
    | (none, m) => (none, m, f)
    | (some mp, m) =>
      let r := L.dlsym mp name                                               -- line 172
      (r, m, { f with funcPtr := r })

/-- What a call did: the address invoked, if any (the C++ return value is true exactly when a function was
invoked: in both functions `return true` directly follows the invocation) (shared_lib_util.h 70-128). -/
abbrev CallRes := Option Nat

/-- `Call(Func, ReturnVal, …)`, shared_lib_util.h:70-80 -/
def call (L : Loader) (m : Module) (f : Func) : CallRes × Module × Func :=
  match f.funcPtr with
  | some p => (some p, m, f)                                                 -- line 75, first operand false
  | none => loadFuncPtr L m f                                                -- line 75, `&&`

/-- `CallVoid(Func, …)`, shared_lib_util.h:82-92 -/
def callVoid (L : Loader) (m : Module) (f : Func) : CallRes × Module × Func :=
  match f.funcPtr with
  | none => (none, m, f)                                                     -- line 87, `||` short circuit
  | some _ => loadFuncPtr L m f                                              -- line 87, second operand

/-- `CallOnce(Filename, FuncName, …)` and `CallOnceVoid`, shared_lib_util.h:95-128.  `n` as in `Loader`. -/
def callOnce (L : Loader) (n : Nat) (file name : String) : CallRes :=
  match L.dlopen n file with                                                 -- lines 101-102
  | none => none
  | some m => L.dlsym m name                                                 -- lines 104-107

/-- A user's call: through which function object, and with or without a return value (shared_lib_util.h 70-128). -/
structure Op where
  func : Nat
  void : Bool
  deriving DecidableEq, Repr

/-- One call in a world; a function index out of range is no call at all (shared_lib_util.h 70-128). -/
def step (L : Loader) (w : World) (op : Op) : Option (CallRes × World) :=
  match w.funcs[op.func]? with
  | none => none
  | some f =>
    let (r, m, f) := if op.void then callVoid L w.mod f else call L w.mod f
    some (r, { mod := m, funcs := w.funcs.set op.func f })

/-- A history of calls; the results in order and the final world (calls of shared_lib_util.h 70-128). -/
def run (L : Loader) : World → List Op → Option (List CallRes × World)
  | w, [] => some ([], w)
  | w, op :: ops => do
    let (r, w) ← step L w op
    let (rs, w) ← run L w ops
    some (r :: rs, w)

/-- Freshly constructed objects: `ModuleUtil M(file); FunctionUtil F0(M, names[0]); …` -/
def fresh (file : String) (names : List String) : World :=
  { mod := { filename := some file, modulePtr := none, opens := 0 }
    funcs := names.map (fun n => { funcName := some n, funcPtr := none }) }

end Verif.SharedLib
