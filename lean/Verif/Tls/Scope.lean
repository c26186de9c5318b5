import Verif.Tls.Model

/-!
# Model of `TLS::AutoFree` (sync/sync_tls.cpp 238-246, sync_tls.h 29-43)

A guard keeps a data pointer, and its destructor calls `TLS::free`.  Guards cannot be copied or assigned (sync_tls.h 36-39).
C++ runs the destructor at the end of the block that declares the guard, and when the block is left by `break`, `continue`,
`return` or an exception, for all blocks that are left, innermost first.

A thread runs a program of blocks.  Conditions, the calls made besides (`work`) and whether the system has memory are decided
outside.
-/

namespace Verif.Tls.Scope

/-- Commands of a program that uses guards (class of sync_tls.h 29-43). -/
inductive Cmd where
  /-- any call of the allocator or access to its memory -/
  | work
  /-- `if (...) { a } else { b }` -/
  | branch (a b : List Cmd)
  /-- `while (...) { body }` -/
  | loop (body : List Cmd)
  /-- `{ TLS::AutoFree guard(&tls, tls.malloc(size)); body }` (sync_tls.cpp 238-242) -/
  | auto (size : Nat) (body : List Cmd)
  /-- leaves this block and `n` blocks around it: `break`, `return`, `throw` -/
  | leave (n : Nat)

/-- A block being executed: the rest of its commands and `MxData` of its guard (sync_tls.cpp 238-242). -/
structure Frame where
  code : List Cmd
  guard : Option Ptr

/-- The thread: its allocator, the blocks it is in, and all calls so far with their results, `true` for those that the program
makes itself (sync_tls.cpp 68-246). -/
structure World where
  s : St
  frames : List Frame
  log : List (Bool × Op × Out)

/-- What is decided outside (sync_tls.cpp 68-246). -/
structure Act where
  choice : Bool
  ok : Bool
  op : Option Op

/-- After `ThreadInit(m)` (sync_tls.cpp 60-66). -/
def start (m : Nat) (body : List Cmd) : World := ⟨threadInit .empty m, [⟨body, none⟩], []⟩

/-- The rest of the innermost `n` blocks is skipped; their guards are destroyed next (destructor of sync_tls.cpp 244-246). -/
def skip : Nat → List Frame → List Frame
  | _, [] => []
  | 0, fs => fs
  | n + 1, f :: fs => { f with code := [] } :: skip n fs

/-- One command, or the end of a block, where the destructor of its guard runs `MxTLS->free(MxData)` with `Cache = true`
(sync_tls.cpp 238-246, sync_tls.h 61).  A program that has ended does nothing. -/
def advance (w : World) (a : Act) : CRes World :=
  match w.frames with
  | [] => .ok w
  | ⟨[], none⟩ :: fs => .ok { w with frames := fs }
  | ⟨[], some p⟩ :: fs => do
    let (out, s) ← step w.s (.free p true)
    .ok ⟨s, fs, w.log ++ [(false, .free p true, out)]⟩
  | ⟨.work :: cs, g⟩ :: fs =>
    match a.op with
    | none => .ok { w with frames := ⟨cs, g⟩ :: fs }
    | some op => do
      let (out, s) ← step w.s op
      .ok ⟨s, ⟨cs, g⟩ :: fs, w.log ++ [(true, op, out)]⟩
  | ⟨.branch x y :: cs, g⟩ :: fs => .ok { w with frames := ⟨if a.choice then x else y, none⟩ :: ⟨cs, g⟩ :: fs }
  | ⟨.loop body :: cs, g⟩ :: fs =>
    .ok { w with frames := if a.choice then ⟨body, none⟩ :: ⟨.loop body :: cs, g⟩ :: fs else ⟨cs, g⟩ :: fs }
  | ⟨.auto n body :: cs, g⟩ :: fs => do
    let (p, s) ← malloc w.s a.ok n
    .ok ⟨s, ⟨body, some p⟩ :: ⟨cs, g⟩ :: fs, w.log ++ [(false, .malloc a.ok n, .ptr p)]⟩
  | ⟨.leave n :: cs, g⟩ :: fs => .ok { w with frames := skip (n + 1) (⟨cs, g⟩ :: fs) }

/-- An execution (sync_tls.cpp 68-246). -/
def exec : World → List Act → CRes World
  | w, [] => .ok w
  | w, a :: as => do
    let w ← advance w a
    exec w as

/-- The pointers of the guards that exist, innermost first (sync_tls.cpp 238-242). -/
def guards (fs : List Frame) : List Ptr := fs.filterMap (·.guard)

end Verif.Tls.Scope
