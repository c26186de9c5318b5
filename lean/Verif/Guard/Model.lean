import Verif.Base

/-!
# Model of the scope guards (`Mutex::AutoUnlock`, `Semaphore::AutoUnlock`, `ReadWriteLock::AutoReadUnlock` and
`AutoWriteUnlock`: sync/sync_mutex.cpp 261-268, sync_semaphore.cpp 135-142, sync_readwritelock.cpp 364-382)

A guard keeps a pointer to the lock, and its destructor calls the unlocking function.  It is used as in test_suite.cpp
317, 381, 444: after a successful lock call, as a local variable of the block.  Guards cannot be copied or assigned (private
members, sync_mutex.h 35-36).  What matters is when C++ runs destructors: at the end of the block, and when the block is left
by `break`, `continue`, `return` or an exception, for all blocks that are left, innermost first.

A thread runs a program of blocks.  `α` names the locking functions of the objects in use.  What lock and unlock calls
return comes from outside.
-/

namespace Verif.Guard

/-- Commands.  Conditions that do not concern locks are decided by the outside (test_suite.cpp 310-330, 375-410, 440-490 are
uses of the pattern). -/
inductive Cmd (α : Type) where
  /-- anything that does not concern locks and guards -/
  | work
  /-- `if (...) { a } else { b }` -/
  | branch (a b : List (Cmd α))
  /-- `while (...) { body }` -/
  | loop (body : List (Cmd α))
  /-- `if (x.Lock(Wait)) { AutoUnlock guard(&x); body } else { els }` (sync_mutex.cpp 261-264) -/
  | take (k : α) (body els : List (Cmd α))
  /-- leaves this block and `n` blocks around it, all of them when there are no more than that: `break`, `return`, `throw` -/
  | leave (n : Nat)

/-- A block being executed: the rest of its commands and the guard declared in it (sync_mutex.cpp 261-268). -/
structure Frame (α : Type) where
  code : List (Cmd α)
  guard : Option α

/-- Where a thread is: in the program, or inside a call (sync_mutex.cpp 207-268). -/
inductive Mode (α : Type) where
  | running
  | locking (k : α) (body els : List (Cmd α))
  | unlocking (k : α)

/-- A thread: the blocks it is in, innermost first (sync_mutex.cpp 261-268). -/
structure T (α : Type) where
  frames : List (Frame α)
  mode : Mode α

/-- Calls of lock functions and their results (sync_mutex.cpp 207-257). -/
inductive Ev (α : Type) where
  | callLock (k : α)
  | retLock (k : α) (r : Bool)
  | callUnlock (k : α)
  | retUnlock (k : α) (r : Bool)

/-- A thread about to run a function body (sync_mutex.cpp 261-268). -/
def start {α : Type} (body : List (Cmd α)) : T α := ⟨[⟨body, none⟩], .running⟩

/-- The rest of the commands of the innermost `n` blocks is skipped; their guards stay until the blocks end, which is next
(the destructors of sync_mutex.cpp 266-268). -/
def skip {α : Type} : Nat → List (Frame α) → List (Frame α)
  | _, [] => []
  | 0, fs => fs
  | n + 1, f :: fs => { f with code := [] } :: skip n fs

/-- One command, or the end of a block: the destructor of its guard calls the unlocking function (sync_mutex.cpp 266-268,
sync_semaphore.cpp 140-142, sync_readwritelock.cpp 369-371, 380-382).  `none`: the program has ended. -/
def advance {α : Type} (choice : Bool) : List (Frame α) → Option (T α × List (Ev α))
  | [] => none
  | ⟨[], none⟩ :: fs => some (⟨fs, .running⟩, [])
  | ⟨[], some k⟩ :: fs => some (⟨fs, .unlocking k⟩, [.callUnlock k])
  | ⟨.work :: cs, g⟩ :: fs => some (⟨⟨cs, g⟩ :: fs, .running⟩, [])
  | ⟨.branch a b :: cs, g⟩ :: fs => some (⟨⟨if choice then a else b, none⟩ :: ⟨cs, g⟩ :: fs, .running⟩, [])
  | ⟨.loop body :: cs, g⟩ :: fs =>
    some (⟨if choice then ⟨body, none⟩ :: ⟨.loop body :: cs, g⟩ :: fs else ⟨cs, g⟩ :: fs, .running⟩, [])
  | ⟨.take k body els :: cs, g⟩ :: fs => some (⟨⟨cs, g⟩ :: fs, .locking k body els⟩, [.callLock k])
  | ⟨.leave n :: cs, g⟩ :: fs => some (⟨skip (n + 1) (⟨cs, g⟩ :: fs), .running⟩, [])

/-- A call returns: after a successful lock the guard is constructed (sync_mutex.cpp 261-264; the destructor ignores the
result of the unlocking function, 268). -/
def returned {α : Type} (t : T α) (r : Bool) : Option (T α × List (Ev α)) :=
  match t.mode with
  | .running => none
  | .locking k body els => some (⟨(if r then ⟨body, some k⟩ else ⟨els, none⟩) :: t.frames, .running⟩, [.retLock k r])
  | .unlocking k => some (⟨t.frames, .running⟩, [.retUnlock k r])

/-- What the thread does next (sync_mutex.cpp 261-268). -/
inductive Act where
  | run (choice : Bool)
  | ret (r : Bool)

/-- One step; `none` if it is not possible (sync_mutex.cpp 261-268). -/
def step {α : Type} (t : T α) : Act → Option (T α × List (Ev α))
  | .run choice =>
    match t.mode with
    | .running => advance choice t.frames
    | _ => none
  | .ret r => returned t r

/-- Steps one after the other (impossible ones change nothing), with the calls and results in order
(sync_mutex.cpp 261-268). -/
def exec {α : Type} (t : T α) : List Act → T α × List (Ev α)
  | [] => (t, [])
  | a :: as =>
    match step t a with
    | none => exec t as
    | some (t', l) => ((exec t' as).1, l ++ (exec t' as).2)

/-- The guards that exist, innermost first (sync_mutex.cpp 261-268). -/
def guards {α : Type} (fs : List (Frame α)) : List α := fs.filterMap (·.guard)

end Verif.Guard
