import Verif.Tls.Model

/-!
# The thread-local allocator with several threads (sync/sync_tls.cpp 11-225)

One `TLS` object used by any number of threads.  Every thread has its own value of the thread-specific pointer
(`pthread_getspecific`, `TlsGetValue`), that is its own number of buckets and buckets; the system's heap is shared.  A call
is one step: it touches blocks the thread owns and calls the system's allocator, which serves all threads.

Simplifications: creating the key succeeds; whether storing the pointer succeeds is an argument; the vector of buckets
itself is not part of the heap (if the pointer cannot be stored it is lost).
-/

namespace Verif.Tls

/-- What the thread-specific pointer of a thread leads to: the number of buckets, `none` for NULL, and the buckets
(sync_tls.cpp 37-55). -/
structure Th where
  main : Option Nat
  bk : Nat → List Nat

/-- The system's blocks and the pointers of all threads (sync_tls.cpp 37-55). -/
structure M where
  heap : BHeap Cell
  th : Nat → Th

/-- Before anything was called (sync_tls.cpp 37-40). -/
def M.empty : M := ⟨[], fun _ => ⟨none, fun _ => []⟩⟩

/-- What a call of thread `t` sees (sync_tls.cpp 32-35, 52-55). -/
def M.view (s : M) (t : Nat) : St := ⟨s.heap, (s.th t).main, (s.th t).bk⟩

/-- What it leaves behind (sync_tls.cpp 27-30, 47-50). -/
def M.back (s : M) (t : Nat) (v : St) : M := ⟨v.heap, setAt s.th t ⟨v.main, v.bk⟩⟩

/-- The calls: `ThreadInit` with the answer of the system to storing the pointer, `ThreadEnd`, the others
(sync_tls.cpp 58-225). -/
inductive MOp where
  | init (ok : Bool) (bits : Nat)
  | call (op : Op)
  | fin

/-- What they return (sync_tls.cpp 58-225). -/
inductive MOut where
  | bool (b : Bool)
  | out (o : Out)
  deriving DecidableEq

/-- One call of thread `t` (sync_tls.cpp 58-225). -/
def mstep (s : M) (t : Nat) : MOp → CRes (MOut × M)
  | .init ok bits =>
    match (s.th t).main with
    | some _ => .ok (.bool true, s)
    | none => if ok then .ok (.bool true, s.back t (threadInit (s.view t) bits)) else .ok (.bool false, s)
  | .call op => do
    let (o, v) ← step (s.view t) op
    .ok (.out o, s.back t v)
  | .fin => do
    let (b, v) ← threadEnd (s.view t)
    .ok (.bool b, s.back t v)

/-- An interleaving of calls, with their results (calls of sync_tls.cpp 58-225). -/
def mrun : M → List (Nat × MOp) → CRes (List (Nat × MOp × MOut) × M)
  | s, [] => .ok ([], s)
  | s, (t, op) :: ops => do
    let (o, s) ← mstep s t op
    let (h, s) ← mrun s ops
    .ok ((t, op, o) :: h, s)

end Verif.Tls
