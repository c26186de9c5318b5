import Verif.Base

/-!
# Model of opening and closing one named object (sync/sync_util.cpp 97-324)

`InitUnixNamedMem`, `UnixNamedMemReady` and `UnmapUnixNamedMem`, with the order of calls of
`Semaphore::Create` (sync_semaphore.cpp 80-112; the other classes are alike).  A transition system
of any number (below 2^32 - 1) of handles, in any number of processes, that open and close the object
with one given name and size again and again.

* `shm_open`, `mmap`, the mutex operations and each access to the shared memory are steps.
* The object is never unlinked (there is no `shm_unlink` in the library).
* `shm_open` and `mmap` may fail (`fail`).  A process may crash at any moment (`crash`): it makes no
  further step and gives nothing back.
* Locking a mutex that was not initialised and unlocking one not held are undefined behaviour, as is
  an access outside the mapping.  `mapped` is the length of the mapping: the system maps whole pages,
  so it may be more than was asked for.
* `hold` is a ghost: the handles counted in the reference counter.

Not modelled: `ftruncate` (its result is ignored; all openers ask for the same size), the contents of
the object, `pthread` calls returning errors, sizes near 2^64.
-/

namespace Verif.NamedMem

/-- `AlignUnixSize` (sync_util.cpp 111-118). -/
def alignSize (al n : Nat) : Nat := if n % al ≠ 0 then n + (al - n % al) else n

/-- The fixed quantities: the alignment unit, `sizeof(pthread_mutex_t)`, the requested size and the
length of the mapping (sync_util.cpp 97-324). -/
structure Par where
  al : Nat
  msz : Nat
  size : Nat
  mapped : Nat

/-- Offset of the mutex (sync_util.cpp 232, 270). -/
def Par.mutexPos (p : Par) : Nat := alignSize p.al 1
/-- Offset of the reference counter (sync_util.cpp 233, 272-274). -/
def Par.refPos (p : Par) : Nat := p.mutexPos + alignSize p.al p.msz
/-- `StartPos` (sync_util.cpp 124). -/
def Par.start (p : Par) : Nat := p.refPos + alignSize p.al 4
/-- `Size` after lines 129-130. -/
def Par.total (p : Par) : Nat := alignSize p.al (p.size + p.start)

/-- Result of `InitUnixNamedMem`: -1, 0 or 1. -/
inductive Res where
  | fail | first | other
  deriving DecidableEq

/-- Where a handle is (sync_util.cpp 97-324). -/
inductive Pc where
  | idle
  /-- before the exclusive `shm_open` (sync_util.cpp 215) -/
  | opening
  /-- before `mmap` of the new object (223) -/
  | cMap
  /-- before `pthread_mutex_init` (235) -/
  | cInit
  /-- before `pthread_mutex_lock` (236) -/
  | cLock
  /-- before the store to byte 0 (238) -/
  | cByte
  /-- before the store to the reference counter (239) -/
  | cRef
  /-- before returning 0 (241-244, 297-300) -/
  | cRet
  /-- before the second `shm_open` (249) -/
  | oOpen
  /-- before `mmap` (257) -/
  | oMap
  /-- before the test of byte 0 (262-268) -/
  | oSpin
  /-- before `pthread_mutex_lock` (277) -/
  | oLock
  /-- before the test of the reference counter (279-286) -/
  | oCheck
  /-- before the increment of the reference counter (288) -/
  | oRef (r : Res)
  /-- before `pthread_mutex_unlock` (290) -/
  | oUnlock (r : Res)
  /-- before returning (293-300) -/
  | oRet (r : Res)
  /-- told to initialise, before doing so (sync_semaphore.cpp 104-106) -/
  | mustInit
  /-- before `UnixNamedMemReady` (sync_semaphore.cpp 108) -/
  | mustReady
  /-- the object is open -/
  | opn
  /-- `UnmapUnixNamedMem`: before `pthread_mutex_lock` (319) -/
  | kLock
  /-- before the decrement (320) -/
  | kDec
  /-- before `pthread_mutex_unlock` (321) -/
  | kUnlock
  /-- before `munmap` (323) -/
  | kUnmap
  /-- the process crashed -/
  | dead
  deriving DecidableEq

/-- The mutex in the shared memory (sync_util.cpp 97-324). -/
inductive Mtx where
  | raw | free
  | held (t : Nat)
  deriving DecidableEq

/-- The state (sync_util.cpp 97-324). -/
structure S where
  /-- the object exists -/
  ex : Bool
  /-- byte 0 of the memory is not zero -/
  byte0 : Bool
  mtx : Mtx
  /-- the reference counter -/
  ref : Nat
  pc : Nat → Pc
  /-- ghost -/
  hold : List Nat

/-- What happens in a step (sync_util.cpp 97-324). -/
inductive Label where
  | callOpen (t : Nat)
  /-- `InitUnixNamedMem` returned -/
  | ret (t : Nat) (r : Res)
  /-- the object was initialised -/
  | inited (t : Nat)
  /-- `UnixNamedMemReady` returned -/
  | ready (t : Nat)
  | use (t : Nat)
  | callClose (t : Nat)
  | closed (t : Nat)
  | crash (t : Nat)
  /-- bytes `lo` up to but not including `hi` of the shared memory were accessed -/
  | touch (t lo hi : Nat)
  deriving DecidableEq

/-- Actions (sync_util.cpp 97-324). -/
inductive Act where
  | callOpen (t : Nat)
  | use (t : Nat)
  | callClose (t : Nat)
  /-- the next step of a handle -/
  | run (t : Nat)
  /-- the system call in the next step fails -/
  | fail (t : Nat)
  | crash (t : Nat)

/-- A function changed at one place (sync_util.cpp 97-324). -/
def setAt {α : Type} (f : Nat → α) (o : Nat) (x : α) : Nat → α := fun i => if i = o then x else f i

/-- Handle `t` goes to `p` (sync_util.cpp 97-324). -/
def S.goto (s : S) (t : Nat) (p : Pc) : S := { s with pc := setAt s.pc t p }

/-- Before the first open: no such object (sync_util.cpp 97-324). -/
def init : S :=
  { ex := false, byte0 := false, mtx := .raw, ref := 0, pc := fun _ => .idle, hold := [] }

/-- An access to `n` bytes at offset `lo`, then the rest of the step (sync_util.cpp 97-324). -/
def acc (p : Par) (t lo n : Nat) (r : S × List Label) : Option (CRes (S × List Label)) :=
  if lo + n ≤ p.mapped then some (.ok (r.1, .touch t lo (lo + n) :: r.2))
  else some (.error .oobWrite)

/-- `pthread_mutex_lock`; `none`: waiting (sync_util.cpp 97-324). -/
def lock (p : Par) (s : S) (t : Nat) (next : Pc) : Option (CRes (S × List Label)) :=
  match s.mtx with
  | .raw => some (.error .uninit)
  | .free => acc p t p.mutexPos p.msz (({ s with mtx := .held t } : S).goto t next, [])
  | .held _ => none

/-- `pthread_mutex_unlock`, then the labels `ls` (sync_util.cpp 97-324). -/
def unlock (p : Par) (s : S) (t : Nat) (next : Pc) (ls : List Label) :
    Option (CRes (S × List Label)) :=
  if s.mtx = .held t then acc p t p.mutexPos p.msz (({ s with mtx := .free } : S).goto t next, ls)
  else some (.error .badUnlock)

/-- Where a handle goes after `InitUnixNamedMem` returned (sync_semaphore.cpp 99-111). -/
def afterRet : Res → Pc
  | .fail => .idle
  | .first => .mustInit
  | .other => .opn

/-- The next step of a handle; `none` if it cannot move now (sync_util.cpp 97-324). -/
def run (p : Par) (s : S) (t : Nat) : Option (CRes (S × List Label)) :=
  match s.pc t with
  | .idle | .opn | .dead => none
  | .opening =>
    if s.ex then some (.ok (s.goto t .oOpen, []))
    else some (.ok (({ s with ex := true } : S).goto t .cMap, []))
  | .cMap => some (.ok (s.goto t .cInit, []))
  | .cInit => acc p t p.mutexPos p.msz (({ s with mtx := .free } : S).goto t .cLock, [])
  | .cLock => lock p s t .cByte
  | .cByte => acc p t 0 1 (({ s with byte0 := true } : S).goto t .cRef, [])
  | .cRef => acc p t p.refPos 4 (({ s with ref := 1, hold := [t] } : S).goto t .cRet, [])
  | .cRet => some (.ok (s.goto t .mustInit, [.ret t .first]))
  | .oOpen =>
    if s.ex then some (.ok (s.goto t .oMap, []))
    else some (.ok (s.goto t .idle, [.ret t .fail]))
  | .oMap => some (.ok (s.goto t .oSpin, []))
  | .oSpin => acc p t 0 1 (if s.byte0 then s.goto t .oLock else s, [])
  | .oLock => lock p s t .oCheck
  | .oCheck =>
    if s.ref ≠ 0 then acc p t p.refPos 4 (s.goto t (.oRef .other), [])
    else acc p t p.start p.total (s.goto t (.oRef .first), [])
  | .oRef r =>
    acc p t p.refPos 4
      (({ s with ref := (s.ref + 1) % 4294967296, hold := t :: s.hold } : S).goto t (.oUnlock r), [])
  | .oUnlock r => unlock p s t (.oRet r) []
  | .oRet r => some (.ok (s.goto t (afterRet r), [.ret t r]))
  | .mustInit => acc p t p.start p.size (s.goto t .mustReady, [.inited t])
  | .mustReady => unlock p s t .opn [.ready t]
  | .kLock => lock p s t .kDec
  | .kDec =>
    acc p t p.refPos 4
      (({ s with ref := if s.ref ≠ 0 then s.ref - 1 else s.ref, hold := s.hold.erase t } : S).goto t
        .kUnlock, [])
  | .kUnlock => unlock p s t .kUnmap []
  | .kUnmap => some (.ok (s.goto t .idle, [.closed t]))

/-- Failing system calls (sync_util.cpp 215, 224, 249-250, 258). -/
def fail (s : S) (t : Nat) : Option (CRes (S × List Label)) :=
  match s.pc t with
  | .opening => some (.ok (s.goto t .oOpen, []))
  | .cMap | .oOpen | .oMap => some (.ok (s.goto t .idle, [.ret t .fail]))
  | _ => none

/-- One action; `none` if it is not possible in this state (sync_util.cpp 97-324). -/
def step (p : Par) (s : S) : Act → Option (CRes (S × List Label))
  | .callOpen t =>
    if s.pc t = .idle ∧ t < 4294967295 then some (.ok (s.goto t .opening, [.callOpen t])) else none
  | .use t => if s.pc t = .opn then acc p t p.start p.size (s, [.use t]) else none
  | .callClose t =>
    if s.pc t = .opn then some (.ok (s.goto t .kLock, [.callClose t])) else none
  | .run t => run p s t
  | .fail t => fail s t
  | .crash t => some (.ok (s.goto t .dead, [.crash t]))

/-- An execution: the labels up to the end or up to undefined behaviour, and the final state.
Impossible actions change nothing (sync_util.cpp 97-324). -/
def exec (p : Par) (s : S) : List Act → List Label × CRes S
  | [] => ([], .ok s)
  | a :: as =>
    match step p s a with
    | none => exec p s as
    | some (.error e) => ([], .error e)
    | some (.ok (s', l)) => (l ++ (exec p s' as).1, (exec p s' as).2)

end Verif.NamedMem
