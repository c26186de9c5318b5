import Verif.Base

/-!
# Model of the name of a shared memory object (sync/sync_util.cpp 111-118, 120-215)

`InitUnixNamedMem` builds the name given to `shm_open` in a buffer of `SHM_NAME_MAX` characters.
`cap` is that constant (255, or 31 on Apple systems; sync_util.cpp 23-29), `al` the result of
`GetUnixSystemAlignmentSize`, `hdr` the value of `StartPos` (sync_util.cpp 124).

C strings are lists of their bytes without the terminator.  `size_t` is 64 bits wide, `unsigned int`
32 bits.
-/

namespace Verif.ShmName

/-- `AlignUnixSize` (sync_util.cpp 111-118). -/
def alignSize (al size : Nat) : CRes Nat :=
  if al = 0 then .error .divByZero
  else .ok ((if size % al ≠ 0 then size + (al - size % al) else size) % 18446744073709551616)

/-- Decimal digits, as written by `%u` (sync_util.cpp 120-215). -/
def decimal (n : Nat) : List UInt8 :=
  if n < 10 then [UInt8.ofNat (48 + n)] else decimal (n / 10) ++ [UInt8.ofNat (48 + n % 10)]

/-- `sprintf(Nums, "-%u-%u-", ...)` into `char Nums[50]` (sync_util.cpp 141, 158). -/
def nums (al size : Nat) : CRes (List UInt8) :=
  let s := [45] ++ decimal (al % 4294967296) ++ [45] ++ decimal (size % 4294967296) ++ [45]
  if s.length + 1 ≤ 50 then .ok s else .error .oobWrite

/-- `Name2`, `x2` and `z` (sync_util.cpp 141-142). -/
structure St where
  buf : List UInt8
  x2 : Nat
  z : Nat
  deriving DecidableEq

/-- One round of the mixing loops (sync_util.cpp 146-156, 161-171, 174-184). -/
def mix1 (cap : Nat) (c : UInt8) (s : St) : CRes St := do
  let old ← rd s.buf s.x2
  let buf ← wr s.buf s.x2 (old * 37 + c)
  if s.x2 + 1 = cap - 1 then .ok { buf := buf, x2 := 1, z := s.z + 1 }
  else .ok { s with buf := buf, x2 := s.x2 + 1 }

/-- A mixing loop over a string (sync_util.cpp 120-215). -/
def mix (cap : Nat) : List UInt8 → St → CRes St
  | [], s => .ok s
  | c :: cs, s => do
    let s ← mix1 cap c s
    mix cap cs s

/-- The new character (sync_util.cpp 193-199). -/
def norm (b : UInt8) : UInt8 :=
  let c := b &&& 0x3F
  if c < 10 then c + 48
  else if c < 36 then c - 10 + 65
  else if c < 62 then c - 36 + 97
  else if c = 62 then 95
  else 45

/-- The normalising loop (sync_util.cpp 190-202): `n` more rounds from position `x`. -/
def normLoop : Nat → Nat → List UInt8 → CRes (List UInt8)
  | 0, _, buf => .ok buf
  | n + 1, x, buf => do
    let b ← rd buf x
    let buf ← wr buf x (norm b)
    normLoop n (x + 1) buf

/-- The loop replacing slashes (sync_util.cpp 205-208): `n` more rounds at most, from `x`. -/
def slashLoop (cap : Nat) : Nat → Nat → List UInt8 → CRes (List UInt8)
  | 0, _, _ => .error .diverges
  | n + 1, x, buf =>
    if x < cap then do
      let b ← rd buf x
      if b = 0 then .ok buf
      else do
        let buf ← if b = 92 ∨ b = 47 then wr buf x 95 else .ok buf
        slashLoop cap n (x + 1) buf
    else .ok buf

/-- The alphabet is normalised if the index looped (sync_util.cpp 187-203). -/
def normalize (cap : Nat) (s : St) : CRes (List UInt8) :=
  if s.z ≠ 0 then normLoop ((if s.z > 1 then cap - 1 else s.x2) - 1) 1 s.buf
  else .ok s.buf

/-- The buffer handed to `shm_open` (sync_util.cpp 141-208). -/
def mangle (cap al : Nat) (pre : List UInt8) (size : Nat) (name : List UInt8) :
    CRes (List UInt8) := do
  let s ← mix cap pre { buf := List.replicate cap 0, x2 := 0, z := 0 }
  let ns ← nums al size
  let s ← mix cap ns s
  let s ← mix cap name s
  let buf ← normalize cap s
  slashLoop cap (cap + 1) 1 buf

/-- The C string in a buffer; not terminated inside the buffer is a read beyond it (sync_util.cpp 120-215). -/
def cstr : List UInt8 → CRes (List UInt8)
  | [] => .error .oobRead
  | b :: bs => if b = 0 then .ok [] else do
    let r ← cstr bs
    .ok (b :: r)

/-- The name of the object opened by `InitUnixNamedMem` for a prefix, a size and a name
(sync_util.cpp 120-130, 141-215). -/
def shmName (cap al hdr : Nat) (pre : List UInt8) (size : Nat) (name : List UInt8) :
    CRes (List UInt8) := do
  let total ← alignSize al ((size + hdr) % 18446744073709551616)
  let buf ← mangle cap al pre total name
  cstr buf

/-- The kinds of named objects (sync_semaphore.cpp 80-112 and the other Create functions). -/
inductive Kind where
  | semaphore | event | mutex | readWrite | sharedMem
  deriving DecidableEq

/-- The `Prefix` argument of each caller: "/Sync_Semaphore" (sync_semaphore.cpp 97), "/Sync_Event"
(sync_event.cpp 104), "/Sync_Mutex" (sync_mutex.cpp 183), "/Sync_ReadWrite"
(sync_readwritelock.cpp 227), "/Sync_SharedMem" (sync_sharedmem.cpp 92). -/
def Kind.pre : Kind → List UInt8
  | .semaphore => [47, 83, 121, 110, 99, 95, 83, 101, 109, 97, 112, 104, 111, 114, 101]
  | .event => [47, 83, 121, 110, 99, 95, 69, 118, 101, 110, 116]
  | .mutex => [47, 83, 121, 110, 99, 95, 77, 117, 116, 101, 120]
  | .readWrite => [47, 83, 121, 110, 99, 95, 82, 101, 97, 100, 87, 114, 105, 116, 101]
  | .sharedMem => [47, 83, 121, 110, 99, 95, 83, 104, 97, 114, 101, 100, 77, 101, 109]

end Verif.ShmName
