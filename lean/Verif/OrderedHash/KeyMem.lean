import Verif.OrderedHash.Model

/-!
# Memory of the keys of detachable ordered hash nodes (templates/detachable_ordered_hash.h)

`Verif.OrderedHash.Model` keeps the key of a node as a value.  Here the member `StrKey` is a pointer: into a block made by
`new char[]`, or into memory of the caller (`SetStrKey(…, false)`).  Blocks that were freed stay in the list as `none`, so
freeing twice, using a freed block and forgetting a block are all visible.

Only the members `IntKey` and `StrKey` are kept.  Simplifications: `new` succeeds; a copied key does not overlap the old
one; lengths are below 2^63.
-/

namespace Verif.OrderedHash.KeyMem

/-- The value of `StrKey` other than NULL: a block made by `new`, or memory of the caller
(detachable_ordered_hash.h 94-112, 126). -/
inductive Ptr where
  | own (b : Nat)
  | user (u : Nat)
  deriving DecidableEq, Repr

/-- The members `IntKey` and `StrKey` (detachable_ordered_hash.h 125-126). -/
structure Node where
  ik : Int
  sk : Option Ptr
  deriving DecidableEq, Repr

/-- Memory: the nodes (`none`: deleted), the blocks (`none`: freed) and the memory of the caller
(detachable_ordered_hash.h 19-130). -/
structure M where
  nodes : List (Option Node)
  heap : List (Option (List UInt8))
  user : List (List UInt8)
  deriving DecidableEq, Repr

/-- Access to a node (detachable_ordered_hash.h 19-130). -/
def node (m : M) (x : Nat) : CRes Node :=
  match m.nodes[x]? with
  | some (some n) => .ok n
  | _ => .error .badPtr

/-- `delete[] StrKey` (detachable_ordered_hash.h 31, 57, 85, 104). -/
def free (m : M) (p : Ptr) : CRes M :=
  match p with
  | .user _ => .error .badPtr
  | .own b =>
    match m.heap[b]? with
    | some (some _) => .ok { m with heap := m.heap.set b none }
    | _ => .error .badPtr

/-- `if (StrKey != NULL)  delete[] StrKey` (detachable_ordered_hash.h 31, 57). -/
def freeOpt (m : M) (p : Option Ptr) : CRes M :=
  match p with
  | none => .ok m
  | some p => free m p

/-- `new char[n]` filled with `bs` (detachable_ordered_hash.h 43-44, 62-63, 101-108). -/
def alloc (m : M) (bs : List UInt8) : Ptr × M := (.own m.heap.length, { m with heap := m.heap ++ [some bs] })

/-- The `n` bytes at a pointer (detachable_ordered_hash.h 44, 63). -/
def read (m : M) (p : Ptr) (n : Nat) : CRes (List UInt8) :=
  match p with
  | .user u =>
    match m.user[u]? with
    | some buf => readBytes buf n
    | none => .error .badPtr
  | .own b =>
    match m.heap[b]? with
    | some (some buf) => readBytes buf n
    | _ => .error .badPtr

/-- `std::memcpy(StrKey, NewStrKey, NewStrLen)` (detachable_ordered_hash.h 108). -/
def write (m : M) (p : Ptr) (bs : List UInt8) : CRes M :=
  match p with
  | .user u =>
    match m.user[u]? with
    | some buf => do
      let buf ← memcpyTo buf 0 bs bs.length
      .ok { m with user := m.user.set u buf }
    | none => .error .badPtr
  | .own b =>
    match m.heap[b]? with
    | some (some buf) => do
      let buf ← memcpyTo buf 0 bs bs.length
      .ok { m with heap := m.heap.set b (some buf) }
    | _ => .error .badPtr

/-- Storing the members of a node (detachable_ordered_hash.h 19-130). -/
def put (m : M) (x : Nat) (n : Node) : M := { m with nodes := m.nodes.set x (some n) }

/-- `CreateNode(IntKey, Value)`, detachable_ordered_hash_util.h:215-222 -/
def createInt (m : M) (i : Int) : M := { m with nodes := m.nodes ++ [some ⟨i, none⟩] }

/-- `CreateNode(StrKey, StrLen, Value)`, detachable_ordered_hash_util.h:224-235 -/
def createStr (m : M) (bs : List UInt8) : M :=
  let (p, m) := alloc m bs
  { m with nodes := m.nodes ++ [some ⟨bs.length, some p⟩] }

/-- `SetIntKey(NewIntKey, FreeStrKey)`, detachable_ordered_hash.h:81-87 -/
def setInt (m : M) (x : Nat) (i : Int) (fr : Bool) : CRes M := do
  let n ← node m x
  let m ← if fr then freeOpt m n.sk else .ok m
  .ok (put m x ⟨i, none⟩)

/-- `SetStrKey(NewStrKey, NewStrLen, true)`, detachable_ordered_hash.h:94-112 -/
def setCopy (m : M) (x : Nat) (bs : List UInt8) : CRes M := do
  let n ← node m x
  match n.sk with
  | none =>
    let (p, m) := alloc m bs
    .ok (put m x ⟨bs.length, some p⟩)
  | some p =>
    if n.ik < (bs.length : Int) then do
      let m ← free m p
      let (p, m) := alloc m bs
      .ok (put m x ⟨bs.length, some p⟩)
    else do
      let m ← write m p bs
      .ok (put m x ⟨bs.length, some p⟩)

/-- `SetStrKey(NewStrKey, NewStrLen, false)`, detachable_ordered_hash.h:94-112; `none` is `SetStrKey(NULL, 0, false)` -/
def setPtr (m : M) (x : Nat) (q : Option (Nat × Nat)) : CRes M := do
  let _ ← node m x
  match q with
  | none => .ok (put m x ⟨0, none⟩)
  | some (u, len) => .ok (put m x ⟨len, some (.user u)⟩)

/-- The string of another node, copied: detachable_ordered_hash.h:40-45, 59-64 -/
def cloneStr (m : M) (n : Node) : CRes (Option Ptr × M) :=
  match n.sk with
  | none => .ok (none, m)
  | some p => do
    let bs ← read m p n.ik.toNat
    let (p, m) := alloc m bs
    .ok (some p, m)

/-- The copy constructor, detachable_ordered_hash.h:35-48 -/
def copyNode (m : M) (x : Nat) : CRes M := do
  let n ← node m x
  let (p, m) ← cloneStr m n
  .ok { m with nodes := m.nodes ++ [some ⟨n.ik, p⟩] }

/-- `operator=`: node `x` takes the key of node `y`, detachable_ordered_hash.h:50-70 -/
def assign (m : M) (x y : Nat) : CRes M :=
  if x = y then .ok m
  else do
    let n ← node m x
    let n' ← node m y
    let m ← freeOpt m n.sk
    let (p, m) ← cloneStr m n'
    .ok (put m x ⟨n'.ik, p⟩)

/-- `delete Node`, detachable_ordered_hash.h:29-32 -/
def delete (m : M) (x : Nat) : CRes M := do
  let n ← node m x
  let m ← freeOpt m n.sk
  .ok { m with nodes := m.nodes.set x none }

/-- `GetStrKey()` and `GetIntKey()`: the key a caller reads.  detachable_ordered_hash.h:76-77 -/
def key (m : M) (x : Nat) : CRes Key := do
  let n ← node m x
  match n.sk with
  | none => .ok (.int n.ik)
  | some p => do
    let bs ← read m p n.ik.toNat
    .ok (.str bs)

/-- All calls (detachable_ordered_hash.h 25-112). -/
inductive Op where
  | createInt (i : Int)
  | createStr (bs : List UInt8)
  | setInt (x : Nat) (i : Int) (fr : Bool)
  | setCopy (x : Nat) (bs : List UInt8)
  | setPtr (x u len : Nat)
  | setNull (x : Nat)
  | copy (x : Nat)
  | assign (x y : Nat)
  | delete (x : Nat)

/-- One call (detachable_ordered_hash.h 25-112). -/
def step (m : M) : Op → CRes M
  | .createInt i => .ok (createInt m i)
  | .createStr bs => .ok (createStr m bs)
  | .setInt x i fr => setInt m x i fr
  | .setCopy x bs => setCopy m x bs
  | .setPtr x u len => setPtr m x (some (u, len))
  | .setNull x => setPtr m x none
  | .copy x => copyNode m x
  | .assign x y => assign m x y
  | .delete x => delete m x

/-- A history (detachable_ordered_hash.h 25-112). -/
def run : M → List Op → CRes M
  | m, [] => .ok m
  | m, op :: ops => do
    let m ← step m op
    run m ops

/-- Number of blocks that are allocated (detachable_ordered_hash.h 29-112). -/
def blocks (m : M) : Nat := m.heap.countP fun b => b.isSome

end Verif.OrderedHash.KeyMem
