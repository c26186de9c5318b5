import Verif.OrderedHash.Model

/-!
# Model of `PackedOrderedHash<T>` (templates/packed_ordered_hash.h, templates/packed_ordered_hash_util.h)

One hash object with its array `ArrayNodes` of `NumNodes` nodes and its array `HashNodes` of `NumNodes` indexes.  The
array of nodes is kept per member (`pv`, `nx`, `ik`, `sk`, `val`), with the capacity `cap` and a flag per slot telling
whether the slot was ever written; every access is checked against both.  Indexes are the raw 32-bit numbers of the code,
with the markers `0xFFFFFFFF` and `0x80000000 | HashPos`.

The hash function is a parameter (`hf`), as in `Verif.OrderedHash`; keys are those of `Verif.OrderedHash`.

Simplifications: `new` succeeds; `size_t` arithmetic does not wrap; `T` is copied by raw `memcpy` when nodes move (that is
what the code does) and by value otherwise; integer keys are mathematical integers hashed through their 8 low bytes; the
old array, which `InternalResizeHash` never frees, is simply forgotten.
-/

namespace Verif.PackedHash
open Verif.Links
open Verif.OrderedHash (Key intBytes)

variable {α : Type}

/-- `0xFFFFFFFF`: end of a chain, and the unset mark. -/
def nil32 : Nat := 0xFFFFFFFF

/-- `0x80000000 | HashPos` -/
def mark (b : Nat) : Nat := 0x80000000 ||| b

/-- `(std::uint32_t)HashKey & Mask` -/
def hpos (mask h : Nat) : Nat := (h % 2 ^ 32) &&& mask

/-- `(std::int64_t)HashKey` -/
def toI64 (h : UInt64) : Int := if h.toNat < 2 ^ 63 then (h.toNat : Int) else (h.toNat : Int) - 2 ^ 64

/-- `(std::uint64_t)IntKey` -/
def ofI64 (i : Int) : Nat := (i % 2 ^ 64).toNat

/-- The members: packed_ordered_hash_util.h:529-538, packed_ordered_hash.h:31-38.  (`CompactNumUsed50` and
`CompactNextNodePos75` only serve `ShouldOptimize` and are computed there: they are always set together with `NumNodes`.)  `sk` is the string with its stored length. -/
structure W (α : Type) where
  cap : Nat
  init : Nat → Bool
  pv : Nat → Nat
  nx : Nat → Nat
  ik : Nat → Int
  sk : Nat → Option (List UInt8)
  val : Nat → Option α
  tbl : List Nat
  mask : Nat
  pos : Nat
  used : Nat
  c90 : Nat
  r40 : Nat

/-- `ArrayNodes[i].member` as an rvalue (packed_ordered_hash.h 20-40). -/
def get {β : Type} (w : W α) (f : Nat → β) (i : Nat) : CRes β :=
  if i < w.cap then if w.init i then .ok (f i) else .error .uninit else .error .oobRead

/-- `ArrayNodes[i].PrevHashIndex = v` (packed_ordered_hash.h 20-40). -/
def setPv (w : W α) (i v : Nat) : CRes (W α) :=
  if i < w.cap then .ok { w with pv := upd w.pv i v } else .error .oobWrite

/-- `ArrayNodes[i].NextHashIndex = v` (packed_ordered_hash.h 20-40). -/
def setNx (w : W α) (i v : Nat) : CRes (W α) :=
  if i < w.cap then .ok { w with nx := upd w.nx i v } else .error .oobWrite

/-- The value of a node that holds one (packed_ordered_hash.h 20-40). -/
def getVal (w : W α) (i : Nat) : CRes α := do
  let v ← get w w.val i
  match v with
  | some v => .ok v
  | none => .error .uninit

/-- `ArrayNodes[Pos].IntKey == IntKey && ArrayNodes[Pos].StrKey == NULL`: packed_ordered_hash_util.h:453 -/
def matchInt (w : W α) (i : Int) (x : Nat) : CRes Bool := do
  let ik ← get w w.ik x
  let sk ← get w w.sk x
  .ok (decide (ik = i) && sk.isNone)

/-- The test for a string key: packed_ordered_hash_util.h:467 -/
def matchStr (w : W α) (h : UInt64) (bs : List UInt8) (x : Nat) : CRes Bool := do
  let ik ← get w w.ik x
  let sk ← get w w.sk x
  match sk with
  | none => .ok false
  | some b => .ok (decide (ik = toI64 h) && decide (bs.length = b.length) && decide (bs = b))

/-- The loop of `InternalFind`: packed_ordered_hash_util.h:451-458, 465-472 -/
def findLoop (w : W α) (m : Nat → CRes Bool) : Nat → Nat → CRes (Option Nat)
  | 0, _ => .error .diverges
  | k + 1, p =>
    if p = nil32 then .ok none
    else do
      let b ← m p
      if b then .ok (some p)
      else do
        let n ← get w w.nx p
        findLoop w m k n

/-- `GetHashKey` of a key: packed_ordered_hash_util.h:186, 225, 443-446 -/
def hashOf (hf : List UInt8 → UInt64) : Key → UInt64
  | .int i => hf (intBytes i)
  | .str bs => hf bs

/-- The comparison of `InternalFind` for a key (packed_ordered_hash_util.h 448-473). -/
def matchKey (hf : List UInt8 → UInt64) (w : W α) : Key → Nat → CRes Bool
  | .int i => matchInt w i
  | .str bs => matchStr w (hf bs) bs

/-- `InternalFind`: packed_ordered_hash_util.h:448-473 -/
def find (hf : List UInt8 → UInt64) (w : W α) (k : Key) : CRes (Option Nat) := do
  let first ← rd w.tbl (hpos w.mask (hashOf hf k).toNat)
  findLoop w (matchKey hf w k) (w.cap + 1) first

/-- `if (n != 0xFFFFFFFF)  ArrayNodes[n].PrevHashIndex = v` -/
def setNextLink (w : W α) (n v : Nat) : CRes (W α) := if n = nil32 then .ok w else setPv w n v

/-- `if (p & 0x80000000)  HashNodes[p & 0x7FFFFFFF] = v;  else  ArrayNodes[p].NextHashIndex = v` -/
def setPrevLink (w : W α) (p v : Nat) : CRes (W α) :=
  if p &&& 0x80000000 ≠ 0 then do
    let t ← wr w.tbl (p &&& 0x7FFFFFFF) v
    .ok { w with tbl := t }
  else setNx w p v

/-- Attach the node `x` to the start of the hash list of hash `h`:
packed_ordered_hash_util.h:200-204, 239-243, 501-505 -/
def attach (w : W α) (x h : Nat) : CRes (W α) := do
  let first ← rd w.tbl (hpos w.mask h)
  if x < w.cap then do
    let w ← setNextLink { w with init := upd w.init x true, pv := upd w.pv x (mark (hpos w.mask h)), nx := upd w.nx x first } first x
    let t ← wr w.tbl (hpos w.mask h) x
    .ok { w with tbl := t }
  else .error .oobWrite

/-- `(std::int64_t)` key member and string member of a new node: packed_ordered_hash_util.h:206-207, 245-251 -/
def keyIk (hf : List UInt8 → UInt64) : Key → Int
  | .int i => i
  | .str bs => toI64 (hf bs)
/-- see `keyIk` (packed_ordered_hash_util.h 183-256). -/
def keySk : Key → Option (List UInt8)
  | .int _ => none
  | .str bs => some bs

/-- The first unset position: packed_ordered_hash_util.h:380-381.  `k` is the number of nodes left. -/
def firstUnset (w : W α) : Nat → Nat → CRes Nat
  | 0, i => .ok i
  | k + 1, i => do
    let p ← get w w.pv i
    if p = nil32 then .ok i else firstUnset w k (i + 1)

/-- Raw copy of node `j` to slot `x` and update of the hash indexes: packed_ordered_hash_util.h:390-396 -/
def moveNode (w : W α) (j x : Nat) : CRes (W α) := do
  let p ← get w w.pv j
  let n ← get w w.nx j
  if x < w.cap then do
    let w ← setPrevLink { w with init := upd w.init x true, pv := upd w.pv x p, nx := upd w.nx x n, ik := upd w.ik x (w.ik j),
                                 sk := upd w.sk x (w.sk j), val := upd w.val x (w.val j) } p x
    setNextLink w n x
  else .error .oobWrite

/-- The copy loop of `Optimize`: packed_ordered_hash_util.h:385-401 -/
def optLoop : Nat → W α → Nat → Nat → CRes (W α × Nat)
  | 0, w, _, x => .ok (w, x)
  | k + 1, w, j, x => do
    let p ← get w w.pv j
    if p = nil32 then optLoop k w (j + 1) x
    else do
      let w ← moveNode w j x
      optLoop k w (j + 1) (x + 1)

/-- The cleanup loop `for (; Node != LastNode; Node++)`, as one update: packed_ordered_hash_util.h:404-410 -/
def optClean (w : W α) (x : Nat) : W α :=
  { w with
    pv := fun i => if x ≤ i ∧ i < w.pos then nil32 else w.pv i
    sk := fun i => if x ≤ i ∧ i < w.pos then none else w.sk i
    pos := w.used }

/-- `Optimize()`: packed_ordered_hash_util.h:375-413.  If there were no unset position the second loop would start
behind the end. -/
def optimize (w : W α) : CRes (W α) :=
  if w.pos = w.used then .ok w
  else do
    let i ← firstUnset w w.pos 0
    if i = w.pos then .error .oobRead
    else do
      let (w, x) ← optLoop (w.pos - (i + 1)) w (i + 1) i
      .ok (optClean w x)

/-- `ShouldOptimize()`: packed_ordered_hash_util.h:369-372, with the two thresholds of 521-522 -/
def shouldOptimize (w : W α) : Bool := decide (w.used < w.cap / 2) && decide (w.cap - w.cap / 8 < w.pos)

/-- `while (n < m)  n <<= 1`: packed_ordered_hash_util.h:433, 477 -/
def growTo : Nat → Nat → Nat → CRes Nat
  | 0, _, _ => .error .diverges
  | k + 1, n, m => if n < m then growTo k (2 * n) m else .ok n

/-- An empty table of `n` slots: packed_ordered_hash_util.h:480-483, 515-524 -/
def emptyTable (n used : Nat) : W α :=
  { cap := n, init := fun _ => false, pv := fun _ => 0, nx := fun _ => 0, ik := fun _ => 0, sk := fun _ => none, val := fun _ => none
    tbl := List.replicate n nil32, mask := (n - 1) % 2 ^ 32, pos := used, used := used
    c90 := n - n / 10, r40 := n * 8 / 10 }

/-- The hash of a stored node: packed_ordered_hash_util.h:498 -/
def nodeHash (hf : List UInt8 → UInt64) (w : W α) (i : Nat) : CRes Nat := do
  let ik ← get w w.ik i
  let sk ← get w w.sk i
  match sk with
  | some _ => .ok (ofI64 ik)
  | none => .ok (hf (intBytes ik)).toNat

/-- Raw copy of node `i` of the old table to slot `x` of the new one: packed_ordered_hash_util.h:496-505 -/
def resMove (hf : List UInt8 → UInt64) (w w2 : W α) (i x : Nat) : CRes (W α) := do
  let h ← nodeHash hf w i
  attach { w2 with ik := upd w2.ik x (w.ik i), sk := upd w2.sk x (w.sk i), val := upd w2.val x (w.val i) } x h

/-- The loop of `InternalResizeHash` from the old table `w` into the new one: packed_ordered_hash_util.h:491-512 -/
def resLoop (hf : List UInt8 → UInt64) (w : W α) : Nat → W α → Nat → Nat → CRes (W α)
  | 0, w2, _, _ => .ok w2
  | k + 1, w2, i, x => do
    let p ← get w w.pv i
    if p = nil32 then resLoop hf w k w2 (i + 1) x
    else do
      let w2 ← resMove hf w w2 i x
      resLoop hf w k w2 (i + 1) (x + 1)

/-- `InternalResizeHash(NewHashSize)`: packed_ordered_hash_util.h:475-527 -/
def internalResize (hf : List UInt8 → UInt64) (w : W α) (n0 : Nat) : CRes (Bool × W α) := do
  let n ← growTo 64 n0 w.used
  if n = w.cap ∨ (n < 512 ∧ n < w.cap) then .ok (false, w)
  else do
    let w2 ← resLoop hf w w.pos (emptyTable n w.used) 0 0
    .ok (true, w2)

/-- `ResizeHash(NewHashSize)`: packed_ordered_hash_util.h:430-436 -/
def resize (hf : List UInt8 → UInt64) (w : W α) (m : Nat) : CRes (Bool × W α) := do
  let n ← growTo 64 1 m
  internalResize hf w n

/-- `AutoResizeHash()`: packed_ordered_hash_util.h:421-428 -/
def autoResize (hf : List UInt8 → UInt64) (w : W α) : CRes (Bool × W α) :=
  if w.used < w.c90 then do
    let w ← optimize w
    .ok (true, w)
  else if w.used < w.r40 then internalResize hf w (w.cap / 2)
  else if w.pos = w.cap then internalResize hf w (w.cap * 2)
  else .ok (false, w)

/-- The constructor: no array, then `ResizeHash(EstimatedSize)`.  packed_ordered_hash_util.h:25-30 -/
def construct (hf : List UInt8 → UInt64) (n : Nat) : CRes (W α) := do
  let (_, w) ← resize hf { (emptyTable 0 0 : W α) with mask := 0, c90 := 0, r40 := 0 } n
  .ok w

/-- `if (NextNodePos == NumNodes)  AutoResizeHash()`: packed_ordered_hash_util.h:192, 231 -/
def makeRoom (hf : List UInt8 → UInt64) (w : W α) : CRes (W α) :=
  if w.pos = w.cap then do
    let (_, w) ← autoResize hf w
    .ok w
  else .ok w

/-- A new node at the end of the array: packed_ordered_hash_util.h:194-211, 233-255.  The key members are stored before
the links (the code stores them after; nothing reads them in between). -/
def append (hf : List UInt8 → UInt64) (dflt : α) (w : W α) (k : Key) : CRes (Nat × W α) := do
  let w' ← attach { w with ik := upd w.ik w.pos (keyIk hf k), sk := upd w.sk w.pos (keySk k), val := upd w.val w.pos (some dflt) }
    w.pos (hashOf hf k).toNat
  .ok (w.pos, { w' with pos := w.pos + 1, used := w.used + 1 })

/-- `Set(IntKey)` and `Set(StrKey, StrLen)`: packed_ordered_hash_util.h:183-212, 222-256.  `dflt` is the value of `T()`. -/
def set (hf : List UInt8 → UInt64) (dflt : α) (w : W α) (k : Key) : CRes (Nat × W α) := do
  let r ← find hf w k
  match r with
  | some x => .ok (x, w)
  | none => do
    let w ← makeRoom hf w
    append hf dflt w k

/-- `Set(Key, Value)`: packed_ordered_hash_util.h:214-220, 258-264 -/
def setV (hf : List UInt8 → UInt64) (dflt : α) (w : W α) (k : Key) (v : α) : CRes (Nat × W α) := do
  let (x, w) ← set hf dflt w k
  let _ ← getVal w x
  .ok (x, { w with val := upd w.val x (some v) })

/-- `Unset(Node)`: packed_ordered_hash_util.h:276-298 -/
def unset (w : W α) (node : Option Nat) : CRes (Bool × W α) :=
  match node with
  | none => .ok (false, w)
  | some x => do
    let p ← get w w.pv x
    if p = nil32 then .ok (false, w)
    else do
      let n ← get w w.nx x
      let w ← setNextLink w n p
      let w ← setPrevLink w p n
      .ok (true, { w with pv := upd w.pv x nil32, val := upd w.val x none, sk := upd w.sk x none, used := w.used - 1 })

/-- `Unset(IntKey)`, `Unset(StrKey, StrLen)`: packed_ordered_hash_util.h:266-274 -/
def unsetKey (hf : List UInt8 → UInt64) (w : W α) (k : Key) : CRes (Bool × W α) := do
  let r ← find hf w k
  unset w r

/-- `Get(Pos)`: packed_ordered_hash_util.h:301-304 -/
def getPos (w : W α) (i : Nat) : CRes (Option Nat) :=
  if w.pos ≤ i then .ok none
  else do
    let p ← get w w.pv i
    .ok (if p = nil32 then none else some i)

/-- The loop of `Next` from position `i`, with `k` nodes left: packed_ordered_hash_util.h:343-348 -/
def nextScan (w : W α) : Nat → Nat → CRes (Option Nat × Nat)
  | 0, i => .ok (none, i)
  | k + 1, i => do
    let p ← get w w.pv i
    if p = nil32 then nextScan w k (i + 1) else .ok (some i, i)

/-- `Next(Pos)`: packed_ordered_hash_util.h:338-349 -/
def next (w : W α) (i : Nat) : CRes (Option Nat × Nat) :=
  if w.pos ≤ i then nextScan w w.pos 0 else nextScan w (w.pos - (i + 1)) (i + 1)

/-- The loop of `Prev`: packed_ordered_hash_util.h:356-365 -/
def prevScan (w : W α) : Nat → CRes (Option Nat × Nat)
  | 0 => .ok (none, w.pos)
  | i + 1 => do
    let p ← get w w.pv i
    if p = nil32 then prevScan w i else .ok (some i, i)

/-- `Prev(Pos)`: packed_ordered_hash_util.h:352-366 -/
def prev (w : W α) (i : Nat) : CRes (Option Nat × Nat) := prevScan w (if w.pos < i then w.pos else i)

/-- Key and value of a node: packed_ordered_hash.h:27-29 -/
def getEntry (w : W α) (x : Nat) : CRes (Key × α) := do
  let ik ← get w w.ik x
  let sk ← get w w.sk x
  let v ← getVal w x
  match sk with
  | none => .ok (.int ik, v)
  | some bs => .ok (.str bs, v)

/-- Calling `Next` until it returns NULL (packed_ordered_hash_util.h 338-350). -/
def walkNext (w : W α) : Nat → Nat → CRes (List (Key × α))
  | 0, _ => .error .diverges
  | k + 1, i => do
    let (r, i) ← next w i
    match r with
    | none => .ok []
    | some x => do
      let e ← getEntry w x
      let rest ← walkNext w k i
      .ok (e :: rest)

/-- Calling `Prev` until it returns NULL (packed_ordered_hash_util.h 352-367). -/
def walkPrev (w : W α) : Nat → Nat → CRes (List (Key × α))
  | 0, _ => .error .diverges
  | k + 1, i => do
    let (r, i) ← prev w i
    match r with
    | none => .ok []
    | some x => do
      let e ← getEntry w x
      let rest ← walkPrev w k i
      .ok (e :: rest)

/-- Iteration from `GetNextPos()`: packed_ordered_hash_util.h:337, 351, 439 -/
def forward (w : W α) : CRes (List (Key × α)) := walkNext w (w.pos + 1) w.pos
/-- see `forward` (packed_ordered_hash_util.h 352-367). -/
def backward (w : W α) : CRes (List (Key × α)) := walkPrev w (w.pos + 1) w.pos

/-- All calls (packed_ordered_hash_util.h 183-441). -/
inductive Op (α : Type) where
  /-- `Set(Key, Value)` -/
  | set (k : Key) (v : α)
  /-- `Set(Key)`, returning the value of the node -/
  | touch (k : Key)
  | unset (k : Key)
  /-- `Find(Key)`, returning the value of the node -/
  | find (k : Key)
  | resize (n : Nat)
  | optimize
  | autoResize
  | size

/-- What a call returns.  Whether a resize did anything depends on the capacity and is not shown
(packed_ordered_hash_util.h 183-441). -/
inductive Ret (α : Type) where
  | void
  | val (v : Option α)
  | bool (b : Bool)
  | num (n : Nat)
  deriving DecidableEq, Repr

/-- One call (packed_ordered_hash_util.h 183-441). -/
def step (hf : List UInt8 → UInt64) (dflt : α) (w : W α) : Op α → CRes (Ret α × W α)
  | .set k v => do let (_, w) ← setV hf dflt w k v; .ok (.void, w)
  | .touch k => do
    let (x, w) ← set hf dflt w k
    let v ← getVal w x
    .ok (.val (some v), w)
  | .unset k => do let (b, w) ← unsetKey hf w k; .ok (.bool b, w)
  | .find k => do
    let r ← find hf w k
    match r with
    | none => .ok (.val none, w)
    | some x => do
      let v ← getVal w x
      .ok (.val (some v), w)
  | .resize n => do let (_, w) ← resize hf w n; .ok (.void, w)
  | .optimize => do let w ← optimize w; .ok (.bool true, w)
  | .autoResize => do let (_, w) ← autoResize hf w; .ok (.void, w)
  | .size => .ok (.num w.used, w)

/-- A history of calls (calls of packed_ordered_hash_util.h 183-441). -/
def run (hf : List UInt8 → UInt64) (dflt : α) : W α → List (Op α) → CRes (List (Ret α) × W α)
  | w, [] => .ok ([], w)
  | w, op :: ops => do
    let (r, w) ← step hf dflt w op
    let (rs, w) ← run hf dflt w ops
    .ok (r :: rs, w)

/-! ## Copying -/

/-- The copy of node `i` of the source: packed_ordered_hash_util.h:91-112 -/
def copyNode (w c : W α) (i : Nat) : CRes (W α) := do
  let p ← get w w.pv i
  let n ← get w w.nx i
  let ik ← get w w.ik i
  let sk ← get w w.sk i
  if i < c.cap then
    .ok { c with init := upd c.init i true, pv := upd c.pv i p, nx := upd c.nx i n, ik := upd c.ik i ik, sk := upd c.sk i sk
                 val := if p = nil32 then c.val else upd c.val i (w.val i) }
  else .error .oobWrite

/-- A pointer into the array of the source or of the copy (packed_ordered_hash_util.h 72-113). -/
inductive Ptr where
  | src (i : Nat)
  | dst (i : Nat)
  deriving DecidableEq, Repr

/-- The loop `while (Node != LastNode)` of the copy constructor; `Node` points into the source's array, `LastNode` into
the copy's.  packed_ordered_hash_util.h:87-113 -/
def copyLoop (w : W α) : Nat → W α → Nat → CRes (W α)
  | 0, _, _ => .error .diverges
  | k + 1, c, i =>
    if Ptr.src i = Ptr.dst w.pos then .ok c
    else do
      let c ← copyNode w c i
      copyLoop w k c (i + 1)

/-- The new object before the loop: packed_ordered_hash_util.h:74-85 -/
def copyStart (w : W α) : W α := { (emptyTable w.cap w.used : W α) with pos := w.pos, tbl := w.tbl }

/-- The copy constructor; the loop of `operator=` (lines 148-176) is the same text.  packed_ordered_hash_util.h:72-114 -/
def copy (w : W α) : CRes (W α) := copyLoop w (w.cap + 1) (copyStart w) 0

end Verif.PackedHash
