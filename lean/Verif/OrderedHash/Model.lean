import Verif.Links

/-!
# Model of `OrderedHash<T>` (templates/detachable_ordered_hash.h, templates/detachable_ordered_hash_util.h)

One hash object, and nodes that are in it or detached.  The heap is kept per member as in `Verif.Links`; the links of the
ordered list use the functions there (the code is the same text as in `List`).

The hash function is a parameter (`hf`): everything is proved for every function from bytes to numbers, so in particular
for DJBX33X and SipHash with any keys and for functions under which all keys collide.

Simplifications: `NumListNodes` does not wrap; `T` is copied by value; `new` succeeds; integer keys are mathematical
integers hashed through their 8 low bytes (two's complement, little endian); `SetStrKey` only with `CopyStr = true`,
`SetIntKey` only with `FreeStrKey = true` (the other forms are in `Verif.OrderedHash.KeyMem`); the `NextListNode` member is not written by the caller.
-/

namespace Verif.OrderedHash
open Verif.Links

variable {α : Type}

/-- A key as the caller sees it (detachable_ordered_hash.h 76-126). -/
inductive Key where
  | int (i : Int)
  | str (bs : List UInt8)
  deriving DecidableEq, Repr

/-- The table sizes at which the hash grows: detachable_ordered_hash.cpp:16-20 -/
def primes : List Nat :=
  [3, 5, 11, 23, 47, 97, 191, 383, 769, 1531, 3067, 6143, 12289, 24571, 49157, 98299,
   196613, 393209, 786431, 1572869, 3145721, 6291449, 12582917, 25165813, 50331653,
   100663291, 201326611, 402653189, 805306357, 1610612741, 3221225473]

/-- The `n` low bytes of a number, least significant first (detachable_ordered_hash_util.h 256-270). -/
def leBytes : Nat → Nat → List UInt8
  | 0, _ => []
  | n + 1, v => UInt8.ofNat (v % 256) :: leBytes n (v / 256)

/-- The memory of an `int64_t`: `(std::uint8_t *)&IntKey, sizeof(std::int64_t)` -/
def intBytes (i : Int) : List UInt8 := leBytes 8 (i % 2 ^ 64).toNat

/-- All of memory: nodes per member (detachable_ordered_hash.h:114-129) and the members of the hash object
(detachable_ordered_hash_util.h:543-550).  `tbl` is the array `HashNodes` of length `HashSize`. -/
structure W (α : Type) where
  /-- live nodes, `PrevListNode`, `NextListNode` -/
  lh : LH
  /-- `PrevHashNode` -/
  hp : Nat → Option Nat
  /-- `NextHashNode` -/
  hn : Nat → Option Nat
  /-- `HashKey` -/
  hk : Nat → Nat
  /-- `IntKey` -/
  ik : Nat → Int
  /-- `StrKey`: the allocated buffer -/
  sk : Nat → Option (List UInt8)
  /-- `Value` -/
  val : Nat → α
  /-- the next address `new` returns -/
  fresh : Nat
  tbl : List (Option Nat)
  npp : Nat
  ends : Ends
  num : Nat

/-- `x->PrevHashNode = v` (detachable_ordered_hash.h 18-130). -/
def setHp (w : W α) (x : Nat) (v : Option Nat) : CRes (W α) :=
  if w.lh.live x then .ok { w with hp := upd w.hp x v } else .error .badPtr
/-- `x->NextHashNode = v` (detachable_ordered_hash.h 18-130). -/
def setHn (w : W α) (x : Nat) (v : Option Nat) : CRes (W α) :=
  if w.lh.live x then .ok { w with hn := upd w.hn x v } else .error .badPtr
/-- `x->PrevHashNode` (detachable_ordered_hash.h 18-130). -/
def getHp (w : W α) (x : Nat) : CRes (Option Nat) := if w.lh.live x then .ok (w.hp x) else .error .badPtr
/-- `x->NextHashNode` (detachable_ordered_hash.h 18-130). -/
def getHn (w : W α) (x : Nat) : CRes (Option Nat) := if w.lh.live x then .ok (w.hn x) else .error .badPtr
/-- `x->HashKey` (detachable_ordered_hash.h 18-130). -/
def getHk (w : W α) (x : Nat) : CRes Nat := if w.lh.live x then .ok (w.hk x) else .error .badPtr
/-- `x->IntKey` (detachable_ordered_hash.h 18-130). -/
def getIk (w : W α) (x : Nat) : CRes Int := if w.lh.live x then .ok (w.ik x) else .error .badPtr
/-- `x->StrKey` (detachable_ordered_hash.h 18-130). -/
def getSk (w : W α) (x : Nat) : CRes (Option (List UInt8)) := if w.lh.live x then .ok (w.sk x) else .error .badPtr
/-- `if (p != NULL)  p->PrevHashNode = v` (detachable_ordered_hash_util.h 288-298, 352-362, 512-521). -/
def setHpOpt (w : W α) (p v : Option Nat) : CRes (W α) :=
  match p with
  | none => .ok w
  | some y => setHp w y v

/-- `HashKey % HashSize` (detachable_ordered_hash_util.h 288-298, 446-492). -/
def slot (w : W α) (h : Nat) : CRes Nat := if w.tbl.length = 0 then .error .divByZero else .ok (h % w.tbl.length)

/-- Reading `n` bytes of a buffer (detachable_ordered_hash_util.h 446-466). -/
def readBytes (buf : List UInt8) (n : Nat) : CRes (List UInt8) :=
  if n ≤ buf.length then .ok (buf.take n) else .error .oobRead

/-- A new node: detachable_ordered_hash.h:25-27, `CreateNode`, detachable_ordered_hash_util.h:215-235 -/
def createNode (w : W α) (k : Key) (v : α) : Nat × W α :=
  (w.fresh, { w with
    lh := { live := upd w.lh.live w.fresh true, pv := upd w.lh.pv w.fresh none, nx := upd w.lh.nx w.fresh none }
    hp := upd w.hp w.fresh none
    hn := upd w.hn w.fresh none
    hk := upd w.hk w.fresh 0
    ik := upd w.ik w.fresh (match k with | .int i => i | .str bs => (bs.length : Int))
    sk := upd w.sk w.fresh (match k with | .int _ => none | .str bs => some bs)
    val := upd w.val w.fresh v
    fresh := w.fresh + 1 })

/-- `delete Node` (detachable_ordered_hash_util.h 408-444). -/
def deleteNode (w : W α) (x : Nat) : CRes (W α) :=
  if w.lh.live x then .ok { w with lh := { w.lh with live := upd w.lh.live x false } } else .error .badPtr

/-- `SetIntKey(NewIntKey, true)`, detachable_ordered_hash.h:81-87 -/
def setIntKey (w : W α) (x : Nat) (i : Int) : CRes (W α) :=
  if w.lh.live x then .ok { w with hk := upd w.hk x 0, ik := upd w.ik x i, sk := upd w.sk x none } else .error .badPtr

/-- The buffer of `SetStrKey`: a new one if there is none or the old one is too small, then `memcpy`.
detachable_ordered_hash.h:101-109 -/
def copyStr (old : Option (List UInt8)) (ik : Int) (bs : List UInt8) : CRes (List UInt8) :=
  match old with
  | none => .ok bs
  | some buf => if ik < (bs.length : Int) then .ok bs else memcpyTo buf 0 bs bs.length

/-- `SetStrKey(NewStrKey, NewStrLen, true)`, detachable_ordered_hash.h:94-112 -/
def setStrKey (w : W α) (x : Nat) (bs : List UInt8) : CRes (W α) :=
  if w.lh.live x then do
    let buf ← copyStr (w.sk x) (w.ik x) bs
    .ok { w with hk := upd w.hk x 0, sk := upd w.sk x (some buf), ik := upd w.ik x (bs.length : Int) }
  else .error .badPtr

/-- `GetHashKey` of the key of a node: detachable_ordered_hash_util.h:263-264, 475-476 -/
def nodeHash (hf : List UInt8 → Nat) (w : W α) (x : Nat) : CRes Nat := do
  let sk ← getSk w x
  let ik ← getIk w x
  match sk with
  | some buf => do
    let bs ← readBytes buf ik.toNat
    .ok (hf bs)
  | none => .ok (hf (intBytes ik))

/-- The test for an integer key, negated: detachable_ordered_hash_util.h:452, 484 -/
def matchInt (w : W α) (i : Int) (x : Nat) : CRes Bool := do
  let sk ← getSk w x
  let ik ← getIk w x
  .ok (sk.isNone && decide (ik = i))

/-- The test for a string key, negated: detachable_ordered_hash_util.h:463, 488.  `memcmp` is only reached when the
lengths agree. -/
def matchStr (w : W α) (h : Nat) (bs : List UInt8) (x : Nat) : CRes Bool := do
  let sk ← getSk w x
  let hk ← getHk w x
  let ik ← getIk w x
  match sk with
  | none => .ok false
  | some buf =>
    if hk ≠ h then .ok false
    else if ik ≠ (bs.length : Int) then .ok false
    else do
      let b ← readBytes buf bs.length
      .ok (decide (b = bs))

/-- Walking a bucket until the test succeeds: detachable_ordered_hash_util.h:452, 463, 484, 488.  A walk of more nodes
than were ever created goes round in circles. -/
def findLoop (w : W α) (m : Nat → CRes Bool) : Nat → Option Nat → CRes (Option Nat)
  | 0, _ => .error .diverges
  | _ + 1, none => .ok none
  | k + 1, some x => do
    let b ← m x
    if b then .ok (some x)
    else do
      let n ← getHn w x
      findLoop w m k n

/-- The bucket of hash `h`, searched with test `m` (detachable_ordered_hash_util.h 446-492). -/
def findIn (w : W α) (h : Nat) (m : Nat → CRes Bool) : CRes (Option Nat) := do
  let b ← slot w h
  let first ← rd w.tbl b
  findLoop w m (w.fresh + 1) first

/-- `Find(IntKey)` and `Find(StrKey, StrLen)`, detachable_ordered_hash_util.h:446-466 -/
def find (hf : List UInt8 → Nat) (w : W α) : Key → CRes (Option Nat)
  | .int i => findIn w (hf (intBytes i)) (matchInt w i)
  | .str bs => findIn w (hf bs) (matchStr w (hf bs) bs)

/-- The hash of `FindNode`: detachable_ordered_hash_util.h:472-477 -/
def cachedHash (hf : List UInt8 → Nat) (w : W α) (x : Nat) : CRes Nat := do
  let h ← getHk w x
  if h ≠ 0 then .ok h else nodeHash hf w x

/-- `Find(FindNode)`, detachable_ordered_hash_util.h:468-492 -/
def findNode (hf : List UInt8 → Nat) (w : W α) (x : Nat) : CRes (Option Nat) := do
  let h ← cachedHash hf w x
  let sk ← getSk w x
  let ik ← getIk w x
  match sk with
  | none => findIn w h (matchInt w ik)
  | some buf => do
    let bs ← readBytes buf ik.toNat
    findIn w h (matchStr w h bs)

/-- Put a node at the head of its bucket: detachable_ordered_hash_util.h:292-295, 356-359, 515-518 -/
def attachHash (w : W α) (x : Nat) : CRes (W α) := do
  let h ← getHk w x
  let b ← slot w h
  let first ← rd w.tbl b
  let w ← setHn w x first
  let w ← setHpOpt w first (some x)
  let t ← wr w.tbl b (some x)
  .ok { w with tbl := t }

/-- The loop of `ResizeHash` over the ordered list: detachable_ordered_hash_util.h:511-521 -/
def rehashLoop : Nat → W α → Option Nat → CRes (W α)
  | 0, _, _ => .error .diverges
  | _ + 1, w, none => .ok w
  | k + 1, w, some x => do
    let w ← setHp w x none
    let w ← attachHash w x
    let n ← getNx w.lh x
    rehashLoop k w n

/-- The position of the first prime above the new size: detachable_ordered_hash_util.h:524-525 -/
def nextPrimePos (n : Nat) : Nat := (primes.takeWhile fun p => decide (p ≤ n)).length

/-- `ResizeHash(NewHashSize)`, detachable_ordered_hash_util.h:494-528 -/
def resize (w : W α) (n : Nat) : CRes (Bool × W α) :=
  if n = 0 then .ok (false, w)
  else do
    let w ← rehashLoop (w.fresh + 1) { w with tbl := List.replicate n none } w.ends.first
    .ok (true, { w with npp := nextPrimePos n })

/-- The constructor: an empty table, then `ResizeHash(EstimatedSize)`.  detachable_ordered_hash_util.h:25-28 -/
def construct (dflt : α) (n : Nat) : W α :=
  { lh := { live := fun _ => false, pv := fun _ => none, nx := fun _ => none }
    hp := fun _ => none, hn := fun _ => none, hk := fun _ => 0, ik := fun _ => 0, sk := fun _ => none
    val := fun _ => dflt, fresh := 0
    tbl := List.replicate n none, npp := if n = 0 then 0 else nextPrimePos n, ends := ⟨none, none⟩, num := 0 }

/-- The end of an insertion: resize or put the node in its bucket.  detachable_ordered_hash_util.h:288-295, 352-359 -/
def growOrAttach (w : W α) (x : Nat) : CRes (W α) :=
  match primes[w.npp]? with
  | some p =>
    if p ≤ w.num then do
      let (_, w) ← resize w p
      .ok w
    else attachHash w x
  | none => attachHash w x

/-- `Node->PrevHashNode != NULL || Node->NextHashNode != NULL`: detachable_ordered_hash_util.h:258, 322 -/
def attachedTest (w : W α) (x : Nat) : CRes Bool := do
  let p ← getHp w x
  if p.isSome then .ok true
  else do
    let n ← getHn w x
    .ok n.isSome

/-- Calculate and cache the hash key: detachable_ordered_hash_util.h:261-265, 325-329 -/
def cacheHash (hf : List UInt8 → Nat) (w : W α) (x : Nat) : CRes (W α) := do
  let h ← cachedHash hf w x
  .ok { w with hk := upd w.hk x h }

/-- Put the node in the ordered list, count it, and put it in the table
(detachable_ordered_hash_util.h 256-299, 320-363). -/
def attachList (w : W α) (x : Nat) (r : CRes (LH × Ends)) : CRes (W α) := do
  let (lh, e) ← r
  growOrAttach { w with lh := lh, ends := e, num := w.num + 1 } x

/-- The common body of `InsertBefore(Next, Node)` and `InsertAfter(Prev, Node)`; `link` is the list part.
detachable_ordered_hash_util.h:256-299, 320-363 -/
def insertN (hf : List UInt8 → Nat) (w : W α) (x : Nat) (link : LH → Ends → CRes (LH × Ends)) :
    CRes (Option Nat × W α) := do
  let b ← attachedTest w x
  if b then .ok (none, w)
  else do
    let w ← cacheHash hf w x
    let f ← findNode hf w x
    if f.isSome then .ok (none, w)
    else do
      let w ← attachList w x (link w.lh w.ends)
      .ok (some x, w)

/-- `InsertBefore(Next, Node)` / `InsertAfter(Prev, Node)` (detachable_ordered_hash_util.h 256-299, 320-363). -/
def linkOf (after : Bool) (at_ : Option Nat) (x : Nat) (lh : LH) (e : Ends) : CRes (LH × Ends) :=
  if after then linkAfter lh e at_ x else linkBefore lh e at_ x

/-- Insertion of a key and value: create, insert, delete if refused.
detachable_ordered_hash_util.h:237-253, 301-317 -/
def insertV (hf : List UInt8 → Nat) (w : W α) (after : Bool) (at_ : Option Nat) (k : Key) (v : α) :
    CRes (Option Nat × W α) := do
  let (r, w') ← insertN hf (createNode w k v).2 (createNode w k v).1 (linkOf after at_ (createNode w k v).1)
  match r with
  | some x => .ok (some x, w')
  | none => do
    let w' ← deleteNode w' (createNode w k v).1
    .ok (none, w')

/-- `NumListNodes--` on a `size_t` (detachable_ordered_hash_util.h 366-406). -/
def dec (n : Nat) : Nat := if n = 0 then 2 ^ 64 - 1 else n - 1

/-- Taking a node out of its bucket, first half: detachable_ordered_hash_util.h:395-396 -/
def unhashPrev (w : W α) (x b : Nat) : CRes (W α) := do
  let p ← getHp w x
  let n ← getHn w x
  match p with
  | some y => setHn w y n
  | none => do
    let first ← rd w.tbl b
    if first = some x then do
      let t ← wr w.tbl b n
      .ok { w with tbl := t }
    else .ok w

/-- Taking a node out of its bucket: detachable_ordered_hash_util.h:394-401 -/
def unhash (w : W α) (x : Nat) : CRes (W α) := do
  let h ← getHk w x
  let b ← slot w h
  let w ← unhashPrev w x b
  let n ← getHn w x
  let p ← getHp w x
  let w ← setHpOpt w n p
  let w ← setHp w x none
  setHn w x none

/-- `Detach(Node, ResetHashKey)`, detachable_ordered_hash_util.h:366-406 -/
def detach (w : W α) (node : Option Nat) (reset : Bool) : CRes (Bool × W α) :=
  match node with
  | none => .ok (false, w)
  | some x => do
    let (lh, e) ← unlink w.lh w.ends x
    let w ← unhash { w with lh := lh, ends := e, num := dec w.num } x
    .ok (true, if reset then { w with hk := upd w.hk x 0 } else w)

/-- `Remove(Node)`, detachable_ordered_hash_util.h:408-415 -/
def remove (w : W α) (node : Option Nat) : CRes (Bool × W α) := do
  let (b, w) ← detach w node false
  match b, node with
  | true, some x => do
    let w ← deleteNode w x
    .ok (true, w)
  | _, _ => .ok (false, w)

/-- The loop of `Empty(true)`: detachable_ordered_hash_util.h:421-435 -/
def emptyLoop : Nat → W α → Option Nat → CRes (W α)
  | 0, _, _ => .error .diverges
  | _ + 1, w, none => .ok w
  | k + 1, w, some x => do
    let n ← getNx w.lh x
    let w ← deleteNode w x
    emptyLoop k w n

/-- `Empty()` with `DeleteNodes`: detachable_ordered_hash_util.h:417-444 -/
def empty (w : W α) : CRes (W α) := do
  let w ← emptyLoop (w.fresh + 1) w w.ends.first
  .ok { w with tbl := List.replicate w.tbl.length none, ends := ⟨none, none⟩, num := 0 }

/-- The destructor: `Empty()` if there is a table.  detachable_ordered_hash_util.h:42-54 -/
def destroy (w : W α) : CRes (W α) := if w.tbl.length = 0 then .ok w else empty w

/-- The loop of `Empty(false, ResetHashKey)`: detachable_ordered_hash_util.h:421-435 -/
def releaseLoop (reset : Bool) : Nat → W α → Option Nat → CRes (W α)
  | 0, _, _ => .error .diverges
  | _ + 1, w, none => .ok w
  | k + 1, w, some x => do
    let n ← getNx w.lh x
    let w ← setHp w x none
    let w ← setHn w x none
    releaseLoop reset k (if reset then { w with hk := upd w.hk x 0 } else w) n

/-- `Empty(false, ResetHashKey)`: detachable_ordered_hash_util.h:417-444 -/
def release (w : W α) (reset : Bool) : CRes (W α) := do
  let w ← releaseLoop reset (w.fresh + 1) w w.ends.first
  .ok { w with tbl := List.replicate w.tbl.length none, ends := ⟨none, none⟩, num := 0 }

/-- All calls.  `Push` is `insert false none`, `Unshift` is `insert true none` (detachable_ordered_hash_util.h:162-200). -/
inductive Op (α : Type) where
  | create (k : Key) (v : α)
  | delete (x : Nat)
  | setKey (x : Nat) (k : Key)
  | setValue (x : Nat) (v : α)
  /-- insert next to a node (NULL: at the end / at the front) a new node -/
  | insert (after : Bool) (at_ : Option Nat) (k : Key) (v : α)
  /-- the same with a detached node -/
  | insertNode (after : Bool) (at_ : Option Nat) (x : Nat)
  | pop (reset : Bool)
  | shift (reset : Bool)
  | detach (x : Option Nat) (reset : Bool)
  | remove (x : Option Nat)
  | empty
  /-- `Empty(false, ResetHashKey)` -/
  | release (reset : Bool)
  | find (k : Key)
  | findNode (x : Nat)
  | resize (n : Nat)
  | size

/-- What a call returns (detachable_ordered_hash_util.h 162-536). -/
inductive Ret where
  | void
  | node (x : Option Nat)
  | bool (b : Bool)
  | num (n : Nat)
  deriving DecidableEq, Repr

/-- One call (detachable_ordered_hash_util.h 162-536). -/
def step (hf : List UInt8 → Nat) (w : W α) : Op α → CRes (Ret × W α)
  | .create k v => .ok (.node (some (createNode w k v).1), (createNode w k v).2)
  | .delete x => do let w ← deleteNode w x; .ok (.void, w)
  | .setKey x (.int i) => do let w ← setIntKey w x i; .ok (.void, w)
  | .setKey x (.str bs) => do let w ← setStrKey w x bs; .ok (.void, w)
  | .setValue x v => if w.lh.live x then .ok (.void, { w with val := upd w.val x v }) else .error .badPtr
  | .insert a n k v => do let (r, w) ← insertV hf w a n k v; .ok (.node r, w)
  | .insertNode a n x => do let (r, w) ← insertN hf w x (linkOf a n x); .ok (.node r, w)
  | .pop reset => do let (_, w') ← detach w w.ends.last reset; .ok (.node w.ends.last, w')
  | .shift reset => do let (_, w') ← detach w w.ends.first reset; .ok (.node w.ends.first, w')
  | .detach x reset => do let (b, w) ← detach w x reset; .ok (.bool b, w)
  | .remove x => do let (b, w) ← remove w x; .ok (.bool b, w)
  | .empty => do let w ← empty w; .ok (.void, w)
  | .release reset => do let w ← release w reset; .ok (.void, w)
  | .find k => do let r ← find hf w k; .ok (.node r, w)
  | .findNode x => do let r ← findNode hf w x; .ok (.node r, w)
  | .resize n => do let (b, w) ← resize w n; .ok (.bool b, w)
  | .size => .ok (.num w.num, w)

/-- A history of calls (calls of detachable_ordered_hash_util.h 162-536). -/
def run (hf : List UInt8 → Nat) : W α → List (Op α) → CRes (List Ret × W α)
  | w, [] => .ok ([], w)
  | w, op :: ops => do
    let (r, w) ← step hf w op
    let (rs, w) ← run hf w ops
    .ok (r :: rs, w)

/-- The key of a node as `GetStrKey`/`GetIntKey` show it: detachable_ordered_hash.h:76-77 -/
def getKey (w : W α) (x : Nat) : CRes Key := do
  let sk ← getSk w x
  let ik ← getIk w x
  match sk with
  | none => .ok (.int ik)
  | some buf => do
    let bs ← readBytes buf ik.toNat
    .ok (.str bs)

/-- Walking with `NextList()`: key and value of every node.  detachable_ordered_hash.h:75 -/
def walkNext : Nat → W α → Option Nat → CRes (List (Nat × Key × α))
  | 0, _, _ => .error .diverges
  | _ + 1, _, none => .ok []
  | k + 1, w, some x => do
    let key ← getKey w x
    let n ← getNx w.lh x
    let rest ← walkNext k w n
    .ok ((x, key, w.val x) :: rest)

/-- Walking with `PrevList()`: detachable_ordered_hash.h:74 -/
def walkPrev : Nat → W α → Option Nat → CRes (List (Nat × Key × α))
  | 0, _, _ => .error .diverges
  | _ + 1, _, none => .ok []
  | k + 1, w, some x => do
    let key ← getKey w x
    let n ← getPv w.lh x
    let rest ← walkPrev k w n
    .ok ((x, key, w.val x) :: rest)

/-- From `FirstList()` forwards, detachable_ordered_hash_util.h:533 -/
def forward (w : W α) : CRes (List (Nat × Key × α)) := walkNext (w.fresh + 1) w w.ends.first

/-- From `LastList()` backwards, detachable_ordered_hash_util.h:534 -/
def backward (w : W α) : CRes (List (Nat × Key × α)) := walkPrev (w.fresh + 1) w w.ends.last

/-- The copy constructor of the node: key, hash key and value are copied, `PrevListNode` keeps whatever was in memory
(`junk`); the caller stores `NextListNode`, `PrevHashNode` and `NextHashNode`.  detachable_ordered_hash.h:35-48,
detachable_ordered_hash_util.h:79-80 -/
def cloneNode (junk : Option Nat) (w : W α) (x : Nat) : CRes (W α) := do
  let sk ← getSk w x
  let ik ← getIk w x
  let sk' ← match sk with
    | none => Except.ok none
    | some buf => do
      let bs ← readBytes buf ik.toNat
      Except.ok (some bs)
  .ok { w with
    lh := { live := upd w.lh.live w.fresh true, pv := upd w.lh.pv w.fresh junk, nx := upd w.lh.nx w.fresh none }
    hp := upd w.hp w.fresh none
    hn := upd w.hn w.fresh none
    hk := upd w.hk w.fresh (w.hk x)
    ik := upd w.ik w.fresh ik
    sk := upd w.sk w.fresh sk'
    val := upd w.val w.fresh (w.val x)
    fresh := w.fresh + 1 }

/-- The clone `y` goes to the end of the copy's list: detachable_ordered_hash_util.h:82-89 -/
def copyLink (w : W α) (y : Nat) : CRes (W α) :=
  match w.ends.first with
  | none => .ok { w with ends := ⟨some y, some y⟩ }
  | some f =>
    match w.ends.last with
    | none => .error .nullDeref
    | some l => do
      let lh ← setPv w.lh y (some l)
      let lh ← setNx lh l (some y)
      .ok { w with lh := lh, ends := ⟨some f, some y⟩ }

/-- The clone gets its hash links, but the table slot is not written: detachable_ordered_hash_util.h:92-95 -/
def copyHash (w : W α) (y : Nat) : CRes (W α) := do
  let h ← getHk w y
  let b ← slot w h
  let first ← rd w.tbl b
  let w ← setHn w y first
  setHpOpt w first (some y)

/-- The loop of the copy constructor: detachable_ordered_hash_util.h:76-98 -/
def copyLoop (junk : Option Nat) : Nat → W α → Option Nat → CRes (W α)
  | 0, _, _ => .error .diverges
  | _ + 1, w, none => .ok w
  | k + 1, w, some x => do
    let y := w.fresh
    let w ← cloneNode junk w x
    let w ← copyLink w y
    let w ← copyHash w y
    let n ← getNx w.lh x
    copyLoop junk k w n

/-- The copy constructor: the result has the same memory plus the clones, and the *new* object as its table and list;
the source object keeps its own (it is not touched).  detachable_ordered_hash_util.h:60-101 -/
def copy (junk : Option Nat) (w : W α) : CRes (W α) := do
  let c ← copyLoop junk (w.fresh + 1) { w with tbl := List.replicate w.tbl.length none, ends := ⟨none, none⟩ } w.ends.first
  .ok c

/-- `new OrderedHashNode<T>(*Node)` for a node of another hash: as `cloneNode`, the new node being one of `t`.
detachable_ordered_hash.h:35-48, detachable_ordered_hash_util.h:129-130 -/
def cloneFrom (junk : Option Nat) (w t : W α) (x : Nat) : CRes (W α) := do
  let sk ← getSk w x
  let ik ← getIk w x
  let sk' ← match sk with
    | none => Except.ok none
    | some buf => do
      let bs ← readBytes buf ik.toNat
      Except.ok (some bs)
  .ok { t with
    lh := { live := upd t.lh.live t.fresh true, pv := upd t.lh.pv t.fresh junk, nx := upd t.lh.nx t.fresh none }
    hp := upd t.hp t.fresh none
    hn := upd t.hn t.fresh none
    hk := upd t.hk t.fresh (w.hk x)
    ik := upd t.ik t.fresh ik
    sk := upd t.sk t.fresh sk'
    val := upd t.val t.fresh (w.val x)
    fresh := t.fresh + 1 }

/-- The loop of `operator=` over the nodes of the source `w`: detachable_ordered_hash_util.h:126-149 -/
def assignLoop (junk : Option Nat) (w : W α) : Nat → W α → Option Nat → CRes (W α)
  | 0, _, _ => .error .diverges
  | _ + 1, t, none => .ok t
  | k + 1, t, some x => do
    let y := t.fresh
    let t ← cloneFrom junk w t x
    let t ← copyLink t y
    let t ← copyHash t y
    let n ← getNx w.lh x
    assignLoop junk w k t n

/-- `t = w` for different hashes: the nodes of the target are deleted (the same loop as in `Empty`), then those of the source
are cloned.  The nodes of the two hashes are different objects, so each hash has its own numbering.
detachable_ordered_hash_util.h:103-158 -/
def assign (junk : Option Nat) (t w : W α) : CRes (W α) := do
  let t ← emptyLoop (t.fresh + 1) t t.ends.first
  let t ← assignLoop junk w (w.fresh + 1) { t with tbl := List.replicate w.tbl.length none, ends := ⟨none, none⟩ } w.ends.first
  .ok { t with npp := w.npp, num := w.num }

end Verif.OrderedHash
