import Verif.FastFind.Model

/-!
# Model of a `FastReplace` object used by hand (templates/fast_find_replace_util.h 396-654)

`ReplaceAll` is the loop the library offers; a caller can write the loop with `FindNext` and `Replace`, decide at each
match what to do, and take the block with `DetachData`.  First the loop, then the object with the blocks it owns.
-/

namespace Verif.FastFind

variable {α : Type} [DecidableEq α]

/-- `FastReplace::Replace` with a `PostPatternSize` (fast_find_replace_util.h 597-632). -/
def replaceAt (alloc : Bool) (r : Repl α) (w : List α) (post : Nat) : CRes (Repl α) := do
  let r ← replPut alloc r w
  let (c, f) ← skipMatch r.find post
  let c ← ptr c
  .ok { r with find := f, srcCurr := if c > r.srcEnd then r.srcEnd else c }

/-- The caller's loop: `FindNext` until NULL; `choose i` says what is done with the match at position `i`: left alone, or
replaced by some text, passing over that many further elements (calls of fast_find_replace_util.h 543-632). -/
def editLoop (eq : α → α → Bool) (alloc um : Bool) (choose : Nat → Option (List α × Nat)) :
    Nat → Repl α → CRes (Repl α)
  | 0, _ => .error .diverges
  | k + 1, r => do
    let (p, r) ← replFindNext eq alloc um r
    match p with
    | none => .ok r
    | some i =>
      match choose i with
      | none => editLoop eq alloc um choose k r
      | some (w, n) => do
        let r ← replaceAt alloc r w n
        editLoop eq alloc um choose k r

/-- `SetPattern`, `SetGrowthSize`, `SetExtraAlloc`, `SetData`, the loop: the block and `GetDataSize` afterwards
(fast_find_replace_util.h 463-652). -/
def edit (eq : α → α → Bool) (alloc um : Bool) (choose : Nat → Option (List α × Nat)) (d p : List α) (g extra : Nat) :
    CRes (List (Option α) × Nat) := do
  let f ← setPattern eq Find.init p
  let r ← editLoop eq alloc um choose (d.length + 1) (replSetData f g extra d none)
  .ok (r.buf, r.dataPos)

/-! ## The blocks -/

/-- `MxData` when it is not NULL: a block of the object's own, or the caller's buffer (fast_find_replace_util.h 526-540). -/
inductive Blk where
  | own (b : Nat)
  | user
  deriving DecidableEq

/-- The object (members as in `Repl`; `blk = none` is `MxData == NULL`), whether each block ever allocated is still
there, and the blocks that `DetachData` has given to the caller (fast_find_replace_util.h 396-654). -/
structure Own (α : Type) where
  r : Repl α
  blk : Option Blk
  live : List Bool
  given : List Nat

/-- The constructor (fast_find_replace_util.h 426-436).  The members it does not set are without meaning until `SetData`. -/
def Own.init : Own α := ⟨⟨Find.init, 1024, 1, 0, 0, [], false, [], 0, 0⟩, none, [], []⟩

/-- Returning a block to the system (fast_find_replace_util.h 455-457, 472, 494, 567, 613). -/
def release (live : List Bool) (b : Nat) : CRes (List Bool) :=
  if live[b]? = some true then .ok (live.set b false) else .error .badPtr

/-- `if (MxData != NULL && MxDataAllocated)` and freeing (fast_find_replace_util.h 452-459, 470-475, 492-497). -/
def drop (o : Own α) : CRes (Own α) :=
  match o.blk with
  | some (.own b) =>
    if o.r.allocated then do
      let l ← release o.live b
      .ok { o with blk := none, live := l }
    else .ok o
  | _ => .ok o

/-- The result moved to a new block: `realloc`, or `new`, `memcpy` and `delete` (fast_find_replace_util.h 563-570,
609-616). -/
def move (o : Own α) : CRes (Own α) :=
  match o.blk with
  | some (.own b) => do
    let l ← release o.live b
    .ok { o with blk := some (.own o.live.length), live := l ++ [true] }
  | _ => .error .badPtr

/-- `SetPattern` (fast_find_replace_util.h 463-505). -/
def ownSetPattern (eq : α → α → Bool) (o : Own α) (p : List α) : CRes (Own α) := do
  let o ← drop o
  let f ← setPattern eq o.r.find p
  .ok { o with r := { o.r with find := f } }

/-- `SetData` (fast_find_replace_util.h 518-541). -/
def ownSetData (o : Own α) (d : List α) (res : Option (List (Option α))) : Own α :=
  let r := replSetData o.r.find o.r.growth o.r.extra d res
  match res with
  | none => { o with r := r, blk := some (.own o.live.length), live := o.live ++ [true] }
  | some _ => { o with r := r, blk := some .user }

/-- Whether `FindNext` moves the result, given what the search found (fast_find_replace_util.h 556-561). -/
def movesAt (r : Repl α) (np : Option Nat) : Bool :=
  let dist := (match np with | none => r.srcEnd | some i => i) - r.srcCurr
  r.allocated && (decide (r.dataSize < r.dataPos + dist) || np.isNone)

/-- `FindNext` (fast_find_replace_util.h 543-595).  Without a block it would copy to NULL. -/
def ownFindNext (eq : α → α → Bool) (alloc um : Bool) (o : Own α) : CRes (Option Nat × Own α) := do
  if o.blk = none then .error .nullDeref
  else do
    let (np, _) ← findNext eq um o.r.find
    let m := movesAt o.r np
    let (np, r) ← replFindNext eq alloc um o.r
    let o ← if m then move o else .ok o
    .ok (np, { o with r := r })

/-- `Replace` (fast_find_replace_util.h 597-632). -/
def ownReplace (alloc : Bool) (o : Own α) (w : List α) (post : Nat) : CRes (Own α) := do
  if o.blk = none then .error .nullDeref
  else do
    let m := o.r.allocated && decide (w.length ≠ 0) && decide (o.r.dataSize < o.r.dataPos + w.length)
    let r ← replaceAt alloc o.r w post
    let o ← if m then move o else .ok o
    .ok { o with r := r }

/-- `DetachData` (fast_find_replace_util.h 640-647): a block of the object's own is the caller's from now on. -/
def ownDetach (o : Own α) : Own α :=
  match o.blk with
  | some (.own b) => { o with blk := none, given := b :: o.given }
  | _ => { o with blk := none }

/-- What can be done with an object (fast_find_replace_util.h 438-652); `free b` is the caller freeing a block that was
given away. -/
inductive OwnOp (α : Type) where
  | setPattern (p : List α)
  | setGrowth (n : Nat)
  | setExtra (n : Nat)
  | setData (d : List α) (res : Option (List (Option α)))
  | findNext (um : Bool)
  | replace (w : List α) (post : Nat)
  | detach
  | free (b : Nat)

/-- One call (fast_find_replace_util.h 463-652). -/
def ownStep (eq : α → α → Bool) (alloc : Bool) (o : Own α) : OwnOp α → CRes (Option Nat × Own α)
  | .setPattern p => do
    let o ← ownSetPattern eq o p
    .ok (none, o)
  | .setGrowth n => .ok (none, { o with r := { o.r with growth := n } })       -- lines 507-510
  | .setExtra n => .ok (none, { o with r := { o.r with extra := n } })         -- lines 512-515
  | .setData d res => .ok (none, ownSetData o d res)
  | .findNext um => ownFindNext eq alloc um o
  | .replace w post => do
    let o ← ownReplace alloc o w post
    .ok (none, o)
  | .detach => .ok (none, ownDetach o)
  | .free b => do
    let l ← release o.live b
    .ok (none, { o with live := l, given := o.given.erase b })

/-- The destructor (fast_find_replace_util.h 438-460). -/
def ownDestroy (o : Own α) : CRes (Own α) := drop o

end Verif.FastFind
