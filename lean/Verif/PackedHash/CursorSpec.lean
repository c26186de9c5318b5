import Verif.PackedHash.CursorModel
import Verif.PackedHash.Spec

/-!
# Specification of positions

A position is on an entry, or where an entry was that has been unset: then there are entries before and behind it.  Or it is
behind the last entry, or nowhere.
-/

namespace Verif.PackedHash.Spec
open Verif.OrderedHash (Key)

variable {α : Type}

/-- The entries in their order, with the position. -/
inductive Cur (α : Type) where
  /-- nowhere: the result of a search that failed -/
  | off (s : List (Key × α))
  /-- behind the last entry -/
  | fin (s : List (Key × α))
  /-- between `lo` and `hi`, on the entry `here` or on the place of one that has been unset -/
  | on (lo : List (Key × α)) (here : Option (Key × α)) (hi : List (Key × α))
  deriving DecidableEq

/-- All entries. -/
def Cur.all : Cur α → List (Key × α)
  | .off s => s
  | .fin s => s
  | .on lo here hi => lo ++ here.toList ++ hi

/-- The entry at the position. -/
def Cur.get : Cur α → Option (Key × α)
  | .on _ here _ => here
  | _ => none

/-- Change entries in their places. -/
def Cur.map (f : Key × α → Key × α) : Cur α → Cur α
  | .off s => .off (s.map f)
  | .fin s => .fin (s.map f)
  | .on lo here hi => .on (lo.map f) (here.map f) (hi.map f)

/-- Keep some of the entries. -/
def Cur.filter (p : Key × α → Bool) : Cur α → Cur α
  | .off s => .off (s.filter p)
  | .fin s => .fin (s.filter p)
  | .on lo here hi => .on (lo.filter p) (here.filter p) (hi.filter p)

/-- A new entry comes behind all others; a position that was behind the last one is on it now. -/
def Cur.add (e : Key × α) : Cur α → Cur α
  | .off s => .off (s ++ [e])
  | .fin s => .on s (some e) []
  | .on lo here hi => .on lo here (hi ++ [e])

/-- The first of these entries. -/
def first (s : List (Key × α)) : Cur α :=
  match s with
  | [] => .fin []
  | e :: t => .on [] (some e) t

/-- The last of the entries `lo`; `hi` are the ones behind them. -/
def last (lo hi : List (Key × α)) : Cur α :=
  match lo.getLast? with
  | none => .fin hi
  | some e => .on lo.dropLast (some e) hi

/-- To the next entry; behind the last one comes the end, and after that the first. -/
def Cur.next : Cur α → Cur α
  | .off s => first s
  | .fin s => first s
  | .on lo here [] => .fin (lo ++ here.toList)
  | .on lo here (e :: hi) => .on (lo ++ here.toList) (some e) hi

/-- To the previous entry; before the first comes the end, and after that the last. -/
def Cur.prev : Cur α → Cur α
  | .off s => last s []
  | .fin s => last s []
  | .on lo here hi => last lo (here.toList ++ hi)

/-- To the entry with a key. -/
def Cur.seek (k : Key) (c : Cur α) : Cur α :=
  match c.all.dropWhile (fun e => decide (e.1 ≠ k)) with
  | [] => .off c.all
  | e :: hi => .on (c.all.takeWhile fun e => decide (e.1 ≠ k)) (some e) hi

/-- The entries after a call. -/
def Cur.call (dflt : α) (c : Cur α) : Op α → Cur α
  | .set k v => if (lookup c.all k).isSome then c.map fun e => if e.1 = k then (k, v) else e else c.add (k, v)
  | .touch k => if (lookup c.all k).isSome then c else c.add (k, dflt)
  | .unset k => c.filter fun e => decide (e.1 ≠ k)
  | _ => c

/-- What a call returns. -/
def ret (dflt : α) (s : List (Key × α)) : Op α → Ret α
  | .set _ _ => .void
  | .touch k => .val (some ((lookup s k).getD dflt))
  | .unset k => .bool (lookup s k).isSome
  | .find k => .val (lookup s k)
  | .resize _ => .void
  | .optimize => .bool true
  | .autoResize => .void
  | .size => .num s.length

/-- What an action returns, and the entries and the position after it. -/
def Cur.step (dflt : α) (c : Cur α) : CAct α → CRet α × Cur α
  | .start => (.void, .fin c.all)
  | .next => (.node c.next.get, c.next)
  | .prev => (.node c.prev.get, c.prev)
  | .get => (.node c.get, c)
  | .unsetHere => (.bool c.get.isSome, match c with | .on lo _ hi => .on lo none hi | c => c)
  | .setHere v => (.bool c.get.isSome, match c with | .on lo here hi => .on lo (here.map fun e => (e.1, v)) hi | c => c)
  | .seek k => (.node (c.seek k).get, c.seek k)
  | .call op => (.ret (ret dflt c.all op), c.call dflt op)

/-- A sequence of actions. -/
def Cur.run (dflt : α) : Cur α → List (CAct α) → List (CRet α) × Cur α
  | c, [] => ([], c)
  | c, a :: as => ((c.step dflt a).1 :: ((c.step dflt a).2.run dflt as).1, ((c.step dflt a).2.run dflt as).2)

/-- Is there an entry with this key? -/
def Cur.has (c : Cur α) (k : Key) : Bool := c.all.any fun e => decide (e.1 = k)

/-- The key is there before, between and after all these actions. -/
def Cur.stays (dflt : α) (k : Key) : Cur α → List (CAct α) → Bool
  | c, [] => c.has k
  | c, a :: as => c.has k && (c.step dflt a).2.stays dflt k as

/-- The keys of the entries that the calls of `Next` (or of `Prev`) returned. -/
def seen (back : Bool) : List (CAct α) → List (CRet α) → List Key
  | a :: as, r :: rs =>
    match (if back then a matches .prev else a matches .next), r with
    | true, .node (some e) => e.1 :: seen back as rs
    | _, _ => seen back as rs
  | _, _ => []

/-- One way through the hash: the position is moved with `Next` (or with `Prev`) only, and exactly the last action is a call
that returned NULL. -/
def through (back : Bool) : List (CAct α) → List (CRet α) → Bool
  | a :: as, r :: rs =>
    match a, r with
    | .next, .node (some _) => !back && through back as rs
    | .prev, .node (some _) => back && through back as rs
    | .next, _ => !back && as.isEmpty
    | .prev, _ => back && as.isEmpty
    | .start, _ => false
    | .seek _, _ => false
    | _, _ => through back as rs
  | _, _ => false

end Verif.PackedHash.Spec
