import Verif.RwLock.Model

/-!
# What a reader-writer lock is

Only the labels of an execution are used.
-/

namespace Verif.RwLock.Spec

/-- The read locks thread `t` has got and not yet begun to give back. -/
def reading (t : Nat) : Nat → List Label → Nat
  | n, [] => n
  | n, .retRead u true :: ls => reading t (if u = t then n + 1 else n) ls
  | n, .callReadUnlock u :: ls => reading t (if u = t then n - 1 else n) ls
  | n, _ :: ls => reading t n ls

/-- Whether thread `t` has got the write lock and not yet begun to give it back. -/
def writing (t : Nat) : Bool → List Label → Bool
  | b, [] => b
  | b, .retWrite u true :: ls => writing t (if u = t then true else b) ls
  | b, .callWriteUnlock u :: ls => writing t (if u = t then false else b) ls
  | b, _ :: ls => writing t b ls

/-- Who is inside: readers (with multiplicity) and the writer. -/
abbrev Inside := List Nat × Option Nat

/-- The atomic reader-writer lock; `none`: not possible in this state. -/
def effect (h : Inside) : Label → Option Inside
  | .enterR t => if h.2 = none then some (t :: h.1, none) else none
  | .exitR t => if t ∈ h.1 then some (h.1.erase t, h.2) else none
  | .enterW t => if h = ([], none) then some ([], some t) else none
  | .exitW t => if h.2 = some t then some (h.1, none) else none
  | _ => some h

/-- The state after a history; `none`: not a possible history. -/
def atomic (h : Inside) : List Label → Option Inside
  | [] => some h
  | l :: ls => (effect h l).bind (atomic · ls)

/-- Number of readers inside. -/
def readers : Nat → List Label → Nat
  | n, [] => n
  | n, .enterR _ :: ls => readers (n + 1) ls
  | n, .exitR _ :: ls => readers (n - 1) ls
  | n, _ :: ls => readers n ls

/-- At no time are 2^32 - 1 or more readers inside. -/
def Few (ls : List Label) : Prop := ∀ q, q <+: ls → readers 0 q < 4294967295

/-- What a thread is doing, as far as its own labels tell. -/
inductive Phase where
  | out
  | reading
  | entered
  | writing
  | entering
  | unreading
  | unread
  | unwriting
  | unwritten
  deriving DecidableEq

/-- Every lock call has exactly the effect its result reports, between call and return; an unlock
that returns true has ended the lock. -/
def move : Phase → Label → Option Phase
  | .out, .callRead _ => some .reading
  | .reading, .enterR _ => some .entered
  | .entered, .retRead _ true => some .out
  | .reading, .retRead _ false => some .out
  | .out, .callWrite _ => some .writing
  | .writing, .enterW _ => some .entering
  | .entering, .retWrite _ true => some .out
  | .writing, .retWrite _ false => some .out
  | .out, .callReadUnlock _ => some .unreading
  | .unreading, .exitR _ => some .unread
  | .unread, .retReadUnlock _ _ => some .out
  | .unreading, .retReadUnlock _ false => some .out
  | .out, .callWriteUnlock _ => some .unwriting
  | .unwriting, .exitW _ => some .unwritten
  | .unwritten, .retWriteUnlock _ true => some .out
  | _, _ => none

/-- The thread of a label. -/
def who : Label → Nat
  | .callRead t | .retRead t _ | .callWrite t | .retWrite t _ | .callReadUnlock t
  | .retReadUnlock t _ | .callWriteUnlock t | .retWriteUnlock t _ | .enterR t | .exitR t
  | .enterW t | .exitW t => t

/-- The phase of thread `t` after a history; `none` if the history is impossible for it. -/
def phase (t : Nat) : Option Phase → List Label → Option Phase
  | p, [] => p
  | p, l :: ls => phase t (if who l = t then p.bind (move · l) else p) ls

end Verif.RwLock.Spec
