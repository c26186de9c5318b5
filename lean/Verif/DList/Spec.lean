import Verif.DList.Model

/-!
# Specification of lists

A list is a sequence of nodes, a node carries a value, nodes not in a list are *loose*.  `none` marks an illegal call:
one naming a list or node that does not exist, a position that is not in the list, detaching a node from a list it is
not in, or inserting a node that is the only member of a list (the code cannot tell that it is attached).
-/

namespace Verif.DList.Spec

variable {α : Type}

/-- Abstract state: lists (`none` once destroyed), loose nodes, values, the name of the next new node. -/
structure S (α : Type) where
  seqs : List (Option (List Nat))
  loose : List Nat
  val : Nat → α
  fresh : Nat

def S.empty (dflt : α) : S α := { seqs := [], loose := [], val := fun _ => dflt, fresh := 0 }

/-- The sequence of a live list. -/
def seq (s : S α) (l : Nat) : Option (List Nat) := (s.seqs[l]?).join

def setSeq (s : S α) (l : Nat) (xs : Option (List Nat)) : S α := { s with seqs := s.seqs.set l xs }

/-- Put `x` before the first `b`. -/
def before (x b : Nat) : List Nat → List Nat
  | [] => []
  | y :: ys => if y = b then x :: y :: ys else y :: before x b ys

/-- Put `x` after the first `a`. -/
def after (x a : Nat) : List Nat → List Nat
  | [] => []
  | y :: ys => if y = a then y :: x :: ys else y :: after x a ys

/-- `InsertBefore`: at the end for NULL; `none` if the named node is not in the list. -/
def insBefore (xs : List Nat) (x : Nat) : Option Nat → Option (List Nat)
  | none => some (xs ++ [x])
  | some b => if b ∈ xs then some (before x b xs) else none

/-- `InsertAfter`: at the front for NULL. -/
def insAfter (xs : List Nat) (x : Nat) : Option Nat → Option (List Nat)
  | none => some (x :: xs)
  | some a => if a ∈ xs then some (after x a xs) else none

/-- A new loose node. -/
def create (s : S α) (v : α) : S α :=
  { s with loose := s.fresh :: s.loose, val := Links.upd s.val s.fresh v, fresh := s.fresh + 1 }

/-- Insert loose node `x` into list `l`. -/
def place (s : S α) (l x : Nat) (ins : List Nat → Option (List Nat)) : Option (S α) := do
  let xs ← seq s l
  let ys ← ins xs
  some { setSeq s l (some ys) with loose := s.loose.erase x }

/-- `x` belongs to a list with at least two nodes. -/
def hasNeighbour (s : S α) (x : Nat) : Bool := s.seqs.any fun q =>
  match q with
  | some xs => decide (x ∈ xs ∧ 2 ≤ xs.length)
  | none => false

/-- Inserting an existing node: a loose node is placed, one with neighbours is refused. -/
def insertNode (s : S α) (l x : Nat) (ins : List Nat → Option (List Nat)) : Option (Ret × S α) :=
  if x ∈ s.loose then do
    let s' ← place s l x ins
    some (.node (some x), s')
  else do
    let _ ← seq s l
    if hasNeighbour s x then some (.node none, s) else none

/-- Inserting a value. -/
def insertVal (s : S α) (l : Nat) (v : α) (ins : List Nat → Option (List Nat)) : Option (Ret × S α) := do
  let s' ← place (create s v) l s.fresh ins
  some (.node (some s.fresh), s')

/-- Take `x` out of list `l`; it becomes loose. -/
def take (s : S α) (l x : Nat) : Option (S α) := do
  let xs ← seq s l
  if x ∈ xs then some { setSeq s l (some (xs.erase x)) with loose := x :: s.loose } else none

/-- Take `x` out of list `l` and delete it. -/
def drop (s : S α) (l x : Nat) : Option (S α) := do
  let xs ← seq s l
  if x ∈ xs then some (setSeq s l (some (xs.erase x))) else none

/-- Append new nodes with the given values to list `l`. -/
def pushAll (s : S α) (l : Nat) : List α → Option (S α)
  | [] => some s
  | v :: vs => do
    let s' ← place (create s v) l s.fresh (fun xs => some (xs ++ [s.fresh]))
    pushAll s' l vs

/-- The meaning of each call. -/
def step (s : S α) : Op α → Option (Ret × S α)
  | .construct => some (.void, { s with seqs := s.seqs ++ [some []] })
  | .constructV v => do
    let s' ← pushAll { s with seqs := s.seqs ++ [some []] } s.seqs.length [v]
    some (.void, s')
  | .copyConstruct src => do
    let xs ← seq s src
    let s' ← pushAll { s with seqs := s.seqs ++ [some []] } s.seqs.length (xs.map s.val)
    some (.void, s')
  | .assign d src => do
    let _ ← seq s d
    let xs ← seq s src
    if d = src then some (.void, s)
    else do
      let s' ← pushAll (setSeq s d (some [])) d (xs.map s.val)
      some (.void, s')
  | .destroy l => do
    let _ ← seq s l
    some (.void, setSeq s l none)
  | .createNode v => some (.node (some s.fresh), create s v)
  | .deleteNode x => if x ∈ s.loose then some (.void, { s with loose := s.loose.erase x }) else none
  | .setValue x v =>
    if x ∈ s.loose ∨ (s.seqs.any fun q => decide (x ∈ q.getD [])) then some (.void, { s with val := Links.upd s.val x v })
    else none
  | .insertBeforeV l n v => insertVal s l v (insBefore · s.fresh n)
  | .insertBeforeN l n x => insertNode s l x (insBefore · x n)
  | .insertAfterV l n v => insertVal s l v (insAfter · s.fresh n)
  | .insertAfterN l n x => insertNode s l x (insAfter · x n)
  | .pop l => do
    let xs ← seq s l
    match xs.getLast? with
    | none => some (.node none, s)
    | some x => some (.node (some x), { setSeq s l (some xs.dropLast) with loose := x :: s.loose })
  | .shift l => do
    let xs ← seq s l
    match xs with
    | [] => some (.node none, s)
    | x :: xs => some (.node (some x), { setSeq s l (some xs) with loose := x :: s.loose })
  | .detach l n => do
    let _ ← seq s l
    match n with
    | none => some (.bool false, s)
    | some x => do let s' ← take s l x; some (.bool true, s')
  | .remove l n => do
    let _ ← seq s l
    match n with
    | none => some (.bool false, s)
    | some x => do let s' ← drop s l x; some (.bool true, s')
  | .empty l => do
    let _ ← seq s l
    some (.void, setSeq s l (some []))
  | .detachAllAndAppend d t => do
    let xs ← seq s d
    let ys ← seq s t
    if d = t then none else some (.void, setSeq (setSeq s d (some (xs ++ ys))) t (some []))
  | .size l => do
    let xs ← seq s l
    some (.num xs.length, s)

/-- A history; `none` if some call is illegal. -/
def run : S α → List (Op α) → Option (List Ret × S α)
  | s, [] => some ([], s)
  | s, op :: ops => do
    let (r, s) ← step s op
    let (rs, s) ← run s ops
    some (r :: rs, s)

end Verif.DList.Spec
