import Verif.Queue.Model
import Verif.DList.Spec

/-!
# Specification of queues

The abstract state is the one of lists: sequences of nodes, loose nodes, values.  `none` marks an illegal call: one
naming a queue or node that does not exist, or inserting the *last* node of a queue (the code cannot tell that it is
attached).
-/

namespace Verif.Queue.Spec
open Verif.DList (Ret)
open Verif.DList.Spec (S seq setSeq create pushAll)

variable {α : Type}

/-- `x` is in a queue and is not its last node. -/
def attachedNotLast (s : S α) (x : Nat) : Bool := s.seqs.any fun q =>
  match q with
  | some xs => decide (x ∈ xs.dropLast)
  | none => false

/-- Inserting an existing node: a loose node is put in, an attached one is refused. -/
def insertNode (s : S α) (l x : Nat) (ins : List Nat → List Nat) : Option (Ret × S α) := do
  let xs ← seq s l
  if x ∈ s.loose then some (.node (some x), { setSeq s l (some (ins xs)) with loose := s.loose.erase x })
  else if attachedNotLast s x then some (.node none, s)
  else none

/-- Inserting a value: a new node. -/
def insertVal (s : S α) (l : Nat) (v : α) (ins : List Nat → List Nat) : Option (Ret × S α) := do
  let xs ← seq s l
  some (.node (some s.fresh), { setSeq s l (some (ins xs)) with val := Links.upd s.val s.fresh v, fresh := s.fresh + 1 })

/-- The meaning of each call. -/
def step (s : S α) : Op α → Option (Ret × S α)
  | .construct => some (.void, { s with seqs := s.seqs ++ [some []] })
  | .constructV v => do
    let s' ← pushAll { s with seqs := s.seqs ++ [some []] } s.seqs.length [v]
    some (.void, s')
  | .copyConstruct src => do
    let xs ← seq s src
    let s' ← pushAll { s with seqs := s.seqs ++ [some []] } s.seqs.length (xs.map s.val)
    some (.void, s')
  | .assign d src => do
    let _ ← seq s d
    let xs ← seq s src
    if d = src then some (.void, s)
    else do
      let s' ← pushAll (setSeq s d (some [])) d (xs.map s.val)
      some (.void, s')
  | .destroy l => do
    let _ ← seq s l
    some (.void, setSeq s l none)
  | .createNode v => some (.node (some s.fresh), create s v)
  | .deleteNode x => if x ∈ s.loose then some (.void, { s with loose := s.loose.erase x }) else none
  | .setValue x v =>
    if x ∈ s.loose ∨ (s.seqs.any fun q => decide (x ∈ q.getD [])) then some (.void, { s with val := Links.upd s.val x v })
    else none
  | .pushV l v => insertVal s l v (· ++ [s.fresh])
  | .pushN l x => insertNode s l x (· ++ [x])
  | .unshiftV l v => insertVal s l v (s.fresh :: ·)
  | .unshiftN l x => insertNode s l x (x :: ·)
  | .shift l => do
    let xs ← seq s l
    match xs with
    | [] => some (.node none, s)
    | x :: xs => some (.node (some x), { setSeq s l (some xs) with loose := x :: s.loose })
  | .empty l => do
    let _ ← seq s l
    some (.void, setSeq s l (some []))
  | .detachAllAndAppend d t => do
    let xs ← seq s d
    let ys ← seq s t
    if d = t then none else some (.void, setSeq (setSeq s d (some (xs ++ ys))) t (some []))
  | .size l => do
    let xs ← seq s l
    some (.num xs.length, s)

/-- A history; `none` if some call is illegal. -/
def run : S α → List (Op α) → Option (List Ret × S α)
  | s, [] => some ([], s)
  | s, op :: ops => do
    let (r, s) ← step s op
    let (rs, s) ← run s ops
    some (r :: rs, s)

end Verif.Queue.Spec
