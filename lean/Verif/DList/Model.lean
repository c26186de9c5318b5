import Verif.Links

/-!
# Model of `List<T>` (templates/detachable_list.h, templates/detachable_list_util.h)

A world has any number of list objects and nodes, so nodes can move between lists and a copy can be compared with its
source.  Nodes are addressed by numbers handed out by `new`; the heap is kept per member (see `Verif.Links`).

Simplifications: `NumNodes++` does not wrap (there cannot be 2^64 nodes), `NumNodes--` wraps below zero; `T` is copied by
value and its own operations do not fail; `new` succeeds.
-/

namespace Verif.DList
open Verif.Links

variable {α : Type}

/-- A list object, detachable_list_util.h:336-337; `alive` is false after its destructor ran -/
structure Obj where
  alive : Bool
  ends : Ends
  num : Nat
  deriving DecidableEq, Repr

/-- Memory: the nodes (links, `Value`, next address `new` returns) and the list objects
(detachable_list.h 14-34, detachable_list_util.h 335-338). -/
structure W (α : Type) where
  lh : LH
  val : Nat → α
  fresh : Nat
  objs : List Obj

/-- No nodes, no objects (detachable_list_util.h 16-22). -/
def W.empty (dflt : α) : W α :=
  { lh := { live := fun _ => false, pv := fun _ => none, nx := fun _ => none }, val := fun _ => dflt, fresh := 0, objs := [] }

/-- Access to a list object (detachable_list_util.h 335-338). -/
def getObj (w : W α) (l : Nat) : CRes Obj :=
  match w.objs[l]? with
  | some o => if o.alive then .ok o else .error .badPtr
  | none => .error .badPtr

/-- Store to the members of a list object (detachable_list_util.h 335-338). -/
def setObj (w : W α) (l : Nat) (o : Obj) : W α := { w with objs := w.objs.set l o }

/-- `Node->Value` (detachable_list.h 33). -/
def getVal (w : W α) (x : Nat) : CRes α := if w.lh.live x then .ok (w.val x) else .error .badPtr

/-- `new ListNode<T>` and `Node->Value = Value`: detachable_list.h:22-24, detachable_list_util.h:149-155 -/
def createNode (w : W α) (v : α) : Nat × W α :=
  (w.fresh, { w with
    lh := { live := upd w.lh.live w.fresh true, pv := upd w.lh.pv w.fresh none, nx := upd w.lh.nx w.fresh none },
    val := upd w.val w.fresh v, fresh := w.fresh + 1 })

/-- `delete Node` (detachable_list_util.h 316-329). -/
def deleteNode (w : W α) (x : Nat) : CRes (W α) :=
  if w.lh.live x then .ok { w with lh := { w.lh with live := upd w.lh.live x false } } else .error .badPtr

/-- The common tail of the insertions: link, store the ends, `NumNodes++` (detachable_list_util.h 157-257). -/
def attach (w : W α) (l : Nat) (o : Obj) (r : CRes (LH × Ends)) : CRes (W α) := do
  let (h, e) ← r
  .ok (setObj { w with lh := h } l { o with ends := e, num := o.num + 1 })

/-- `InsertBefore(Next, Value)`, detachable_list_util.h:157-181 -/
def insertBeforeV (w : W α) (l : Nat) (next : Option Nat) (v : α) : CRes (Option Nat × W α) := do
  let o ← getObj w l
  let w' ← attach (createNode w v).2 l o (linkBefore (createNode w v).2.lh o.ends next (createNode w v).1)
  .ok (some (createNode w v).1, w')

/-- `InsertAfter(Prev, Value)`, detachable_list_util.h:208-232 -/
def insertAfterV (w : W α) (l : Nat) (prev : Option Nat) (v : α) : CRes (Option Nat × W α) := do
  let o ← getObj w l
  let w' ← attach (createNode w v).2 l o (linkAfter (createNode w v).2.lh o.ends prev (createNode w v).1)
  .ok (some (createNode w v).1, w')

/-- `Node->NextNode != NULL || Node->PrevNode != NULL`, detachable_list_util.h:186, 237 -/
def attachedTest (w : W α) (x : Nat) : CRes Bool := do
  let n ← getNx w.lh x
  let p ← getPv w.lh x
  .ok (n.isSome || p.isSome)

/-- `InsertBefore(Next, Node)`, detachable_list_util.h:184-206 -/
def insertBeforeN (w : W α) (l : Nat) (next : Option Nat) (x : Nat) : CRes (Option Nat × W α) := do
  let o ← getObj w l
  let b ← attachedTest w x
  if b then .ok (none, w)
  else do
    let w' ← attach w l o (linkBefore w.lh o.ends next x)
    .ok (some x, w')

/-- `InsertAfter(Prev, Node)`, detachable_list_util.h:235-257 -/
def insertAfterN (w : W α) (l : Nat) (prev : Option Nat) (x : Nat) : CRes (Option Nat × W α) := do
  let o ← getObj w l
  let b ← attachedTest w x
  if b then .ok (none, w)
  else do
    let w' ← attach w l o (linkAfter w.lh o.ends prev x)
    .ok (some x, w')

/-- `DetachAllAndAppend(TempList)`, detachable_list_util.h:263-284; list `d` takes the nodes of list `t` -/
def detachAllAndAppend (w : W α) (d t : Nat) : CRes (W α) := do
  let o ← getObj w d
  let p ← getObj w t
  match p.ends.first with
  | none => .ok w
  | some tf =>
    match o.ends.last with
    | some dl => do
      let h ← setNx w.lh dl (some tf)
      let h ← setPv h tf (some dl)
      let w := setObj { w with lh := h } d { o with ends := { o.ends with last := p.ends.last }, num := o.num + p.num }
      .ok (setObj w t { p with ends := ⟨none, none⟩, num := 0 })
    | none =>
      let w := setObj w d { o with ends := p.ends, num := o.num + p.num }
      .ok (setObj w t { p with ends := ⟨none, none⟩, num := 0 })

/-- `NumNodes--` on a `size_t` (detachable_list_util.h 286-314). -/
def dec (n : Nat) : Nat := if n = 0 then 2 ^ 64 - 1 else n - 1

/-- `Detach(Node)`, detachable_list_util.h:286-314 -/
def detach (w : W α) (l : Nat) (node : Option Nat) : CRes (Bool × W α) :=
  match node with
  | none => .ok (false, w)
  | some x => do
    let o ← getObj w l
    let (h, e) ← unlink w.lh o.ends x
    .ok (true, setObj { w with lh := h } l { o with ends := e, num := dec o.num })

/-- `Remove(Node)`, detachable_list_util.h:316-323 -/
def remove (w : W α) (l : Nat) (node : Option Nat) : CRes (Bool × W α) := do
  let (b, w) ← detach w l node
  match b, node with
  | true, some x => do
    let w ← deleteNode w x
    .ok (true, w)
  | _, _ => .ok (false, w)

/-- `Pop()`, detachable_list_util.h:117-123 -/
def pop (w : W α) (l : Nat) : CRes (Option Nat × W α) := do
  let o ← getObj w l
  let (_, w') ← detach w l o.ends.last
  .ok (o.ends.last, w')

/-- `Shift()`, detachable_list_util.h:136-142 -/
def shift (w : W α) (l : Nat) : CRes (Option Nat × W α) := do
  let o ← getObj w l
  let (_, w') ← detach w l o.ends.first
  .ok (o.ends.first, w')

/-- The loop of `Empty()`, detachable_list_util.h:327.  Every round frees a node, so the number of addresses ever handed
out bounds the rounds; running longer is reported as not terminating. -/
def emptyLoop : Nat → W α → Nat → CRes (W α)
  | 0, _, _ => .error .diverges
  | k + 1, w, l => do
    let o ← getObj w l
    match o.ends.first with
    | none => .ok w
    | some f => do
      let (_, w) ← remove w l (some f)
      emptyLoop k w l

/-- `Empty()`, detachable_list_util.h:325-329 -/
def empty (w : W α) (l : Nat) : CRes (W α) := do
  let w ← emptyLoop (w.fresh + 1) w l
  let o ← getObj w l
  .ok (setObj w l { o with num := 0 })

/-- The loop of the copy constructor and of `operator=`, detachable_list_util.h:58-63, 72-77: push the values of the
nodes from `node` on to list `d`.  A walk visiting more nodes than were ever created goes round in circles. -/
def copyLoop : Nat → W α → Option Nat → Nat → CRes (W α)
  | 0, _, _, _ => .error .diverges
  | _ + 1, w, none, _ => .ok w
  | k + 1, w, some x, d => do
    let v ← getVal w x
    let (_, w) ← insertBeforeV w d none v
    let n ← getNx w.lh x
    copyLoop k w n d

/-- `List()`, detachable_list_util.h:18 -/
def construct (w : W α) : W α := { w with objs := w.objs ++ [{ alive := true, ends := ⟨none, none⟩, num := 0 }] }

/-- `List(T Value)`, detachable_list_util.h:32-44 -/
def constructV (w : W α) (v : α) : CRes (W α) := do
  let (_, w') ← insertBeforeV (construct w) w.objs.length none v
  .ok w'

/-- Copy constructor, detachable_list_util.h:52-64 -/
def copyConstruct (w : W α) (src : Nat) : CRes (W α) := do
  let o ← getObj w src
  copyLoop (w.fresh + 1) (construct w) o.ends.first w.objs.length

/-- `operator=`, detachable_list_util.h:66-81 -/
def assign (w : W α) (d src : Nat) : CRes (W α) :=
  if src = d then do
    let _ ← getObj w d
    .ok w
  else do
    let w ← empty w d
    let o ← getObj w src
    copyLoop (w.fresh + 1) w o.ends.first d

/-- Destructor, detachable_list_util.h:26-30 -/
def destroy (w : W α) (l : Nat) : CRes (W α) := do
  let w ← empty w l
  let o ← getObj w l
  .ok (setObj w l { o with alive := false })

/-- All calls.  Nodes are named by their address.  `Push`, `+=` are `insertBefore … none`, `Unshift` is
`insertAfter … none` (detachable_list_util.h:84-134). -/
inductive Op (α : Type) where
  | construct
  | constructV (v : α)
  | copyConstruct (src : Nat)
  | assign (d src : Nat)
  | destroy (l : Nat)
  | createNode (v : α)
  | deleteNode (x : Nat)
  | setValue (x : Nat) (v : α)
  | insertBeforeV (l : Nat) (next : Option Nat) (v : α)
  | insertBeforeN (l : Nat) (next : Option Nat) (x : Nat)
  | insertAfterV (l : Nat) (prev : Option Nat) (v : α)
  | insertAfterN (l : Nat) (prev : Option Nat) (x : Nat)
  | pop (l : Nat)
  | shift (l : Nat)
  | detach (l : Nat) (x : Option Nat)
  | remove (l : Nat) (x : Option Nat)
  | empty (l : Nat)
  | detachAllAndAppend (d t : Nat)
  | size (l : Nat)

/-- What a call returns (detachable_list_util.h 106-333). -/
inductive Ret where
  | void
  | node (x : Option Nat)
  | bool (b : Bool)
  | num (n : Nat)
  deriving DecidableEq, Repr

/-- One call (detachable_list_util.h 16-333). -/
def step (w : W α) : Op α → CRes (Ret × W α)
  | .construct => .ok (.void, construct w)
  | .constructV v => do let w ← constructV w v; .ok (.void, w)
  | .copyConstruct src => do let w ← copyConstruct w src; .ok (.void, w)
  | .assign d src => do let w ← assign w d src; .ok (.void, w)
  | .destroy l => do let w ← destroy w l; .ok (.void, w)
  | .createNode v => .ok (.node (some (createNode w v).1), (createNode w v).2)
  | .deleteNode x => do let w ← deleteNode w x; .ok (.void, w)
  | .setValue x v => if w.lh.live x then .ok (.void, { w with val := upd w.val x v }) else .error .badPtr
  | .insertBeforeV l n v => do let (r, w) ← insertBeforeV w l n v; .ok (.node r, w)
  | .insertBeforeN l n x => do let (r, w) ← insertBeforeN w l n x; .ok (.node r, w)
  | .insertAfterV l n v => do let (r, w) ← insertAfterV w l n v; .ok (.node r, w)
  | .insertAfterN l n x => do let (r, w) ← insertAfterN w l n x; .ok (.node r, w)
  | .pop l => do let (r, w) ← pop w l; .ok (.node r, w)
  | .shift l => do let (r, w) ← shift w l; .ok (.node r, w)
  | .detach l x => do let (b, w) ← detach w l x; .ok (.bool b, w)
  | .remove l x => do let (b, w) ← remove w l x; .ok (.bool b, w)
  | .empty l => do let w ← empty w l; .ok (.void, w)
  | .detachAllAndAppend d t => do let w ← detachAllAndAppend w d t; .ok (.void, w)
  | .size l => do let o ← getObj w l; .ok (.num o.num, w)

/-- A history of calls (calls of detachable_list_util.h 16-333). -/
def run : W α → List (Op α) → CRes (List Ret × W α)
  | w, [] => .ok ([], w)
  | w, op :: ops => do
    let (r, w) ← step w op
    let (rs, w) ← run w ops
    .ok (r :: rs, w)

/-- Walking with `Next()` and reading `Value`: detachable_list.h:27, 33 -/
def walkNext : Nat → W α → Option Nat → CRes (List (Nat × α))
  | 0, _, _ => .error .diverges
  | _ + 1, _, none => .ok []
  | k + 1, w, some x => do
    let v ← getVal w x
    let n ← getNx w.lh x
    let rest ← walkNext k w n
    .ok ((x, v) :: rest)

/-- Walking with `Prev()`: detachable_list.h:26 -/
def walkPrev : Nat → W α → Option Nat → CRes (List (Nat × α))
  | 0, _, _ => .error .diverges
  | _ + 1, _, none => .ok []
  | k + 1, w, some x => do
    let v ← getVal w x
    let n ← getPv w.lh x
    let rest ← walkPrev k w n
    .ok ((x, v) :: rest)

/-- From `First()` forwards, detachable_list_util.h:331 -/
def forward (w : W α) (l : Nat) : CRes (List (Nat × α)) := do
  let o ← getObj w l
  walkNext (w.fresh + 1) w o.ends.first

/-- From `Last()` backwards, detachable_list_util.h:332 -/
def backward (w : W α) (l : Nat) : CRes (List (Nat × α)) := do
  let o ← getObj w l
  walkPrev (w.fresh + 1) w o.ends.last

end Verif.DList
