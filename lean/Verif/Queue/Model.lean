import Verif.DList.Model

/-!
# Model of `Queue<T>` (templates/detachable_queue.h, templates/detachable_queue_util.h)

A singly linked list.  As for `List` a world has any number of queue objects and nodes, the heap is kept per member, and
every access checks that the node is live.  The object layout (`FirstNode`, `LastNode`, `NumNodes`) is that of `List`, so
`DList.Obj` and `DList.Ret` are used again.  Same simplifications as in `Verif.DList.Model`.
-/

namespace Verif.Queue
open Verif.Links
open Verif.DList (Obj Ret)

variable {α : Type}

/-- Memory: which nodes exist, `NextNode`, `Value`, the next address `new` returns, the queue objects
(detachable_queue.h:16-36, detachable_queue_util.h:218-219) -/
structure W (α : Type) where
  live : Nat → Bool
  nx : Nat → Option Nat
  val : Nat → α
  fresh : Nat
  objs : List Obj

/-- No nodes, no objects (detachable_queue_util.h 16-22). -/
def W.empty (dflt : α) : W α := { live := fun _ => false, nx := fun _ => none, val := fun _ => dflt, fresh := 0, objs := [] }

/-- Access to a queue object (detachable_queue_util.h 217-220). -/
def getObj (w : W α) (l : Nat) : CRes Obj :=
  match w.objs[l]? with
  | some o => if o.alive then .ok o else .error .badPtr
  | none => .error .badPtr

/-- Store to the members of a queue object (detachable_queue_util.h 217-220). -/
def setObj (w : W α) (l : Nat) (o : Obj) : W α := { w with objs := w.objs.set l o }

/-- `Node->Value` (detachable_queue.h 33). -/
def getVal (w : W α) (x : Nat) : CRes α := if w.live x then .ok (w.val x) else .error .badPtr
/-- `Node->NextNode` as a value (detachable_queue.h 27). -/
def getNext (w : W α) (x : Nat) : CRes (Option Nat) := if w.live x then .ok (w.nx x) else .error .badPtr
/-- `Node->NextNode = v` (detachable_queue_util.h 102-146). -/
def setNext (w : W α) (x : Nat) (v : Option Nat) : CRes (W α) :=
  if w.live x then .ok { w with nx := upd w.nx x v } else .error .badPtr

/-- `new QueueNode<T>` and `Node->Value = Value`: detachable_queue.h:23-25, detachable_queue_util.h:161-172 -/
def createNode (w : W α) (v : α) : Nat × W α :=
  (w.fresh, { w with live := upd w.live w.fresh true, nx := upd w.nx w.fresh none, val := upd w.val w.fresh v,
                     fresh := w.fresh + 1 })

/-- `delete Node` (detachable_queue_util.h 200-211). -/
def deleteNode (w : W α) (x : Nat) : CRes (W α) :=
  if w.live x then .ok { w with live := upd w.live x false } else .error .badPtr

/-- `if (LastNode != NULL)  LastNode->NextNode = Node`, detachable_queue_util.h:117 -/
def linkLast (w : W α) (last : Option Nat) (x : Nat) : CRes (W α) :=
  match last with
  | none => .ok w
  | some a => setNext w a (some x)

/-- `Push(Node)`, detachable_queue_util.h:112-123 -/
def pushN (w : W α) (l : Nat) (x : Nat) : CRes (Option Nat × W α) := do
  let o ← getObj w l
  let n ← getNext w x
  if n.isSome then .ok (none, w)
  else do
    let w ← linkLast w o.ends.last x
    .ok (some x, setObj w l { o with
      ends := { first := if o.ends.first = none then some x else o.ends.first, last := some x }, num := o.num + 1 })

/-- `Push(Value)`, detachable_queue_util.h:102-110 -/
def pushV (w : W α) (l : Nat) (v : α) : CRes (Option Nat × W α) := pushN (createNode w v).2 l (createNode w v).1

/-- `Unshift(Node)`, detachable_queue_util.h:135-146 -/
def unshiftN (w : W α) (l : Nat) (x : Nat) : CRes (Option Nat × W α) := do
  let o ← getObj w l
  let n ← getNext w x
  if n.isSome then .ok (none, w)
  else do
    let w ← setNext w x o.ends.first
    .ok (some x, setObj w l { o with
      ends := { first := some x, last := if o.ends.last = none then some x else o.ends.last }, num := o.num + 1 })

/-- `Unshift(Value)`, detachable_queue_util.h:125-133 -/
def unshiftV (w : W α) (l : Nat) (v : α) : CRes (Option Nat × W α) := unshiftN (createNode w v).2 l (createNode w v).1

/-- `Shift()`, detachable_queue_util.h:148-159 -/
def shift (w : W α) (l : Nat) : CRes (Option Nat × W α) := do
  let o ← getObj w l
  match o.ends.first with
  | none => .ok (none, w)
  | some x => do
    let f ← getNext w x
    let w ← setNext w x none
    .ok (some x, setObj w l { o with
      ends := { first := f, last := if f = none then none else o.ends.last }, num := DList.dec o.num })

/-- `DetachAllAndAppend(TempQueue)`, detachable_queue_util.h:174-198; queue `d` takes the nodes of queue `t` -/
def detachAllAndAppend (w : W α) (d t : Nat) : CRes (W α) := do
  let o ← getObj w d
  let p ← getObj w t
  match p.ends.first with
  | none => .ok w
  | some tf =>
    match o.ends.last with
    | some dl => do
      let w ← setNext w dl (some tf)
      let w := setObj w d { o with ends := { o.ends with last := p.ends.last }, num := o.num + p.num }
      .ok (setObj w t { p with ends := ⟨none, none⟩, num := 0 })
    | none =>
      let w := setObj w d { o with ends := p.ends, num := o.num + p.num }
      .ok (setObj w t { p with ends := ⟨none, none⟩, num := 0 })

/-- The loop of `Empty()`, detachable_queue_util.h:204-208; bounded as `DList.emptyLoop` -/
def emptyLoop : Nat → W α → Nat → CRes (W α)
  | 0, _, _ => .error .diverges
  | k + 1, w, l => do
    let o ← getObj w l
    match o.ends.first with
    | none => .ok w
    | some f => do
      let (_, w) ← shift w l
      let w ← deleteNode w f
      emptyLoop k w l

/-- `Empty()`, detachable_queue_util.h:200-211 -/
def empty (w : W α) (l : Nat) : CRes (W α) := do
  let w ← emptyLoop (w.fresh + 1) w l
  let o ← getObj w l
  .ok (setObj w l { o with num := 0 })

/-- The loop of the copy constructor and of `operator=`, detachable_queue_util.h:54-59, 68-73 -/
def copyLoop : Nat → W α → Option Nat → Nat → CRes (W α)
  | 0, _, _, _ => .error .diverges
  | _ + 1, w, none, _ => .ok w
  | k + 1, w, some x, d => do
    let v ← getVal w x
    let (_, w) ← pushV w d v
    let n ← getNext w x
    copyLoop k w n d

/-- `Queue()`, detachable_queue_util.h:15-21 -/
def construct (w : W α) : W α := { w with objs := w.objs ++ [{ alive := true, ends := ⟨none, none⟩, num := 0 }] }

/-- `Queue(T Value)`, detachable_queue_util.h:32-39 -/
def constructV (w : W α) (v : α) : CRes (W α) := do
  let (_, w') ← pushV (construct w) w.objs.length v
  .ok w'

/-- Copy constructor, detachable_queue_util.h:48-60 -/
def copyConstruct (w : W α) (src : Nat) : CRes (W α) := do
  let o ← getObj w src
  copyLoop (w.fresh + 1) (construct w) o.ends.first w.objs.length

/-- `operator=`, detachable_queue_util.h:62-77 -/
def assign (w : W α) (d src : Nat) : CRes (W α) :=
  if src = d then do
    let _ ← getObj w d
    .ok w
  else do
    let w ← empty w d
    let o ← getObj w src
    copyLoop (w.fresh + 1) w o.ends.first d

/-- Destructor, detachable_queue_util.h:23-30 -/
def destroy (w : W α) (l : Nat) : CRes (W α) := do
  let w ← empty w l
  let o ← getObj w l
  .ok (setObj w l { o with alive := false })

/-- All calls (`+=` is `Push`, detachable_queue_util.h:80-100). -/
inductive Op (α : Type) where
  | construct
  | constructV (v : α)
  | copyConstruct (src : Nat)
  | assign (d src : Nat)
  | destroy (l : Nat)
  | createNode (v : α)
  | deleteNode (x : Nat)
  | setValue (x : Nat) (v : α)
  | pushV (l : Nat) (v : α)
  | pushN (l : Nat) (x : Nat)
  | unshiftV (l : Nat) (v : α)
  | unshiftN (l : Nat) (x : Nat)
  | shift (l : Nat)
  | empty (l : Nat)
  | detachAllAndAppend (d t : Nat)
  | size (l : Nat)

/-- One call (detachable_queue_util.h 16-215). -/
def step (w : W α) : Op α → CRes (Ret × W α)
  | .construct => .ok (.void, construct w)
  | .constructV v => do let w ← constructV w v; .ok (.void, w)
  | .copyConstruct src => do let w ← copyConstruct w src; .ok (.void, w)
  | .assign d src => do let w ← assign w d src; .ok (.void, w)
  | .destroy l => do let w ← destroy w l; .ok (.void, w)
  | .createNode v => .ok (.node (some (createNode w v).1), (createNode w v).2)
  | .deleteNode x => do let w ← deleteNode w x; .ok (.void, w)
  | .setValue x v => if w.live x then .ok (.void, { w with val := upd w.val x v }) else .error .badPtr
  | .pushV l v => do let (r, w) ← pushV w l v; .ok (.node r, w)
  | .pushN l x => do let (r, w) ← pushN w l x; .ok (.node r, w)
  | .unshiftV l v => do let (r, w) ← unshiftV w l v; .ok (.node r, w)
  | .unshiftN l x => do let (r, w) ← unshiftN w l x; .ok (.node r, w)
  | .shift l => do let (r, w) ← shift w l; .ok (.node r, w)
  | .empty l => do let w ← empty w l; .ok (.void, w)
  | .detachAllAndAppend d t => do let w ← detachAllAndAppend w d t; .ok (.void, w)
  | .size l => do let o ← getObj w l; .ok (.num o.num, w)

/-- A history of calls (calls of detachable_queue_util.h 16-215). -/
def run : W α → List (Op α) → CRes (List Ret × W α)
  | w, [] => .ok ([], w)
  | w, op :: ops => do
    let (r, w) ← step w op
    let (rs, w) ← run w ops
    .ok (r :: rs, w)

/-- Walking with `Next()` and reading `Value`: detachable_queue.h:27, 33 -/
def walk : Nat → W α → Option Nat → CRes (List (Nat × α))
  | 0, _, _ => .error .diverges
  | _ + 1, _, none => .ok []
  | k + 1, w, some x => do
    let v ← getVal w x
    let n ← getNext w x
    let rest ← walk k w n
    .ok ((x, v) :: rest)

/-- From `First()` on, detachable_queue_util.h:213 -/
def contents (w : W α) (l : Nat) : CRes (List (Nat × α)) := do
  let o ← getObj w l
  walk (w.fresh + 1) w o.ends.first

/-- `Last()`, detachable_queue_util.h:214 -/
def lastNode (w : W α) (l : Nat) : CRes (Option Nat) := do
  let o ← getObj w l
  .ok o.ends.last

end Verif.Queue
