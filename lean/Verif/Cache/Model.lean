import Verif.Base

/-!
# Model of `Cache<XKey, XValue>` (templates/cache_util.h, cache.h)

A cache object is its node array and `NumNodes`.  Several caches live side by side.

Simplification: node arrays are values, not heap blocks (each array is allocated by its owner and never shared;
the identical allocation pattern is modelled with a heap for `StaticVector`).  A fresh node's key and value are
whatever the default constructors leave (`dk`, `dv`); the theorems hold for all of them.
-/

namespace Verif.Cache
variable {K V : Type}

/-- `CacheNode`, cache.h:12-24 -/
structure Node (K V : Type) where
  used : Bool
  key : K
  value : V
  deriving DecidableEq, Repr

/-- Members `Nodes`, `NumNodes`, cache_util.h:120-122 -/
structure Obj (K V : Type) where
  nodes : List (Node K V)
  num : Nat
  deriving DecidableEq, Repr

/-- Constructor, cache_util.h:15-23; the node constructor clears `Used` (cache.h:16) -/
def construct (dk : K) (dv : V) (primeNum : Nat) : Obj K V :=
  { nodes := List.replicate primeNum { used := false, key := dk, value := dv }, num := primeNum }

/-- The loop `Nodes[x] = TempCache.Nodes[x]`, cache_util.h:44 and 60 -/
def copyLoop (dst src : List (Node K V)) : (n x : Nat) → CRes (List (Node K V))
  | 0, _ => .ok dst
  | n + 1, x => do
    let v ← rd src x
    let dst ← wr dst x v
    copyLoop dst src n (x + 1)

/-- Copy constructor, cache_util.h:38-45 -/
def copyConstruct (dk : K) (dv : V) (t : Obj K V) : CRes (Obj K V) := do
  let o := construct dk dv t.num
  let nodes ← copyLoop o.nodes t.nodes t.num 0
  .ok { o with nodes := nodes }

/-- `operator=` for two different objects, cache_util.h:47-65 -/
def assign (dk : K) (dv : V) (o t : Obj K V) : CRes (Obj K V) := do
  let o := if o.num ≠ t.num then construct dk dv t.num else o                  -- lines 53-59
  let nodes ← copyLoop o.nodes t.nodes o.num 0                                 -- line 60
  .ok { o with nodes := nodes }

/-- `Empty`, cache_util.h:68-73 -/
def emptyLoop (nodes : List (Node K V)) : (n x : Nat) → CRes (List (Node K V))
  | 0, _ => .ok nodes
  | n + 1, x => do
    let v ← rd nodes x
    let nodes ← wr nodes x { v with used := false }
    emptyLoop nodes n (x + 1)

/-- `HashKey % NumNodes` (cache_util.h 77, 86, 99, 106). -/
def slot (o : Obj K V) (hashKey : Nat) : CRes Nat :=
  if o.num = 0 then .error .divByZero else .ok (hashKey % o.num)

/-- `Insert`, cache_util.h:75-82 -/
def insert (o : Obj K V) (hashKey : Nat) (k : K) (v : V) : CRes (Obj K V) := do
  let s ← slot o hashKey
  let nodes ← wr o.nodes s { used := true, key := k, value := v }
  .ok { o with nodes := nodes }

/-- `Remove`, cache_util.h:84-95 -/
def remove [DecidableEq K] (o : Obj K V) (hashKey : Nat) (k : K) : CRes (Bool × Obj K V) := do
  let s ← slot o hashKey
  let n ← rd o.nodes s
  if n.used ∧ n.key = k then do
    let nodes ← wr o.nodes s { n with used := false }
    .ok (true, { o with nodes := nodes })
  else .ok (false, o)

/-- `Exists`, cache_util.h:97-102 -/
def exists_ [DecidableEq K] (o : Obj K V) (hashKey : Nat) (k : K) : CRes Bool := do
  let s ← slot o hashKey
  let n ← rd o.nodes s
  .ok (decide (n.used ∧ n.key = k))

/-- `Find`, cache_util.h:104-115: the value stored in `Result`, or `none` for `false` (Result untouched) -/
def find [DecidableEq K] (o : Obj K V) (hashKey : Nat) (k : K) : CRes (Option V) := do
  let s ← slot o hashKey
  let n ← rd o.nodes s
  if n.used ∧ n.key = k then .ok (some n.value) else .ok none

/-- The user's operations on a collection of caches; `hk` is the hash the caller passes (cache_util.h 17-115). -/
inductive Op (K V : Type) where
  | construct (num : Nat)
  | copyConstruct (j : Nat)
  | assign (i j : Nat)
  | empty (i : Nat)
  | insert (i hk : Nat) (k : K) (v : V)
  | remove (i hk : Nat) (k : K)
  | exists_ (i hk : Nat) (k : K)
  | find (i hk : Nat) (k : K)

/-- What the user sees (cache_util.h 84-115). -/
inductive Out (V : Type) where
  | none
  | bool (b : Bool)
  | found (v : Option V)
  deriving DecidableEq, Repr

/-- Object `i` (cache_util.h 8-124). -/
def obj (w : List (Obj K V)) (i : Nat) : CRes (Obj K V) :=
  match w[i]? with
  | some o => .ok o
  | none => .error .badPtr

/-- One operation (cache_util.h 17-115). -/
def step [DecidableEq K] (dk : K) (dv : V) (w : List (Obj K V)) : Op K V → CRes (Out V × List (Obj K V))
  | .construct n => .ok (.none, w ++ [construct dk dv n])
  | .copyConstruct j => do
    let t ← obj w j
    let o ← copyConstruct dk dv t
    .ok (.none, w ++ [o])
  | .assign i j => do
    let o ← obj w i
    let t ← obj w j
    if i = j then .ok (.none, w)                                               -- line 49
    else do
      let o ← assign dk dv o t
      .ok (.none, w.set i o)
  | .empty i => do
    let o ← obj w i
    let nodes ← emptyLoop o.nodes o.num 0
    .ok (.none, w.set i { o with nodes := nodes })
  | .insert i hk k v => do
    let o ← obj w i
    let o ← insert o hk k v
    .ok (.none, w.set i o)
  | .remove i hk k => do
    let o ← obj w i
    let (b, o) ← remove o hk k
    .ok (.bool b, w.set i o)
  | .exists_ i hk k => do
    let o ← obj w i
    let b ← exists_ o hk k
    .ok (.bool b, w)
  | .find i hk k => do
    let o ← obj w i
    let r ← find o hk k
    .ok (.found r, w)

/-- A history (calls of cache_util.h 17-115). -/
def run [DecidableEq K] (dk : K) (dv : V) : List (Obj K V) → List (Op K V) →
    CRes (List (Out V) × List (Obj K V))
  | w, [] => .ok ([], w)
  | w, op :: ops => do
    let (o, w) ← step dk dv w op
    let (os, w) ← run dk dv w ops
    .ok (o :: os, w)

end Verif.Cache
