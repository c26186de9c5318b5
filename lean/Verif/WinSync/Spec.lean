import Verif.WinSync.Model

/-!
# What creating and destroying sync objects should do on Windows, in words
-/

namespace Verif.WinSync.Spec

/-! ## The caller's part -/

/-- The class of each object, `none` once it is destroyed, after a call. -/
def classes (cs : List (Option Cls)) : Op → List (Option Cls)
  | .construct c => cs ++ [some c]
  | .destroy i _ => cs.set i none
  | _ => cs

/-- The object is there and is one of the class the call belongs to. -/
def Legal (cs : List (Option Cls)) : Op → Prop
  | .construct _ => True
  | .semCreate i _ _ _ | .semLock i _ | .semUnlock i _ => cs[i]? = some (some .sem)
  | .evCreate i _ _ _ _ | .evWait i _ | .evFire i _ | .evReset i _ => cs[i]? = some (some .event)
  | .rwCreate i _ _ _ _ _ => cs[i]? = some (some .rw)
  | .memCreate i _ _ _ _ _ => cs[i]? = some (some .mem)
  | .mutexCreate i _ _ _ | .mutexLock i _ _ | .mutexUnlock i _ _ => cs[i]? = some (some .mutex)
  | .destroy i _ => ∃ c, cs[i]? = some (some c)

/-- All calls of a history are legal. -/
def LegalAll (cs : List (Option Cls)) : List Op → Prop
  | [] => True
  | o :: os => Legal cs o ∧ LegalAll (classes cs o) os

/-! ## Handles -/

/-- Handle `h` is stored in place `s` of object `i`. -/
def Slot (w : W) (i s h : Nat) : Prop := ∃ o, w.objs[i]? = some (some o) ∧ o.hs[s]? = some (some h)

/-- Handle `h` is open and leads to the kernel object `k`. -/
def Open (w : W) (h k : Nat) : Prop := w.handles[h]? = some (some k)

/-- Place `s` of object `i` leads to the kernel object `k`. -/
def Ref (w : W) (i s k : Nat) : Prop := ∃ h, Slot w i s h ∧ Open w h k

/-- A kernel object is there as long as it is open or mapped. -/
def Live (w : W) (k : Nat) : Prop := (∃ h, Open w h k) ∨ ∃ v : Nat, w.views[v]? = some (some k)

/-- Object `i` now has a kernel object: that of another object, as it was, or a new one as asked for. -/
def Opened (w w' : W) (i : Nat) (name : Option Str) (st : KSt) : Prop :=
  ∃ k, Ref w' i 0 k ∧ ((∃ j s, j ≠ i ∧ Ref w j s k ∧ w'.kobjs[k]? = w.kobjs[k]?) ∨
    ((∀ j s, ¬ Ref w j s k) ∧ w'.kobjs[k]? = some ⟨name, st⟩))

/-- The kernel object is a mutex. -/
def IsMutex (w : W) (k : Nat) : Prop := ∃ o a b, w.kobjs[k]? = some o ∧ o.st = .mutex a b

/-- View `v` is that of object `i`. -/
def View (w : W) (i v : Nat) : Prop := ∃ o, w.objs[i]? = some (some o) ∧ o.view = some v

/-- The accounts are right: what objects store is open, no two places store the same, and all that is open is stored, but
perhaps not handles of kernel mutexes. -/
structure Accounted (w : W) : Prop where
  stored : ∀ i s h, Slot w i s h → ∃ k, Open w h k
  once : ∀ i s h j u, Slot w i s h → Slot w j u h → i = j ∧ s = u
  all : ∀ h k, Open w h k → ¬ IsMutex w k → ∃ i s, Slot w i s h
  viewStored : ∀ i v, View w i v → ∃ k, w.views[v]? = some (some k)
  viewOnce : ∀ i j v, View w i v → View w j v → i = j
  viewAll : ∀ v k, w.views[v]? = some (some k) → ∃ i, View w i v

/-! ## Names -/

/-- How an object was created. -/
structure Made where
  cls : Cls
  name : Option Str
  size : Nat

/-- Which objects are created, and how, going by the results of `Create`. -/
def made (f : Nat → Option Made) (o : Op) (r : Bool) : Nat → Option Made :=
  match o with
  | .semCreate i name _ _ => fun j => if j = i then (if r then some ⟨.sem, name, 0⟩ else none) else f j
  | .evCreate i name _ _ _ => fun j => if j = i then (if r then some ⟨.event, name, 0⟩ else none) else f j
  | .rwCreate i name _ _ _ _ => fun j => if j = i then (if r then some ⟨.rw, name, 0⟩ else none) else f j
  | .memCreate i (some n) size _ _ _ =>
    fun j => if j = i then (if r then some ⟨.mem, some n, size⟩ else none) else f j
  | .mutexCreate i _ name _ => fun j => if j = i then (if r then some ⟨.mutex, name, 0⟩ else none) else f j
  | .destroy i _ => fun j => if j = i then none else f j
  | _ => f

/-- The same after a history. -/
def madeAll (f : Nat → Option Made) : List Op → List Out → Nat → Option Made
  | o :: os, r :: rs => madeAll (made f o r.result) os rs
  | _, _ => f

/-- `Mutex::Create` is not called on a mutex that is created. -/
def Tidy (f : Nat → Option Made) : Op → Prop
  | .mutexCreate i _ _ _ => f i = none
  | _ => True

/-- The same for a history. -/
def TidyAll (f : Nat → Option Made) : List Op → List Out → Prop
  | o :: os, r :: rs => Tidy f o ∧ TidyAll (made f o r.result) os rs
  | _, _ => True

/-! ## Counting -/

/-- The kernel object in the first place of an object. -/
def leads (w : W) (i : Nat) : Option Nat :=
  match w.objs[i]? with
  | some (some o) =>
    match o.hs[0]? with
    | some (some h) => (w.handles[h]?).join
    | _ => none
  | _ => none

/-- What a call adds to the count of semaphore `k`, going by its result. -/
def change (w : W) (k : Nat) (op : Op) (r : Bool) : Int :=
  match op with
  | .semLock i _ => if r = true ∧ leads w i = some k then -1 else 0
  | .semUnlock i _ => if r = true ∧ leads w i = some k then 1 else 0
  | _ => 0

/-- What a history adds. -/
def net (w : W) (k : Nat) : List Op → Int
  | [] => 0
  | op :: ops =>
    match step w op with
    | .ok (r, w') => change w k op r.result + net w' k ops
    | .error _ => 0

/-- Whether event `k` is signalled after a call, going by its result. -/
def signal (w : W) (k : Nat) (manual sig : Bool) (op : Op) (r : Bool) : Bool :=
  match op with
  | .evFire i _ => if r = true ∧ leads w i = some k then true else sig
  | .evReset i _ => if r = true ∧ leads w i = some k then false else sig
  | .evWait i _ => if r = true ∧ leads w i = some k then manual else sig
  | _ => sig

/-- The same after a history. -/
def signals (w : W) (k : Nat) (manual sig : Bool) : List Op → Bool
  | [] => sig
  | op :: ops =>
    match step w op with
    | .ok (r, w') => signals w' k manual (signal w k manual sig op r.result) ops
    | .error _ => sig

/-- How many waits for event `k` succeed. -/
def waits (w : W) (k : Nat) : List Op → Nat
  | [] => 0
  | op :: ops =>
    match step w op with
    | .ok (r, w') => (match op with
      | .evWait i _ => if r.result = true ∧ leads w i = some k then 1 else 0
      | _ => 0) + waits w' k ops
    | .error _ => 0

/-- How many times event `k` is fired. -/
def fires (w : W) (k : Nat) : List Op → Nat
  | [] => 0
  | op :: ops =>
    match step w op with
    | .ok (r, w') => (match op with
      | .evFire i _ => if r.result = true ∧ leads w i = some k then 1 else 0
      | _ => 0) + fires w' k ops
    | .error _ => 0

/-- How many times event `k` is reset. -/
def resets (w : W) (k : Nat) : List Op → Nat
  | [] => 0
  | op :: ops =>
    match step w op with
    | .ok (r, w') => (match op with
      | .evReset i _ => if r.result = true ∧ leads w i = some k then 1 else 0
      | _ => 0) + resets w' k ops
    | .error _ => 0

end Verif.WinSync.Spec
