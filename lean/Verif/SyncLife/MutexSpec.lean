import Verif.SyncLife.MutexModel

/-!
# What creating, locking and destroying a mutex should do
-/

namespace Verif.SyncLife.Mtx.Spec

/-- A mutex is gone, not created, or created (under a name or not) and held so many times by a thread (0: by nobody). -/
inductive St where
  | gone
  | closed
  | opened (named : Bool) (owner count : Nat)
  deriving DecidableEq

abbrev A := List St

/-- What a successful or failing `Create` leaves. -/
def created (name : Option Found) : Bool × St :=
  if name = some .no then (false, .closed) else (true, .opened name.isSome 0 0)

/-- A call: its result and the mutexes after. -/
def does (a : A) : Op → Bool × A
  | .construct => (true, a ++ [.closed])
  | .create i t name =>
    match a[i]? with
    | some .closed => ((created name).1, a.set i (created name).2)
    | some (.opened _ o _) => if o = t then ((created name).1, a.set i (created name).2) else (false, a)
    | _ => (false, a)
  | .lock i t got =>
    match a[i]? with
    | some (.opened n o c) =>
      if o = t then (true, a.set i (.opened n t (c + 1)))
      else if o = 0 ∧ got = true then (true, a.set i (.opened n t 1))
      else (false, a)
    | _ => (false, a)
  | .unlock i t all =>
    match a[i]? with
    | some (.opened n o c) =>
      if o = t then (if all = true ∨ c = 1 then (true, a.set i (.opened n 0 0)) else (true, a.set i (.opened n t (c - 1))))
      else (false, a)
    | _ => (false, a)
  | .destroy i _ => (true, a.set i .gone)

def doesAll (a : A) : List Op → List Bool × A
  | [] => ([], a)
  | o :: os => ((does a o).1 :: (doesAll (does a o).2 os).1, (doesAll (does a o).2 os).2)

/-- The mutex is there. -/
def There (a : A) (i : Nat) : Prop := a[i]? = some .closed ∨ ∃ n o c, a[i]? = some (.opened n o c)

/-- The histories covered.  A created mutex is created again only while somebody holds it; only created mutexes are
locked; nesting stays below 2^32. -/
def Legal (a : A) : Op → Prop
  | .construct => True
  | .create i t _ => 0 < t ∧ There a i ∧ ∀ n c, a[i]? ≠ some (.opened n 0 c)
  | .lock i t _ => 0 < t ∧ ∃ n o c, a[i]? = some (.opened n o c) ∧ c + 1 < 4294967296
  | .unlock i t _ => 0 < t ∧ There a i
  | .destroy i t => 0 < t ∧ There a i

def LegalAll (a : A) : List Op → Prop
  | [] => True
  | o :: os => Legal a o ∧ LegalAll (does a o).2 os

/-- The holder of a named mutex does not call `Create` on it, and nobody destroys a mutex that somebody else holds. -/
def Gentle (a : A) : Op → Prop
  | .create i t _ => ∀ c, a[i]? ≠ some (.opened true t c)
  | .destroy i t => ∀ n o c, a[i]? = some (.opened n o c) → o = 0 ∨ o = t
  | _ => True

def GentleAll (a : A) : List Op → Prop
  | [] => True
  | o :: os => Gentle a o ∧ GentleAll (does a o).2 os

end Verif.SyncLife.Mtx.Spec
