import Verif.SyncLife.Model

/-!
# What creating and destroying sync objects should do, in words

An object is gone, not created, or created; nothing else matters.
-/

namespace Verif.SyncLife.Spec

/-- An object of a class; `size` is the size of a created `SharedMem`. -/
inductive St where
  | gone
  | closed (c : Cls)
  | opened (c : Cls) (size : Nat)
  deriving DecidableEq

abbrev A := List St

/-- The system can map a shared memory of this size: the number of bytes, as the code computes it in 64 bits, is not
zero. -/
def Mappable (p : Par) (size : Nat) : Bool := decide
  (0 < (size + p.start) % 18446744073709551616 ∧ (size + p.start) % 18446744073709551616 + p.al ≤ 18446744073709551616)

/-- `Create` on an object of class `c` (`st` is its state before): the result and its state after. -/
def created (p : Par) (st : St) (c : Cls) (name : Option Found) (size : Nat) : Bool × St :=
  match name with
  | none => if c = .mem then (false, st) else (true, .opened c 0)
  | some .no => (false, .closed c)
  | some _ =>
    if c = .mem then (if Mappable p size then (true, .opened c size) else (false, .closed c))
    else (true, .opened c 0)

/-- A call: its result and the objects after. -/
def does (p : Par) (a : A) : Op → Bool × A
  | .construct c => (true, a ++ [.closed c])
  | .create i name size =>
    match a[i]? with
    | some (.closed c) => ((created p (.closed c) c name size).1, a.set i (created p (.closed c) c name size).2)
    | some (.opened c n) => ((created p (.opened c n) c name size).1, a.set i (created p (.opened c n) c name size).2)
    | _ => (false, a)
  | .use i r =>
    match a[i]? with
    | some (.opened _ _) => (r, a)
    | _ => (false, a)
  | .access _ _ _ => (true, a)
  | .destroy i => (true, a.set i .gone)

/-- A history. -/
def doesAll (p : Par) (a : A) : List Op → List Bool × A
  | [] => ([], a)
  | o :: os => ((does p a o).1 :: (doesAll p (does p a o).2 os).1, (doesAll p (does p a o).2 os).2)

/-- The object is there. -/
def There (a : A) (i : Nat) : Prop := (∃ c, a[i]? = some (.closed c)) ∨ ∃ c n, a[i]? = some (.opened c n)

/-- It is an object of one of the classes with functions to call. -/
def Callable (a : A) (i : Nat) : Prop :=
  (∃ c, c ≠ .mem ∧ a[i]? = some (.closed c)) ∨ ∃ c n, c ≠ .mem ∧ a[i]? = some (.opened c n)

/-- The caller's part: the object is there; they access the shared memory only when it was created, and only inside its
size (and not with a size near the end of the address space). -/
def Legal (p : Par) (a : A) : Op → Prop
  | .construct _ => True
  | .create i _ _ | .destroy i => There a i
  | .use i _ => Callable a i
  | .access i off n => ∃ size, a[i]? = some (.opened .mem size) ∧ off + n ≤ size ∧
      size + p.start + p.al ≤ 18446744073709551616

def LegalAll (p : Par) (a : A) : List Op → Prop
  | [] => True
  | o :: os => Legal p a o ∧ LegalAll p (does p a o).2 os

/-- What is assumed of the platform: the alignment unit divides the page size and 2^64, the header of named memory fits
in a page, `pthread` objects are not empty and not enormous. -/
structure Platform (p : Par) : Prop where
  al : 0 < p.al
  alPage : p.al ∣ p.page
  alWord : p.al ∣ 18446744073709551616
  page : 0 < p.page
  pageSmall : p.page ≤ 4294967296
  mutex : 0 < p.msz
  mutexSmall : p.msz ≤ 4294967296
  cond : 0 < p.csz
  condSmall : p.csz ≤ 4294967296
  header : p.start ≤ p.page

end Verif.SyncLife.Spec
