import Verif.DirList.Model

/-!
# What listing a directory should do, in words: an object is nothing but the names still to come
-/

namespace Verif.DirList.Spec

/-- The objects: destroyed, closed, or open with the names still to come. -/
abbrev A := List (Option (Option (List Name)))

/-- The buffer holds this name, terminated, and is unchanged behind it. -/
def Holds (old buf : List Nat) (e : Name) : Prop := buf = e ++ 0 :: old.drop (e.length + 1)

/-- A call, its result and the objects before and after. -/
inductive Does : A → Op → Out → A → Prop where
  | create (a : A) : Does a .create ⟨true, []⟩ (a ++ [some none])
  | openYes (a : A) (i : Nat) (es : List Name) : Does a (.open i (some es)) ⟨true, []⟩ (a.set i (some (some es)))
  | openNo (a : A) (i : Nat) : Does a (.open i none) ⟨false, []⟩ (a.set i (some none))
  | readClosed (a : A) (i : Nat) (buf : List Nat) (size : Nat) (h : a[i]? = some (some none)) :
    Does a (.read i buf size) ⟨false, buf⟩ a
  | readEnd (a : A) (i : Nat) (buf : List Nat) (size : Nat) (h : a[i]? = some (some (some []))) :
    Does a (.read i buf size) ⟨false, buf⟩ (a.set i (some none))
  | readName (a : A) (i : Nat) (buf buf' : List Nat) (size : Nat) (e : Name) (es : List Name)
    (h : a[i]? = some (some (some (e :: es)))) (hs : e.length < size) (hb : Holds buf buf' e) :
    Does a (.read i buf size) ⟨true, buf'⟩ (a.set i (some (some es)))
  | readLong (a : A) (i : Nat) (buf : List Nat) (size : Nat) (e : Name) (es : List Name)
    (h : a[i]? = some (some (some (e :: es)))) (hs : size ≤ e.length) :
    Does a (.read i buf size) ⟨false, buf⟩ (a.set i (some (some es)))
  | closeOpen (a : A) (i : Nat) (es : List Name) (h : a[i]? = some (some (some es))) :
    Does a (.close i) ⟨true, []⟩ (a.set i (some none))
  | closeClosed (a : A) (i : Nat) (h : a[i]? = some (some none)) : Does a (.close i) ⟨false, []⟩ a
  | destroy (a : A) (i : Nat) : Does a (.destroy i) ⟨true, []⟩ (a.set i none)

/-- A history. -/
inductive DoesAll : A → List Op → List Out → A → Prop where
  | nil (a : A) : DoesAll a [] [] a
  | cons {a b c : A} {o : Op} {r : Out} {os : List Op} {rs : List Out} (h : Does a o r b) (hs : DoesAll b os rs c) :
    DoesAll a (o :: os) (r :: rs) c

/-- The caller's part, given which objects there are: the object is one of them, and the buffer has the size they
say. -/
def Legal (objs : List Bool) : Op → Prop
  | .create => True
  | .open i _ | .close i | .destroy i => objs[i]? = some true
  | .read i buf size => objs[i]? = some true ∧ size ≤ buf.length

/-- The objects after a call. -/
def next (objs : List Bool) : Op → List Bool
  | .create => objs ++ [true]
  | .destroy i => objs.set i false
  | _ => objs

/-- A history in which the caller always does their part. -/
def LegalAll (objs : List Bool) : List Op → Prop
  | [] => True
  | o :: os => Legal objs o ∧ LegalAll (next objs o) os

end Verif.DirList.Spec
