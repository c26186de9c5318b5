import Verif.WinList.Model
import Verif.Utf8.Spec

/-!
# What listing a directory should do, in words: an object is nothing but the names still to come
-/

namespace Verif.WinList.Spec
open Verif.Utf8.Spec (GoodText text)

/-- The objects: destroyed, or with the names still to come; none of them if it is closed. -/
abbrev A := List (Option (List Name))

/-- The UTF-8 form `u` of the name `e`: `e` is UTF-16 text that does not begin with a combining mark. -/
def Form (e : Name) (u : List Nat) : Prop := ∃ cps, GoodText cps ∧ 0 ∉ cps ∧ e = text 2 cps ∧ u = text 1 cps

/-- The buffer holds this string, terminated, and is unchanged behind it. -/
def Holds (old buf : List Nat) (u : List Nat) : Prop := buf = u ++ 0 :: old.drop (u.length + 1)

/-- What `Read` does with the buffer for the name `e`.  In any case it writes only within the size given.  If the name has a UTF-8
form: with more room than needed this form is given; with exactly the room needed the name is refused; with less room,
if it is not refused, some of the characters are given, in order. -/
structure Gives (e : Name) (old : List Nat) (size : Nat) (ok : Bool) (buf : List Nat) : Prop where
  inside : buf.length = old.length ∧ buf.drop size = old.drop size
  room : ∀ u, Form e u → u.length + 1 < size → ok = true ∧ Holds old buf u
  exact : ∀ u, Form e u → u.length + 1 = size → ok = false
  less : ∀ u, Form e u → ok = true → ∃ cps kept, e = text 2 cps ∧ List.Sublist kept cps ∧ (text 1 kept).length + 1 < size ∧ Holds old buf (text 1 kept)

/-- A call, its result and the objects before and after. -/
inductive Does : A → Op → Out → A → Prop where
  | create (a : A) : Does a .create ⟨true, []⟩ (a ++ [some []])
  | openYes (a : A) (i : Nat) (e : Name) (es : List Name) : Does a (.open i (some (e, es))) ⟨true, []⟩ (a.set i (some (e :: es)))
  | openNo (a : A) (i : Nat) : Does a (.open i none) ⟨false, []⟩ (a.set i (some []))
  | readClosed (a : A) (i : Nat) (buf : List Nat) (size : Nat) (h : a[i]? = some (some [])) :
    Does a (.read i buf size) ⟨false, buf⟩ a
  | readName (a : A) (i : Nat) (buf buf' : List Nat) (size : Nat) (e : Name) (es : List Name)
    (h : a[i]? = some (some (e :: es))) (hb : Gives e buf size true buf') :
    Does a (.read i buf size) ⟨true, buf'⟩ (a.set i (some es))
  | readRefused (a : A) (i : Nat) (buf buf' : List Nat) (size : Nat) (e : Name) (es : List Name)
    (h : a[i]? = some (some (e :: es))) (hb : Gives e buf size false buf') :
    Does a (.read i buf size) ⟨false, buf'⟩ a
  | closeOpen (a : A) (i : Nat) (e : Name) (es : List Name) (h : a[i]? = some (some (e :: es))) :
    Does a (.close i) ⟨true, []⟩ (a.set i (some []))
  | closeClosed (a : A) (i : Nat) (h : a[i]? = some (some [])) : Does a (.close i) ⟨false, []⟩ a
  | destroy (a : A) (i : Nat) : Does a (.destroy i) ⟨true, []⟩ (a.set i none)

/-- A history. -/
inductive DoesAll : A → List Op → List Out → A → Prop where
  | nil (a : A) : DoesAll a [] [] a
  | cons {a b c : A} {o : Op} {r : Out} {os : List Op} {rs : List Out} (h : Does a o r b) (hs : DoesAll b os rs c) :
    DoesAll a (o :: os) (r :: rs) c

/-- The caller's part, given which objects there are: the object is one of them, and the buffer has the size they
say. -/
def Legal (objs : List Bool) : Op → Prop
  | .create => True
  | .open i _ | .close i | .destroy i => objs[i]? = some true
  | .read i buf size => objs[i]? = some true ∧ size ≤ buf.length

/-- The objects after a call. -/
def next (objs : List Bool) : Op → List Bool
  | .create => objs ++ [true]
  | .destroy i => objs.set i false
  | _ => objs

/-- A history in which the caller always does their part. -/
def LegalAll (objs : List Bool) : List Op → Prop
  | [] => True
  | o :: os => Legal objs o ∧ LegalAll (next objs o) os

end Verif.WinList.Spec
