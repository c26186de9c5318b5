import Verif.MixedVar.Model
import Verif.ConvertInt.Spec

/-!
# Specification of the mixed variable's text
-/

namespace Verif.MixedVar.Spec
open Verif.ConvertInt.Spec (IsRendering)

/-- The stored text, `GetStr()[0 .. GetSize())`. -/
def content (v : V) : List UInt8 := v.str.take v.pos

/-- The byte after the text is NUL. -/
def Terminated (v : V) : Prop := v.str[v.pos]? = some 0

/-- The text of an integer in a radix: a minus sign if negative and the numeral of the magnitude. -/
def IntText (radix : Nat) (n : Int) (t : List UInt8) : Prop :=
  ∃ u, IsRendering radix 0 n.natAbs u ∧ t = (if n < 0 then [45] else []) ++ u

/-- Appending: the longest prefix that fits in `cap` characters. -/
def app (cap : Nat) (old new : List UInt8) : List UInt8 := (old ++ new).take cap

/-- Prepending: all or nothing (the code wants one character of spare room). -/
def pre (cap : Nat) (old new : List UInt8) : List UInt8 :=
  if old.length + new.length < cap then new ++ old else old

/-- What a call does to the text; `cap` is the buffer size less one.  The text of an integer is added if it has at most
43 characters. -/
def Effect (cap : Nat) (old new : List UInt8) : Op → Prop
  | .setBool _ | .setInt _ | .setUInt _ | .setDouble _ => new = old
  | .setStr s => new = (cstr s).take cap
  | .setData mem n => new = (mem.take n).take cap
  | .prependStr s | .prependDouble s => new = pre cap old (cstr s)
  | .prependData mem n => new = pre cap old (mem.take n)
  | .prependInt n r => 2 ≤ r ∧ r ≤ 36 → ∃ t, IntText r n t ∧ new = if t.length ≤ 43 then pre cap old t else old
  | .prependUInt n r => 2 ≤ r ∧ r ≤ 36 → ∃ t, IntText r n t ∧ new = if t.length ≤ 43 then pre cap old t else old
  | .appendStr s | .appendDouble s => new = app cap old (cstr s)
  | .appendData mem n => new = app cap old (mem.take n)
  | .appendInt n r => 2 ≤ r ∧ r ≤ 36 → ∃ t, IntText r n t ∧ new = if t.length ≤ 43 then app cap old t else old
  | .appendUInt n r => 2 ≤ r ∧ r ≤ 36 → ∃ t, IntText r n t ∧ new = if t.length ≤ 43 then app cap old t else old
  | .appendChar c => new = app cap old [c]
  | .appendMissingChar c => new = if old.getLast? = some c then old else app cap old [c]
  | .removeTrailingChar c => new = if old.getLast? = some c then old.dropLast else old
  | .setSize n => if n ≤ cap then new.length = n ∧ new.take old.length = old.take n else new = old

/-- Arguments the caller must respect. -/
def Legal : Op → Prop
  | .setData mem n | .prependData mem n | .appendData mem n => n ≤ mem.length
  | .prependInt n r | .appendInt n r => -(2 ^ 63) < n ∧ n < 2 ^ 63 ∧ r ≠ 0
  | .prependUInt n r | .appendUInt n r => n < 2 ^ 64 ∧ r ≠ 0
  | _ => True

/-- Calls that write the terminator in every case. -/
def WritesNul : Op → Prop
  | .setStr _ | .setData _ _ | .appendStr _ | .appendData _ _ | .appendDouble _ => True
  | _ => False

/-- The text after a history. -/
inductive Effects (cap : Nat) : List UInt8 → List Op → List UInt8 → Prop
  | nil {t} : Effects cap t [] t
  | cons {t o u os w} : Effect cap t u o → Effects cap u os w → Effects cap t (o :: os) w

end Verif.MixedVar.Spec
