import Verif.Utf8Var.Model
import Verif.MixedVar.Spec
import Verif.Utf8.Spec

/-!
# Specification of wide text in a mixed variable
-/

namespace Verif.Utf8Var.Spec
open Verif.MixedVar.Spec Verif.Utf8.Spec

/-- The UTF-8 bytes of some code points. -/
def bytes (cps : List Nat) : List UInt8 := (text 1 cps).map UInt8.ofNat

/-- A text for an array of `n` bytes: without its last byte if it fills the array or if that byte is NUL. -/
def trim (n : Nat) (t : List UInt8) : List UInt8 :=
  if t.length = n ∨ t.getLast? = some 0 then t.dropLast else t

/-- What a call does to the text.  For wide text: some acceptable code points are encoded after the old text. -/
def Effect (n : Nat) (old new : List UInt8) : Op → Prop
  | .base o => MixedVar.Spec.Effect (n - 1) old new o
  | .setUTF8 _ _ => ∃ cps, GoodText cps ∧ (bytes cps).length ≤ n ∧ new = trim n (bytes cps)
  | .appendUTF8 src => ∃ cps, GoodText cps ∧ old.length + (bytes cps).length ≤ n ∧ (bytes cps).length ≤ src.length ∧
      new = trim n (old ++ bytes cps)

def Legal : Op → Prop
  | .base o => MixedVar.Spec.Legal o
  | .setUTF8 mem size => size ≤ mem.length
  | .appendUTF8 src => 0 ∉ src

/-- Calls that write the terminator in every case. -/
def WritesNul : Op → Prop
  | .base o => MixedVar.Spec.WritesNul o
  | _ => True

/-- The text after a history. -/
inductive Effects (n : Nat) : List UInt8 → List Op → List UInt8 → Prop
  | nil {t} : Effects n t [] t
  | cons {t o u os w} : Effect n t u o → Effects n u os w → Effects n t (o :: os) w

end Verif.Utf8Var.Spec
