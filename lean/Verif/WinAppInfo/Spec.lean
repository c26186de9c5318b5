import Verif.Base
import Verif.Utf8.Spec

/-!
# Windows directory names
-/

namespace Verif.WinAppInfo.Spec
open Utf8.Spec

/-- With a trailing backslash. -/
def dirName (s : List Nat) : List Nat := if s.getLast? = some 92 then s else s ++ [92]

/-- The directory of an application below a directory. -/
def appDir (base : List Nat) (app : Option (List Nat)) : List Nat :=
  match app with
  | none => dirName base
  | some a => dirName (dirName base ++ a)

/-- A string is stored at the beginning of a buffer, terminated. -/
def Holds (buf s : List Nat) : Prop := ∃ rest, buf = s ++ 0 :: rest

/-- The outcome required of a function that delivers the string `p` into a buffer `b` said to have `z2`
bytes: no access outside the buffer; success exactly if the string, its terminator and one more byte
fit; on success the string is there and the size counts it with the terminator; on failure the size
is 0. -/
def Delivers (z2 : Nat) (b : List Nat) (p : List Nat) (res : CRes (Bool × Nat × List Nat)) : Prop :=
  ∃ ok z b', res = .ok (ok, z, b') ∧ b'.length = b.length ∧ (ok = true ↔ p.length + 1 < z2) ∧
    (ok = true → z = p.length + 1 ∧ Holds b' p) ∧ (ok = false → z = 0)

/-- The code points of a path: acceptable text that begins with an ASCII character (a drive letter or
a backslash). -/
def PathText (cps : List Nat) : Prop := GoodText cps ∧ ∃ c, cps.head? = some c ∧ c < 0x80

end Verif.WinAppInfo.Spec
