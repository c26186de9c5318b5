import Verif.WinReal.Model
import Verif.WinAbs.Props
import Verif.WinLink.Spec

/-!
# The real name of a file

Names are lists of code points here, which the system gets in UTF-16 and the user in UTF-8.
-/

namespace Verif.WinReal.Spec
open Verif.Utf8.Spec (text Valid Combining)
open Verif.WinOps (REPARSE)
open Verif.WinLink (Reparse)
open Verif.WinLink.Spec (Stored TargetFirst target)
open Verif.WinAbs (Fine)
open Verif.WinAbs.Spec (volume path comps)
open Verif.WinPath.Spec (uni canon normal)
open Verif.Path.Spec (walk)

/-- The entry is a symbolic link or a mount point. -/
def IsLink (e : Found) : Prop := (e.attrs &&& REPARSE) ≠ 0#32 ∧ e.tag ≠ .other

/-- Text without zeros that does not begin with a combining mark (see C31). -/
def Word (l : List Nat) : Prop := (∀ c ∈ l, Valid c ∧ c ≠ 0) ∧ ∀ c, l.head? = some c → ¬ Combining c

/-- A path of at most 8180 bytes in UTF-8. -/
def Room (p : List Nat) : Prop := (text 1 p).length ≤ 8180

/-- Going down from the directory `p` along the given components, without links: the component is replaced by the name of the entry
found under it (which differs in case, or is the long name for a short one), or stays if there is none. -/
inductive Walk (S : Sys) : List Nat → List (List Nat) → List Nat → Prop
  | nil (p : List Nat) : Walk S p [] p
  | missing {p c r : List Nat} {cs : List (List Nat)} : Room (p ++ 92 :: c) → S.find (text 2 (p ++ 92 :: c)) = none →
      Walk S (p ++ 92 :: c) cs r → Walk S p (c :: cs) r
  | entry {p c l r : List Nat} {cs : List (List Nat)} {e : Found} : Room (p ++ 92 :: c) →
      S.find (text 2 (p ++ 92 :: c)) = some e → ¬ IsLink e → e.name = text 2 l → Word l → Room (p ++ 92 :: l) →
      Walk S (p ++ 92 :: l) cs r → Walk S p (c :: cs) r

/-- A link that names its target first, as mount points do, by at most 1365 characters of ASCII that are a full name `t`; its volume is not the host `.` or `..`. -/
structure LeadsTo (m : Reparse) (t : List Nat) : Prop where
  stored : Stored m
  units : ∀ x ∈ m.path, x < 0x10000
  first : TargetFirst m
  short : m.len ≤ 2730
  some : m.len ≠ 0
  target : target m = t
  fine : Fine t
  full : uni <+: normal (canon t)
  host : ¬ [92, 46] <:+ volume (normal (canon t)) ∧ ¬ [92, 46, 46] <:+ volume (normal (canon t))

/-- The components of the target. -/
def below (t : List Nat) : List (List Nat) := walk [] (comps (path (normal (canon t))))

/-- The same with at most `k` links: one that can be read is replaced by its target, from which the walk begins again; one that cannot
is an entry like others. -/
inductive Real (S : Sys) : Nat → List Nat → List (List Nat) → List Nat → Prop
  | nil (k : Nat) (p : List Nat) : Real S k p [] p
  | missing {k : Nat} {p c r : List Nat} {cs : List (List Nat)} : Room (p ++ 92 :: c) → S.find (text 2 (p ++ 92 :: c)) = none →
      Real S k (p ++ 92 :: c) cs r → Real S k p (c :: cs) r
  | entry {k : Nat} {p c l r : List Nat} {cs : List (List Nat)} {e : Found} : Room (p ++ 92 :: c) →
      S.find (text 2 (p ++ 92 :: c)) = some e → ¬ IsLink e → e.name = text 2 l → Word l → Room (p ++ 92 :: l) →
      Real S k (p ++ 92 :: l) cs r → Real S k p (c :: cs) r
  | locked {k : Nat} {p c l r : List Nat} {cs : List (List Nat)} {e : Found} : Room (p ++ 92 :: c) →
      S.find (text 2 (p ++ 92 :: c)) = some e → IsLink e → S.reparse (text 2 (p ++ 92 :: c)) = none →
      e.name = text 2 l → Word l → Room (p ++ 92 :: l) → Real S k (p ++ 92 :: l) cs r → Real S (k + 1) p (c :: cs) r
  | mount {k : Nat} {p c t r : List Nat} {cs : List (List Nat)} {e : Found} {m : Reparse} : Room (p ++ 92 :: c) →
      S.find (text 2 (p ++ 92 :: c)) = some e → IsLink e → S.reparse (text 2 (p ++ 92 :: c)) = some m → LeadsTo m t →
      (volume (normal (canon t)) ++ (below t ++ cs).flatMap (92 :: ·)).length ≤ 8180 →
      Real S k (volume (normal (canon t))) (below t ++ cs) r → Real S (k + 1) p (c :: cs) r

/-- A backslash at the end stays. -/
def trail (s : List Nat) : List Nat := if s.getLast? = some 92 then [92] else []

end Verif.WinReal.Spec
