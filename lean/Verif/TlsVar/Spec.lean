import Verif.TlsVar.Model
import Verif.MixedVar.Spec
import Verif.FastFind.Spec

/-!
# Specification of the thread-local mixed variables

The observable state of a variable: its mode, integer and double, and `GetStr()[0 .. GetSize())`, or nothing if `GetStr()` is
NULL.  A byte is `none` if it was never written (after growing with `SetSize`).
-/

namespace Verif.TlsVar.Spec
open Verif.MixedVar (Mode toI64 cstr)
open Verif.MixedVar.Spec (IntText)

abbrev Text := List (Option UInt8)

structure Obs where
  mode : Mode
  int : Int
  dbl : UInt64
  str : Option Text

/-- A variable without text counts as one with the empty text. -/
def Obs.text (o : Obs) : Text :=
  match o.str with
  | none => []
  | some t => t

/-- The text is replaced, the rest stays. -/
def Obs.with (o : Obs) (t : Text) : Obs := { o with str := some t }

/-- Bytes the caller passed. -/
def known (t : List UInt8) : Text := t.map some

/-- The text of an integer is added by `f` if it has at most 43 characters; specified for radix 2 to 36. -/
def addInt (o o' : Obs) (n : Int) (radix : Nat) (f : Text → Text) : Prop :=
  o'.mode = o.mode ∧ o'.int = o.int ∧ o'.dbl = o.dbl ∧
    (2 ≤ radix ∧ radix ≤ 36 → ∃ t, IntText radix n t ∧ o' = if t.length ≤ 43 then o.with (f (known t)) else o)

/-- What a call does. -/
def Does (o o' : Obs) : Call → Prop
  | .setBool b => o' = { o with mode := .bool, int := if b then 1 else 0 }
  | .setInt n => o' = { o with mode := .int, int := n }
  | .setUInt n => o' = { o with mode := .uint, int := toI64 n }
  | .setDouble d => o' = { o with mode := .double, dbl := d }
  | .setStr t => o' = { o with mode := .str, str := some (known (cstr t)) }
  | .setData mem n => o' = { o with mode := .str, str := some (known (mem.take n)) }
  | .prependStr t | .prependDouble t => o' = o.with (known (cstr t) ++ o.text)
  | .prependData mem n => o' = o.with (known (mem.take n) ++ o.text)
  | .prependInt n r => addInt o o' n r (fun t => t ++ o.text)
  | .prependUInt n r => addInt o o' n r (fun t => t ++ o.text)
  | .appendStr t | .appendDouble t => o' = o.with (o.text ++ known (cstr t))
  | .appendData mem n => o' = o.with (o.text ++ known (mem.take n))
  | .appendInt n r => addInt o o' n r (fun t => o.text ++ t)
  | .appendUInt n r => addInt o o' n r (fun t => o.text ++ t)
  | .appendChar c => o' = o.with (o.text ++ [some c])
  | .appendMissingChar c => o' = if o.text.getLast? = some (some c) then o else o.with (o.text ++ [some c])
  | .removeTrailingChar c => o' = if o.text.getLast? = some (some c) then o.with o.text.dropLast else o
  | .setSize n => ∃ t, t.length = n ∧ t.take o.text.length = o.text.take n ∧ o' = o.with t

/-- What the caller must respect; texts with their terminator have at most `2 ^ K` bytes. -/
def Allowed (K : Nat) (o : Obs) : Call → Prop
  | .setBool _ | .setInt _ | .setUInt _ | .setDouble _ => True
  | .setStr t => (cstr t).length + 1 ≤ 2 ^ K
  | .setData mem n => n ≤ mem.length ∧ n + 1 ≤ 2 ^ K
  | .prependStr t | .prependDouble t | .appendStr t | .appendDouble t => o.text.length + (cstr t).length + 1 ≤ 2 ^ K
  | .prependData mem n | .appendData mem n => n ≤ mem.length ∧ o.text.length + n + 1 ≤ 2 ^ K
  | .prependInt n r | .appendInt n r => r ≠ 0 ∧ -(2 ^ 63) < n ∧ o.text.length + 45 ≤ 2 ^ K
  | .prependUInt _ r | .appendUInt _ r => r ≠ 0 ∧ o.text.length + 45 ≤ 2 ^ K
  | .appendChar _ => o.text.length + 2 ≤ 2 ^ K
  | .appendMissingChar _ => o.text.length + 2 ≤ 2 ^ K ∧ o.text.getLast? ≠ some none
  | .removeTrailingChar _ => o.text.getLast? ≠ some none
  | .setSize n => n + 1 ≤ 2 ^ K ∧ (o.str = none → n ≠ 0)

/-- Replacing all occurrences of `src` in `t` by `dest`, from left to right and not overlapping, is `k` replacements and
gives `out` (an empty `src` does not occur). -/
def ReplacedAll (src dest t : List UInt8) (k : Nat) (out : List UInt8) : Prop :=
  (src = [] ∧ k = 0 ∧ out = t) ∨ (src ≠ [] ∧ ∃ n, k < n ∧ FastFind.Spec.Replaced (· == ·) src dest n k t out)

/-- The growth of the result in one step. -/
def growth (src dest : List UInt8) : Nat := max 1024 ((dest.length - src.length) * 50)

/-- What the caller of `ReplaceData` must respect, `ov`: all bytes have values; a longer `dest` leaves room for the growth,
and a shorter one needs a text and a `memcpy` that copes with overlapping ranges. -/
def AllowedReplace (K : Nat) (ov : Bool) (o : Obs) (src dest t : List UInt8) : Prop :=
  o.text = known t ∧ t.length < 2 ^ 64 ∧ src.length < 2 ^ 64 ∧
    (src.length < dest.length → ∀ k out, ReplacedAll src dest t k out →
      t.length + growth src dest + 1 ≤ 2 ^ K ∧ out.length + growth src dest + 1 ≤ 2 ^ K) ∧
    (dest.length ≤ src.length → ov = true ∧ o.str ≠ none)

/-- All variables; `none`: there is no such variable. -/
abbrev Vars := Nat → Option Obs

/-- The variable `i` changes to `x`, the others stay. -/
def upd (σ : Vars) (i : Nat) (x : Option Obs) : Vars := fun k => if k = i then x else σ k

/-- What the program may do; the system has memory. -/
def Legal (K : Nat) (σ : Vars) : Op → Prop
  | .create i => σ i = none
  | .destroy i => σ i ≠ none
  | .assign i j ok => ok = true ∧ ∃ o u, σ i = some o ∧ σ j = some u ∧ u.text.length + 1 ≤ 2 ^ K
  | .call i ok c => ok = true ∧ ∃ o, σ i = some o ∧ Allowed K o c
  | .replace i ok ov src dest => ok = true ∧ ∃ o t, σ i = some o ∧ AllowedReplace K ov o src dest t

/-- What each step does. -/
def Effect (σ σ' : Vars) : Op → Prop
  | .create i => σ' = upd σ i (some { mode := .none, int := 0, dbl := 0, str := none })
  | .destroy i => σ' = upd σ i none
  | .assign i j _ => σ' = upd σ i (σ j)
  | .call i _ c => ∃ o o', σ i = some o ∧ Does o o' c ∧ σ' = upd σ i (some o')
  | .replace i _ _ src dest => ∃ o t k out, σ i = some o ∧ o.text = known t ∧ ReplacedAll src dest t k out ∧
      σ' = upd σ i (some (o.with (known out)))

/-- The variable looks like this to its user, who reads the members and the bytes of the text; the text is terminated. -/
def Looks (s : Tls.St) (v : Var) (o : Obs) : Prop :=
  v.mode = o.mode ∧ v.mxInt = o.int ∧ v.dbl = o.dbl ∧ v.pos = o.text.length ∧ (v.ptr = .null ↔ o.str = none) ∧
    ∀ t, o.str = some t → (∀ (i : Nat) c, t[i]? = some c → Tls.peek s v.ptr i = .ok c) ∧
      Tls.peek s v.ptr t.length = .ok (some 0)

/-- The whole program state looks like this. -/
def Shows (w : World) (σ : Vars) : Prop :=
  ∀ i, match w.v i, σ i with
    | none, none => True
    | some v, some o => Looks w.s v o
    | _, _ => False

/-- The states a legal program can reach. -/
inductive Reach (m K : Nat) : World → Prop
  | start : Reach m K (World.start m)
  | step {w w' : World} {σ : Vars} {op : Op} : Reach m K w → Shows w σ → Legal K σ op → TlsVar.step w op = .ok w' → Reach m K w'

end Verif.TlsVar.Spec
