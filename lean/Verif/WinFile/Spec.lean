import Verif.File.Spec
import Verif.WinFile.Model

/-!
# What a file is, on Windows

A byte array with a cursor, as in `Verif.File.Spec`.
-/

namespace Verif.WinFile.Spec

open Verif.File (F Whence ReadRes WriteRes)
open Verif.File.Spec (A target clamp overwrite)

variable {α : Type}

/-- The operations, each with what the system does to its calls: `Seek`, `Read` of `n` bytes, `Write` of the bytes
at `buf + pos`. -/
inductive Op (α : Type) where
  | seek (w : Whence) (pos : Nat) (ok : Bool)
  | read (n : Nat) (sizeOk : Bool) (o : Sys)
  | write (buf : List α) (pos size : Nat) (o : Sys)

/-- The results. -/
inductive Out (α : Type) where
  | seek (ok : Bool)
  | read (r : ReadRes α)
  | write (r : WriteRes)

/-- What an operation does to the array, in a file opened for reading if `rd` and for writing if `wr`. -/
inductive Does (rd wr : Bool) (a : A α) : Op α → Out α → A α → Prop where
  | seek (w : Whence) (pos : Nat) :
    Does rd wr a (.seek w pos true) (.seek true) { a with cur := clamp a.bytes.length (target a w pos) }
  | seekFail (w : Whence) (pos : Nat) : Does rd wr a (.seek w pos false) (.seek false) a
  /-- the bytes at the cursor; none only at the end of the file; all of them unless the system cuts the transfer short -/
  | read (n : Nat) (s : Bool) (o : Sys) (k : Nat) (hm : rd = true) (hk : k ≤ n) (hb : a.cur + k ≤ a.bytes.length)
    (h0 : k = 0 → n = 0 ∨ a.cur = a.bytes.length) (hf : o = .all → k = min n (a.bytes.length - a.cur)) :
    Does rd wr a (.read n s o) (.read (.got ((a.bytes.drop a.cur).take k))) { a with cur := a.cur + k }
  | readFail (n : Nat) (s : Bool) (hm : rd = true) : Does rd wr a (.read n s .fail) (.read .failed) a
  | readRefuse (n : Nat) (s : Bool) (o : Sys) (hm : rd = false) : Does rd wr a (.read n s o) (.read .refused) a
  /-- the first `k` bytes are written, all of them unless the system cuts the transfer short, and `k` is reported -/
  | write (buf : List α) (pos size : Nat) (o : Sys) (k : Nat) (hm : wr = true) (hk : k ≤ size) (hf : o = .all → k = size) :
    Does rd wr a (.write buf pos size o) (.write (.done k))
      { bytes := overwrite a.bytes a.cur ((buf.drop pos).take k), cur := a.cur + k }
  | writeFail (buf : List α) (pos size : Nat) (hm : wr = true) :
    Does rd wr a (.write buf pos size .fail) (.write (.failed 0)) a
  | writeRefuse (buf : List α) (pos size : Nat) (o : Sys) (hm : wr = false) :
    Does rd wr a (.write buf pos size o) (.write .refused) a

/-- One operation of the class. -/
def perform (f : F α) : Op α → CRes (Out α × F α)
  | .seek w pos ok => .ok (.seek (seek f w pos ok).1, (seek f w pos ok).2)
  | .read n s o => .ok (.read (read f n s o).1, (read f n s o).2)
  | .write buf pos size o => do
    let (r, f) ← write f buf pos size o
    .ok (.write r, f)

/-- A history with its results. -/
def performAll (f : F α) : List (Op α) → CRes (List (Op α × Out α) × F α)
  | [] => .ok ([], f)
  | op :: ops => do
    let (out, f) ← perform f op
    let (h, f) ← performAll f ops
    .ok ((op, out) :: h, f)

/-- A history of a byte array with cursor. -/
inductive History (rd wr : Bool) : A α → List (Op α × Out α) → A α → Prop where
  | nil (a : A α) : History rd wr a [] a
  | cons {a b c : A α} {op : Op α} {out : Out α} {h : List (Op α × Out α)} (hd : Does rd wr a op out b)
    (ht : History rd wr b h c) : History rd wr a ((op, out) :: h) c

/-- Bytes asked to be written by the operations. -/
def total : List (Op α) → Nat
  | [] => 0
  | .write _ _ size _ :: ops => size + total ops
  | _ :: ops => total ops

/-- Forward seeks below 2^63, transfers below 4 GiB, buffers as large as said, and a system that can tell the size of
the file. -/
def Plain : Op α → Prop
  | .seek w pos _ => w = .forward → pos < 2 ^ 63
  | .read n s _ => n < 2 ^ 32 ∧ s = true
  | .write buf pos size _ => pos + size ≤ buf.length ∧ size < 2 ^ 32

/-- What the flags ask for: the contents the file has after a successful opening. -/
def wanted (disk : Option (List α)) (creat excl trunc : Bool) : Option (List α) :=
  match disk with
  | none => if creat then some [] else none
  | some d => if creat && excl then none else if trunc then some [] else some d

end Verif.WinFile.Spec
