import Verif.File.Model

/-!
# What a file is

A byte array with a cursor, in terms of the operations and their results.
-/

namespace Verif.File.Spec

/-- The bytes and the cursor. -/
structure A (α : Type) where
  bytes : List α
  cur : Nat

variable {α : Type}

/-- The operations: `Seek`, `Read` of `n` bytes, `Write` of the bytes at `buf + pos`. -/
inductive Op (α : Type) where
  | seek (w : Whence) (pos : Nat)
  | read (n : Nat) (o : List Sys)
  | write (buf : List α) (pos size : Nat) (o : List Sys)

inductive Out (α : Type) where
  | seek (ok : Bool)
  | read (r : ReadRes α)
  | write (r : WriteRes)

/-- Where a seek should go, before it is clamped to the file. -/
def target (a : A α) (w : Whence) (pos : Nat) : Int :=
  match w with
  | .start => pos
  | .fromEnd => (a.bytes.length : Int) - pos
  | .forward => (a.cur : Int) + pos
  | .backward => (a.cur : Int) - pos
  | .other => a.cur

/-- The nearest position inside a file of `n` bytes. -/
def clamp (n : Nat) (t : Int) : Nat := min n t.toNat

/-- Replacing the bytes from the cursor on, the file growing as needed. -/
def overwrite (bytes : List α) (cur : Nat) (new : List α) : List α :=
  bytes.take cur ++ new ++ bytes.drop (cur + new.length)

/-- The operation has a proper result, and this is what it does to the array. -/
inductive Does (a : A α) : Op α → Out α → A α → Prop where
  | seek (w : Whence) (pos : Nat) :
    Does a (.seek w pos) (.seek true) { a with cur := clamp a.bytes.length (target a w pos) }
  /-- the bytes at the cursor; none only at the end of the file; all of them if the kernel does not
  cut the transfer short -/
  | read (n : Nat) (o : List Sys) (k : Nat) (hk : k ≤ n) (hb : a.cur + k ≤ a.bytes.length)
    (h0 : k = 0 → n = 0 ∨ a.cur = a.bytes.length) (hf : (∀ k, Sys.some k ∉ o) → k = min n (a.bytes.length - a.cur)) :
    Does a (.read n o) (.read (.got ((a.bytes.drop a.cur).take k))) { a with cur := a.cur + k }
  /-- a failing read changes nothing -/
  | readFail (n : Nat) (o : List Sys) (h : Sys.fail ∈ o) : Does a (.read n o) (.read .failed) a
  | write (buf : List α) (pos size : Nat) (o : List Sys) :
    Does a (.write buf pos size o) (.write (.done size))
      { bytes := overwrite a.bytes a.cur ((buf.drop pos).take size), cur := a.cur + size }

/-- The file was opened for this operation. -/
def permitted (rd wr : Bool) : Op α → Prop
  | .seek _ _ => True
  | .read _ _ => rd = true
  | .write _ _ _ _ => wr = true

/-- The same, with the access mode: what the file was not opened for is refused and changes nothing. -/
inductive Acts (rd wr : Bool) (a : A α) : Op α → Out α → A α → Prop where
  | does {op : Op α} {out : Out α} {b : A α} (hm : permitted rd wr op) (hd : Does a op out b) : Acts rd wr a op out b
  | refuseRead (n : Nat) (o : List Sys) (hm : rd = false) : Acts rd wr a (.read n o) (.read .refused) a
  | refuseWrite (buf : List α) (pos size : Nat) (o : List Sys) (hm : wr = false) :
    Acts rd wr a (.write buf pos size o) (.write .refused) a

/-- One operation of the class. -/
def perform (f : F α) : Op α → CRes (Out α × F α)
  | .seek w pos => .ok (.seek (seek f w pos).1, (seek f w pos).2)
  | .read n o => .ok (.read (read f n o).1, (read f n o).2)
  | .write buf pos size o => do
    let (r, f) ← write f buf pos size o
    .ok (.write r, f)

/-- A history with its results. -/
def performAll (f : F α) : List (Op α) → CRes (List (Op α × Out α) × F α)
  | [] => .ok ([], f)
  | op :: ops => do
    let (out, f) ← perform f op
    let (h, f) ← performAll f ops
    .ok ((op, out) :: h, f)

/-- A history of a byte array with cursor. -/
inductive History (rd wr : Bool) : A α → List (Op α × Out α) → A α → Prop where
  | nil (a : A α) : History rd wr a [] a
  | cons {a b c : A α} {op : Op α} {out : Out α} {h : List (Op α × Out α)} (hd : Acts rd wr a op out b)
    (ht : History rd wr b h c) : History rd wr a ((op, out) :: h) c

/-- The part of the first line before its terminator (CR, LF or CR LF), and what follows it. -/
def splitLine : List UInt8 → List UInt8 × List UInt8
  | [] => ([], [])
  | 10 :: r => ([], r)
  | [13] => ([], [])
  | 13 :: 10 :: r => ([], r)
  | 13 :: r => ([], r)
  | c :: r => (c :: (splitLine r).1, (splitLine r).2)

/-- NUL characters are shown as blanks. -/
def blank (c : UInt8) : UInt8 := if c = 0 then 32 else c

theorem splitLine_le (R : List UInt8) : (splitLine R).2.length ≤ R.length - 1 := by
  fun_induction splitLine R with
  | case1 => simp
  | case2 => simp
  | case3 => simp
  | case4 => simp
  | case5 => simp
  | case6 c r _ _ _ _ ih => simp; omega

theorem splitLine_shorter (c : UInt8) (r : List UInt8) : (splitLine (c :: r)).2.length < (c :: r).length := by
  have := splitLine_le (c :: r)
  simp only [List.length_cons] at this ⊢
  omega

/-- All lines of a text. -/
def lines : List UInt8 → List (List UInt8)
  | [] => []
  | c :: r => (splitLine (c :: r)).1 :: lines (splitLine (c :: r)).2
termination_by R => R.length
decreasing_by exact splitLine_shorter c r

/-- A file object in normal use: open, the object's idea of the position and the size is right. -/
def Ready {α : Type} (f : F α) : Prop :=
  f.opened = true ∧ f.curr = f.off ∧ f.max = f.data.length ∧ f.off ≤ f.data.length ∧ f.data.length < 2 ^ 63

/-- The block holds the string `line` with its NUL. -/
def IsString (b : List Cell) (line : List UInt8) : Prop :=
  b.take (line.length + 1) = line.map some ++ [some 0]

/-- Bytes asked to be written by the operations. -/
def total {α : Type} : List (Op α) → Nat
  | [] => 0
  | .write _ _ size _ :: ops => size + total ops
  | _ :: ops => total ops

end Verif.File.Spec
