import Verif.Tls.Model

/-!
# What an allocator is

Only the operations and their results are used.
-/

namespace Verif.Tls.Spec

/-- The live blocks, each with the bytes written to it so far (`none`: nothing written yet); their
number is the size that was asked for. -/
abbrev Live := Nat → Option (List (Option UInt8))

def Live.none : Live := fun _ => .none

def put (l : Live) (p : Nat) (x : Option (List (Option UInt8))) : Live :=
  fun q => if q = p then x else l q

/-- A pointer that may be passed to `free` and `realloc`. -/
def Usable (l : Live) (p : Ptr) : Prop := p = .null ∨ ∃ b, p = .blk b ∧ l b ≠ .none

/-- The byte `i` belongs to the block. -/
def Inside (l : Live) (p : Ptr) (i : Nat) : Prop := ∃ b cs, p = .blk b ∧ l b = some cs ∧ i < cs.length

/-- The caller keeps to the rules: only live pointers (or NULL) are passed, only bytes inside the
requested size are accessed, sizes are at most `2 ^ K`, and the system has memory.  (A failing
`::malloc` is tolerated for `malloc` of a cached size; `m` is the number of buckets.) -/
def Valid (m K : Nat) (l : Live) : Op → Prop
  | .malloc ok n => n ≤ 2 ^ K ∧ (ok = true ∨ n ≤ 2 ^ (m - 1) ∧ 4 ≤ m)
  | .realloc ok p n _ => n ≤ 2 ^ K ∧ ok = true ∧ Usable l p
  | .free p _ => Usable l p
  | .peek p i => Inside l p i
  | .poke p i _ => Inside l p i

/-- A request for `n` bytes was answered properly: NULL only if nothing was asked for or the system
failed, otherwise a block that is not in use. -/
def Served (l : Live) (ok : Bool) (n : Nat) (r : Ptr) : Prop :=
  (r = .null ∧ (ok = true → n = 0)) ∨ ∃ b, r = .blk b ∧ l b = .none ∧ 0 < n

/-- The operation has a proper result. -/
def Good (l : Live) : Op → Out → Prop
  | .malloc ok n, .ptr r => Served l ok n r
  | .realloc ok .null n _, .ptr r => Served l ok n r
  | .realloc _ (.blk b) n _, .ptr r =>
    (n = 0 ∧ r = .null) ∨ (0 < n ∧ ∃ b', r = .blk b' ∧ (b' = b ∨ l b' = .none))
  | .free _ _, .unit => True
  | .peek (.blk b) i, .cell c => ∀ cs v, l b = some cs → cs[i]? = some (some v) → c = some v
  | .poke _ _ _, .unit => True
  | _, _ => False

/-- The live blocks after the operation. -/
def after (l : Live) : Op → Out → Live
  | .malloc _ n, .ptr (.blk b) => put l b (some (List.replicate n none))
  | .realloc _ .null n _, .ptr (.blk b) => put l b (some (List.replicate n none))
  | .realloc _ (.blk b) n _, .ptr r =>
    match l b, r with
    | some cs, .blk b' => put (put l b .none) b' (some (cs.take n ++ List.replicate (n - cs.length) none))
    | _, _ => put l b .none
  | .free (.blk b) _, _ => put l b .none
  | .poke (.blk b) i v, _ =>
    match l b with
    | some cs => put l b (some (cs.set i (some v)))
    | .none => l
  | _, _ => l

/-- The live blocks after a history. -/
def afterAll : Live → List (Op × Out) → Live
  | l, [] => l
  | l, (op, out) :: h => afterAll (after l op out) h

/-- The caller kept to the rules in the whole history. -/
def AllValid (m K : Nat) : Live → List (Op × Out) → Prop
  | _, [] => True
  | l, (op, out) :: h => Valid m K l op ∧ AllValid m K (after l op out) h

/-- Requests for `n` bytes belong to the bucket: it has the smallest power of two, 8 at least, that is not smaller than `n`. -/
def InBucket (num n : Nat) : Prop := 0 < n ∧ n ≤ 2 ^ num ∧ (num = 3 ∨ 2 ^ (num - 1) < n)

/-- The system has no memory left: which of these requests get some? -/
def answered (h : List (Op × Out)) : List Bool := h.map fun x => decide (x.2 ≠ .ptr .null)

/-- The blocks that were got from the system, not given back, and are not live. -/
def idle (heap : List (Option (List (Option UInt8)))) (l : Live) : List Nat :=
  (List.range heap.length).filter fun p => (heap[p]?.join).isSome && (l p).isNone

/-- Their bytes. -/
def idleBytes (heap : List (Option (List (Option UInt8)))) (l : Live) : Nat :=
  ((idle heap l).map fun p => (heap[p]?.join.getD []).length).sum

end Verif.Tls.Spec
