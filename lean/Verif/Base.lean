/-!
# Common ground of all component models

Undefined behaviour (UB) of the C++ code is a *value* of the model: every memory access, signed
negation and division that the code performs goes through one of the checked operations below.
A theorem of the form `f … = .ok r` therefore also says that the call has no undefined behaviour.
-/

namespace Verif

/-- The kinds of undefined behaviour the model distinguishes. -/
inductive UB where
  /-- read outside the object -/
  | oobRead
  /-- write outside the object -/
  | oobWrite
  /-- dereference of a NULL pointer -/
  | nullDeref
  /-- access to memory that is not (or no longer) owned by the data structure -/
  | badPtr
  /-- signed arithmetic overflow -/
  | signedOverflow
  /-- division or remainder by zero -/
  | divByZero
  /-- use of a value that was never initialised -/
  | uninit
  /-- unlocking a mutex that is not locked by the caller -/
  | badUnlock
  /-- shift by the width of the type or more -/
  | badShift
  /-- the call recurses or loops forever -/
  | diverges
  deriving DecidableEq, Repr

/-- Outcome of a C++ call: a value or undefined behaviour. -/
abbrev CRes (α : Type) := Except UB α

/-- Outcomes can be compared, so concrete runs of the model can be checked by `decide`. -/
instance {α : Type} [DecidableEq α] : DecidableEq (CRes α) := fun a b =>
  match a, b with
  | .ok x, .ok y => if h : x = y then isTrue (by rw [h]) else isFalse (fun e => h (Except.ok.inj e))
  | .error x, .error y =>
    if h : x = y then isTrue (by rw [h]) else isFalse (fun e => h (Except.error.inj e))
  | .ok _, .error _ => isFalse (fun e => nomatch e)
  | .error _, .ok _ => isFalse (fun e => nomatch e)

/-- `CRes.bind` on values, as a rewrite rule. -/
@[simp] theorem ok_bind {α β : Type} (a : α) (f : α → CRes β) :
    (Except.ok a >>= f) = f a := rfl

@[simp] theorem error_bind {α β : Type} (e : UB) (f : α → CRes β) :
    ((Except.error e : CRes α) >>= f) = .error e := rfl

@[simp] theorem pure_eq_ok {α : Type} (a : α) : (pure a : CRes α) = .ok a := rfl

@[simp] theorem throw_eq_error {α : Type} (e : UB) : (throw e : CRes α) = .error e := rfl

/-- The byte value of an ASCII character literal. -/
def ch (c : Char) : UInt8 := UInt8.ofNat c.toNat

/-- `p[i]` as an rvalue, for an object holding the cells `m`. -/
def rd {α : Type} (m : List α) (i : Nat) : CRes α :=
  match m[i]? with
  | some v => .ok v
  | none => .error .oobRead

/-- `p[i] = v`, for an object holding the cells `m`. -/
def wr {α : Type} (m : List α) (i : Nat) (v : α) : CRes (List α) :=
  if i < m.length then .ok (m.set i v) else .error .oobWrite

/-- `memmove(p + dst, p + src, n)` inside one object. -/
def memmoveIn {α : Type} (m : List α) (dst src n : Nat) : CRes (List α) :=
  if src + n ≤ m.length then
    if dst + n ≤ m.length then
      .ok (m.take dst ++ (m.drop src).take n ++ m.drop (dst + n))
    else .error .oobWrite
  else .error .oobRead

/-- `memcpy(p + dst, q, n)` from another object holding `s`. -/
def memcpyTo {α : Type} (m : List α) (dst : Nat) (s : List α) (n : Nat) : CRes (List α) :=
  if n ≤ s.length then
    if dst + n ≤ m.length then .ok (m.take dst ++ s.take n ++ m.drop (dst + n))
    else .error .oobWrite
  else .error .oobRead

theorem wr_ok {α : Type} {m : List α} {i : Nat} (v : α) (h : i < m.length) :
    wr m i v = .ok (m.set i v) := by simp [wr, h]

theorem rd_ok {α : Type} {m : List α} {i : Nat} (h : i < m.length) :
    rd m i = .ok m[i] := by simp [rd, h]

/-- Writing the cell right after a prefix of known length. -/
theorem wr_append {α : Type} (pre suf : List α) (a v : α) :
    wr (pre ++ a :: suf) pre.length v = .ok (pre ++ v :: suf) := by
  simp [wr]

theorem wr_append' {α : Type} (pre suf : List α) (a v : α) (i : Nat) (h : i = pre.length) :
    wr (pre ++ a :: suf) i v = .ok (pre ++ v :: suf) := by
  subst h; exact wr_append ..

theorem wr_length {α : Type} {m m' : List α} {i : Nat} {v : α} (h : wr m i v = .ok m') :
    m'.length = m.length := by
  unfold wr at h
  split at h
  · cases h; simp
  · cases h

end Verif
