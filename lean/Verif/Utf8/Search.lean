import Verif.Utf8.Model

/-! # Model of `NextASCIICodePoint` (utf8/utf8_util.cpp 374-391)

As in `Utf8/Model.lean` the length that `NextCodePoint` asks for is an argument: `strlen depth s` for the code as
compiled, the number of bytes for the C library's `strlen`. -/

namespace Verif.Utf8

/-- The loop of `NextASCIICodePoint` (utf8_util.cpp 379-390): `ResultCP` and the caller's variables afterwards, nothing if
it returns false. -/
def asciiLoop (len : CRes Nat) (s : List Nat) : Nat → P → CRes (Option (Nat × P))
  | 0, _ => .error .diverges
  | k + 1, p => do
    let (ok, c, q) ← nextCP len s p
    if ok then
      if q.comb = false ∧ c ≤ 0x7F then .ok (some (c, q))
      else asciiLoop len s k q
    else .ok none

/-- `NextASCIICodePoint` (utf8_util.cpp 374-391). -/
def nextASCII (len : CRes Nat) (s : List Nat) (p : P) : CRes (Option (Nat × P)) := asciiLoop len s (s.length + 1) p

/-- The characters a caller's loop `while (NextASCIICodePoint(...))` gets (declared at utf8_util.h 46-48). -/
def asciiWalk (len : CRes Nat) (s : List Nat) : Nat → P → CRes (List Nat)
  | 0, _ => .error .diverges
  | k + 1, p => do
    let r ← nextASCII len s p
    match r with
    | none => .ok []
    | some (c, q) => do
      let l ← asciiWalk len s k q
      .ok (c :: l)

end Verif.Utf8
