import Verif.Json.Model
import Verif.ConvertInt.Spec

/-!
# Specification of JSON serialisation

1. JSON values and the JSON grammar (RFC 8259) on bytes, as a relation "this text denotes this value".
   The `\u` escape is left out: the serializer never writes it, so a derivation here is one in the full grammar.
   Bytes from 0x80 on are passed through, so the output is UTF-8 whenever the inputs are.
2. What document a history of calls describes (`Builder`).
3. Which calls JSON allows at each point (`Allowed`).
-/

namespace Verif.Json.Spec
open Verif.ConvertInt.Spec (IsNumeral valueOf)

/-! ## Values and grammar -/

/-- JSON values; numbers by their numeric value, strings by their bytes. -/
inductive J where
  | null
  | bool (b : Bool)
  | num (q : Rat)
  | str (s : List UInt8)
  | arr (xs : List J)
  | obj (ms : List (List UInt8 × J))

/-- White space. -/
def Ws (t : List UInt8) : Prop := ∀ c ∈ t, c = 32 ∨ c = 9 ∨ c = 10 ∨ c = 13

/-- The inside of a string literal and the bytes it denotes. -/
inductive StrBody : List UInt8 → List UInt8 → Prop
  | nil : StrBody [] []
  | plain (c : UInt8) {B d} : 32 ≤ c → c ≠ 34 → c ≠ 92 → StrBody B d → StrBody (c :: B) (c :: d)
  | quote {B d} : StrBody B d → StrBody (92 :: 34 :: B) (34 :: d)
  | backslash {B d} : StrBody B d → StrBody (92 :: 92 :: B) (92 :: d)
  | slash {B d} : StrBody B d → StrBody (92 :: 47 :: B) (47 :: d)
  | backspace {B d} : StrBody B d → StrBody (92 :: 98 :: B) (8 :: d)
  | formfeed {B d} : StrBody B d → StrBody (92 :: 102 :: B) (12 :: d)
  | newline {B d} : StrBody B d → StrBody (92 :: 110 :: B) (10 :: d)
  | return {B d} : StrBody B d → StrBody (92 :: 114 :: B) (13 :: d)
  | tab {B d} : StrBody B d → StrBody (92 :: 116 :: B) (9 :: d)

/-- Digit characters. -/
def digits (ds : List Nat) : List UInt8 := ds.map (fun d => UInt8.ofNat (d + 48))

/-- The exponent part of a number and its value. -/
def ExpPart (t : List UInt8) (e : Int) : Prop :=
  (t = [] ∧ e = 0) ∨
  ∃ (c : UInt8) (ds : List Nat), (c = 101 ∨ c = 69) ∧ ds ≠ [] ∧ (∀ d ∈ ds, d < 10) ∧
    ((t = c :: digits ds ∧ e = valueOf 10 ds) ∨ (t = c :: 43 :: digits ds ∧ e = valueOf 10 ds) ∨
     (t = c :: 45 :: digits ds ∧ e = -(valueOf 10 ds : Int)))

/-- The fraction part of a number and its digits. -/
def FracPart (t : List UInt8) (ds : List Nat) : Prop :=
  (t = [] ∧ ds = []) ∨ (t = 46 :: digits ds ∧ ds ≠ [] ∧ ∀ d ∈ ds, d < 10)

/-- A number literal and its value: sign, integer part without leading zeros, fraction, exponent. -/
def NumLit (t : List UInt8) (q : Rat) : Prop :=
  ∃ (neg : Bool) (n : Nat) (ip fp : List Nat) (ft et : List UInt8) (e : Int),
    t = (if neg then [45] else []) ++ digits ip ++ ft ++ et ∧
    IsNumeral 10 n ip ∧ FracPart ft fp ∧ ExpPart et e ∧
    q = (if neg then -1 else 1) * (valueOf 10 (ip ++ fp) : Rat) * (10 : Rat) ^ (e - fp.length)

mutual
/-- A text that denotes a value. -/
inductive Val : List UInt8 → J → Prop
  | null : Val [110, 117, 108, 108] .null
  | true : Val [116, 114, 117, 101] (.bool true)
  | false : Val [102, 97, 108, 115, 101] (.bool false)
  | num {t q} : NumLit t q → Val t (.num q)
  | str {B d} : StrBody B d → Val (34 :: B ++ [34]) (.str d)
  | emptyArr {w} : Ws w → Val (91 :: w ++ [93]) (.arr [])
  | arr {E xs} : Elems E xs → Val (91 :: E ++ [93]) (.arr xs)
  | emptyObj {w} : Ws w → Val (123 :: w ++ [125]) (.obj [])
  | obj {E ms} : Members E ms → Val (123 :: E ++ [125]) (.obj ms)

/-- One or more values separated by commas. -/
inductive Elems : List UInt8 → List J → Prop
  | one {a V v b} : Ws a → Val V v → Ws b → Elems (a ++ V ++ b) [v]
  | more {E xs a V v b} : Elems E xs → Ws a → Val V v → Ws b →
      Elems (E ++ 44 :: (a ++ V ++ b)) (xs ++ [v])

/-- One or more members separated by commas. -/
inductive Members : List UInt8 → List (List UInt8 × J) → Prop
  | one {a K k b c V v d} : Ws a → StrBody K k → Ws b → Ws c → Val V v → Ws d →
      Members (a ++ (34 :: K ++ [34]) ++ b ++ 58 :: (c ++ V ++ d)) [(k, v)]
  | more {E ms a K k b c V v d} : Members E ms → Ws a → StrBody K k → Ws b → Ws c → Val V v → Ws d →
      Members (E ++ 44 :: (a ++ (34 :: K ++ [34]) ++ b ++ 58 :: (c ++ V ++ d))) (ms ++ [(k, v)])
end

/-- A JSON text: a value with surrounding white space. -/
def Text (t : List UInt8) (v : J) : Prop := ∃ a V b, t = a ++ V ++ b ∧ Ws a ∧ Val V v ∧ Ws b

/-! ## The document described by a history of calls -/

/-- An open array, object or string with what it holds so far. -/
inductive Scope where
  | arr (xs : List J)
  | obj (ms : List (List UInt8 × J))
  | str (d : List UInt8)

/-- The document under construction: the finished root value, if any, and the open scopes, innermost first,
each with the key it was opened under. -/
structure Builder where
  done : Option J
  opened : List (Option (List UInt8) × Scope)

/-- Nothing written yet. -/
def Builder.start : Builder := { done := none, opened := [] }

/-- A finished value joins the innermost scope, or becomes the root. -/
def Builder.add (b : Builder) (key : Option (List UInt8)) (v : J) : Builder :=
  match b.opened with
  | [] => { b with done := some v }
  | (k, .arr xs) :: rest => { b with opened := (k, .arr (xs ++ [v])) :: rest }
  | (k, .obj ms) :: rest =>
    match key with
    | some key => { b with opened := (k, .obj (ms ++ [(key, v)])) :: rest }
    | none => b
  | (_, .str _) :: _ => b

/-- The value of a finished scope. -/
def Scope.value : Scope → J
  | .arr xs => .arr xs
  | .obj ms => .obj ms
  | .str d => .str d

/-- The innermost scope is finished. -/
def Builder.close (b : Builder) : Builder :=
  match b.opened with
  | [] => b
  | (k, sc) :: rest => { b with opened := rest }.add k sc.value

/-- All scopes are finished, innermost first. -/
def Builder.closeAll : (n : Nat) → Builder → Builder
  | 0, b => b
  | n + 1, b => closeAll n b.close

/-- A new scope. -/
def Builder.push (b : Builder) (key : Option (List UInt8)) (sc : Scope) : Builder :=
  { b with opened := (key, sc) :: b.opened }

/-- String data: continues an open string, otherwise it is a value. -/
def Builder.addStr (b : Builder) (key : Option (List UInt8)) (d : List UInt8) : Builder :=
  match b.opened with
  | (k, .str d0) :: rest => { b with opened := (k, .str (d0 ++ d)) :: rest }
  | _ => b.add key (.str d)

/-- Raw data continues an open string; elsewhere it is white space and adds nothing to the document. -/
def Builder.addRaw (b : Builder) (d : List UInt8) : Builder :=
  match b.opened with
  | (k, .str d0) :: rest => { b with opened := (k, .str (d0 ++ d)) :: rest }
  | _ => b

/-- The key a call names. -/
def keyOf (k : Option (List UInt8)) : Option (List UInt8) := k.map cstr

/-- The effect of a successful call on the document.  (For doubles the value `q` of the printed text is found by
`real`.) -/
def Builder.call (real : List UInt8 → Rat) (b : Builder) : Call → Builder
  | .reset => Builder.start
  | .startObject k => b.push (keyOf k) (.obj [])
  | .startArray k => b.push (keyOf k) (.arr [])
  | .startStr k => b.push (keyOf k) (.str [])
  | .endObject => b.close
  | .endArray => b.close
  | .endStr => b.close
  | .appendNull k => b.add (keyOf k) .null
  | .appendBool k v => b.add (keyOf k) (.bool v)
  | .appendInt k v => b.add (keyOf k) (.num v)
  | .appendUInt k v => b.add (keyOf k) (.num v)
  | .appendDouble k t => b.add (keyOf k) (.num (real t))
  | .appendStr k (some v) => b.addStr (keyOf k) (cstr v)
  | .appendStrN k (some v) n => b.addStr (keyOf k) (v.take n)
  | .append (some v) n => b.addRaw (v.take n)
  | .finish => b.closeAll b.opened.length
  | _ => b

/-- The document described by a history: the successful calls count. -/
def Builder.calls (real : List UInt8 → Rat) : Builder → List Call → List Bool → Builder
  | b, c :: cs, r :: rs => Builder.calls real (if r then b.call real c else b) cs rs
  | b, _, _ => b

/-! ## What JSON allows -/

/-- A value may come here under this key: inside an object exactly with a key, inside an array and at the root
exactly without one, at the root only once, and not inside a string. -/
def Builder.ValueAllowed (b : Builder) (key : Option (List UInt8)) : Prop :=
  match b.opened with
  | [] => b.done = none ∧ key = none
  | (_, .arr _) :: _ => key = none
  | (_, .obj _) :: _ => key ≠ none
  | (_, .str _) :: _ => False

/-- The innermost scope is an object / array / string. -/
def Builder.InObject (b : Builder) : Prop := ∃ k ms rest, b.opened = (k, .obj ms) :: rest
def Builder.InArray (b : Builder) : Prop := ∃ k xs rest, b.opened = (k, .arr xs) :: rest
def Builder.InStr (b : Builder) : Prop := ∃ k d rest, b.opened = (k, .str d) :: rest

/-- The calls JSON's structure allows, with room for `maxDepth - 1` open scopes. -/
def Builder.Allowed (b : Builder) (maxDepth : Nat) : Call → Prop
  | .startObject k | .startArray k | .startStr k => b.ValueAllowed k ∧ b.opened.length + 1 < maxDepth
  | .endObject => b.InObject
  | .endArray => b.InArray
  | .endStr => b.InStr
  | .appendNull k | .appendBool k _ | .appendInt k _ | .appendUInt k _ | .appendDouble k _ => b.ValueAllowed k
  | .appendStr k v => v ≠ none ∧ (b.InStr ∨ b.ValueAllowed k)
  | .appendStrN k v _ => v ≠ none ∧ (b.InStr ∨ b.ValueAllowed k)
  | .append v _ => v ≠ none
  | _ => True

/-! ## Use of the interface -/

/-- The characters that are written as two. -/
def Escaped (c : UInt8) : Prop := c = 34 ∨ c = 92 ∨ c = 8 ∨ c = 12 ∨ c = 10 ∨ c = 13 ∨ c = 9

/-- Arguments the caller must respect: the buffer is not empty, 64-bit numbers (without the minimum), and no more
bytes than the memory holds.  For `AppendStr` with a size the code needs in addition that characters that are
written as two occur only if the first character is one of them. -/
def Legal : Call → Prop
  | .setBuffer b => b ≠ [] ∧ b.length < 2 ^ 64
  | .appendInt _ v => -(2 ^ 63) < v ∧ v < 2 ^ 63
  | .appendUInt _ v => v < 2 ^ 64
  | .appendStrN _ (some v) n => n ≤ v.length ∧
      ((∀ c ∈ v.take n, ¬ Escaped c ∧ c ≠ 47) ∨ ∃ c0, v.head? = some c0 ∧ Escaped c0)
  | .append (some v) n => n ≤ v.length
  | _ => True

/-- Calls that add text when they succeed. -/
def AddsText : Call → Prop
  | .setBuffer _ | .resetPos | .reset | .setEscapeSlashes _ | .setKeySplitter _ | .setValSplitter _ | .finish => False
  | _ => True

/-- Something has been written since the position was last reset. -/
def Written : Prop → List Call → List Bool → Prop
  | _, .setBuffer _ :: cs, _ :: rs => Written False cs rs
  | _, .resetPos :: cs, _ :: rs => Written False cs rs
  | _, .reset :: cs, _ :: rs => Written False cs rs
  | w, c :: cs, r :: rs => Written (w ∨ (AddsText c ∧ r = true)) cs rs
  | w, _, _ => w

/-- The byte after the text is NUL. -/
def Terminated (s : S) : Prop := ∃ b, s.buf = some b ∧ b[s.pos]? = some 0

/-- Strings that the code renders as JSON: no control characters but the five with a short escape, and no slash
while slashes are not escaped. -/
def Clean (esc : Bool) (l : List UInt8) : Prop :=
  ∀ c ∈ l, (32 ≤ c ∨ c = 8 ∨ c = 9 ∨ c = 10 ∨ c = 12 ∨ c = 13) ∧ (c = 47 → esc = true)

def CleanKey (esc : Bool) : Option (List UInt8) → Prop
  | none => True
  | some k => Clean esc (cstr k)

/-- A splitter is the punctuation character with white space around it. -/
def Splitter (c : UInt8) (t : List UInt8) : Prop := ∃ a b, t = a ++ c :: b ∧ Ws a ∧ Ws b

/-- Arguments under which the output is meant to be JSON: clean strings, proper splitters, raw data that is white
space outside strings and plain characters inside, doubles printed as JSON numbers. -/
def JsonUse (real : List UInt8 → Rat) (esc : Bool) (b : Builder) : Call → Prop
  | .setKeySplitter t => Splitter 58 (cstr t)
  | .setValSplitter t => Splitter 44 (cstr t)
  | .startObject k | .startArray k | .startStr k | .appendNull k | .appendBool k _ | .appendInt k _
  | .appendUInt k _ => CleanKey esc k
  | .appendDouble k t => CleanKey esc k ∧ NumLit ((cstr t).take 99) (real t)
  | .appendStr k (some v) => CleanKey esc k ∧ Clean esc (cstr v)
  | .appendStrN k (some v) n => CleanKey esc k ∧ Clean esc (v.take n)
  | .append (some v) n => (b.InStr → ∀ c ∈ v.take n, 32 ≤ c ∧ c ≠ 34 ∧ c ≠ 92) ∧ (¬ b.InStr → Ws (v.take n))
  | _ => True

/-- The slash setting after a call. -/
def escAfter (esc : Bool) : Call → Bool
  | .setEscapeSlashes e => e
  | _ => esc

/-- A history in which every call is meant to produce JSON and no `Finish` fails. -/
def JsonHistory (real : List UInt8 → Rat) : Bool → Builder → List Call → List Bool → Prop
  | esc, b, c :: cs, r :: rs => JsonUse real esc b c ∧ (c = .finish → r = true) ∧
      JsonHistory real (escAfter esc c) (if r then b.call real c else b) cs rs
  | _, _, _, _ => True

/-- What closes a scope. -/
def closer : Scope → UInt8
  | .arr _ => 93
  | .obj _ => 125
  | .str _ => 34

/-- The brackets and quotes that close the open scopes, innermost first. -/
def closers (b : Builder) : List UInt8 := b.opened.map (fun f => closer f.2)

/-- The open scopes and the document after a history.  Successful calls have their effect; other calls have none,
except that a failed `Finish` may have closed some scopes. -/
inductive Describes (real : List UInt8 → Rat) : Builder → List Call → List Bool → Builder → Prop
  | nil {b} : Describes real b [] [] b
  | ok {b c cs rs b'} : Describes real (b.call real c) cs rs b' → Describes real b (c :: cs) (true :: rs) b'
  | failed {b c cs rs b'} : c ≠ .finish → Describes real b cs rs b' → Describes real b (c :: cs) (false :: rs) b'
  | failedFinish {b cs rs b' j} : j < b.opened.length → Describes real (Builder.closeAll j b) cs rs b' →
      Describes real b (.finish :: cs) (false :: rs) b'

/-- The text that stands before a value: the value splitter except before the first value of a scope, then the key in
quotes and the key splitter. -/
def Lead (s : S) (b : Builder) (key : Option (List UInt8)) (pre : List UInt8) : Prop :=
  ∃ sep kt, pre = sep ++ kt ∧
    (match b.opened with
     | (_, .arr (_ :: _)) :: _ => sep = s.vs
     | (_, .obj (_ :: _)) :: _ => sep = s.vs
     | _ => sep = []) ∧
    (match key with
     | none => kt = []
     | some k => ∃ K, kt = 34 :: K ++ [34] ++ s.ks ∧ (Clean s.esc (cstr k) → StrBody K (cstr k)))

/-- Room that is enough for any call: splitters, every character written twice, the longest number. -/
def roomFor (s : S) : Call → Nat
  | .startObject k | .startArray k | .startStr k | .appendNull k | .appendBool k _ | .appendInt k _
  | .appendUInt k _ | .appendDouble k _ =>
    s.vs.length + s.ks.length + 2 * ((keyOf k).map List.length).getD 0 + 2 + 99
  | .appendStr k v =>
    s.vs.length + s.ks.length + 2 * ((keyOf k).map List.length).getD 0 + 4 +
      2 * ((keyOf v).map List.length).getD 0
  | .appendStrN k _ n => s.vs.length + s.ks.length + 2 * ((keyOf k).map List.length).getD 0 + 4 + 2 * n
  | .append _ n => n
  | .endObject | .endArray | .endStr => 1
  | _ => 0

/-- The decimal text of an integer: a minus sign if negative and the numeral of the magnitude. -/
def IntText (v : Int) (t : List UInt8) : Prop :=
  ∃ ds, IsNumeral 10 v.natAbs ds ∧ t = (if v < 0 then [45] else []) ++ digits ds

end Verif.Json.Spec
