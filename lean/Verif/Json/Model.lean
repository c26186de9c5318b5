import Verif.Base

/-!
# Model of `JSON::Serializer` (json/json_serializer.cpp, json_serializer.h)

The caller's buffer is a list of bytes owned by the state; every write is checked.  A `const char *` argument
that is read as a C string is a list of bytes; reading stops at the end of the list (the terminator) or at a
zero byte inside it.  A `const char *` with a size is the memory it points to.

Simplifications: sizes are natural numbers (sums of buffer positions and text lengths do not wrap, since all
the objects involved fit in the address space together); the buffer passed to `SetBuffer` is as large as its
`BufferSize` says; the text `snprintf` produces for a double is a parameter of the call; the temporary number
buffer, uninitialised in the code, starts as zeros (it is never read before being written).
-/

namespace Verif.Json

/-- `enum ModeType`, json_serializer.h:21-30 -/
inductive Mode where
  | rootFirst | rootNext | objectFirst | objectNext | arrayFirst | arrayNext | str
  deriving DecidableEq, Repr

/-- Members, json_serializer.h:90-99.  `ks`, `vs` hold the splitters' characters, so that
`MxKeySplitterLen`, `MxValSplitterLen` are their lengths. -/
structure S where
  modes : List Mode
  depth : Nat
  buf : Option (List UInt8)
  pos : Nat
  size : Nat
  esc : Bool
  ks : List UInt8
  vs : List UInt8
  deriving DecidableEq, Repr

/-- The characters of a C string (json_serializer.cpp 251-286, 350-372). -/
def cstr : List UInt8 → List UInt8
  | [] => []
  | c :: cs => if c = 0 then [] else c :: cstr cs

/-- Constructor, json_serializer.cpp:13-19.  `MxModes(MaxDepth)` leaves unspecified modes behind the first. -/
def construct (esc : Bool) (ks vs : List UInt8) (maxDepth : Nat) (junk : Mode) : CRes S := do
  let modes ← wr (List.replicate maxDepth junk) 0 Mode.rootFirst
  .ok { modes := modes, depth := 0, buf := none, pos := 0, size := 0, esc := esc, ks := cstr ks, vs := cstr vs }

/-- `Reset`, json_serializer.cpp:21-26 -/
def reset (s : S) : CRes S := do
  let modes ← wr s.modes 0 Mode.rootFirst
  .ok { s with modes := modes, depth := 0, pos := 0 }

/-- `SetBuffer`, json_serializer.cpp:28-33; `BufferSize - 1` wraps for an empty buffer -/
def setBuffer (s : S) (b : List UInt8) : S :=
  { s with buf := some b, pos := 0, size := (b.length + (2 ^ 64 - 1)) % 2 ^ 64 }

/-- `MxModes[MxModeDepth]` (json_serializer.cpp 35-114). -/
def curMode (s : S) : CRes Mode := rd s.modes s.depth

/-- `MxModes[MxModeDepth] = m` (json_serializer.cpp 35-114). -/
def setMode (s : S) (m : Mode) : CRes S := do
  let modes ← wr s.modes s.depth m
  .ok { s with modes := modes }

/-- `MxBuffer[MxBufferPos++] = c` (json_serializer.cpp 35-399). -/
def put (s : S) (c : UInt8) : CRes S :=
  match s.buf with
  | none => .error .nullDeref
  | some m => do
    let m ← wr m s.pos c
    .ok { s with buf := some m, pos := s.pos + 1 }

/-- `MxBuffer[MxBufferPos] = '\0'` -/
def term (s : S) : CRes S :=
  match s.buf with
  | none => .error .nullDeref
  | some m => do
    let m ← wr m s.pos 0
    .ok { s with buf := some m }

/-- Several bytes in a row (json_serializer.cpp 35-399). -/
def puts (s : S) : List UInt8 → CRes S
  | [] => .ok s
  | c :: cs => do
    let s ← put s c
    puts s cs

/-- `strcpy(MxBuffer + MxBufferPos, t); MxBufferPos += strlen(t)` (json_serializer.cpp 144-189, 326-348). -/
def strcpyAt (s : S) (t : List UInt8) : CRes S := do
  let s ← puts s t
  term s

/-- Extra bytes counted for one character, json_serializer.cpp:257-278, 294-315 -/
def extra (esc : Bool) (c : UInt8) : Nat :=
  if c = 34 ∨ c = 92 ∨ c = 8 ∨ c = 12 ∨ c = 10 ∨ c = 13 ∨ c = 9 then 1
  else if c = 47 then (if esc then 1 else 0)
  else 0

/-- The loop of `CalculateStrSize(Val, …)`, json_serializer.cpp:255-281 -/
def calcLoop (esc : Bool) : List UInt8 → Nat
  | [] => 0
  | c :: cs => if c = 0 then 0 else extra esc c + 1 + calcLoop esc cs

/-- The loop of `CalculateStrSize(Val, Size, …)`, json_serializer.cpp:292-319.  `Val` is never advanced, so every
iteration looks at the first byte. -/
def calcLoopN (esc : Bool) (mem : List UInt8) : (size : Nat) → CRes Nat
  | 0 => .ok 0
  | n + 1 => do
    let c ← rd mem 0
    let r ← calcLoopN esc mem n
    .ok (extra esc c + 1 + r)

/-- `CalculateStrSize(Val, AddKeySplitter)`, json_serializer.cpp:251-286 -/
def calcStrSize (s : S) (val : List UInt8) (addKS : Bool) : CRes Nat := do
  let m ← curMode s
  .ok ((if m ≠ .str then 2 else 0) + calcLoop s.esc val + (if addKS then s.ks.length else 0))

/-- `CalculateStrSize(Val, Size, AddKeySplitter)`, json_serializer.cpp:288-324 -/
def calcStrSizeN (s : S) (mem : List UInt8) (size : Nat) (addKS : Bool) : CRes Nat := do
  let m ← curMode s
  let r ← calcLoopN s.esc mem size
  .ok ((if m ≠ .str then 2 else 0) + r + (if addKS then s.ks.length else 0))

/-- The bytes written for one character, json_serializer.cpp:356-366, 380-390.  An unescaped slash is not
written at all. -/
def escOut (esc : Bool) (c : UInt8) : List UInt8 :=
  if c = 34 then [92, 34]
  else if c = 92 then [92, 92]
  else if c = 47 then (if esc then [92, 47] else [])
  else if c = 8 then [92, 98]
  else if c = 12 then [92, 102]
  else if c = 10 then [92, 110]
  else if c = 13 then [92, 114]
  else if c = 9 then [92, 116]
  else [c]

/-- The loop of `InternalAppendStr(Val)`, json_serializer.cpp:354-368 -/
def appendLoop (s : S) : List UInt8 → CRes S
  | [] => .ok s
  | c :: cs => if c = 0 then .ok s else do
    let s ← puts s (escOut s.esc c)
    appendLoop s cs

/-- The loop of `InternalAppendStr(Val, Size)`, json_serializer.cpp:378-394 -/
def appendLoopN (s : S) (mem : List UInt8) : (size i : Nat) → CRes S
  | 0, _ => .ok s
  | n + 1, i => do
    let c ← rd mem i
    let s ← puts s (escOut s.esc c)
    appendLoopN s mem n (i + 1)

/-- The quote around a string unless inside `StartStr`, json_serializer.cpp:352, 370, 376, 396 -/
def quote (s : S) : CRes S := do
  let m ← curMode s
  if m ≠ .str then put s 34 else .ok s

/-- `InternalAppendStr(Val)`, json_serializer.cpp:350-372 -/
def internalAppendStr (s : S) (val : List UInt8) : CRes S := do
  let s ← quote s
  let s ← appendLoop s val
  let s ← quote s
  term s

/-- `InternalAppendStr(Val, Size)`, json_serializer.cpp:374-398 -/
def internalAppendStrN (s : S) (mem : List UInt8) (size : Nat) : CRes S := do
  let s ← quote s
  let s ← appendLoopN s mem size 0
  let s ← quote s
  term s

/-- `Append`, json_serializer.cpp:215-228.  `mem` is the memory at `Val`, `none` if NULL. -/
def appendCopy (s : S) (mem : List UInt8) : (size i : Nat) → CRes S
  | 0, _ => .ok s
  | n + 1, i => do
    let c ← rd mem i
    let s ← put s c
    appendCopy s mem n (i + 1)

/-- `Append`, json_serializer.cpp:215-228 -/
def append (s : S) (val : Option (List UInt8)) (size : Nat) : CRes (Bool × S) :=
  if s.pos + size > s.size then .ok (false, s)
  else
    match val with
    | none => .ok (false, s)
    | some mem => do
      let s ← appendCopy s mem size 0
      let s ← term s
      .ok (true, s)

/-- The refusal test of `InternalAppendNextPrefix`, json_serializer.cpp:328 -/
def refused (m : Mode) (key : Option (List UInt8)) : Bool :=
  m = .rootNext || m = .str || ((m = .objectFirst || m = .objectNext) && key.isNone) ||
  ((m = .rootFirst || m = .arrayFirst || m = .arrayNext) && key.isSome)

/-- Lines 335-338: the value splitter, or the mode becoming the "next" mode -/
def splitOrMark (s : S) (m : Mode) : CRes S :=
  match m with
  | .objectNext | .arrayNext => do
    let (_, s) ← append s (some s.vs) s.vs.length
    .ok s
  | .objectFirst => setMode s .objectNext
  | .arrayFirst => setMode s .arrayNext
  | .rootFirst => setMode s .rootNext
  | _ => .ok s

/-- Lines 340-344: the key -/
def putKey (s : S) : Option (List UInt8) → CRes S
  | none => .ok s
  | some k => do
    let s ← internalAppendStr s k
    let (_, s) ← append s (some s.ks) s.ks.length
    .ok s

/-- The space the prefix needs, lines 330-331 -/
def prefixSize (s : S) (m : Mode) (key : Option (List UInt8)) : CRes Nat :=
  match key with
  | none => .ok (if m = .objectNext ∨ m = .arrayNext then s.vs.length else 0)
  | some k => do
    let n ← calcStrSize s k true
    .ok ((if m = .objectNext ∨ m = .arrayNext then s.vs.length else 0) + n)

/-- `InternalAppendNextPrefix`, json_serializer.cpp:326-347 -/
def nextPrefix (s : S) (key : Option (List UInt8)) (extraSpace : Nat) : CRes (Bool × S) := do
  let m ← curMode s
  if refused m key then .ok (false, s)                                        -- line 328
  else do
    let x ← prefixSize s m key
    if s.pos + x + extraSpace > s.size then .ok (false, s)                    -- line 333
    else do
      let s ← splitOrMark s m
      let s ← putKey s key
      .ok (true, s)

/-- The common form of `AppendNull`, `AppendInt`, …: prefix, then `strcpy` of the text,
json_serializer.cpp:116-124, 126-142, 149-155, 163-169, 182-188 -/
def appendText (s : S) (key : Option (List UInt8)) (space : Nat) (t : List UInt8) : CRes (Bool × S) := do
  let (ok, s') ← nextPrefix s key space
  if ok then do
    let s'' ← strcpyAt s' t
    .ok (true, s'')
  else .ok (false, s')

/-- `StartObject`, `StartArray`, `StartStr`, json_serializer.cpp:35-46, 62-73, 89-100 -/
def start (s : S) (key : Option (List UInt8)) (c : UInt8) (m : Mode) : CRes (Bool × S) :=
  if s.depth + 1 ≥ s.modes.length then .ok (false, s)
  else do
    let (ok, s') ← nextPrefix s key 1
    if ok then do
      let s' ← put s' c
      let s' ← term s'
      let s' ← setMode { s' with depth := s'.depth + 1 } m
      .ok (true, s')
    else .ok (false, s')

/-- `EndObject`, `EndArray`, `EndStr`, json_serializer.cpp:48-60, 75-87, 102-114 -/
def close (s : S) (m1 m2 : Mode) (c : UInt8) : CRes (Bool × S) := do
  let m ← curMode s
  if m ≠ m1 ∧ m ≠ m2 then .ok (false, s)
  else if s.pos + 1 > s.size then .ok (false, s)
  else do
    let s ← put s c
    let s ← term s
    .ok (true, { s with depth := s.depth - 1 })

/-- `EndObject` (json_serializer.cpp 48-60). -/
def endObject (s : S) : CRes (Bool × S) := close s .objectFirst .objectNext 125
/-- `EndArray` (json_serializer.cpp 75-87). -/
def endArray (s : S) : CRes (Bool × S) := close s .arrayFirst .arrayNext 93
/-- `EndStr` (json_serializer.cpp 102-114). -/
def endStr (s : S) : CRes (Bool × S) := close s .str .str 34

/-- The digit loop of `IntToString`, json_serializer.cpp:411-415; recursion follows `x` -/
def intLoop : (x : Nat) → List UInt8 → (num : Nat) → CRes (List UInt8 × Nat × Nat)
  | 0, m, num => .ok (m, 0, num)
  | x + 1, m, num =>
    if num = 0 then .ok (m, x + 1, num)
    else do
      let m ← wr m x (UInt8.ofNat (num % 10 + 48))
      intLoop x m (num / 10)

/-- `IntToString(char *, size_t, uint64_t)`, json_serializer.cpp:401-423 -/
def intToStringU (m : List UInt8) (num : Nat) : CRes (Bool × List UInt8) :=
  if m.length < 2 then .ok (false, m)
  else do
    let m ← wr m (m.length - 1) 0
    if num = 0 then do
      let m ← wr m (m.length - 2) 48
      let m ← memmoveIn m 0 (m.length - 2) 2
      .ok (true, m)
    else do
      let (m, x, num) ← intLoop (m.length - 1) m num
      if num ≠ 0 then .ok (false, m)
      else do
        let m ← memmoveIn m 0 x (m.length - x)
        .ok (true, m)

/-- `IntToString(char *, size_t, int64_t)`, json_serializer.cpp:425-433; `-Num` overflows for the minimum -/
def intToStringI (m : List UInt8) (num : Int) : CRes (Bool × List UInt8) :=
  if 0 ≤ num then intToStringU m num.toNat
  else if m.length < 2 then .ok (false, m)
  else
    match m with
    | [] => .error .oobWrite
    | _ :: tl =>
      if num = -(2 ^ 63) then .error .signedOverflow
      else do
        let (ok, tl') ← intToStringU tl (-num).toNat
        .ok (ok, 45 :: tl')

/-- `AppendInt`, json_serializer.cpp:144-156 -/
def appendInt (s : S) (key : Option (List UInt8)) (v : Int) : CRes (Bool × S) := do
  let (ok, t) ← intToStringI (List.replicate 44 0) v
  if ok then appendText s key (cstr t).length (cstr t) else .ok (false, s)

/-- `AppendUInt`, json_serializer.cpp:158-170 -/
def appendUInt (s : S) (key : Option (List UInt8)) (v : Nat) : CRes (Bool × S) := do
  let (ok, t) ← intToStringU (List.replicate 44 0) v
  if ok then appendText s key (cstr t).length (cstr t) else .ok (false, s)

/-- `AppendStr(Key, Val)`, json_serializer.cpp:191-201 -/
def appendStr (s : S) (key : Option (List UInt8)) (val : Option (List UInt8)) : CRes (Bool × S) :=
  match val with
  | none => .ok (false, s)
  | some v => do
    let x ← calcStrSize s v false
    let m ← curMode s
    if m ≠ .str then do
      let (ok, s') ← nextPrefix s key x
      if ok then do
        let s' ← internalAppendStr s' v
        .ok (true, s')
      else .ok (false, s')
    else if s.pos + x > s.size then .ok (false, s)
    else do
      let s ← internalAppendStr s v
      .ok (true, s)

/-- `AppendStr(Key, Val, Size)`, json_serializer.cpp:203-213 -/
def appendStrN (s : S) (key : Option (List UInt8)) (val : Option (List UInt8)) (size : Nat) :
    CRes (Bool × S) :=
  match val with
  | none => .ok (false, s)
  | some v => do
    let x ← calcStrSizeN s v size false
    let m ← curMode s
    if m ≠ .str then do
      let (ok, s') ← nextPrefix s key x
      if ok then do
        let s' ← internalAppendStrN s' v size
        .ok (true, s')
      else .ok (false, s')
    else if s.pos + x > s.size then .ok (false, s)
    else do
      let s ← internalAppendStrN s v size
      .ok (true, s)

/-- First branch of the loop body of `Finish`, json_serializer.cpp:234-237 -/
def finishObject (s : S) : CRes (Bool × S) := do
  let m ← curMode s
  if m = .objectFirst ∨ m = .objectNext then endObject s else .ok (true, s)

/-- Rest of the loop body of `Finish`, json_serializer.cpp:238-245 -/
def finishOther (s : S) : CRes (Bool × S) := do
  let m ← curMode s
  if m = .arrayFirst ∨ m = .arrayNext then endArray s
  else if m = .str then endStr s
  else .ok (true, s)

/-- `Finish`, json_serializer.cpp:230-249.  `fuel` bounds the iterations; the loop runs once per open scope at
most, and running out of fuel with scopes left is the outcome "diverges". -/
def finishLoop : (fuel : Nat) → S → CRes (Bool × S)
  | 0, s => if s.depth = 0 then .ok (true, s) else .error .diverges
  | n + 1, s =>
    if s.depth = 0 then .ok (true, s)
    else do
      let (ok, s) ← finishObject s
      if ok then do
        let (ok, s) ← finishOther s
        if ok then finishLoop n s else .ok (false, s)
      else .ok (false, s)

/-- `Finish` (json_serializer.cpp 230-249). -/
def finish (s : S) : CRes (Bool × S) := finishLoop s.depth s

/-- All public calls.  `appendDouble` carries the text `snprintf` produced (at most 99 characters). -/
inductive Call where
  | setBuffer (b : List UInt8)
  | resetPos
  | reset
  | setEscapeSlashes (b : Bool)
  | setKeySplitter (t : List UInt8)
  | setValSplitter (t : List UInt8)
  | startObject (key : Option (List UInt8))
  | endObject
  | startArray (key : Option (List UInt8))
  | endArray
  | startStr (key : Option (List UInt8))
  | endStr
  | appendNull (key : Option (List UInt8))
  | appendBool (key : Option (List UInt8)) (b : Bool)
  | appendInt (key : Option (List UInt8)) (v : Int)
  | appendUInt (key : Option (List UInt8)) (v : Nat)
  | appendDouble (key : Option (List UInt8)) (printed : List UInt8)
  | appendStr (key : Option (List UInt8)) (val : Option (List UInt8))
  | appendStrN (key : Option (List UInt8)) (val : Option (List UInt8)) (size : Nat)
  | append (val : Option (List UInt8)) (size : Nat)
  | finish
  deriving DecidableEq, Repr

/-- One call: its result (`true` for `void` functions) and the new state (json_serializer.cpp 21-249). -/
def step (s : S) : Call → CRes (Bool × S)
  | .setBuffer b => .ok (true, setBuffer s b)
  | .resetPos => .ok (true, { s with pos := 0 })                              -- json_serializer.h:40
  | .reset => do let s ← reset s; .ok (true, s)
  | .setEscapeSlashes b => .ok (true, { s with esc := b })                    -- json_serializer.h:44
  | .setKeySplitter t => .ok (true, { s with ks := cstr t })                  -- json_serializer.h:45
  | .setValSplitter t => .ok (true, { s with vs := cstr t })                  -- json_serializer.h:46
  | .startObject k => start s k 123 .objectFirst
  | .endObject => endObject s
  | .startArray k => start s k 91 .arrayFirst
  | .endArray => endArray s
  | .startStr k => start s k 34 .str
  | .endStr => endStr s
  | .appendNull k => appendText s k 4 [110, 117, 108, 108]
  | .appendBool k b => appendText s k 5 (if b then [116, 114, 117, 101] else [102, 97, 108, 115, 101])
  | .appendInt k v => appendInt s k v
  | .appendUInt k v => appendUInt s k v
  | .appendDouble k t => appendText s k ((cstr t).take 99).length ((cstr t).take 99)
  | .appendStr k v => appendStr s k v
  | .appendStrN k v n => appendStrN s k v n
  | .append v n => append s v n
  | .finish => finish s

/-- The text now in the buffer, `GetBuffer()[0 .. GetCurrPos())`. -/
def text (s : S) : List UInt8 :=
  match s.buf with
  | none => []
  | some b => b.take s.pos

/-- A caller that writes to a stream saves the buffer before it is abandoned by `SetBuffer` or `ResetPos`;
`Reset` begins a new document.  `saved` is what the caller has saved of the current document
(json_serializer.cpp 28-33). -/
def save (saved : List UInt8) (s : S) : Call → List UInt8
  | .setBuffer _ => saved ++ text s
  | .resetPos => saved ++ text s
  | .reset => []
  | _ => saved

/-- A history of calls: the results, the final state and the saved part of the document
(calls of json_serializer.cpp 21-249). -/
def run : S → List UInt8 → List Call → CRes (List Bool × S × List UInt8)
  | s, saved, [] => .ok ([], s, saved)
  | s, saved, c :: cs => do
    let (r, s') ← step s c
    let (rs, s'', saved') ← run s' (save saved s c) cs
    .ok (r :: rs, s'', saved')

end Verif.Json
