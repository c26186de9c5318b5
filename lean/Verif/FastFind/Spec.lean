/-!
# What searching and replacing mean

Independent of the model: occurrences of a pattern in a list, the abstract search cursor, and
left-to-right non-overlapping replacement.
-/

namespace Verif.FastFind.Spec

variable {α : Type}

/-- The pattern `p` occurs in `d` at position `i`: it fits, and every element of the pattern
compares equal to the element of the data it lies on. -/
def MatchAt (eq : α → α → Bool) (p d : List α) (i : Nat) : Prop :=
  i + p.length ≤ d.length ∧
    ∀ k a b, p[k]? = some a → d[i + k]? = some b → eq a b = true

/-- The state of a search: pattern, data, the position from which the next match is looked for,
and whether the search is still running. -/
structure S (α : Type) where
  p : List α
  d : List α
  cursor : Nat
  live : Bool

/-- Before any call: no pattern, no data, not running. -/
def S.init : S α := ⟨[], [], 0, false⟩

/-- The calls. -/
inductive Call (α : Type) where
  | setPattern (p : List α)
  | setData (d : List α)
  | findNext
  | skipMatch (extra : Nat)

/-- What one call returns and does. -/
inductive Step (eq : α → α → Bool) : S α → Call α → Option Nat → S α → Prop
  /-- A new pattern (no larger than the address space) ends the running search. -/
  | setPattern (s p) (h : p.length < 2 ^ 64) :
      Step eq s (.setPattern p) none { s with p := p, live := false }
  /-- New data starts a search at its beginning, unless the (non-empty) pattern is too long. -/
  | setData (s d) :
      Step eq s (.setData d) none
        { s with d := d, cursor := 0, live := decide (s.p ≠ [] ∧ s.p.length ≤ d.length) }
  /-- A running search reports the first match from the cursor on and steps past its start. -/
  | found (s i) (hl : s.live = true) (hc : s.cursor ≤ i) (hm : MatchAt eq s.p s.d i)
      (hf : ∀ j, s.cursor ≤ j → j < i → ¬ MatchAt eq s.p s.d j) :
      Step eq s .findNext (some i) { s with cursor := i + 1 }
  /-- If there is none, it reports that and the search ends. -/
  | notFound (s) (hl : s.live = true) (hf : ∀ j, s.cursor ≤ j → ¬ MatchAt eq s.p s.d j) :
      Step eq s .findNext none { s with live := false }
  /-- An ended search reports nothing. -/
  | ended (s) (hl : s.live = false) : Step eq s .findNext none s
  /-- Skipping moves the cursor by the pattern length less one (past the match just reported) plus
  `extra`, which must stay inside the data; the search ends when the pattern no longer fits. -/
  | skip (s e) (hl : s.live = true) (h : s.cursor + (s.p.length - 1) + e ≤ s.d.length) :
      Step eq s (.skipMatch e) (some (s.cursor + (s.p.length - 1) + e))
        { s with
          cursor := s.cursor + (s.p.length - 1) + e,
          live := decide (s.cursor + (s.p.length - 1) + e + s.p.length ≤ s.d.length) }
  | skipEnded (s e) (hl : s.live = false) : Step eq s (.skipMatch e) none s

/-- A history of calls with their results. -/
inductive Runs (eq : α → α → Bool) : S α → List (Call α) → List (Option Nat) → S α → Prop
  | nil (s) : Runs eq s [] [] s
  | cons {s o r s' os rs s''} (h : Step eq s o r s') (hs : Runs eq s' os rs s'') :
      Runs eq s (o :: os) (r :: rs) s''

/-- `Replaced eq p w n k l out`: replacing occurrences of `p` in `l` by `w` from left to right,
never overlapping, at most `n` of them, makes `k` replacements and gives `out`. -/
inductive Replaced (eq : α → α → Bool) (p w : List α) : Nat → Nat → List α → List α → Prop
  /-- Nothing (left) to replace. -/
  | none (n l) (h : ∀ i, ¬ MatchAt eq p l i) : Replaced eq p w n 0 l l
  /-- The limit is reached. -/
  | limit (l) : Replaced eq p w 0 0 l l
  /-- The first occurrence (at the end of `pre`) is replaced; the rest follows from behind it. -/
  | step {n k pre m post out} (hm : MatchAt eq p (pre ++ m ++ post) pre.length)
      (hl : m.length = p.length)
      (hf : ∀ j, j < pre.length → ¬ MatchAt eq p (pre ++ m ++ post) j)
      (h : Replaced eq p w n k post out) :
      Replaced eq p w (n + 1) (k + 1) (pre ++ m ++ post) (pre ++ w ++ out)

/-- `CutAt eq p w n l out rest`: `l` has more than `n` non-overlapping occurrences of `p`; replacing
the first `n` by `w` turns `l` into `out ++ rest`, where `rest` begins with the next occurrence. -/
inductive CutAt (eq : α → α → Bool) (p w : List α) : Nat → List α → List α → List α → Prop
  /-- None are to be replaced: the cut is in front of the first occurrence. -/
  | stop {pre m post} (hm : MatchAt eq p (pre ++ m ++ post) pre.length)
      (hl : m.length = p.length)
      (hf : ∀ j, j < pre.length → ¬ MatchAt eq p (pre ++ m ++ post) j) :
      CutAt eq p w 0 (pre ++ m ++ post) pre (m ++ post)
  /-- The first occurrence is replaced, the cut is behind it. -/
  | step {n pre m post out rest} (hm : MatchAt eq p (pre ++ m ++ post) pre.length)
      (hl : m.length = p.length)
      (hf : ∀ j, j < pre.length → ¬ MatchAt eq p (pre ++ m ++ post) j)
      (h : CutAt eq p w n post out rest) :
      CutAt eq p w (n + 1) (pre ++ m ++ post) (pre ++ w ++ out) rest

end Verif.FastFind.Spec
