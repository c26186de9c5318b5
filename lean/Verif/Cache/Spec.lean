import Verif.Cache.Model

/-!
# Specification of the cache

A cache remembers what happened to it.  A copy remembers what happened to its source.  What a lookup must
answer is a statement about that memory.
-/

namespace Verif.Cache.Spec
variable {K V : Type}

/-- What can happen to the contents of a cache. -/
inductive Event (K V : Type) where
  | emptied
  | inserted (k : K) (v : V)
  | removed (k : K)

/-- A cache of `num` slots with its past, oldest event first. -/
structure Past (K V : Type) where
  num : Nat
  events : List (Event K V)

/-- Two keys compete for one slot. -/
def sameSlot (hash : K → Nat) (num : Nat) (k k' : K) : Prop := hash k % num = hash k' % num

/-- The event does not take `k` out of the cache. -/
def Spares (hash : K → Nat) (num : Nat) (k : K) : Event K V → Prop
  | .emptied => False
  | .inserted k' _ => ¬ sameSlot hash num k' k
  | .removed k' => k' ≠ k

/-- `v` was stored for `k`, and nothing since then has removed, overwritten or displaced it. -/
def Holds (hash : K → Nat) (p : Past K V) (k : K) (v : V) : Prop :=
  ∃ before after, p.events = before ++ Event.inserted k v :: after ∧
    ∀ e ∈ after, Spares hash p.num k e

/-- Correct answers: what each operation may answer, and how it extends the pasts. -/
def Step (hash : K → Nat) (s : List (Past K V)) (op : Op K V) (o : Out V) (s' : List (Past K V)) : Prop :=
  match op with
  | .construct n => o = .none ∧ s' = s ++ [{ num := n, events := [] }]
  | .copyConstruct j => ∃ t, s[j]? = some t ∧ o = .none ∧ s' = s ++ [t]
  | .assign i j => ∃ t, s[j]? = some t ∧ o = .none ∧ s' = s.set i t
  | .empty i => ∃ p, s[i]? = some p ∧ o = .none ∧ s' = s.set i { p with events := p.events ++ [.emptied] }
  | .insert i _ k v => ∃ p, s[i]? = some p ∧ o = .none ∧
      s' = s.set i { p with events := p.events ++ [.inserted k v] }
  | .remove i _ k => ∃ p, s[i]? = some p ∧ (∃ b, o = .bool b ∧ (b = true ↔ ∃ v, Holds hash p k v)) ∧
      s' = s.set i { p with events := p.events ++ [.removed k] }
  | .exists_ i _ k => ∃ p, s[i]? = some p ∧ (∃ b, o = .bool b ∧ (b = true ↔ ∃ v, Holds hash p k v)) ∧ s' = s
  | .find i _ k => ∃ p, s[i]? = some p ∧ (∃ r, o = .found r ∧ ∀ v, r = some v ↔ Holds hash p k v) ∧ s' = s

/-- Correct answers to a whole history. -/
inductive Run (hash : K → Nat) : List (Past K V) → List (Op K V) → List (Out V) → List (Past K V) → Prop
  | nil (s) : Run hash s [] [] s
  | cons {s op o s' ops os s''} : Step hash s op o s' → Run hash s' ops os s'' →
      Run hash s (op :: ops) (o :: os) s''

/-- Legal use with `count` existing caches: existing objects, sizes of at least one, and the hash passed is that
of the key. -/
def Legal (hash : K → Nat) : (count : Nat) → List (Op K V) → Prop
  | _, [] => True
  | c, .construct n :: ops => 0 < n ∧ Legal hash (c + 1) ops
  | c, .copyConstruct j :: ops => j < c ∧ Legal hash (c + 1) ops
  | c, .assign i j :: ops => i < c ∧ j < c ∧ Legal hash c ops
  | c, .empty i :: ops => i < c ∧ Legal hash c ops
  | c, .insert i hk k _ :: ops => i < c ∧ hk = hash k ∧ Legal hash c ops
  | c, .remove i hk k :: ops => i < c ∧ hk = hash k ∧ Legal hash c ops
  | c, .exists_ i hk k :: ops => i < c ∧ hk = hash k ∧ Legal hash c ops
  | c, .find i hk k :: ops => i < c ∧ hk = hash k ∧ Legal hash c ops

end Verif.Cache.Spec
