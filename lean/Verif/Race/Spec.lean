/-!
# Data races (specification of C132)

C++ calls two accesses of different threads to the same variable *conflicting* if at least one of them writes.  If in
some execution two threads are both about to make conflicting accesses to a plain (not atomic) variable, the program
has a data race and its behaviour is undefined.  If no sequentially consistent execution comes to such a
point, then all executions of the program are sequentially consistent: this is what allows to model threads by
interleaving their steps.
-/

namespace Verif.Race

/-- An access to a plain variable. -/
structure Access (L : Type) where
  loc : L
  write : Bool
  deriving DecidableEq

/-- Two sets of accesses conflict. -/
def Conflict {L : Type} (as bs : List (Access L)) : Prop :=
  ∃ a ∈ as, ∃ b ∈ bs, a.loc = b.loc ∧ (a.write = true ∨ b.write = true)

/-- `acc t` is what thread `t` is about to access: no two threads are in a data race. -/
def NoRace {L : Type} (acc : Nat → List (Access L)) : Prop := ∀ t u, t ≠ u → ¬ Conflict (acc t) (acc u)

end Verif.Race
