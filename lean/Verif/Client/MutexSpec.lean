/-! # What a program expects of data that only one thread at a time uses -/

namespace Verif.Client.Spec

/-- The data after the threads `ts` have, one after the other and nobody in between, replaced it by what they
compute from it. -/
def serial {σ : Type} (f : Nat → σ → σ) (d : σ) : List Nat → σ
  | [] => d
  | t :: ts => serial f (f t d) ts

end Verif.Client.Spec
