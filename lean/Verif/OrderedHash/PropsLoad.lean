import Verif.OrderedHash.Props

/-!
# The table of the detachable ordered hash follows the number of nodes (C127)

`GetHashSize()` and `GetListSize()` are all a caller sees of the table.  The specification counts the sizes asked for and
the nodes present; it knows no primes.
-/

namespace Verif.OrderedHash
open Verif.Links Verif.OrderedHash.Spec

variable {α : Type}

namespace Spec

/-- The largest number of nodes in the hash at any time during a history. -/
def peak : S α → List (Op α) → Nat
  | s, [] => s.seq.length
  | s, op :: ops =>
    match step s op with
    | some (_, s') => Nat.max s.seq.length (peak s' ops)
    | none => s.seq.length

/-- The largest size asked for with `ResizeHash`. -/
def asked : List (Op α) → Nat
  | [] => 0
  | .resize n :: ops => Nat.max n (asked ops)
  | _ :: ops => asked ops

/-- `ResizeHash` is only called with 0 (refused) or at least as many slots as there are nodes. -/
def Roomy : S α → List (Op α) → Prop
  | _, [] => True
  | s, op :: ops =>
    (match op with
      | .resize n => n = 0 ∨ s.seq.length ≤ n
      | _ => True) ∧
    match step s op with
    | some (_, s') => Roomy s' ops
    | none => True

end Spec

/-! ## What the calls do to the size of the table -/

theorem bind_ok {β γ : Type} {x : CRes β} {f : β → CRes γ} {r : γ} (h : (x >>= f) = .ok r) : ∃ a, x = .ok a ∧ f a = .ok r := by
  cases x with
  | error u => cases h
  | ok a => exact ⟨a, rfl, h⟩

theorem obind_some {β γ : Type} {x : Option β} {f : β → Option γ} {r : γ} (h : (x >>= f) = some r) : ∃ a, x = some a ∧ f a = some r := by
  cases x with
  | none => cases h
  | some a => exact ⟨a, rfl, h⟩

theorem ok_snd {β γ : Type} {a c : β} {b d : γ} (h : (Except.ok (a, b) : CRes (β × γ)) = .ok (c, d)) : b = d := by cases h; rfl
theorem some_snd {β γ : Type} {a c : β} {b d : γ} (h : some (a, b) = some (c, d)) : b = d := by cases h; rfl

/-- Same table size, same next prime. -/
def Same (w w' : W α) : Prop := w'.tbl.length = w.tbl.length ∧ w'.npp = w.npp

theorem Same.rfl {w : W α} : Same w w := ⟨Eq.refl _, Eq.refl _⟩
theorem Same.trans {a b c : W α} (h : Same a b) (h' : Same b c) : Same a c := ⟨h'.1.trans h.1, h'.2.trans h.2⟩

theorem wr_length {β : Type} {m m' : List β} {i : Nat} {v : β} (h : wr m i v = .ok m') : m'.length = m.length := by
  unfold wr at h
  split at h
  · cases h; simp
  · cases h

theorem setHp_same {w w' : W α} {x : Nat} {v : Option Nat} (h : setHp w x v = .ok w') : Same w w' := by
  unfold setHp at h
  split at h
  · cases h; exact ⟨rfl, rfl⟩
  · cases h

theorem setHn_same {w w' : W α} {x : Nat} {v : Option Nat} (h : setHn w x v = .ok w') : Same w w' := by
  unfold setHn at h
  split at h
  · cases h; exact ⟨rfl, rfl⟩
  · cases h

theorem setHpOpt_same {w w' : W α} {p v : Option Nat} (h : setHpOpt w p v = .ok w') : Same w w' := by
  unfold setHpOpt at h
  split at h
  · cases h; exact ⟨rfl, rfl⟩
  · exact setHp_same h

theorem attachHash_same {w w' : W α} {x : Nat} (h : attachHash w x = .ok w') : Same w w' := by
  unfold attachHash at h
  obtain ⟨h0, -, h⟩ := bind_ok h
  obtain ⟨b, -, h⟩ := bind_ok h
  obtain ⟨f, -, h⟩ := bind_ok h
  obtain ⟨w1, h1, h⟩ := bind_ok h
  obtain ⟨w2, h2, h⟩ := bind_ok h
  obtain ⟨t, h3, h⟩ := bind_ok h
  cases h
  have := (setHn_same h1).trans (setHpOpt_same h2)
  exact ⟨(wr_length h3).trans this.1, this.2⟩

theorem rehashLoop_same : ∀ (k : Nat) {w w' : W α} {o : Option Nat}, rehashLoop k w o = .ok w' → Same w w'
  | 0, w, w', o, h => by cases h
  | k + 1, w, w', none, h => by cases h; exact Same.rfl
  | k + 1, w, w', some x, h => by
    unfold rehashLoop at h
    obtain ⟨w1, h1, h⟩ := bind_ok h
    obtain ⟨w2, h2, h⟩ := bind_ok h
    obtain ⟨n, -, h⟩ := bind_ok h
    exact ((setHp_same h1).trans (attachHash_same h2)).trans (rehashLoop_same k h)

theorem resize_size {w w' : W α} {n : Nat} {b : Bool} (h : resize w n = .ok (b, w')) :
    (n = 0 ∧ w' = w) ∨ (n ≠ 0 ∧ w'.tbl.length = n ∧ w'.npp = nextPrimePos n) := by
  unfold resize at h
  split at h
  · cases h; exact Or.inl ⟨by assumption, rfl⟩
  · obtain ⟨w1, h1, h⟩ := bind_ok h
    cases h
    have := (rehashLoop_same _ h1).1
    exact Or.inr ⟨by assumption, by simpa using this, rfl⟩

theorem growOrAttach_size {w w' : W α} {x : Nat} (h : growOrAttach w x = .ok w') :
    (Same w w' ∧ ∀ p, primes[w.npp]? = some p → w.num < p) ∨
      ∃ p, primes[w.npp]? = some p ∧ p ≤ w.num ∧ w'.tbl.length = p ∧ w'.npp = nextPrimePos p := by
  unfold growOrAttach at h
  split at h
  · rename_i p hp
    split at h
    · rename_i hle
      obtain ⟨⟨b, w1⟩, h1, h⟩ := bind_ok h
      cases h
      rcases resize_size h1 with ⟨h0, -⟩ | ⟨-, h2, h3⟩
      · exact absurd h0 (primes_pos hp)
      · exact Or.inr ⟨p, hp, hle, h2, h3⟩
    · rename_i hle
      refine Or.inl ⟨attachHash_same h, fun q hq => ?_⟩
      rw [hp] at hq
      cases hq
      omega
  · rename_i hn
    exact Or.inl ⟨attachHash_same h, fun q hq => by rw [hn] at hq; cases hq⟩

theorem insertN_size {hf : List UInt8 → Nat} {w w' : W α} {x : Nat} {l : LH → Ends → CRes (LH × Ends)} {o : Option Nat}
    (h : insertN hf w x l = .ok (o, w')) :
    Same w w' ∧ (∀ p, o.isSome → primes[w.npp]? = some p → w.num + 1 < p) ∨
      o.isSome ∧ ∃ p, primes[w.npp]? = some p ∧ p ≤ w.num + 1 ∧ w'.tbl.length = p ∧ w'.npp = nextPrimePos p := by
  unfold insertN at h
  obtain ⟨b, -, h⟩ := bind_ok h
  split at h
  · cases h; exact Or.inl ⟨Same.rfl, fun _ h => nomatch h⟩
  · obtain ⟨w1, h1, h⟩ := bind_ok h
    have e1 : w1.tbl = w.tbl ∧ w1.npp = w.npp ∧ w1.num = w.num := by
      unfold cacheHash at h1
      obtain ⟨c, -, h1⟩ := bind_ok h1
      cases h1
      exact ⟨rfl, rfl, rfl⟩
    obtain ⟨f, -, h⟩ := bind_ok h
    split at h
    · cases h
      exact Or.inl ⟨⟨by rw [e1.1], e1.2.1⟩, fun _ h => nomatch h⟩
    · obtain ⟨w2, h2, h⟩ := bind_ok h
      cases h
      unfold attachList at h2
      obtain ⟨⟨lh, e⟩, -, h2⟩ := bind_ok h2
      have := growOrAttach_size h2
      simp only [Same, e1.1, e1.2.1, e1.2.2] at this
      rcases this with ⟨h3, h4⟩ | h3
      · exact Or.inl ⟨h3, fun p _ => h4 p⟩
      · exact Or.inr ⟨rfl, h3⟩

theorem unhash_same {w w' : W α} {x : Nat} (h : unhash w x = .ok w') : Same w w' := by
  unfold unhash at h
  obtain ⟨h0, -, h⟩ := bind_ok h
  obtain ⟨b, -, h⟩ := bind_ok h
  obtain ⟨w1, h1, h⟩ := bind_ok h
  obtain ⟨n, -, h⟩ := bind_ok h
  obtain ⟨p, -, h⟩ := bind_ok h
  obtain ⟨w2, h2, h⟩ := bind_ok h
  obtain ⟨w3, h3, h⟩ := bind_ok h
  have e1 : Same w w1 := by
    unfold unhashPrev at h1
    obtain ⟨p', -, h1⟩ := bind_ok h1
    obtain ⟨n', -, h1⟩ := bind_ok h1
    split at h1
    · exact setHn_same h1
    · obtain ⟨f, -, h1⟩ := bind_ok h1
      split at h1
      · obtain ⟨t, h4, h1⟩ := bind_ok h1
        cases h1
        exact ⟨wr_length h4, rfl⟩
      · cases h1; exact Same.rfl
  exact ((e1.trans (setHpOpt_same h2)).trans (setHp_same h3)).trans (setHn_same h)

theorem detach_same {w w' : W α} {o : Option Nat} {reset b : Bool} (h : detach w o reset = .ok (b, w')) : Same w w' := by
  unfold detach at h
  split at h
  · cases h; exact Same.rfl
  · obtain ⟨⟨lh, e⟩, -, h⟩ := bind_ok h
    obtain ⟨w1, h1, h⟩ := bind_ok h
    cases h
    have e2 := unhash_same h1
    cases reset <;> exact e2

theorem deleteNode_same {w w' : W α} {x : Nat} (h : deleteNode w x = .ok w') : Same w w' := by
  unfold deleteNode at h
  split at h
  · cases h; exact ⟨rfl, rfl⟩
  · cases h

theorem emptyLoop_same : ∀ (k : Nat) {w w' : W α} {o : Option Nat}, emptyLoop k w o = .ok w' → Same w w'
  | 0, w, w', o, h => by cases h
  | k + 1, w, w', none, h => by cases h; exact Same.rfl
  | k + 1, w, w', some x, h => by
    unfold emptyLoop at h
    obtain ⟨n, -, h⟩ := bind_ok h
    obtain ⟨w1, h1, h⟩ := bind_ok h
    exact (deleteNode_same h1).trans (emptyLoop_same k h)

theorem releaseLoop_same {reset : Bool} : ∀ (k : Nat) {w w' : W α} {o : Option Nat}, releaseLoop reset k w o = .ok w' → Same w w'
  | 0, w, w', o, h => by cases h
  | k + 1, w, w', none, h => by cases h; exact Same.rfl
  | k + 1, w, w', some x, h => by
    unfold releaseLoop at h
    obtain ⟨n, -, h⟩ := bind_ok h
    obtain ⟨w1, h1, h⟩ := bind_ok h
    obtain ⟨w2, h2, h⟩ := bind_ok h
    have e3 := releaseLoop_same k h
    have e12 := (setHp_same h1).trans (setHn_same h2)
    cases reset <;> exact e12.trans e3

/-! ## The load -/

/-- The next prime belongs to the size of the table. -/
def Primed (w : W α) : Prop := w.npp = nextPrimePos w.tbl.length

/-- The table is not due for growing. -/
def Light (w : W α) (n : Nat) : Prop := ∀ p, primes[w.npp]? = some p → n < p

theorem nextPrime_gt {n p : Nat} (h : primes[nextPrimePos n]? = some p) : n < p := by
  unfold nextPrimePos at h
  have key : ∀ (l : List Nat), l[(l.takeWhile fun p => decide (p ≤ n)).length]? = some p → n < p := by
    intro l
    induction l with
    | nil => intro h; simp at h
    | cons a l ih =>
      intro h
      by_cases ha : a ≤ n
      · rw [List.takeWhile_cons_of_pos (by simpa using ha)] at h
        exact ih (by simpa using h)
      · rw [List.takeWhile_cons_of_neg (by simpa using ha)] at h
        simp at h
        omega
  exact key primes h

/-- How the size of the table and the load change in one call. -/
theorem step_load {hf : List UInt8 → Nat} {w w' : W α} {s s' : S α} {op : Op α} {r : Ret} (h : R hf w s) (h' : R hf w' s')
    (hs : Spec.step s op = some (r, s')) (e : step hf w op = .ok (r, w')) (hp : Primed w) :
    Primed w' ∧ w'.tbl.length ≤ Nat.max (Nat.max w.tbl.length (asked [op])) s'.seq.length ∧
      (Roomy s [op] → Light w s.seq.length → Light w' s'.seq.length) := by
  have hn := h.num
  have hn' := h'.num
  have same : Same w w' → s'.seq.length ≤ s.seq.length →
      Primed w' ∧ w'.tbl.length ≤ Nat.max (Nat.max w.tbl.length (asked [op])) s'.seq.length ∧
      (Roomy s [op] → Light w s.seq.length → Light w' s'.seq.length) := by
    intro hsm hle
    refine ⟨by unfold Primed; rw [hsm.1, hsm.2]; exact hp, ?_, fun _ hl p hpp => ?_⟩
    · rw [hsm.1]
      exact Nat.le_trans (Nat.le_max_left _ _) (Nat.le_max_left _ _)
    · rw [hsm.2] at hpp
      have := hl p hpp
      omega
  have grown : ∀ {x : Nat} {q : W α} {l : LH → Ends → CRes (LH × Ends)} {o : Option Nat} {w2 : W α}, insertN hf q x l = .ok (o, w2) →
      q.tbl = w.tbl → q.npp = w.npp → q.num = w.num → Same w2 w' → (o.isSome → s'.seq.length = s.seq.length + 1) →
      (o = none → s'.seq.length = s.seq.length) →
      Primed w' ∧ w'.tbl.length ≤ Nat.max (Nat.max w.tbl.length (asked [op])) s'.seq.length ∧
      (Roomy s [op] → Light w s.seq.length → Light w' s'.seq.length) := by
    intro x q l o w2 hi q1 q2 q3 hsm hsome hnone
    have := insertN_size hi
    simp only [Same, q1, q2, q3] at this
    rcases this with ⟨⟨a1, a2⟩, a3⟩ | ⟨a1, p, b1, b2, b3, b4⟩
    · have hsm' : Same w w' := ⟨hsm.1.trans a1, hsm.2.trans a2⟩
      cases o with
      | none => exact same hsm' (by rw [hnone rfl]; exact Nat.le_refl _)
      | some y =>
        refine ⟨by unfold Primed; rw [hsm'.1, hsm'.2]; exact hp, ?_, fun _ _ p hpp => ?_⟩
        · rw [hsm'.1]
          exact Nat.le_trans (Nat.le_max_left _ _) (Nat.le_max_left _ _)
        · rw [hsm'.2] at hpp
          have := a3 p rfl hpp
          rw [hsome rfl]
          omega
    · have hl := hsome a1
      refine ⟨by unfold Primed; rw [hsm.1, hsm.2, b3, b4], ?_, fun _ hlt q hq => ?_⟩
      · rw [hsm.1, b3]
        exact Nat.le_trans (by omega) (Nat.le_max_right _ _)
      · rw [hsm.2, b4] at hq
        have h1 := nextPrime_gt hq
        have h2 := hlt p b1
        omega
  have insLen : ∀ {xs ys : List Nat} {x : Nat} {a : Bool} {n : Option Nat}, ins xs x a n = some ys → ys.length = xs.length + 1 := by
    intro xs ys x a n hi
    cases n with
    | none =>
      cases hi
      cases a <;> simp
    | some b =>
      simp only [ins] at hi
      split at hi
      · rename_i hb
        cases hi
        obtain ⟨as, bs, e1, -, e2⟩ : ∃ as bs, xs = as ++ b :: bs ∧ b ∉ as ∧
            nextTo a x b xs = as ++ (if a then b :: x :: bs else x :: b :: bs) := by
          clear hn hn' same grown
          induction xs with
          | nil => cases hb
          | cons y ys ih =>
            by_cases e : y = b
            · subst e
              exact ⟨[], ys, rfl, by simp, by simp [nextTo]⟩
            · have hb' : b ∈ ys := by
                cases hb with
                | head => exact absurd rfl e
                | tail _ h => exact h
              obtain ⟨as, bs, r1, r2, r3⟩ := ih hb'
              exact ⟨y :: as, bs, by rw [r1]; rfl, by simp [r2, Ne.symm e], by simp [nextTo, e, r3]⟩
        rw [e2, e1]
        cases a <;> simp <;> omega
      · cases hi
  cases op with
  | create k v => obtain rfl := some_snd hs; obtain rfl := ok_snd e; exact same ⟨rfl, rfl⟩ (Nat.le_refl _)
  | delete x =>
    simp only [Spec.step] at hs
    split at hs
    · cases hs
      obtain ⟨w1, h1, e⟩ := bind_ok e
      cases e
      exact same (deleteNode_same h1) (Nat.le_refl _)
    · cases hs
  | setKey x k =>
    simp only [Spec.step] at hs
    split at hs
    · cases hs
      cases k with
      | int i =>
        obtain ⟨w1, h1, e⟩ := bind_ok e
        cases e
        unfold setIntKey at h1
        split at h1
        · cases h1; exact same ⟨rfl, rfl⟩ (Nat.le_refl _)
        · cases h1
      | str bs =>
        obtain ⟨w1, h1, e⟩ := bind_ok e
        cases e
        unfold setStrKey at h1
        split at h1
        · obtain ⟨b, -, h1⟩ := bind_ok h1
          cases h1; exact same ⟨rfl, rfl⟩ (Nat.le_refl _)
        · cases h1
    · cases hs
  | setValue x v =>
    simp only [Spec.step] at hs
    split at hs
    · cases hs
      simp only [step] at e
      split at e
      · cases e; exact same ⟨rfl, rfl⟩ (Nat.le_refl _)
      · cases e
    · cases hs
  | insert a n k v =>
    obtain ⟨⟨o, w1⟩, h1, e⟩ := bind_ok e
    cases e
    unfold insertV at h1
    obtain ⟨⟨o2, w2⟩, h2, h1⟩ := bind_ok h1
    simp only [Spec.step] at hs
    cases o2 with
    | some y =>
      cases h1
      refine grown h2 rfl rfl rfl Same.rfl (fun _ => ?_) (fun h => nomatch h)
      split at hs
      · obtain ⟨ys, h3, hs⟩ := obind_some hs
        cases hs
        exact insLen h3
      · cases hs
    | none =>
      obtain ⟨w3, h3, h1⟩ := bind_ok h1
      cases h1
      refine grown h2 rfl rfl rfl (deleteNode_same h3) (fun h => nomatch h) (fun _ => ?_)
      split at hs
      · obtain ⟨ys, h3, hs⟩ := obind_some hs
        cases hs
      · cases hs; rfl
  | insertNode a n x =>
    obtain ⟨⟨o, w1⟩, h1, e⟩ := bind_ok e
    cases e
    simp only [Spec.step] at hs
    refine grown h1 rfl rfl rfl Same.rfl (fun ho => ?_) (fun ho => ?_)
    · split at hs
      · split at hs
        · split at hs
          · cases hs
          · obtain ⟨ys, h3, hs⟩ := obind_some hs
            cases hs
            exact insLen h3
        · cases hs; cases ho
      · split at hs
        · cases hs; cases ho
        · cases hs
    · subst ho
      split at hs
      · split at hs
        · split at hs
          · cases hs
          · obtain ⟨ys, h3, hs⟩ := obind_some hs
            cases hs
        · cases hs; rfl
      · split at hs
        · cases hs; rfl
        · cases hs
  | pop reset =>
    obtain ⟨⟨b, w1⟩, h1, e⟩ := bind_ok e
    obtain rfl := ok_snd e
    refine same (detach_same h1) ?_
    simp only [Spec.step] at hs
    split at hs
    · obtain rfl := some_snd hs; exact Nat.le_refl _
    · obtain rfl := some_snd hs; simp
  | shift reset =>
    obtain ⟨⟨b, w1⟩, h1, e⟩ := bind_ok e
    obtain rfl := ok_snd e
    refine same (detach_same h1) ?_
    simp only [Spec.step] at hs
    split at hs
    · obtain rfl := some_snd hs; exact Nat.le_refl _
    · rename_i hq
      obtain rfl := some_snd hs
      rw [hq]
      simp
  | detach x reset =>
    obtain ⟨⟨b, w1⟩, h1, e⟩ := bind_ok e
    cases e
    refine same (detach_same h1) ?_
    cases x with
    | none => cases hs; exact Nat.le_refl _
    | some x =>
      simp only [Spec.step] at hs
      split at hs
      · cases hs; exact List.length_erase_le
      · cases hs
  | remove x =>
    obtain ⟨⟨b, w1⟩, h1, e⟩ := bind_ok e
    cases e
    unfold remove at h1
    obtain ⟨⟨b2, w2⟩, h2, h1⟩ := bind_ok h1
    have hsm : Same w w' := by
      dsimp only at h1
      split at h1
      · obtain ⟨w3, h3, h1⟩ := bind_ok h1
        cases h1
        exact (detach_same h2).trans (deleteNode_same h3)
      · cases h1; exact detach_same h2
    refine same hsm ?_
    cases x with
    | none => cases hs; exact Nat.le_refl _
    | some x =>
      simp only [Spec.step] at hs
      split at hs
      · cases hs; exact List.length_erase_le
      · cases hs
  | empty =>
    obtain ⟨w1, h1, e⟩ := bind_ok e
    cases e
    cases hs
    unfold empty at h1
    obtain ⟨w2, h2, h1⟩ := bind_ok h1
    cases h1
    have := emptyLoop_same _ h2
    exact same ⟨by simpa using this.1, this.2⟩ (by simp)
  | release reset =>
    obtain ⟨w1, h1, e⟩ := bind_ok e
    cases e
    cases hs
    unfold release at h1
    obtain ⟨w2, h2, h1⟩ := bind_ok h1
    cases h1
    have := releaseLoop_same _ h2
    exact same ⟨by simpa using this.1, this.2⟩ (by simp)
  | find k =>
    obtain ⟨o, -, e⟩ := bind_ok e
    cases e
    cases hs
    exact same Same.rfl (Nat.le_refl _)
  | findNode x =>
    simp only [Spec.step] at hs
    split at hs
    · cases hs
      obtain ⟨o, -, e⟩ := bind_ok e
      cases e
      exact same Same.rfl (Nat.le_refl _)
    · cases hs
  | resize n =>
    obtain ⟨⟨b, w1⟩, h1, e⟩ := bind_ok e
    cases e
    cases hs
    rcases resize_size h1 with ⟨-, rfl⟩ | ⟨h0, h2, h3⟩
    · exact same Same.rfl (Nat.le_refl _)
    · refine ⟨by unfold Primed; rw [h2, h3], ?_, fun hr _ p hpp => ?_⟩
      · rw [h2]
        refine Nat.le_trans ?_ (Nat.le_max_left _ _)
        refine Nat.le_trans ?_ (Nat.le_max_right _ _)
        exact Nat.le_max_left _ _
      · rw [h3] at hpp
        have h4 := nextPrime_gt hpp
        have h5 : n = 0 ∨ s.seq.length ≤ n := hr.1
        show s.seq.length < p
        omega
  | size => obtain rfl := some_snd hs; obtain rfl := ok_snd e; exact same Same.rfl (Nat.le_refl _)

theorem run_load {hf : List UInt8 → Nat} : ∀ {ops : List (Op α)} {w w' : W α} {s s' : S α} {rs : List Ret}, R hf w s →
    Spec.run s ops = some (rs, s') → run hf w ops = .ok (rs, w') → Primed w →
    Primed w' ∧ (∀ M, w.tbl.length ≤ M → asked ops ≤ M → peak s ops ≤ M → w'.tbl.length ≤ M) ∧
      (Roomy s ops → Light w s.seq.length → Light w' s'.seq.length)
  | [], w, w', s, s', rs, h, hr, e, hp => by
    cases e
    cases hr
    exact ⟨hp, fun M h _ _ => h, fun _ h => h⟩
  | op :: ops, w, w', s, s', rs, h, hr, e, hp => by
    unfold Spec.run at hr
    obtain ⟨⟨r, s1⟩, h1, h2⟩ := obind_some hr
    obtain ⟨⟨rs', s2⟩, h3, h4⟩ := obind_some h2
    cases h4
    obtain ⟨w1, g1, g2⟩ := step_refines h h1
    obtain ⟨w2, g3, g4⟩ := run_refines g2 h3
    have e2 : w2 = w' := by
      simp [run, g1, g3] at e
      exact e
    subst e2
    obtain ⟨a1, a2, a3⟩ := step_load h g2 h1 g1 hp
    obtain ⟨b1, b2, b3⟩ := run_load g2 h3 g3 a1
    refine ⟨b1, fun M m1 m2 m3 => ?_, fun hro hl => ?_⟩
    · unfold peak at m3
      rw [h1] at m3
      have m3 : Nat.max s.seq.length (peak s1 ops) ≤ M := m3
      have m4 : asked [op] ≤ M ∧ asked ops ≤ M := by
        cases op with
        | resize n =>
          have m2 : Nat.max n (asked ops) ≤ M := m2
          exact ⟨Nat.max_le.2 ⟨Nat.le_trans (Nat.le_max_left _ _) m2, Nat.zero_le _⟩, Nat.le_trans (Nat.le_max_right _ _) m2⟩
        | _ => exact ⟨Nat.zero_le _, m2⟩
      have m5 : peak s1 ops ≤ M := Nat.le_trans (Nat.le_max_right _ _) m3
      have m6 : s1.seq.length ≤ M := by
        refine Nat.le_trans ?_ m5
        cases ops with
        | nil => exact Nat.le_refl _
        | cons op' ops' =>
          unfold peak
          split
          · exact Nat.le_max_left _ _
          · exact Nat.le_refl _
      exact b2 M (Nat.le_trans a2 (Nat.max_le.2 ⟨Nat.max_le.2 ⟨m1, m4.1⟩, m6⟩)) m4.2 m5
    · have hro : _ ∧ (match Spec.step s op with | some (_, s') => Roomy s' ops | none => True) := hro
      have hro' := hro.2
      rw [h1] at hro'
      refine b3 hro' (a3 ⟨hro.1, ?_⟩ hl)
      rw [h1]
      trivial

theorem takeWhile_le {n : Nat} : ∀ (l : List Nat) (j q : Nat), j < (l.takeWhile fun p => decide (p ≤ n)).length → l[j]? = some q → q ≤ n
  | [], j, q, h, _ => by simp at h
  | a :: l, j, q, h, hq => by
    by_cases ha : a ≤ n
    · rw [List.takeWhile_cons_of_pos (by simpa using ha)] at h
      cases j with
      | zero => simp at hq; omega
      | succ j => exact takeWhile_le l j q (by simpa using h) (by simpa using hq)
    · rw [List.takeWhile_cons_of_neg (by simpa using ha)] at h
      simp at h

/-- The next prime is at most 2.1 times as far as the one before it. -/
theorem primes_close : ∀ i, i < 30 → 10 * (primes.getD (i + 1) 0 - 1) ≤ 21 * primes.getD i 0 := by decide

theorem light_bound {w : W α} {n : Nat} (hp : Primed w) (hl : Light w n) (h0 : 0 < w.tbl.length) (hn : n < 3221225473) :
    10 * n ≤ 21 * w.tbl.length := by
  have hlen : primes.length = 31 := rfl
  have hle : w.npp ≤ 31 := by
    rw [hp, ← hlen]
    exact (List.takeWhile_prefix _).length_le
  rcases Nat.eq_zero_or_pos w.npp with h | h
  · have := hl 3 (by rw [h]; rfl)
    omega
  · obtain ⟨i, hi⟩ : ∃ i, w.npp = i + 1 := ⟨w.npp - 1, by omega⟩
    have hi30 : i < 31 := by omega
    have hq : primes[i]? = some (primes.getD i 0) := by
      rw [List.getD_eq_getElem?_getD, List.getElem?_eq_getElem (by omega)]
      rfl
    have hle1 : primes.getD i 0 ≤ w.tbl.length := takeWhile_le primes i _ (by
      have : w.npp = (primes.takeWhile fun p => decide (p ≤ w.tbl.length)).length := hp
      omega) hq
    rcases Nat.lt_or_ge i 30 with h30 | h30
    · have hq' : primes[i + 1]? = some (primes.getD (i + 1) 0) := by
        rw [List.getD_eq_getElem?_getD, List.getElem?_eq_getElem (by omega)]
        rfl
      have h1 := hl _ (by rw [hi]; exact hq')
      have h2 := primes_close i h30
      omega
    · have : i = 30 := by omega
      subst this
      have h3 : primes.getD 30 0 = 3221225473 := rfl
      omega

/-! ## The property -/

/-- C127: the table follows the number of nodes.  After any history in which `ResizeHash` never asked for fewer slots than
there are nodes, ten times `GetListSize()` is at most 21 times `GetHashSize()` (up to 3,221,225,472 nodes, where the list
of primes ends). -/
theorem load_factor (hf : List UInt8 → Nat) (dflt : α) (n : Nat) (hn : 1 ≤ n) (ops : List (Op α)) (rs : List Ret) (s : S α)
    (hs : Spec.run (S.empty dflt) ops = some (rs, s)) (hr : Roomy (S.empty dflt) ops) (hlt : s.seq.length < 3221225473) :
    ∃ w, run hf (construct dflt n) ops = .ok (rs, w) ∧ w.num = s.seq.length ∧ 10 * w.num ≤ 21 * w.tbl.length := by
  have r0 := R.construct hf dflt (n := n) (by omega)
  obtain ⟨w, h1, h2⟩ := run_refines r0 hs
  have hp : Primed (construct dflt n : W α) := by
    unfold Primed
    show (if n = 0 then 0 else nextPrimePos n) = nextPrimePos (List.replicate n (none : Option Nat)).length
    rw [if_neg (by omega), List.length_replicate]
  obtain ⟨b1, -, b3⟩ := run_load r0 hs h1 hp
  have hl : Light (construct dflt n : W α) (S.empty dflt).seq.length := fun p hpp => Nat.pos_of_ne_zero (primes_pos hpp)
  refine ⟨w, h1, h2.num, ?_⟩
  rw [h2.num]
  exact light_bound b1 (b3 hr hl) h2.pos hlt

/-- C127: and it never gets larger than what was asked for or needed: `GetHashSize()` is at most the largest of the initial
size, the sizes given to `ResizeHash` and the largest number of nodes at one time (no restriction on `ResizeHash`). -/
theorem table_not_larger (hf : List UInt8 → Nat) (dflt : α) (n : Nat) (hn : 1 ≤ n) (ops : List (Op α)) (rs : List Ret) (s : S α)
    (hs : Spec.run (S.empty dflt) ops = some (rs, s)) (M : Nat) (h1 : n ≤ M) (h2 : asked ops ≤ M) (h3 : peak (S.empty dflt) ops ≤ M) :
    ∃ w, run hf (construct dflt n) ops = .ok (rs, w) ∧ 1 ≤ w.tbl.length ∧ w.tbl.length ≤ M := by
  have r0 := R.construct hf dflt (n := n) (by omega)
  obtain ⟨w, g1, g2⟩ := run_refines r0 hs
  have hp : Primed (construct dflt n : W α) := by
    unfold Primed
    show (if n = 0 then 0 else nextPrimePos n) = nextPrimePos (List.replicate n (none : Option Nat)).length
    rw [if_neg (by omega), List.length_replicate]
  obtain ⟨-, b2, -⟩ := run_load r0 hs g1 hp
  refine ⟨w, g1, g2.pos, b2 M ?_ h2 h3⟩
  show (List.replicate n (none : Option Nat)).length ≤ M
  rw [List.length_replicate]
  exact h1

/-- C127, the restriction on `ResizeHash` is needed: after `ResizeHash(1)` with any number of nodes, and at least two, the
next new key gets a table of three slots, whatever the number of nodes is. -/
theorem shrunk_table_lags (hf : List UInt8 → Nat) (dflt : α) (n : Nat) (hn : 1 ≤ n) (ops : List (Op α)) (rs : List Ret) (s : S α)
    (hs : Spec.run (S.empty dflt) ops = some (rs, s)) (h2 : 2 ≤ s.seq.length) (k : Key) (v : α) (hk : lookup s k = none) :
    ∃ w, run hf (construct dflt n) (ops ++ [.resize 1, .insert false none k v]) = .ok (rs ++ [.bool true, .node (some s.fresh)], w) ∧
      w.num = s.seq.length + 1 ∧ w.tbl.length = 3 := by
  have r0 := R.construct hf dflt (n := n) (by omega)
  obtain ⟨w, g1, g2⟩ := run_refines r0 hs
  obtain ⟨w1, g3, g4⟩ := step_refines g2 (op := .resize 1) (r := .bool true) (s' := s) rfl
  have hstep : Spec.step s (.insert false none k v) =
      some (.node (some s.fresh), { Spec.create s k v with seq := s.seq ++ [s.fresh], loose := s.loose }) := by
    simp [Spec.step, hk, ins]
  obtain ⟨w2, g5, g6⟩ := step_refines g4 hstep
  have hw1 : w1.tbl.length = 1 ∧ w1.npp = nextPrimePos 1 := by
    obtain ⟨⟨b, w3⟩, h3, e⟩ := bind_ok g3
    obtain rfl := ok_snd e
    rcases resize_size h3 with ⟨h, -⟩ | ⟨-, h⟩
    · omega
    · exact h
  have hw2 : w2.tbl.length = 3 := by
    obtain ⟨⟨o, w3⟩, h3, e⟩ := bind_ok g5
    have ho : o = some s.fresh := by
      cases e
      rfl
    obtain rfl := ok_snd e
    subst ho
    unfold insertV at h3
    obtain ⟨⟨o2, w4⟩, h4, h3⟩ := bind_ok h3
    cases o2 with
    | none =>
      obtain ⟨w5, -, h3⟩ := bind_ok h3
      cases h3
    | some y =>
      have hw : w4 = w3 := by cases h3; rfl
      subst hw
      have hsz := insertN_size h4
      have hnum : (createNode w1 k v).2.num = s.seq.length := g4.num
      have hnpp : (createNode w1 k v).2.npp = 0 := hw1.2.trans (by decide)
      rw [hnum, hnpp] at hsz
      rcases hsz with ⟨-, h5⟩ | ⟨-, p, h5, -, h6, -⟩
      · have := h5 3 rfl rfl
        omega
      · have h5 : some 3 = some p := h5
        cases h5
        exact h6
  have happ : ∀ {l : List (Op α)} {q q' : W α} {rl : List Ret} (m : List (Op α)), run hf q l = .ok (rl, q') →
      run hf q (l ++ m) = (run hf q' m >>= fun r => .ok (rl ++ r.1, r.2)) := by
    intro l
    induction l with
    | nil =>
      intro q q' rl m h
      cases h
      simp only [List.nil_append]
      cases run hf q m <;> rfl
    | cons op l ih =>
      intro q q' rl m h
      simp only [run] at h
      obtain ⟨⟨r1, q1⟩, h1, h⟩ := bind_ok h
      obtain ⟨⟨r2, q2⟩, h2, h⟩ := bind_ok h
      cases h
      simp only [List.cons_append, run, h1, ok_bind, ih m h2]
      cases run hf q2 m <;> rfl
  refine ⟨w2, ?_, by rw [g6.num]; simp, hw2⟩
  rw [happ _ g1]
  simp [run, g3, g5]

/-- Non-trivial cases: six keys in a table that started with one slot, and a legal history with `ResizeHash`. -/
example : ((run (fun bs => bs.length) (construct (0 : Nat) 1) ((List.range 6).map fun i => .insert false none (.int (Int.ofNat i)) i)).map
    fun r => (r.2.num, r.2.tbl.length)) = .ok (6, 5) := by decide

example : Roomy (S.empty (0 : Nat)) [.insert false none (.int 1) 1, .insert true none (.int 2) 2, .resize 2, .insert false none (.int 3) 3] := by
  refine ⟨trivial, trivial, Or.inr (by decide), trivial, trivial⟩

example : peak (S.empty (0 : Nat)) [.insert false none (.int 1) 1, .insert true none (.int 2) 2, .pop true] = 2 := by decide

end Verif.OrderedHash
