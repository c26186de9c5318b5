import Verif.MixedVar.Props

/-! # C42: kind and values after any history -/

namespace Verif.MixedVar
namespace Spec

/-- The kind a call leaves: that of the value it sets; calls that edit the text leave the kind alone. -/
def kindAfter (k : Mode) : Op → Mode
  | .setBool _ => .bool
  | .setInt _ => .int
  | .setUInt _ => .uint
  | .setDouble _ => .double
  | .setStr _ | .setData _ _ => .str
  | _ => k

/-- The 64 bits of the number, as a natural number. -/
def numberAfter (x : Nat) : Op → Nat
  | .setBool b => if b then 1 else 0
  | .setInt n => (n % 2 ^ 64).toNat
  | .setUInt n => n
  | _ => x

/-- The bits of the double. -/
def doubleAfter (d : UInt64) : Op → UInt64
  | .setDouble e => e
  | _ => d

/-- Values that the parameters can have. -/
def InType : Op → Prop
  | .setInt n => -(2 ^ 63) ≤ n ∧ n < 2 ^ 63
  | .setUInt n => n < 2 ^ 64
  | _ => True

end Spec
open Spec

/-- What calls on the text leave alone. -/
def Keeps (v v' : V) : Prop := v'.mode = v.mode ∧ v'.mxInt = v.mxInt ∧ v'.dbl = v.dbl

theorem Keeps.trans {a b c : V} (h : Keeps a b) (h' : Keeps b c) : Keeps a c :=
  ⟨h'.1.trans h.1, h'.2.1.trans h.2.1, h'.2.2.trans h.2.2⟩

theorem term_keeps {v v' : V} (e : term v = .ok v') : Keeps v v' := by
  unfold term at e
  cases h : wr v.str v.pos 0 with
  | error u => rw [h] at e; cases e
  | ok m => rw [h, ok_bind] at e; cases e; exact ⟨rfl, rfl, rfl⟩

theorem copyStr_keeps : ∀ (s : List UInt8) (v v' : V), copyStr v s = .ok v' → Keeps v v'
  | [], v, v', e => by cases e; exact ⟨rfl, rfl, rfl⟩
  | c :: cs, v, v', e => by
    unfold copyStr at e
    split at e
    · cases h : wr v.str v.pos c with
      | error u => rw [h] at e; cases e
      | ok m => rw [h, ok_bind] at e; have := copyStr_keeps cs _ v' e; exact this
    · cases e; exact ⟨rfl, rfl, rfl⟩

theorem copyData_keeps (mem : List UInt8) : ∀ (n i : Nat) (v v' : V), copyData v mem n i = .ok v' → Keeps v v'
  | 0, i, v, v', e => by cases e; exact ⟨rfl, rfl, rfl⟩
  | n + 1, i, v, v', e => by
    unfold copyData at e
    split at e
    · cases h : rd mem i with
      | error u => rw [h] at e; cases e
      | ok c =>
        rw [h, ok_bind] at e
        cases h : wr v.str v.pos c with
        | error u => rw [h] at e; cases e
        | ok m => rw [h, ok_bind] at e; have := copyData_keeps mem n (i + 1) _ v' e; exact this
    · cases e; exact ⟨rfl, rfl, rfl⟩

theorem appendStr_keeps {v v' : V} {s : List UInt8} (e : appendStr v s = .ok v') : Keeps v v' := by
  unfold appendStr at e
  cases h : copyStr v s with
  | error u => rw [h] at e; cases e
  | ok w => rw [h, ok_bind] at e; exact (copyStr_keeps s v w h).trans (term_keeps e)

theorem appendData_keeps {v v' : V} {mem : List UInt8} {n : Nat} (e : appendData v mem n = .ok v') : Keeps v v' := by
  unfold appendData at e
  cases h : copyData v mem n 0 with
  | error u => rw [h] at e; cases e
  | ok w => rw [h, ok_bind] at e; exact (copyData_keeps mem n 0 v w h).trans (term_keeps e)

theorem prependData_keeps {v v' : V} {mem : List UInt8} {n : Nat} (e : prependData v mem n = .ok v') : Keeps v v' := by
  unfold prependData at e
  split at e
  · cases h : memmoveIn v.str n 0 (v.pos + 1) with
    | error u => rw [h] at e; cases e
    | ok m =>
      rw [h, ok_bind] at e
      cases h' : memcpyTo m 0 mem n with
      | error u => rw [h'] at e; cases e
      | ok m' => rw [h', ok_bind] at e; cases e; exact ⟨rfl, rfl, rfl⟩
  · cases e; exact ⟨rfl, rfl, rfl⟩

theorem withInt_keeps {v v' : V} {r : CRes (Bool × List UInt8)} {f : V → List UInt8 → CRes V}
    (hf : ∀ t, f v t = .ok v' → Keeps v v') (e : withInt v r f = .ok v') : Keeps v v' := by
  unfold withInt at e
  cases h : r with
  | error u => rw [h] at e; cases e
  | ok x =>
    obtain ⟨ok, t⟩ := x
    rw [h, ok_bind] at e
    cases ok with
    | true => exact hf _ e
    | false => cases e; exact ⟨rfl, rfl, rfl⟩

theorem appendChar_keeps {v v' : V} {c : UInt8} (e : appendChar v c = .ok v') : Keeps v v' := by
  unfold appendChar at e
  split at e
  · cases h : wr v.str v.pos c with
    | error u => rw [h] at e; cases e
    | ok m => rw [h, ok_bind] at e; have := term_keeps e; exact this
  · cases e; exact ⟨rfl, rfl, rfl⟩

/-- One call. -/
theorem step_values {v v' : V} {o : Op} (ht : InType o) (e : step v o = .ok v') :
    v'.mode = kindAfter v.mode o ∧ getUInt v' = numberAfter (getUInt v) o ∧ getDouble v' = doubleAfter (getDouble v) o := by
  have pk : Keeps v v' → v'.mode = v.mode ∧ getUInt v' = getUInt v ∧ getDouble v' = getDouble v :=
    fun h => ⟨h.1, by rw [getUInt, h.2.1, getUInt], h.2.2⟩
  cases o with
  | setBool b => cases e; exact ⟨rfl, by cases b <;> rfl, rfl⟩
  | setInt n => cases e; exact ⟨rfl, rfl, rfl⟩
  | setUInt n => cases e; exact ⟨rfl, ((values_round_trip v).2.2.1 n ht).1, rfl⟩
  | setDouble d => cases e; exact ⟨rfl, rfl, rfl⟩
  | setStr s =>
    have h : Keeps { v with mode := .str, pos := 0 } v' := appendStr_keeps e
    exact ⟨h.1, by rw [getUInt, h.2.1]; rfl, h.2.2⟩
  | setData mem n =>
    have h : Keeps { v with mode := .str, pos := 0 } v' := appendData_keeps e
    exact ⟨h.1, by rw [getUInt, h.2.1]; rfl, h.2.2⟩
  | prependStr s => exact pk (prependData_keeps e)
  | prependDouble s => exact pk (prependData_keeps e)
  | prependData mem n => exact pk (prependData_keeps e)
  | prependInt n r => exact pk (withInt_keeps (fun t h => prependData_keeps h) e)
  | prependUInt n r => exact pk (withInt_keeps (fun t h => prependData_keeps h) e)
  | appendStr s => exact pk (appendStr_keeps e)
  | appendDouble s => exact pk (appendStr_keeps e)
  | appendData mem n => exact pk (appendData_keeps e)
  | appendInt n r => exact pk (withInt_keeps (fun t h => appendStr_keeps h) e)
  | appendUInt n r => exact pk (withInt_keeps (fun t h => appendStr_keeps h) e)
  | appendChar c => exact pk (appendChar_keeps e)
  | appendMissingChar c =>
    simp only [step, appendMissingChar] at e
    cases h : endsWith v c with
    | error u => rw [h] at e; cases e
    | ok b =>
      rw [h, ok_bind] at e
      cases b with
      | true => cases e; exact ⟨rfl, rfl, rfl⟩
      | false => exact pk (appendChar_keeps e)
  | removeTrailingChar c =>
    simp only [step, removeTrailingChar] at e
    cases h : endsWith v c with
    | error u => rw [h] at e; cases e
    | ok b =>
      rw [h, ok_bind] at e
      cases b with
      | true =>
        simp only [if_true] at e
        cases h' : term { v with pos := v.pos - 1 } with
        | error u => rw [h'] at e; cases e
        | ok w =>
          rw [h'] at e
          cases e
          have hk := term_keeps h'
          exact pk hk
      | false => cases e; exact ⟨rfl, rfl, rfl⟩
  | setSize n =>
    simp only [step, setSize] at e
    split at e
    · have hk := term_keeps e
      exact pk hk
    · cases e; exact ⟨rfl, rfl, rfl⟩

/-- **C42**.  After any history the kind is that of the last value set, the number is the last number or boolean set and the
double the last double set: each value survives all calls on the text and the setting of values of another kind. -/
theorem values_kept (junk : List UInt8) (ops : List Op) (ht : ∀ o ∈ ops, InType o) (v : V) (e : run (construct junk) ops = .ok v) :
    v.mode = ops.foldl kindAfter .none ∧ getUInt v = ops.foldl numberAfter 0 ∧ getDouble v = ops.foldl doubleAfter 0 := by
  have key : ∀ (ops : List Op) (w : V), (∀ o ∈ ops, InType o) → run w ops = .ok v →
      v.mode = ops.foldl kindAfter w.mode ∧ getUInt v = ops.foldl numberAfter (getUInt w) ∧
        getDouble v = ops.foldl doubleAfter (getDouble w) := by
    intro ops
    induction ops with
    | nil => intro w _ e; cases e; exact ⟨rfl, rfl, rfl⟩
    | cons o os ih =>
      intro w ht e
      unfold run at e
      cases h : step w o with
      | error u => rw [h] at e; cases e
      | ok w1 =>
        rw [h, ok_bind] at e
        obtain ⟨a, b, c⟩ := step_values (ht o (by simp)) h
        have := ih w1 (fun o ho => ht o (by simp [ho])) e
        rw [a, b, c] at this
        exact this
  exact key ops (construct junk) ht e

/-- A number, then text: the kind is a string, the number is still there. -/
example : ∃ v, run (construct [7, 7, 7, 7]) [.setInt (-3), .setStr [97, 98, 99, 100], .setDouble 5, .appendChar 9, .setData [1] 1] = .ok v ∧
    v.mode = .str ∧ getUInt v = 2 ^ 64 - 3 ∧ getDouble v = 5 := ⟨_, rfl, rfl, rfl, rfl⟩

end Verif.MixedVar
