import Verif.Json.Props
import Verif.Json.Unique

/-! # C09: the finished text denotes one document only -/

namespace Verif.Json
open Spec

/-- **C09** (partial in the same way as `finished_text_is_document_partial`).  A reader cannot understand the finished text
differently: whatever value it denotes is the document the calls describe, and if the calls describe none, it denotes none. -/
theorem finished_text_reads_back_partial (real : List UInt8 → Rat) {esc : Bool} {ks vs : List UInt8} {maxDepth : Nat}
    {junk : Mode} {s0 : S} {b0 : List UInt8} (h0 : construct esc ks vs maxDepth junk = .ok s0)
    (hb : Legal (.setBuffer b0)) (hks : Splitter 58 (cstr ks)) (hvs : Splitter 44 (cstr vs))
    {cs : List Call} (hl : ∀ c ∈ cs, Legal c) {rs : List Bool} {s : S} {saved : List UInt8}
    (hr : run s0 [] (.setBuffer b0 :: cs ++ [.finish]) = .ok (true :: rs ++ [true], s, saved))
    (hj : JsonHistory real esc Builder.start (cs ++ [.finish]) (rs ++ [true])) (v : J) :
    Text (saved ++ text s) v ↔ (Builder.start.calls real (cs ++ [.finish]) (rs ++ [true])).done = some v := by
  have h := (finished_text_is_document_partial real h0 hb hks hvs hl hr hj).2
  cases hd : (Builder.start.calls real (cs ++ [.finish]) (rs ++ [true])).done with
  | some w =>
    rw [hd] at h
    constructor
    · intro hv
      rw [text_unique hv h]
    · intro e
      cases e
      exact h
  | none =>
    rw [hd] at h
    constructor
    · intro hv
      obtain ⟨a, V, b, e, h1, h2, h3⟩ := hv
      obtain ⟨c, tl, rfl, hc⟩ := val_head h2
      have : c ∈ saved ++ text s := by rw [e]; simp
      exact absurd (h c this) (cls_not_ws (by rw [hc]; exact tag_lt v)).1
    · intro e; cases e

/-- The grammar of C09 is not vacuous on ambiguous-looking text: a number followed by white space, nested arrays. -/
example (v : J) (h : Text [32, 91, 91, 93, 44, 49, 48, 32, 93] v) : v = .arr [.arr [], .num 10] := by
  refine text_unique h ⟨[32], [91, 91, 93, 44, 49, 48, 32, 93], [], rfl, by simp [Ws], ?_, by simp [Ws]⟩
  refine .arr (E := [91, 93, 44, 49, 48, 32]) (.more (E := [91, 93]) (xs := [.arr []]) (a := []) (V := [49, 48]) (b := [32])
    (.one (a := []) (V := [91, 93]) (b := []) (by simp [Ws]) (.emptyArr (w := []) (by simp [Ws])) (by simp [Ws])) (by simp [Ws]) (.num ?_)
    (by simp [Ws]))
  exact ⟨false, 10, [1, 0], [], [], [], 0, rfl, ⟨by decide, rfl, by decide, by decide⟩, .inl ⟨rfl, rfl⟩, .inl ⟨rfl, rfl⟩, by
    simp [Verif.ConvertInt.Spec.valueOf]⟩

end Verif.Json
