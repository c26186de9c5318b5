import Verif.Path.AbsWhole
import Verif.Path.Props

/-!
# C43: absolute paths
-/

namespace Verif.Path
open Spec Verif.Utf8.Spec

/-- A name of ASCII characters that can be given to `GetAbsoluteFilename`. -/
def Name (f : List Nat) : Prop := f ≠ [] ∧ f.length < 8192 ∧ ∀ c ∈ f, 0 < c ∧ c < 0x80 ∧ ¬ Forbidden c

instance (c : Nat) : Decidable (Forbidden c) := by unfold Forbidden; infer_instance
instance (f : List Nat) : Decidable (Name f) := by unfold Name; infer_instance

theorem Name.no_zero {f : List Nat} (h : Name f) : 0 ∉ f := fun hm => by have := (h.2.2 0 hm).1; omega

theorem Name.accepted {f : List Nat} (h : Name f) (sgn : Bool) : Accepted sgn 8192 f := by
  have hj : (8192 : Nat) ≤ (List.replicate 8192 0 : List Nat).length := by rw [List.length_replicate]
  obtain ⟨ok, r, h1, h2, h3, h4⟩ := platform_name_ascii_partial sgn f [] _ 8192 h.no_zero hj (fun c hc => (h.2.2 c hc).2.1)
  obtain ⟨ok', r', h1', h2', h3', h4'⟩ := getPlatform_ok sgn f [] _ 8192 h.no_zero hj
  rw [h1] at h1'
  cases h1'
  exact h3'.1 (h3.2 ⟨h.1, h.2.1, fun c hc => (h.2.2 c hc).2.2⟩)

/-- Neither "." nor "..". -/
def Plain (g : List Nat) : Prop := g ≠ dot ∧ g ≠ dotdot

instance (g : List Nat) : Decidable (Plain g) := by unfold Plain; infer_instance

theorem walk_plain : ∀ (cs st : List (List Nat)), (∀ g ∈ cs, Plain g) → walk st cs = st ++ cs
  | [], st, _ => by simp [walk]
  | c :: cs, st, h => by
    have hc := h c List.mem_cons_self
    rw [walk, if_neg hc.1, if_neg hc.2, walk_plain cs _ (fun g hg => h g (List.mem_cons_of_mem _ hg))]
    simp

theorem walk_append : ∀ (cs ds st : List (List Nat)), walk st (cs ++ ds) = walk (walk st cs) ds
  | [], ds, st => rfl
  | c :: cs, ds, st => by
    rw [List.cons_append, walk, walk]
    split
    · exact walk_append cs ds st
    · split
      · exact walk_append cs ds _
      · exact walk_append cs ds _

theorem stack_resolve {bs nm : List Nat} (hb : nm.head? ≠ some 47 → ∀ g ∈ comps bs, Plain g)
    (hn : nm.head? ≠ some 47 → ∀ g, (comps nm).head? = some g → Plain g) : stack bs nm = resolve bs nm := by
  unfold stack resolve
  split
  · rfl
  · next hh =>
    have hb := hb hh
    have hn := hn hh
    have e : comps bs ++ comps nm = (comps bs ++ (comps nm).take 1) ++ (comps nm).drop 1 := by
      rw [List.append_assoc, List.take_append_drop]
    rw [e, walk_append]
    congr 1
    rw [walk_plain]
    · rfl
    · intro g hg
      rcases List.mem_append.1 hg with hg | hg
      · exact hb g hg
      · apply hn
        cases hc : comps nm with
        | nil => rw [hc] at hg; cases hg
        | cons a t => rw [hc] at hg; simp at hg; simp [hg]

theorem walk_mem : ∀ (cs st : List (List Nat)) (g : List Nat), g ∈ walk st cs → g ∈ st ∨ g ∈ cs
  | [], st, g, h => .inl h
  | c :: cs, st, g, h => by
    rw [walk] at h
    split at h
    · rcases walk_mem cs st g h with h | h
      · exact .inl h
      · exact .inr (List.mem_cons_of_mem _ h)
    · split at h
      · rcases walk_mem cs _ g h with h | h
        · exact .inl (List.dropLast_subset _ h)
        · exact .inr (List.mem_cons_of_mem _ h)
      · rcases walk_mem cs _ g h with h | h
        · rcases List.mem_append.1 h with h | h
          · exact .inl h
          · simp at h; subst h; exact .inr List.mem_cons_self
        · exact .inr (List.mem_cons_of_mem _ h)

theorem stack_mem {bs nm g : List Nat} (h : g ∈ stack bs nm) : g ≠ [] ∧ 47 ∉ g := by
  have key : g ∈ comps bs ∨ g ∈ comps nm := by
    unfold stack at h
    split at h
    · rcases walk_mem _ _ _ h with h | h
      · cases h
      · exact .inr h
    · rcases walk_mem _ _ _ h with h | h
      · rcases List.mem_append.1 h with h | h
        · exact .inl h
        · exact .inr (List.mem_of_mem_take h)
      · exact .inr (List.mem_of_mem_drop h)
  rcases key with h | h
  · exact ⟨comps_nonempty h, comps_clean _ g h⟩
  · exact ⟨comps_nonempty h, comps_clean _ g h⟩

theorem join_last {S : List (List Nat)} (hS : S ≠ []) (hc : ∀ g ∈ S, g ≠ [] ∧ 47 ∉ g) :
    (join S).getLast? ≠ some 47 ∧ join S ≠ [] := by
  rcases List.eq_nil_or_concat S with h | ⟨l, g, h⟩
  · exact absurd h hS
  · rw [List.concat_eq_append] at h
    subst h
    have hg := hc g (by simp)
    rw [join_append]
    simp only [join_cons, join_nil, List.append_nil]
    refine ⟨?_, by simp⟩
    intro e
    rw [List.getLast?_append, List.getLast?_cons] at e
    cases hl : g.getLast? with
    | none => exact hg.1 (List.getLast?_eq_none_iff.1 hl)
    | some c =>
      rw [hl] at e
      simp at e
      subst e
      exact hg.2 (List.mem_of_getLast? hl)

theorem absPath_true (S : List (List Nat)) : absPath true S = join S ++ [47] := by
  unfold absPath join
  split
  · next h => subst h; rfl
  · rfl

theorem absPath_false {S : List (List Nat)} (h : S ≠ []) : absPath false S = join S := by
  unfold absPath join
  rw [if_neg h]; simp

/-- With a trailing slash nothing is ever cut off. -/
theorem ends_true {size : Nat} {S : List (List Nat)} {tr : List Nat} {ok : Bool} {r : List Nat} (hcl : Clean S)
    (h1 : tr = [] ∨ tr = [47]) (hj : tr = [] → (join S).getLast? ≠ some 47 ∧ join S ≠ [])
    (h3 : Ends true size ((join S ++ tr).take size) ok r) :
    (ok = true ↔ (join S ++ [47]).length + 1 ≤ size ∧ dot ∉ S ∧ dotdot ∉ S) ∧ (ok = true → Holds r (join S ++ [47])) := by
  have hsane := sane_join [47] (.inr rfl) S hcl
  rw [if_neg (by simp)] at hsane
  unfold Ends fin at h3
  simp only [Bool.true_eq_false, false_and, if_false, true_and] at h3
  by_cases hfit : (join S ++ tr).length ≤ size
  · rw [List.take_of_length_le hfit] at h3
    have main : ∀ W1, W1 = join S ++ [47] ∨ (W1.length ≥ size ∧ size < (join S ++ [47]).length + 1) →
        (match (if W1.length ≥ size then none else some W1) with
          | none => ok = false
          | some X => ok = sane X ∧ Holds r X) →
        (ok = true ↔ (join S ++ [47]).length + 1 ≤ size ∧ dot ∉ S ∧ dotdot ∉ S) ∧ (ok = true → Holds r (join S ++ [47])) := by
      intro W1 hW h
      split at h
      · next hm =>
        split at hm
        · next hbig =>
          rw [h]
          refine ⟨⟨(fun h => nomatch h), fun h => ?_⟩, (fun h => nomatch h)⟩
          rcases hW with rfl | hW
          · omega
          · omega
        · cases hm
      · next X hm =>
        split at hm
        · cases hm
        · next hbig =>
          cases hm
          rcases hW with rfl | hW
          · refine ⟨?_, fun _ => h.2⟩
            rw [h.1, hsane]
            constructor
            · rintro ⟨a, b⟩; exact ⟨by omega, a, b⟩
            · rintro ⟨_, a, b⟩; exact ⟨a, b⟩
          · omega
    apply main _ ?_ h3
    rcases h1 with rfl | rfl
    · obtain ⟨j1, j2⟩ := hj rfl
      rw [List.append_nil] at hfit ⊢
      by_cases hlt : (join S).length < size
      · rw [if_pos ⟨j2, j1, hlt⟩]; exact .inl rfl
      · rw [if_neg (fun h => hlt h.2.2)]; right; simp; omega
    · rw [if_neg (by simp)]; exact .inl rfl
  · have hlen : ((join S ++ tr).take size).length = size := by rw [List.length_take]; omega
    have hbig : ¬ ((join S ++ tr).take size).length < size := by omega
    rw [if_neg (c := _ ∧ _) (fun h => hbig h.2.2), if_pos (by omega)] at h3
    simp only at h3
    rw [h3]
    refine ⟨⟨(fun h => nomatch h), fun h => ?_⟩, (fun h => nomatch h)⟩
    rcases h1 with rfl | rfl
    · simp at hfit h; omega
    · omega

theorem done_true {size : Nat} {S : List (List Nat)} {ok : Bool} {r : List Nat} (hc : ∀ g ∈ S, g ≠ [] ∧ 47 ∉ g)
    (h : Done true size S ok r) :
    (ok = true ↔ (absPath true S).length + 1 ≤ size ∧ dot ∉ S ∧ dotdot ∉ S) ∧ (ok = true → Holds r (absPath true S)) := by
  obtain ⟨tr, h1, h2, _, h3⟩ := h
  rw [absPath_true]
  refine ends_true (fun g hg => (hc g hg).2) h1 ?_ h3
  intro e
  exact join_last (fun e' => by have := h2 e'; rw [e] at this; cases this) hc

/-- Without a trailing slash the same holds if there is room for one more character, except for the root. -/
theorem ends_false {size : Nat} {S : List (List Nat)} {tr : List Nat} {ok : Bool} {r : List Nat} (hcl : Clean S)
    (h1 : tr = [] ∨ tr = [47]) (hj : tr = [] → (join S).getLast? ≠ some 47) (hroom : (join S).length + 2 ≤ size)
    (h3 : Ends false size ((join S ++ tr).take size) ok r) :
    (ok = true ↔ dot ∉ S.dropLast ∧ dotdot ∉ S.dropLast) ∧ (ok = true → Holds r (join S)) := by
  have hsane := sane_join [] (.inl rfl) S hcl
  rw [if_pos rfl, List.append_nil] at hsane
  have hfit : (join S ++ tr).length ≤ size := by rcases h1 with rfl | rfl <;> simp <;> omega
  unfold Ends fin at h3
  rw [List.take_of_length_le hfit] at h3
  simp only [Bool.false_eq_true, false_and, if_false, true_and] at h3
  have e : (if (join S ++ tr).getLast? = some 47 then (join S ++ tr).dropLast else join S ++ tr) = join S := by
    rcases h1 with rfl | rfl
    · rw [List.append_nil, if_neg (hj rfl)]
    · rw [if_pos (by simp), List.dropLast_concat]
  rw [e, if_neg (by omega)] at h3
  simp only at h3
  rw [h3.1]
  exact ⟨hsane, fun _ => h3.2⟩

theorem done_false {size : Nat} {S : List (List Nat)} {ok : Bool} {r : List Nat} (hc : ∀ g ∈ S, g ≠ [] ∧ 47 ∉ g)
    (hS : S ≠ []) (hroom : (absPath false S).length + 2 ≤ size) (h : Done false size S ok r) :
    (ok = true ↔ dot ∉ S.dropLast ∧ dotdot ∉ S.dropLast) ∧ (ok = true → Holds r (absPath false S)) := by
  obtain ⟨tr, h1, h2, _, h3⟩ := h
  rw [absPath_false hS] at hroom ⊢
  exact ends_false (fun g hg => (hc g hg).2) h1 (fun _ => (join_last hS hc).1) hroom h3

/-- C43 (partial), any base directory, name and buffer, result with a trailing slash: the call is defined
(when the last byte of the uninitialised local buffer is not a slash, see `slack_overrun`), and if it
returns true the buffer holds an absolute path that fits, without empty, "." and ".." components; the
path is the name resolved against the base directory, if neither the components of the base
directory nor the first component of a relative name are "." or "..".
Missing: that exception (`wrong_parent`, `base_not_resolved`), and paths without a trailing slash, for
which see `absolute_untrailed_partial`. -/
theorem absolute_partial (sgn : Bool) (junk2 junk3 result f rest br : List Nat) (size : Nat) (bd cwd : Option (List Nat))
    (h2 : junk2.length = 8192) (h3 : junk3.length = 8192) (hl : junk2[8191]? ≠ some 47)
    (hs : size ≤ result.length) (hf : 0 ∉ f) (hb0 : ∀ d, bd = some d → 0 ∉ d) (hc0 : ∀ s, cwd = some s → 0 ∉ s) :
    ∃ ok r, absolute sgn junk2 junk3 result size (bd.map (· ++ 0 :: br)) cwd (f ++ 0 :: rest) true = .ok (ok, r) ∧
      r.length = result.length ∧
      (ok = true → ∃ bs cs, ((∃ d, bd = some d ∧ bs = slashed d) ∨ (bd = none ∧ cwd = some bs)) ∧ bs.head? = some 47 ∧
        Holds r (absPath true cs) ∧ (absPath true cs).length + 1 ≤ size ∧
        (∀ g ∈ cs, g ≠ [] ∧ 47 ∉ g ∧ g ≠ dot ∧ g ≠ dotdot) ∧
        (((slashed f).head? ≠ some 47 → (∀ g ∈ comps bs, Plain g) ∧ ∀ g, (comps (slashed f)).head? = some g → Plain g) →
          cs = resolve bs (slashed f))) := by
  obtain ⟨ok, r, g1, g2, g3⟩ := absolute_does sgn junk2 junk3 result f rest br size bd cwd true h2 h3 hl hs hf hb0 hc0
  refine ⟨ok, r, g1, g2, ?_⟩
  intro hok
  rcases g3 with ⟨g3, _⟩ | ⟨_, bs, g4, g5, g6⟩
  · rw [g3] at hok; cases hok
  · have hm := fun g (h : g ∈ stack bs (slashed f)) => stack_mem h
    obtain ⟨d1, d2⟩ := done_true hm g6
    obtain ⟨d3, d4, d5⟩ := d1.1 hok
    refine ⟨bs, stack bs (slashed f), ?_, g5, d2 hok, d3, ?_, ?_⟩
    · rcases g4 with ⟨d, e1, _, e2⟩ | ⟨e1, e2, _⟩
      · exact .inl ⟨d, e1, e2⟩
      · exact .inr ⟨e1, e2⟩
    · intro g hg
      obtain ⟨a, b⟩ := hm g hg
      exact ⟨a, b, fun e => d4 (e ▸ hg), fun e => d5 (e ▸ hg)⟩
    · intro h
      exact stack_resolve (fun e => (h e).1) (fun e => (h e).2)

/-- The name resolved against the base directory has no "." and no ".." component. -/
theorem walk_plain_mem : ∀ (cs st : List (List Nat)), (∀ g ∈ st, Plain g) → ∀ g ∈ walk st cs, Plain g
  | [], st, h, g, hg => h g hg
  | c :: cs, st, h, g, hg => by
    rw [walk] at hg
    split at hg
    · exact walk_plain_mem cs st h g hg
    · next h1 =>
      split at hg
      · exact walk_plain_mem cs _ (fun x hx => h x (List.dropLast_subset _ hx)) g hg
      · next h2 =>
        refine walk_plain_mem cs _ ?_ g hg
        intro x hx
        rcases List.mem_append.1 hx with hx | hx
        · exact h x hx
        · simp at hx; subst hx; exact ⟨h1, h2⟩

theorem resolve_plain (bs nm : List Nat) : ∀ g ∈ resolve bs nm, Plain g := by
  unfold resolve
  split
  · exact walk_plain_mem _ [] (fun g h => nomatch h)
  · exact walk_plain_mem _ [] (fun g h => nomatch h)

theorem absolute_eval {sgn : Bool} {junk2 junk3 result f rest br d : List Nat} {size : Nat}
    {trailing : Bool} (h2 : junk2.length = 8192) (h3 : junk3.length = 8192) (hl : junk2[8191]? ≠ some 47) (hs : size ≤ result.length)
    (hf : Name f) (hd : Name d) (hdh : (slashed d).head? = some 47) (hlen : d.length + f.length ≤ 8189) :
    ∃ ok r, absolute sgn junk2 junk3 result size (some (d ++ 0 :: br)) none (f ++ 0 :: rest) trailing = .ok (ok, r) ∧
      r.length = result.length ∧ Done trailing size (stack (slashed d) (slashed f)) ok r := by
  obtain ⟨ok, r, g1, g2, g3⟩ := absolute_does sgn junk2 junk3 result f rest br size (some d) none trailing h2 h3 hl hs hf.no_zero
    (fun d' e => by cases e; exact hd.no_zero) (fun s e => nomatch e)
  refine ⟨ok, r, g1, g2, ?_⟩
  rcases g3 with ⟨_, g3⟩ | ⟨_, bs, g4, g5, g6⟩
  · exfalso
    apply g3
    refine ⟨hf.accepted sgn, slashed d, .inl ⟨d, rfl, hd.accepted sgn, rfl⟩, hdh, ?_⟩
    rw [slashed_len]; exact hlen
  · rcases g4 with ⟨d', e1, _, e2⟩ | ⟨e1, _⟩
    · cases e1
      subst e2
      exact g6
    · cases e1

/-- C43 (partial), the call succeeds: for names of ASCII characters with the conditions of
`absolute_partial`, at most 8189 characters together, `GetAbsoluteFilename` returns true exactly if
the path with its trailing slash and terminator fits the buffer. -/
theorem absolute_accepts_partial (sgn : Bool) (junk2 junk3 result f rest br d : List Nat) (size : Nat)
    (h2 : junk2.length = 8192) (h3 : junk3.length = 8192) (hl : junk2[8191]? ≠ some 47) (hs : size ≤ result.length)
    (hf : Name f) (hd : Name d) (hdh : (slashed d).head? = some 47) (hlen : d.length + f.length ≤ 8189)
    (hp : (slashed f).head? ≠ some 47 → (∀ g ∈ comps (slashed d), Plain g) ∧ ∀ g, (comps (slashed f)).head? = some g → Plain g) :
    ∃ ok r, absolute sgn junk2 junk3 result size (some (d ++ 0 :: br)) none (f ++ 0 :: rest) true = .ok (ok, r) ∧
      r.length = result.length ∧
      (ok = true ↔ (absPath true (resolve (slashed d) (slashed f))).length + 1 ≤ size) ∧
      (ok = true → Holds r (absPath true (resolve (slashed d) (slashed f)))) := by
  obtain ⟨ok, r, g1, g2, g3⟩ := absolute_eval (sgn := sgn) (rest := rest) (br := br) (trailing := true) h2 h3 hl hs hf hd hdh hlen
  refine ⟨ok, r, g1, g2, ?_⟩
  obtain ⟨d1, d2⟩ := done_true (fun g h => stack_mem h) g3
  rw [stack_resolve (fun e => (hp e).1) (fun e => (hp e).2)] at d1 d2
  have hpl := resolve_plain (slashed d) (slashed f)
  refine ⟨?_, d2⟩
  rw [d1]
  constructor
  · exact fun h => h.1
  · exact fun h => ⟨h, fun hm => (hpl _ hm).1 rfl, fun hm => (hpl _ hm).2 rfl⟩

/-- C43 (partial), without trailing slash: if the path is not the root and there is room for one more
character than needed, the call returns true and the buffer holds the resolved path.
Missing: a tight buffer (`cut_off`) and the root (`root_is_empty`), besides the conditions of
`absolute_partial`. -/
theorem absolute_untrailed_partial (sgn : Bool) (junk2 junk3 result f rest br d : List Nat) (size : Nat)
    (h2 : junk2.length = 8192) (h3 : junk3.length = 8192) (hl : junk2[8191]? ≠ some 47) (hs : size ≤ result.length)
    (hf : Name f) (hd : Name d) (hdh : (slashed d).head? = some 47) (hlen : d.length + f.length ≤ 8189)
    (hp : (slashed f).head? ≠ some 47 → (∀ g ∈ comps (slashed d), Plain g) ∧ ∀ g, (comps (slashed f)).head? = some g → Plain g)
    (hroot : resolve (slashed d) (slashed f) ≠ [])
    (hroom : (absPath false (resolve (slashed d) (slashed f))).length + 2 ≤ size) :
    ∃ r, absolute sgn junk2 junk3 result size (some (d ++ 0 :: br)) none (f ++ 0 :: rest) false = .ok (true, r) ∧
      r.length = result.length ∧ Holds r (absPath false (resolve (slashed d) (slashed f))) := by
  obtain ⟨ok, r, g1, g2, g3⟩ := absolute_eval (sgn := sgn) (rest := rest) (br := br) (trailing := false) h2 h3 hl hs hf hd hdh hlen
  have hm := fun g (h : g ∈ stack (slashed d) (slashed f)) => stack_mem h
  rw [stack_resolve (fun e => (hp e).1) (fun e => (hp e).2)] at g3 hm
  obtain ⟨d1, d2⟩ := done_false hm hroot hroom g3
  have hpl := resolve_plain (slashed d) (slashed f)
  have hok : ok = true :=
    d1.2 ⟨fun h => (hpl _ (List.dropLast_subset _ h)).1 rfl, fun h => (hpl _ (List.dropLast_subset _ h)).2 rfl⟩
  subst hok
  exact ⟨r, g1, g2, d2 rfl⟩

/-- "b/../c" seen from "/x//y" is "/x/y/c": names with the conditions of the theorems. -/
example : Name (("b/../c".toList).map (·.toNat)) ∧ Name (("/x//y".toList).map (·.toNat)) ∧
    (slashed (("/x//y".toList).map (·.toNat))).head? = some 47 ∧
    (∀ g ∈ comps (slashed (("/x//y".toList).map (·.toNat))), Plain g) ∧
    resolve (slashed (("/x//y".toList).map (·.toNat))) (slashed (("b/../c".toList).map (·.toNat))) =
      [[120], [121], [99]] := by decide

/-! ## Where C43 fails -/

theorem ends_of {trailing : Bool} {size : Nat} {S : List (List Nat)} {ok : Bool} {r X : List Nat}
    (h1 : S ≠ [] → fin trailing size ((join S).take size) = some X)
    (h2 : fin trailing size ((join S ++ [47]).take size) = some X) (hX : sane X = true) (h : Done trailing size S ok r) :
    ok = true ∧ Holds r X := by
  obtain ⟨tr, rfl | rfl, h4, _, h5⟩ := h
  · have hS : S ≠ [] := fun e => by have := h4 e; cases this
    rw [List.append_nil] at h5
    unfold Ends at h5
    rw [h1 hS] at h5
    exact ⟨h5.1.trans hX, h5.2⟩
  · unfold Ends at h5
    rw [h2] at h5
    exact ⟨h5.1.trans hX, h5.2⟩

/-- Negation of C43: "../.." and "./.." seen from "/x/y" give "/x/y/" instead of "/" and "/x/". -/
theorem wrong_parent (sgn : Bool) (junk2 junk3 result : List Nat) (h2 : junk2.length = 8192) (h3 : junk3.length = 8192)
    (hl : junk2[8191]? ≠ some 47) (hs : 100 ≤ result.length) :
    (∃ r, absolute sgn junk2 junk3 result 100 (some [47, 120, 47, 121, 0]) none [46, 46, 47, 46, 46, 0] true = .ok (true, r) ∧
      Holds r [47, 120, 47, 121, 47]) ∧
    absPath true (resolve [47, 120, 47, 121] [46, 46, 47, 46, 46]) = [47] ∧
    (∃ r, absolute sgn junk2 junk3 result 100 (some [47, 120, 47, 121, 0]) none [46, 47, 46, 46, 0] true = .ok (true, r) ∧
      Holds r [47, 120, 47, 121, 47]) ∧
    absPath true (resolve [47, 120, 47, 121] [46, 47, 46, 46]) = [47, 120, 47] := by
  refine ⟨?_, by decide, ?_, by decide⟩
  · obtain ⟨ok, r, g1, _, g3⟩ := absolute_eval (sgn := sgn) (rest := []) (br := []) (trailing := true) (size := 100)
      (d := [47, 120, 47, 121]) (f := [46, 46, 47, 46, 46]) h2 h3 hl hs (by decide) (by decide) (by decide) (by decide)
    obtain ⟨e1, e2⟩ := ends_of (X := [47, 120, 47, 121, 47]) (fun _ => by decide) (by decide) (by decide) g3
    subst e1
    exact ⟨r, g1, e2⟩
  · obtain ⟨ok, r, g1, _, g3⟩ := absolute_eval (sgn := sgn) (rest := []) (br := []) (trailing := true) (size := 100)
      (d := [47, 120, 47, 121]) (f := [46, 47, 46, 46]) h2 h3 hl hs (by decide) (by decide) (by decide) (by decide)
    obtain ⟨e1, e2⟩ := ends_of (X := [47, 120, 47, 121, 47]) (fun _ => by decide) (by decide) (by decide) g3
    subst e1
    exact ⟨r, g1, e2⟩

/-- Negation of C43: ".." seen from "/x" gives "/x/.." when no trailing slash is wanted. -/
theorem dotdot_left (sgn : Bool) (junk2 junk3 result : List Nat) (h2 : junk2.length = 8192) (h3 : junk3.length = 8192)
    (hl : junk2[8191]? ≠ some 47) (hs : 100 ≤ result.length) :
    ∃ r, absolute sgn junk2 junk3 result 100 (some [47, 120, 0]) none [46, 46, 0] false = .ok (true, r) ∧
      Holds r [47, 120, 47, 46, 46] := by
  obtain ⟨ok, r, g1, _, g3⟩ := absolute_eval (sgn := sgn) (rest := []) (br := []) (trailing := false) (size := 100)
    (d := [47, 120]) (f := [46, 46]) h2 h3 hl hs (by decide) (by decide) (by decide) (by decide)
  obtain ⟨e1, e2⟩ := ends_of (X := [47, 120, 47, 46, 46]) (fun _ => by decide) (by decide) (by decide) g3
  subst e1
  exact ⟨r, g1, e2⟩

/-- Negation of C43: the base directory is not resolved: "q/../../c" seen from "/x/.." is "/c" (".." at
the root stays there), the answer is "/x/c". -/
theorem base_not_resolved (sgn : Bool) (junk2 junk3 result : List Nat) (h2 : junk2.length = 8192) (h3 : junk3.length = 8192)
    (hl : junk2[8191]? ≠ some 47) (hs : 100 ≤ result.length) :
    (∃ r, absolute sgn junk2 junk3 result 100 (some [47, 120, 47, 46, 46, 0]) none [113, 47, 46, 46, 47, 46, 46, 47, 99, 0] false =
      .ok (true, r) ∧ Holds r [47, 120, 47, 99]) ∧
    absPath false (resolve [47, 120, 47, 46, 46] [113, 47, 46, 46, 47, 46, 46, 47, 99]) = [47, 99] := by
  refine ⟨?_, by decide⟩
  obtain ⟨ok, r, g1, _, g3⟩ := absolute_eval (sgn := sgn) (rest := []) (br := []) (trailing := false) (size := 100)
    (d := [47, 120, 47, 46, 46]) (f := [113, 47, 46, 46, 47, 46, 46, 47, 99]) h2 h3 hl hs (by decide) (by decide) (by decide) (by decide)
  obtain ⟨e1, e2⟩ := ends_of (X := [47, 120, 47, 99]) (fun _ => by decide) (by decide) (by decide) g3
  subst e1
  exact ⟨r, g1, e2⟩

/-- Negation of C43: a path that does not fit can be cut off without notice: "c" seen from "/ab" with a
buffer of 4 bytes gives "/ab". -/
theorem cut_off (sgn : Bool) (junk2 junk3 result : List Nat) (h2 : junk2.length = 8192) (h3 : junk3.length = 8192)
    (hl : junk2[8191]? ≠ some 47) (hs : 4 ≤ result.length) :
    (∃ r, absolute sgn junk2 junk3 result 4 (some [47, 97, 98, 0]) none [99, 0] false = .ok (true, r) ∧ Holds r [47, 97, 98]) ∧
    absPath false (resolve [47, 97, 98] [99]) = [47, 97, 98, 47, 99] := by
  refine ⟨?_, by decide⟩
  obtain ⟨ok, r, g1, _, g3⟩ := absolute_eval (sgn := sgn) (rest := []) (br := []) (trailing := false) (size := 4)
    (d := [47, 97, 98]) (f := [99]) h2 h3 hl hs (by decide) (by decide) (by decide) (by decide)
  obtain ⟨e1, e2⟩ := ends_of (X := [47, 97, 98]) (fun _ => by decide) (by decide) (by decide) g3
  subst e1
  exact ⟨r, g1, e2⟩

/-- Negation of C43: the root without trailing slash is the empty string. -/
theorem root_is_empty (sgn : Bool) (junk2 junk3 result : List Nat) (h2 : junk2.length = 8192) (h3 : junk3.length = 8192)
    (hl : junk2[8191]? ≠ some 47) (hs : 100 ≤ result.length) :
    (∃ r, absolute sgn junk2 junk3 result 100 (some [47, 97, 0]) none [47, 0] false = .ok (true, r) ∧ Holds r []) ∧
    absPath false (resolve [47, 97] [47]) = [47] := by
  refine ⟨?_, by decide⟩
  obtain ⟨ok, r, g1, _, g3⟩ := absolute_eval (sgn := sgn) (rest := []) (br := []) (trailing := false) (size := 100)
    (d := [47, 97]) (f := [47]) h2 h3 hl hs (by decide) (by decide) (by decide) (by decide)
  obtain ⟨e1, e2⟩ := ends_of (X := []) (fun h => absurd (by decide) h) (by decide) (by decide) g3
  subst e1
  exact ⟨r, g1, e2⟩

theorem skipSlash_over (b : List Nat) (hb : b.length = 8192) : ∀ (k x : Nat), 8192 < x + k → x < 8192 →
    (∀ i, x ≤ i → i < 8192 → b[i]? = some 47) → skipSlash b k x = .error .oobRead
  | 0, x, h, hx, _ => by omega
  | k + 1, x, h, hx, hall => by
    have h0 := hall x (Nat.le_refl _) hx
    rw [skipSlash]
    by_cases hl : x + 1 = 8192
    · have : at_ b x [47, 47] = .error .oobRead := by
        have h1 : b[x + 1]? = none := List.getElem?_eq_none (by omega)
        simp only [at_, rd, h0, h1, ok_bind, if_true, error_bind]
      rw [this, error_bind]
    · have h1 := hall (x + 1) (by omega) (by omega)
      have : at_ b x [47, 47] = .ok true := by
        simp only [at_, rd, h0, h1, ok_bind, if_true]
      rw [this, ok_bind, if_pos rfl]
      exact skipSlash_over b hb k (x + 1) (by omega) (by omega) (fun i hi => hall i (by omega))

/-- Undefined behaviour: the loop removing double slashes does not look for the end of the string.  If the
uninitialised rest of the local buffer consists of slashes, "a/" seen from "/" reads past the buffer. -/
theorem slack_overrun (sgn : Bool) (junk3 result : List Nat) (size : Nat) (h3 : junk3.length = 8192) (hs : size ≤ result.length)
    (hsize : 3 ≤ size) (trailing : Bool) :
    absolute sgn (List.replicate 8192 47) junk3 result size (some [47, 0]) none [97, 47, 0] trailing = .error .oobRead := by
  have hjl : (List.replicate 8192 47 : List Nat).length = 8192 := List.length_replicate
  have hj : ∀ i, i < 8192 → (List.replicate 8192 47 : List Nat)[i]? = some 47 := by
    intro i hi
    rw [List.getElem?_replicate, if_pos hi]
  generalize (List.replicate 8192 47 : List Nat) = junk2 at *
  unfold absolute
  have hN : Name [97, 47] := by decide
  obtain ⟨ok1, f3, g1, g2, g3, g4⟩ := getPlatform_ok sgn [97, 47] [] junk3 8192 hN.no_zero (by omega)
  rw [show ([97, 47, 0] : List Nat) = [97, 47] ++ 0 :: [] from rfl, g1, ok_bind]
  dsimp only
  have hok := g3.2 (hN.accepted sgn)
  subst hok
  rw [if_neg (by simp)]
  have g4 := g4 rfl
  obtain ⟨ok2, f3', k1, k2, k3, k4⟩ := dotName_ok (slashed [97, 47]) (junk3.drop 3) (by decide) (by
    have : (slashed [97, 47]).length = 2 := rfl
    simp [this, h3])
  have k4 := k4 (by decide)
  subst k4
  rw [g4]
  rw [show ([97, 47] : List Nat).length + 1 = 3 from rfl, k1, ok_bind]
  dsimp only
  rw [if_neg (by simp)]
  obtain ⟨tl3, hf3⟩ := k3 rfl
  obtain ⟨ok3, b, m1, m2⟩ := baseDir_ok sgn (some [47]) none [] junk2 (fun d e => by cases e; decide) (fun s e => nomatch e) hjl
  rw [show (some [47, 0] : Option (List Nat)) = (some [47]).map (· ++ 0 :: []) from rfl, m1, ok_bind]
  dsimp only
  have hN2 : Name [47] := by decide
  rcases m2 with ⟨_, m2⟩ | ⟨rfl, bs, m2, m3, m4, m5, m6⟩
  · exact absurd ⟨[47], .inl ⟨[47], rfl, hN2.accepted sgn, by decide⟩, rfl⟩ m2
  · rw [if_neg (by simp)]
    have hbs : bs = [47] := by
      rcases m2 with ⟨d, e, _, e2⟩ | ⟨e, _⟩
      · cases e; exact e2
      · cases e
    subst hbs
    have hsb : slashBase b = .ok (true, b) := by
      unfold slashBase
      rw [m6, cstr_ok [47] _ m4, ok_bind]
      dsimp only
      rw [lastIs_ok _ [47] (by simp) (by simp), ok_bind]
      rfl
    rw [hsb, ok_bind]
    dsimp only
    rw [if_neg (by simp)]
    have hfx : fix (slashed [97, 47]) = [97, 47] := by
      have : undot [97, 47] = [97, 47] := by
        rw [undot_cons (by decide), if_neg (by decide), undot_cons (by decide), if_neg (by decide), undot_nil]
      unfold fix
      rw [show slashed [97, 47] = [97, 47] by decide, this]
      decide
    rw [hfx] at hf3
    have hbl : b.length = 8192 := by rw [m6]; simp; omega
    unfold combine
    obtain ⟨i3, p3, p3l⟩ := info_length [97, 47] tl3 (by decide)
    obtain ⟨i2, p2, p2l⟩ := info_length [47] (junk2.drop 2) (by decide)
    rw [hf3, p3, ok_bind, m6]
    rw [show ([47] : List Nat).length + 1 = 2 from rfl, p2, ok_bind]
    rw [show ([47] : List Nat).length + 1 = 2 from rfl] at m6
    rw [← m6, ← hf3]
    have hc : rd f3' 0 = .ok 97 := by rw [hf3]; rfl
    rw [hc, ok_bind, p2l, p3l]
    rw [if_neg (show ¬ (97 : Nat) = 47 by decide)]
    dsimp only
    rw [show ([47] : List Nat).length = 1 from rfl, if_neg (by decide), if_neg (by decide), ok_bind]
    dsimp only
    rw [show ([97, 47] : List Nat).length = 2 from rfl]
    obtain ⟨q, n1, n2, n3⟩ := nameLoop_ok 8191 f3' tl3 2 (f3'.length + 1) 0 1 b [97, 47] (by rw [hf3]; rfl) (by rfl)
      (by rw [k2]; decide) (by omega) hbl
    rw [n1, ok_bind]
    cases q with
    | none => exact absurd (n2 rfl) (by decide)
    | some p =>
      obtain ⟨n', b'⟩ := p
      obtain ⟨e1, e2, e3, e4, e5⟩ := n3 n' b' rfl
      dsimp only
      have hb1 : b.take 1 = [47] := by rw [m6]; rfl
      rw [hb1, proc_cons (by decide), proc_cons (by decide), proc_nil] at e3
      change _ = [47, 97, 47] at e3
      have hn' : n' = 3 := by
        have := congrArg List.length e3
        rw [List.length_take] at this
        simp at this
        omega
      subst hn'
      have c0 : b'[0]? = some 47 := by rw [← List.getElem?_take_of_lt (show 0 < 3 by decide), e3]; rfl
      have c1 : b'[1]? = some 97 := by rw [← List.getElem?_take_of_lt (show 1 < 3 by decide), e3]; rfl
      have c2 : b'[2]? = some 47 := by rw [← List.getElem?_take_of_lt (show 2 < 3 by decide), e3]; rfl
      have call : ∀ i, 2 ≤ i → i < 8192 → b'[i]? = some 47 := by
        intro i hi hi2
        by_cases h : i = 2
        · rw [h]; exact c2
        · rw [e5 i (by simp; omega), m6, List.getElem?_append_right (by simp; omega)]
          rw [show i - ([47] : List Nat).length = (i - 2) + 1 by simp; omega, List.getElem?_cons_succ, List.getElem?_drop,
            show 2 + (i - 2) = i by omega]
          exact hj i hi2
      have hout : outLoop b' 3 size (b'.length + 1) 0 0 result = .error .oobRead := by
        rw [show b'.length + 1 = 8190 + 1 + 1 + 1 by omega, outLoop, if_pos ⟨by omega, by decide⟩]
        have s0 : skipSlash b' (b'.length + 1) 0 = .ok 0 := by
          rw [skipSlash]
          have : at_ b' 0 [47, 47] = .ok false := by simp only [at_, rd, c0, c1, ok_bind, if_true]; rfl
          rw [this, ok_bind]; rfl
        have s1 : skipSlash b' (b'.length + 1) 1 = .ok 1 := by
          rw [skipSlash]
          have : at_ b' 1 [47, 47] = .ok false := by simp only [at_, rd, c1, ok_bind]; rfl
          rw [this, ok_bind]; rfl
        have s2 := skipSlash_over b' e1 (b'.length + 1) 2 (by omega) (by omega) call
        have r0 : rd b' 0 = .ok 47 := by unfold rd; rw [c0]
        have r1 : rd b' 1 = .ok 97 := by unfold rd; rw [c1]
        rw [s0, ok_bind, r0, ok_bind, wr_at _ (by omega), ok_bind, outLoop, if_pos ⟨by omega, by decide⟩, Nat.zero_add, s1, ok_bind, r1,
          ok_bind, wr_at _ (by rw [len_wr _ (by omega)]; omega), ok_bind, outLoop, if_pos ⟨by omega, by decide⟩, s2, error_bind]
      rw [hout, error_bind]

end Verif.Path
