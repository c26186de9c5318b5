import Verif.Dir.TreeLemmas

/-!
# The loop of `Mkdir`
-/

namespace Verif.Dir
open Spec Verif.Path Verif.Path.Spec

/-- The calls for the proper ancestors, from `done ++ [g]` on. -/
def calls (done : List (List Nat)) (g : List Nat) : List (List Nat) → List (List Nat)
  | [] => []
  | h :: rest => join (done ++ [g]) :: calls (done ++ [g]) h rest

/-- The state after some calls of `mkdir`. -/
def makes {σ : Type} (S : Sys σ) (mode : Nat) (s : σ) (ps : List (List Nat)) : σ := ps.foldl (fun s p => (S.mkdir s p mode).1) s

theorem rd_append (a : List Nat) (c : Nat) (b : List Nat) : rd (a ++ c :: b) a.length = .ok c := by
  simp [rd]

/-- Characters that are not slashes are passed over. -/
theorem parents_run {σ : Type} (S : Sys σ) (mode : Nat) : ∀ (g pre r : List Nat) (k : Nat) (s : σ), (∀ c ∈ g, c ≠ 0 ∧ c ≠ 47) →
    parents S mode (k + g.length) pre.length s (pre ++ g ++ r) = parents S mode k (pre ++ g).length s (pre ++ g ++ r)
  | [], pre, r, k, s, _ => by simp
  | c :: g, pre, r, k, s, h => by
    obtain ⟨h1, h2⟩ := h c List.mem_cons_self
    have ih := parents_run S mode g (pre ++ [c]) r k s (fun x hx => h x (List.mem_cons_of_mem _ hx))
    have e : pre ++ [c] ++ g = pre ++ c :: g := by simp
    rw [e] at ih
    rw [← ih, show k + (c :: g).length = (k + g.length) + 1 by simp; omega, parents]
    have hr : rd (pre ++ c :: g ++ r) pre.length = .ok c := by
      rw [show pre ++ c :: g ++ r = pre ++ c :: (g ++ r) by simp]
      exact rd_append _ _ _
    rw [hr, ok_bind, if_neg h1, if_neg h2]
    simp

theorem parents_ok {σ : Type} (S : Sys σ) (mode : Nat) (tl : List Nat) : ∀ (rest done : List (List Nat)) (g : List Nat) (k : Nat) (s : σ),
    (∀ c ∈ g, c ≠ 0 ∧ c ≠ 47) → (∀ h ∈ rest, ∀ c ∈ h, c ≠ 0 ∧ c ≠ 47) → 0 ∉ join (done ++ [g]) →
    parents S mode (k + 1 + (g ++ join rest).length) ((join done).length + 1) s (join (done ++ g :: rest) ++ 0 :: tl) =
      .ok (makes S mode s (calls done g rest), join (done ++ g :: rest) ++ 0 :: tl)
  | [], done, g, k, s, hg, _, _ => by
    have e : join (done ++ [g]) ++ 0 :: tl = (join done ++ [47]) ++ g ++ 0 :: tl := by rw [join_snoc]; simp
    rw [e, join_nil, List.append_nil, show (join done).length + 1 = (join done ++ [47]).length by simp, parents_run S mode g _ _ _ s hg, parents,
      rd_append, ok_bind, if_pos rfl]
    rfl
  | h :: rest, done, g, k, s, hg, hr, h0 => by
    have e : join (done ++ g :: h :: rest) ++ 0 :: tl = (join done ++ [47]) ++ g ++ 47 :: (h ++ join rest ++ 0 :: tl) := by
      rw [join_append]; simp
    have e2 : join done ++ [47] ++ g = join (done ++ [g]) := by rw [join_snoc]; simp
    have ih := parents_ok S mode tl rest (done ++ [g]) h k (S.mkdir s (join (done ++ [g])) mode).1 (hr h List.mem_cons_self)
      (fun x hx => hr x (List.mem_cons_of_mem _ hx))
      (by
        rw [join_snoc]
        intro hm
        rcases List.mem_append.1 hm with hm | hm
        · exact h0 hm
        · rcases List.mem_cons.1 hm with hm | hm
          · cases hm
          · exact (hr h List.mem_cons_self 0 hm).1 rfl)
    rw [e, show (join done).length + 1 = (join done ++ [47]).length by simp,
      show k + 1 + (g ++ join (h :: rest)).length = (k + 1 + (h ++ join rest).length + 1) + g.length by simp; omega,
      parents_run S mode g _ _ _ s hg, parents, rd_append, ok_bind, if_neg (by decide), if_pos rfl, wr_append, ok_bind]
    rw [e2, cstr_ok _ _ h0, ok_bind, wr_append, ok_bind]
    have e3 : join (done ++ [g]) ++ 47 :: (h ++ join rest ++ 0 :: tl) = join (done ++ [g] ++ h :: rest) ++ 0 :: tl := by
      rw [join_append (done ++ [g])]; simp
    rw [e3, ih]
    rfl

theorem calls_eq : ∀ (rest done : List (List Nat)) (g : List Nat),
    calls done g rest ++ [join (done ++ g :: rest)] = (List.range (rest.length + 1)).map (fun i => join (done ++ (g :: rest).take (i + 1)))
  | [], done, g => by simp [calls, List.range_succ]
  | h :: rest, done, g => by
    have ih := calls_eq rest (done ++ [g]) h
    rw [calls, List.cons_append, show done ++ g :: h :: rest = done ++ [g] ++ h :: rest by simp, ih, List.length_cons,
      List.range_succ_eq_map (n := rest.length + 1)]
    simp

theorem makes_logged {σ : Type} (S : Sys σ) (mode : Nat) : ∀ (ps : List (List Nat)) (s : σ) (L : List Ev),
    makes (logged S) mode (s, L) ps = (makes S mode s ps, L ++ ps.map (Ev.mkdir · mode))
  | [], s, L => by simp [makes]
  | p :: ps, s, L => by
    have := makes_logged S mode ps (S.mkdir s p mode).1 (L ++ [Ev.mkdir p mode])
    unfold makes at this ⊢
    rw [List.foldl_cons, List.foldl_cons]
    show List.foldl _ ((S.mkdir s p mode).1, L ++ [Ev.mkdir p mode]) ps = _
    rw [this]
    simp

/-- Everything a recursive `Mkdir` does. -/
theorem mkdir_does {σ : Type} (S : Sys σ) (E : Env) (hE : E.Good) (hc : CwdOk S) (s : σ) (f rest : List Nat) (hf : 0 ∉ f) (mode : Nat) :
    ∃ ok b, resolvePath S E s (f ++ 0 :: rest) = .ok ((S.cwd s).1, ok, b) ∧
      (ok = false → mkdir S E s (f ++ 0 :: rest) mode true = .ok ((S.cwd s).1, false)) ∧
      (ok = true → ∃ bs, (S.cwd s).2 = some bs ∧
        (stack bs (slashed f) = [] → mkdir S E s (f ++ 0 :: rest) mode true = .ok (S.mkdir (S.cwd s).1 [] mode)) ∧
        (∀ g cs, stack bs (slashed f) = g :: cs →
          mkdir S E s (f ++ 0 :: rest) mode true = .ok (S.mkdir (makes S mode (S.cwd s).1 (calls [] g cs)) (join (g :: cs)) mode))) := by
  obtain ⟨ok, b, g1, g2, g3, _, _⟩ := resolvePath_ok S E hE hc s f rest hf
  refine ⟨ok, b, g1, ?_, ?_⟩
  · intro h
    subst h
    unfold mkdir
    rw [g1, ok_bind]
    rfl
  · intro h
    subst h
    obtain ⟨bs, tl, e1, _, e2, e3⟩ := g3 rfl
    refine ⟨bs, e1, ?_, ?_⟩
    · intro hT
      rw [hT, join_nil, List.nil_append] at e2
      unfold mkdir
      rw [g1, ok_bind]
      dsimp only
      rw [if_neg (by simp), if_pos rfl, e2, skipTo, show rd (0 :: tl) 0 = .ok 0 from rfl, ok_bind, if_neg (by simp), ok_bind,
        show rd (0 :: tl) 0 = .ok 0 from rfl, ok_bind, if_neg (by decide), parents, show rd (0 :: tl) 0 = .ok 0 from rfl, ok_bind, if_pos rfl, ok_bind]
      dsimp only
      rw [show cstr (0 :: tl) = .ok [] from cstr_ok [] tl (by simp), ok_bind]
    · intro g cs hT
      rw [hT] at e2 e3
      have hcl : ∀ h ∈ g :: cs, ∀ c ∈ h, c ≠ 0 ∧ c ≠ 47 := by
        intro h hh c hcm
        refine ⟨?_, ?_⟩
        · rintro rfl
          apply e3
          exact List.mem_flatMap.2 ⟨h, hh, List.mem_cons_of_mem _ hcm⟩
        · rintro rfl
          exact (stack_mem (bs := bs) (nm := slashed f) (by rw [hT]; exact hh)).2 hcm
      have hb : b = 47 :: (g ++ join cs ++ 0 :: tl) := by rw [e2]; simp
      unfold mkdir
      rw [g1, ok_bind]
      dsimp only
      have hr : rd b 0 = .ok 47 := by rw [hb]; rfl
      rw [if_neg (by simp), if_pos rfl, skipTo, hr, ok_bind, if_neg (by simp), ok_bind, hr, ok_bind, if_pos rfl]
      have hk : b.length + 1 = (tl.length + 2) + 1 + (g ++ join cs).length := by rw [hb]; simp; omega
      have := parents_ok S mode tl cs [] g (tl.length + 2) (S.cwd s).1 (hcl g List.mem_cons_self)
        (fun h hh => hcl h (List.mem_cons_of_mem _ hh)) (by
          intro hm
          apply e3
          rw [List.nil_append, join_cons, join_nil, List.append_nil] at hm
          rw [join_cons]
          rcases List.mem_cons.1 hm with hm | hm
          · cases hm
          · exact List.mem_cons_of_mem _ (List.mem_append_left _ hm))
      rw [hk, e2]
      rw [List.nil_append, join_nil] at this
      rw [show ([] : List Nat).length + 1 = 0 + 1 from rfl] at this
      rw [this, ok_bind]
      dsimp only
      rw [cstr_ok _ _ e3, ok_bind]

end Verif.Dir
