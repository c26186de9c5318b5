import Verif.Path.Spec
import Mathlib.Data.List.DropRight

/-!
# Lemmas on the pieces of a path and on the string functions the code computes
-/

namespace Verif.Path
open Spec

/-- The string with these pieces, each after a slash. -/
def join (gs : List (List Nat)) : List Nat := gs.flatMap (47 :: ·)

@[simp] theorem join_nil : join [] = [] := rfl
@[simp] theorem join_cons (g : List Nat) (gs : List (List Nat)) : join (g :: gs) = 47 :: (g ++ join gs) := rfl

theorem join_append (a b : List (List Nat)) : join (a ++ b) = join a ++ join b := by
  simp [join]

theorem join_head (gs : List (List Nat)) : join gs = [] ∨ ∃ t, join gs = 47 :: t := by
  cases gs with
  | nil => exact .inl rfl
  | cons g gs => exact .inr ⟨_, rfl⟩

/-- No piece contains a slash. -/
def Clean (gs : List (List Nat)) : Prop := ∀ g ∈ gs, 47 ∉ g

theorem pieces_ne (s : List Nat) : pieces s ≠ [] := by
  cases s with
  | nil => simp [pieces]
  | cons c s =>
    unfold pieces
    split
    · simp
    · split <;> simp

theorem pieces_clean : ∀ s, Clean (pieces s)
  | [] => by intro g hg; simp [pieces] at hg; simp [hg]
  | c :: s => by
    have ih := pieces_clean s
    unfold pieces
    split
    · intro g hg
      rcases List.mem_cons.1 hg with rfl | hg
      · simp
      · exact ih g hg
    · next hc =>
      split
      · intro g hg; simp at hg; subst hg; simpa using Ne.symm hc
      · next g0 gs e =>
        rw [e] at ih
        intro g hg
        rcases List.mem_cons.1 hg with rfl | hg
        · intro hm
          rcases List.mem_cons.1 hm with h | h
          · exact hc h.symm
          · exact ih g0 List.mem_cons_self h
        · exact ih g (List.mem_cons_of_mem _ hg)

/-- A string is its first piece and the others, each after a slash. -/
theorem pieces_join : ∀ s g gs, pieces s = g :: gs → s = g ++ join gs
  | [], g, gs, h => by simp [pieces] at h; obtain ⟨rfl, rfl⟩ := h; rfl
  | c :: s, g, gs, h => by
    unfold pieces at h
    split at h
    · next hc =>
      cases h
      cases hs : pieces s with
      | nil => exact absurd hs (pieces_ne s)
      | cons g gs =>
        rw [pieces_join s g gs hs, hc]
        simp
    · split at h
      · next e => exact absurd e (pieces_ne s)
      · next g0 gs0 e =>
        cases h
        rw [pieces_join s g0 _ e]
        rfl

theorem pieces_slashfree : ∀ g : List Nat, 47 ∉ g → pieces g = [g]
  | [], _ => rfl
  | c :: g, h => by
    unfold pieces
    rw [if_neg (fun e => h (by simp [e])), pieces_slashfree g (fun e => h (List.mem_cons_of_mem _ e))]

theorem pieces_append : ∀ a b : List Nat, pieces (a ++ 47 :: b) = pieces a ++ pieces b
  | [], b => by simp [pieces]
  | c :: a, b => by
    rw [List.cons_append]
    rw [pieces, pieces, pieces_append a b]
    split
    · rfl
    · cases h : pieces a with
      | nil => exact absurd h (pieces_ne a)
      | cons g gs => rfl

theorem comps_append (a b : List Nat) : comps (a ++ 47 :: b) = comps a ++ comps b := by
  unfold comps
  rw [pieces_append, List.filter_append]

theorem comps_slashfree {g : List Nat} (h : 47 ∉ g) : comps g = if g = [] then [] else [g] := by
  unfold comps
  rw [pieces_slashfree g h]
  cases g <;> simp

@[simp] theorem comps_nil : comps [] = [] := rfl

/-- Removing empty pieces. -/
def full (gs : List (List Nat)) : List (List Nat) := gs.filter (fun g => !g.isEmpty)

theorem comps_join (a : List Nat) : ∀ gs, Clean gs → comps (a ++ join gs) = comps a ++ full gs
  | [], _ => by simp [full]
  | g :: gs, h => by
    have hc : Clean gs := fun x hx => h x (List.mem_cons_of_mem _ hx)
    rw [join_cons, comps_append, comps_join g gs hc, comps_slashfree (h g List.mem_cons_self)]
    unfold full
    cases g <;> simp

theorem comps_of_pieces {s g : List Nat} {gs : List (List Nat)} (h : pieces s = g :: gs) :
    comps s = (if g = [] then [] else [g]) ++ full gs := by
  have hc := pieces_clean s
  rw [h] at hc
  unfold comps full
  rw [h]
  cases g <;> simp

theorem full_clean {gs : List (List Nat)} (h : Clean gs) : Clean (full gs) :=
  fun g hg => h g (List.mem_filter.1 hg).1

theorem comps_clean (s : List Nat) : Clean (comps s) := full_clean (pieces_clean s)

theorem comps_nonempty {s g : List Nat} (h : g ∈ comps s) : g ≠ [] := by
  have := (List.mem_filter.1 h).2
  simpa using this

/-- The last slash of a string determines what is before and after it. -/
theorem last_slash {a a' g g' : List Nat} (h : a ++ 47 :: g = a' ++ 47 :: g') (hg : 47 ∉ g) (hg' : 47 ∉ g') :
    g = g' := by
  rcases List.append_eq_append_iff.1 h with ⟨c, h1, h2⟩ | ⟨c, h1, h2⟩
  · cases c with
    | nil => simpa using h2
    | cons d c =>
      rw [List.cons_append] at h2
      obtain ⟨_, h2⟩ := List.cons.inj h2
      exact absurd (by rw [h2]; simp) hg
  · cases c with
    | nil => simpa using h2.symm
    | cons d c =>
      rw [List.cons_append] at h2
      obtain ⟨_, h2⟩ := List.cons.inj h2
      exact absurd (by rw [h2]; simp) hg'

/-! ## Prefix tests -/

theorem prefix_zero : ∀ (pat s : List Nat), 0 ∉ pat → pat.isPrefixOf (s ++ [0]) = pat.isPrefixOf s
  | [], s, _ => by simp
  | p :: pat, [], h => by
    have : p ≠ 0 := fun e => h (by simp [e])
    simp [List.isPrefixOf, this]
  | p :: pat, c :: s, h => by
    rw [List.cons_append, List.isPrefixOf_cons₂, List.isPrefixOf_cons₂, prefix_zero pat s (fun e => h (List.mem_cons_of_mem _ e))]

theorem isDot {g t : List Nat} (hg : 47 ∉ g) (ht : t = [] ∨ ∃ u, t = 47 :: u) :
    [47, 46, 47].isPrefixOf (47 :: (g ++ t)) = decide (g = dot ∧ t ≠ []) := by
  unfold dot
  rcases g with _ | ⟨a, _ | ⟨b, g⟩⟩
  · rcases ht with rfl | ⟨u, rfl⟩ <;> simp [List.isPrefixOf]
  · by_cases ha : a = 46
    · subst ha
      rcases ht with rfl | ⟨u, rfl⟩ <;> simp [List.isPrefixOf]
    · rcases ht with rfl | ⟨u, rfl⟩ <;> simp [List.isPrefixOf, ha, Ne.symm ha]
  · have : b ≠ 47 := fun e => hg (by simp [e])
    simp [List.isPrefixOf, Ne.symm this]

theorem isDotDot {g t : List Nat} (hg : 47 ∉ g) (ht : t = [] ∨ ∃ u, t = 47 :: u) :
    [47, 46, 46, 47].isPrefixOf (47 :: (g ++ t)) = decide (g = dotdot ∧ t ≠ []) := by
  unfold dotdot
  rcases g with _ | ⟨a, _ | ⟨b, _ | ⟨c, g⟩⟩⟩
  · rcases ht with rfl | ⟨u, rfl⟩ <;> simp [List.isPrefixOf]
  · rcases ht with rfl | ⟨u, rfl⟩ <;> simp [List.isPrefixOf]
  · by_cases ha : a = 46
    · by_cases hb : b = 46
      · subst ha; subst hb
        rcases ht with rfl | ⟨u, rfl⟩ <;> simp [List.isPrefixOf]
      · rcases ht with rfl | ⟨u, rfl⟩ <;> simp [List.isPrefixOf, hb, Ne.symm hb]
    · rcases ht with rfl | ⟨u, rfl⟩ <;> simp [List.isPrefixOf, ha, Ne.symm ha]
  · have : c ≠ 47 := fun e => hg (by simp [e])
    simp [List.isPrefixOf, Ne.symm this]

theorem prefix_nonslash {c : Nat} (hc : c ≠ 47) (pat s : List Nat) : (47 :: pat).isPrefixOf (c :: s) = false := by
  simp [List.isPrefixOf, Ne.symm hc]

/-! ## Replacing `/./` -/

/-- What the first loop of `GetAbsoluteFilename` computes. -/
def undot (s : List Nat) : List Nat :=
  if h : [47, 46, 47].isPrefixOf s = true then undot (s.drop 2)
  else match s with
    | [] => []
    | c :: r => if c :: r = [47, 46] then [c] else c :: undot r
termination_by s.length
decreasing_by
  · have := (List.isPrefixOf_iff_prefix.1 h).length_le
    simp at this ⊢
    omega
  · simp

theorem undot_skip {s : List Nat} (h : [47, 46, 47].isPrefixOf s = true) : undot s = undot (s.drop 2) := by
  conv => lhs; unfold undot
  rw [dif_pos h]

theorem undot_nil : undot [] = [] := by unfold undot; simp

theorem undot_cons {c : Nat} {r : List Nat} (h : [47, 46, 47].isPrefixOf (c :: r) = false) :
    undot (c :: r) = if c :: r = [47, 46] then [c] else c :: undot r := by
  conv => lhs; unfold undot
  rw [dif_neg (by rw [h]; simp)]

theorem undot_seg (s : List Nat) : ∀ g, 47 ∉ g → undot (g ++ s) = g ++ undot s
  | [], _ => rfl
  | c :: g, h => by
    have hc : c ≠ 47 := fun e => h (by simp [e])
    rw [List.cons_append, undot_cons (prefix_nonslash hc _ _), if_neg (by intro e; exact hc (List.cons.inj e).1),
      undot_seg s g (fun e => h (List.mem_cons_of_mem _ e))]
    rfl

/-- The pieces after removing "." pieces; a final one becomes empty. -/
def undotP : List (List Nat) → List (List Nat)
  | [] => []
  | g :: gs => if g = dot then (if gs = [] then [[]] else undotP gs) else g :: undotP gs

theorem undot_join : ∀ gs, Clean gs → undot (join gs) = join (undotP gs)
  | [], _ => by rw [join_nil, undot_nil]; rfl
  | g :: gs, h => by
    have hg := h g List.mem_cons_self
    have hc : Clean gs := fun x hx => h x (List.mem_cons_of_mem _ hx)
    have ih := undot_join gs hc
    have hp := isDot hg (join_head gs)
    rw [join_cons, undotP]
    by_cases hd : g = dot
    · rw [if_pos hd]
      subst hd
      by_cases hgs : gs = []
      · subst hgs
        rw [undot_cons (by simpa using hp)]
        simp [dot]
      · have hne : join gs ≠ [] := by
          cases gs with
          | nil => exact absurd rfl hgs
          | cons g gs => simp
        rw [undot_skip (by rw [hp]; simp [hne]), if_neg hgs, ← ih]
        rfl
    · rw [undot_cons (by rw [hp]; simp [hd]), if_neg hd, if_neg, undot_seg _ _ hg, ih]
      · rfl
      · intro e
        injection e with _ e
        rcases join_head gs with h1 | ⟨t, h1⟩
        · rw [h1, List.append_nil] at e; exact hd e
        · rw [h1] at e
          have : (47 : Nat) ∈ [46] := by rw [← e]; simp
          simp at this

theorem undotP_clean : ∀ gs, Clean gs → Clean (undotP gs)
  | [], h => h
  | g :: gs, h => by
    have hc : Clean gs := fun x hx => h x (List.mem_cons_of_mem _ hx)
    have ih := undotP_clean gs hc
    unfold undotP
    split
    · split
      · intro x hx; simp at hx; simp [hx]
      · exact ih
    · intro x hx
      rcases List.mem_cons.1 hx with rfl | hx
      · exact h _ List.mem_cons_self
      · exact ih x hx

theorem undotP_nodot : ∀ gs, dot ∉ undotP gs
  | [] => by simp [undotP]
  | g :: gs => by
    have ih := undotP_nodot gs
    unfold undotP
    split
    · split
      · simp [dot]
      · exact ih
    · next h =>
      intro hm
      rcases List.mem_cons.1 hm with e | e
      · exact h e.symm
      · exact ih e

/-- Removing "." does not change where a walk leads. -/
theorem walk_undotP : ∀ (gs : List (List Nat)) (st : List (List Nat)), walk st (full (undotP gs)) = walk st (full gs)
  | [], st => rfl
  | g :: gs, st => by
    unfold undotP
    by_cases hd : g = dot
    · rw [if_pos hd]
      subst hd
      have e : full (dot :: gs) = dot :: full gs := rfl
      rw [e, walk, if_pos rfl]
      by_cases hgs : gs = []
      · subst hgs; rfl
      · rw [if_neg hgs]
        exact walk_undotP gs st
    · rw [if_neg hd]
      by_cases he : g = []
      · subst he
        exact walk_undotP gs st
      · have e : ∀ l, full (g :: l) = g :: full l := by
          intro l
          cases g with
          | nil => exact absurd rfl he
          | cons a t => rfl
        rw [e, e, walk, walk, if_neg hd, if_neg hd]
        split
        · exact walk_undotP gs _
        · exact walk_undotP gs _

theorem undot_len : ∀ (n : Nat) (s : List Nat), s.length ≤ n → (undot s).length ≤ s.length
  | 0, s, h => by
    have : s = [] := List.length_eq_zero_iff.1 (by omega)
    subst this
    rw [undot_nil]
  | n + 1, [], _ => by rw [undot_nil]
  | n + 1, c :: r, h => by
    cases hp : [47, 46, 47].isPrefixOf (c :: r) with
    | true =>
      rw [undot_skip hp]
      have := undot_len n ((c :: r).drop 2) (by simp at h ⊢; omega)
      simp at this ⊢
      omega
    | false =>
      rw [undot_cons hp]
      split
      · simp
      · have := undot_len n r (by simpa using h)
        simpa using this

/-! ## Going up -/

/-- What the two loops at `/../` compute. -/
def pop (P : List Nat) : List Nat := (P.rdropWhile (· == 47)).rdropWhile (· != 47)

theorem strip_slashes (P : List Nat) : comps (P.rdropWhile (· == 47)) = comps P := by
  induction P using List.reverseRecOn with
  | nil => rfl
  | append_singleton P c ih =>
    rw [List.rdropWhile_concat]
    split
    · next hc =>
      rw [ih]
      have : c = 47 := by simpa using hc
      subst this
      have := comps_append P []
      simpa using this.symm
    · rfl

/-- The last component and what is before it. -/
theorem strip_name (Q : List Nat) : ∀ g, 47 ∉ g → g ≠ [] → Q = [] ∨ Q.getLast? = some 47 →
    (Q ++ g).rdropWhile (· != 47) = Q := by
  intro g
  induction g using List.reverseRecOn with
  | nil => intro _ h; exact absurd rfl h
  | append_singleton g c ih =>
    intro hg _ hQ
    have hc : c ≠ 47 := fun e => hg (by simp [e])
    rw [← List.append_assoc, List.rdropWhile_concat, if_pos (by simpa using hc)]
    by_cases h : g = []
    · subst h
      rw [List.append_nil]
      rcases hQ with rfl | hQ
      · rfl
      · obtain ⟨l, rfl⟩ := List.getLast?_eq_some_iff.1 hQ
        rw [List.rdropWhile_concat, if_neg (by simp)]
    · exact ih (fun e => hg (by simp [e])) h hQ

/-- A string that does not end with a slash ends with a component. -/
theorem last_comp (P : List Nat) (hne : P ≠ []) (hl : P.getLast? ≠ some 47) :
    ∃ Q g, P = Q ++ g ∧ 47 ∉ g ∧ g ≠ [] ∧ (Q = [] ∨ Q.getLast? = some 47) := by
  induction P using List.reverseRecOn with
  | nil => exact absurd rfl hne
  | append_singleton P c ih =>
    have hc : c ≠ 47 := by intro e; subst e; simp at hl
    by_cases h : P = [] ∨ P.getLast? = some 47
    · exact ⟨P, [c], rfl, by simpa using Ne.symm hc, by simp, h⟩
    · have h1 : P ≠ [] := fun e => h (.inl e)
      have h2 : P.getLast? ≠ some 47 := fun e => h (.inr e)
      obtain ⟨Q, g, e, a, b, d⟩ := ih h1 h2
      refine ⟨Q, g ++ [c], by rw [e]; simp, ?_, by simp, d⟩
      intro hm
      rcases List.mem_append.1 hm with hm | hm
      · exact a hm
      · exact hc (List.mem_singleton.1 hm).symm

theorem comps_concat {Q g : List Nat} (hQ : Q = [] ∨ Q.getLast? = some 47) (hg : 47 ∉ g) (hne : g ≠ []) :
    comps (Q ++ g) = comps Q ++ [g] := by
  rcases hQ with rfl | hQ
  · rw [List.nil_append, comps_slashfree hg, if_neg hne]; rfl
  · obtain ⟨l, rfl⟩ := List.getLast?_eq_some_iff.1 hQ
    rw [List.append_assoc, List.singleton_append, comps_append, comps_slashfree hg, if_neg hne]
    have := comps_append l []
    simp at this
    rw [this]

theorem pop_comps (P : List Nat) : comps (pop P) = (comps P).dropLast := by
  unfold pop
  rw [← strip_slashes P]
  generalize hP : P.rdropWhile (· == 47) = P'
  by_cases hne : P' = []
  · subst hne; rfl
  · have hl : P'.getLast? ≠ some 47 := by
      rw [← hP] at hne ⊢
      intro e
      have h1 := List.rdropWhile_last_not (fun c => c == 47) P hne
      rw [List.getLast?_eq_some_getLast hne] at e
      injection e with e
      exact h1 (by simpa using e)
    obtain ⟨Q, g, e, h1, h2, h3⟩ := last_comp P' hne hl
    rw [e, strip_name Q g h1 h2 h3, comps_concat h3 h1 h2, List.dropLast_concat]

theorem pop_prefix (P : List Nat) : pop P <+: P :=
  (List.rdropWhile_prefix _ _).trans (List.rdropWhile_prefix _ _)

/-- What the loop appending the name computes. -/
def proc (P rest : List Nat) : List Nat :=
  if h : [47, 46, 46, 47].isPrefixOf rest = true then proc (pop P) (rest.drop 3)
  else match rest with
    | [] => P
    | c :: r => proc (P ++ [c]) r
termination_by rest.length
decreasing_by
  · have := (List.isPrefixOf_iff_prefix.1 h).length_le
    simp at this ⊢
    omega
  · simp

theorem proc_up {P s : List Nat} (h : [47, 46, 46, 47].isPrefixOf s = true) : proc P s = proc (pop P) (s.drop 3) := by
  conv => lhs; unfold proc
  rw [dif_pos h]

theorem proc_nil (P : List Nat) : proc P [] = P := by unfold proc; simp

theorem proc_cons {P : List Nat} {c : Nat} {r : List Nat} (h : [47, 46, 46, 47].isPrefixOf (c :: r) = false) :
    proc P (c :: r) = proc (P ++ [c]) r := by
  conv => lhs; unfold proc
  rw [dif_neg (by rw [h]; simp)]

theorem proc_seg (s : List Nat) : ∀ g P, 47 ∉ g → proc P (g ++ s) = proc (P ++ g) s
  | [], P, _ => by simp
  | c :: g, P, h => by
    have hc : c ≠ 47 := fun e => h (by simp [e])
    rw [List.cons_append, proc_cons (prefix_nonslash hc _ _), proc_seg s g _ (fun e => h (List.mem_cons_of_mem _ e)),
      List.append_assoc]
    rfl

/-- The name is walked, component by component. -/
theorem proc_join : ∀ (gs : List (List Nat)) (P : List Nat), Clean gs → dot ∉ gs → gs.getLast? ≠ some dotdot →
    comps (proc P (join gs)) = walk (comps P) (full gs)
  | [], P, _, _, _ => by rw [join_nil, proc_nil]; simp [full, walk]
  | g :: gs, P, h, hd, hl => by
    have hg := h g List.mem_cons_self
    have hc : Clean gs := fun x hx => h x (List.mem_cons_of_mem _ hx)
    have hd' : dot ∉ gs := fun e => hd (List.mem_cons_of_mem _ e)
    have hgd : g ≠ dot := fun e => hd (by simp [e])
    have hl' : gs.getLast? ≠ some dotdot := by
      intro e
      apply hl
      cases gs with
      | nil => simp at e
      | cons a t => rw [List.getLast?_cons_cons]; exact e
    have hp := isDotDot hg (join_head gs)
    rw [join_cons]
    by_cases hdd : g = dotdot
    · subst hdd
      have hne : gs ≠ [] := by
        intro e; subst e; simp at hl
      have hj : join gs ≠ [] := by
        cases gs with
        | nil => exact absurd rfl hne
        | cons g gs => simp
      rw [proc_up (by rw [hp]; simp [hj])]
      have e : (47 :: (dotdot ++ join gs)).drop 3 = join gs := rfl
      rw [e, proc_join gs _ hc hd' hl', pop_comps]
      have e2 : full (dotdot :: gs) = dotdot :: full gs := rfl
      rw [e2, walk, if_neg (by decide), if_pos rfl]
    · rw [proc_cons (by rw [hp]; simp [hdd]), proc_seg _ _ _ hg, proc_join gs _ hc hd' hl', List.append_assoc,
        List.singleton_append, comps_append, comps_slashfree hg]
      by_cases he : g = []
      · subst he
        simp [full]
      · have e2 : full (g :: gs) = g :: full gs := by
          cases g with
          | nil => exact absurd rfl he
          | cons a t => rfl
        rw [if_neg he, e2, walk, if_neg hgd, if_neg hdd]

/-! ## Collapsing slashes -/

/-- What the copying loop computes. -/
def collapse : List Nat → List Nat
  | [] => []
  | c :: r => if c = 47 ∧ r.head? = some 47 then collapse r else c :: collapse r

theorem collapse_seg (s : List Nat) : ∀ g, 47 ∉ g → collapse (g ++ s) = g ++ collapse s
  | [], _ => rfl
  | c :: g, h => by
    have hc : c ≠ 47 := fun e => h (by simp [e])
    rw [List.cons_append, collapse, if_neg (by simp [hc]), collapse_seg s g (fun e => h (List.mem_cons_of_mem _ e))]
    rfl

theorem collapse_join : ∀ gs, Clean gs → collapse (join gs) = join (full gs) ++ (if gs.getLast? = some [] then [47] else [])
  | [], _ => by simp [collapse, full]
  | g :: gs, h => by
    have hg := h g List.mem_cons_self
    have hc : Clean gs := fun x hx => h x (List.mem_cons_of_mem _ hx)
    have ih := collapse_join gs hc
    rw [join_cons, collapse]
    by_cases he : g = []
    · subst he
      rw [List.nil_append]
      cases gs with
      | nil => simp [collapse, full]
      | cons a t =>
        rw [if_pos (by simp), ih, List.getLast?_cons_cons]
        rfl
    · have e2 : full (g :: gs) = g :: full gs := by
        cases g with
        | nil => exact absurd rfl he
        | cons a t => rfl
      rw [if_neg, collapse_seg _ _ hg, ih, e2, join_cons]
      · cases gs with
        | nil => simp [he, full]
        | cons a t => rw [List.getLast?_cons_cons]; simp
      · rintro ⟨_, h2⟩
        cases g with
        | nil => exact absurd rfl he
        | cons a t =>
          simp at h2
          exact hg (by simp [h2])

/-- A string that begins with a slash, collapsed: its components, each after a slash, and perhaps one
more slash. -/
theorem collapse_abs (s : List Nat) (h : s.head? = some 47) :
    ∃ tr, (tr = [] ∨ tr = [47]) ∧ (comps s = [] → tr = [47]) ∧ collapse s = join (comps s) ++ tr := by
  cases hp : pieces s with
  | nil => exact absurd hp (pieces_ne s)
  | cons g gs =>
    have hs := pieces_join s g gs hp
    have hcl := pieces_clean s
    rw [hp] at hcl
    have hg : g = [] := by
      cases g with
      | nil => rfl
      | cons a t =>
        rw [hs] at h
        simp at h
        exact absurd (by simp [h]) (hcl (a :: t) List.mem_cons_self)
    subst hg
    rw [List.nil_append] at hs
    have hc : Clean gs := fun x hx => hcl x (List.mem_cons_of_mem _ hx)
    have e : comps s = full gs := by rw [comps_of_pieces hp]; rfl
    refine ⟨if gs.getLast? = some [] then [47] else [], ?_, ?_, ?_⟩
    · split
      · exact .inr rfl
      · exact .inl rfl
    · intro h0
      rw [e] at h0
      have hne : gs ≠ [] := by
        intro e; subst e; rw [hs] at h; simp at h
      rw [List.getLast?_eq_some_getLast hne]
      have hm := List.getLast_mem hne
      rw [if_pos]
      congr 1
      apply Classical.byContradiction
      intro hn
      have : gs.getLast hne ∈ full gs := List.mem_filter.2 ⟨hm, by simpa using hn⟩
      rw [h0] at this
      cases this
    · rw [e]
      conv => lhs; rw [hs]
      exact collapse_join gs hc

/-! ## The final check -/

/-- What the sanity check computes. -/
def sane : List Nat → Bool
  | [] => true
  | c :: r => !([47, 46, 47].isPrefixOf (c :: r)) && !([47, 46, 46, 47].isPrefixOf (c :: r)) && sane r

theorem sane_seg (s : List Nat) : ∀ g, 47 ∉ g → sane (g ++ s) = sane s
  | [], _ => rfl
  | c :: g, h => by
    have hc : c ≠ 47 := fun e => h (by simp [e])
    rw [List.cons_append, sane, prefix_nonslash hc, prefix_nonslash hc, sane_seg s g (fun e => h (List.mem_cons_of_mem _ e))]
    rfl

/-- No piece that is followed by a slash may be "." or "..". -/
theorem sane_join (t : List Nat) (ht : t = [] ∨ t = [47]) : ∀ gs, Clean gs →
    (sane (join gs ++ t) = true ↔ dot ∉ (if t = [] then gs.dropLast else gs) ∧ dotdot ∉ (if t = [] then gs.dropLast else gs))
  | [], _ => by rcases ht with rfl | rfl <;> simp [sane]
  | g :: gs, h => by
    have hg := h g List.mem_cons_self
    have hc : Clean gs := fun x hx => h x (List.mem_cons_of_mem _ hx)
    have ih := sane_join t ht gs hc
    have hh : join gs ++ t = [] ∨ ∃ u, join gs ++ t = 47 :: u := by
      rcases join_head gs with e | ⟨u, e⟩
      · rw [e]
        rcases ht with rfl | rfl
        · exact .inl rfl
        · exact .inr ⟨[], rfl⟩
      · exact .inr ⟨u ++ t, by rw [e]; rfl⟩
    rw [join_cons, List.cons_append, List.append_assoc, sane, isDot hg hh, isDotDot hg hh, sane_seg _ _ hg]
    simp only [Bool.and_eq_true, Bool.not_eq_true', decide_eq_false_iff_not]
    rw [ih]
    rcases ht with rfl | rfl
    · cases gs with
      | nil => simp
      | cons a u =>
        simp only [List.append_nil, join_cons, if_true, List.dropLast_cons_cons, List.mem_cons, not_or]
        constructor
        · rintro ⟨⟨h1, h2⟩, h3, h4⟩
          exact ⟨⟨fun e => h1 ⟨e.symm, by simp⟩, h3⟩, fun e => h2 ⟨e.symm, by simp⟩, h4⟩
        · rintro ⟨⟨h1, h3⟩, h2, h4⟩
          exact ⟨⟨fun e => h1 e.1.symm, fun e => h2 e.1.symm⟩, h3, h4⟩
    · simp only [List.cons_ne_nil, if_false, List.mem_cons, not_or]
      constructor
      · rintro ⟨⟨h1, h2⟩, h3, h4⟩
        exact ⟨⟨fun e => h1 ⟨e.symm, by simp⟩, h3⟩, fun e => h2 ⟨e.symm, by simp⟩, h4⟩
      · rintro ⟨⟨h1, h3⟩, h2, h4⟩
        exact ⟨⟨fun e => h1 e.1.symm, fun e => h2 e.1.symm⟩, h3, h4⟩

end Verif.Path
