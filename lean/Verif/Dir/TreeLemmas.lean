import Verif.Dir.Lemmas

/-!
# Recursive removal and creation in trees
-/

namespace Verif.Dir
open Spec Verif.Path Verif.Path.Spec

theorem find_upd (f : Node → Node) (c c' : List Nat) : ∀ es, find (upd es c f) c' = if c' = c then (find es c).map f else find es c'
  | [] => by simp [upd, find]
  | (n, x) :: es => by
    have ih := find_upd f c c' es
    by_cases h : n = c
    · subst h
      simp only [upd, find, if_true]
      by_cases h2 : n = c'
      · subst h2; simp
      · rw [if_neg h2, if_neg h2, if_neg (fun e => h2 e.symm)]
    · simp only [upd, find, if_neg h]
      by_cases h2 : n = c'
      · subst h2; rw [if_pos rfl, if_pos rfl, if_neg h]
      · rw [if_neg h2, if_neg h2, ih]

theorem find_drop (c c' : List Nat) : ∀ es, find (drop es c) c' = if c' = c then none else find es c'
  | [] => by simp [drop, find]
  | (n, x) :: es => by
    have ih := find_drop c c' es
    unfold drop at ih ⊢
    by_cases h : n = c
    · subst h
      rw [List.filter_cons_of_neg (by simp), ih]
      by_cases h2 : c' = n
      · rw [if_pos h2, if_pos h2]
      · rw [if_neg h2, if_neg h2, find, if_neg (fun e => h2 e.symm)]
    · rw [List.filter_cons_of_pos (by simpa using h), find, find, ih]
      by_cases h2 : n = c'
      · subst h2; rw [if_pos rfl, if_pos rfl, if_neg h]
      · rw [if_neg h2, if_neg h2]

theorem drop_upd (c : List Nat) (f : Node → Node) : ∀ es, drop (upd es c f) c = drop es c
  | [] => rfl
  | (n, x) :: es => by
    have ih := drop_upd c f es
    unfold drop at ih ⊢
    by_cases h : n = c
    · simp [upd, h]
    · simp only [upd, if_neg h]
      rw [List.filter_cons_of_pos (by simpa using h), List.filter_cons_of_pos (by simpa using h), ih]

theorem upd_upd (c : List Nat) (f g : Node → Node) : ∀ es, upd (upd es c f) c g = upd es c (fun x => g (f x))
  | [] => rfl
  | (n, x) :: es => by
    by_cases h : n = c
    · simp [upd, h]
    · simp only [upd, if_neg h, upd_upd c f g es]

theorem upd_id (c : List Nat) (f : Node → Node) : ∀ es, (∀ x, find es c = some x → f x = x) → upd es c f = es
  | [], _ => rfl
  | (n, x) :: es, h => by
    by_cases hn : n = c
    · rw [upd, if_pos hn, h x (by rw [find, if_pos hn])]
    · rw [upd, if_neg hn, upd_id c f es (fun y hy => h y (by rw [find, if_neg hn]; exact hy))]

theorem upd_congr (c : List Nat) (f g : Node → Node) : ∀ l, (∀ y, find l c = some y → f y = g y) → upd l c f = upd l c g
  | [], _ => rfl
  | (n, y) :: l, h => by
    by_cases hn : n = c
    · rw [upd, upd, if_pos hn, if_pos hn, h y (by rw [find, if_pos hn])]
    · rw [upd, upd, if_neg hn, if_neg hn, upd_congr c f g l (fun y hy => h y (by rw [find, if_neg hn]; exact hy))]

theorem find_mem {es : List (List Nat × Node)} {c : List Nat} : c ∈ es.map (·.1) → ∃ x, find es c = some x := by
  induction es with
  | nil => intro h; cases h
  | cons e es ih =>
    obtain ⟨n, x⟩ := e
    intro h
    by_cases hn : n = c
    · exact ⟨x, by rw [find, if_pos hn]⟩
    · rw [find, if_neg hn]
      apply ih
      rcases List.mem_cons.1 h with h | h
      · exact absurd h.symm hn
      · exact h

theorem names_drop {es : List (List Nat × Node)} {c n : List Nat} : n ∈ (drop es c).map (·.1) → n ∈ es.map (·.1) ∧ n ≠ c := by
  intro h
  obtain ⟨e, he, rfl⟩ := List.mem_map.1 h
  obtain ⟨h1, h2⟩ := List.mem_filter.1 he
  exact ⟨List.mem_map.2 ⟨e, h1, rfl⟩, by simpa using h2⟩

/-! ## Paths -/

theorem lookup_append : ∀ (a b : List (List Nat)) (t : Node), lookup t (a ++ b) = (lookup t a).bind (lookup · b)
  | [], b, t => by cases t <;> rfl
  | c :: a, b, .file => rfl
  | c :: a, b, .link => rfl
  | c :: a, b, .dir es => by
    simp only [List.cons_append, lookup]
    cases find es c with
    | none => rfl
    | some x => exact lookup_append a b x

theorem lookup_nil (t : Node) : lookup t [] = some t := by cases t <;> rfl

theorem put_nil (t x : Node) : put t [] x = x := by cases t <;> rfl

theorem lookup_put : ∀ (cs : List (List Nat)) (t x y : Node), lookup t cs = some y → lookup (put t cs x) cs = some x
  | [], t, x, y, _ => by rw [put_nil, lookup_nil]
  | c :: cs, .file, x, y, h => by cases h
  | c :: cs, .link, x, y, h => by cases h
  | c :: cs, .dir es, x, y, h => by
    rw [lookup] at h
    rw [put, lookup, find_upd, if_pos rfl]
    cases hf : find es c with
    | none => rw [hf] at h; cases h
    | some z =>
      rw [hf] at h
      exact lookup_put cs z x y h

theorem put_put : ∀ (cs : List (List Nat)) (t a b : Node), put (put t cs a) cs b = put t cs b
  | [], t, a, b => by rw [put_nil, put_nil]
  | c :: cs, .file, a, b => rfl
  | c :: cs, .link, a, b => rfl
  | c :: cs, .dir es, a, b => by
    simp only [put, upd_upd]
    congr 2
    funext y
    exact put_put cs y a b

theorem put_self : ∀ (cs : List (List Nat)) (t y : Node), lookup t cs = some y → put t cs y = t
  | [], t, y, h => by rw [lookup_nil] at h; cases h; exact put_nil _ _
  | c :: cs, .file, y, h => rfl
  | c :: cs, .link, y, h => rfl
  | c :: cs, .dir es, y, h => by
    rw [put, upd_id]
    intro x hx
    rw [lookup, hx] at h
    exact put_self cs x y h

theorem put_snoc : ∀ (cs : List (List Nat)) (e : List Nat) (t x : Node) (es : List (List Nat × Node)), lookup t cs = some (.dir es) →
    put t (cs ++ [e]) x = put t cs (.dir (upd es e (fun _ => x)))
  | [], e, t, x, es, h => by
    rw [lookup_nil] at h
    cases h
    simp [put, put_nil]
  | c :: cs, e, .file, x, es, h => by cases h
  | c :: cs, e, .link, x, es, h => by cases h
  | c :: cs, e, .dir es', x, es, h => by
    rw [lookup] at h
    simp only [List.cons_append, put]
    cases hf : find es' c with
    | none => rw [hf] at h; cases h
    | some z =>
      rw [hf] at h
      have ih := put_snoc cs e z x es h
      congr 1
      apply upd_congr
      intro y hy
      rw [hf] at hy
      cases hy
      exact ih

theorem erase_snoc : ∀ (cs : List (List Nat)) (e : List Nat) (t : Node) (es : List (List Nat × Node)), lookup t cs = some (.dir es) →
    erase t (cs ++ [e]) = put t cs (.dir (drop es e))
  | [], e, t, es, h => by
    rw [lookup_nil] at h
    cases h
    simp [erase, put]
  | c :: cs, e, .file, es, h => by cases h
  | c :: cs, e, .link, es, h => by cases h
  | c :: cs, e, .dir es', es, h => by
    rw [lookup] at h
    cases hf : find es' c with
    | none => rw [hf] at h; cases h
    | some z =>
      rw [hf] at h
      have ih := erase_snoc cs e z es h
      have hne : ∃ d r, cs ++ [e] = d :: r := by cases cs <;> simp
      obtain ⟨d, r, hdr⟩ := hne
      rw [List.cons_append, hdr, erase, put, ← hdr]
      congr 1
      apply upd_congr
      intro y hy
      rw [hf] at hy
      cases hy
      exact ih

/-! ## Good names -/

theorem comps_of_join {cs : List (List Nat)} (h : ∀ g ∈ cs, g ≠ [] ∧ 47 ∉ g) : comps (join cs) = cs := by
  have hcl : Clean cs := fun g hg => (h g hg).2
  have := comps_join [] cs hcl
  rw [List.nil_append, comps_nil, List.nil_append] at this
  rw [this]
  unfold full
  rw [List.filter_eq_self]
  intro g hg
  have := (h g hg).1
  cases g with
  | nil => exact absurd rfl this
  | cons c g => rfl

theorem Spec.GoodName.clean {n : List Nat} (h : GoodName n) : n ≠ [] ∧ 47 ∉ n :=
  ⟨h.1, fun hm => (h.2.2.2 47 hm).2.2.1 rfl⟩

theorem Spec.GoodName.zero {n : List Nat} (h : GoodName n) : 0 ∉ n := fun hm => by have := (h.2.2.2 0 hm).1; omega

theorem join_head_slash {cs : List (List Nat)} (h : cs ≠ []) : (join cs).head? = some 47 := by
  cases cs with
  | nil => exact absurd rfl h
  | cons c cs => rfl

theorem join_name {cs : List (List Nat)} (hne : cs ≠ []) (h : ∀ g ∈ cs, GoodName g) (hl : (join cs).length < 8192) :
    Name (join cs) ∧ slashed (join cs) = join cs := by
  have hmem : ∀ c ∈ join cs, c = 47 ∨ (0x20 ≤ c ∧ c < 0x7F ∧ c ≠ 47 ∧ c ≠ 92 ∧ ¬ Forbidden c) := by
    intro c hc
    obtain ⟨g, hg, h1⟩ := List.mem_flatMap.1 hc
    rcases List.mem_cons.1 h1 with h1 | h1
    · exact .inl h1
    · exact .inr ((h g hg).2.2.2 c h1)
  refine ⟨⟨?_, hl, ?_⟩, ?_⟩
  · intro e
    have := join_head_slash hne
    rw [e] at this
    cases this
  · intro c hc
    rcases hmem c hc with rfl | h1
    · decide
    · exact ⟨by omega, by omega, h1.2.2.2.2⟩
  · unfold slashed
    have : (join cs).map (fun c => if c = 92 then 47 else c) = (join cs).map id := by
      apply List.map_congr_left
      intro c hc
      rcases hmem c hc with rfl | h1
      · rfl
      · exact if_neg h1.2.2.2.1
    rw [this, List.map_id]

theorem Spec.GoodName.plain {n : List Nat} (h : GoodName n) : Plain n := ⟨h.2.1, h.2.2.1⟩

theorem stack_abs {cs : List (List Nat)} (bs : List Nat) (hne : cs ≠ []) (h : ∀ g ∈ cs, GoodName g) : stack bs (join cs) = cs := by
  unfold stack
  rw [if_pos (join_head_slash hne), comps_of_join (fun g hg => (h g hg).clean), walk_plain cs [] (fun g hg => (h g hg).plain)]
  rfl

/-- A path of good names is opened as it is. -/
theorem openDir_tree (cwd : List Nat) (ls : List (List Nat) → List (List Nat)) (E : Env) (hE : E.Good) (hc0 : 0 ∉ cwd)
    (hcwd : cwd.head? = some 47) (t : Node) (cs : List (List Nat)) (tl : List Nat) (hne : cs ≠ []) (h : ∀ g ∈ cs, GoodName g)
    (hl : cwd.length + (join cs).length ≤ 8189) :
    openDir (treeSys cwd ls) E t (join cs ++ 0 :: tl) = .ok (t, match lookup t cs with
      | some (.dir es) => some (ls (dot :: dotdot :: es.map (·.1)))
      | _ => none) := by
  obtain ⟨hname, hsl⟩ := join_name hne h (by omega)
  obtain ⟨ok, b, g1, g2, g3, g4, _⟩ := resolvePath_ok (treeSys cwd ls) E hE (fun s p e => by cases e; exact hc0) t (join cs) tl hname.no_zero
  have hst := stack_abs cwd hne h
  have hdot : ∀ n, n = dot ∨ n = dotdot → n ∉ cs := by
    intro n hn hm
    rcases hn with rfl | rfl
    · exact (h _ hm).2.1 rfl
    · exact (h _ hm).2.2.1 rfl
  have hok : ok = true := by
    apply g4 cwd rfl hcwd (hname.accepted E.sgn) hl
    · rw [hsl, hst]; exact fun hm => hdot dot (.inl rfl) (List.dropLast_subset _ hm)
    · rw [hsl, hst]; exact fun hm => hdot dotdot (.inr rfl) (List.dropLast_subset _ hm)
  subst hok
  obtain ⟨bs, tlb, e1, _, e2, e3⟩ := g3 rfl
  cases e1
  rw [hsl, hst] at e2 e3
  unfold openDir
  rw [g1, ok_bind]
  dsimp only
  rw [if_neg (by simp), e2, cstr_ok _ _ e3, ok_bind]
  have : comps (join cs) = cs := comps_of_join (fun g hg => (h g hg).clean)
  simp only [treeSys, this]
  rfl

/-! ## Removing a tree -/

theorem join_snoc (cs : List (List Nat)) (e : List Nat) : join (cs ++ [e]) = join cs ++ 47 :: e := by
  rw [join_append]; simp

/-- What the recursive call does. -/
def Clears (cwd : List Nat) (rec : Node → List Nat → Nat → CRes (Node × List Nat)) (bound : Nat) : Prop :=
  ∀ t cs es tl, lookup t cs = some (.dir es) → cs ≠ [] → (∀ g ∈ cs, GoodName g) →
    Fits (cwd.length + (join cs).length) (.dir es) → bound ≤ (join cs).length → (join cs ++ 0 :: tl).length = 8192 →
    ∃ tl', rec t (join cs ++ 0 :: tl) (join cs).length = .ok (put t cs (.dir []), join cs ++ 0 :: tl') ∧
      (join cs ++ 0 :: tl').length = 8192

theorem Spec.Fits.child {len : Nat} {es : List (List Nat × Node)} {e : List Nat} {x : Node} (h : Fits len (.dir es)) (he : find es e = some x) :
    GoodName e ∧ Fits (len + (1 + e.length)) x := by
  have hlk : ∀ p, lookup (.dir es) (e :: p) = lookup x p := by intro p; rw [lookup, he]
  refine ⟨(h [e] x (by rw [hlk, lookup_nil])).1 e List.mem_cons_self, ?_⟩
  intro p y hp
  obtain ⟨h1, h2⟩ := h (e :: p) y (by rw [hlk]; exact hp)
  refine ⟨fun n hn => h1 n (List.mem_cons_of_mem _ hn), ?_⟩
  rw [path_eq, join_cons] at h2
  rw [path_eq]
  simp at h2
  omega

theorem Spec.Fits.drop {len : Nat} {es : List (List Nat × Node)} (h : Fits len (.dir es)) (e : List Nat) : Fits len (.dir (drop es e)) := by
  intro p x hp
  cases p with
  | nil => exact ⟨(fun n hn => nomatch hn), (h [] _ (lookup_nil _)).2⟩
  | cons c p =>
    rw [lookup, find_drop] at hp
    by_cases hc : c = e
    · rw [if_pos hc] at hp; cases hp
    · rw [if_neg hc] at hp
      exact h (c :: p) x (by rw [lookup]; exact hp)

theorem entries_tree (cwd : List Nat) (ls : List (List Nat) → List (List Nat)) (hcwd : cwd.head? = some 47)
    (rec : Node → List Nat → Nat → CRes (Node × List Nat)) (bound : Nat) (hrec : Clears cwd rec bound) (cs : List (List Nat))
    (hne : cs ≠ []) (hcs : ∀ g ∈ cs, GoodName g) (hb : bound ≤ (join cs).length + 1) :
    ∀ (ns : List (List Nat)) (t : Node) (es : List (List Nat × Node)) (tl : List Nat), lookup t cs = some (.dir es) →
      Fits (cwd.length + (join cs).length) (.dir es) → (∀ n ∈ es.map (·.1), n ∈ ns) →
      (∀ e ∈ ns, e = dot ∨ e = dotdot ∨ (GoodName e ∧ cwd.length + (join cs).length + (1 + e.length) ≤ 8189)) →
      (join cs ++ 47 :: tl).length = 8192 →
      ∃ tl', entries (treeSys cwd ls) rec (join cs).length ns t (join cs ++ 47 :: tl) = .ok (put t cs (.dir []), join cs ++ 47 :: tl') ∧
        (join cs ++ 47 :: tl').length = 8192
  | [], t, es, tl, ht, _, hns, _, hl => by
    have : es = [] := by
      cases es with
      | nil => rfl
      | cons e es => exact absurd (hns e.1 (by simp)) (by simp)
    subst this
    exact ⟨tl, by rw [entries, put_self cs t _ ht], hl⟩
  | e :: ns, t, es, tl, ht, hfit, hns, hgood, hl => by
    have ih := entries_tree cwd ls hcwd rec bound hrec cs hne hcs hb ns
    have hgood' := fun x hx => hgood x (List.mem_cons_of_mem e hx)
    have hroot : cwd.length + (join cs).length ≤ 8189 := by
      have := (hfit [] _ (lookup_nil _)).2
      simpa [path] using this
    have hcl : 1 ≤ cwd.length := by cases cwd with | nil => cases hcwd | cons a b => simp
    have he0 : 0 ∉ e := by
      rcases hgood e List.mem_cons_self with rfl | rfl | h
      · decide
      · decide
      · exact h.1.zero
    have hel : ¬ e.length + 1 > 8192 - (join cs).length - 1 := by
      rcases hgood e List.mem_cons_self with rfl | rfl | h
      · simp [dot]; omega
      · simp [dotdot]; omega
      · have := h.2; omega
    obtain ⟨tl1, h1, h1l⟩ := read_ok (join cs) e tl hl hel
    rw [entries, readEntry, if_neg hel, h1, ok_bind, ok_bind]
    dsimp only
    have hd : (join cs ++ 47 :: (e ++ 0 :: tl1)).drop ((join cs).length + 1) = e ++ 0 :: tl1 := by
      rw [← List.drop_drop]; simp
    rw [hd, cstr_ok e tl1 he0, ok_bind]
    by_cases hdot : e = [46] ∨ e = [46, 46]
    · rw [if_pos hdot]
      refine ih t es _ ht hfit ?_ hgood' h1l
      intro n hn
      rcases List.mem_cons.1 (hns n hn) with rfl | h
      · exfalso
        obtain ⟨x, hx⟩ := find_mem hn
        have hg := (hfit.child hx).1
        rcases hdot with h | h
        · exact hg.2.1 h
        · exact hg.2.2.1 h
      · exact h
    · rw [if_neg hdot]
      have hge : GoodName e := by
        rcases hgood e List.mem_cons_self with h | h | h
        · exact absurd (.inl h) hdot
        · exact absurd (.inr h) hdot
        · exact h.1
      have hp : join cs ++ 47 :: (e ++ 0 :: tl1) = join (cs ++ [e]) ++ 0 :: tl1 := by rw [join_snoc]; simp
      have hce : ∀ g ∈ cs ++ [e], GoodName g := by
        intro g hg
        rcases List.mem_append.1 hg with hg | hg
        · exact hcs g hg
        · simp at hg; subst hg; exact hge
      have hp0 : 0 ∉ join (cs ++ [e]) := join_zero (fun g hg => (hce g hg).zero)
      have hcomps : comps (join (cs ++ [e])) = cs ++ [e] := comps_of_join (fun g hg => (hce g hg).clean)
      have hlk : lookup t (cs ++ [e]) = find es e := by
        rw [lookup_append, ht]
        show lookup (.dir es) [e] = _
        rw [lookup]
        cases find es e with
        | none => rfl
        | some x => exact lookup_nil x
      have hcstr : cstr (join cs ++ 47 :: (e ++ 0 :: tl1)) = .ok (join (cs ++ [e])) := by rw [hp]; exact cstr_ok _ _ hp0
      rw [hcstr, ok_bind]
      have hst : (treeSys cwd ls).lstat t (join (cs ++ [e])) = (t, (find es e).map kind) := by
        simp only [treeSys, hcomps, hlk]
      rw [hst]
      dsimp only
      -- the entry is gone, whatever it was
      have hrest : ∀ (t2 : Node) (tl2 : List Nat), t2 = put t cs (.dir (drop es e)) → (join cs ++ 47 :: tl2).length = 8192 →
          ∃ tl', entries (treeSys cwd ls) rec (join cs).length ns t2 (join cs ++ 47 :: tl2) = .ok (put t cs (.dir []), join cs ++ 47 :: tl') ∧
            (join cs ++ 47 :: tl').length = 8192 := by
        intro t2 tl2 ht2 hl2
        subst ht2
        obtain ⟨tl', g1, g2⟩ := ih (put t cs (.dir (drop es e))) (drop es e) tl2 (lookup_put cs t _ _ ht) (hfit.drop e)
          (fun n hn => by
            obtain ⟨h3, h4⟩ := names_drop hn
            rcases List.mem_cons.1 (hns n h3) with h5 | h5
            · exact absurd h5 h4
            · exact h5) hgood' hl2
        rw [put_put] at g1
        exact ⟨tl', g1, g2⟩
      cases hf : find es e with
      | none =>
        refine ih t es _ ht hfit ?_ hgood' h1l
        intro n hn
        rcases List.mem_cons.1 (hns n hn) with rfl | h
        · exfalso
          obtain ⟨x, hx⟩ := find_mem hn
          rw [hf] at hx; cases hx
        · exact h
      | some x =>
        rw [hf] at hlk
        cases x with
        | file =>
          apply hrest _ _ ?_ h1l
          simp only [treeSys, hcomps, hlk]
          exact erase_snoc cs e t es ht
        | link =>
          apply hrest _ _ ?_ h1l
          simp only [treeSys, hcomps, hlk]
          exact erase_snoc cs e t es ht
        | dir ds =>
          simp only [Option.map_some, kind]
          rw [hp]
          have hlen2 : (join (cs ++ [e])).length = (join cs).length + (1 + e.length) := by rw [join_snoc]; simp; omega
          obtain ⟨tl2, k1, k2⟩ := hrec t (cs ++ [e]) ds tl1 hlk (by simp) hce
            (by rw [hlen2, ← Nat.add_assoc]; exact (hfit.child hf).2) (by omega) (by rw [← hp]; exact h1l)
          rw [k1, ok_bind]
          dsimp only
          rw [cstr_ok _ _ hp0, ok_bind]
          have hp2 : join (cs ++ [e]) ++ 0 :: tl2 = join cs ++ 47 :: (e ++ 0 :: tl2) := by rw [join_snoc]; simp
          rw [hp2] at k2 ⊢
          apply hrest _ _ ?_ k2
          have hlk2 := lookup_put (cs ++ [e]) t (.dir []) _ hlk
          simp only [treeSys, hcomps, hlk2]
          rw [if_neg (by simp)]
          have := put_snoc cs e t (.dir []) es ht
          rw [this]
          dsimp only
          rw [erase_snoc cs e _ _ (lookup_put cs t _ _ ht), put_put, drop_upd]

theorem rmRec_tree (cwd : List Nat) (ls : List (List Nat) → List (List Nat)) (E : Env) (hE : E.Good) (hc0 : 0 ∉ cwd)
    (hcwd : cwd.head? = some 47) (hls : ∀ l n, n ∈ ls l ↔ n ∈ l) : ∀ k, Clears cwd (rmRec (treeSys cwd ls) E k) (8192 - k)
  | 0 => by
    intro t cs es tl _ _ _ _ hb hl
    simp at hl hb
    omega
  | k + 1 => by
    intro t cs es tl ht hne hcs hfit hb hl
    have hroot : cwd.length + (join cs).length ≤ 8189 := by
      have := (hfit [] _ (lookup_nil _)).2
      simpa [path] using this
    rw [rmRec, if_neg (by omega), openDir_tree cwd ls E hE hc0 hcwd t cs tl hne hcs hroot, ht, ok_bind]
    dsimp only
    rw [wr_append, ok_bind]
    obtain ⟨tl', g1, g2⟩ := entries_tree cwd ls hcwd (rmRec (treeSys cwd ls) E k) (8192 - k) (rmRec_tree cwd ls E hE hc0 hcwd hls k)
      cs hne hcs (by omega) (ls (dot :: dotdot :: es.map (·.1))) t es tl ht hfit
      (fun n hn => (hls _ n).2 (List.mem_cons_of_mem _ (List.mem_cons_of_mem _ hn)))
      (fun n hn => by
        rcases List.mem_cons.1 ((hls _ n).1 hn) with h | h
        · exact .inl h
        · rcases List.mem_cons.1 h with h | h
          · exact .inr (.inl h)
          · obtain ⟨x, hx⟩ := find_mem h
            obtain ⟨h1, h2⟩ := hfit.child hx
            have := (h2 [] _ (lookup_nil _)).2
            exact .inr (.inr ⟨h1, by simpa [path] using this⟩))
      (by simpa using hl)
    rw [g1, ok_bind]
    dsimp only
    rw [wr_append, ok_bind]
    exact ⟨tl', rfl, by simpa using g2⟩

end Verif.Dir
