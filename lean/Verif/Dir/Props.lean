import Verif.Dir.TreeLemmas

/-!
# C55, C56: removing and creating directories
-/

namespace Verif.Dir
open Spec Verif.Path Verif.Path.Spec

theorem stack_usual {bs f : List Nat} (h : Usual bs f) : stack bs (slashed f) = resolve bs (slashed f) :=
  stack_resolve (fun hh => (h hh).1) (fun hh => (h hh).2)

theorem named_stack (bs f : List Nat) : Named bs f (stack bs (slashed f)) := ⟨fun _ h => stack_mem h, stack_usual⟩

/-! ## C55: nothing outside is removed -/

/-- Whatever the system calls answer (the file system may be changed by others all the time): a recursive `Rmdir` does
nothing wrong with its memory, comes to an end, and only asks for the removal of `X`, the absolute name of the directory, and of paths below it
which it reached through directories that it had seen not to be symbolic links. -/
theorem rmdir_inside {σ : Type} (S : Sys σ) (E : Env) (hE : E.Good) (hc : CwdOk S) (hls : ListsOk S) (s : σ) (f rest : List Nat)
    (hf : 0 ∉ f) :
    ∃ s' log ret, rmdir (logged S) E (s, []) (f ++ 0 :: rest) true = .ok ((s', log), ret) ∧
      ((log = [] ∧ ret = false) ∨
        ∃ bs cs, (S.cwd s).2 = some bs ∧ Named bs f cs ∧ ∃ X, X = path cs ∧ OnlyInside X log ∧
          (∃ log', log = log' ++ [.rmdir X]) ∧
          ((∃ k, log.head? = some (.lstat X k) ∧ (k = none ∨ k = some .link → log = [.lstat X k, .rmdir X])))) := by
  obtain ⟨ok, b, g1, g2, g3, g4, g5⟩ := resolvePath_ok (logged S) E hE (logged_cwd hc) (s, []) f rest hf
  have hcw : (logged S).cwd (s, []) = (((S.cwd s).1, []), (S.cwd s).2) := rfl
  rw [hcw] at g1 g3
  unfold rmdir
  rw [g1, ok_bind]
  dsimp only at g3 ⊢
  cases ok with
  | false => exact ⟨(S.cwd s).1, [], false, rfl, .inl ⟨rfl, rfl⟩⟩
  | true =>
    obtain ⟨bs, tl, e1, _, e2, e3⟩ := g3 rfl
    rw [if_neg (by simp), if_pos rfl, e2, cstr_ok _ _ e3, ok_bind]
    rw [e2] at g2
    generalize hX : join (stack bs (slashed f)) = X at e3 g2 ⊢
    have hst : (logged S).lstat ((S.cwd s).1, []) X = (((S.lstat (S.cwd s).1 X).1, [Ev.lstat X (S.lstat (S.cwd s).1 X).2]), (S.lstat (S.cwd s).1 X).2) := rfl
    rw [hst]
    dsimp only
    have hnil : OnlyInside X [] := by
      intro pre ev post p h
      have := congrArg List.length h
      simp at this
    have hone : ∀ k, OnlyInside X [Ev.lstat X k] := by
      intro k
      have := OnlyInside.snoc (ev := Ev.lstat X k) hnil (by rintro p (h | h) <;> cases h)
      exact this
    have hend : ∀ L, OnlyInside X L → OnlyInside X (L ++ [Ev.rmdir X]) := by
      intro L h
      apply OnlyInside.snoc h
      rintro p (h | h)
      · cases h
      · cases h
        exact ⟨[], by simp [path], by simp, by simp⟩
    have hshort : ∀ (k : Option Kind) (s1 : σ), (k = none ∨ k = some .link) →
        ∃ s' log ret, (.ok ((logged S).rmdir (s1, [Ev.lstat X k]) X) : CRes ((σ × List Ev) × Bool)) = .ok ((s', log), ret) ∧
          ((log = [] ∧ ret = false) ∨
            ∃ bs cs, (S.cwd s).2 = some bs ∧ Named bs f cs ∧ ∃ X, X = path cs ∧ OnlyInside X log ∧
              (∃ log', log = log' ++ [.rmdir X]) ∧
              ((∃ k, log.head? = some (.lstat X k) ∧ (k = none ∨ k = some .link → log = [.lstat X k, .rmdir X])))) := by
      intro k s1 hk
      exact ⟨_, _, _, rfl, .inr ⟨bs, _, e1, named_stack bs f, X, hX.symm, hend _ (hone k), ⟨_, rfl⟩, ⟨k, rfl, fun _ => rfl⟩⟩⟩
    have hlong : ∀ (k : Kind) (s1 : σ), k ≠ .link →
        ∃ s' log ret, (do
            let (s, b) ← rmRec (logged S) E 8192 (s1, [Ev.lstat X (some k)]) (X ++ 0 :: tl) X.length
            let p ← cstr b
            .ok ((logged S).rmdir s p) : CRes ((σ × List Ev) × Bool)) = .ok ((s', log), ret) ∧
          ((log = [] ∧ ret = false) ∨
            ∃ bs cs, (S.cwd s).2 = some bs ∧ Named bs f cs ∧ ∃ X, X = path cs ∧ OnlyInside X log ∧
              (∃ log', log = log' ++ [.rmdir X]) ∧
              ((∃ k, log.head? = some (.lstat X k) ∧ (k = none ∨ k = some .link → log = [.lstat X k, .rmdir X])))) := by
      intro k s1 hk
      have hr : Reached X [] [Ev.lstat X (some k)] := by
        refine ⟨by simp, ?_⟩
        intro n hn
        have : n = 0 := by simpa using hn
        subst this
        exact ⟨k, by simp [path], hk, fun h => absurd h (Nat.lt_irrefl 0)⟩
      obtain ⟨s', L', tl', k1, k2, k3⟩ := rmRec_safe S E hE hc hls X 8192 s1 [Ev.lstat X (some k)] [] tl
        (by simpa using e3) (by simpa using g2) (by simp) hr (hone _)
      simp only [join_nil, List.append_nil] at k1
      rw [k1, ok_bind]
      dsimp only
      rw [cstr_ok _ _ e3, ok_bind]
      refine ⟨_, _, _, rfl, .inr ⟨bs, _, e1, named_stack bs f, X, hX.symm, hend _ k3, ⟨_, rfl⟩, ⟨some k, rfl, ?_⟩⟩⟩
      rintro (h | h)
      · cases h
      · cases h
        exact absurd rfl hk
    cases hk : (S.lstat (S.cwd s).1 X).2 with
    | none =>
      dsimp only
      rw [ok_bind, hst, hk]
      exact hshort none _ (.inl rfl)
    | some k =>
      cases k with
      | link =>
        dsimp only
        rw [ok_bind, hst, hk]
        exact hshort (some .link) _ (.inr rfl)
      | dir => exact hlong .dir _ (by simp)
      | other => exact hlong .other _ (by simp)

/-! ## C55: everything inside is removed -/

/-- On a file system that is a tree, if names are good and paths short enough: the directory is removed with everything below it, nothing
else changes (the result is the tree without the node), and the answer is true.  Links inside are removed, not followed.
(For other names this fails: see `rmdir_leaves`.) -/
theorem rmdir_removes_partial (cwd : List Nat) (ls : List (List Nat) → List (List Nat)) (E : Env) (hE : E.Good)
    (hcwd : cwd.head? = some 47) (hc0 : 0 ∉ cwd) (hls : ∀ l n, n ∈ ls l ↔ n ∈ l) (t : Node) (f rest : List Nat) (es : List (List Nat × Node))
    (hf : Name f) (hu : Usual cwd f) (hlen : cwd.length + f.length ≤ 8189)
    (hroot : resolve cwd (slashed f) ≠ []) (hgood : ∀ g ∈ resolve cwd (slashed f), GoodName g)
    (ht : lookup t (resolve cwd (slashed f)) = some (.dir es))
    (hfit : Fits (cwd.length + (path (resolve cwd (slashed f))).length) (.dir es)) :
    rmdir (treeSys cwd ls) E t (f ++ 0 :: rest) true = .ok (erase t (resolve cwd (slashed f)), true) := by
  obtain ⟨ok, b, g1, g2, g3, g4, g5⟩ := resolvePath_ok (treeSys cwd ls) E hE (fun s p e => by cases e; exact hc0) t f rest hf.no_zero
  have hst := stack_usual hu
  generalize hT : resolve cwd (slashed f) = T at *
  have hok : ok = true := by
    apply g4 cwd rfl hcwd (hf.accepted E.sgn) hlen
    · rw [hst]; exact fun hm => (hgood _ (List.dropLast_subset _ hm)).2.1 rfl
    · rw [hst]; exact fun hm => (hgood _ (List.dropLast_subset _ hm)).2.2.1 rfl
  subst hok
  obtain ⟨bs, tl, e1, _, e2, e3⟩ := g3 rfl
  cases e1
  rw [hst] at e2 e3
  have hcomps : comps (join T) = T := comps_of_join (fun g hg => (hgood g hg).clean)
  unfold rmdir
  rw [g1, ok_bind]
  dsimp only
  rw [if_neg (by simp), if_pos rfl, e2, cstr_ok _ _ e3, ok_bind]
  have hstat : ∀ t', (treeSys cwd ls).lstat t' (join T) = (t', (lookup t' T).map kind) := by
    intro t'
    simp only [treeSys, hcomps]
  have hcw : ((treeSys cwd ls).cwd t).1 = t := rfl
  rw [hcw, hstat, ht]
  simp only [Option.map_some, kind]
  obtain ⟨tl', k1, k2⟩ := rmRec_tree cwd ls E hE hc0 hcwd hls 8192 t T es tl ht hroot hgood hfit (by omega) (by rw [← e2]; exact g2)
  rw [k1, ok_bind]
  dsimp only
  rw [cstr_ok _ _ e3, ok_bind]
  have hlk := lookup_put T t (.dir []) _ ht
  simp only [treeSys, hcomps, hlk]
  rw [if_neg hroot]
  congr 2
  rcases List.eq_nil_or_concat T with h | ⟨p, c, h⟩
  · exact absurd h hroot
  · rw [List.concat_eq_append] at h
    subst h
    -- the parent is a directory
    have hpar : ∃ ps, lookup t p = some (.dir ps) := by
      rw [lookup_append] at ht
      cases hp : lookup t p with
      | none => rw [hp] at ht; cases ht
      | some x =>
        cases x with
        | dir ps => exact ⟨ps, rfl⟩
        | file => rw [hp] at ht; cases ht
        | link => rw [hp] at ht; cases ht
    obtain ⟨ps, hps⟩ := hpar
    rw [put_snoc p c t _ ps hps, erase_snoc p c _ _ (lookup_put p t _ _ hps), put_put, drop_upd, erase_snoc p c t ps hps]

/-- What it means to remove the node at a path: it is gone, and every path that does not lead through it or to a directory
above it leads to what it led to before. -/
theorem erase_is_removal : ∀ (cs : List (List Nat)) (t : Node), cs ≠ [] →
    lookup (erase t cs) cs = none ∧ ∀ p, ¬ p <+: cs → ¬ cs <+: p → lookup (erase t cs) p = lookup t p
  | [], t, h => absurd rfl h
  | c :: cs, .file, _ => by
    have : erase .file (c :: cs) = .file := by cases cs <;> rfl
    rw [this]
    exact ⟨rfl, fun p _ _ => rfl⟩
  | c :: cs, .link, _ => by
    have : erase .link (c :: cs) = .link := by cases cs <;> rfl
    rw [this]
    exact ⟨rfl, fun p _ _ => rfl⟩
  | [c], .dir es, _ => by
    refine ⟨by rw [erase, lookup, find_drop, if_pos rfl], ?_⟩
    intro p h1 h2
    cases p with
    | nil => exact absurd (List.nil_prefix) h1
    | cons a p =>
      have hac : a ≠ c := by
        rintro rfl
        exact h2 (List.cons_prefix_cons.2 ⟨rfl, List.nil_prefix⟩)
      rw [erase, lookup, lookup, find_drop, if_neg hac]
  | c :: d :: cs, .dir es, _ => by
    refine ⟨?_, ?_⟩
    · rw [erase, lookup, find_upd, if_pos rfl]
      cases find es c with
      | none => rfl
      | some x => exact (erase_is_removal (d :: cs) x (by simp)).1
    · intro p h1 h2
      cases p with
      | nil => exact absurd (List.nil_prefix) h1
      | cons a p =>
        rw [erase, lookup, lookup, find_upd]
        by_cases hac : a = c
        · subst hac
          rw [if_pos rfl]
          cases find es a with
          | none => rfl
          | some x =>
            exact (erase_is_removal (d :: cs) x (by simp)).2 p (fun h => h1 (List.cons_prefix_cons.2 ⟨rfl, h⟩))
              (fun h => h2 (List.cons_prefix_cons.2 ⟨rfl, h⟩))
        · rw [if_neg hac]

/-- `Rmdir("d")` in the root directory, where d contains a file, a link and a directory with a file. -/
example : Name [100] ∧ Usual [47] [100] ∧ resolve [47] (slashed [100]) = [[100]] ∧ GoodName [100] ∧
    lookup (.dir [([97], .file), ([100], .dir [([98], .file), ([99], .link), ([101], .dir [([102], .file)])])]) [[100]] =
      some (.dir [([98], .file), ([99], .link), ([101], .dir [([102], .file)])]) := by
  refine ⟨by decide, ?_, by decide, ?_, rfl⟩
  · intro _; exact ⟨by decide, by decide⟩
  · exact ⟨by decide, by decide, by decide, by decide⟩

/-- The condition on the tree, for a directory with a file and a link. -/
example : Fits 3 (.dir [([98], .file), ([99], .link)]) := by
  have hb : GoodName [98] := ⟨by decide, by decide, by decide, by decide⟩
  have hc : GoodName [99] := ⟨by decide, by decide, by decide, by decide⟩
  intro p x h
  cases p with
  | nil => exact ⟨by simp, by simp [path]⟩
  | cons n p =>
    rw [lookup, find] at h
    by_cases h1 : [98] = n
    · subst h1
      cases p with
      | nil => exact ⟨by simpa using hb, by simp [path]⟩
      | cons m p => cases h
    · rw [if_neg h1, find] at h
      by_cases h2 : [99] = n
      · subst h2
        cases p with
        | nil => exact ⟨by simpa using hc, by simp [path]⟩
        | cons m p => cases h
      · rw [if_neg h2] at h; cases h

theorem entries_skip {σ : Type} (S : Sys σ) (rec : σ → List Nat → Nat → CRes (σ × List Nat)) (D e : List Nat) (ns : List (List Nat)) (s : σ)
    (tl : List Nat) (he : e = dot ∨ e = dotdot) (hl : (D ++ 47 :: tl).length = 8192) (hfit : ¬ e.length + 1 > 8192 - D.length - 1)
    (tl' : List Nat) (h : memcpyTo (D ++ 47 :: tl) (D.length + 1) (e ++ [0]) (e.length + 1) = .ok (D ++ 47 :: (e ++ 0 :: tl'))) :
    entries S rec D.length (e :: ns) s (D ++ 47 :: tl) = entries S rec D.length ns s (D ++ 47 :: (e ++ 0 :: tl')) := by
  have hd : (D ++ 47 :: (e ++ 0 :: tl')).drop (D.length + 1) = e ++ 0 :: tl' := by
    rw [← List.drop_drop]; simp
  have h0 : 0 ∉ e := by rcases he with rfl | rfl <;> decide
  rw [entries, readEntry, if_neg hfit, h, ok_bind, ok_bind]
  dsimp only
  rw [hd, cstr_ok e tl' h0, ok_bind, if_pos (show e = [46] ∨ e = [46, 46] from he)]

/-- The disagreement: the entries are found with `readdir`, but a subdirectory is opened by a name that has to pass
`GetPlatformFilename`.  If it is not accepted (because of a character that Windows does not like or, where `char` is
signed, of any non-ASCII character), nothing in it is removed, so the tree stays. -/
theorem rmdir_leaves (E : Env) (hE : E.Good) (e x : List Nat) (y : Node) (he : e ≠ []) (h47 : 47 ∉ e) (h0 : 0 ∉ e)
    (hd1 : e ≠ dot) (hd2 : e ≠ dotdot) (hlen : e.length ≤ 255) (hbad : (∃ c ∈ e, Forbidden c) ∨ (E.sgn = true ∧ ∃ c ∈ e, 0x80 ≤ c)) :
    rmdir (treeSys [47] id) E (.dir [([100], .dir [(e, .dir [(x, y)])])]) [47, 100, 0] true =
      .ok (.dir [([100], .dir [(e, .dir [(x, y)])])], false) := by
  generalize ht : Node.dir [([100], .dir [(e, .dir [(x, y)])])] = t
  have hT : ∀ t : Node, CwdOk (treeSys [47] id) := fun _ s p h => by cases h; decide
  -- the name itself
  have hname : Name [47, 100] := by decide
  obtain ⟨ok, b, g1, g2, g3, g4, g5⟩ := resolvePath_ok (treeSys [47] id) E hE (hT t) t [47, 100] [] (by decide)
  have hst : stack [47] (slashed [47, 100]) = [[100]] := by decide
  have hok : ok = true := by
    apply g4 [47] rfl rfl (hname.accepted E.sgn) (by decide)
    · rw [hst]; decide
    · rw [hst]; decide
  subst hok
  obtain ⟨bs, tl, e1, _, e2, e3⟩ := g3 rfl
  cases e1
  rw [hst] at e2
  have e2 : b = [47, 100] ++ 0 :: tl := e2
  have hcs : ∀ tl, cstr ([47, 100] ++ 0 :: tl) = .ok [47, 100] := fun tl => cstr_ok _ _ (by decide)
  have hcp : comps [47, 100] = [[100]] := by decide
  have hlk : lookup t [[100]] = some (.dir [(e, .dir [(x, y)])]) := by rw [← ht]; rfl
  have hrm : (treeSys [47] id).rmdir t [47, 100] = (t, false) := by simp only [treeSys, hcp, hlk]
  -- the subdirectory cannot be opened
  have hgood : ∀ c ∈ [47, 100] ++ 47 :: e, c ≠ 0 := by
    intro c hc h
    subst h
    simp at hc
    exact h0 hc
  have hsub : ∀ k tl, rmRec (treeSys [47] id) E (k + 1) t ([47, 100] ++ 47 :: e ++ 0 :: tl) ([47, 100] ++ 47 :: e).length =
      .ok (t, [47, 100] ++ 47 :: e ++ 0 :: tl) := by
    intro k tl
    obtain ⟨ok, b, f1, _, _, _, f5⟩ := resolvePath_ok (treeSys [47] id) E hE (hT t) t ([47, 100] ++ 47 :: e) tl (fun h => hgood 0 h rfl)
    have hno : ok = false := by
      cases ok with
      | false => rfl
      | true =>
        obtain ⟨_, _, _, a4, a5⟩ := f5 rfl
        exfalso
        rcases hbad with ⟨c, hc, hf⟩ | ⟨hs, c, hc, hf⟩
        · exact a4 c (List.mem_append_right _ (List.mem_cons_of_mem _ hc)) hf
        · have := a5 hs c (List.mem_append_right _ (List.mem_cons_of_mem _ hc))
          omega
    subst hno
    rw [rmRec, if_neg (by simp; omega), openDir, f1, ok_bind]
    dsimp only
    rw [if_pos (by simp), ok_bind]
    rfl
  have hcomps : comps ([47, 100] ++ 47 :: e) = [[100], e] := by
    have := comps_of_join (cs := [[100], e]) (by
      intro g hg
      simp at hg
      rcases hg with rfl | rfl
      · decide
      · exact ⟨he, h47⟩)
    simpa using this
  have hlk2 : lookup t [[100], e] = some (.dir [(x, y)]) := by
    rw [← ht, lookup, find, if_pos rfl]
    dsimp only
    rw [lookup, find, if_pos rfl]
    rfl
  unfold rmdir
  rw [show ([47, 100, 0] : List Nat) = [47, 100] ++ 0 :: [] from rfl, g1, ok_bind]
  dsimp only
  rw [if_neg (by simp), if_pos rfl, e2, hcs, ok_bind]
  have hcw : ((treeSys [47] id).cwd t).1 = t := rfl
  have hstat : (treeSys [47] id).lstat t [47, 100] = (t, some .dir) := by simp only [treeSys, hcp, hlk]; rfl
  rw [hcw, hstat]
  dsimp only
  rw [show (8192 : Nat) = 8190 + 1 + 1 from rfl, rmRec, if_neg (by simp)]
  have hopen := openDir_tree [47] id E hE (by decide) rfl t [[100]] tl (by simp) (by
    intro g hg
    simp at hg
    subst hg
    exact ⟨by decide, by decide, by decide, by decide⟩) (by decide)
  rw [hlk] at hopen
  dsimp only [id, List.map] at hopen
  rw [show join [[100]] = [47, 100] from rfl] at hopen
  rw [hopen, ok_bind]
  dsimp only
  have hw : ∀ (tl : List Nat) (z v : Nat), wr ([47, 100] ++ z :: tl) ([47, 100] : List Nat).length v = .ok ([47, 100] ++ v :: tl) := fun tl z v => wr_append [47, 100] tl z v
  rw [hw, ok_bind]
  have hl2 : ([47, 100] ++ 47 :: tl).length = 8192 := by rw [e2] at g2; simpa using g2
  -- "." and ".."
  obtain ⟨tl1, r1, r1l⟩ := read_ok [47, 100] dot tl hl2 (by decide)
  rw [entries_skip _ _ [47, 100] dot _ t tl (.inl rfl) hl2 (by decide) _ r1]
  obtain ⟨tl2, r2, r2l⟩ := read_ok [47, 100] dotdot _ r1l (by decide)
  rw [entries_skip _ _ [47, 100] dotdot _ t _ (.inr rfl) r1l (by decide) _ r2]
  -- the subdirectory
  have hfit : ¬ e.length + 1 > 8192 - ([47, 100] : List Nat).length - 1 := by simp; omega
  obtain ⟨tl3, r3, r3l⟩ := read_ok [47, 100] e _ r2l hfit
  have hd : ([47, 100] ++ 47 :: (e ++ 0 :: tl3)).drop (([47, 100] : List Nat).length + 1) = e ++ 0 :: tl3 := rfl
  rw [entries, readEntry, if_neg hfit, r3, ok_bind, ok_bind]
  dsimp only
  rw [hd, cstr_ok e tl3 h0, ok_bind, if_neg (by rintro (h | h); exact hd1 h; exact hd2 h)]
  have hp : [47, 100] ++ 47 :: (e ++ 0 :: tl3) = [47, 100] ++ 47 :: e ++ 0 :: tl3 := by simp
  rw [hp, cstr_ok _ _ (fun h => hgood 0 h rfl), ok_bind]
  have hstat2 : (treeSys [47] id).lstat t ([47, 100] ++ 47 :: e) = (t, some .dir) := by simp only [treeSys, hcomps, hlk2]; rfl
  rw [hstat2]
  dsimp only
  rw [hsub, ok_bind]
  dsimp only
  rw [cstr_ok _ _ (fun h => hgood 0 h rfl), ok_bind]
  have hrm2 : (treeSys [47] id).rmdir t ([47, 100] ++ 47 :: e) = (t, false) := by simp only [treeSys, hcomps, hlk2]
  rw [hrm2, entries, ok_bind]
  dsimp only
  rw [← hp, hw, ok_bind, ok_bind]
  dsimp only
  rw [hcs, ok_bind, hrm]

end Verif.Dir
