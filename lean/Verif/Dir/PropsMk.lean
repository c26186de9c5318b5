import Verif.Dir.MkLemmas
import Verif.Dir.Props

/-!
# C56: creating directories
-/

namespace Verif.Dir
open Spec Verif.Path Verif.Path.Spec

/-- The requests for a directory: its ancestors from the top down, then itself.  (For the root directory, the empty
path.) -/
def requests (cs : List (List Nat)) (mode : Nat) : List Ev :=
  if cs = [] then [.mkdir [] mode] else (List.range cs.length).map (fun i => .mkdir (path (cs.take (i + 1))) mode)

/-- Whatever the system calls answer: a recursive `Mkdir` requests the creation of every ancestor of the absolute name
from the top down, then of the directory itself, with the given mode and nothing else, and answers what the last
request was answered. If the name cannot be used, nothing is requested. -/
theorem mkdir_requests_partial {σ : Type} (S : Sys σ) (E : Env) (hE : E.Good) (hc : CwdOk S) (s : σ) (f rest : List Nat) (hf : 0 ∉ f) (mode : Nat) :
    ∃ s' log ret, mkdir (logged S) E (s, []) (f ++ 0 :: rest) mode true = .ok ((s', log), ret) ∧
      ((log = [] ∧ ret = false) ∨
        ∃ bs cs, (S.cwd s).2 = some bs ∧ Named bs f cs ∧ log = requests cs mode ∧ ∃ s1, S.mkdir s1 (path cs) mode = (s', ret)) := by
  obtain ⟨ok, b, g1, g2, g3⟩ := mkdir_does (logged S) E hE (logged_cwd hc) (s, []) f rest hf mode
  have hcw : (logged S).cwd (s, []) = (((S.cwd s).1, []), (S.cwd s).2) := rfl
  rw [hcw] at g2 g3
  cases ok with
  | false => exact ⟨_, _, _, g2 rfl, .inl ⟨rfl, rfl⟩⟩
  | true =>
    obtain ⟨bs, e1, e2, e3⟩ := g3 rfl
    cases hT : stack bs (slashed f) with
    | nil =>
      have h := e2 hT
      have hn := named_stack bs f
      rw [hT] at hn
      exact ⟨_, _, _, h, .inr ⟨bs, [], e1, hn, rfl, _, rfl⟩⟩
    | cons g cs =>
      have h := e3 g cs hT
      have hn := named_stack bs f
      rw [hT] at hn
      dsimp only at h
      rw [makes_logged] at h
      refine ⟨_, _, _, h, .inr ⟨bs, g :: cs, e1, hn, ?_, _, rfl⟩⟩
      unfold requests
      rw [if_neg (by simp)]
      have := congrArg (List.map (Ev.mkdir · mode)) (calls_eq cs [] g)
      rw [List.map_append, List.map_map] at this
      show [] ++ List.map (Ev.mkdir · mode) (calls [] g cs) ++ [Ev.mkdir (join (g :: cs)) mode] = _
      rw [List.nil_append]
      exact this

/-- `Mkdir("/a/b/c")`. -/
example : requests [[97], [98], [99]] 0o755 =
    [.mkdir [47, 97] 0o755, .mkdir [47, 97, 47, 98] 0o755, .mkdir [47, 97, 47, 98, 47, 99] 0o755] := by decide

/-- The same for a name that the path functions handle as they should (see C43): it is not refused, the requests are
exactly those for its resolved form. -/
theorem mkdir_requests_accepted_partial {σ : Type} (S : Sys σ) (E : Env) (hE : E.Good) (hc : CwdOk S) (s : σ) (cwd f rest : List Nat)
    (mode : Nat) (hs : (S.cwd s).2 = some cwd) (hcwd : cwd.head? = some 47) (hf : Name f) (hu : Usual cwd f)
    (hlen : cwd.length + f.length ≤ 8189) :
    ∃ s' s1 ret, mkdir (logged S) E (s, []) (f ++ 0 :: rest) mode true = .ok ((s', requests (resolve cwd (slashed f)) mode), ret) ∧
      S.mkdir s1 (path (resolve cwd (slashed f))) mode = (s', ret) := by
  obtain ⟨ok, b, f1, _, _, f4, _⟩ := resolvePath_ok (logged S) E hE (logged_cwd hc) (s, []) f rest hf.no_zero
  obtain ⟨ok', b', g1, g2, g3⟩ := mkdir_does (logged S) E hE (logged_cwd hc) (s, []) f rest hf.no_zero mode
  rw [f1] at g1
  cases g1
  have hst := stack_usual hu
  have hpl := resolve_plain cwd (slashed f)
  have hok : ok = true := by
    apply f4 cwd hs hcwd (hf.accepted E.sgn) hlen
    · rw [hst]; exact fun hm => (hpl _ (List.dropLast_subset _ hm)).1 rfl
    · rw [hst]; exact fun hm => (hpl _ (List.dropLast_subset _ hm)).2 rfl
  obtain ⟨bs, e1, e2, e3⟩ := g3 hok
  have e1' : (S.cwd s).2 = some bs := e1
  rw [hs] at e1'
  cases e1'
  rw [hst] at e2 e3
  generalize resolve cwd (slashed f) = T at *
  cases T with
  | nil => exact ⟨_, _, _, e2 rfl, rfl⟩
  | cons g cs =>
    have h := e3 g cs rfl
    have hcw : (logged S).cwd (s, []) = (((S.cwd s).1, []), (S.cwd s).2) := rfl
    rw [hcw] at h
    dsimp only at h
    rw [makes_logged] at h
    have hr : requests (g :: cs) mode = [] ++ List.map (Ev.mkdir · mode) (calls [] g cs) ++ [Ev.mkdir (join (g :: cs)) mode] := by
      have := congrArg (List.map (Ev.mkdir · mode)) (calls_eq cs [] g)
      rw [List.map_append, List.map_map] at this
      unfold requests
      rw [if_neg (by simp), List.nil_append]
      exact this.symm
    rw [hr]
    exact ⟨_, _, _, h, rfl⟩

/-- "x/y" in the directory "/d". -/
example : Name [120, 47, 121] ∧ Usual [47, 100] [120, 47, 121] ∧
    requests (resolve [47, 100] (slashed [120, 47, 121])) 0o700 =
      [.mkdir [47, 100] 0o700, .mkdir [47, 100, 47, 120] 0o700, .mkdir [47, 100, 47, 120, 47, 121] 0o700] :=
  ⟨by decide, (fun _ => ⟨by decide, by decide⟩), by decide⟩

/-- The code disagrees with C56 for the root directory: what is requested is the empty path. -/
theorem mkdir_root_requests_empty {σ : Type} (S : Sys σ) (E : Env) (hE : E.Good) (hc : CwdOk S) (s : σ) (cwd : List Nat)
    (mode : Nat) (hs : (S.cwd s).2 = some cwd) (hcwd : cwd.head? = some 47) (hlen : cwd.length ≤ 8188) :
    ∃ s' ret, mkdir (logged S) E (s, []) [47, 0] mode true = .ok ((s', [.mkdir [] mode]), ret) := by
  have hr : resolve cwd (slashed [47]) = [] := by
    have : slashed [47] = [47] := by decide
    rw [this]
    unfold resolve
    rw [if_pos (by rfl)]
    decide
  obtain ⟨s', _, ret, h, _⟩ := mkdir_requests_accepted_partial S E hE hc s cwd [47] [] mode hs hcwd (by decide)
    (fun h => absurd (by decide) h) (by simp; omega)
  rw [hr] at h
  exact ⟨s', ret, h⟩

/-! ## On a tree -/

theorem lookup_put_mkdir : ∀ (cs : List (List Nat)) (t : Node) (es : List (List Nat × Node)) (c : List Nat), lookup t cs = some (.dir es) →
    find es c = none → ∀ p x, lookup t p = some x →
      ∃ y, lookup (put t cs (.dir (es ++ [(c, .dir [])]))) p = some y ∧ kind y = kind x
  | [], t, es, c, h, hc, p, x, hp => by
    rw [lookup_nil] at h
    cases h
    rw [put_nil]
    cases p with
    | nil => rw [lookup_nil] at hp; cases hp; exact ⟨_, lookup_nil _, rfl⟩
    | cons n p =>
      rw [lookup] at hp ⊢
      cases hf : find es n with
      | none => rw [hf] at hp; cases hp
      | some z =>
        rw [hf] at hp
        have : find (es ++ [(c, .dir [])]) n = some z := by
          clear hp hc
          induction es with
          | nil => cases hf
          | cons e es ih =>
            obtain ⟨m, w⟩ := e
            rw [find] at hf
            rw [List.cons_append, find]
            by_cases hm : m = n
            · rw [if_pos hm] at hf ⊢; exact hf
            · rw [if_neg hm] at hf ⊢; exact ih hf
        rw [this]
        exact ⟨x, hp, rfl⟩
  | d :: cs, .file, es, c, h, _, p, x, hp => by cases h
  | d :: cs, .link, es, c, h, _, p, x, hp => by cases h
  | d :: cs, .dir es', es, c, h, hc, p, x, hp => by
    rw [lookup] at h
    cases hfd : find es' d with
    | none => rw [hfd] at h; cases h
    | some z =>
      rw [hfd] at h
      cases p with
      | nil => rw [lookup_nil] at hp; cases hp; exact ⟨_, lookup_nil _, rfl⟩
      | cons n p =>
        rw [lookup] at hp
        rw [put, lookup, find_upd]
        by_cases hn : n = d
        · subst hn
          rw [hfd] at hp
          rw [if_pos rfl, hfd]
          exact lookup_put_mkdir cs z es c h hc p x hp
        · rw [if_neg hn]
          cases hf : find es' n with
          | none => rw [hf] at hp; cases hp
          | some w =>
            rw [hf] at hp
            exact ⟨x, hp, rfl⟩

theorem find_snoc {es : List (List Nat × Node)} {c : List Nat} (x : Node) (h : find es c = none) : find (es ++ [(c, x)]) c = some x := by
  induction es with
  | nil => simp [find]
  | cons e es ih =>
    obtain ⟨m, w⟩ := e
    rw [find] at h
    rw [List.cons_append, find]
    by_cases hm : m = c
    · rw [if_pos hm] at h; cases h
    · rw [if_neg hm] at h ⊢; exact ih h

theorem lookup_child {t : Node} {cs : List (List Nat)} {es : List (List Nat × Node)} (h : lookup t cs = some (.dir es)) (c : List Nat) :
    lookup t (cs ++ [c]) = find es c := by
  rw [lookup_append, h]
  show lookup (.dir es) [c] = _
  rw [lookup]
  cases find es c with
  | none => rfl
  | some x => exact lookup_nil x

/-- One request on a tree: if the parent is a directory and what is there already (if anything) is a directory, it is
there afterwards; the answer is whether it was made; nothing else changes. -/
theorem tree_mkdir (cwd : List Nat) (ls : List (List Nat) → List (List Nat)) (mode : Nat) (t : Node) (done : List (List Nat)) (c : List Nat)
    (es : List (List Nat × Node)) (hcl : ∀ g ∈ done ++ [c], g ≠ [] ∧ 47 ∉ g) (hp : lookup t done = some (.dir es))
    (hx : ∀ x, lookup t (done ++ [c]) = some x → ∃ es, x = .dir es) :
    ∃ t' ret es', (treeSys cwd ls).mkdir t (join (done ++ [c])) mode = (t', ret) ∧ lookup t' (done ++ [c]) = some (.dir es') ∧
      (ret = true ↔ lookup t (done ++ [c]) = none) ∧ (lookup t (done ++ [c]) = none → es' = []) ∧ (lookup t (done ++ [c]) ≠ none → t' = t) ∧
      ∀ p x, lookup t p = some x → ∃ y, lookup t' p = some y ∧ kind y = kind x := by
  have hcomps := comps_of_join hcl
  have hlk := lookup_child hp c
  simp only [treeSys, hcomps, List.dropLast_concat, hp, List.getLast?_concat]
  cases hf : find es c with
  | none =>
    rw [hf] at hlk
    rw [hlk]
    refine ⟨_, _, [], rfl, ?_, by simp, fun _ => rfl, fun h => absurd rfl h, ?_⟩
    · rw [lookup_child (lookup_put done t _ _ hp), find_snoc _ hf]
    · exact lookup_put_mkdir done t es c hp hf
  | some x =>
    rw [hf] at hlk
    obtain ⟨ds, rfl⟩ := hx x hlk
    rw [hlk]
    exact ⟨_, _, ds, rfl, hlk, by simp, (fun h => nomatch h), fun _ => rfl, fun p x h => ⟨x, h, rfl⟩⟩

theorem tree_makes (cwd : List Nat) (ls : List (List Nat) → List (List Nat)) (mode : Nat) : ∀ (rest done : List (List Nat)) (g : List Nat)
    (t : Node) (es : List (List Nat × Node)), (∀ h ∈ done ++ g :: rest, h ≠ [] ∧ 47 ∉ h) → lookup t done = some (.dir es) →
    (∀ n x, lookup t (done ++ (g :: rest).take n) = some x → ∃ es, x = .dir es) →
    ∃ t' ret es', (treeSys cwd ls).mkdir (makes (treeSys cwd ls) mode t (calls done g rest)) (join (done ++ g :: rest)) mode = (t', ret) ∧
      lookup t' (done ++ g :: rest) = some (.dir es') ∧ (ret = true ↔ lookup t (done ++ g :: rest) = none) ∧
      ∀ p x, lookup t p = some x → ∃ y, lookup t' p = some y ∧ kind y = kind x
  | [], done, g, t, es, hcl, hp, hx => by
    obtain ⟨t', ret, es', h1, h2, h3, h4, _, h5⟩ := tree_mkdir cwd ls mode t done g es hcl hp (hx 1)
    exact ⟨t', ret, es', h1, h2, h3, h5⟩
  | h :: rest, done, g, t, es, hcl, hp, hx => by
    obtain ⟨t1, ret1, es1, h1, h2, _, h4, h6, h5⟩ := tree_mkdir cwd ls mode t done g es
      (fun x hx => hcl x (by
        rcases List.mem_append.1 hx with hx | hx
        · exact List.mem_append_left _ hx
        · exact List.mem_append_right _ (by simp at hx; simp [hx]))) hp (hx 1)
    have e : ∀ r, done ++ [g] ++ r = done ++ g :: r := by intro r; simp
    -- what is further down was there before
    have hback : ∀ a r, lookup t1 (done ++ [g] ++ a :: r) = lookup t (done ++ [g] ++ a :: r) := by
      intro a r
      cases hl : lookup t (done ++ [g]) with
      | none =>
        rw [h4 hl] at h2
        rw [lookup_append (done ++ [g]) _ t1, lookup_append (done ++ [g]) _ t, h2, hl]
        rfl
      | some x => rw [h6 (by rw [hl]; simp)]
    obtain ⟨t', ret, es', k1, k2, k3, k5⟩ := tree_makes cwd ls mode rest (done ++ [g]) h t1 es1 (by rw [e]; exact hcl) h2 (by
      intro n x hlx
      cases n with
      | zero =>
        rw [List.take_zero, List.append_nil, h2] at hlx
        cases hlx
        exact ⟨_, rfl⟩
      | succ n =>
        rw [List.take_succ_cons, hback, e] at hlx
        have := hx (n + 2) x (by rw [List.take_succ_cons, List.take_succ_cons]; exact hlx)
        exact this)
    rw [e] at k1 k2 k3
    refine ⟨t', ret, es', ?_, k2, ?_, ?_⟩
    · rw [calls]
      unfold makes at k1 ⊢
      rw [List.foldl_cons, h1]
      exact k1
    · rw [k3, ← e, hback]
    · intro p x hpx
      obtain ⟨y, y1, y2⟩ := h5 p x hpx
      obtain ⟨z, z1, z2⟩ := k5 p y y1
      exact ⟨z, z1, z2.trans y2⟩

/-- On a file system that is a tree, if no ancestor of the name is a file or link: afterwards the directory exists, the
answer is true exactly if it did not exist before, and everything that was there is still there. -/
theorem mkdir_makes_partial (cwd : List Nat) (ls : List (List Nat) → List (List Nat)) (E : Env) (hE : E.Good)
    (hcwd : cwd.head? = some 47) (hc0 : 0 ∉ cwd) (t : Node) (f rest : List Nat) (mode : Nat)
    (hf : Name f) (hu : Usual cwd f) (hlen : cwd.length + f.length ≤ 8189) (hroot : resolve cwd (slashed f) ≠ [])
    (ht : ∀ n x, lookup t ((resolve cwd (slashed f)).take n) = some x → ∃ es, x = .dir es) :
    ∃ t' ret es, mkdir (treeSys cwd ls) E t (f ++ 0 :: rest) mode true = .ok (t', ret) ∧
      lookup t' (resolve cwd (slashed f)) = some (.dir es) ∧ (ret = true ↔ lookup t (resolve cwd (slashed f)) = none) ∧
      ∀ p x, lookup t p = some x → ∃ y, lookup t' p = some y ∧ kind y = kind x := by
  have hcok : CwdOk (treeSys cwd ls) := fun s p e => by cases e; exact hc0
  obtain ⟨ok, b, g1, _, g3⟩ := mkdir_does (treeSys cwd ls) E hE hcok t f rest hf.no_zero mode
  obtain ⟨ok', b', f1, _, _, f4, _⟩ := resolvePath_ok (treeSys cwd ls) E hE hcok t f rest hf.no_zero
  rw [f1] at g1
  cases g1
  have hst := stack_usual hu
  have hpl := resolve_plain cwd (slashed f)
  have hok : ok = true := by
    apply f4 cwd rfl hcwd (hf.accepted E.sgn) hlen
    · rw [hst]; exact fun hm => (hpl _ (List.dropLast_subset _ hm)).1 rfl
    · rw [hst]; exact fun hm => (hpl _ (List.dropLast_subset _ hm)).2 rfl
  obtain ⟨bs, e1, _, e3⟩ := g3 hok
  cases e1
  have hmem : ∀ g ∈ resolve cwd (slashed f), g ≠ [] ∧ 47 ∉ g := by rw [← hst]; exact fun g hg => stack_mem hg
  rw [hst] at e3
  generalize resolve cwd (slashed f) = T at *
  cases T with
  | nil => exact absurd rfl hroot
  | cons g cs =>
    obtain ⟨es0, he0⟩ := ht 0 t (lookup_nil t)
    obtain ⟨t', ret, es, k1, k2, k3, k4⟩ := tree_makes cwd ls mode cs [] g t es0 hmem (by rw [lookup_nil, he0]) ht
    exact ⟨t', ret, es, by rw [e3 g cs rfl]; exact congrArg Except.ok k1, k2, k3, k4⟩

/-- "x/y" in the directory "/d", where "/d/x" is a directory without y. -/
example : Name [120, 47, 121] ∧ Usual [47, 100] [120, 47, 121] ∧ resolve [47, 100] (slashed [120, 47, 121]) = [[100], [120], [121]] ∧
    ∀ n x, lookup (.dir [([100], .dir [([97], .file), ([120], .dir [])])]) (([[100], [120], [121]] : List (List Nat)).take n) = some x →
      ∃ es, x = .dir es := by
  refine ⟨by decide, (fun _ => ⟨by decide, by decide⟩), by decide, ?_⟩
  intro n x h
  match n with
  | 0 => cases h; exact ⟨_, rfl⟩
  | 1 => cases h; exact ⟨_, rfl⟩
  | 2 => cases h; exact ⟨_, rfl⟩
  | n + 3 => simp [lookup, find] at h

end Verif.Dir
