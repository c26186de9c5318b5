import Verif.Dir.ExactLemmas
import Verif.Dir.Props

/-!
# C55: exactly what a recursive removal removes

Every tree whose names a POSIX file system can have (no backslashes) and whose paths are short enough, with the entries listed
in any order.
-/

namespace Verif.Dir
open Spec Verif.Path Verif.Path.Spec

open Classical in
/-- A name that is not accepted is refused, and nothing is removed.  Otherwise the entries are removed as far as directories can be
opened by their names (`remains`); if nothing is left the directory itself is removed, nothing else changes, and the
answer is true, otherwise what is left stays in it and the answer is false. -/
theorem rmdir_exact (cwd : List Nat) (ls : List (List Nat) → List (List Nat)) (E : Env) (hE : E.Good)
    (hcwd : cwd.head? = some 47) (hc0 : 0 ∉ cwd) (hls : ∀ l, (ls l).Perm l) (t : Node) (f rest : List Nat) (es : List (List Nat × Node))
    (hf : 0 ∉ f) (hu : Usual cwd f) (hlen : cwd.length + f.length ≤ 8189)
    (hroot : resolve cwd (slashed f) ≠ []) (hreal : ∀ g ∈ resolve cwd (slashed f), Real g)
    (ht : lookup t (resolve cwd (slashed f)) = some (.dir es))
    (hfit : Proper (cwd.length + (path (resolve cwd (slashed f))).length) (.dir es)) :
    rmdir (treeSys cwd ls) E t (f ++ 0 :: rest) true = .ok (
      if Accepted E.sgn 8192 f then
        match (if ∀ g ∈ resolve cwd (slashed f), Opens E.sgn g then remains E.sgn es else es) with
        | [] => (erase t (resolve cwd (slashed f)), true)
        | d :: r => (put t (resolve cwd (slashed f)) (.dir (d :: r)), false)
      else (t, false)) := by
  obtain ⟨ok, b, g1, g2, g3, g4, g5⟩ := resolvePath_ok (treeSys cwd ls) E hE (fun s p e => by cases e; exact hc0) t f rest hf
  have hst := stack_usual hu
  generalize hT : resolve cwd (slashed f) = T at *
  by_cases hacc : Accepted E.sgn 8192 f
  · rw [if_pos hacc]
    have hok : ok = true := by
      apply g4 cwd rfl hcwd hacc hlen
      · rw [hst]; exact fun hm => (hreal _ (List.dropLast_subset _ hm)).2.1 rfl
      · rw [hst]; exact fun hm => (hreal _ (List.dropLast_subset _ hm)).2.2.1 rfl
    subst hok
    obtain ⟨bs, tl, e1, _, e2, e3⟩ := g3 rfl
    cases e1
    rw [hst] at e2 e3
    have hcomps : comps (join T) = T := comps_of_join (fun g hg => (hreal g hg).clean)
    unfold rmdir
    rw [g1, ok_bind]
    dsimp only
    rw [if_neg (by simp), if_pos rfl, e2, cstr_ok _ _ e3, ok_bind]
    have hstat : ∀ t', (treeSys cwd ls).lstat t' (join T) = (t', (lookup t' T).map kind) := by
      intro t'
      simp only [treeSys, hcomps]
    have hcw : ((treeSys cwd ls).cwd t).1 = t := rfl
    rw [hcw, hstat, ht]
    simp only [Option.map_some, kind]
    obtain ⟨tl', k1, k2⟩ := rmRec_exact cwd ls E hE hc0 hcwd hls 8192 t T es tl ht hroot hreal hfit (by omega) (by rw [← e2]; exact g2)
    rw [k1, ok_bind]
    dsimp only
    rw [cstr_ok _ _ e3, ok_bind]
    generalize (if ∀ g ∈ T, Opens E.sgn g then remains E.sgn es else es) = es'
    have hlk := lookup_put T t (.dir es') _ ht
    cases es' with
    | cons d r => simp only [treeSys, hcomps, hlk]
    | nil =>
      simp only [treeSys, hcomps, hlk]
      rw [if_neg hroot]
      congr 2
      rcases List.eq_nil_or_concat T with h | ⟨p, c, h⟩
      · exact absurd h hroot
      · rw [List.concat_eq_append] at h
        subst h
        have hpar : ∃ ps, lookup t p = some (.dir ps) := by
          rw [lookup_append] at ht
          cases hp : lookup t p with
          | none => rw [hp] at ht; cases ht
          | some x =>
            cases x with
            | dir ps => exact ⟨ps, rfl⟩
            | file => rw [hp] at ht; cases ht
            | link => rw [hp] at ht; cases ht
        obtain ⟨ps, hps⟩ := hpar
        rw [put_snoc p c t _ ps hps, erase_snoc p c _ _ (lookup_put p t _ _ hps), put_put, drop_upd, erase_snoc p c t ps hps]
  · rw [if_neg hacc]
    have hok : ok = false := by
      cases ok with
      | false => rfl
      | true => exact absurd (g5 rfl) hacc
    subst hok
    unfold rmdir
    rw [g1, ok_bind]
    rfl

theorem find_of_mem {es : List (List Nat × Node)} {n : List Nat} {x : Node} (hn : (es.map (·.1)).Nodup) (h : (n, x) ∈ es) :
    find es n = some x := by
  induction es with
  | nil => cases h
  | cons e es ih =>
    obtain ⟨m, y⟩ := e
    rw [List.map_cons, List.nodup_cons] at hn
    rcases List.mem_cons.1 h with h | h
    · cases h; rw [find, if_pos rfl]
    · have : m ≠ n := by
        rintro rfl
        exact hn.1 (List.mem_map.2 ⟨_, h, rfl⟩)
      rw [find, if_neg this]
      exact ih hn.2 h

theorem mem_of_find {es : List (List Nat × Node)} {n : List Nat} {x : Node} (h : find es n = some x) : (n, x) ∈ es := by
  induction es with
  | nil => cases h
  | cons e es ih =>
    obtain ⟨m, y⟩ := e
    rw [find] at h
    split at h
    · next hm => cases h; subst hm; exact List.mem_cons_self
    · exact List.mem_cons_of_mem _ (ih h)

/-- Nothing is left exactly if every directory that is not empty is reached by names that can be opened. -/
theorem remains_nil_iff (sgn : Bool) : ∀ (es : List (List Nat × Node)) (len : Nat), Proper len (.dir es) →
    (remains sgn es = [] ↔ ∀ p d r, lookup (.dir es) p = some (.dir (d :: r)) → ∀ n ∈ p, Opens sgn n) := by
  intro es
  induction hk : sizeOf es using Nat.strong_induction_on generalizing es with
  | _ k IH =>
    intro len hp
    have hnd := (hp.2 [] es (lookup_nil _)).1
    have hl : ∀ n ds, (n, Node.dir ds) ∈ es → (remains sgn ds = [] ↔ ∀ p d r, lookup (.dir ds) p = some (.dir (d :: r)) → ∀ n ∈ p, Opens sgn n) := by
      intro n ds hm
      have h1 := List.sizeOf_lt_of_mem hm
      have h2 : sizeOf (n, Node.dir ds) = 1 + sizeOf n + sizeOf (Node.dir ds) := rfl
      have h3 : sizeOf (Node.dir ds) = 1 + sizeOf ds := by simp
      exact IH (sizeOf ds) (by omega) ds rfl _ (hp.child (find_of_mem hnd hm))
    rw [remains_eq, List.filterMap_eq_nil_iff]
    constructor
    · intro h p d r hlk n hn
      cases p with
      | nil => cases hn
      | cons m p =>
        rw [lookup] at hlk
        cases hf : find es m with
        | none => rw [hf] at hlk; cases hlk
        | some x =>
          rw [hf] at hlk
          dsimp only at hlk
          have hm := mem_of_find hf
          have h1 := h _ hm
          cases x with
          | file => cases p <;> cases hlk
          | link => cases p <;> cases hlk
          | dir ds =>
            have h2 : left sgn m (.dir ds) = none := by
              unfold left1 at h1
              exact Option.map_eq_none_iff.1 h1
            rw [left] at h2
            by_cases ho : Opens sgn m
            · rw [if_pos ho] at h2
              rcases List.mem_cons.1 hn with rfl | hn
              · exact ho
              · refine (hl m ds hm).1 ?_ p d r hlk n hn
                cases hr : remains sgn ds with
                | nil => rfl
                | cons a b => rw [hr] at h2; cases h2
            · exfalso
              rw [if_neg ho] at h2
              cases ds with
              | cons a b => cases h2
              | nil =>
                cases p with
                | nil => cases hlk
                | cons c p => cases hlk
    · rintro h ⟨n, x⟩ hm
      have hf := find_of_mem hnd hm
      unfold left1
      rw [Option.map_eq_none_iff]
      cases x with
      | file => rfl
      | link => rfl
      | dir ds =>
        dsimp only
        rw [left]
        by_cases ho : Opens sgn n
        · rw [if_pos ho]
          have : remains sgn ds = [] := by
            rw [hl n ds hm]
            intro p d r hlk g hg
            exact h (n :: p) d r (by rw [lookup, hf]; exact hlk) g (List.mem_cons_of_mem _ hg)
          rw [this]
        · rw [if_neg ho]
          cases ds with
          | nil => rfl
          | cons a b =>
            exact absurd (h [n] a b (by rw [lookup, hf]; rfl) n List.mem_cons_self) ho

/-- The whole tree is removed exactly if the name is accepted and every directory in the tree that is not empty has a path of
names that the library can open.  In every other case the answer is false. -/
theorem rmdir_all_iff (cwd : List Nat) (ls : List (List Nat) → List (List Nat)) (E : Env) (hE : E.Good)
    (hcwd : cwd.head? = some 47) (hc0 : 0 ∉ cwd) (hls : ∀ l, (ls l).Perm l) (t : Node) (f rest : List Nat) (es : List (List Nat × Node))
    (hf : 0 ∉ f) (hu : Usual cwd f) (hlen : cwd.length + f.length ≤ 8189)
    (hroot : resolve cwd (slashed f) ≠ []) (hreal : ∀ g ∈ resolve cwd (slashed f), Real g)
    (ht : lookup t (resolve cwd (slashed f)) = some (.dir es))
    (hfit : Proper (cwd.length + (path (resolve cwd (slashed f))).length) (.dir es)) :
    ∃ t' done, rmdir (treeSys cwd ls) E t (f ++ 0 :: rest) true = .ok (t', done) ∧
      (done = true → t' = erase t (resolve cwd (slashed f))) ∧
      (done = true ↔ Accepted E.sgn 8192 f ∧
        ∀ p d r, lookup (.dir es) p = some (.dir (d :: r)) → ∀ n ∈ resolve cwd (slashed f) ++ p, Opens E.sgn n) := by
  classical
  have hx := rmdir_exact cwd ls E hE hcwd hc0 hls t f rest es hf hu hlen hroot hreal ht hfit
  have hrem := remains_nil_iff E.sgn es _ hfit
  generalize resolve cwd (slashed f) = T at *
  by_cases hacc : Accepted E.sgn 8192 f
  · rw [if_pos hacc] at hx
    by_cases ho : ∀ g ∈ T, Opens E.sgn g
    · rw [if_pos ho] at hx
      have : (∀ p d r, lookup (.dir es) p = some (.dir (d :: r)) → ∀ n ∈ T ++ p, Opens E.sgn n) ↔ remains E.sgn es = [] := by
        rw [hrem]
        constructor
        · intro h p d r hl n hn
          exact h p d r hl n (List.mem_append_right _ hn)
        · intro h p d r hl n hn
          rcases List.mem_append.1 hn with hn | hn
          · exact ho n hn
          · exact h p d r hl n hn
      rw [this]
      cases hr : remains E.sgn es with
      | nil =>
        rw [hr] at hx
        exact ⟨_, _, hx, fun _ => rfl, fun _ => ⟨hacc, rfl⟩, fun _ => rfl⟩
      | cons a b =>
        rw [hr] at hx
        exact ⟨_, _, hx, (fun h => nomatch h), (fun h => nomatch h), (fun h => nomatch h.2)⟩
    · rw [if_neg ho] at hx
      cases es with
      | nil =>
        refine ⟨_, _, hx, fun _ => rfl, fun _ => ⟨hacc, ?_⟩, fun _ => rfl⟩
        intro p d r hl
        cases p with
        | nil => cases hl
        | cons c p => cases hl
      | cons a b =>
        refine ⟨_, _, hx, (fun h => nomatch h), (fun h => nomatch h), fun h => ?_⟩
        exact absurd (fun g hg => h.2 [] a b (lookup_nil _) g (by simpa using hg)) ho
  · rw [if_neg hacc] at hx
    exact ⟨_, _, hx, (fun h => nomatch h), (fun h => nomatch h), fun h => absurd h.1 hacc⟩

/-- The names "é" (UTF-8) and "a?b": a directory with the first can be opened where `char` is unsigned only, one with the
second nowhere. -/
example : Opens false [195, 169] ∧ ¬ Opens true [195, 169] ∧ ∀ sgn, ¬ Opens sgn [97, 63, 98] := by
  refine ⟨⟨⟨[233], by decide, by decide⟩, by decide, by decide⟩, fun h => ?_, fun sgn h => ?_⟩
  · exact absurd (h.2.2 rfl 195 (by decide)) (by decide)
  · exact h.2.1 63 (by decide) (by decide)

/-- A directory with a file, a directory "a?b" that is empty and a directory "c" with a directory "a?b" holding a link: only the way to
that link is left. -/
example (sgn : Bool) : remains sgn [([120], .file), ([97, 63, 98], .dir []), ([99], .dir [([121], .file), ([97, 63, 98], .dir [([122], .link)])])] =
    [([99], .dir [([97, 63, 98], .dir [([122], .link)])])] := by
  have h1 : ¬ Opens sgn [97, 63, 98] := fun h => h.2.1 63 (by decide) (by decide)
  have h2 : Opens sgn [99] := ⟨⟨[99], by decide, by decide⟩, by decide, fun _ => by decide⟩
  simp [remains, h1, h2]

/-- The hypotheses hold for `Rmdir("d")` in the root directory, where d contains a directory "é" with a file. -/
example : Usual [47] [100] ∧ resolve [47] (slashed [100]) = [[100]] ∧ Real [100] ∧ Accepted true 8192 [100] ∧
    Proper 3 (.dir [([195, 169], .dir [([120], .file)])]) := by
  refine ⟨fun _ => ⟨by decide, by decide⟩, by decide, by unfold Real; decide, (show Name [100] by decide).accepted true, ?_, ?_⟩
  · intro p x h
    match p, h with
    | [], _ => simp [path]
    | [n], h =>
      rw [lookup, find] at h
      by_cases h1 : [195, 169] = n
      · subst h1; simp [path]
      · rw [if_neg h1] at h; cases h
    | n :: m :: q, h =>
      rw [lookup, find] at h
      by_cases h1 : [195, 169] = n
      · subst h1
        rw [if_pos rfl] at h
        dsimp only at h
        rw [lookup, find] at h
        by_cases h2 : [120] = m
        · subst h2
          cases q with
          | nil => simp [path]
          | cons a q => cases h
        · rw [if_neg h2] at h; cases h
      · rw [if_neg h1] at h; cases h
  · intro p es h
    match p, h with
    | [], h => cases h; unfold Real; decide
    | [n], h =>
      rw [lookup, find] at h
      by_cases h1 : [195, 169] = n
      · subst h1
        cases h; unfold Real; decide
      · rw [if_neg h1] at h; cases h
    | n :: m :: q, h =>
      rw [lookup, find] at h
      by_cases h1 : [195, 169] = n
      · subst h1
        rw [if_pos rfl] at h
        dsimp only at h
        rw [lookup, find] at h
        by_cases h2 : [120] = m
        · subst h2
          cases q with
          | nil => cases h
          | cons a q => cases h
        · rw [if_neg h2] at h; cases h
      · rw [if_neg h1] at h; cases h

end Verif.Dir
