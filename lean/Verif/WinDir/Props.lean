import Verif.WinDir.TreeLemmas
import Verif.Dir.Props

/-!
# C95: removing directories on Windows
-/

namespace Verif.WinDir
open Spec
open Verif.Path (cstr)
open Verif.Path.Spec (dot dotdot)
open Verif.WinPath.Spec (canon normal uni)
open Verif.WinAbs
open Verif.WinAbs.Spec (volume comps resolve)
open Verif.Utf8.Spec (GoodText text Valid)
open Verif.WinOps (DWord DIRECTORY REPARSE)
open Verif.Dir (lookup_append lookup_nil lookup_put put_put put_snoc erase_snoc drop_upd)
open Verif.Dir.Spec (Node lookup erase put)

/-- The path the system gets for the name `f`: the UTF-16 form of a volume and components, which are what the name resolves to. -/
def Target (d : Option (List Nat)) (f : List Nat) (X : List Nat) : Prop :=
  ∃ V cs V' cs', Named d f V cs ∧ Same16 V V' ∧ List.Forall₂ Same16 cs cs' ∧ X = V' ++ path cs'

theorem Both.target {d : Option (List Nat)} {f b w V' : List Nat} {cs' : List (List Nat)} (h : Both d f b w V' cs') : Target d f (V' ++ path cs') := by
  obtain ⟨V, cs, h1, h2, h3⟩ := h.name
  exact ⟨V, cs, V', cs', h1, h2, h3, rfl⟩

theorem Both.zeroX {d : Option (List Nat)} {f b w V' : List Nat} {cs' : List (List Nat)} (h : Both d f b w V' cs') : 0 ∉ V' ++ path cs' := by
  intro hm
  rcases List.mem_append.1 hm with hm | hm
  · exact h.zero.1 hm
  · exact path_zero h.zero.2 hm

theorem size_back {n : Nat} (h : n ≤ 8191) : (n + 1 + 2 ^ 64 - 1) % 2 ^ 64 = n := by
  rw [show n + 1 + 2 ^ 64 - 1 = n + 2 ^ 64 by omega, Nat.add_mod_right]
  omega

/-! ## Nothing outside is removed -/

/-- Whatever the system answers (others may change the file system all the time): a recursive `Rmdir` does nothing wrong with its
memory, comes to an end, and only asks for the removal of `X`, the path of the directory, and of paths below it which it reached through directories that it had
seen not to be links.  If `X` itself does not exist or is a link, only its own removal is asked for.  What is returned is the system's answer to the
removal of `X`. -/
theorem win_rmdir_inside {σ : Type} (S : Sys σ) (E : Env) (hE : E.Good) (hls : ListsOk S) (s : σ) (f rest : List Nat) (hf : Fit f)
    (d : Option (List Nat)) (hd : Cwd16 (S.cwd s).2 d) :
    ∃ s' log ret, rmdir (logged S) E (s, []) (f ++ 0 :: rest) true = .ok ((s', log), ret) ∧
      ((log = [] ∧ ret = false) ∨
        ∃ X, Target d f X ∧ OnlyInside X log ∧ (∃ log' s1, log = log' ++ [.rmdir X] ∧ (s', ret) = S.rmdir s1 X) ∧
          ∃ a, log.head? = some (.attrs X a) ∧ ((∀ b, a = some b → Link b) → log = [.attrs X a, .rmdir X])) := by
  obtain ⟨r, g1, g2, _⟩ := absName_ok (logged S) E hE (s, []) f rest hf d hd
  unfold rmdir
  rw [g1, ok_bind]
  dsimp only
  cases r with
  | none => exact ⟨(S.cwd s).1, [], false, rfl, .inl ⟨rfl, rfl⟩⟩
  | some x =>
    obtain ⟨b, w, V', cs', hx, hB⟩ := g2 x rfl
    subst hx
    have hX0 := hB.zeroX
    obtain ⟨tl, hw⟩ := hB.wide
    have hlw := hB.len
    have hT := hB.target
    subst hw
    dsimp only
    rw [if_pos rfl, size_back (by simp at hlw ⊢; omega)]
    generalize hX : V' ++ path cs' = X at *
    rw [Path.cstr_ok _ _ hX0, ok_bind]
    have hat : (logged S).attrs ((logged S).cwd (s, [])).1 X =
      (((S.attrs (S.cwd s).1 X).1, [Ev.attrs X (S.attrs (S.cwd s).1 X).2]), (S.attrs (S.cwd s).1 X).2) := rfl
    rw [hat]
    dsimp only
    have hnil : OnlyInside X [] := by
      intro pre ev post p h
      have := congrArg List.length h
      simp at this
    have hone : ∀ k, OnlyInside X [Ev.attrs X k] := by
      intro k
      have := OnlyInside.snoc (ev := Ev.attrs X k) hnil (by rintro p (h | h) <;> cases h)
      exact this
    have hend : ∀ L, OnlyInside X L → OnlyInside X (L ++ [Ev.rmdir X]) := by
      intro L h
      apply OnlyInside.snoc h
      rintro p (h | h)
      · cases h
      · cases h
        exact ⟨[], by simp [path], by simp, by simp, fun pre e post h => by simp at h⟩
    have hshort : ∀ (a : Option DWord) (s1 : σ), (∃ s' log ret, (.ok ((logged S).rmdir (s1, [Ev.attrs X a]) X) : CRes ((σ × List Ev) × Bool)) = .ok ((s', log), ret) ∧
          ((log = [] ∧ ret = false) ∨
            ∃ X, Target d f X ∧ OnlyInside X log ∧ (∃ log' s1, log = log' ++ [.rmdir X] ∧ (s', ret) = S.rmdir s1 X) ∧
              ∃ a, log.head? = some (.attrs X a) ∧ ((∀ b, a = some b → Link b) → log = [.attrs X a, .rmdir X]))) := by
      intro a s1
      exact ⟨_, _, _, rfl, .inr ⟨X, hT, hend _ (hone a), ⟨_, s1, rfl, rfl⟩, ⟨a, rfl, fun _ => rfl⟩⟩⟩
    cases hk : (S.attrs (S.cwd s).1 X).2 with
    | none =>
      dsimp only
      rw [ok_bind]
      dsimp only
      rw [Path.cstr_ok _ _ hX0, ok_bind]
      exact hshort none _
    | some a =>
      dsimp only
      by_cases hl : (a &&& REPARSE) = 0#32
      · rw [if_pos hl]
        have hr : Reached X [] [Ev.attrs X (some a)] :=
          ⟨(fun e h => nomatch h), ⟨a, List.mem_cons_self, (link_iff a).1 hl⟩, fun pre e post h => by simp at h⟩
        obtain ⟨s', L', tl', k1, k2, k3⟩ := rmRec_safe S hls X 8192 (S.attrs (S.cwd s).1 X).1 [Ev.attrs X (some a)] [] tl
          (by simpa [path] using hX0) (by simpa [path] using hlw) (by simp) hr (hone _)
        simp only [path_nil, List.append_nil] at k1
        rw [k1, ok_bind]
        dsimp only
        rw [Path.cstr_ok _ _ hX0, ok_bind]
        refine ⟨_, _, _, rfl, .inr ⟨X, hT, hend _ k3, ⟨_, s', rfl, rfl⟩, ⟨some a, rfl, ?_⟩⟩⟩
        intro h
        exact absurd (h a rfl) ((link_iff a).1 hl)
      · rw [if_neg hl, ok_bind]
        dsimp only
        rw [Path.cstr_ok _ _ hX0, ok_bind]
        exact hshort (some a) _

/-! ## Everything inside is removed -/

/-- The UTF-16 form is unique. -/
theorem same_unique {s w w' : List Nat} (h : Same16 s w) (h' : Same16 s w') : w = w' := by
  obtain ⟨a, ha, rfl, rfl⟩ := h
  obtain ⟨b, hb, hab, rfl⟩ := h'
  have good : ∀ {c : List Nat}, (∀ x ∈ c, Valid x) → GoodText (92 :: c) := by
    intro c hc
    refine ⟨?_, ?_⟩
    · intro x hx
      rcases List.mem_cons.1 hx with rfl | hx
      · decide
      · exact hc x hx
    · intro x hx
      cases hx
      decide
  have hab : text 1 (92 :: a) = text 1 (92 :: b) := by rw [Utf8.text1_cons, Utf8.text1_cons, hab]
  have ra := (Utf8.round_trip 2 (.inl rfl) (92 :: a) (good ha) (List.replicate (text 1 (92 :: a)).length 0)
    (List.replicate ((text 2 (92 :: a)).length + (text 2 (92 :: b)).length) 0) (text 1 (92 :: a)).length
    ((text 2 (92 :: a)).length + (text 2 (92 :: b)).length) none (Nat.le_refl _) (by simp) (by omega) (by simp)).2
  have rb := (Utf8.round_trip 2 (.inl rfl) (92 :: b) (good hb) (List.replicate (text 1 (92 :: b)).length 0)
    (List.replicate ((text 2 (92 :: a)).length + (text 2 (92 :: b)).length) 0) (text 1 (92 :: b)).length
    ((text 2 (92 :: a)).length + (text 2 (92 :: b)).length) none (Nat.le_refl _) (by simp) (by omega) (by simp)).2
  rw [hab, rb] at ra
  injection ra with ra
  injection ra with r1 r2
  injection r1 with r1
  have := ((List.append_inj r1 r2).1).symm
  rw [Utf8.text_cons, Utf8.text_cons] at this
  exact List.append_cancel_left this

theorem same_list {cs ws ws' : List (List Nat)} (h : List.Forall₂ Same16 cs ws) (h' : List.Forall₂ Same16 cs ws') : ws = ws' := by
  induction h generalizing ws' with
  | nil => cases h'; rfl
  | cons h1 _ ih =>
    cases h' with
    | cons k1 k2 => rw [same_unique h1 k1, ih k2]

/-- Names and current directories with which `Mkdir` and `Rmdir` do what they should: both are accepted by `GetPlatformFilename`, the current
directory has a volume, their forms for the system have at most 8188 characters together, and they have the conditions of C88. -/
structure Works (sgn : Bool) (d f : List Nat) : Prop where
  fit : Fit f
  name : Accepted sgn f
  dir : Accepted sgn d
  rooted : uni <+: normal (canon d)
  short : (normal (canon d)).length + (normal (canon f)).length ≤ 8188
  simple : Simple (normal (canon d)) (normal (canon f))

theorem Works.usual {sgn : Bool} {d f : List Nat} (h : Works sgn d f) : Usual d f := by
  obtain ⟨h1, h2, h3⟩ := h.simple
  refine ⟨?_, h1⟩
  intro hv hdot
  apply h2
  have : (resolve (normal (canon d)) (normal (canon f))).1 = volume (normal (canon f)) := by
    unfold resolve
    rw [if_pos hv]
  rw [this]
  exact hdot

/-- The path is what the name resolves to, in UTF-16. -/
theorem Works.both {sgn : Bool} {d f : List Nat} (h : Works sgn d f) {b w V' V : List Nat} {cs' cs : List (List Nat)} (hB : Both (some d) f b w V' cs')
    (hV : Same16 (resolve (normal (canon d)) (normal (canon f))).1 V)
    (hcs : List.Forall₂ Same16 (resolve (normal (canon d)) (normal (canon f))).2 cs) : V' = V ∧ cs' = cs := by
  obtain ⟨V0, cs0, n1, n2, n3⟩ := hB.name
  have := n1.2.2.2 d (.inl rfl) h.usual
  rw [← this] at hV hcs
  exact ⟨same_unique n2 hV, same_list n3 hcs⟩

/-- On a volume that is a tree, if nothing in the directory is read-only and paths are short enough: the directory is removed with everything below
it, nothing else changes (the result is the tree without the node), and the answer is true.  Links inside are removed, not followed.
(With a read-only file this fails: see `win_rmdir_readonly`.) -/
theorem win_rmdir_removes_partial (w V : List Nat) (cs : List (List Nat)) (ro dl : List (List Nat) → Bool)
    (ls : List (List Nat × DWord) → List (List Nat × DWord)) (hls : ∀ l n, n ∈ ls l ↔ n ∈ l) (E : Env) (hE : E.Good) (d f rest : List Nat)
    (hd : Cwd16 (some w) (some d)) (hf : Works E.sgn d f)
    (hV : Same16 (resolve (normal (canon d)) (normal (canon f))).1 V)
    (hcs : List.Forall₂ Same16 (resolve (normal (canon d)) (normal (canon f))).2 cs) (hne : cs ≠ [])
    (t : Node) (es : List (List Nat × Node)) (ht : lookup t cs = some (.dir es)) (hfit : Fits ro cs (V ++ path cs).length (.dir es)) :
    rmdir (treeSys (some w) V ro dl ls) E t (f ++ 0 :: rest) true = .ok (erase t cs, true) := by
  obtain ⟨r, g1, g2, g3⟩ := absName_ok (treeSys (some w) V ro dl ls) E hE t f rest hf.fit (some d) hd
  have hr := g3 d rfl hf.name hf.dir hf.rooted hf.short hf.simple
  cases r with
  | none => exact absurd rfl hr
  | some x =>
    obtain ⟨b, w', V', cs', rfl, hB⟩ := g2 x rfl
    obtain ⟨rfl, rfl⟩ := hf.both hB hV hcs
    have hX0 := hB.zeroX
    obtain ⟨tl, hw⟩ := hB.wide
    have hlw := hB.len
    subst hw
    have hcw : ((treeSys (some w) V' ro dl ls).cwd t).1 = t := rfl
    have hgood : ∀ g ∈ cs', EntryName g := fun g hg => ⟨(hB.good g hg).1, (hB.good g hg).2, hB.zero.2 g hg⟩
    have hat : ∀ t, at_ V' t (V' ++ path cs') = (lookup t cs').map (cs', ·) := fun t => at_path V' t hB.good
    have hattr : (treeSys (some w) V' ro dl ls).attrs t (V' ++ path cs') = (t, some (attrsOf (ro cs') (dl cs') (.dir es))) := by
      simp only [treeSys, hat, ht, Option.map_some]
    have hro : ro cs' = false := by
      have := (hfit [] _ (lookup_nil _)).2.2.1
      rwa [List.append_nil] at this
    have hk : (attrsOf (ro cs') (dl cs') (.dir es) &&& REPARSE) = 0#32 := by
      rw [hro]; show (0#32 ||| 16#32) &&& REPARSE = 0#32; decide
    unfold rmdir
    rw [g1, ok_bind]
    dsimp only
    rw [if_pos rfl, size_back (by simp at hlw ⊢; omega), Path.cstr_ok _ _ hX0, ok_bind, hcw, hattr]
    dsimp only
    rw [if_pos hk]
    obtain ⟨tl', k1, k2⟩ := (rmRec_tree (some w) V' ro dl ls hB.zero.1 hls 8192).1 t cs' es tl ht hgood hfit (by omega) hlw
    rw [k1, ok_bind]
    dsimp only
    rw [Path.cstr_ok _ _ hX0, ok_bind]
    have hlk := lookup_put cs' t (.dir []) _ ht
    simp only [treeSys, hat, hlk, Option.map_some]
    rw [if_neg (by simp [hro, hne])]
    congr 2
    rcases List.eq_nil_or_concat cs' with h | ⟨p, c, h⟩
    · exact absurd h hne
    · rw [List.concat_eq_append] at h
      subst h
      have hpar : ∃ ps, lookup t p = some (.dir ps) := by
        rw [lookup_append] at ht
        cases hp : lookup t p with
        | none => rw [hp] at ht; cases ht
        | some x =>
          cases x with
          | dir ps => exact ⟨ps, rfl⟩
          | file => rw [hp] at ht; cases ht
          | link => rw [hp] at ht; cases ht
      obtain ⟨ps, hps⟩ := hpar
      rw [put_snoc p c t _ ps hps, erase_snoc p c _ _ (lookup_put p t _ _ hps), put_put, drop_upd, erase_snoc p c t ps hps]

/-! ## A case, and where it fails -/

/-- The current directory `C:\`. -/
def cee : List Nat := [67, 58, 92]

theorem cee_cwd : Cwd16 (some cee) (some cee) :=
  ⟨cee, by unfold GoodText; decide, (text2_ascii (by decide)).symm, congrArg some (WinOps.text_ascii (by decide)).symm,
    by rw [WinOps.text_ascii (by decide)]; decide, by rw [WinOps.text_ascii (by decide)]; exact (show Fine cee by decide).fit⟩

theorem fine_works {d f : List Nat} (sgn : Bool) (hd : Fine d) (hf : Fine f) (h : uni <+: normal (canon d))
    (hl : (normal (canon d)).length + (normal (canon f)).length ≤ 8188) (hs : Simple (normal (canon d)) (normal (canon f))) : Works sgn d f :=
  ⟨hf.fit, hf.accepted sgn (by omega), hd.accepted sgn (by omega), h, hl, hs⟩

theorem cee_works (sgn : Bool) : Works sgn cee [100] := fine_works sgn (by decide) (by decide) (by decide) (by decide) (by decide)

/-- The volume `\\?\C:`. -/
def ceeVol : List Nat := [92, 92, 63, 92, 67, 58]

theorem cee_resolve : resolve (normal (canon cee)) (normal (canon [100])) = (ceeVol, [[100]]) := by decide

theorem cee_vol : Same16 (resolve (normal (canon cee)) (normal (canon [100]))).1 ceeVol := by
  rw [cee_resolve]; exact same_ascii (by decide)

theorem cee_comps : List.Forall₂ Same16 (resolve (normal (canon cee)) (normal (canon [100]))).2 [[100]] := by
  rw [cee_resolve]; exact .cons (same_ascii (by decide)) .nil

/-- `Rmdir("d")` in `C:\`, where d contains a file and a link to a directory: the conditions of the theorem. -/
example (E : Env) (hE : E.Good) : rmdir (treeSys (some cee) ceeVol (fun _ => false) (fun p => p == [[100], [99]]) id) E
    (.dir [([97], .file), ([100], .dir [([98], .file), ([99], .link)])]) [100, 0] true = .ok (.dir [([97], .file)], true) := by
  refine win_rmdir_removes_partial cee ceeVol [[100]] _ _ _ (fun _ _ => Iff.rfl) E hE cee [100] [] cee_cwd (cee_works E.sgn) cee_vol cee_comps
    (by decide) _ [([98], .file), ([99], .link)] rfl ?_
  have hb : EntryName [98] ∧ [98] ≠ dot ∧ [98] ≠ dotdot := ⟨⟨by decide, by decide, by decide⟩, by decide, by decide⟩
  have hc : EntryName [99] ∧ [99] ≠ dot ∧ [99] ≠ dotdot := ⟨⟨by decide, by decide, by decide⟩, by decide, by decide⟩
  intro p x h
  cases p with
  | nil =>
    rw [lookup_nil] at h
    cases h
    exact ⟨by simp, by decide, rfl, fun es h => by cases h; decide⟩
  | cons n p =>
    rw [lookup, Dir.Spec.find] at h
    by_cases h1 : [98] = n
    · subst h1
      cases p with
      | nil => cases h; exact ⟨by simpa using hb, by decide, rfl, fun es h => nomatch h⟩
      | cons m p => cases h
    · rw [if_neg h1, Dir.Spec.find] at h
      by_cases h2 : [99] = n
      · subst h2
        cases p with
        | nil => cases h; exact ⟨by simpa using hc, by decide, rfl, fun es h => nomatch h⟩
        | cons m p => cases h
      · rw [if_neg h2] at h; cases h

/-- The disagreement: a file that is read-only is not deleted (`File::Delete` clears the attribute first, `Rmdir` does not), so
the directory stays, and everything in it that was already removed is gone. -/
theorem win_rmdir_readonly (E : Env) (hE : E.Good) (e : List Nat) (he : EntryName e) (hd1 : e ≠ dot) (hd2 : e ≠ dotdot) (hlen : e.length ≤ 255) :
    rmdir (treeSys (some cee) ceeVol (fun p => p == [[100], e]) (fun _ => false) id) E (.dir [([100], .dir [(e, .file)])]) [100, 0] true =
      .ok (.dir [([100], .dir [(e, .file)])], false) := by
  generalize hro : (fun p : List (List Nat) => p == [[100], e]) = ro
  have hro1 : ro [[100], e] = true := by rw [← hro]; simp
  have hro2 : ro [[100]] = false := by rw [← hro]; simp
  generalize hS : treeSys (some cee) ceeVol ro (fun _ => false) id = S
  generalize ht : Node.dir [([100], .dir [(e, .file)])] = t
  have hcw : S.cwd t = (t, some cee) := by rw [← hS]; rfl
  have hf := cee_works E.sgn
  obtain ⟨r, g1, g2, g3⟩ := absName_ok S E hE t [100] [] hf.fit (some cee) (by rw [hcw]; exact cee_cwd)
  have hr := g3 cee rfl hf.name hf.dir hf.rooted hf.short hf.simple
  cases r with
  | none => exact absurd rfl hr
  | some x =>
    obtain ⟨b, w', V', cs', rfl, hB⟩ := g2 x rfl
    obtain ⟨rfl, rfl⟩ := hf.both hB cee_vol cee_comps
    obtain ⟨tl, hw⟩ := hB.wide
    have hlw := hB.len
    subst hw
    have hp1 : ∀ g ∈ [[100]], g ≠ [] ∧ 92 ∉ g := by decide
    have hp2 : ∀ g ∈ [[100], e], g ≠ [] ∧ 92 ∉ g := by
      intro g hg
      simp only [List.mem_cons, List.not_mem_nil, or_false] at hg
      rcases hg with rfl | rfl
      · decide
      · exact he.clean
    have hl1 : lookup t [[100]] = some (.dir [(e, .file)]) := by rw [← ht]; rfl
    have hl2 : lookup t [[100], e] = some .file := by
      rw [← ht, lookup, Dir.Spec.find, if_pos rfl]
      dsimp only
      rw [lookup, Dir.Spec.find, if_pos rfl]
      rfl
    have hX0 : 0 ∉ ceeVol ++ path [[100]] := by decide
    have hattr : S.attrs t (ceeVol ++ path [[100]]) = (t, some 16#32) := by
      rw [← hS]
      simp only [treeSys, at_path ceeVol t hp1, hl1, Option.map_some, attrsOf, hro2]
      rfl
    have hrm : S.rmdir t (ceeVol ++ path [[100]]) = (t, false) := by
      rw [← hS]
      simp only [treeSys, at_path ceeVol t hp1, hl1, Option.map_some]
    have hdel : S.delete t (ceeVol ++ path [[100], e]) = (t, false) := by
      rw [← hS]
      simp only [treeSys, at_path ceeVol t hp2, hl2, Option.map_some, hro1]
      rfl
    have hfind : S.find t (ceeVol ++ path [[100]] ++ star) = (t, some [(dot, 16#32), (dotdot, 16#32), (e, 1#32)]) := by
      rw [← hS, find_tree _ _ _ _ _ t hp1, hl1]
      simp only [listing, List.map_cons, List.map_nil, attrsOf, id]
      rw [show ([[100]] ++ [e] : List (List Nat)) = [[100], e] from rfl, hro1]
      rfl
    have hbig : ¬ (ceeVol ++ path [[100]]).length ≥ 8190 := by decide
    have hrec : ∃ tl', rmRec S 8192 t (ceeVol ++ path [[100]] ++ 0 :: tl) (ceeVol ++ path [[100]]).length = .ok (t, ceeVol ++ path [[100]] ++ 0 :: tl') := by
      obtain ⟨b2, b3, tl1, w1, w2, w3, e3, l3⟩ := star_ok (ceeVol ++ path [[100]]) tl hlw hbig
      rw [rmRec, if_neg hbig, w1, ok_bind, w2, ok_bind, w3, ok_bind, e3]
      rw [show ceeVol ++ path [[100]] ++ 92 :: (42 :: 0 :: tl1) = ceeVol ++ path [[100]] ++ star ++ 0 :: tl1 by simp [star]]
      rw [Path.cstr_ok _ _ (by decide), ok_bind, hfind]
      dsimp only
      rw [e3] at l3
      obtain ⟨tl2, h1, h1l⟩ := read_ok (ceeVol ++ path [[100]]) e (42 :: 0 :: tl1) l3 (by
        have : (ceeVol ++ path [[100]]).length = 8 := rfl
        omega)
      rw [show ceeVol ++ path [[100]] ++ star ++ 0 :: tl1 = ceeVol ++ path [[100]] ++ 92 :: (42 :: 0 :: tl1) by simp [star]]
      have hfit : (ceeVol ++ path [[100]]).length + 1 + (e.length + 1) ≤ 8191 := by
        have : (ceeVol ++ path [[100]]).length = 8 := rfl
        omega
      have hne : ¬ (e = [46] ∨ e = [46, 46]) := fun h => h.elim hd1 hd2
      have hp0 : 0 ∉ ceeVol ++ path [[100], e] := by
        intro hm
        rcases List.mem_append.1 hm with hm | hm
        · exact absurd hm (by decide)
        · refine path_zero (cs := [[100], e]) ?_ hm
          intro g hg
          simp only [List.mem_cons, List.not_mem_nil, or_false] at hg
          rcases hg with rfl | rfl
          · decide
          · exact he.2.2
      rw [entries, if_pos (.inl rfl), entries, if_pos (.inr rfl), entries, if_neg hne, if_pos hfit, h1, ok_bind,
        if_pos (show (1#32 &&& DIRECTORY) = 0#32 by decide)]
      rw [show ceeVol ++ path [[100]] ++ 92 :: (e ++ 0 :: tl2) = ceeVol ++ path [[100], e] ++ 0 :: tl2 by simp [path], Path.cstr_ok _ _ hp0, ok_bind,
        hdel, entries, ok_bind]
      dsimp only
      rw [show ceeVol ++ path [[100], e] ++ 0 :: tl2 = ceeVol ++ path [[100]] ++ 92 :: (e ++ 0 :: tl2) by simp [path], wr_append, ok_bind]
      exact ⟨_, rfl⟩
    obtain ⟨tl', hrec⟩ := hrec
    unfold rmdir
    rw [show ([100, 0] : List Nat) = [100] ++ 0 :: [] from rfl, g1, ok_bind]
    dsimp only
    rw [if_pos rfl, size_back (by decide), Path.cstr_ok _ _ hX0, ok_bind, hcw, hattr]
    dsimp only
    rw [if_pos (by decide), hrec, ok_bind]
    dsimp only
    rw [Path.cstr_ok _ _ hX0, ok_bind, hrm]

/-- The names of the last theorem. -/
example : EntryName [98] ∧ [98] ≠ dot ∧ [98] ≠ dotdot ∧ [98].length ≤ 255 := ⟨⟨by decide, by decide, by decide⟩, by decide, by decide, by decide⟩

end Verif.WinDir
