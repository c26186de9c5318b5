import Verif.WinDir.Props
import Verif.Dir.PropsMk

/-!
# C96: creating directories on Windows
-/

namespace Verif.WinDir
open Spec
open Verif.Path (cstr)
open Verif.WinPath (info)
open Verif.WinPath.Spec (canon normal uni)
open Verif.WinAbs
open Verif.WinAbs.Spec (volume comps resolve)
open Verif.Dir (rd_append lookup_append lookup_nil lookup_put lookup_child find_snoc lookup_put_mkdir)
open Verif.Dir.Spec (Node lookup erase put kind)

/-- The calls for the proper ancestors, from `done ++ [g]` on. -/
def calls (V : List Nat) (done : List (List Nat)) (g : List Nat) : List (List Nat) → List (List Nat)
  | [] => []
  | h :: rest => (V ++ path (done ++ [g])) :: calls V (done ++ [g]) h rest

/-- The state after some requests. -/
def makes {σ : Type} (S : Sys σ) (s : σ) (ps : List (List Nat)) : σ := ps.foldl (fun s p => (S.mkdir s p).1) s

/-- Characters that are not backslashes are passed over. -/
theorem parents_run {σ : Type} (S : Sys σ) : ∀ (g pre r : List Nat) (k : Nat) (s : σ), (∀ c ∈ g, c ≠ 0 ∧ c ≠ 92) →
    parents S (k + g.length) pre.length s (pre ++ g ++ r) = parents S k (pre ++ g).length s (pre ++ g ++ r)
  | [], pre, r, k, s, _ => by simp
  | c :: g, pre, r, k, s, h => by
    obtain ⟨h1, h2⟩ := h c List.mem_cons_self
    have ih := parents_run S g (pre ++ [c]) r k s (fun x hx => h x (List.mem_cons_of_mem _ hx))
    have e : pre ++ [c] ++ g = pre ++ c :: g := by simp
    rw [e] at ih
    rw [← ih, show k + (c :: g).length = (k + g.length) + 1 by simp; omega, parents]
    have hr : rd (pre ++ c :: g ++ r) pre.length = .ok c := by
      rw [show pre ++ c :: g ++ r = pre ++ c :: (g ++ r) by simp]
      exact rd_append _ _ _
    rw [hr, ok_bind, if_neg h1, if_neg h2]
    simp

theorem skip_run : ∀ (v pre r : List Nat) (k : Nat), (∀ c ∈ v, c ≠ 0 ∧ c ≠ 92) →
    skipTo (pre ++ v ++ r) (k + v.length) pre.length = skipTo (pre ++ v ++ r) k (pre ++ v).length
  | [], pre, r, k, _ => by simp
  | c :: g, pre, r, k, h => by
    obtain ⟨h1, h2⟩ := h c List.mem_cons_self
    have ih := skip_run g (pre ++ [c]) r k (fun x hx => h x (List.mem_cons_of_mem _ hx))
    have e : pre ++ [c] ++ g = pre ++ c :: g := by simp
    rw [e] at ih
    rw [← ih, show k + (c :: g).length = (k + g.length) + 1 by simp; omega, skipTo]
    have hr : rd (pre ++ c :: g ++ r) pre.length = .ok c := by
      rw [show pre ++ c :: g ++ r = pre ++ c :: (g ++ r) by simp]
      exact rd_append _ _ _
    rw [hr, ok_bind, if_pos ⟨h1, h2⟩]
    simp

theorem parents_ok {σ : Type} (S : Sys σ) (V tl : List Nat) : ∀ (rest done : List (List Nat)) (g : List Nat) (k : Nat) (s : σ),
    (∀ c ∈ g, c ≠ 0 ∧ c ≠ 92) → (∀ h ∈ rest, ∀ c ∈ h, c ≠ 0 ∧ c ≠ 92) → 0 ∉ V ++ path (done ++ [g]) →
    parents S (k + 1 + (g ++ path rest).length) ((V ++ path done).length + 1) s (V ++ path (done ++ g :: rest) ++ 0 :: tl) =
      .ok (makes S s (calls V done g rest), V ++ path (done ++ g :: rest) ++ 0 :: tl)
  | [], done, g, k, s, hg, _, _ => by
    have e : V ++ path (done ++ [g]) ++ 0 :: tl = (V ++ path done ++ [92]) ++ g ++ 0 :: tl := by rw [path_snoc]; simp
    rw [e, path_nil, List.append_nil, show (V ++ path done).length + 1 = (V ++ path done ++ [92]).length by simp; omega, parents_run S g _ _ _ s hg, parents,
      rd_append, ok_bind, if_pos rfl]
    rfl
  | h :: rest, done, g, k, s, hg, hr, h0 => by
    have e : V ++ path (done ++ g :: h :: rest) ++ 0 :: tl = (V ++ path done ++ [92]) ++ g ++ 92 :: (h ++ path rest ++ 0 :: tl) := by
      rw [path_append, path_cons, path_cons]; simp
    have e2 : V ++ path done ++ [92] ++ g = V ++ path (done ++ [g]) := by rw [path_snoc]; simp
    have ih := parents_ok S V tl rest (done ++ [g]) h k (S.mkdir s (V ++ path (done ++ [g]))).1 (hr h List.mem_cons_self)
      (fun x hx => hr x (List.mem_cons_of_mem _ hx))
      (by
        rw [path_snoc, ← List.append_assoc]
        intro hm
        rcases List.mem_append.1 hm with hm | hm
        · exact h0 hm
        · rcases List.mem_cons.1 hm with hm | hm
          · cases hm
          · exact (hr h List.mem_cons_self 0 hm).1 rfl)
    rw [e, show (V ++ path done).length + 1 = (V ++ path done ++ [92]).length by simp; omega,
      show k + 1 + (g ++ path (h :: rest)).length = (k + 1 + (h ++ path rest).length + 1) + g.length by simp [path_cons]; omega,
      parents_run S g _ _ _ s hg, parents, rd_append, ok_bind, if_neg (by decide), if_pos rfl, wr_append, ok_bind]
    rw [e2, Path.cstr_ok _ _ h0, ok_bind, wr_append, ok_bind]
    have e3 : V ++ path (done ++ [g]) ++ 92 :: (h ++ path rest ++ 0 :: tl) = V ++ path (done ++ [g] ++ h :: rest) ++ 0 :: tl := by
      rw [path_append (done ++ [g]), path_cons]; simp
    rw [e3, ih]
    rfl

theorem calls_eq (V : List Nat) : ∀ (rest done : List (List Nat)) (g : List Nat),
    calls V done g rest ++ [V ++ path (done ++ g :: rest)] = (List.range (rest.length + 1)).map (fun i => V ++ path (done ++ (g :: rest).take (i + 1)))
  | [], done, g => by simp [calls, List.range_succ]
  | h :: rest, done, g => by
    have ih := calls_eq V rest (done ++ [g]) h
    rw [calls, List.cons_append, show done ++ g :: h :: rest = done ++ [g] ++ h :: rest by simp, ih, List.length_cons,
      List.range_succ_eq_map (n := rest.length + 1)]
    simp

theorem makes_logged {σ : Type} (S : Sys σ) : ∀ (ps : List (List Nat)) (s : σ) (L : List Ev),
    makes (logged S) (s, L) ps = (makes S s ps, L ++ ps.map Ev.mkdir)
  | [], s, L => by simp [makes]
  | p :: ps, s, L => by
    have := makes_logged S ps (S.mkdir s p).1 (L ++ [Ev.mkdir p])
    unfold makes at this ⊢
    rw [List.foldl_cons, List.foldl_cons]
    show List.foldl _ ((S.mkdir s p).1, L ++ [Ev.mkdir p]) ps = _
    rw [this]
    simp

/-- The calls before the last one. -/
def before (V : List Nat) : List (List Nat) → List (List Nat)
  | [] => []
  | g :: cs => calls V [] g cs

/-- Everything a recursive `Mkdir` does. -/
theorem mkdir_does {σ : Type} (S : Sys σ) (E : Env) (hE : E.Good) (s : σ) (f rest : List Nat) (hf : Fit f) (d : Option (List Nat))
    (hd : Cwd16 (S.cwd s).2 d) :
    ∃ r, absName S E s (f ++ 0 :: rest) = .ok ((S.cwd s).1, r) ∧
      (r = none → ∀ rc, mkdir S E s (f ++ 0 :: rest) rc = .ok ((S.cwd s).1, false)) ∧
      (∀ x, r = some x → ∃ b w V' cs', Both d f b w V' cs' ∧
        mkdir S E s (f ++ 0 :: rest) true = .ok (S.mkdir (makes S (S.cwd s).1 (before V' cs')) (V' ++ path cs')) ∧
        mkdir S E s (f ++ 0 :: rest) false = .ok (S.mkdir (S.cwd s).1 (V' ++ path cs'))) ∧
      (∀ x, d = some x → Works E.sgn x f → r ≠ none) := by
  obtain ⟨r, g1, g2, g3⟩ := absName_ok S E hE s f rest hf d hd
  refine ⟨r, g1, ?_, ?_, fun x hx h => g3 x hx h.name h.dir h.rooted h.short h.simple⟩
  · intro h rc
    subst h
    unfold mkdir
    rw [g1, ok_bind]
  · intro x h
    subst h
    obtain ⟨b, w, V', cs', rfl, hB⟩ := g2 x rfl
    have hX0 := hB.zeroX
    obtain ⟨tl, hw⟩ := hB.wide
    obtain ⟨i, pre, v, k1, k2, k3, k4⟩ := hB.skip
    refine ⟨b, w, V', cs', hB, ?_, ?_⟩
    · unfold mkdir
      rw [g1, ok_bind]
      dsimp only
      rw [if_pos rfl, k1, ok_bind, k4]
      have hv : ∀ c ∈ v, c ≠ 0 ∧ c ≠ 92 := by
        intro c hc
        refine ⟨?_, ?_⟩
        · rintro rfl
          exact hB.zero.1 (by rw [k2]; exact List.mem_append_right _ hc)
        · rintro rfl
          exact k3 hc
      have hskip : skipTo w (w.length + 1) pre.length = .ok V'.length := by
        have e : w = pre ++ v ++ (path cs' ++ 0 :: tl) := by rw [hw, k2]; simp
        have hk : w.length + 1 = (w.length - v.length) + 1 + v.length := by
          have : v.length ≤ w.length := by rw [e]; simp; omega
          omega
        rw [hk, e, skip_run v pre _ _ hv, ← k2, skipTo]
        cases cs' with
        | nil => rw [path_nil, List.nil_append, rd_append, ok_bind, if_neg (by simp)]
        | cons g cs => rw [path_cons, List.cons_append, rd_append, ok_bind, if_neg (by simp)]
      rw [hskip, ok_bind]
      cases cs' with
      | nil =>
        rw [path_nil, List.append_nil] at hw hX0
        rw [hw, rd_append, ok_bind, if_neg (by decide), parents, rd_append, ok_bind, if_pos rfl, ok_bind]
        dsimp only
        rw [Path.cstr_ok _ _ hX0, ok_bind, path_nil, List.append_nil]
        rfl
      | cons g cs =>
        have hcl : ∀ h ∈ g :: cs, ∀ c ∈ h, c ≠ 0 ∧ c ≠ 92 := by
          intro h hh c hcm
          refine ⟨?_, ?_⟩
          · rintro rfl
            exact hB.zero.2 h hh hcm
          · rintro rfl
            exact (hB.good h hh).2 hcm
        have hrd : rd w V'.length = .ok 92 := by rw [hw, path_cons, List.append_assoc, List.cons_append, rd_append]
        have hk : w.length + 1 = (V'.length + tl.length + 2) + 1 + (g ++ path cs).length := by rw [hw]; simp [path_cons]; omega
        have := parents_ok S V' tl cs [] g (V'.length + tl.length + 2) (S.cwd s).1 (hcl g List.mem_cons_self)
          (fun h hh => hcl h (List.mem_cons_of_mem _ hh)) (by
            intro hm
            rcases List.mem_append.1 hm with hm | hm
            · exact hB.zero.1 hm
            · exact path_zero (cs := [g]) (fun h hh => hB.zero.2 h (by simp at hh; simp [hh])) hm)
        rw [path_nil, List.append_nil, List.nil_append, ← hk, ← hw] at this
        rw [hrd, ok_bind, if_pos rfl, this, ok_bind]
        dsimp only
        rw [hw, Path.cstr_ok _ _ hX0, ok_bind]
        rfl
    · unfold mkdir
      rw [g1, ok_bind]
      dsimp only
      rw [if_neg (by decide), hw, Path.cstr_ok _ _ hX0, ok_bind]

/-- The requests for a directory: its ancestors from the top down, then itself. For the root of the volume only the volume itself. -/
def requests (V : List Nat) (cs : List (List Nat)) : List Ev :=
  if cs = [] then [.mkdir V] else (List.range cs.length).map (fun i => .mkdir (V ++ path (cs.take (i + 1))))

theorem requests_eq (V : List Nat) (cs : List (List Nat)) : (before V cs).map Ev.mkdir ++ [Ev.mkdir (V ++ path cs)] = requests V cs := by
  cases cs with
  | nil => simp [before, requests, path_nil]
  | cons g cs =>
    have := congrArg (List.map Ev.mkdir) (calls_eq V cs [] g)
    rw [List.map_append, List.map_map] at this
    unfold requests
    rw [if_neg (by simp)]
    exact this

/-- Whatever the system answers: a recursive `Mkdir` requests the creation of every ancestor of the absolute name
from the top down, then of the directory itself, and nothing else, and answers what the last request was answered; without recursion only the
last of these requests is made. If the name cannot be used, nothing is requested.
The path is what the name resolves to for the names of C88. -/
theorem win_mkdir_requests {σ : Type} (S : Sys σ) (E : Env) (hE : E.Good) (s : σ) (f rest : List Nat) (hf : Fit f)
    (d : Option (List Nat)) (hd : Cwd16 (S.cwd s).2 d) (rc : Bool) :
    ∃ s' log ret, mkdir (logged S) E (s, []) (f ++ 0 :: rest) rc = .ok ((s', log), ret) ∧
      ((log = [] ∧ ret = false) ∨
        ∃ V cs V' cs', Named d f V cs ∧ Same16 V V' ∧ List.Forall₂ Same16 cs cs' ∧
          log = (if rc then requests V' cs' else [.mkdir (V' ++ path cs')]) ∧ ∃ s1, S.mkdir s1 (V' ++ path cs') = (s', ret)) := by
  obtain ⟨r, g1, g2, g3, _⟩ := mkdir_does (logged S) E hE (s, []) f rest hf d hd
  cases r with
  | none => exact ⟨_, _, _, g2 rfl rc, .inl ⟨rfl, rfl⟩⟩
  | some x =>
    obtain ⟨b, w, V', cs', hB, h1, h2⟩ := g3 x rfl
    obtain ⟨V, cs, n1, n2, n3⟩ := hB.name
    have hcw : (logged S).cwd (s, []) = (((S.cwd s).1, []), (S.cwd s).2) := rfl
    rw [hcw] at h1 h2
    dsimp only at h1 h2
    cases rc with
    | true =>
      rw [makes_logged] at h1
      refine ⟨_, _, _, h1, .inr ⟨V, cs, V', cs', n1, n2, n3, ?_, _, rfl⟩⟩
      rw [if_pos rfl]
      exact requests_eq V' cs'
    | false => exact ⟨_, _, _, h2, .inr ⟨V, cs, V', cs', n1, n2, n3, rfl, _, rfl⟩⟩

/-- `Mkdir("C:\\a\\b")`. -/
example : requests ceeVol [[97], [98]] =
    [.mkdir [92, 92, 63, 92, 67, 58, 92, 97], .mkdir [92, 92, 63, 92, 67, 58, 92, 97, 92, 98]] := rfl

/-- The same for a name that the path functions handle as they should (see C88): it is not refused, the requests are
exactly those for its resolved form. -/
theorem win_mkdir_accepted_partial {σ : Type} (S : Sys σ) (E : Env) (hE : E.Good) (s : σ) (w d f rest : List Nat)
    (hs : (S.cwd s).2 = some w) (hd : Cwd16 (some w) (some d)) (hf : Works E.sgn d f) (V : List Nat) (cs : List (List Nat))
    (hV : Same16 (resolve (normal (canon d)) (normal (canon f))).1 V)
    (hcs : List.Forall₂ Same16 (resolve (normal (canon d)) (normal (canon f))).2 cs) (rc : Bool) :
    ∃ s' s1 ret, mkdir (logged S) E (s, []) (f ++ 0 :: rest) rc = .ok ((s', if rc then requests V cs else [.mkdir (V ++ path cs)]), ret) ∧
      S.mkdir s1 (V ++ path cs) = (s', ret) := by
  have hd' : Cwd16 ((logged S).cwd (s, [])).2 (some d) := by
    show Cwd16 (S.cwd s).2 (some d)
    rw [hs]; exact hd
  obtain ⟨r, g1, g2, g3, g4⟩ := mkdir_does (logged S) E hE (s, []) f rest hf.fit (some d) hd'
  cases r with
  | none => exact absurd rfl (g4 d rfl hf)
  | some x =>
    obtain ⟨b, w', V', cs', hB, h1, h2⟩ := g3 x rfl
    obtain ⟨rfl, rfl⟩ := hf.both hB hV hcs
    have hcw : (logged S).cwd (s, []) = (((S.cwd s).1, []), (S.cwd s).2) := rfl
    rw [hcw] at h1 h2
    dsimp only at h1 h2
    cases rc with
    | true =>
      rw [makes_logged] at h1
      rw [if_pos rfl, ← requests_eq V' cs']
      exact ⟨_, _, _, h1, rfl⟩
    | false => exact ⟨_, _, _, h2, rfl⟩

/-! ## On a tree -/

section
variable (cwd : Option (List Nat)) (V : List Nat) (ro dl : List (List Nat) → Bool) (ls : List (List Nat × Verif.WinOps.DWord) → List (List Nat × Verif.WinOps.DWord))

/-- One request on a tree: if the parent is a directory and what is there already (if anything) is a directory, it is
there afterwards; the answer is whether it was made; nothing else changes. -/
theorem tree_mkdir (t : Node) (done : List (List Nat)) (c : List Nat)
    (es : List (List Nat × Node)) (hcl : ∀ g ∈ done ++ [c], g ≠ [] ∧ 92 ∉ g) (hp : lookup t done = some (.dir es))
    (hx : ∀ x, lookup t (done ++ [c]) = some x → ∃ es, x = .dir es) :
    ∃ t' ret es', (treeSys cwd V ro dl ls).mkdir t (V ++ path (done ++ [c])) = (t', ret) ∧ lookup t' (done ++ [c]) = some (.dir es') ∧
      (ret = true ↔ lookup t (done ++ [c]) = none) ∧ (lookup t (done ++ [c]) = none → es' = []) ∧ (lookup t (done ++ [c]) ≠ none → t' = t) ∧
      ∀ p x, lookup t p = some x → ∃ y, lookup t' p = some y ∧ kind y = kind x := by
  have hlk := lookup_child hp c
  simp only [treeSys, on_volume V hcl, List.dropLast_concat, hp, List.getLast?_concat]
  cases hf : Dir.Spec.find es c with
  | none =>
    rw [hf] at hlk
    rw [hlk]
    refine ⟨_, _, [], rfl, ?_, by simp, fun _ => rfl, fun h => absurd rfl h, ?_⟩
    · rw [lookup_child (lookup_put done t _ _ hp), find_snoc _ hf]
    · exact lookup_put_mkdir done t es c hp hf
  | some x =>
    rw [hf] at hlk
    obtain ⟨ds, rfl⟩ := hx x hlk
    rw [hlk]
    exact ⟨_, _, ds, rfl, hlk, by simp, (fun h => nomatch h), fun _ => rfl, fun p x h => ⟨x, h, rfl⟩⟩

theorem tree_makes : ∀ (rest done : List (List Nat)) (g : List Nat)
    (t : Node) (es : List (List Nat × Node)), (∀ h ∈ done ++ g :: rest, h ≠ [] ∧ 92 ∉ h) → lookup t done = some (.dir es) →
    (∀ n x, lookup t (done ++ (g :: rest).take n) = some x → ∃ es, x = .dir es) →
    ∃ t' ret es', (treeSys cwd V ro dl ls).mkdir (makes (treeSys cwd V ro dl ls) t (calls V done g rest)) (V ++ path (done ++ g :: rest)) = (t', ret) ∧
      lookup t' (done ++ g :: rest) = some (.dir es') ∧ (ret = true ↔ lookup t (done ++ g :: rest) = none) ∧
      ∀ p x, lookup t p = some x → ∃ y, lookup t' p = some y ∧ kind y = kind x
  | [], done, g, t, es, hcl, hp, hx => by
    obtain ⟨t', ret, es', h1, h2, h3, h4, _, h5⟩ := tree_mkdir cwd V ro dl ls t done g es hcl hp (hx 1)
    exact ⟨t', ret, es', h1, h2, h3, h5⟩
  | h :: rest, done, g, t, es, hcl, hp, hx => by
    obtain ⟨t1, ret1, es1, h1, h2, _, h4, h6, h5⟩ := tree_mkdir cwd V ro dl ls t done g es
      (fun x hx => hcl x (by
        rcases List.mem_append.1 hx with hx | hx
        · exact List.mem_append_left _ hx
        · exact List.mem_append_right _ (by simp at hx; simp [hx]))) hp (hx 1)
    have e : ∀ r, done ++ [g] ++ r = done ++ g :: r := by intro r; simp
    -- what is further down was there before
    have hback : ∀ a r, lookup t1 (done ++ [g] ++ a :: r) = lookup t (done ++ [g] ++ a :: r) := by
      intro a r
      cases hl : lookup t (done ++ [g]) with
      | none =>
        rw [h4 hl] at h2
        rw [lookup_append (done ++ [g]) _ t1, lookup_append (done ++ [g]) _ t, h2, hl]
        rfl
      | some x => rw [h6 (by rw [hl]; simp)]
    obtain ⟨t', ret, es', k1, k2, k3, k5⟩ := tree_makes rest (done ++ [g]) h t1 es1 (by rw [e]; exact hcl) h2 (by
      intro n x hlx
      cases n with
      | zero =>
        rw [List.take_zero, List.append_nil, h2] at hlx
        cases hlx
        exact ⟨_, rfl⟩
      | succ n =>
        rw [List.take_succ_cons, hback, e] at hlx
        have := hx (n + 2) x (by rw [List.take_succ_cons, List.take_succ_cons]; exact hlx)
        exact this)
    rw [e] at k1 k2 k3
    refine ⟨t', ret, es', ?_, k2, ?_, ?_⟩
    · rw [calls]
      unfold makes at k1 ⊢
      rw [List.foldl_cons, h1]
      exact k1
    · rw [k3, ← e, hback]
    · intro p x hpx
      obtain ⟨y, y1, y2⟩ := h5 p x hpx
      obtain ⟨z, z1, z2⟩ := k5 p y y1
      exact ⟨z, z1, z2.trans y2⟩

end

/-- On a volume that is a tree, if no ancestor of the name is a file or link: afterwards the directory exists, the
answer is true exactly if it did not exist before, and everything that was there is still there. -/
theorem win_mkdir_makes_partial (w V : List Nat) (cs : List (List Nat)) (ro dl : List (List Nat) → Bool)
    (ls : List (List Nat × Verif.WinOps.DWord) → List (List Nat × Verif.WinOps.DWord)) (E : Env) (hE : E.Good) (d f rest : List Nat)
    (hd : Cwd16 (some w) (some d)) (hf : Works E.sgn d f)
    (hV : Same16 (resolve (normal (canon d)) (normal (canon f))).1 V)
    (hcs : List.Forall₂ Same16 (resolve (normal (canon d)) (normal (canon f))).2 cs) (hne : cs ≠ []) (t : Node)
    (ht : ∀ n x, lookup t (cs.take n) = some x → ∃ es, x = .dir es) :
    ∃ t' ret es, mkdir (treeSys (some w) V ro dl ls) E t (f ++ 0 :: rest) true = .ok (t', ret) ∧
      lookup t' cs = some (.dir es) ∧ (ret = true ↔ lookup t cs = none) ∧
      ∀ p x, lookup t p = some x → ∃ y, lookup t' p = some y ∧ kind y = kind x := by
  obtain ⟨r, g1, g2, g3, g4⟩ := mkdir_does (treeSys (some w) V ro dl ls) E hE t f rest hf.fit (some d) hd
  cases r with
  | none => exact absurd rfl (g4 d rfl hf)
  | some x =>
    obtain ⟨b, w', V', cs', hB, h1, _⟩ := g3 x rfl
    obtain ⟨rfl, rfl⟩ := hf.both hB hV hcs
    cases cs' with
    | nil => exact absurd rfl hne
    | cons g cs =>
      obtain ⟨es0, he0⟩ := ht 0 t (lookup_nil t)
      obtain ⟨t', ret, es, k1, k2, k3, k4⟩ := tree_makes (some w) V' ro dl ls cs [] g t es0 hB.good (by rw [lookup_nil, he0]) ht
      exact ⟨t', ret, es, by rw [h1]; exact congrArg Except.ok k1, k2, k3, k4⟩

/-- "d" in the root directory of C:, where there is a file. -/
example (E : Env) (hE : E.Good) : ∃ t' ret es, mkdir (treeSys (some cee) ceeVol (fun _ => false) (fun _ => false) id) E (.dir [([97], .file)]) [100, 0] true =
      .ok (t', ret) ∧ lookup t' [[100]] = some (.dir es) ∧ ret = true := by
  obtain ⟨t', ret, es, h1, h2, h3, _⟩ := win_mkdir_makes_partial cee ceeVol [[100]] (fun _ => false) (fun _ => false) id E hE cee [100] [] cee_cwd
    (cee_works E.sgn) cee_vol cee_comps (by decide) (.dir [([97], .file)]) (by
      intro n x h
      match n with
      | 0 => cases h; exact ⟨_, rfl⟩
      | n + 1 => simp [lookup, Dir.Spec.find] at h)
  exact ⟨t', ret, es, h1, h2, h3.2 rfl⟩

/-! ## `Rmdir` without recursion -/

/-- Without recursion only the removal of the directory itself is asked for. -/
theorem win_rmdir_one {σ : Type} (S : Sys σ) (E : Env) (hE : E.Good) (s : σ) (f rest : List Nat) (hf : Fit f)
    (d : Option (List Nat)) (hd : Cwd16 (S.cwd s).2 d) :
    ∃ s' log ret, rmdir (logged S) E (s, []) (f ++ 0 :: rest) false = .ok ((s', log), ret) ∧
      ((log = [] ∧ ret = false) ∨ ∃ X s1, Target d f X ∧ log = [.rmdir X] ∧ S.rmdir s1 X = (s', ret)) := by
  obtain ⟨r, g1, g2, _⟩ := absName_ok (logged S) E hE (s, []) f rest hf d hd
  unfold rmdir
  rw [g1, ok_bind]
  dsimp only
  cases r with
  | none => exact ⟨(S.cwd s).1, [], false, rfl, .inl ⟨rfl, rfl⟩⟩
  | some x =>
    obtain ⟨b, w, V', cs', hx, hB⟩ := g2 x rfl
    subst hx
    obtain ⟨tl, hw⟩ := hB.wide
    dsimp only
    rw [if_neg (by decide), hw, Path.cstr_ok _ _ hB.zeroX, ok_bind]
    exact ⟨_, _, _, rfl, .inr ⟨_, (S.cwd s).1, hB.target, rfl, rfl⟩⟩

end Verif.WinDir
