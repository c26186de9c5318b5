import Verif.WinDir.AbsLemmas

/-!
# The recursion of `Rmdir`: which removals are asked for
-/

namespace Verif.WinDir
open Spec
open Verif.Path (cstr)
open Verif.Path.Spec (dot dotdot)
open Verif.WinOps (DWord DIRECTORY REPARSE)

theorem folder_iff (a : DWord) : (a &&& DIRECTORY) = 0#32 ↔ ¬ Folder a := by
  unfold Folder
  constructor
  · intro h hb
    have : (a &&& DIRECTORY).getLsbD 4 = true := by rw [BitVec.getLsbD_and, hb]; rfl
    rw [h] at this
    exact absurd this (by decide)
  · intro h
    apply BitVec.eq_of_getLsbD_eq
    intro k hk
    rw [BitVec.getLsbD_and]
    by_cases h4 : k = 4
    · subst h4
      simp only [Bool.not_eq_true] at h
      rw [h]
      rfl
    · have : DIRECTORY.getLsbD k = false := by
        have hall : ∀ k : Fin 32, k.val ≠ 4 → DIRECTORY.getLsbD k.val = false := by decide
        exact hall ⟨k, hk⟩ h4
      rw [this, Bool.and_false]
      simp

theorem link_iff (a : DWord) : (a &&& REPARSE) = 0#32 ↔ ¬ Link a := by
  unfold Link
  constructor
  · intro h hb
    have : (a &&& REPARSE).getLsbD 10 = true := by rw [BitVec.getLsbD_and, hb]; rfl
    rw [h] at this
    exact absurd this (by decide)
  · intro h
    apply BitVec.eq_of_getLsbD_eq
    intro k hk
    rw [BitVec.getLsbD_and]
    by_cases h4 : k = 10
    · subst h4
      simp only [Bool.not_eq_true] at h
      rw [h]
      rfl
    · have : REPARSE.getLsbD k = false := by
        have hall : ∀ k : Fin 32, k.val ≠ 10 → REPARSE.getLsbD k.val = false := by decide
        exact hall ⟨k, hk⟩ h4
      rw [this, Bool.and_false]
      simp

/-! ## Logs -/

theorem Spec.Inside.more {X : List Nat} {L L' : List Ev} {es : List (List Nat)} (h : Inside X L es) : Inside X (L ++ L') es := by
  refine ⟨h.1, ?_, ?_⟩
  · intro hne
    obtain ⟨a, h1, h2⟩ := h.2.1 hne
    exact ⟨a, List.mem_append_left _ h1, h2⟩
  · intro pre e post heq
    obtain ⟨l, a, h1, h2⟩ := h.2.2 pre e post heq
    exact ⟨l, a, List.mem_append_left _ h1, h2⟩

theorem Spec.OnlyInside.snoc {X : List Nat} {L : List Ev} {ev : Ev} (h : OnlyInside X L)
    (hev : ∀ p, ev = .delete p ∨ ev = .rmdir p → ∃ es, p = X ++ path es ∧ Inside X L es) : OnlyInside X (L ++ [ev]) := by
  intro pre e post p heq hr
  rcases List.eq_nil_or_concat post with rfl | ⟨post', e', rfl⟩
  · obtain ⟨h1, h2⟩ := List.append_inj' heq rfl
    cases h2
    rw [← h1]
    exact hev p hr
  · rw [List.concat_eq_append, ← List.cons_append, ← List.append_assoc] at heq
    obtain ⟨h1, _⟩ := List.append_inj' heq rfl
    exact h pre e post' p h1 hr

/-- Listings contain names. -/
def ListsOk {σ : Type} (S : Sys σ) : Prop := ∀ s p es, (S.find s p).2 = some es → ∀ e ∈ es, EntryName e.1

/-- The directory reached so far. -/
def Reached (X : List Nat) (es : List (List Nat)) (L : List Ev) : Prop :=
  (∀ e ∈ es, EntryName e ∧ e ≠ dot ∧ e ≠ dotdot) ∧ (∃ a, Ev.attrs X (some a) ∈ L ∧ ¬ Link a) ∧
    ∀ pre e post, es = pre ++ e :: post → ∃ l a, Ev.find (X ++ path pre ++ star) (some l) ∈ L ∧ (e, a) ∈ l ∧ Folder a ∧ ¬ Link a

theorem Reached.more {X : List Nat} {es : List (List Nat)} {L L' : List Ev} (h : Reached X es L) : Reached X es (L ++ L') := by
  obtain ⟨h1, ⟨a, h2, h3⟩, h4⟩ := h
  refine ⟨h1, ⟨a, List.mem_append_left _ h2, h3⟩, fun pre e post heq => ?_⟩
  obtain ⟨l, a, k1, k2⟩ := h4 pre e post heq
  exact ⟨l, a, List.mem_append_left _ k1, k2⟩

theorem snoc_split {α : Type} {es pre post : List α} {x e : α} (h : es ++ [x] = pre ++ e :: post) :
    (post = [] ∧ es = pre ∧ x = e) ∨ ∃ post', post = post' ++ [x] ∧ es = pre ++ e :: post' := by
  rcases List.eq_nil_or_concat post with rfl | ⟨post', y, rfl⟩
  · obtain ⟨h1, h2⟩ := List.append_inj' h rfl
    cases h2
    exact .inl ⟨rfl, h1, rfl⟩
  · rw [List.concat_eq_append, ← List.cons_append, ← List.append_assoc] at h
    obtain ⟨h1, h2⟩ := List.append_inj' h rfl
    cases h2
    exact .inr ⟨post', by simp, h1⟩

theorem Reached.child {X e : List Nat} {a : DWord} {l : List (List Nat × DWord)} {es : List (List Nat)} {L : List Ev} (h : Reached X es L)
    (he : EntryName e ∧ e ≠ dot ∧ e ≠ dotdot) (hl : Ev.find (X ++ path es ++ star) (some l) ∈ L) (hea : (e, a) ∈ l) :
    Inside X L (es ++ [e]) := by
  refine ⟨?_, fun _ => h.2.1, ?_⟩
  · intro g hg
    rcases List.mem_append.1 hg with hg | hg
    · exact h.1 g hg
    · simp at hg; subst hg; exact he
  · intro pre x post heq
    rcases snoc_split heq with ⟨rfl, rfl, rfl⟩ | ⟨post', rfl, rfl⟩
    · exact ⟨l, a, hl, hea, fun h => absurd rfl h⟩
    · obtain ⟨l', a', k1, k2, k3⟩ := h.2.2 pre x post' rfl
      exact ⟨l', a', k1, k2, fun _ => k3⟩

theorem Reached.down {X e : List Nat} {a : DWord} {l : List (List Nat × DWord)} {es : List (List Nat)} {L : List Ev} (h : Reached X es L)
    (he : EntryName e ∧ e ≠ dot ∧ e ≠ dotdot) (hl : Ev.find (X ++ path es ++ star) (some l) ∈ L) (hea : (e, a) ∈ l)
    (hf : Folder a) (hk : ¬ Link a) : Reached X (es ++ [e]) L := by
  refine ⟨(h.child he hl hea).1, h.2.1, ?_⟩
  intro pre x post heq
  rcases snoc_split heq with ⟨rfl, rfl, rfl⟩ | ⟨post', rfl, rfl⟩
  · exact ⟨l, a, hl, hea, hf, hk⟩
  · exact h.2.2 pre x post' rfl

/-! ## The recursion -/

theorem read_ok (D e tl : List Nat) (hl : (D ++ 92 :: tl).length = 8192) (hfit : D.length + 1 + (e.length + 1) ≤ 8191) :
    ∃ tl', memcpyTo (D ++ 92 :: tl) (D.length + 1) (e ++ [0]) (e.length + 1) = .ok (D ++ 92 :: (e ++ 0 :: tl')) ∧
      (D ++ 92 :: (e ++ 0 :: tl')).length = 8192 := by
  have h := File.memcpyTo_ok (D ++ 92 :: tl) (e ++ [0]) (D.length + 1) (e.length + 1) (by simp) (by omega)
  refine ⟨(D ++ 92 :: tl).drop (D.length + 1 + (e.length + 1)), ?_, ?_⟩
  · rw [h, List.take_length_add_append, List.take_of_length_le (l := e ++ [0]) (by simp)]
    simp
  · simp at hl ⊢
    omega

theorem path_snoc (cs : List (List Nat)) (e : List Nat) : path (cs ++ [e]) = path cs ++ 92 :: e := by
  rw [path_append]; simp [path]

/-- What a recursive call does to the log. -/
def Safe {σ : Type} (X : List Nat) (rec : σ × List Ev → List Nat → Nat → CRes ((σ × List Ev) × List Nat)) (bound : Nat) : Prop :=
  ∀ s L es tl, 0 ∉ X ++ path es → (X ++ path es ++ 0 :: tl).length = 8192 → bound ≤ (X ++ path es).length →
    Reached X es L → OnlyInside X L →
    ∃ s' L' tl', rec (s, L) (X ++ path es ++ 0 :: tl) (X ++ path es).length = .ok ((s', L ++ L'), X ++ path es ++ 0 :: tl') ∧
      (X ++ path es ++ 0 :: tl').length = 8192 ∧ OnlyInside X (L ++ L')

theorem entries_safe {σ : Type} (S : Sys σ) (X : List Nat) (rec : σ × List Ev → List Nat → Nat → CRes ((σ × List Ev) × List Nat))
    (bound : Nat) (hrec : Safe X rec bound) (es : List (List Nat)) (hb : bound ≤ (X ++ path es).length + 1) (h0 : 0 ∉ X ++ path es)
    (l : List (List Nat × DWord)) (hnames : ∀ e ∈ l, EntryName e.1) :
    ∀ (ns : List (List Nat × DWord)) (s : σ) (L : List Ev) (tl : List Nat), (∀ e ∈ ns, e ∈ l) →
      (X ++ path es ++ 92 :: tl).length = 8192 → Reached X es L → Ev.find (X ++ path es ++ star) (some l) ∈ L → OnlyInside X L →
      ∃ s' L' tl', entries (logged S) rec (X ++ path es).length ns (s, L) (X ++ path es ++ 92 :: tl) =
        .ok ((s', L ++ L'), X ++ path es ++ 92 :: tl') ∧ (X ++ path es ++ 92 :: tl').length = 8192 ∧ OnlyInside X (L ++ L')
  | [], s, L, tl, _, hl, _, _, ho => ⟨s, [], tl, by rw [entries, List.append_nil], hl, by rw [List.append_nil]; exact ho⟩
  | (e, a) :: ns, s, L, tl, hn, hl, hr, hlist, ho => by
    have ih := entries_safe S X rec bound hrec es hb h0 l hnames ns
    have hns : ∀ e ∈ ns, e ∈ l := fun x hx => hn x (List.mem_cons_of_mem _ hx)
    have hea := hn (e, a) List.mem_cons_self
    have hen : EntryName e := hnames _ hea
    rw [entries]
    by_cases hdot : e = [46] ∨ e = [46, 46]
    · rw [if_pos hdot]
      exact ih s L tl hns hl hr hlist ho
    rw [if_neg hdot]
    by_cases hfit : (X ++ path es).length + 1 + (e.length + 1) ≤ 8191
    swap
    · rw [if_neg hfit]
      exact ih s L tl hns hl hr hlist ho
    rw [if_pos hfit]
    obtain ⟨tl1, h1, h1l⟩ := read_ok (X ++ path es) e tl hl hfit
    rw [h1, ok_bind]
    have hp : ∀ t, X ++ path es ++ 92 :: (e ++ 0 :: t) = X ++ path (es ++ [e]) ++ 0 :: t := by
      intro t
      rw [path_snoc]; simp
    have hp0 : 0 ∉ X ++ path (es ++ [e]) := by
      rw [path_snoc, ← List.append_assoc]
      intro hm
      rcases List.mem_append.1 hm with hm | hm
      · exact h0 hm
      · rcases List.mem_cons.1 hm with hm | hm
        · cases hm
        · exact hen.2.2 hm
    have hgood : EntryName e ∧ e ≠ dot ∧ e ≠ dotdot := ⟨hen, fun h => hdot (.inl h), fun h => hdot (.inr h)⟩
    have hlen2 : (X ++ path (es ++ [e])).length = (X ++ path es).length + (e.length + 1) := by
      rw [path_snoc]; simp; omega
    by_cases hf : (a &&& DIRECTORY) = 0#32
    · rw [if_pos hf, hp, Path.cstr_ok _ _ hp0, ok_bind, ← hp]
      obtain ⟨s', L', tl', g1, g2, g3⟩ := ih (S.delete s (X ++ path (es ++ [e]))).1 (L ++ [.delete (X ++ path (es ++ [e]))]) _ hns h1l
        hr.more (List.mem_append_left _ hlist) (by
          apply OnlyInside.snoc ho
          rintro p (h | h)
          · cases h
            exact ⟨_, rfl, hr.child hgood hlist hea⟩
          · cases h)
      exact ⟨s', [.delete (X ++ path (es ++ [e]))] ++ L', tl', by rw [← List.append_assoc]; exact g1, g2, by rw [← List.append_assoc]; exact g3⟩
    · rw [if_neg hf]
      have hfo : Folder a := by
        by_contra h
        exact hf ((folder_iff a).2 h)
      have hend : ∀ s2 L2 tl2, (X ++ path es ++ 92 :: (e ++ 0 :: tl2)).length = 8192 → OnlyInside X (L ++ L2) →
          ∃ s' L' tl', entries (logged S) rec (X ++ path es).length ns ((logged S).rmdir (s2, L ++ L2) (X ++ path (es ++ [e]))).1
            (X ++ path es ++ 92 :: (e ++ 0 :: tl2)) = .ok ((s', L ++ L'), X ++ path es ++ 92 :: tl') ∧
            (X ++ path es ++ 92 :: tl').length = 8192 ∧ OnlyInside X (L ++ L') := by
        intro s2 L2 tl2 k2 k3
        obtain ⟨s', L', tl', g1, g2, g3⟩ := ih (S.rmdir s2 (X ++ path (es ++ [e]))).1 (L ++ L2 ++ [.rmdir (X ++ path (es ++ [e]))]) _ hns k2
          (hr.more).more (List.mem_append_left _ (List.mem_append_left _ hlist)) (by
            apply OnlyInside.snoc k3
            rintro p (h | h)
            · cases h
            · cases h
              exact ⟨_, rfl, (hr.child hgood hlist hea).more⟩)
        refine ⟨s', L2 ++ [.rmdir (X ++ path (es ++ [e]))] ++ L', tl', ?_, g2, ?_⟩
        · rw [← List.append_assoc L, ← List.append_assoc L]; exact g1
        · rw [← List.append_assoc L, ← List.append_assoc L]; exact g3
      by_cases hk : (a &&& REPARSE) = 0#32
      · rw [if_pos hk, hp]
        obtain ⟨s2, L2, tl2, k1, k2, k3⟩ := hrec s L (es ++ [e]) tl1 hp0 (by rw [← hp]; exact h1l) (by omega)
          (hr.down hgood hlist hea hfo ((link_iff a).1 hk)) ho
        rw [← hlen2, k1, ok_bind]
        dsimp only
        rw [Path.cstr_ok _ _ hp0, ok_bind]
        rw [← hp] at k2 ⊢
        exact hend s2 L2 tl2 k2 k3
      · rw [if_neg hk, ok_bind]
        dsimp only
        rw [hp, Path.cstr_ok _ _ hp0, ok_bind, ← hp]
        have := hend s [] tl1 h1l (by rw [List.append_nil]; exact ho)
        rw [List.append_nil] at this
        exact this

/-- Three cells written after a string. -/
theorem star_ok (D tl : List Nat) (hl : (D ++ 0 :: tl).length = 8192) (hs : ¬ D.length ≥ 8190) :
    ∃ b2 b3 tl', wr (D ++ 0 :: tl) D.length 92 = .ok (D ++ 92 :: tl) ∧ wr (D ++ 92 :: tl) (D.length + 1) 42 = .ok b2 ∧
      wr b2 (D.length + 2) 0 = .ok b3 ∧ b3 = D ++ 92 :: (42 :: 0 :: tl') ∧ b3.length = 8192 := by
  match tl, hl with
  | [], hl => simp at hl; omega
  | [x], hl => simp at hl; omega
  | x :: y :: tl', hl =>
    refine ⟨(D ++ [92]) ++ 42 :: y :: tl', (D ++ [92, 42]) ++ 0 :: tl', tl', wr_append _ _ _ _, ?_, ?_, by simp, by simpa using hl⟩
    · have := wr_append (D ++ [92]) (y :: tl') x 42
      simpa using this
    · have := wr_append (D ++ [92, 42]) tl' y 0
      simpa using this

theorem rmRec_safe {σ : Type} (S : Sys σ) (hls : ListsOk S) (X : List Nat) : ∀ k, Safe X (rmRec (logged S) k) (8192 - k)
  | 0 => by
    intro s L es tl h0 hl hb
    simp at hl hb
    omega
  | k + 1 => by
    intro s L es tl h0 hl hb hr ho
    have ih := rmRec_safe S hls X k
    rw [rmRec]
    by_cases hbig : (X ++ path es).length ≥ 8190
    · rw [if_pos hbig]
      exact ⟨s, [], tl, by rw [List.append_nil], hl, by rw [List.append_nil]; exact ho⟩
    · obtain ⟨b2, b3, tl1, w1, w2, w3, e3, l3⟩ := star_ok (X ++ path es) tl hl hbig
      rw [if_neg hbig, w1, ok_bind, w2, ok_bind, w3, ok_bind, e3]
      have hp : X ++ path es ++ 92 :: (42 :: 0 :: tl1) = X ++ path es ++ star ++ 0 :: tl1 := by simp [star]
      have hp0 : 0 ∉ X ++ path es ++ star := by
        intro hm
        rcases List.mem_append.1 hm with hm | hm
        · exact h0 hm
        · exact absurd hm (by decide)
      rw [show cstr (X ++ path es ++ 92 :: (42 :: 0 :: tl1)) = .ok (X ++ path es ++ star) by rw [hp]; exact Path.cstr_ok _ _ hp0, ok_bind]
      have hfd : (logged S).find (s, L) (X ++ path es ++ star) = (((S.find s (X ++ path es ++ star)).1,
        L ++ [.find (X ++ path es ++ star) (S.find s (X ++ path es ++ star)).2]), (S.find s (X ++ path es ++ star)).2) := rfl
      rw [hfd]
      dsimp only
      have ho1 : ∀ r, OnlyInside X (L ++ [.find (X ++ path es ++ star) r]) := by
        intro r
        apply OnlyInside.snoc ho
        rintro p (h | h) <;> cases h
      rw [e3] at l3
      cases hes : (S.find s (X ++ path es ++ star)).2 with
      | none =>
        dsimp only
        rw [wr_append, ok_bind]
        exact ⟨_, _, _, rfl, by simpa using l3, ho1 none⟩
      | some l =>
        dsimp only
        obtain ⟨s', L', tl', k1, k2, k3⟩ := entries_safe S X (rmRec (logged S) k) (8192 - k) ih es (by omega) h0 l (hls _ _ _ hes) l
          (S.find s (X ++ path es ++ star)).1 (L ++ [.find (X ++ path es ++ star) (some l)]) _ (fun e he => he) l3 hr.more
          (List.mem_append_right _ List.mem_cons_self) (ho1 _)
        rw [k1, ok_bind]
        dsimp only
        rw [wr_append, ok_bind]
        exact ⟨s', [.find (X ++ path es ++ star) (some l)] ++ L', tl', by rw [← List.append_assoc], by simpa using k2,
          by rw [← List.append_assoc]; exact k3⟩

end Verif.WinDir
