import Verif.Dir.Spec
import Verif.Path.PropsAbs

/-!
# Resolving names, and what recursive removal touches
-/

namespace Verif.Dir
open Spec Verif.Path Verif.Path.Spec

/-- The local buffers have their size, and the last byte of one of them is not a slash (see
`Path.slack_overrun`). -/
structure Env.Good (E : Env) : Prop where
  l2 : E.junk2.length = 8192
  l3 : E.junk3.length = 8192
  l : E.junk.length = 8192
  cell : E.junk2[8191]? ≠ some 47

theorem path_eq (cs : List (List Nat)) : path cs = join cs := rfl

theorem comps_zero {s : List Nat} (h : 0 ∉ s) : ∀ g ∈ comps s, 0 ∉ g := by
  intro g hg h0
  cases hp : pieces s with
  | nil => exact pieces_ne s hp
  | cons a gs =>
    have hs := pieces_join s a gs hp
    have hm : g ∈ pieces s := (List.mem_filter.1 hg).1
    rw [hp] at hm
    apply h
    rw [hs]
    rcases List.mem_cons.1 hm with rfl | hm
    · exact List.mem_append_left _ h0
    · apply List.mem_append_right
      unfold join
      exact List.mem_flatMap.2 ⟨g, hm, List.mem_cons_of_mem _ h0⟩

theorem join_zero {cs : List (List Nat)} (h : ∀ g ∈ cs, 0 ∉ g) : 0 ∉ join cs := by
  intro h0
  obtain ⟨g, hg, h1⟩ := List.mem_flatMap.1 h0
  rcases List.mem_cons.1 h1 with h1 | h1
  · cases h1
  · exact h g hg h1

theorem stack_zero {bs nm : List Nat} (hb : 0 ∉ bs) (hn : 0 ∉ nm) : 0 ∉ join (stack bs nm) := by
  apply join_zero
  intro g hg
  have key : g ∈ comps bs ∨ g ∈ comps nm := by
    unfold stack at hg
    split at hg
    · rcases walk_mem _ _ _ hg with h | h
      · cases h
      · exact .inr h
    · rcases walk_mem _ _ _ hg with h | h
      · rcases List.mem_append.1 h with h | h
        · exact .inl h
        · exact .inr (List.mem_of_mem_take h)
      · exact .inr (List.mem_of_mem_drop h)
  rcases key with h | h
  · exact comps_zero hb g h
  · exact comps_zero hn g h

/-- With the buffer of 8192 bytes nothing is cut off. -/
theorem done_8192 {T : List (List Nat)} {ok : Bool} {r : List Nat} (hc : ∀ g ∈ T, g ≠ [] ∧ 47 ∉ g) (h : Done false 8192 T ok r) :
    (ok = true ↔ dot ∉ T.dropLast ∧ dotdot ∉ T.dropLast) ∧ (ok = true → Holds r (join T)) := by
  obtain ⟨tr, h1, h2, hlen, h3⟩ := h
  have hcl : Clean T := fun g hg => (hc g hg).2
  have hsane := sane_join [] (.inl rfl) T hcl
  rw [if_pos rfl, List.append_nil] at hsane
  unfold Ends fin at h3
  rw [List.take_of_length_le (by omega)] at h3
  simp only [Bool.false_eq_true, false_and, if_false, true_and] at h3
  have e : (if (join T ++ tr).getLast? = some 47 then (join T ++ tr).dropLast else join T ++ tr) = join T := by
    rcases h1 with rfl | rfl
    · have hT : T ≠ [] := fun e => by have := h2 e; cases this
      rw [List.append_nil, if_neg (join_last hT hc).1]
    · rw [if_pos (by simp), List.dropLast_concat]
  have hl : (join T).length ≤ (join T ++ tr).length := by simp
  rw [e, if_neg (by omega)] at h3
  simp only at h3
  rw [h3.1]
  exact ⟨hsane, fun _ => h3.2⟩

/-- The current directory is a string. -/
def CwdOk {σ : Type} (S : Sys σ) : Prop := ∀ s p, (S.cwd s).2 = some p → 0 ∉ p

/-- Resolving a name, for every system. -/
theorem resolvePath_ok {σ : Type} (S : Sys σ) (E : Env) (hE : E.Good) (hc : CwdOk S) (s : σ) (f rest : List Nat) (hf : 0 ∉ f) :
    ∃ ok b, resolvePath S E s (f ++ 0 :: rest) = .ok ((S.cwd s).1, ok, b) ∧ b.length = 8192 ∧
      (ok = true → ∃ bs tl, (S.cwd s).2 = some bs ∧ bs.head? = some 47 ∧ b = join (stack bs (slashed f)) ++ 0 :: tl ∧
        0 ∉ join (stack bs (slashed f))) ∧
      (∀ bs, (S.cwd s).2 = some bs → bs.head? = some 47 → Accepted E.sgn 8192 f → bs.length + f.length ≤ 8189 →
        dot ∉ (stack bs (slashed f)).dropLast → dotdot ∉ (stack bs (slashed f)).dropLast → ok = true) ∧
      (ok = true → Accepted E.sgn 8192 f) := by
  unfold resolvePath
  obtain ⟨ok, r, g1, g2, g3⟩ := absolute_does E.sgn E.junk2 E.junk3 E.junk f rest [] 8192 none (S.cwd s).2 false hE.l2 hE.l3 hE.cell
    (by rw [hE.l]) hf (fun d h => nomatch h) (fun p h => hc s p h)
  rw [Option.map_none] at g1
  dsimp only
  rw [g1, ok_bind]
  refine ⟨ok, r, rfl, by rw [g2, hE.l], ?_, ?_, ?_⟩
  · intro hok
    rcases g3 with ⟨g3, _⟩ | ⟨_, bs, g4, g5, g6⟩
    · rw [g3] at hok; cases hok
    · rcases g4 with ⟨d, e, _⟩ | ⟨_, e2, _⟩
      · cases e
      · obtain ⟨tl, htl⟩ := (done_8192 (fun g h => stack_mem h) g6).2 hok
        exact ⟨bs, tl, e2, g5, htl, stack_zero (hc s bs e2) (slashed_no_zero hf)⟩
  · intro bs h1 h2 h3 h4 h5 h6
    rcases g3 with ⟨_, g3⟩ | ⟨_, bs', g4, g5, g6⟩
    · exfalso
      exact g3 ⟨h3, bs, .inr ⟨rfl, h1, by omega⟩, h2, h4⟩
    · rcases g4 with ⟨d, e, _⟩ | ⟨_, e2, _⟩
      · cases e
      · rw [h1] at e2
        cases e2
        exact (done_8192 (fun g h => stack_mem h) g6).1.2 ⟨h5, h6⟩
  · intro hok
    rcases g3 with ⟨g3, _⟩ | ⟨h, _⟩
    · rw [g3] at hok; cases hok
    · exact h

/-! ## Logs -/

theorem OnlyInside.snoc {X : List Nat} {L : List Ev} {ev : Ev} (h : OnlyInside X L)
    (hev : ∀ p, ev = .unlink p ∨ ev = .rmdir p → Inside X L p) : OnlyInside X (L ++ [ev]) := by
  intro pre e post p heq hr
  rcases List.eq_nil_or_concat post with rfl | ⟨post', e', rfl⟩
  · obtain ⟨h1, h2⟩ := List.append_inj' heq rfl
    cases h2
    rw [← h1]
    exact hev p hr
  · rw [List.concat_eq_append, ← List.cons_append, ← List.append_assoc] at heq
    obtain ⟨h1, _⟩ := List.append_inj' heq rfl
    exact h pre e post' p h1 hr

/-- Directory listings contain names. -/
def ListsOk {σ : Type} (S : Sys σ) : Prop :=
  ∀ s p es, (S.opendir s p).2 = some es → ∀ e ∈ es, e ≠ [] ∧ 47 ∉ e ∧ 0 ∉ e

/-- The directory reached so far. -/
def Reached (X : List Nat) (es : List (List Nat)) (L : List Ev) : Prop :=
  (∀ e ∈ es, e ≠ [] ∧ 47 ∉ e ∧ e ≠ dot ∧ e ≠ dotdot) ∧
    ∀ n, n ≤ es.length → ∃ k, Ev.lstat (X ++ path (es.take n)) (some k) ∈ L ∧ k ≠ .link ∧ (0 < n → k = .dir)

theorem Reached.more {X : List Nat} {es : List (List Nat)} {L L' : List Ev} (h : Reached X es L) : Reached X es (L ++ L') := by
  refine ⟨h.1, fun n hn => ?_⟩
  obtain ⟨k, h1, h2⟩ := h.2 n hn
  exact ⟨k, List.mem_append_left _ h1, h2⟩

theorem Reached.inside {X : List Nat} {es : List (List Nat)} {L : List Ev} (h : Reached X es L) : Inside X L (X ++ join es) :=
  ⟨es, rfl, h.1, fun n hn => h.2 n (by omega)⟩

theorem Reached.child {X e : List Nat} {es : List (List Nat)} {L : List Ev} (h : Reached X es L)
    (he : e ≠ [] ∧ 47 ∉ e ∧ e ≠ dot ∧ e ≠ dotdot) : Inside X L (X ++ join (es ++ [e])) := by
  refine ⟨es ++ [e], rfl, ?_, ?_⟩
  · intro g hg
    rcases List.mem_append.1 hg with hg | hg
    · exact h.1 g hg
    · simp at hg; subst hg; exact he
  · intro n hn
    simp at hn
    rw [List.take_append_of_le_length (by omega)]
    exact h.2 n (by omega)

theorem Reached.down {X e : List Nat} {es : List (List Nat)} {L : List Ev} (h : Reached X es L)
    (he : e ≠ [] ∧ 47 ∉ e ∧ e ≠ dot ∧ e ≠ dotdot) :
    Reached X (es ++ [e]) (L ++ [.lstat (X ++ join (es ++ [e])) (some .dir)]) := by
  obtain ⟨es', h1, h2, h3⟩ := h.child he
  refine ⟨?_, ?_⟩
  · intro g hg
    rcases List.mem_append.1 hg with hg | hg
    · exact h.1 g hg
    · simp at hg; subst hg; exact he
  · intro n hn
    by_cases hle : n ≤ es.length
    · rw [List.take_append_of_le_length hle]
      obtain ⟨k, k1, k2⟩ := h.2 n hle
      exact ⟨k, List.mem_append_left _ k1, k2⟩
    · have : n = (es ++ [e]).length := by simp at hn ⊢; omega
      subst this
      rw [List.take_length]
      exact ⟨.dir, by simp [path_eq], by simp, fun _ => rfl⟩

/-! ## The recursion -/

theorem read_ok (D e tl : List Nat) (hl : (D ++ 47 :: tl).length = 8192) (hfit : ¬ e.length + 1 > 8192 - D.length - 1) :
    ∃ tl', memcpyTo (D ++ 47 :: tl) (D.length + 1) (e ++ [0]) (e.length + 1) = .ok (D ++ 47 :: (e ++ 0 :: tl')) ∧
      (D ++ 47 :: (e ++ 0 :: tl')).length = 8192 := by
  have h := File.memcpyTo_ok (D ++ 47 :: tl) (e ++ [0]) (D.length + 1) (e.length + 1) (by simp) (by omega)
  refine ⟨(D ++ 47 :: tl).drop (D.length + 1 + (e.length + 1)), ?_, ?_⟩
  · rw [h, List.take_length_add_append, List.take_of_length_le (l := e ++ [0]) (by simp)]
    simp
  · simp at hl ⊢
    omega

/-- What a recursive call does to the log. -/
def Safe {σ : Type} (X : List Nat) (rec : σ × List Ev → List Nat → Nat → CRes ((σ × List Ev) × List Nat)) (bound : Nat) : Prop :=
  ∀ s L es tl, 0 ∉ X ++ join es → (X ++ join es ++ 0 :: tl).length = 8192 → bound ≤ (X ++ join es).length →
    Reached X es L → OnlyInside X L →
    ∃ s' L' tl', rec (s, L) (X ++ join es ++ 0 :: tl) (X ++ join es).length = .ok ((s', L ++ L'), X ++ join es ++ 0 :: tl') ∧
      (X ++ join es ++ 0 :: tl').length = 8192 ∧ OnlyInside X (L ++ L')

theorem entries_safe {σ : Type} (S : Sys σ) (X : List Nat) (rec : σ × List Ev → List Nat → Nat → CRes ((σ × List Ev) × List Nat))
    (bound : Nat) (hrec : Safe X rec bound) (es : List (List Nat)) (hb : bound ≤ (X ++ join es).length + 1) (h0 : 0 ∉ X ++ join es) :
    ∀ (ns : List (List Nat)) (s : σ) (L : List Ev) (tl : List Nat), (∀ e ∈ ns, e ≠ [] ∧ 47 ∉ e ∧ 0 ∉ e) →
      (X ++ join es ++ 47 :: tl).length = 8192 → Reached X es L → OnlyInside X L →
      ∃ s' L' tl', entries (logged S) rec (X ++ join es).length ns (s, L) (X ++ join es ++ 47 :: tl) =
        .ok ((s', L ++ L'), X ++ join es ++ 47 :: tl') ∧ (X ++ join es ++ 47 :: tl').length = 8192 ∧ OnlyInside X (L ++ L')
  | [], s, L, tl, _, hl, _, ho => ⟨s, [], tl, by rw [entries, List.append_nil], hl, by rw [List.append_nil]; exact ho⟩
  | e :: ns, s, L, tl, hn, hl, hr, ho => by
    have ih := entries_safe S X rec bound hrec es hb h0 ns
    have hns : ∀ e ∈ ns, e ≠ [] ∧ 47 ∉ e ∧ 0 ∉ e := fun x hx => hn x (List.mem_cons_of_mem _ hx)
    obtain ⟨hene, he47, he0⟩ := hn e List.mem_cons_self
    rw [entries, readEntry]
    by_cases hfit : e.length + 1 > 8192 - (X ++ join es).length - 1
    · rw [if_pos hfit, ok_bind]
      exact ⟨s, [], tl, by rw [List.append_nil], hl, by rw [List.append_nil]; exact ho⟩
    · obtain ⟨tl1, h1, h1l⟩ := read_ok (X ++ join es) e tl hl hfit
      rw [if_neg hfit, h1, ok_bind, ok_bind]
      dsimp only
      have hd : (X ++ join es ++ 47 :: (e ++ 0 :: tl1)).drop ((X ++ join es).length + 1) = e ++ 0 :: tl1 := by
        rw [← List.drop_drop]; simp
      rw [hd, cstr_ok e tl1 he0, ok_bind]
      by_cases hdot : e = [46] ∨ e = [46, 46]
      · rw [if_pos hdot]
        exact ih s L _ hns h1l hr ho
      · rw [if_neg hdot]
        have hp : X ++ join es ++ 47 :: (e ++ 0 :: tl1) = X ++ join (es ++ [e]) ++ 0 :: tl1 := by
          rw [join_append]; simp
        have hp0 : 0 ∉ X ++ join (es ++ [e]) := by
          rw [join_append]
          simp only [join_cons, join_nil, List.append_nil, ← List.append_assoc]
          intro hm
          rcases List.mem_append.1 hm with hm | hm
          · exact h0 hm
          · rcases List.mem_cons.1 hm with hm | hm
            · cases hm
            · exact he0 hm
        have hgood : e ≠ [] ∧ 47 ∉ e ∧ e ≠ dot ∧ e ≠ dotdot := ⟨hene, he47, fun h => hdot (.inl h), fun h => hdot (.inr h)⟩
        have hcs : cstr (X ++ join es ++ 47 :: (e ++ 0 :: tl1)) = .ok (X ++ join (es ++ [e])) := by
          rw [hp]; exact cstr_ok _ _ hp0
        have hlen2 : (X ++ join (es ++ [e])).length = (X ++ join es).length + 1 + e.length := by
          rw [join_append]; simp; omega
        rw [hcs, ok_bind]
        -- the log after `lstat`
        have ho1 : ∀ k, OnlyInside X (L ++ [Ev.lstat (X ++ join (es ++ [e])) k]) := by
          intro k
          apply OnlyInside.snoc ho
          rintro p (h | h) <;> cases h
        have hr1 : ∀ k, Reached X es (L ++ [Ev.lstat (X ++ join (es ++ [e])) k]) := fun k => hr.more
        have hstat : (logged S).lstat (s, L) (X ++ join (es ++ [e])) =
            (((S.lstat s (X ++ join (es ++ [e]))).1, L ++ [Ev.lstat (X ++ join (es ++ [e])) (S.lstat s (X ++ join (es ++ [e]))).2]),
              (S.lstat s (X ++ join (es ++ [e]))).2) := rfl
        rw [hstat]
        dsimp only
        -- unlinking
        have hun : ∀ (k : Option Kind) (s1 : σ), ∃ s' L' tl', entries (logged S) rec (X ++ join es).length ns
            ((logged S).unlink (s1, L ++ [Ev.lstat (X ++ join (es ++ [e])) k]) (X ++ join (es ++ [e]))).1
            (X ++ join es ++ 47 :: (e ++ 0 :: tl1)) = .ok ((s', L ++ L'), X ++ join es ++ 47 :: tl') ∧
            (X ++ join es ++ 47 :: tl').length = 8192 ∧ OnlyInside X (L ++ L') := by
          intro k s1
          obtain ⟨s', L', tl', g1, g2, g3⟩ := ih (S.unlink s1 (X ++ join (es ++ [e]))).1
            (L ++ [Ev.lstat (X ++ join (es ++ [e])) k] ++ [Ev.unlink (X ++ join (es ++ [e]))]) _ hns h1l (hr1 k).more (by
              apply OnlyInside.snoc (ho1 k)
              rintro p (h | h)
              · cases h
                exact (hr1 k).child hgood
              · cases h)
          refine ⟨s', [Ev.lstat (X ++ join (es ++ [e])) k] ++ [Ev.unlink (X ++ join (es ++ [e]))] ++ L', tl', ?_, g2, ?_⟩
          · rw [← List.append_assoc L, ← List.append_assoc L]
            exact g1
          · rw [← List.append_assoc L, ← List.append_assoc L]
            exact g3
        cases hk : (S.lstat s (X ++ join (es ++ [e]))).2 with
        | none =>
          dsimp only
          obtain ⟨s', L', tl', g1, g2, g3⟩ := ih (S.lstat s (X ++ join (es ++ [e]))).1
            (L ++ [Ev.lstat (X ++ join (es ++ [e])) none]) _ hns h1l (hr1 _) (ho1 _)
          refine ⟨s', [Ev.lstat (X ++ join (es ++ [e])) none] ++ L', tl', ?_, g2, ?_⟩
          · rw [← List.append_assoc]; exact g1
          · rw [← List.append_assoc]; exact g3
        | some k =>
          cases k with
          | link => exact hun (some .link) _
          | other => exact hun (some .other) _
          | dir =>
            dsimp only
            rw [hp]
            obtain ⟨s2, L2, tl2, k1, k2, k3⟩ := hrec (S.lstat s (X ++ join (es ++ [e]))).1
              (L ++ [Ev.lstat (X ++ join (es ++ [e])) (some .dir)]) (es ++ [e]) tl1 hp0 (by rw [← hp]; exact h1l) (by omega)
              (hr.down hgood) (ho1 _)
            rw [k1, ok_bind]
            dsimp only
            rw [cstr_ok _ _ hp0, ok_bind]
            have hp2 : X ++ join (es ++ [e]) ++ 0 :: tl2 = X ++ join es ++ 47 :: (e ++ 0 :: tl2) := by
              rw [join_append]; simp
            rw [hp2] at k2 ⊢
            obtain ⟨s', L', tl', g1, g2, g3⟩ := ih (S.rmdir s2 (X ++ join (es ++ [e]))).1
              (L ++ [Ev.lstat (X ++ join (es ++ [e])) (some .dir)] ++ L2 ++ [Ev.rmdir (X ++ join (es ++ [e]))]) _ hns k2
              (((hr1 _).more).more) (by
                apply OnlyInside.snoc k3
                rintro p (h | h)
                · cases h
                · cases h
                  exact ((hr1 _).more).child hgood)
            refine ⟨s', [Ev.lstat (X ++ join (es ++ [e])) (some .dir)] ++ L2 ++ [Ev.rmdir (X ++ join (es ++ [e]))] ++ L', tl', ?_, g2, ?_⟩
            · rw [← List.append_assoc L, ← List.append_assoc L, ← List.append_assoc L]
              exact g1
            · rw [← List.append_assoc L, ← List.append_assoc L, ← List.append_assoc L]
              exact g3

theorem logged_cwd {σ : Type} {S : Sys σ} (h : CwdOk S) : CwdOk (logged S) := fun s p hp => h s.1 p hp

theorem rmRec_safe {σ : Type} (S : Sys σ) (E : Env) (hE : E.Good) (hc : CwdOk S) (hls : ListsOk S) (X : List Nat) :
    ∀ k, Safe X (rmRec (logged S) E k) (8192 - k)
  | 0 => by
    intro s L es tl h0 hl hb
    -- the string would fill the buffer
    simp at hl hb
    omega
  | k + 1 => by
    intro s L es tl h0 hl hb hr ho
    have ih := rmRec_safe S E hE hc hls X k
    rw [rmRec]
    by_cases hbig : (X ++ join es).length ≥ 8190
    · rw [if_pos hbig]
      exact ⟨s, [], tl, by rw [List.append_nil], hl, by rw [List.append_nil]; exact ho⟩
    · rw [if_neg hbig, openDir]
      obtain ⟨ok, b, g1, g2, g3, _⟩ := resolvePath_ok (logged S) E hE (logged_cwd hc) (s, L) (X ++ join es) tl h0
      rw [g1, ok_bind]
      dsimp only
      cases ok with
      | false =>
        exact ⟨(S.cwd s).1, [], tl, by rw [List.append_nil]; rfl, hl, by rw [List.append_nil]; exact ho⟩
      | true =>
        rw [if_neg (by simp)]
        obtain ⟨bs, tlb, _, _, g4, g5⟩ := g3 rfl
        rw [g4, cstr_ok _ _ g5, ok_bind, ok_bind]
        generalize hT : join (stack bs (slashed (X ++ join es))) = T
        have hop : (logged S).opendir ((logged S).cwd (s, L)).1 T = (((S.opendir (S.cwd s).1 T).1, L), (S.opendir (S.cwd s).1 T).2) := rfl
        rw [hop]
        dsimp only
        cases hes : (S.opendir (S.cwd s).1 T).2 with
        | none =>
          exact ⟨(S.opendir (S.cwd s).1 T).1, [], tl, by rw [List.append_nil], hl, by rw [List.append_nil]; exact ho⟩
        | some ns =>
          dsimp only
          rw [wr_append, ok_bind]
          have hl2 : (X ++ join es ++ 47 :: tl).length = 8192 := by simpa using hl
          obtain ⟨s', L', tl', k1, k2, k3⟩ := entries_safe S X (rmRec (logged S) E k) (8192 - k) ih es (by omega) h0 ns
            (S.opendir (S.cwd s).1 T).1 L tl (hls _ _ _ hes) hl2 hr ho
          rw [k1, ok_bind]
          dsimp only
          rw [wr_append, ok_bind]
          exact ⟨s', L', tl', rfl, by simpa using k2, k3⟩

end Verif.Dir
