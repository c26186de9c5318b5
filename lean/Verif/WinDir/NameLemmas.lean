import Verif.WinDir.Spec
import Verif.WinOps.NameLemmas
import Verif.Dir.Lemmas

/-!
# Absolute names in UTF-16
-/

namespace Verif.WinDir
open Spec
open Verif.Path (resolve_plain walk_plain_mem join join_nil join_cons join_append Clean full stack stack_mem stack_resolve join_last Plain cstr)
open Verif.Path.Spec (dot dotdot walk)
open Verif.WinPath (codeNormal CodeAccepts)
open Verif.WinPath.Spec (canon normal uni Holds)
open Verif.WinAbs
open Verif.WinAbs.Spec (volume comps resolve)
open Verif.Utf8.Spec (GoodText text enc enc8 Valid)
open Verif.WinOps (Txt text_append enc8_ascii enc8_big enc8_ne ascii_valid text2_len text2_zero good_zero)

/-! ## Pieces of UTF-8 text -/

theorem txt_nil : Txt [] := ⟨[], (fun c h => nomatch h), rfl⟩

theorem txt_split {c : Nat} (hc : c < 0x80) : ∀ (cps : List Nat), (∀ x ∈ cps, Valid x) → ∀ a b : List Nat, text 1 cps = a ++ c :: b → Txt a ∧ Txt b
  | [], _, a, b, h => by
    have := congrArg List.length h
    simp [text] at this
  | x :: xs, hv, a, b, h => by
    have hx := hv x List.mem_cons_self
    have hxs := fun y hy => hv y (List.mem_cons_of_mem x hy)
    rw [Utf8.text1_cons] at h
    rcases List.append_eq_append_iff.1 h with ⟨a', h1, h2⟩ | ⟨a', h1, h2⟩
    · obtain ⟨g1, g2⟩ := txt_split hc xs hxs a' b h2
      obtain ⟨cps, hc1, hc2⟩ := g1
      refine ⟨⟨x :: cps, ?_, by rw [h1, hc2, Utf8.text1_cons]⟩, g2⟩
      intro y hy
      rcases List.mem_cons.1 hy with rfl | hy
      · exact hx
      · exact hc1 y hy
    · cases a' with
      | nil =>
        rw [List.append_nil] at h1
        rw [List.nil_append] at h2
        obtain ⟨g1, g2⟩ := txt_split hc xs hxs [] b (by rw [← h2]; rfl)
        refine ⟨⟨[x], ?_, by rw [Utf8.text1_cons, ← h1]; simp [text]⟩, g2⟩
        intro y hy
        simp only [List.mem_cons, List.not_mem_nil, or_false] at hy
        subst hy
        exact hx
      | cons d a' =>
        obtain ⟨rfl, h3⟩ := List.cons.inj h2
        by_cases hxs' : x < 0x80
        · rw [enc8_ascii hxs'] at h1
          have ha : a = [] := by
            cases a with
            | nil => rfl
            | cons e a =>
              have := congrArg List.length h1
              simp at this
          subst ha
          have : a' = [] := by
            have := congrArg List.length h1
            simp at this
            exact this
          subst this
          exact ⟨txt_nil, ⟨xs, hxs, h3⟩⟩
        · have := enc8_big hxs' c (by rw [h1]; simp)
          omega

theorem txt_pieces : ∀ {gs : List (List Nat)}, Txt (join gs) → ∀ g ∈ gs, Txt g
  | [], _, g, hg => nomatch hg
  | a :: gs, h, g, hg => by
    have h : Txt (47 :: (a ++ join gs)) := by simpa using h
    obtain ⟨cps, hv, e⟩ := h
    have hx : Txt (a ++ join gs) := (txt_split (c := 47) (by decide) cps hv [] _ e.symm).2
    cases gs with
    | nil =>
      simp only [List.mem_cons, List.not_mem_nil, or_false] at hg
      subst hg
      simpa using hx
    | cons b gs =>
      have hx : Txt (a ++ 47 :: (b ++ join gs)) := by simpa using hx
      obtain ⟨cps, hv, e⟩ := hx
      obtain ⟨h1, h2⟩ := txt_split (c := 47) (by decide) cps hv a _ e.symm
      rcases List.mem_cons.1 hg with rfl | hg
      · exact h1
      · refine txt_pieces (gs := b :: gs) ?_ g hg
        have := h2.append (a := [47]) (by decide)
        simpa using this

theorem txt_sw {s : List Nat} (h : Txt s) : Txt (sw s) := by
  obtain ⟨cps, hv, rfl⟩ := h
  refine ⟨cps.map swp, ?_, ?_⟩
  · intro c hc
    obtain ⟨d, hd, rfl⟩ := List.mem_map.1 hc
    unfold swp
    split
    · exact ascii_valid (by decide)
    · split
      · exact ascii_valid (by decide)
      · exact hv d hd
  · clear hv
    induction cps with
    | nil => rfl
    | cons c cps ih =>
      rw [List.map_cons, Utf8.text1_cons, Utf8.text1_cons, sw_append, ih]
      congr 1
      by_cases hc : c < 0x80
      · rw [enc8_ascii hc]
        have : swp c < 0x80 := by unfold swp; split <;> [decide; split <;> [decide; exact hc]]
        rw [enc8_ascii this]
        rfl
      · have h := enc8_big hc
        have e : swp c = c := by unfold swp; rw [if_neg (by omega), if_neg (by omega)]
        rw [e]
        refine (List.map_congr_left (g := id) (fun d hd => ?_)).trans (List.map_id _)
        have := h d hd
        unfold swp
        rw [if_neg (by omega), if_neg (by omega)]
        rfl

/-! ## The result of `GetAbsoluteFilename` -/

/-- With the buffer of 8192 bytes nothing is cut off. -/
theorem done_8192 {us S : List (List Nat)} {ok : Bool} {r : List Nat} (hu : Rooted us) (hS : ∀ g ∈ S, g ≠ [] ∧ 47 ∉ g)
    (h : Done (join us) false 8192 S ok r) :
    (ok = true ↔ dot ∉ (us ++ S).dropLast ∧ dotdot ∉ (us ++ S).dropLast) ∧ (ok = true → Holds r (sw (join (us ++ S)))) := by
  obtain ⟨tr, h1, h2, hlen, h3⟩ := h
  have hcl := rooted_clean hu hS
  have hsane := Path.sane_join [] (.inl rfl) (us ++ S) hcl
  rw [if_pos rfl, List.append_nil] at hsane
  rw [← List.append_assoc, ← join_append] at h3 hlen
  unfold Path.Ends Path.fin at h3
  rw [List.take_of_length_le (by omega)] at h3
  simp only [Bool.false_eq_true, false_and, if_false, true_and] at h3
  have e : (if (join (us ++ S) ++ tr).getLast? = some 47 then (join (us ++ S) ++ tr).dropLast else join (us ++ S) ++ tr) = join (us ++ S) := by
    rcases h1 with rfl | rfl
    · rw [List.append_nil, if_neg (done_last (us := us) hS h2 rfl).1]
    · rw [if_pos (by simp), List.dropLast_concat]
  have hl : (join (us ++ S)).length ≤ (join (us ++ S) ++ tr).length := by simp
  rw [e, if_neg (by omega)] at h3
  simp only at h3
  rw [h3.1]
  exact ⟨hsane, fun _ => holds_sw h3.2⟩

theorem take_piece {x : List Nat} (hx : 47 ∉ x) (a : List (List Nat)) : (x ++ join a).takeWhile (fun c => c ≠ 47) = x := by
  have h : (join a).takeWhile (fun c => c ≠ 47) = [] := by
    cases a with
    | nil => rfl
    | cons b a => rw [join_cons]; rfl
  rw [List.takeWhile_append_of_pos (fun c hc => by have : c ≠ 47 := (fun e => hx (e ▸ hc)); simpa using this), h, List.append_nil]

theorem join_inj : ∀ {a b : List (List Nat)}, Clean a → Clean b → join a = join b → a = b
  | [], [], _, _, _ => rfl
  | [], y :: b, _, _, h => by simp at h
  | x :: a, [], _, _, h => by simp at h
  | x :: a, y :: b, ha, hb, h => by
    have h : x ++ join a = y ++ join b := by simpa using h
    have hxy : x = y := by
      have := congrArg (List.takeWhile (fun c => c ≠ 47)) h
      rwa [take_piece (ha x List.mem_cons_self), take_piece (hb y List.mem_cons_self)] at this
    subst hxy
    rw [join_inj (fun g hg => ha g (List.mem_cons_of_mem _ hg)) (fun g hg => hb g (List.mem_cons_of_mem _ hg)) (List.append_cancel_left h)]

theorem zero_pieces {gs : List (List Nat)} (h : 0 ∉ join gs) : ∀ g ∈ gs, 0 ∉ g :=
  fun g hg h0 => h (List.mem_flatMap.2 ⟨g, hg, List.mem_cons_of_mem _ h0⟩)

theorem undotP_mem : ∀ {gs : List (List Nat)} {g : List Nat}, g ∈ Path.undotP gs → g ∈ gs ∨ g = []
  | [], g, h => nomatch h
  | x :: gs, g, h => by
    rw [Path.undotP] at h
    split at h
    · split at h
      · simp only [List.mem_cons, List.not_mem_nil, or_false] at h
        exact .inr h
      · rcases undotP_mem h with h | h
        · exact .inl (List.mem_cons_of_mem _ h)
        · exact .inr h
    · rcases List.mem_cons.1 h with rfl | h
      · exact .inl List.mem_cons_self
      · rcases undotP_mem h with h | h
        · exact .inl (List.mem_cons_of_mem _ h)
        · exact .inr h

/-- The pieces of a name with its dots removed. -/
theorem own_sub {N : List Nat} {vs rs us qs : List (List Nat)} (h1 : Split N vs rs)
    (h2 : Split (sw (Path.fix (sw N))) us qs) : ∀ g ∈ us ++ qs, g ∈ vs ++ rs ∨ g = [] := by
  have hv : Clean (vs ++ rs) := clean_append h1.1.clean h1.2.1
  have hu : Clean (us ++ qs) := clean_append h2.1.clean h2.2.1
  have e1 := h1.2.2
  have e2 := h2.2.2
  rw [sw_sw, e1] at e2
  obtain ⟨e, he, f1, _⟩ := fix_join (vs ++ rs) hv
  rw [f1] at e2
  have hce : Clean (Path.undotP (vs ++ rs) ++ e) := by
    refine clean_append (Path.undotP_clean _ hv) ?_
    rcases he with rfl | rfl
    · intro g hg; cases hg
    · intro g hg; simp at hg; subst hg; simp
  have := join_inj hce hu e2
  intro g hg
  rw [← this] at hg
  rcases List.mem_append.1 hg with hg | hg
  · exact undotP_mem hg
  · rcases he with rfl | rfl
    · cases hg
    · simp at hg; exact .inr hg

/-- The pieces of a name with its dots removed are text. -/
theorem own_txt {N : List Nat} {vs rs us qs : List (List Nat)} (h : Txt N) (h0 : 0 ∉ N) (h1 : Split N vs rs)
    (h2 : Split (sw (Path.fix (sw N))) us qs) : ∀ g ∈ us ++ qs, Txt g ∧ 0 ∉ g := by
  have ht : Txt (join (vs ++ rs)) := h1.2.2 ▸ txt_sw h
  have hz : 0 ∉ join (vs ++ rs) := h1.2.2 ▸ sw_zero.2 h0
  intro g hg
  rcases own_sub h1 h2 g hg with hg | rfl
  · exact ⟨txt_pieces ht g hg, zero_pieces hz g hg⟩
  · exact ⟨txt_nil, by simp⟩

theorem stack_sub {bs nm g : List Nat} (h : g ∈ stack bs nm) : g ∈ Path.Spec.comps bs ∨ g ∈ Path.Spec.comps nm := by
  unfold stack at h
  split at h
  · rcases Path.walk_mem _ _ _ h with h | h
    · cases h
    · exact .inr h
  · rcases Path.walk_mem _ _ _ h with h | h
    · rcases List.mem_append.1 h with h | h
      · exact .inl h
      · exact .inr (List.mem_of_mem_take h)
    · exact .inr (List.mem_of_mem_drop h)

theorem txt_comps {s : List Nat} (h : Txt s) : ∀ g ∈ Path.Spec.comps s, Txt g := by
  intro g hg
  have hg : g ∈ Path.Spec.pieces s := (List.mem_filter.1 hg).1
  cases hp : Path.Spec.pieces s with
  | nil => exact absurd hp (Path.pieces_ne s)
  | cons a gs =>
    have e := Path.pieces_join s a gs hp
    have : Txt (join (a :: gs)) := by
      rw [join_cons]
      have := h.append (a := [47]) (by decide)
      rw [e] at this
      simpa using this
    rw [hp] at hg
    exact txt_pieces this g hg

theorem seen_txt {N M : List Nat} {vs ps : List (List Nat)} (h : Txt N) (h0 : 0 ∉ N) (hM : Txt M) (hM0 : 0 ∉ M) (h1 : Split N vs ps) :
    ∀ g ∈ vs ++ stack (join ps) (sw M), Txt g ∧ 0 ∉ g := by
  have ht : Txt (join (vs ++ ps)) := h1.2.2 ▸ txt_sw h
  have hz : 0 ∉ join (vs ++ ps) := h1.2.2 ▸ sw_zero.2 h0
  intro g hg
  rcases List.mem_append.1 hg with hg | hg
  · exact ⟨txt_pieces ht g (List.mem_append_left _ hg), zero_pieces hz g (List.mem_append_left _ hg)⟩
  · rcases stack_sub hg with hg | hg
    · have hp : Txt (join ps) := by
        cases ps with
        | nil => exact txt_nil
        | cons p ps =>
          rw [join_append, join_cons] at ht
          obtain ⟨cps, hv, e⟩ := ht
          have := (txt_split (c := 47) (by decide) cps hv (join vs) (p ++ join ps) (by rw [← e])).2.append (a := [47]) (by decide)
          simpa using this
      rw [join_append] at hz
      exact ⟨txt_comps hp g hg, Dir.comps_zero (fun hm => hz (List.mem_append_right _ hm)) g hg⟩
    · exact ⟨txt_comps (txt_sw hM) g hg, Dir.comps_zero (sw_zero.2 hM0) g hg⟩

theorem normal_txt {f : List Nat} (h : ∃ cps, GoodText cps ∧ f = text 1 cps) : Txt (codeNormal (canon f)) := by
  obtain ⟨cps, hg, e⟩ := WinOps.normal_good (WinOps.canon_good h)
  exact ⟨cps, hg.1, e⟩

theorem canon_txt {f : List Nat} (h : ∃ cps, GoodText cps ∧ f = text 1 cps) : Txt (canon f) := by
  obtain ⟨cps, hg, e⟩ := WinOps.canon_good h
  exact ⟨cps, hg.1, e⟩

theorem rooted_plain {us : List (List Nat)} (hus : Rooted us) (n1 : ¬ [92, 46] <:+ sw (join us)) (n2 : ¬ [92, 46, 46] <:+ sw (join us)) :
    ∀ g ∈ us, Plain g := by
  intro g hg
  cases hus with
  | drive c w _ =>
    simp only [List.mem_cons, List.not_mem_nil, or_false] at hg
    rcases hg with rfl | rfl | rfl
    · decide
    · decide
    · exact ⟨by simp [dot], by simp [dotdot]⟩
  | host u h hu _ _ =>
    simp only [List.mem_cons, List.not_mem_nil, or_false] at hg
    rcases hg with rfl | rfl | rfl | rfl
    · decide
    · decide
    · have := WinPath.same_len hu
      exact ⟨(fun e => by rw [e] at this; cases this), (fun e => by rw [e] at this; cases this)⟩
    · exact ⟨fun e => n1 (by subst e; exact last_dot (g := dot) rfl), fun e => n2 (by subst e; exact last_dot (g := dotdot) rfl)⟩

/-- The local buffers have their size, and the last byte of one of them is not a backslash (see `win_absolute_slack`). -/
structure Env.Good (E : Env) : Prop where
  l2 : E.junk2.length = 8192
  l3 : E.junk3.length = 8192
  l : E.junk.length = 8192
  lw : E.wjunk.length = 8192
  lc : E.cjunk.length = 8192
  cell : E.junk2[8191]? ≠ some 92

/-- What the absolute name consists of. -/
structure Parts (d : Option (List Nat)) (f V : List Nat) (cs us : List (List Nat)) : Prop where
  vol : V = sw (join us)
  rooted : Rooted us
  named : Named d f V cs
  text : Txt V ∧ ∀ g ∈ cs, Txt g
  zero : 0 ∉ V ∧ ∀ g ∈ cs, 0 ∉ g

theorem sw_path (S : List (List Nat)) : sw (join S) = path (S.map sw) := sw_join S

theorem txt_app {a b : List Nat} (ha : Txt a) (hb : Txt b) : Txt (a ++ b) := by
  obtain ⟨x, hx, rfl⟩ := ha
  obtain ⟨y, hy, rfl⟩ := hb
  refine ⟨x ++ y, ?_, (text_append 1 x y).symm⟩
  intro c hc
  rcases List.mem_append.1 hc with hc | hc
  · exact hx c hc
  · exact hy c hc

theorem txt_join : ∀ {gs : List (List Nat)}, (∀ g ∈ gs, Txt g) → Txt (join gs)
  | [], _ => txt_nil
  | g :: gs, h => by
    have h1 := txt_app ((h g List.mem_cons_self).append (a := [47]) (by decide)) (txt_join (fun x hx => h x (List.mem_cons_of_mem _ hx)))
    simpa using h1

/-- The backslash at the end, if it is wanted. -/
def tail (t : Bool) : List Nat := if t then [92] else []

theorem done_end (t : Bool) {us S : List (List Nat)} {ok : Bool} {r : List Nat} (hu : Rooted us) (hS : ∀ g ∈ S, g ≠ [] ∧ 47 ∉ g)
    (h : Done (join us) t 8192 S ok r) :
    (ok = true → Holds r (sw (join (us ++ S)) ++ tail t)) ∧
      ((∀ g ∈ us ++ S, Plain g) → (t = true → (sw (join us) ++ path (S.map sw)).length + 2 ≤ 8192) → ok = true) := by
  cases t with
  | false =>
    obtain ⟨h1, h2⟩ := done_8192 hu hS h
    refine ⟨fun e => by rw [show tail false = [] from rfl, List.append_nil]; exact h2 e, fun hp _ => h1.2 ⟨fun hm => (hp _ (List.dropLast_subset _ hm)).1 rfl,
        fun hm => (hp _ (List.dropLast_subset _ hm)).2 rfl⟩⟩
  | true =>
    obtain ⟨h1, h2⟩ := done_true hu hS h
    have e : WinAbs.Spec.absPath true (sw (join us), S.map sw) = sw (join (us ++ S)) ++ [92] := by rw [absPath_sw_true, sw_append]; rfl
    have e2 : sw (join (us ++ S)) = sw (join us) ++ path (S.map sw) := by rw [join_append, sw_append, sw_path S]
    rw [e] at h1 h2
    refine ⟨h2, fun hp hr => h1.2 ⟨?_, fun hm => (hp _ hm).1 rfl, fun hm => (hp _ hm).2 rfl⟩⟩
    have := hr rfl
    rw [← e2] at this
    rw [List.length_append, List.length_singleton]
    omega

/-- `GetAbsoluteFilename` with the current directory as the base. -/
theorem abs_tail (t : Bool) (E : Env) (hE : E.Good) (f rest cr : List Nat) (hf : Fit f) (d : Option (List Nat)) (hd : ∀ x, d = some x → Fit x) :
    ∃ ok r, absolute E.sgn E.reg E.junk2 E.junk3 E.junk 8192 none (d.map (· ++ 0 :: cr)) (f ++ 0 :: rest) t = .ok (ok, r) ∧
      r.length = 8192 ∧
      (ok = true → ∃ V cs us tl, r = V ++ path cs ++ tail t ++ 0 :: tl ∧ Parts d f V cs us) ∧
      (∀ x, d = some x → Accepted E.sgn f → Accepted E.sgn x → uni <+: normal (canon x) →
        (normal (canon x)).length + (normal (canon f)).length ≤ 8188 → Simple (normal (canon x)) (normal (canon f)) →
        (t = true → ((resolve (normal (canon x)) (normal (canon f))).1 ++ path (resolve (normal (canon x)) (normal (canon f))).2).length + 2 ≤ 8192) →
        ok = true) := by
  obtain ⟨ok, r, g1, g2, g3⟩ := absolute_does E.sgn E.reg E.junk2 E.junk3 E.junk f rest [] cr 8192 none d t hE.l2 hE.l3 hE.cell
    (by rw [hE.l]) hf.usable (fun x hx => (hd x hx).usable)
  refine ⟨ok, r, g1, by rw [g2, hE.l], ?_, ?_⟩
  · intro hok
    have shape : ∀ {us S : List (List Nat)}, Rooted us → (∀ g ∈ S, g ≠ [] ∧ 47 ∉ g) → Done (join us) t 8192 S ok r →
        ∃ tl, r = sw (join us) ++ path (S.map sw) ++ tail t ++ 0 :: tl := by
      intro us S hus hS hdn
      obtain ⟨tl, h⟩ := (done_end t hus hS hdn).1 hok
      exact ⟨tl, by rw [h, join_append, sw_append, sw_path S]⟩
    have clean : ∀ {S : List (List Nat)}, (∀ g ∈ S, g ≠ [] ∧ 47 ∉ g) → ∀ g ∈ S.map sw, g ≠ [] ∧ 92 ∉ g := by
      intro S hS g hg
      obtain ⟨x, hx, rfl⟩ := List.mem_map.1 hg
      exact ⟨fun e => (hS x hx).1 (by rw [← sw_sw x, e]; rfl), sw_noback (hS x hx).2⟩
    have uniV : ∀ {us : List (List Nat)}, Rooted us → uni <+: sw (join us) := fun {us} hus =>
      split_uni (s := sw (join us)) (vs := us) (rs := []) ⟨hus, (fun g hg => nomatch hg), by rw [sw_sw, List.append_nil]⟩
    have texts : ∀ {us S : List (List Nat)}, (∀ g ∈ us ++ S, Txt g ∧ 0 ∉ g) → (Txt (sw (join us)) ∧ ∀ g ∈ S.map sw, Txt g) ∧
        (0 ∉ sw (join us) ∧ ∀ g ∈ S.map sw, 0 ∉ g) := by
      intro us S h
      refine ⟨⟨?_, ?_⟩, ?_, ?_⟩
      · exact txt_sw (txt_join (fun g hg => (h g (List.mem_append_left _ hg)).1))
      · intro g hg
        obtain ⟨x, hx, rfl⟩ := List.mem_map.1 hg
        exact txt_sw (h x (List.mem_append_right _ hx)).1
      · exact sw_zero.2 (Dir.join_zero (fun g hg => (h g (List.mem_append_left _ hg)).2))
      · intro g hg
        obtain ⟨x, hx, rfl⟩ := List.mem_map.1 hg
        exact sw_zero.2 (h x (List.mem_append_right _ hx)).2
    rcases g3 with ⟨g3, _⟩ | ⟨hacc, ⟨vs, rs, us, qs, k1, k2, k4, k5⟩ | ⟨x, hx, k1, vs, ps, k2, k3, k4, k5⟩⟩
    · rw [g3] at hok; cases hok
    · obtain ⟨tl, hr⟩ := shape k2.1 (walk_nonempty k2.2.1) k5
      have hT := own_txt (normal_txt hacc.2.2.1) (normal_zero (canon_zero hf.1)) k1 k2
      have hT2 : ∀ g ∈ us ++ walk [] (full qs), Txt g ∧ 0 ∉ g := by
        intro g hg
        rcases List.mem_append.1 hg with hg | hg
        · exact hT g (List.mem_append_left _ hg)
        · rcases Path.walk_mem _ _ _ hg with hg | hg
          · cases hg
          · exact hT g (List.mem_append_right _ (List.mem_filter.1 hg).1)
      rw [hf.normal] at k1
      obtain ⟨v1, v2, v3⟩ := split_volume k1
      have hvne : volume (normal (canon f)) ≠ [] := by
        rw [v2]
        cases k1.1 <;> simp
      refine ⟨_, _, us, tl, hr, rfl, k2.1, ⟨uniV k2.1, clean (walk_nonempty k2.2.1), fun h => absurd h hvne, ?_⟩, (texts hT2).1, (texts hT2).2⟩
      intro x _ hu
      have hdot := hu.1 hvne
      rw [v2] at hdot
      obtain ⟨rfl, hw⟩ := k4 (fun e => hdot (last_dot e))
      rw [hw]
      exact (resolve_own k1).symm
    · have hT := seen_txt (normal_txt k1.2.2.1) (normal_zero (canon_zero (hd x hx).1)) (canon_txt hacc.2.2.1) (canon_zero hf.1) k2
      obtain ⟨tl, hr⟩ := shape k2.1 (fun g hg => stack_mem hg) k5
      rw [(hd x hx).normal] at k2
      rw [hf.normal] at k3
      obtain ⟨v1, v2, v3⟩ := split_volume k2
      have hnv : volume (normal (canon f)) = [] := by rw [k3]; exact (no_prefix k4).2
      refine ⟨_, _, vs, tl, hr, rfl, k2.1, ⟨uniV k2.1, clean (fun g hg => stack_mem hg), fun _ => ⟨x, hx⟩, ?_⟩, (texts hT).1, (texts hT).2⟩
      intro y hy hu
      rcases hy with hy | hy
      · rw [show (none : Option (List Nat)).or d = d from rfl] at hx
        rw [hx] at hy
        cases hy
        have hp := hu.2 hnv
        rw [k3] at hp ⊢
        rw [resolve_seen k4 k2, stack_resolve]
        · intro hh g hg
          have := (hp (fun e => hh ((head_sw _).1 e))).1 (sw g) (by
            rw [v3, comps_sw, sw_sw]
            exact List.mem_map_of_mem hg)
          exact sw_plain.1 this
        · intro hh g hg
          have := (hp (fun e => hh ((head_sw _).1 e))).2 (sw g) (by
            rw [comps_sw, List.head?_map, hg]
            rfl)
          exact sw_plain.1 this
      · exact absurd hnv hy
  · intro x hx ha hax hux hlen hs hroom
    obtain ⟨p1, p2, p3⟩ := hs
    rcases g3 with ⟨_, g3⟩ | ⟨hacc, ⟨vs, rs, us, qs, k1, k2, k4, k5⟩ | ⟨y, hy, k1, vs, ps, k2, k3, k4, k5⟩⟩
    · exfalso
      apply g3
      rw [hf.normal]
      refine ⟨ha, by omega, .inr ?_⟩
      rcases normal_forms (canon x) with ⟨vs, ps, hsp⟩ | ⟨hn, hu, _⟩
      · exact ⟨x, vs, ps, hx, hax, hsp, by rw [(hd x hx).normal]; exact hlen⟩
      · rw [(hd x hx).normal] at hn
        rw [hn] at hux
        exact absurd hux hu
    · rw [hf.normal] at k1
      have hr := resolve_own (bs := normal (canon x)) k1
      rw [hr] at p2 p3
      obtain ⟨rfl, hw⟩ := k4 (fun e => p2 (last_dot e))
      have hpl : ∀ g ∈ us ++ walk [] (full qs), Plain g := by
        intro g hg
        rcases List.mem_append.1 hg with hg | hg
        · exact rooted_plain k2.1 p2 p3 g hg
        · exact walk_plain_mem _ [] (fun g h => nomatch h) g hg
      refine (done_end t k2.1 (walk_nonempty k2.2.1) k5).2 hpl (fun e => ?_)
      have := hroom e
      rw [hr] at this
      rw [hw]
      exact this
    · rw [show (none : Option (List Nat)).or d = d from rfl, hx] at hy
      cases hy
      rw [(hd x hx).normal] at k2
      rw [hf.normal] at k3
      rw [k3] at p1 p2 p3
      have hr := resolve_seen k4 k2
      rw [hr] at p2 p3
      obtain ⟨v1, v2, v3⟩ := split_volume k2
      have hst : stack (join ps) (sw (canon f)) = Path.Spec.resolve (join ps) (sw (canon f)) := by
        apply stack_resolve
        · intro hh g hg
          have := (p1 (no_prefix k4).2 (fun e => hh ((head_sw _).1 e))).1 (sw g) (by
            rw [v3, comps_sw, sw_sw]
            exact List.mem_map_of_mem hg)
          exact sw_plain.1 this
        · intro hh g hg
          have := (p1 (no_prefix k4).2 (fun e => hh ((head_sw _).1 e))).2 (sw g) (by
            rw [comps_sw, List.head?_map, hg]
            rfl)
          exact sw_plain.1 this
      have hpl : ∀ g ∈ vs ++ stack (join ps) (sw (canon f)), Plain g := by
        intro g hg
        rcases List.mem_append.1 hg with hg | hg
        · exact rooted_plain k2.1 p2 p3 g hg
        · rw [hst] at hg
          exact resolve_plain _ _ g hg
      refine (done_end t k2.1 (fun g hg => stack_mem hg) k5).2 hpl (fun e => ?_)
      have := hroom e
      rw [k3, hr] at this
      rw [hst]
      exact this

/-- `GetAbsoluteFilename` as `Mkdir` and `Rmdir` call it. -/
theorem abs_ok (E : Env) (hE : E.Good) (f rest cr : List Nat) (hf : Fit f) (d : Option (List Nat)) (hd : ∀ x, d = some x → Fit x) :
    ∃ ok r, absolute E.sgn E.reg E.junk2 E.junk3 E.junk 8192 none (d.map (· ++ 0 :: cr)) (f ++ 0 :: rest) false = .ok (ok, r) ∧
      r.length = 8192 ∧
      (ok = true → ∃ V cs us tl, r = V ++ path cs ++ 0 :: tl ∧ Parts d f V cs us) ∧
      (∀ x, d = some x → Accepted E.sgn f → Accepted E.sgn x → uni <+: normal (canon x) →
        (normal (canon x)).length + (normal (canon f)).length ≤ 8188 → Simple (normal (canon x)) (normal (canon f)) → ok = true) := by
  obtain ⟨ok, r, h1, h2, h3, h4⟩ := abs_tail false E hE f rest cr hf d hd
  refine ⟨ok, r, h1, h2, fun h => ?_, fun x a b c e g i => h4 x a b c e g i (fun h => nomatch h)⟩
  obtain ⟨V, cs, us, tl, k1, k2⟩ := h3 h
  exact ⟨V, cs, us, tl, by rw [k1, show tail false = [] from rfl, List.append_nil], k2⟩

end Verif.WinDir
